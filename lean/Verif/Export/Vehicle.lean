import Verif.Spline.Scale
import Verif.Spline.Smooth

/-! # Sampling of the splines in the exported C++ vehicle

Mirrors `omgtools/export/vehicles/Vehicle.cpp`.  A vector that is read beyond its end gives an arbitrary
value; the model has a parameter `junk` for it and the theorems hold for every `junk`. -/

set_option linter.unusedSectionVars false

namespace Verif.Export

open Finset Verif.Spline

section Model
variable {K : Type*} [Field K] [LinearOrder K]

/-- The knots of the constructor, Vehicle.cpp:31-41: `degree` zeros, `j/knot_intervals` for
`0 ≤ j ≤ knot_intervals`, `degree` ones.  (The code fills a vector of that length by index.) -/
def cppKnots (degree ki : ℕ) : List K :=
  List.replicate degree 0 ++ (List.range (ki + 1)).map (fun j : ℕ => (j : K) / ki) ++ List.replicate degree 1

/-- `len_basis = knots.size() - degree - 1`, Vehicle.cpp:33. -/
def lenBasis (degree ki : ℕ) : ℕ := (cppKnots degree ki : List K).length - degree - 1

/-- The first row of the table of `evalSpline`, Vehicle.cpp:160-166. -/
def level0 (junk x : K) (knots : List K) (degree : ℕ) : List K :=
  (List.range (knots.length - 1)).map fun i : ℕ =>
    if i < degree + 1 ∧ knots.getD 0 junk = knots.getD i junk then
      (if knots.getD i junk ≤ x ∧ x ≤ knots.getD (i + 1) junk then 1 else 0)
    else (if knots.getD i junk < x ∧ x ≤ knots.getD (i + 1) junk then 1 else 0)

/-- Row `d` of the table from the row before, Vehicle.cpp:167-179. -/
def levelUp (junk x : K) (knots : List K) (d : ℕ) (prev : List K) : List K :=
  (List.range (knots.length - d - 1)).map fun i : ℕ =>
    let b := if knots.getD (i + d) junk - knots.getD i junk ≠ 0 then
        (x - knots.getD i junk) * prev.getD i junk / (knots.getD (i + d) junk - knots.getD i junk)
      else 0
    if knots.getD (i + d + 1) junk - knots.getD (i + 1) junk ≠ 0 then
      b + (knots.getD (i + d + 1) junk - x) * prev.getD (i + 1) junk /
        (knots.getD (i + d + 1) junk - knots.getD (i + 1) junk)
    else b

/-- The rows of the table, Vehicle.cpp:159-179. -/
def levels (junk x : K) (knots : List K) (degree : ℕ) : ℕ → List K
  | 0 => level0 junk x knots degree
  | d + 1 => levelUp junk x knots (d + 1) (levels junk x knots degree d)

/-- `evalSpline(x, knots, coeffs, degree)`, Vehicle.cpp:155-185. -/
def evalSpline (junk x : K) (knots coeffs : List K) (degree : ℕ) : K :=
  ((List.range (knots.length - degree - 1)).map fun l : ℕ =>
    coeffs.getD l junk * (levels junk x knots degree degree).getD l junk).sum

/-- `vector<double>(knots.begin()+i, knots.end()-i)`, Vehicle.cpp:104, 134. -/
def inner (knots : List K) (i : ℕ) : List K := (knots.drop i).take (knots.length - 2 * i)

/-- The matrix `T` of pass `i`, Vehicle.cpp:134-142: row `j` has `-1/delta` in column `j` and `1/delta` in
column `j+1`. -/
def diffT (junk : K) (knots : List K) (degree i j k : ℕ) : K :=
  let delta := (inner knots (i + 1)).getD (degree - i + j) junk - (inner knots (i + 1)).getD j junk
  if k = j then -1 / delta else if k = j + 1 then 1 / delta else 0

/-- `derivative_T[i]`, Vehicle.cpp:126-151: row `l`, column `m`. -/
def derivativeT (junk : K) (knots : List K) (degree len : ℕ) : ℕ → ℕ → ℕ → K
  | 0, l, m => if l = m then 1 else 0
  | i + 1, l, m =>
    ((List.range (len - i)).map fun k : ℕ =>
      ((degree - i : ℕ) : K) * diffT junk knots degree i l k * derivativeT junk knots degree len i k m).sum

/-- One entry of `sampleSplines(spline_coeffs, time, derivative, ...)`, Vehicle.cpp:103-116: the spline with
coefficients `c`, differentiated `o` times, at time `t`, for the horizon time `h`. -/
def sampleSpline (junk : K) (degree ki : ℕ) (h : K) (o : ℕ) (c : List K) (t : K) : K :=
  let knots := cppKnots degree ki
  let len := lenBasis (K := K) degree ki
  evalSpline junk (t / h) (inner knots o)
    ((List.range (len - o)).map fun l : ℕ => ((List.range len).map fun m : ℕ =>
      1 / h ^ o * derivativeT junk knots degree len o l m * c.getD m junk).sum)
    (degree - o)

end Model

section Refinement
variable {K : Type*} [Field K] [LinearOrder K] [IsStrictOrderedRing K]

theorem getD_map_range {α : Type*} (n i : ℕ) (f : ℕ → α) (d : α) (h : i < n) :
    ((List.range n).map f).getD i d = f i := by
  rw [List.getD_eq_getElem _ _ (by simpa using h)]; simp

theorem getD_k (junk : K) (knots : List K) (degree i : ℕ) (h : i < knots.length) :
    knots.getD i junk = (Basis.mk knots degree).k i := by
  unfold Basis.k
  rw [List.getD_eq_getElem _ _ h, List.getD_eq_getElem _ _ h]

theorem levels_eq (junk x : K) (knots : List K) (degree d i : ℕ) (hi : i + d + 1 < knots.length) :
    (levels junk x knots degree d).getD i junk = cox (Basis.mk knots degree).k degree x d i := by
  induction d generalizing i with
  | zero =>
    rw [levels, level0, getD_map_range _ _ _ _ (by omega)]
    unfold cox ind
    rw [getD_k junk knots degree 0 (by omega), getD_k junk knots degree i (by omega),
      getD_k junk knots degree (i + 1) (by omega)]
  | succ d ih =>
    rw [levels, levelUp, getD_map_range _ _ _ _ (by omega)]
    rw [getD_k junk knots degree i (by omega), getD_k junk knots degree (i + 1) (by omega),
      getD_k junk knots degree (i + (d + 1)) (by omega), getD_k junk knots degree (i + (d + 1) + 1) (by omega),
      ih i (by omega), ih (i + 1) (by omega)]
    rw [cox]
    dsimp only
    split_ifs <;> simp

theorem evalSpline_eq (junk x : K) (knots coeffs : List K) (degree : ℕ)
    (hc : coeffs.length = knots.length - degree - 1) :
    evalSpline junk x knots coeffs degree = (BSpline.mk ⟨knots, degree⟩ coeffs).eval x := by
  rw [BSpline.eval_eq (s := ⟨⟨knots, degree⟩, coeffs⟩) hc, evalSpline, sum_map_range]
  apply Finset.sum_congr rfl
  intro l hl
  rw [Finset.mem_range] at hl
  rw [levels_eq junk x knots degree degree l (by omega)]
  have : coeffs.getD l junk = coeffs.getD l 0 := by
    rw [List.getD_eq_getElem _ _ (by omega), List.getD_eq_getElem _ _ (by omega)]
  rw [this]
  rfl

/-- The coefficients of the derivative, as products with `derivative_T`. -/
def prod (junk : K) (knots : List K) (degree len : ℕ) (c : List K) (o l : ℕ) : K :=
  ∑ m ∈ range len, derivativeT junk knots degree len o l m * c.getD m junk

theorem prod_succ (junk : K) (knots : List K) (degree len : ℕ) (c : List K) (i l : ℕ) (hl : l + 1 < len - i) :
    prod junk knots degree len c (i + 1) l =
      ((degree - i : ℕ) : K) * (-1 / ((inner knots (i + 1)).getD (degree - i + l) junk - (inner knots (i + 1)).getD l junk)
          * prod junk knots degree len c i l
        + 1 / ((inner knots (i + 1)).getD (degree - i + l) junk - (inner knots (i + 1)).getD l junk)
          * prod junk knots degree len c i (l + 1)) := by
  unfold prod
  simp only [derivativeT, sum_map_range]
  simp only [Finset.sum_mul]
  rw [Finset.sum_comm]
  have : ∀ k ∈ range (len - i), (∑ m ∈ range len, ((degree - i : ℕ) : K) * diffT junk knots degree i l k *
      derivativeT junk knots degree len i k m * c.getD m junk) =
      ((degree - i : ℕ) : K) * diffT junk knots degree i l k *
        ∑ m ∈ range len, derivativeT junk knots degree len i k m * c.getD m junk := by
    intro k _
    rw [Finset.mul_sum]
    apply Finset.sum_congr rfl
    intro m _
    ring
  rw [Finset.sum_congr rfl this]
  have h1 : l ∈ range (len - i) := Finset.mem_range.2 (by omega)
  rw [← Finset.add_sum_erase _ _ h1]
  have h2 : l + 1 ∈ (range (len - i)).erase l := Finset.mem_erase.2 ⟨by omega, Finset.mem_range.2 hl⟩
  rw [← Finset.add_sum_erase _ _ h2]
  have hz : ∑ k ∈ ((range (len - i)).erase l).erase (l + 1), ((degree - i : ℕ) : K) * diffT junk knots degree i l k *
        ∑ m ∈ range len, derivativeT junk knots degree len i k m * c.getD m junk = 0 := by
    apply Finset.sum_eq_zero
    intro k hk
    have k1 : k ≠ l + 1 := (Finset.mem_erase.1 hk).1
    have k2 : k ≠ l := (Finset.mem_erase.1 (Finset.mem_erase.1 hk).2).1
    simp only [diffT, if_neg k1, if_neg k2]
    ring
  rw [hz]
  simp only [diffT, if_true, if_neg (show ¬ l + 1 = l by omega)]
  ring

theorem prod_zero (junk : K) (knots : List K) (degree len : ℕ) (c : List K) (l : ℕ) (hl : l < len) :
    prod junk knots degree len c 0 l = c.getD l junk := by
  unfold prod
  simp only [derivativeT]
  rw [Finset.sum_eq_single_of_mem l (Finset.mem_range.2 hl)]
  · simp
  · intro m _ hm
    rw [if_neg (Ne.symm hm), zero_mul]

theorem prod_eq (junk : K) (knots c : List K) (degree : ℕ) (hk : 2 * (degree + 1) ≤ knots.length)
    (hc : c.length = knots.length - degree - 1) (o : ℕ) (ho : o ≤ degree) :
    ((List.range o).foldl (derivStep degree) (knots, c)).2.length = c.length - o ∧
    ∀ l, l < c.length - o →
      prod junk knots degree c.length c o l = ((List.range o).foldl (derivStep degree) (knots, c)).2.getD l 0 := by
  induction o with
  | zero =>
    refine ⟨by simp, ?_⟩
    intro l hl
    rw [prod_zero _ _ _ _ _ _ (by omega)]
    simp only [List.range_zero, List.foldl_nil]
    rw [List.getD_eq_getElem _ _ (by omega), List.getD_eq_getElem _ _ (by omega)]
  | succ o ih =>
    obtain ⟨ih1, ih2⟩ := ih (by omega)
    rw [List.range_succ, List.foldl_append, List.foldl_cons, List.foldl_nil]
    have hf := fold_fst degree o knots c
    generalize hst : (List.range o).foldl (derivStep degree) (knots, c) = st at ih1 ih2 hf
    unfold derivStep
    constructor
    · simp [ih1]; omega
    · intro l hl
      rw [prod_succ _ _ _ _ _ _ _ (by omega), ih2 l (by omega), ih2 (l + 1) (by omega)]
      dsimp only
      rw [getD_map_range _ _ _ _ (by omega)]
      have hin : (st.1.drop 1).dropLast = inner knots (o + 1) := by
        rw [hf]
        unfold inner
        apply List.ext_getElem
        · simp; omega
        · intro i h1 h2
          simp
          congr 1; omega
      have hil : (inner knots (o + 1)).length = knots.length - 2 * (o + 1) := by
        unfold inner; simp; omega
      rw [hin]
      have e1 : ((inner knots (o + 1)).drop (degree - o)).getD l 0 = (inner knots (o + 1)).getD (degree - o + l) junk := by
        rw [List.getD_eq_getElem _ _ (by rw [List.length_drop]; omega), List.getElem_drop,
          List.getD_eq_getElem _ _ (by omega)]
      have e2 : (inner knots (o + 1)).getD l 0 = (inner knots (o + 1)).getD l junk := by
        rw [List.getD_eq_getElem _ _ (by omega), List.getD_eq_getElem _ _ (by omega)]
      rw [e1, e2]

/-- The C++ code computes the same coefficients as `BSpline.derivative`, divided by the power of the
horizon time. -/
theorem sample_coeffs (junk h : K) (knots c : List K) (degree : ℕ) (hk : 2 * (degree + 1) ≤ knots.length)
    (hc : c.length = knots.length - degree - 1) (o : ℕ) (ho : o ≤ degree) :
    ((List.range (c.length - o)).map fun l : ℕ => ((List.range c.length).map fun m : ℕ =>
      1 / h ^ o * derivativeT junk knots degree c.length o l m * c.getD m junk).sum)
    = ((BSpline.mk ⟨knots, degree⟩ c).derivative o).coeffs.map (· / h ^ o) := by
  have hco : ((BSpline.mk ⟨knots, degree⟩ c).derivative o).coeffs =
      ((List.range o).foldl (derivStep degree) (knots, c)).2 := by
    unfold BSpline.derivative
    split_ifs with e
    · subst e; simp
    · rfl
  obtain ⟨p1, p2⟩ := prod_eq junk knots c degree hk hc o ho
  rw [hco]
  apply List.ext_getElem
  · simp [p1]
  · intro l h1 h2
    have hl : l < c.length - o := by simpa using h1
    rw [List.getElem_map, List.getElem_map, List.getElem_range, sum_map_range]
    have := p2 l hl
    rw [List.getD_eq_getElem _ _ (by omega)] at this
    rw [← this, prod, Finset.sum_div]
    apply Finset.sum_congr rfl
    intro m _
    ring

theorem derivative_basis (s : BSpline K) (o : ℕ) :
    (s.derivative o).basis = ⟨inner s.basis.knots o, s.basis.degree - o⟩ := by
  unfold BSpline.derivative inner
  split_ifs with e
  · subst e; simp
  · rfl

theorem cppKnots_length (degree ki : ℕ) : (cppKnots degree ki : List K).length = ki + 1 + 2 * degree := by
  simp [cppKnots]; omega

theorem lenBasis_eq (degree ki : ℕ) : lenBasis (K := K) degree ki = ki + degree := by
  unfold lenBasis; rw [cppKnots_length]; omega

theorem cppKnots_k (degree ki : ℕ) (hki : 1 ≤ ki) (d i : ℕ) :
    (Basis.mk (cppKnots degree ki : List K) d).k i =
      if i < degree then 0 else if i < degree + ki + 1 then ((i - degree : ℕ) : K) / ki else 1 := by
  have hl := cppKnots_length (K := K) degree ki
  have key : ∀ j, j < ki + 1 + 2 * degree → (cppKnots degree ki : List K).getD j 0 =
      if j < degree then 0 else if j < degree + ki + 1 then ((j - degree : ℕ) : K) / ki else 1 := by
    intro j hj
    rw [List.getD_eq_getElem _ _ (by rw [hl]; exact hj)]
    unfold cppKnots
    split_ifs with h1 h2
    · rw [List.getElem_append_left (by simp; omega), List.getElem_append_left (by simpa using h1)]
      simp
    · rw [List.getElem_append_left (by simp; omega), List.getElem_append_right (by simp; omega)]
      simp
    · rw [List.getElem_append_right (by simp; omega)]
      simp
  have hk0 : (ki : K) ≠ 0 := Nat.cast_ne_zero.2 (by omega)
  unfold Basis.k
  dsimp only
  rcases Nat.lt_or_ge i (ki + 1 + 2 * degree) with hi | hi
  · rw [List.getD_eq_getElem _ _ (by rw [hl]; exact hi), ← key i hi, List.getD_eq_getElem _ _ (by rw [hl]; exact hi)]
  · rw [List.getD_eq_default _ _ (by rw [hl]; exact hi)]
    have hne : (cppKnots degree ki : List K) ≠ [] := by intro e; rw [e] at hl; simp at hl; omega
    rw [List.getLastD_eq_getLast?, List.getLast?_eq_some_getLast hne, Option.getD_some, List.getLast_eq_getElem]
    have := key (ki + 1 + 2 * degree - 1) (by omega)
    rw [List.getD_eq_getElem _ _ (by rw [hl]; omega)] at this
    simp only [hl]
    rw [this, if_neg (by omega), if_neg (show ¬ i < degree by omega)]
    by_cases e : degree = 0
    · subst e
      rw [if_pos (by omega), if_neg (by omega)]
      simp only [Nat.sub_zero, Nat.mul_zero, Nat.add_zero, Nat.add_sub_cancel]
      exact div_self hk0
    · rw [if_neg (by omega), if_neg (by omega)]

theorem cppKnots_clamped (degree ki : ℕ) (hki : 1 ≤ ki) : (Basis.mk (cppKnots degree ki : List K) degree).Clamped := by
  have hl := cppKnots_length (K := K) degree ki
  have hk0 : (0 : K) < ki := Nat.cast_pos.2 (by omega)
  have hk := cppKnots_k (K := K) degree ki hki degree
  have hlen : (Basis.mk (cppKnots degree ki : List K) degree).len = ki + degree := lenBasis_eq degree ki
  refine ⟨?_, ?_, ?_, ?_, ?_⟩
  · show (cppKnots degree ki : List K).Pairwise (· ≤ ·)
    rw [List.pairwise_iff_getElem]
    intro i j hi hj hij
    have e : ∀ (n : ℕ) (hn : n < (cppKnots degree ki : List K).length), (cppKnots degree ki : List K)[n] =
        (Basis.mk (cppKnots degree ki : List K) degree).k n := by
      intro n hn
      unfold Basis.k
      rw [List.getD_eq_getElem _ _ hn]
    rw [e, e, hk, hk]
    split_ifs with h1 h2 h3 h4 h5 h6 h7
    · exact le_rfl
    · exact div_nonneg (Nat.cast_nonneg _) hk0.le
    · exact zero_le_one
    · omega
    · exact div_le_div_of_nonneg_right (Nat.cast_le.2 (by omega)) hk0.le
    · rw [div_le_one hk0]; exact Nat.cast_le.2 (by omega)
    · omega
    · omega
    · exact le_rfl
  · show 2 * (degree + 1) ≤ (cppKnots degree ki : List K).length
    rw [hl]; omega
  · intro i hi
    have hi : i ≤ degree := hi
    rw [hk, hk]
    split_ifs with h1 h2 h3 h4 h5 h6 h7 <;> first | rfl | omega | skip
    · have : i - degree = 0 := by omega
      rw [this]; simp
    · have : i = 0 := by omega
      rw [this]
  · show (Basis.mk (cppKnots degree ki : List K) degree).k degree < (Basis.mk (cppKnots degree ki : List K) degree).k (degree + 1)
    rw [hk, hk, if_neg (by omega), if_pos (by omega), if_neg (by omega), if_pos (by omega)]
    apply div_lt_div_of_pos_right _ hk0
    exact Nat.cast_lt.2 (by omega)
  · intro i h1 _
    rw [hlen] at h1 ⊢
    have h2 : ((ki + degree - degree : ℕ) : K) / ki = 1 := by
      rw [Nat.add_sub_cancel]; exact div_self hk0.ne'
    rw [hk, hk, if_neg (by omega), if_neg (show ¬ ki + degree < degree by omega), if_pos (show ki + degree < degree + ki + 1 by omega), h2]
    split_ifs with h3
    · have : i = ki + degree := by omega
      rw [this]; exact h2
    · rfl

/-- The exported sample is the sample of the Python spline, in scaled time. -/
theorem sampleSpline_eq (junk : K) (degree ki : ℕ) (h : K) (o : ℕ) (ho : o ≤ degree) (hki : 1 ≤ ki) (c : List K)
    (hc : c.length = ki + degree) (t : K) :
    sampleSpline junk degree ki h o c t =
      ((BSpline.mk ⟨cppKnots degree ki, degree⟩ c).derivative o).eval (t / h) / h ^ o := by
  have hl := cppKnots_length (K := K) degree ki
  have hc' : c.length = (cppKnots degree ki : List K).length - degree - 1 := by omega
  have hsc := sample_coeffs junk h (cppKnots degree ki) c degree (by omega) hc' o ho
  unfold sampleSpline
  dsimp only
  rw [lenBasis_eq, ← hc, hsc]
  have hil : (inner (cppKnots degree ki : List K) o).length = ki + 1 + 2 * degree - 2 * o := by
    unfold inner; simp [hl]; omega
  have hdl : ((BSpline.mk ⟨cppKnots degree ki, degree⟩ c).derivative o).coeffs.length = c.length - o := by
    have := congrArg List.length hsc
    simpa using this.symm
  rw [evalSpline_eq _ _ _ _ _ (by rw [List.length_map, hdl, hil]; omega), ← eval_map_div]
  rw [derivative_basis]

end Refinement

/-! # C106 -/

section Properties

/-- C106, evaluation: for every knot vector, every list of coefficients of the right length and every point
the exported `evalSpline` computes what the spline of the Python toolbox evaluates to. -/
theorem C106_eval {K : Type*} [Field K] [LinearOrder K] [IsStrictOrderedRing K] (junk x : K)
    (knots coeffs : List K) (degree : ℕ) (hc : coeffs.length = knots.length - degree - 1) :
    evalSpline junk x knots coeffs degree = (BSpline.mk ⟨knots, degree⟩ coeffs).eval x :=
  evalSpline_eq junk x knots coeffs degree hc

example : evalSpline (-7) (1 / 4 : ℚ) [0, 0, 1 / 2, 1, 1] [3, 5, 9] 1 = 4 := by decide +kernel

/-- The trajectory that the coefficients `c` describe over a horizon of `h` seconds: the spline of the
Python vehicle (`define_knots`, vehicle.py:80-84) in the time `t/h`. -/
noncomputable def trajectory (degree ki : ℕ) (h : ℝ) (c : List ℝ) (t : ℝ) : ℝ :=
  (BSpline.mk ⟨cppKnots degree ki, degree⟩ c).eval (t / h)

/-- C106, states: the exported vehicle samples the trajectory. -/
theorem C106_state (junk : ℝ) (degree ki : ℕ) (hki : 1 ≤ ki) (h : ℝ) (c : List ℝ) (hc : c.length = ki + degree)
    (t : ℝ) : sampleSpline junk degree ki h 0 c t = trajectory degree ki h c t := by
  rw [sampleSpline_eq junk degree ki h 0 (by omega) hki c hc t, pow_zero, div_one]
  rfl

theorem cppKnots_count (degree ki : ℕ) (hki : 1 ≤ ki) (τ : ℝ) (h0 : 0 < τ) :
    (cppKnots degree ki : List ℝ).count τ ≤ 1 + if τ = 1 then degree else 0 := by
  have hk0 : (ki : ℝ) ≠ 0 := Nat.cast_ne_zero.2 (by omega)
  unfold cppKnots
  rw [List.count_append, List.count_append, List.count_replicate, List.count_replicate]
  have hnd : ((List.range (ki + 1)).map (fun j : ℕ => (j : ℝ) / ki)).Nodup := by
    refine List.Nodup.map ?_ List.nodup_range
    intro a b hab
    have : (a : ℝ) = b := by
      have := congrArg (· * (ki : ℝ)) hab
      simpa [div_mul_cancel₀, hk0] using this
    exact_mod_cast this
  have := List.nodup_iff_count_le_one.1 hnd τ
  have e1 : ((0 : ℝ) == τ) = false := by simp [h0.ne]
  rw [e1]
  by_cases e : τ = 1
  · subst e; simp; omega
  · have : ((1 : ℝ) == τ) = false := by simp [Ne.symm e]
    rw [this]; simp [e]; omega

/-- C106, derivatives: the exported vehicle samples, for every order up to the degree, the time derivative
of the trajectory at every time of the horizon that is not a knot. -/
theorem C106_derivative (junk : ℝ) (degree ki : ℕ) (hki : 1 ≤ ki) (h : ℝ) (hh : 0 < h) (c : List ℝ)
    (hc : c.length = ki + degree) (o : ℕ) (ho : o ≤ degree) (t : ℝ) (h0 : 0 < t) (h1 : t < h)
    (hk : ∀ j : ℕ, t ≠ j * (h / ki)) :
    sampleSpline junk degree ki h o c t = iteratedDeriv o (trajectory degree ki h c) t := by
  set s : BSpline ℝ := ⟨⟨cppKnots degree ki, degree⟩, c⟩ with hs
  have hb : s.basis.Clamped := cppKnots_clamped degree ki hki
  have hk0 : (0 : ℝ) < ki := Nat.cast_pos.2 (by omega)
  have hwf : s.WF := by
    show c.length = (Basis.mk (cppKnots degree ki : List ℝ) degree).len
    rw [hc]; exact (lenBasis_eq degree ki).symm
  have hb' := scale_clamped hb hh 0
  have hwf' : (s.scale h 0).WF := by
    unfold BSpline.WF BSpline.scale Basis.scale Basis.len
    simp only [List.length_map]; exact hwf
  have htr : trajectory degree ki h c = (s.scale h 0).eval := by
    funext x
    have := C07_scale s hb h 0 hh (x / h)
    rw [add_zero, div_mul_cancel₀ _ hh.ne'] at this
    exact this.symm
  have hkv := cppKnots_k (K := ℝ) degree ki hki degree
  have hhead : s.basis.knots.headD 0 = 0 := by
    rw [headD_eq_k hb]
    show (Basis.mk (cppKnots degree ki : List ℝ) degree).k 0 = 0
    rw [hkv]; split_ifs with a b
    · rfl
    · simp
    · omega
  have hlast : s.basis.knots.getLastD 0 = 1 := by
    rw [getLastD_eq_k hb]
    show (Basis.mk (cppKnots degree ki : List ℝ) degree).k (lenBasis (K := ℝ) degree ki) = 1
    rw [hkv, lenBasis_eq, if_neg (by omega), if_pos (by omega), Nat.add_sub_cancel]
    exact div_self hk0.ne'
  obtain ⟨d1, d2⟩ := C07_domain s hb h 0
  rw [hhead] at d1; rw [hlast] at d2
  have hmem : t ∉ (s.scale h 0).basis.knots := by
    intro hm
    change t ∈ (cppKnots degree ki).map _ at hm
    obtain ⟨y, hy, hyt⟩ := List.mem_map.1 hm
    unfold cppKnots at hy
    rw [List.mem_append, List.mem_append] at hy
    rcases hy with (hy | hy) | hy
    · rw [List.eq_of_mem_replicate hy] at hyt; exact hk 0 (by simpa using hyt.symm)
    · obtain ⟨j, _, rfl⟩ := List.mem_map.1 hy
      apply hk j
      rw [← hyt, add_zero]; ring
    · rw [List.eq_of_mem_replicate hy] at hyt
      apply hk ki
      rw [mul_div_cancel₀ _ hk0.ne']; simpa using hyt.symm
  -- `derivative(o)` of the scaled spline succeeds
  have hcount : ∀ τ, (s.scale h 0).basis.knots.count (τ * h + 0) = (cppKnots degree ki : List ℝ).count τ := by
    intro τ
    change ((cppKnots degree ki : List ℝ).map (fun y => y * h + 0)).count _ = _
    exact List.count_map_of_injective _ (fun y : ℝ => y * h + 0) (by
      intro a b hab
      simpa [hh.ne'] using hab) τ
  have hdef := C04_defined (s.scale h 0) hb' o ho (by
      intro τ t0 t1
      rw [d1] at t0; rw [d2] at t1
      have e : τ = τ / h * h + 0 := by rw [add_zero, div_mul_cancel₀ _ hh.ne']
      rw [e, hcount]
      have t0' : 0 < τ := by simpa using t0
      have hp : 0 < τ / h := div_pos t0' hh
      have hne : τ / h ≠ 1 := by
        intro e1
        rw [div_eq_one_iff_eq hh.ne'] at e1
        rw [e1] at t1; simp at t1
      refine (cppKnots_count degree ki hki _ hp).trans ?_
      rw [if_neg hne]
      show 1 ≤ degree + 1 - o
      omega) (by
      rw [d2, hcount]
      have := cppKnots_count degree ki hki 1 one_pos
      rw [if_pos rfl] at this
      show _ ≤ degree + 1
      omega)
  have hit := C04_iteratedDeriv (s.scale h 0) _ hb' hwf' o hdef t (by rw [d1]; simpa using h0)
    (by rw [d2]; simpa using h1) hmem
  rw [htr, ← hit, sampleSpline_eq junk degree ki h o ho hki c hc t]
  have := C07_derivative s hb hwf h 0 hh o ho (t / h)
  rw [add_zero, div_mul_cancel₀ _ hh.ne'] at this
  exact this.symm

example : ∃ (degree ki : ℕ) (c : List ℝ) (t : ℝ), 1 ≤ ki ∧ c.length = ki + degree ∧ 0 < t ∧ t < 10 ∧
    ∀ j : ℕ, t ≠ j * (10 / ki) := by
  refine ⟨3, 10, List.replicate 13 2, 1 / 2, by norm_num, by simp, by norm_num, by norm_num, ?_⟩
  intro j hj
  norm_num at hj
  have : (1 : ℝ) = ((2 * j : ℕ) : ℝ) := by push_cast; linarith
  have : 1 = 2 * j := by exact_mod_cast this
  omega

end Properties

end Verif.Export
