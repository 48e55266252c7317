import Verif.Spline.Curry

/-! # Spline arithmetic: model and helper lemmas

Mirrors `BSplineBasis.transform`, `pairs` and the operators of `BSpline` in
`omgtools/basics/spline.py`. -/

set_option linter.unusedSectionVars false

namespace Verif.Spline

open Finset

section Model
variable {K : Type*} [Field K] [LinearOrder K]

/-- `Basis._x`, spline.py:123: `np.linspace(knots[0], knots[-1], NO_POINTS)` with `NO_POINTS = 501`. -/
def Basis.grid (b : Basis K) : List K :=
  (List.range 501).map fun (j : ℕ) =>
    b.knots.headD 0 + (b.knots.getLastD 0 - b.knots.headD 0) * (j : K) / 500

/-- `np.argmax` over a list of points: the first point where `f` is largest. -/
def argmaxOn (f : K → K) : List K → K
  | [] => 0
  | x :: xs => xs.foldl (fun best y => if f best < f y then y else best) x

/-- `xmax` in `BSplineBasis.transform`, spline.py:292-295: for every basis function the grid point
where it is largest. -/
def Basis.xmax (b : Basis K) : List K := (List.range b.len).map fun i => argmaxOn (b.fn i) b.grid

/-- Contract of `T = la.solve(b[m,:], g(xmax))`, spline.py:299-304.  `scipy.linalg.solve` raises
`LinAlgError` for a singular matrix; otherwise it returns the matrix `T` (entry `T i j`, `j < nc`)
with `b(xmax).T = g(xmax)`.  Rounding is not modelled. -/
structure Solves (b : Basis K) (g : ℕ → K → K) (nc : ℕ) (T : ℕ → ℕ → K) : Prop where
  regular : ∀ c : ℕ → K, (∀ x ∈ b.xmax, ∑ i ∈ range b.len, c i * b.fn i x = 0) →
    ∀ i, i < b.len → c i = 0
  solves : ∀ x ∈ b.xmax, ∀ j, j < nc → ∑ i ∈ range b.len, b.fn i x * T i j = g j x

/-- `T[abs(T) < TOL] = 0.`, spline.py:305. -/
def thr (tol t : K) : K := if |t| < tol then 0 else t

/-- `T.dot(coeffs)` for the transformation of the basis with `n` rows. -/
def applyT (tol : K) (T : ℕ → ℕ → K) (n : ℕ) (c : List K) : List K :=
  (List.range n).map fun i => ∑ j ∈ range c.length, thr tol (T i j) * c.getD j 0

/-- `BSpline.__neg__`, spline.py:410-411. -/
def BSpline.neg (s : BSpline K) : BSpline K := ⟨s.basis, s.coeffs.map (- ·)⟩

/-- `BSpline.__add__` with a number, spline.py:400-403: added to every coefficient. -/
def BSpline.addNum (s : BSpline K) (a : K) : BSpline K := ⟨s.basis, s.coeffs.map (· + a)⟩

/-- `BSpline.__mul__` with a number, spline.py:437-441. -/
def BSpline.mulNum (s : BSpline K) (a : K) : BSpline K := ⟨s.basis, s.coeffs.map (a * ·)⟩

/-- `BSpline.__sub__` with a number, spline.py:413-414: `self + (-other)`. -/
def BSpline.subNum (s : BSpline K) (a : K) : BSpline K := s.addNum (-a)

/-- `BSpline.__rsub__` with a number, spline.py:416-417: `other + (-self)`. -/
def BSpline.rsubNum (s : BSpline K) (a : K) : BSpline K := s.neg.addNum a

/-- `BSpline.__add__` of two splines, spline.py:396-399, given the two matrices returned by
`basis.transform`. -/
def BSpline.addT (s t : BSpline K) (tol : K) (Ts Tt : ℕ → ℕ → K) : BSpline K :=
  let basis := s.basis.add t.basis
  ⟨basis, (applyT tol Ts basis.len s.coeffs).zipWith (· + ·) (applyT tol Tt basis.len t.coeffs)⟩

/-- `is_valid` in `pairs`, spline.py:271-273. -/
def overlaps (a b : K × K) : Bool := decide (max a.1 b.1 < min a.2 b.2)

/-- `BSplineBasis.pairs`, spline.py:269-281: index pairs (row-major, as `np.where` lists them) of
basis functions with overlapping supports. -/
def Basis.pairs (a b : Basis K) : List (ℕ × ℕ) :=
  (List.range a.len).flatMap fun i => ((List.range b.len).filter fun j =>
    overlaps (a.support.getD i (0, 0)) (b.support.getD j (0, 0))).map fun j => (i, j)

/-- The function in column `l` of `basis_product`, spline.py:422-424. -/
def pairFn (a b : Basis K) (l : ℕ) (x : K) : K :=
  let q := (a.pairs b).getD l (0, 0)
  a.fn q.1 x * b.fn q.2 x

/-- `BSpline.__mul__` of two splines, spline.py:419-436, given the matrix returned by
`basis.transform`. -/
def BSpline.mulT (s t : BSpline K) (tol : K) (T : ℕ → ℕ → K) : BSpline K :=
  let basis := s.basis.mul t.basis
  ⟨basis, applyT tol T basis.len
    ((s.basis.pairs t.basis).map fun q => s.coeffs.getD q.1 0 * t.coeffs.getD q.2 0)⟩

/-- `BSpline.__pow__`, spline.py:448-456: `a = self; for i in range(1, power): a *= self`; `T n` is
the matrix returned by `basis.transform` in the multiplication number `n`.  The loop does not run
for powers `0` and `1`. -/
def BSpline.powT (s : BSpline K) (tol : K) (T : ℕ → ℕ → ℕ → K) : ℕ → BSpline K
  | 0 => s
  | 1 => s
  | n + 2 => (s.powT tol T (n + 1)).mulT s tol (T n)

/-- `Basis.insert_knots`, spline.py:191-194: the new, distinct values are added and sorted. -/
def Basis.insertKnots (b : Basis K) (ts : List K) : Basis K :=
  ⟨(b.knots ++ (ts.filter (· ∉ b.knots)).dedup).mergeSort (· ≤ ·), b.degree⟩

/-- `BSpline.insert_knots`, spline.py:471-475, given the matrix returned by `basis.transform`. -/
def BSpline.insertKnotsT (s : BSpline K) (ts : List K) (tol : K) (T : ℕ → ℕ → K) : BSpline K :=
  let basis := s.basis.insertKnots ts
  ⟨basis, applyT tol T basis.len s.coeffs⟩

end Model

variable {K : Type*} [Field K] [LinearOrder K] [IsStrictOrderedRing K]

theorem argmaxOn_mem (f : K → K) (l : List K) (h : l ≠ []) : argmaxOn f l ∈ l := by
  cases l with
  | nil => exact absurd rfl h
  | cons x xs =>
    unfold argmaxOn
    have : ∀ (ys : List K) (z : K), ys.foldl (fun best y => if f best < f y then y else best) z ∈ z :: ys := by
      intro ys
      induction ys with
      | nil => simp
      | cons y ys ih =>
        intro z
        rw [List.foldl_cons]
        have := ih (if f z < f y then y else z)
        rw [List.mem_cons] at this
        rcases this with h | h
        · rw [h]; split_ifs <;> simp
        · exact List.mem_cons_of_mem _ (List.mem_cons_of_mem _ h)
    exact this xs x

theorem grid_mem {b : Basis K} (hb : b.Clamped) {x : K} (hx : x ∈ b.grid) :
    b.k 0 ≤ x ∧ x ≤ b.k b.len := by
  unfold Basis.grid at hx
  rw [headD_eq_k hb, getLastD_eq_k hb] at hx
  obtain ⟨j, hj, rfl⟩ := List.mem_map.1 hx
  have hj : j ≤ 500 := by have := List.mem_range.1 hj; omega
  have hd : 0 ≤ b.k b.len - b.k 0 := sub_nonneg.2 (hb.mono (Nat.zero_le _))
  have hj' : (j : K) ≤ 500 := by exact_mod_cast hj
  have h0 : (0 : K) ≤ (j : K) := Nat.cast_nonneg j
  constructor
  · have : 0 ≤ (b.k b.len - b.k 0) * (j : K) / 500 := by positivity
    linarith
  · have : (b.k b.len - b.k 0) * (j : K) / 500 ≤ b.k b.len - b.k 0 := by
      rw [div_le_iff₀ (by norm_num)]
      exact mul_le_mul_of_nonneg_left hj' hd
    linarith

theorem xmax_mem {b : Basis K} (hb : b.Clamped) {x : K} (hx : x ∈ b.xmax) :
    b.k 0 ≤ x ∧ x ≤ b.k b.len := by
  obtain ⟨i, -, rfl⟩ := List.mem_map.1 hx
  exact grid_mem hb (argmaxOn_mem _ _ (by intro h; simp [Basis.grid] at h))

/-- A transformation matrix is exact on the whole interval as soon as the functions lie in the
space spanned by the basis. -/
theorem transform_exact {b : Basis K} (hb : b.Clamped) {g : ℕ → K → K} {nc : ℕ} {T : ℕ → ℕ → K}
    (hT : Solves b g nc T)
    (hspan : ∀ j, j < nc → ∃ t : BSpline K, t.basis = b ∧ t.WF ∧
      ∀ x, b.k 0 ≤ x → x ≤ b.k b.len → t.eval x = g j x)
    {j : ℕ} (hj : j < nc) {x : K} (h0 : b.k 0 ≤ x) (h1 : x ≤ b.k b.len) :
    ∑ i ∈ range b.len, b.fn i x * T i j = g j x := by
  obtain ⟨t, ht, hwf, hev⟩ := hspan j hj
  have hc : ∀ i, i < b.len → T i j = t.coeffs.getD i 0 := by
    intro i hi
    have := hT.regular (fun i => T i j - t.coeffs.getD i 0) (by
      intro y hy
      obtain ⟨y0, y1⟩ := xmax_mem hb hy
      have e1 := hT.solves y hy j hj
      have e2 := hev y y0 y1
      rw [BSpline.eval_eq hwf, ht] at e2
      rw [← e1] at e2
      have : ∀ i, (T i j - t.coeffs.getD i 0) * b.fn i y
          = b.fn i y * T i j - t.coeffs.getD i 0 * b.fn i y := fun i => by ring
      rw [Finset.sum_congr rfl (fun i _ => this i), Finset.sum_sub_distrib, e2, sub_self]) i hi
    exact sub_eq_zero.1 this
  rw [← hev x h0 h1, BSpline.eval_eq hwf, ht]
  refine Finset.sum_congr rfl fun i hi => ?_
  rw [hc i (Finset.mem_range.1 hi), mul_comm]

/-- Evaluation after applying a thresholded matrix. -/
theorem applyT_eval {b : Basis K} (hb : b.Clamped) (tol : K) (htol : 0 ≤ tol) (T : ℕ → ℕ → K) (c : List K)
    {x : K} (h0 : b.k 0 ≤ x) (h1 : x ≤ b.k b.len) :
    |(BSpline.mk b (applyT tol T b.len c)).eval x
      - ∑ j ∈ range c.length, (∑ i ∈ range b.len, b.fn i x * T i j) * c.getD j 0|
      ≤ tol * ∑ j ∈ range c.length, |c.getD j 0| := by
  have hwf : (BSpline.mk b (applyT tol T b.len c)).WF := by simp [BSpline.WF, applyT]
  rw [BSpline.eval_eq hwf]
  show |(∑ i ∈ range b.len, (applyT tol T b.len c).getD i 0 * b.fn i x) - _| ≤ _
  have e1 : ∑ i ∈ range b.len, (applyT tol T b.len c).getD i 0 * b.fn i x
      = ∑ i ∈ range b.len, (∑ j ∈ range c.length, thr tol (T i j) * c.getD j 0) * b.fn i x := by
    refine Finset.sum_congr rfl fun i hi => ?_
    unfold applyT
    rw [List.getD_eq_getElem _ _ (by simpa using hi), List.getElem_map, List.getElem_range]
  have e2 : ∑ j ∈ range c.length, (∑ i ∈ range b.len, b.fn i x * T i j) * c.getD j 0
      = ∑ i ∈ range b.len, (∑ j ∈ range c.length, T i j * c.getD j 0) * b.fn i x := by
    simp only [Finset.sum_mul]
    rw [Finset.sum_comm]
    refine Finset.sum_congr rfl fun i _ => Finset.sum_congr rfl fun j _ => by ring
  rw [e1, e2, ← Finset.sum_sub_distrib]
  have e3 : ∀ i ∈ range b.len, |(∑ j ∈ range c.length, thr tol (T i j) * c.getD j 0) * b.fn i x
      - (∑ j ∈ range c.length, T i j * c.getD j 0) * b.fn i x|
      ≤ (tol * ∑ j ∈ range c.length, |c.getD j 0|) * b.fn i x := by
    intro i _
    have hn := Basis.fn_nonneg hb i x
    rw [← sub_mul, abs_mul, abs_of_nonneg hn]
    refine mul_le_mul_of_nonneg_right ?_ hn
    rw [← Finset.sum_sub_distrib, Finset.mul_sum]
    refine (Finset.abs_sum_le_sum_abs _ _).trans (Finset.sum_le_sum fun j _ => ?_)
    rw [← sub_mul, abs_mul]
    refine mul_le_mul_of_nonneg_right ?_ (abs_nonneg _)
    unfold thr
    split_ifs with h
    · rw [zero_sub, abs_neg]; exact h.le
    · rw [sub_self, abs_zero]; exact htol
  refine (Finset.abs_sum_le_sum_abs _ _).trans ((Finset.sum_le_sum e3).trans ?_)
  rw [← Finset.mul_sum, Basis.sum_fn hb h0 h1, mul_one]

/-- The unit spline: basis function `j` as a spline. -/
def unitSpline (b : Basis K) (j : ℕ) : BSpline K :=
  ⟨b, (List.range b.len).map fun i => if i = j then 1 else 0⟩

theorem unitSpline_wf (b : Basis K) (j : ℕ) : (unitSpline b j).WF := by simp [unitSpline, BSpline.WF]

theorem unitSpline_eval (b : Basis K) (j : ℕ) (hj : j < b.len) (x : K) :
    (unitSpline b j).eval x = b.fn j x := by
  rw [BSpline.eval_eq (unitSpline_wf b j)]
  show ∑ i ∈ range b.len, ((List.range b.len).map fun i => if i = j then (1 : K) else 0).getD i 0 * b.fn i x = _
  rw [Finset.sum_eq_single j]
  · rw [List.getD_eq_getElem _ _ (by simpa using hj)]; simp
  · intro i hi hij
    rw [List.getD_eq_getElem _ _ (by simpa using hi)]; simp [hij]
  · intro h; exact absurd (Finset.mem_range.2 hj) h

/-- Evaluation of the transformed coefficients of a spline. -/
theorem transform_eval {c : Basis K} (hc : c.Clamped) {s : BSpline K} (hb : s.basis.Clamped) (hs : s.WF)
    (hd : s.basis.degree ≤ c.degree) (e0 : c.k 0 = s.basis.k 0) (e1 : c.k c.len = s.basis.k s.basis.len)
    (hm : ∀ τ ∈ s.basis.knots, s.basis.k 0 < τ → τ < s.basis.k s.basis.len →
      s.basis.knots.count τ + (c.degree - s.basis.degree) ≤ c.knots.count τ)
    {tol : K} (htol : 0 ≤ tol) {T : ℕ → ℕ → K} (hT : Solves c s.basis.fn s.basis.len T)
    {x : K} (h0 : c.k 0 ≤ x) (h1 : x ≤ c.k c.len) :
    |(BSpline.mk c (applyT tol T c.len s.coeffs)).eval x - s.eval x|
      ≤ tol * ∑ j ∈ range s.basis.len, |s.coeffs.getD j 0| := by
  have hcl : s.coeffs.length = s.basis.len := hs
  have := applyT_eval hc tol htol T s.coeffs h0 h1
  rw [hcl] at this
  convert this using 3
  rw [BSpline.eval_eq hs]
  refine Finset.sum_congr rfl fun j hj => ?_
  have hj := Finset.mem_range.1 hj
  rw [transform_exact hc hT (fun j hj => ?_) hj h0 h1, mul_comm]
  obtain ⟨t, t1, t2, t3⟩ := spans_elevate hc (s := unitSpline s.basis j) hb (unitSpline_wf _ _) hd e0 e1 hm
  refine ⟨t, t1, t2, fun y y0 y1 => ?_⟩
  rw [t3 y (by rw [← show c.k 0 = (unitSpline s.basis j).basis.k 0 from e0]; exact y0)
    (by rw [← show c.k c.len = (unitSpline s.basis j).basis.k (unitSpline s.basis j).basis.len from e1]; exact y1),
    unitSpline_eval _ _ hj]

theorem eval_zipWith_add (b : Basis K) (c c' : List K) (h : c.length = c'.length) (x : K) :
    (BSpline.mk b (c.zipWith (· + ·) c')).eval x = (BSpline.mk b c).eval x + (BSpline.mk b c').eval x := by
  unfold BSpline.eval
  dsimp only
  generalize b.eval x = l
  induction l generalizing c c' with
  | nil => simp
  | cons a l ih =>
    cases c with
    | nil => cases c' with
      | nil => simp
      | cons => simp at h
    | cons u c => cases c' with
      | nil => simp at h
      | cons v c' =>
        simp only [List.zipWith_cons_cons, List.sum_cons]
        rw [ih c c' (by simpa using h)]
        ring

/-- Two basis functions whose supports do not overlap have product zero. -/
theorem fn_mul_zero {a b : Basis K} (ha : a.Clamped) (hb : b.Clamped) (e0 : a.k 0 = b.k 0) {i j : ℕ}
    (hi : i < a.len) (hj : j < b.len)
    (h : ¬ max (a.k i) (b.k j) < min (a.k (i + a.degree + 1)) (b.k (j + b.degree + 1))) {x : K}
    (h0 : a.k 0 ≤ x) : a.fn i x * b.fn j x = 0 := by
  push Not at h
  rcases h0.eq_or_lt with e | h0
  · -- at the first knot only the first functions live, and their supports overlap
    by_contra hne
    have hA : a.fn i x ≠ 0 := fun h => hne (by rw [h, zero_mul])
    have hB : b.fn j x ≠ 0 := fun h => hne (by rw [h, mul_zero])
    have key : ∀ (b : Basis K), b.Clamped → x = b.k 0 → ∀ j, b.fn j x ≠ 0 → j = 0 := by
      intro b hb hx j hB
      by_contra hj
      apply hB
      rw [Basis.fn, hx, cox_first hb.first hb.mono hb.start _ _ le_rfl, if_neg (by omega)]
    have i0 := key a ha e.symm i hA
    have j0 := key b hb (by rw [← e, e0]) j hB
    subst i0 j0
    have la : a.k 0 < a.k (0 + a.degree + 1) := by
      rw [Nat.zero_add]; exact ha.k_degree ▸ ha.start
    have lb : b.k 0 < b.k (0 + b.degree + 1) := by
      rw [Nat.zero_add]; exact hb.k_degree ▸ hb.start
    rw [e0] at h la
    rw [max_self] at h
    exact absurd (lt_min la lb) (not_lt.2 h)
  · have zA : x ≤ a.k i ∨ a.k (i + a.degree + 1) < x → a.fn i x = 0 := fun hh =>
      cox_eq_zero ha.mono h0 _ _ hh
    have zB : x ≤ b.k j ∨ b.k (j + b.degree + 1) < x → b.fn j x = 0 := fun hh =>
      cox_eq_zero hb.mono (e0 ▸ h0) _ _ hh
    by_contra hne
    have hA : ¬ (x ≤ a.k i ∨ a.k (i + a.degree + 1) < x) := fun h => hne (by rw [zA h, zero_mul])
    have hB : ¬ (x ≤ b.k j ∨ b.k (j + b.degree + 1) < x) := fun h => hne (by rw [zB h, mul_zero])
    push Not at hA hB
    exact absurd ((max_lt hA.1 hB.1).trans_le (le_min hA.2 hB.2)) (not_lt.2 h)

theorem support_getD {a : Basis K} (ha : a.Clamped) {i : ℕ} (hi : i < a.len) (d : K × K) :
    a.support.getD i d = (a.k i, a.k (i + a.degree + 1)) := by
  have hl := ha.length_eq
  unfold Basis.support
  rw [List.getD_eq_getElem _ _ (by simp; omega), List.getElem_zip, List.getElem_take, List.getElem_drop]
  unfold Basis.k
  rw [List.getD_eq_getElem _ _ (by omega), List.getD_eq_getElem _ _ (by omega)]
  congr 2; omega

theorem sum_pairs {a b : Basis K} (ha : a.Clamped) (hb : b.Clamped) (e0 : a.k 0 = b.k 0)
    (u v : ℕ → K) {x : K} (h0 : a.k 0 ≤ x) :
    ((a.pairs b).map fun q => (a.fn q.1 x * b.fn q.2 x) * (u q.1 * v q.2)).sum
      = (∑ i ∈ range a.len, u i * a.fn i x) * (∑ j ∈ range b.len, v j * b.fn j x) := by
  unfold Basis.pairs
  rw [List.map_flatMap, List.flatMap_def, List.sum_flatten, List.map_map, sum_map_range, Finset.sum_mul]
  refine Finset.sum_congr rfl fun i hi => ?_
  have hi := Finset.mem_range.1 hi
  simp only [Function.comp]
  rw [List.map_map, Finset.mul_sum, ← sum_map_range]
  have : ∀ l : List ℕ, (∀ j ∈ l, j < b.len) →
      ((l.filter fun j => overlaps (a.support.getD i (0, 0)) (b.support.getD j (0, 0))).map
        ((fun q : ℕ × ℕ => a.fn q.1 x * b.fn q.2 x * (u q.1 * v q.2)) ∘ fun j => (i, j))).sum
      = (l.map fun j => u i * a.fn i x * (v j * b.fn j x)).sum := by
    intro l
    induction l with
    | nil => simp
    | cons j l ih =>
      intro hl
      have hj := hl j List.mem_cons_self
      have ih := ih (fun m hm => hl m (List.mem_cons_of_mem _ hm))
      rw [List.filter_cons, List.map_cons, List.sum_cons, ← ih]
      split_ifs with h
      · rw [List.map_cons, List.sum_cons]
        simp only [Function.comp]
        ring
      · have hz : a.fn i x * b.fn j x = 0 := by
          refine fn_mul_zero ha hb e0 hi hj ?_ h0
          rw [support_getD ha hi, support_getD hb hj, overlaps] at h
          simpa using h
        have : u i * a.fn i x * (v j * b.fn j x) = 0 := by
          rw [show u i * a.fn i x * (v j * b.fn j x) = (a.fn i x * b.fn j x) * (u i * v j) by ring, hz, zero_mul]
        rw [this, zero_add]
  exact this _ (fun j hj => List.mem_range.1 hj)

theorem pairs_lt {a b : Basis K} {q : ℕ × ℕ} (h : q ∈ a.pairs b) : q.1 < a.len ∧ q.2 < b.len := by
  unfold Basis.pairs at h
  rw [List.mem_flatMap] at h
  obtain ⟨i, hi, hq⟩ := h
  rw [List.mem_map] at hq
  obtain ⟨j, hj, rfl⟩ := hq
  exact ⟨List.mem_range.1 hi, List.mem_range.1 (List.mem_of_mem_filter hj)⟩

end Verif.Spline
