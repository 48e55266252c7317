import Verif.Spline.Extrapolate
import Verif.Spline.Scale
import Mathlib.Algebra.Polynomial.FieldDivision

/-! # Concatenation of trajectories

`concat_splines`, spline_extra.py:308-404.  Property **C121**. -/

set_option linter.unusedSectionVars false

namespace Verif.Spline

open Finset Polynomial

variable {K : Type*} [Field K] [LinearOrder K] [IsStrictOrderedRing K]

section Model

/-- `knots[:len(knots)-(degree+1)+n_insert]`, spline_extra.py:355-357, 360-361. -/
def cutKnots (b : Basis K) (n : ℕ) : List K := b.knots.take (b.knots.length - (b.degree + 1) + n)

/-- `s.basis.knots[degree+1:]*segment_time + offset`, spline_extra.py:357, 362, 396. -/
def segKnots (b : Basis K) (d : ℕ) (T offset : K) : List K := (b.knots.drop (d + 1)).map fun k => k * T + offset

/-- The basis of the result, spline_extra.py:355-357, 396, 399: the offset is the last of all knots. -/
def totalBasis (p s : Basis K) (T : K) (n : ℕ) : Basis K :=
  ⟨cutKnots p n ++ segKnots s p.degree T (p.knots.getLastD 0), p.degree⟩

/-- The basis the coefficients are computed for, spline_extra.py:360-366: the offset is the last of
the knots that are kept. -/
def solveBasis (p s : Basis K) (T : K) (n : ℕ) : Basis K :=
  ⟨cutKnots p n ++ segKnots s p.degree T ((cutKnots p n).getLastD 0), p.degree⟩

/-- The evaluation points, spline_extra.py:367-371: Greville points, the first and then the last moved
inwards by a hundredth of the distance to the next one. -/
def shiftEnds (g : List K) : List K :=
  let g1 := g.set 0 (g.getD 0 0 + (g.getD 1 0 - g.getD 0 0) * (1 / 100))
  let n := g.length
  g1.set (n - 1) (g1.getD (n - 1) 0 - (g1.getD (n - 1) 0 - g1.getD (n - 2) 0) * (1 / 100))

/-- `basis_concat(grev_bc).toarray()`, spline_extra.py:373. -/
def concatA (b : Basis K) : Matrix (Fin b.len) (Fin b.len) K :=
  fun r q => b.fn q ((shiftEnds b.greville).getD r 0)

/-- `s_1 + s_2`, spline_extra.py:383-386: both trajectories are zero outside their domain. -/
def concatRhs (p s : BSpline K) (T t : K) (b : Basis K) : Fin b.len → K :=
  fun r => p.eval ((shiftEnds b.greville).getD r 0) + (s.scale T t).eval ((shiftEnds b.greville).getD r 0)

/-- `la.solve(A, v)`, spline_extra.py:389; `none` is the `LinAlgError` of a singular matrix.
Simplification: exact arithmetic. -/
noncomputable def npSolveV {n : ℕ} (A : Matrix (Fin n) (Fin n) K) (v : Fin n → K) : Option (Fin n → K) :=
  if A.det = 0 then none else some (A⁻¹.mulVec v)

/-- One component of the loop, spline_extra.py:349-397: the trajectory so far `p` (until time `t`) and
the next segment `s` with its duration `T`.  Degree zero has no Greville points (division by zero). -/
noncomputable def joinSeg (p s : BSpline K) (T t : K) (n : ℕ) : Option (BSpline K) :=
  if n = p.basis.degree + 1 then
    some ⟨⟨p.basis.knots ++ segKnots s.basis p.basis.degree T (p.basis.knots.getLastD 0), p.basis.degree⟩,
      p.coeffs ++ s.coeffs⟩
  else if p.basis.degree = 0 then none
  else (npSolveV (concatA (solveBasis p.basis s.basis T n)) (concatRhs p s T t (solveBasis p.basis s.basis T n))).map
    fun c => ⟨totalBasis p.basis s.basis T n, List.ofFn c⟩

/-- `abs(val1 - val2)*0.5/(val1 + val2) <= 1e-3`, spline_extra.py:341.  In numpy `0/0` is `nan` and
`x/0` is `inf`: the test fails. -/
def sameVal (v1 v2 : K) : Bool := decide (v1 + v2 ≠ 0 ∧ |v1 - v2| * (1 / 2) / (v1 + v2) ≤ 1 / 1000)

/-- The loop over the derivatives, spline_extra.py:328-346. -/
def nInsertGo (p s : BSpline K) (t : K) : List ℕ → ℕ → Option ℕ
  | [], n => some n
  | d :: ds, n =>
    match s.derivative? d, p.derivative? d with
    | some a, some b => if sameVal (a.eval t) (b.eval t) then nInsertGo p s t ds (n - 1) else some n
    | _, _ => none

/-- Number of knots to insert, spline_extra.py:328-346. -/
def nInsert (p s : BSpline K) (T t : K) : Option ℕ :=
  nInsertGo p (s.scale T t) t (List.range (p.basis.degree + 1)) (p.basis.degree + 1)

/-- `n_insert` as it is or computed from the first component it is missing for, spline_extra.py:326-346. -/
def getInsert (p s : BSpline K) (T t : K) : Option ℕ → Option ℕ
  | some n => some n
  | none => nInsert p s T t

/-- The components of one segment, spline_extra.py:319-397.  Both branches of the degree check end in an
exception.  `n_insert` is not reset: its value is kept for later components and segments. -/
noncomputable def joinAll (T t : K) : List (BSpline K) → List (BSpline K) → Option ℕ → Option (List (BSpline K) × Option ℕ)
  | ps, [], n => some (ps, n)
  | [], _ :: _, _ => none
  | p :: ps, s :: ss, n =>
    if s.basis.degree ≠ p.basis.degree then none else
    (getInsert p s T t n).bind fun n' =>
    (joinSeg p s T t n').bind fun q =>
    (joinAll T t ps ss (some n')).map fun r => (q :: r.1, r.2)

/-- The loop over the segments, spline_extra.py:318-401. -/
noncomputable def concatGo : List (BSpline K) → K → Option ℕ → List (List (BSpline K) × K) → Option (List (BSpline K))
  | ps, _, _, [] => some ps
  | ps, t, n, (ss, T) :: rest => (joinAll T t ps ss n).bind fun r => concatGo r.1 (t + T) r.2 rest

/-- `concat_splines(segments, segment_times, n_insert)`, spline_extra.py:308-404.  Simplification:
segments come in pairs with their times. -/
noncomputable def concatSplines (segs : List (List (BSpline K) × K)) (n : Option ℕ) : Option (List (BSpline K)) :=
  match segs with
  | [] => none
  | (s0, T0) :: rest => concatGo (s0.map fun s => s.scale T0 0) T0 n rest

end Model

/-! ## Specification -/

/-- The motion along trajectories over `[0, 1]`, each with its duration, one after the other; at a joint
the end of the earlier one. -/
def path : List (BSpline K × K) → K → K
  | [], _ => 0
  | (s, T) :: rest, x => if x ≤ T then s.eval (x / T) else path rest (x - T)

/-- A trajectory over `[0, 1]` of degree `d`, as the optimizer returns. -/
structure Segment (d : ℕ) (s : BSpline K) : Prop where
  clamped : s.basis.Clamped
  wf : s.WF
  degree : s.basis.degree = d
  first : s.basis.k 0 = 0
  last : s.basis.k s.basis.len = 1

/-! ## Two bases one after the other -/

/-- Knots of `p` with `n` copies of the joint, then the knots of `s` behind the joint. -/
def glue (p s : Basis K) (n : ℕ) : Basis K := ⟨p.knots.take (p.len + n) ++ s.knots.drop (p.degree + 1), p.degree⟩

theorem k_le_last {b : Basis K} (hb : b.Clamped) (j : ℕ) : b.k j ≤ b.k b.len := by
  rcases Nat.lt_or_ge j b.len with l | g
  · exact hb.mono l.le
  · exact (hb.last j g).le

theorem eval_below {s : BSpline K} (hb : s.basis.Clamped) (hs : s.WF) {x : K} (h : x < s.basis.k 0) :
    s.eval x = 0 := by
  rw [BSpline.eval_eq hs]
  exact Finset.sum_eq_zero fun i _ => by rw [Basis.fn_left hb.sorted i h, mul_zero]

theorem eval_above {s : BSpline K} (hb : s.basis.Clamped) (hs : s.WF) {x : K} (h : s.basis.k s.basis.len < x) :
    s.eval x = 0 := by
  rw [BSpline.eval_eq hs]
  exact Finset.sum_eq_zero fun i _ => by rw [Basis.fn_right hb i h, mul_zero]

section Glue
variable {p s : Basis K} (hp : p.Clamped) (hs : s.Clamped) (hd : s.degree = p.degree) {n : ℕ} (hn : n ≤ p.degree + 1)
include hp hs hd hn

theorem glue_length : (glue p s n).knots.length = p.len + n + s.len := by
  have h1 := hp.length_eq
  have h2 := hs.length_eq
  simp only [glue, List.length_append, List.length_take, List.length_drop]
  omega

theorem glue_len : (glue p s n).len = p.len + n + s.len - (p.degree + 1) := by
  unfold Basis.len
  rw [glue_length hp hs hd hn]
  change p.len + n + s.len - p.degree - 1 = _
  rfl

theorem glue_k (i : ℕ) : (glue p s n).k i = if i < p.len + n then p.k i else s.k (i - (p.len + n) + (p.degree + 1)) := by
  have h1 := hp.length_eq
  have h2 := hs.length_eq
  have h3 := hs.lt_len
  have hlast : (glue p s n).knots.getLastD 0 = s.knots.getLastD 0 := by
    unfold glue
    dsimp only
    have hne : s.knots.drop (p.degree + 1) ≠ [] := by
      rw [← List.length_pos_iff, List.length_drop]; omega
    rw [List.getLastD_eq_getLast?, List.getLast?_append_of_ne_nil _ hne, List.getLastD_eq_getLast?,
      List.getLast?_drop, if_neg (by omega)]
  have : (glue p s n).k i = (glue p s n).knots.getD i (s.knots.getLastD 0) := by
    change (glue p s n).knots.getD i ((glue p s n).knots.getLastD 0) = _
    rw [hlast]
  rw [this]
  unfold glue
  dsimp only
  by_cases c : i < p.len + n
  · rw [if_pos c, List.getD_append _ _ _ _ (by simp; omega), List.getD_eq_getElem _ _ (by simp; omega),
      List.getElem_take]
    unfold Basis.k
    rw [List.getD_eq_getElem _ _ (by omega)]
  · rw [if_neg c, List.getD_append_right _ _ _ _ (by simp; omega)]
    have e : (List.take (p.len + n) p.knots).length = p.len + n := by simp; omega
    rw [e]
    unfold Basis.k
    rw [List.getD_eq_getElem?_getD, List.getElem?_drop, List.getD_eq_getElem?_getD, Nat.add_comm]

variable (hj : s.k 0 = p.k p.len)
include hj

theorem glue_mono : Monotone (glue p s n).k := by
  refine monotone_nat_of_le_succ fun i => ?_
  rw [glue_k hp hs hd hn, glue_k hp hs hd hn]
  by_cases c : i + 1 < p.len + n
  · rw [if_pos c, if_pos (by omega)]; exact hp.mono (by omega)
  · rw [if_neg c]
    by_cases c2 : i < p.len + n
    · rw [if_pos c2]
      have h1 : p.k i ≤ p.k p.len := by
        rcases Nat.lt_or_ge i p.len with l | g
        · exact hp.mono l.le
        · exact (hp.last i g).le
      exact h1.trans (hj ▸ hs.mono (Nat.zero_le _))
    · rw [if_neg c2]; exact hs.mono (by omega)

theorem glue_clamped : (glue p s n).Clamped := by
  have h1 := hp.length_eq
  have h2 := hs.length_eq
  have h3 := hs.lt_len
  have h4 := hp.lt_len
  have hm := glue_mono hp hs hd hn hj
  have hdeg : (glue p s n).degree = p.degree := rfl
  refine ⟨?_, ?_, ?_, ?_, ?_⟩
  · rw [List.pairwise_iff_getElem]
    intro i j hi hj' hij
    have := hm hij.le
    unfold Basis.k at this
    rwa [List.getD_eq_getElem _ _ hi, List.getD_eq_getElem _ _ hj'] at this
  · rw [glue_length hp hs hd hn, hdeg]; omega
  · intro i hi
    rw [hdeg] at hi
    rw [glue_k hp hs hd hn, glue_k hp hs hd hn, if_pos (by omega), if_pos (by omega), hp.first i hi]
  · rw [hdeg, glue_k hp hs hd hn, glue_k hp hs hd hn, if_pos (by omega)]
    by_cases c : p.degree + 1 < p.len + n
    · rw [if_pos c]; exact hp.start
    · rw [if_neg c, show p.degree + 1 - (p.len + n) + (p.degree + 1) = s.degree + 1 by omega]
      have h5 := hs.start
      rw [hs.k_degree, hj] at h5
      exact (hp.mono (by omega)).trans_lt h5
  · intro i hi hi'
    rw [glue_len hp hs hd hn] at hi ⊢
    by_cases c : p.len + n + s.len - (p.degree + 1) < p.len + n
    · omega
    · rw [glue_k hp hs hd hn, glue_k hp hs hd hn, if_neg c, if_neg (by omega)]
      exact (hs.last _ (by omega)).trans (hs.last _ (by omega)).symm

theorem glue_zero : (glue p s n).k 0 = p.k 0 := by
  have h4 := hp.lt_len
  rw [glue_k hp hs hd hn, if_pos (by omega)]

theorem glue_end : (glue p s n).k (glue p s n).len = s.k s.len := by
  have h3 := hs.lt_len
  rw [glue_len hp hs hd hn, glue_k hp hs hd hn, if_neg (by omega)]
  exact hs.last _ (by omega)

theorem mem_of_glue {u : K} (h : u ∈ (glue p s n).knots) :
    (u ∈ p.knots ∧ u ≤ p.k p.len) ∨ (u ∈ s.knots ∧ p.k p.len < u) := by
  unfold glue at h
  rcases List.mem_append.1 h with h | h
  · have h := List.mem_of_mem_take h
    refine Or.inl ⟨h, ?_⟩
    obtain ⟨j, -, rfl⟩ := mem_k h
    exact k_le_last hp j
  · right
    refine ⟨List.mem_of_mem_drop h, ?_⟩
    obtain ⟨j, hj', e⟩ := List.getElem_of_mem h
    rw [List.getElem_drop] at e
    have : s.k (p.degree + 1 + j) = u := by
      unfold Basis.k; rw [List.getD_eq_getElem _ _ (by simp at hj'; omega)]; exact e
    have h5 := hs.start
    rw [hs.k_degree, hj] at h5
    rw [← this]
    exact h5.trans_le (hs.mono (by omega))

theorem glue_mem_right {u : K} (h : u ∈ s.knots) (hu : p.k p.len < u) : u ∈ (glue p s n).knots := by
  obtain ⟨j, hj', rfl⟩ := mem_k h
  have : p.degree + 1 ≤ j := by
    by_contra hc
    rw [hs.first j (by omega), hj] at hu
    exact lt_irrefl _ hu
  refine List.mem_append_right _ ?_
  rw [List.mem_iff_getElem]
  refine ⟨j - (p.degree + 1), by simp; omega, ?_⟩
  unfold Basis.k
  rw [List.getElem_drop, List.getD_eq_getElem _ _ hj']
  congr 1
  omega

theorem glue_mem_left {u : K} (h1n : 1 ≤ n) (h : u ∈ p.knots) : u ∈ (glue p s n).knots := by
  have h1 := hp.length_eq
  obtain ⟨j, hj', rfl⟩ := mem_k h
  refine List.mem_append_left _ ?_
  rw [List.mem_iff_getElem]
  rcases Nat.lt_or_ge j p.len with l | g
  · refine ⟨j, by simp; omega, ?_⟩
    unfold Basis.k
    rw [List.getElem_take, List.getD_eq_getElem _ _ hj']
  · refine ⟨p.len, by simp; omega, ?_⟩
    rw [hp.last j g]
    unfold Basis.k
    rw [List.getElem_take, List.getD_eq_getElem _ _ (by omega)]

theorem count_glue_left {u : K} (hu : u < p.k p.len) : p.knots.count u ≤ (glue p s n).knots.count u := by
  have h1 := hp.length_eq
  unfold glue
  dsimp only
  rw [List.count_append]
  refine le_trans ?_ (Nat.le_add_right _ _)
  have hsplit : p.knots.count u = (p.knots.take (p.len + n)).count u + (p.knots.drop (p.len + n)).count u := by
    rw [← List.count_append, List.take_append_drop]
  rw [hsplit]
  have : (p.knots.drop (p.len + n)).count u = 0 := by
    rw [List.count_eq_zero]
    intro h
    obtain ⟨j, hj', e⟩ := List.getElem_of_mem h
    rw [List.getElem_drop] at e
    have : p.k (p.len + n + j) = u := by
      unfold Basis.k; rw [List.getD_eq_getElem _ _ (by simp at hj'; omega)]; exact e
    rw [hp.last _ (by omega)] at this
    exact hu.ne' this
  omega

theorem count_glue_right {u : K} (hu : p.k p.len < u) : s.knots.count u ≤ (glue p s n).knots.count u := by
  have h1 := hs.length_eq
  unfold glue
  dsimp only
  rw [List.count_append]
  refine le_trans ?_ (Nat.le_add_left _ _)
  have hsplit : s.knots.count u = (s.knots.take (p.degree + 1)).count u + (s.knots.drop (p.degree + 1)).count u := by
    rw [← List.count_append, List.take_append_drop]
  rw [hsplit]
  have : (s.knots.take (p.degree + 1)).count u = 0 := by
    rw [List.count_eq_zero]
    intro h
    obtain ⟨j, hj', e⟩ := List.getElem_of_mem h
    rw [List.getElem_take] at e
    have : s.k j = u := by
      unfold Basis.k; rw [List.getD_eq_getElem _ _ (by simp at hj'; omega)]; exact e
    rw [hs.first _ (by simp at hj'; omega), hj] at this
    exact hu.ne this
  omega

theorem count_glue_joint : n ≤ (glue p s n).knots.count (p.k p.len) := by
  have h1 := hp.length_eq
  unfold glue
  dsimp only
  rw [List.count_append, List.take_add, List.count_append]
  have : ((p.knots.drop p.len).take n).count (p.k p.len) = n := by
    have hl : ((p.knots.drop p.len).take n).length = n := by simp; omega
    conv_rhs => rw [← hl]
    rw [List.count_eq_length]
    intro u h
    obtain ⟨j, hj', e⟩ := List.getElem_of_mem h
    rw [List.getElem_take, List.getElem_drop] at e
    rw [← e, ← hp.last (p.len + j) (by omega)]
    unfold Basis.k
    rw [List.getD_eq_getElem _ _ (by simp at hj'; omega)]
  omega

end Glue

/-- The motion along `p` and then along `s` is a spline on the common knots when the pieces at the joint
fit. -/
theorem exists_glue {p s : BSpline K} (hp : p.basis.Clamped) (hs : s.basis.Clamped)
    (hd : s.basis.degree = p.basis.degree) {n : ℕ} (hn : n ≤ p.basis.degree + 1) (h1n : 1 ≤ n)
    (hj : s.basis.k 0 = p.basis.k p.basis.len)
    (hfit : (X - C (p.basis.k p.basis.len)) ^ (p.basis.degree + 1 - n) ∣
      s.polyAt (s.basis.k (p.basis.degree + 1)) - p.polyAt (p.basis.k p.basis.len)) :
    ∃ t : BSpline K, t.basis = glue p.basis s.basis n ∧ t.WF ∧
      (∀ y ∈ p.basis.knots, p.basis.k 0 < y → t.polyAt y = p.polyAt y) ∧
      (∀ y ∈ s.basis.knots, s.basis.k 0 < y → t.polyAt y = s.polyAt y) := by
  classical
  have k0 := glue_zero hp hs hd hn hj
  have h5 := hs.start
  rw [hs.k_degree, hj, hd] at h5
  obtain ⟨t, ht, hw, hF⟩ := curry_schoenberg (glue_clamped hp hs hd hn hj)
    (fun y => if y ≤ p.basis.k p.basis.len then p.polyAt y else s.polyAt y)
    (by
      intro y
      change _ ≤ p.basis.degree
      split_ifs
      · exact polyAt_natDegree _ _
      · exact hd ▸ polyAt_natDegree _ _)
    (by
      intro τ y hτ hy h0 hτy hno
      rw [k0] at h0
      change (X - C τ) ^ (p.basis.degree + 1 - _) ∣ _
      by_cases hyl : y ≤ p.basis.k p.basis.len
      · have hτl := hτy.trans_le hyl
        rw [if_pos hyl, if_pos hτl.le]
        refine (pow_dvd_pow _ ?_).trans
          (polyAt_smooth hp h0 hτy hyl (fun u hu h => hno u (glue_mem_left hp hs hd hn hj h1n hu) h)).1
        have := count_glue_left hp hs hd hn hj hτl
        omega
      · have hlm := glue_mem_left hp hs hd hn hj h1n (k_mem hp p.basis.len)
        have h1 : p.basis.k p.basis.len ≤ τ := by
          by_contra hc
          exact hno _ hlm ⟨not_le.1 hc, not_le.1 hyl⟩
        have hy' : y ≤ s.basis.k s.basis.len := by
          rcases mem_of_glue hp hs hd hn hj hy with h | h
          · exact absurd h.2 hyl
          · obtain ⟨j, -, rfl⟩ := mem_k h.1
            exact k_le_last hs j
        rcases h1.eq_or_lt with e | h1
        · subst e
          rw [if_neg hyl, if_pos le_rfl]
          have : y = s.basis.k (p.basis.degree + 1) := by
            rcases mem_of_glue hp hs hd hn hj hy with h | h
            · exact absurd h.2 hyl
            · refine le_antisymm ?_ ?_
              · by_contra hc
                exact hno _ (glue_mem_right hp hs hd hn hj (k_mem hs _) h5) ⟨h5, not_le.1 hc⟩
              · obtain ⟨j, -, rfl⟩ := mem_k h.1
                refine hs.mono ?_
                by_contra hc
                rw [hs.first j (by omega), hj] at hτy
                exact lt_irrefl _ hτy
          rw [this]
          refine (pow_dvd_pow _ ?_).trans hfit
          have := count_glue_joint hp hs hd hn hj
          omega
        · rw [if_neg hyl, if_neg (not_le.2 h1)]
          refine (pow_dvd_pow _ ?_).trans
            (polyAt_smooth hs (hj ▸ h1) hτy hy' (fun u hu h =>
              hno u (glue_mem_right hp hs hd hn hj hu (h1.trans h.1)) h)).1
          have := count_glue_right hp hs hd hn hj h1
          omega)
  refine ⟨t, ht, hw, ?_, ?_⟩
  · intro y hy h0
    rw [hF y (glue_mem_left hp hs hd hn hj h1n hy) (by rw [k0]; exact h0), if_pos]
    obtain ⟨j, -, rfl⟩ := mem_k hy
    exact k_le_last hp j
  · intro y hy h0
    rw [hj] at h0
    rw [hF y (glue_mem_right hp hs hd hn hj hy h0) (by rw [k0]; exact hp.first_lt_last.trans h0), if_neg (not_le.2 h0)]

/-- Values of the spline on the common knots. -/
theorem glue_eval {p s t : BSpline K} (hp : p.basis.Clamped) (hs : s.basis.Clamped) (wp : p.WF) (ws : s.WF)
    (hd : s.basis.degree = p.basis.degree) {n : ℕ} (hn : n ≤ p.basis.degree + 1)
    (hj : s.basis.k 0 = p.basis.k p.basis.len) (ht : t.basis = glue p.basis s.basis n) (wt : t.WF)
    (hP : ∀ y ∈ p.basis.knots, p.basis.k 0 < y → t.polyAt y = p.polyAt y)
    (hS : ∀ y ∈ s.basis.knots, s.basis.k 0 < y → t.polyAt y = s.polyAt y) (x : K) :
    t.eval x = if x ≤ p.basis.k p.basis.len then p.eval x else s.eval x := by
  have cb : t.basis.Clamped := ht ▸ glue_clamped hp hs hd hn hj
  have k0 : t.basis.k 0 = p.basis.k 0 := ht ▸ glue_zero hp hs hd hn hj
  have kl : t.basis.k t.basis.len = s.basis.k s.basis.len := ht ▸ glue_end hp hs hd hn hj
  have hps : p.basis.k p.basis.len < s.basis.k s.basis.len := hj ▸ hs.first_lt_last
  by_cases hx : x ≤ p.basis.k p.basis.len
  · rw [if_pos hx]
    rcases lt_or_ge x (p.basis.k 0) with h0 | h0
    · rw [eval_below cb wt (k0 ▸ h0), eval_below hp wp h0]
    obtain ⟨y, hy, hy0, hxy, hc, hno⟩ := next_knot hp h0 hx
    have hyl : y ≤ p.basis.k p.basis.len := by
      obtain ⟨j, -, rfl⟩ := mem_k hy
      exact k_le_last hp j
    have hsub : ∀ u ∈ t.basis.knots, u < y → u ∈ p.basis.knots := by
      intro u hu hc
      rw [ht] at hu
      rcases mem_of_glue hp hs hd hn hj hu with h | h
      · exact h.1
      · exact absurd (h.2.trans (hc.trans_le hyl)) (lt_irrefl _)
    rcases h0.eq_or_lt with e | h0
    · subst e
      rw [eval_polyAt_first hp wp hy0 hno hyl, ← hP y hy hy0]
      have := eval_polyAt_first cb wt (y := y) (by rw [k0]; exact hy0)
        (fun u hu hc => hno u (hsub u hu hc.2) (k0 ▸ hc)) (by rw [kl]; exact hyl.trans hps.le)
      rw [k0] at this
      exact this
    · have hno2 : ∀ u ∈ p.basis.knots, ¬ (x ≤ u ∧ u < y) := by
        rcases hc with h | h
        · exact absurd h h0.ne'
        · exact h
      rw [eval_polyAt hp wp h0 hxy hyl hno2, ← hP y hy hy0]
      exact eval_polyAt cb wt (by rw [k0]; exact h0) hxy (by rw [kl]; exact hyl.trans hps.le)
        (fun u hu hc => hno2 u (hsub u hu hc.2) hc)
  · rw [if_neg hx]
    rw [not_le] at hx
    rcases lt_or_ge (s.basis.k s.basis.len) x with h1 | h1
    · rw [eval_above cb wt (kl ▸ h1), eval_above hs ws h1]
    have h0 : s.basis.k 0 < x := hj ▸ hx
    obtain ⟨y, hy, hy0, hxy, hc, hno⟩ := next_knot hs h0.le h1
    have hyl : y ≤ s.basis.k s.basis.len := by
      obtain ⟨j, -, rfl⟩ := mem_k hy
      exact k_le_last hs j
    have hno2 : ∀ u ∈ s.basis.knots, ¬ (x ≤ u ∧ u < y) := by
      rcases hc with h | h
      · exact absurd h h0.ne'
      · exact h
    rw [eval_polyAt hs ws h0 hxy hyl hno2, ← hS y hy hy0]
    refine eval_polyAt cb wt (by rw [k0]; exact hp.first_lt_last.trans hx) hxy (by rw [kl]; exact hyl) ?_
    intro u hu hc
    rw [ht] at hu
    rcases mem_of_glue hp hs hd hn hj hu with h | h
    · exact absurd (hx.trans_le hc.1) (not_lt.2 h.2)
    · exact hno2 u h.1 hc

/-- Stacked coefficients on stacked knots. -/
theorem stack_eval {p s : BSpline K} (hp : p.basis.Clamped) (hs : s.basis.Clamped) (wp : p.WF) (ws : s.WF)
    (hd : s.basis.degree = p.basis.degree) (hj : s.basis.k 0 = p.basis.k p.basis.len) (x : K) :
    (BSpline.mk (glue p.basis s.basis (p.basis.degree + 1)) (p.coeffs ++ s.coeffs)).WF ∧
    (BSpline.mk (glue p.basis s.basis (p.basis.degree + 1)) (p.coeffs ++ s.coeffs)).eval x
      = if x ≤ p.basis.k p.basis.len then p.eval x else s.eval x := by
  set J := glue p.basis s.basis (p.basis.degree + 1) with hJ
  have cb : J.Clamped := glue_clamped hp hs hd le_rfl hj
  have hlen : J.len = p.basis.len + s.basis.len := by
    rw [hJ, glue_len hp hs hd le_rfl]; omega
  have wt : (BSpline.mk J (p.coeffs ++ s.coeffs)).WF := by
    change (p.coeffs ++ s.coeffs).length = J.len
    rw [List.length_append, wp, ws, hlen]
  refine ⟨wt, ?_⟩
  have hk := glue_k hp hs hd (le_refl (p.basis.degree + 1))
  rw [← hJ] at hk
  have h4 := hp.lt_len
  rw [BSpline.eval_eq wt]
  change ∑ i ∈ range J.len, (p.coeffs ++ s.coeffs).getD i 0 * J.fn i x = _
  rw [hlen, Finset.sum_range_add]
  have e1 : ∑ i ∈ range p.basis.len, (p.coeffs ++ s.coeffs).getD i 0 * J.fn i x = p.eval x := by
    rw [BSpline.eval_eq wp]
    refine Finset.sum_congr rfl fun i hi => ?_
    have hi := Finset.mem_range.1 hi
    rw [List.getD_append _ _ _ _ (by rw [wp]; exact hi)]
    congr 1
    refine cox_congr x _ i ?_ ?_
    · rw [hk, if_pos (by omega)]
    · intro j _ h2
      have h2 : j ≤ i + p.basis.degree + 1 := h2
      rw [hk, if_pos (by omega)]
  have e2 : ∑ i ∈ range s.basis.len, (p.coeffs ++ s.coeffs).getD (p.basis.len + i) 0 * J.fn (p.basis.len + i) x
      = if x ≤ p.basis.k p.basis.len then 0 else s.eval x := by
    by_cases hx : x ≤ p.basis.k p.basis.len
    · rw [if_pos hx]
      refine Finset.sum_eq_zero fun i _ => ?_
      have : J.fn (p.basis.len + i) x = 0 := by
        have hle : p.basis.k p.basis.len ≤ J.k (p.basis.len + i) := by
          refine le_trans (le_of_eq ?_) (cb.mono (Nat.le_add_right p.basis.len i))
          rw [hk, if_pos (by omega)]
        have k0 : J.k 0 = p.basis.k 0 := by rw [hk, if_pos (by omega)]
        rcases lt_trichotomy x (J.k 0) with h | h | h
        · exact Basis.fn_left cb.sorted _ h
        · subst h
          unfold Basis.fn
          rw [cox_first cb.first cb.mono cb.start _ _ le_rfl, if_neg]
          have hJd : J.degree = p.basis.degree := rfl
          omega
        · exact cox_eq_zero cb.mono h _ _ (Or.inl (hx.trans hle))
      rw [this, mul_zero]
    · rw [if_neg hx, BSpline.eval_eq ws]
      rw [not_le] at hx
      refine Finset.sum_congr rfl fun i _ => ?_
      rw [List.getD_append_right _ _ _ _ (by rw [wp]; omega), wp, Nat.add_sub_cancel_left]
      congr 1
      unfold Basis.fn
      change cox J.k p.basis.degree x p.basis.degree _ = _
      rw [hd]
      refine (cox_shift ?_ (hj ▸ hx) _ _ ?_).symm
      · rw [hk, if_pos (by omega)]; exact hp.first_lt_last.trans hx
      · intro j _
        rw [hk]
        by_cases c : j ≤ p.basis.degree
        · rw [if_pos (by omega), hp.last _ (by omega), ← hj, hs.first j (by omega)]
        · rw [if_neg (by omega)]
          congr 1
          omega
  rw [e1, e2]
  by_cases hx : x ≤ p.basis.k p.basis.len
  · rw [if_pos hx, if_pos hx, add_zero]
  · rw [if_neg hx, if_neg hx, eval_above hp wp (not_le.1 hx), zero_add]

/-- The scaled segment. -/
theorem Segment.scaled {d : ℕ} {s : BSpline K} (hs : Segment d s) {T : K} (hT : 0 < T) (t : K) :
    (s.scale T t).basis.Clamped ∧ (s.scale T t).WF ∧ (s.scale T t).basis.degree = d ∧
    (s.scale T t).basis.k 0 = t ∧ (s.scale T t).basis.k (s.scale T t).basis.len = t + T ∧
    ∀ x, (s.scale T t).eval x = s.eval ((x - t) / T) := by
  have hlen : (s.scale T t).basis.len = s.basis.len := by simp [Basis.len, BSpline.scale, Basis.scale]
  refine ⟨scale_clamped hs.clamped hT t, ?_, hs.degree, ?_, ?_, ?_⟩
  · unfold BSpline.WF; rw [hlen]; exact hs.wf
  · exact (scale_k hs.clamped T t 0).trans (by rw [hs.first]; ring)
  · rw [hlen]
    exact (scale_k hs.clamped T t _).trans (by rw [hs.last]; ring)
  · intro x
    have := C07_scale s hs.clamped T t hT ((x - t) / T)
    rwa [div_mul_cancel₀ _ hT.ne', sub_add_cancel] at this

/-- `q` is the motion along `p` until `t` and then along `s` for a time `T`. -/
structure Joined (p s : BSpline K) (T t : K) (q : BSpline K) : Prop where
  clamped : q.basis.Clamped
  wf : q.WF
  degree : q.basis.degree = p.basis.degree
  first : q.basis.k 0 = p.basis.k 0
  last : q.basis.k q.basis.len = t + T
  eval : ∀ x, q.eval x = if x ≤ t then p.eval x else s.eval ((x - t) / T)

theorem totalBasis_eq {p s : Basis K} (hp : p.Clamped) (T : K) (n : ℕ) :
    totalBasis p s T n = glue p (s.scale T (p.k p.len)) n := by
  have h1 := hp.length_eq
  unfold totalBasis glue cutKnots segKnots Basis.scale
  rw [getLastD_eq_k hp, List.map_drop, show p.knots.length - (p.degree + 1) + n = p.len + n by omega]

theorem solveBasis_eq {p s : Basis K} (hp : p.Clamped) (T : K) {n : ℕ} (hn : 1 ≤ n) (hn' : n ≤ p.degree + 1) :
    solveBasis p s T n = totalBasis p s T n := by
  have h1 := hp.length_eq
  have : (cutKnots p n).getLastD 0 = p.knots.getLastD 0 := by
    rw [getLastD_eq_k hp]
    unfold cutKnots
    rw [List.getLastD_eq_getLast?, List.getLast?_take, if_neg (by omega), List.getElem?_eq_getElem (by omega)]
    rw [Option.some_or, Option.getD_some, ← hp.last (p.knots.length - (p.degree + 1) + n - 1) (by omega)]
    unfold Basis.k
    rw [List.getD_eq_getElem _ _ (by omega)]
  unfold solveBasis totalBasis
  rw [this]

theorem joinSeg_stack {d : ℕ} {p s : BSpline K} (hp : p.basis.Clamped) (wp : p.WF) (dp : p.basis.degree = d)
    (hs : Segment d s) {T t : K} (hT : 0 < T) (ht : p.basis.k p.basis.len = t) :
    ∃ q, joinSeg p s T t (d + 1) = some q ∧ Joined p s T t q := by
  subst dp
  obtain ⟨cs, ws, ds, s0, s1, es⟩ := hs.scaled hT t
  have hj : (s.scale T t).basis.k 0 = p.basis.k p.basis.len := by rw [s0, ht]
  have hk : p.basis.knots ++ segKnots s.basis p.basis.degree T (p.basis.knots.getLastD 0)
      = (glue p.basis (s.scale T t).basis (p.basis.degree + 1)).knots := by
    have h1 := hp.length_eq
    have := congrArg Basis.knots (totalBasis_eq (s := s.basis) hp T (p.basis.degree + 1))
    rw [ht] at this
    refine Eq.trans ?_ this
    unfold totalBasis cutKnots
    rw [List.take_of_length_le (by omega)]
  refine ⟨_, by unfold joinSeg; rw [if_pos rfl], ?_⟩
  rw [hk]
  have key := stack_eval hp cs wp ws ds hj
  refine ⟨glue_clamped hp cs ds le_rfl hj, (key t).1, rfl, glue_zero hp cs ds le_rfl hj, ?_, ?_⟩
  · exact (glue_end hp cs ds le_rfl hj).trans s1
  · intro x
    refine ((key x).2).trans ?_
    rw [ht, es]

theorem npSolveV_spec {n : ℕ} {A : Matrix (Fin n) (Fin n) K} {v c : Fin n → K} (h : npSolveV A v = some c) :
    A.mulVec c = v ∧ ∀ c', A.mulVec c' = v → c' = c := by
  unfold npSolveV at h
  split_ifs at h with hd
  injection h with h
  subst h
  have hu : IsUnit A.det := isUnit_iff_ne_zero.2 hd
  refine ⟨by rw [Matrix.mulVec_mulVec, Matrix.mul_nonsing_inv _ hu, Matrix.one_mulVec], fun c' hc => ?_⟩
  rw [← hc, Matrix.mulVec_mulVec, Matrix.nonsing_inv_mul _ hu, Matrix.one_mulVec]

/-- A result solves the system: it has the prescribed values at the evaluation points. -/
theorem joinSeg_points {p s q : BSpline K} (hp : p.basis.Clamped) {T t : K} {n : ℕ} (hn : 1 ≤ n)
    (hn' : n ≤ p.basis.degree) (h : joinSeg p s T t n = some q) :
    q.basis = totalBasis p.basis s.basis T n ∧ q.WF ∧
    (∀ g ∈ shiftEnds q.basis.greville, q.eval g = p.eval g + (s.scale T t).eval g) ∧
    ∀ q' : BSpline K, q'.basis = q.basis → q'.WF →
      (∀ g ∈ shiftEnds q.basis.greville, q'.eval g = p.eval g + (s.scale T t).eval g) → q' = q := by
  unfold joinSeg at h
  rw [if_neg (by omega), if_neg (by omega), solveBasis_eq hp T hn (by omega)] at h
  set J := totalBasis p.basis s.basis T n with hJ
  obtain ⟨c, hc, rfl⟩ := Option.map_eq_some_iff.1 h
  obtain ⟨h1, h2⟩ := npSolveV_spec hc
  have hl : (shiftEnds J.greville).length = J.len := by
    simp [shiftEnds, Basis.greville]
  have hev : ∀ (q : BSpline K), q.basis = J → q.WF → ∀ r : Fin J.len,
      (concatA J).mulVec (fun i => q.coeffs.getD i 0) r = q.eval ((shiftEnds J.greville).getD r 0) := by
    intro q hq hw r
    rw [BSpline.eval_eq hw, hq, Finset.sum_range]
    unfold Matrix.mulVec dotProduct concatA
    exact Finset.sum_congr rfl fun i _ => mul_comm _ _
  have hw : (BSpline.mk J (List.ofFn c)).WF := by simp [BSpline.WF]
  have hcc : (fun i : Fin J.len => (List.ofFn c).getD i 0) = c := by
    funext i
    rw [List.getD_eq_getElem _ _ (by simp), List.getElem_ofFn]
  have hmem : ∀ g ∈ shiftEnds J.greville, ∃ r : Fin J.len, (shiftEnds J.greville).getD r 0 = g := by
    intro g hg
    obtain ⟨r, hr, e⟩ := List.getElem_of_mem hg
    exact ⟨⟨r, hl ▸ hr⟩, by rw [List.getD_eq_getElem _ _ hr, e]⟩
  refine ⟨rfl, hw, ?_, ?_⟩
  · intro g hg
    obtain ⟨r, rfl⟩ := hmem g hg
    have := hev ⟨J, List.ofFn c⟩ rfl hw r
    dsimp only at this
    rw [hcc, h1] at this
    exact this.symm
  · intro q' hq' hw' hval
    dsimp only at hq' hval
    have hlq : q'.coeffs.length = J.len := by rw [hw', hq']
    have : (fun i : Fin J.len => q'.coeffs.getD i 0) = c := by
      refine h2 _ (funext fun r => ?_)
      rw [hev q' hq' hw' r]
      refine (hval _ ?_).trans rfl
      rw [List.getD_eq_getElem _ _ (by omega)]
      exact List.getElem_mem _
    obtain ⟨b', c'⟩ := q'
    dsimp only at hq' hlq this
    subst hq'
    congr 1
    rw [← this]
    refine List.ext_getElem (by simp [hlq]) fun i hi _ => ?_
    rw [List.getElem_ofFn, List.getD_eq_getElem _ _ hi]

/-- The last polynomial piece. -/
theorem polyAt_last_unique {p : BSpline K} (hp : p.basis.Clamped) (wp : p.WF) {q : K[X]} {a : K}
    (ha : a < p.basis.k p.basis.len)
    (h : ∀ x, a < x → x < p.basis.k p.basis.len → p.eval x = q.eval x) : p.polyAt (p.basis.k p.basis.len) = q := by
  set τ := p.basis.k p.basis.len with hτ
  obtain ⟨f1, f2, -⟩ := insert_facts hp hp.first_lt_last le_rfl
  set u := max a (p.basis.k (insPos p.basis (p.basis.k p.basis.len))) with hu
  have huτ : u < τ := max_lt ha f1
  refine Polynomial.eq_of_infinite_eval_eq _ _ ((Set.Ioo_infinite huτ).mono fun x hx => ?_)
  have h0 : p.basis.k 0 < x := (hp.mono (Nat.zero_le _)).trans_lt ((le_max_right _ _).trans_lt hx.1)
  change (p.polyAt τ).eval x = q.eval x
  rw [← h x ((le_max_left _ _).trans_lt hx.1) hx.2]
  refine (eval_polyAt hp wp h0 hx.2.le le_rfl ?_).symm
  rintro v hv ⟨h1, h2⟩
  obtain ⟨j, -, rfl⟩ := mem_k hv
  rcases Nat.lt_or_ge (insPos p.basis (p.basis.k p.basis.len)) j with l | g
  · exact absurd (f2.trans (hp.mono l)) (not_le.2 h2)
  · exact absurd (h1.trans (hp.mono g)) (not_le.2 ((le_max_right _ _).trans_lt hx.1))

/-- The first polynomial piece. -/
theorem polyAt_first_unique {s : BSpline K} (hs : s.basis.Clamped) (ws : s.WF) {q : K[X]} {b : K}
    (hb : s.basis.k 0 < b)
    (h : ∀ x, s.basis.k 0 < x → x < b → s.eval x = q.eval x) : s.polyAt (s.basis.k (s.basis.degree + 1)) = q := by
  have h5 := hs.start
  rw [hs.k_degree] at h5
  have hlt := hs.lt_len
  set u := min b (s.basis.k (s.basis.degree + 1)) with hu
  have huτ : s.basis.k 0 < u := lt_min hb h5
  refine Polynomial.eq_of_infinite_eval_eq _ _ ((Set.Ioo_infinite huτ).mono fun x hx => ?_)
  change (s.polyAt _).eval x = q.eval x
  rw [← h x hx.1 (hx.2.trans_le (min_le_left _ _))]
  refine (eval_polyAt hs ws hx.1 (hx.2.le.trans (min_le_right _ _)) (hs.mono (by omega)) ?_).symm
  rintro v hv ⟨h1, h2⟩
  obtain ⟨j, -, rfl⟩ := mem_k hv
  rcases Nat.lt_or_ge s.basis.degree j with l | g
  · exact absurd (hs.mono l) (not_le.2 h2)
  · rw [hs.first j g] at h1
    exact absurd h1 (not_le.2 hx.1)

/-- Equal derivatives make a polynomial divisible. -/
theorem dvd_of_derivatives {f : K[X]} {τ : K} (m : ℕ) (h : ∀ o, o < m → (derivative^[o] f).eval τ = 0) :
    (X - C τ) ^ m ∣ f := by
  induction m generalizing f with
  | zero => exact one_dvd _
  | succ m ih =>
    refine dvd_of_dvd_derivative (ih fun o ho => ?_) (h 0 (by omega))
    have := h (o + 1) (by omega)
    rwa [Function.iterate_succ_apply] at this

theorem joinSeg_smooth {d n : ℕ} (hn : 1 ≤ n) (hnd : n ≤ d) {p s : BSpline K} (hp : p.basis.Clamped) (wp : p.WF)
    (dp : p.basis.degree = d) (hs : Segment d s) {T t : K} (hT : 0 < T) (ht : p.basis.k p.basis.len = t)
    {q1 q2 : K[X]} {a b : K} (ha : a < t) (hb : 0 < b)
    (h1 : ∀ x, a < x → x < t → p.eval x = q1.eval x)
    (h2 : ∀ x, 0 < x → x < b → s.eval (x / T) = q2.eval (t + x))
    (hder : ∀ o, o ≤ d - n → (derivative^[o] q1).eval t = (derivative^[o] q2).eval t)
    (hg : t ∉ shiftEnds (totalBasis p.basis s.basis T n).greville)
    {q : BSpline K} (h : joinSeg p s T t n = some q) : Joined p s T t q := by
  subst dp
  obtain ⟨cs, ws, ds, s0, s1, es⟩ := hs.scaled hT t
  have hj : (s.scale T t).basis.k 0 = p.basis.k p.basis.len := by rw [s0, ht]
  obtain ⟨r1, r2, -, r4⟩ := joinSeg_points hp hn hnd h
  have e1 := polyAt_last_unique hp wp (ht ▸ ha) (fun x u v => h1 x u (ht ▸ v))
  have e2 : (s.scale T t).polyAt ((s.scale T t).basis.k ((s.scale T t).basis.degree + 1)) = q2 := by
    refine polyAt_first_unique cs ws (b := t + b) (by rw [s0]; exact lt_add_of_pos_right _ hb) fun x u v => ?_
    rw [s0] at u
    rw [es, h2 _ (sub_pos.2 u) (sub_lt_iff_lt_add'.2 v), add_sub_cancel]
  rw [ds] at e2
  have hT2 : totalBasis p.basis s.basis T n = glue p.basis (s.scale T t).basis n := by
    rw [totalBasis_eq hp, ht]; rfl
  obtain ⟨q', g1, g2, g3, g4⟩ := exists_glue (n := n) hp cs ds (by omega) hn hj (by
    rw [e1, e2, ht]
    refine dvd_of_derivatives _ fun o ho => ?_
    rw [iterate_derivative_sub, eval_sub, hder o (by omega), sub_self])
  have hev := glue_eval hp cs wp ws ds (by omega) hj g1 g2 g3 g4
  have hqq : q' = q := by
    refine r4 q' (by rw [g1, r1, hT2]) g2 fun g hgm => ?_
    rw [hev, ht]
    rcases lt_trichotomy g t with l | e | l
    · rw [if_pos l.le, eval_below cs ws (by rw [s0]; exact l), add_zero]
    · subst e; rw [r1] at hgm; exact absurd hgm hg
    · rw [if_neg (not_le.2 l), eval_above hp wp (by rw [ht]; exact l), zero_add]
  subst hqq
  refine ⟨g1 ▸ glue_clamped hp cs ds (by omega) hj, g2, by rw [g1]; rfl, by rw [g1]; exact glue_zero hp cs ds (by omega) hj,
    by rw [g1]; exact (glue_end hp cs ds (by omega) hj).trans s1, fun x => ?_⟩
  rw [hev, ht, es]

/-! ### The loop -/

/-- Total duration. -/
def total (l : List (BSpline K × K)) : K := (l.map Prod.snd).sum

theorem path_append (l : List (BSpline K × K)) (hl : ∀ a ∈ l, 0 < a.2) (s : BSpline K) (T x : K) (hx : x ≤ total l + T) :
    path (l ++ [(s, T)]) x = if l ≠ [] ∧ x ≤ total l then path l x else s.eval ((x - total l) / T) := by
  induction l generalizing x with
  | nil =>
    have : x ≤ T := by simpa [total] using hx
    simp [path, total, this]
  | cons a l ih =>
    obtain ⟨s', T'⟩ := a
    have ht : total ((s', T') :: l) = T' + total l := by simp [total]
    rw [ht] at hx ⊢
    have h0 : 0 ≤ total l := by
      unfold total
      refine List.sum_nonneg fun y hy => ?_
      obtain ⟨a, ha, rfl⟩ := List.mem_map.1 hy
      exact (hl a (List.mem_cons_of_mem _ ha)).le
    rw [List.cons_append, path, path]
    by_cases c : x ≤ T'
    · rw [if_pos c, if_pos c, if_pos ⟨by simp, by linarith⟩]
    · rw [if_neg c, ih (fun a ha => hl a (List.mem_cons_of_mem _ ha)) _ (by linarith), if_neg c]
      have e : x - T' - total l = x - (T' + total l) := by ring
      rw [e]
      by_cases c2 : x ≤ T' + total l
      · have c3 : x - T' ≤ total l := by linarith
        have : l ≠ [] := by
          rintro rfl
          simp [total] at c2
          exact c c2
        rw [if_pos ⟨this, c3⟩, if_pos ⟨by simp, c2⟩]
      · have c3 : ¬ x - T' ≤ total l := by intro h; exact c2 (by linarith)
        rw [if_neg (fun h => c3 h.2), if_neg (fun h => c2 h.2)]

/-- `p` is the motion along the pairs `l`. -/
structure Follows (d : ℕ) (l : List (BSpline K × K)) (p : BSpline K) : Prop where
  clamped : p.basis.Clamped
  wf : p.WF
  degree : p.basis.degree = d
  first : p.basis.k 0 = 0
  last : p.basis.k p.basis.len = total l
  eval : ∀ x, 0 ≤ x → x ≤ total l → p.eval x = path l x

theorem Follows.step {d : ℕ} {l : List (BSpline K × K)} (hl : ∀ a ∈ l, 0 < a.2) (hne : l ≠ []) {p s q : BSpline K}
    {T : K} (hp : Follows d l p) (h : Joined p s T (total l) q) : Follows d (l ++ [(s, T)]) q := by
  have ht : total (l ++ [(s, T)]) = total l + T := by simp [total]
  refine ⟨h.clamped, h.wf, h.degree.trans hp.degree, h.first.trans hp.first, by rw [ht]; exact h.last, fun x h0 h1 => ?_⟩
  rw [h.eval, path_append l hl s T x (ht ▸ h1)]
  by_cases c : x ≤ total l
  · rw [if_pos c, if_pos ⟨hne, c⟩, hp.eval x h0 c]
  · rw [if_neg c, if_neg (fun h => c h.2)]

theorem joinAll_stack {d : ℕ} {T : K} (hT : 0 < T) : ∀ (ls : List (List (BSpline K × K))) (ps ss : List (BSpline K)) (t : K),
    ps.length = ss.length → ls.length = ss.length →
    (∀ l ∈ ls, l ≠ [] ∧ (∀ a ∈ l, 0 < a.2) ∧ total l = t) →
    (∀ i (h1 : i < ls.length) (h2 : i < ps.length), Follows d ls[i] ps[i]) → (∀ s ∈ ss, Segment d s) →
    ∃ qs, joinAll T t ps ss (some (d + 1)) = some (qs, some (d + 1)) ∧ qs.length = ps.length ∧
      ∀ i (h1 : i < ls.length) (h2 : i < qs.length) (h3 : i < ss.length), Follows d (ls[i] ++ [(ss[i], T)]) qs[i] := by
  intro ls ps ss
  induction ss generalizing ls ps with
  | nil =>
    intro t h1 h2 _ _ _
    refine ⟨ps, by rw [joinAll], rfl, fun i _ _ h3 => absurd h3 (by simp)⟩
  | cons s ss ih =>
    intro t h1 h2 hl hF hS
    obtain ⟨p, ps, rfl⟩ : ∃ p ps', ps = p :: ps' := List.exists_cons_of_length_eq_add_one h1
    obtain ⟨l, ls, rfl⟩ : ∃ p ps', ls = p :: ps' := List.exists_cons_of_length_eq_add_one h2
    obtain ⟨l1, l2, l3⟩ := hl l (by simp)
    have hp : Follows d l p := hF 0 (by simp) (by simp)
    obtain ⟨q, hq, hJ⟩ := joinSeg_stack (t := t) hp.clamped hp.wf hp.degree (hS s (by simp)) hT (by rw [hp.last, l3])
    obtain ⟨qs, hqs, hlen, hE⟩ := ih ls ps t (by simpa using h1) (by simpa using h2)
      (fun l h => hl l (List.mem_cons_of_mem _ h))
      (fun i h1 h2 => hF (i + 1) (by simpa using h1) (by simpa using h2))
      (fun s h => hS s (List.mem_cons_of_mem _ h))
    refine ⟨q :: qs, ?_, by simp [hlen], ?_⟩
    · rw [joinAll, if_neg (by rw [(hS s (by simp)).degree, hp.degree]; simp), getInsert, Option.bind_some, hq,
        Option.bind_some, hqs]
      rfl
    · intro i h1 h2 h3
      cases i with
      | zero => exact Follows.step l2 l1 hp (l3 ▸ hJ)
      | succ i => exact hE i (by simpa using h1) (by simpa using h2) (by simpa using h3)

/-- Component `i` of the segments, with the durations. -/
def comp (i : ℕ) (segs : List (List (BSpline K) × K)) : List (BSpline K × K) :=
  segs.map fun a => (a.1.getD i ⟨⟨[], 0⟩, []⟩, a.2)

theorem total_comp (i : ℕ) (segs : List (List (BSpline K) × K)) : total (comp i segs) = (segs.map Prod.snd).sum := by
  simp [total, comp, Function.comp_def]

theorem concatGo_stack {d m : ℕ} (rest : List (List (BSpline K) × K)) :
    ∀ (D : List (List (BSpline K) × K)) (ps : List (BSpline K)), D ≠ [] → ps.length = m →
    (∀ a ∈ D, 0 < a.2) → (∀ a ∈ rest, a.1.length = m ∧ (∀ s ∈ a.1, Segment d s) ∧ 0 < a.2) →
    (∀ i (h : i < ps.length), Follows d (comp i D) ps[i]) →
    ∃ qs, concatGo ps (D.map Prod.snd).sum (some (d + 1)) rest = some qs ∧ qs.length = m ∧
      ∀ i (h : i < qs.length), Follows d (comp i (D ++ rest)) qs[i] := by
  induction rest with
  | nil =>
    intro D ps _ hm _ _ hF
    refine ⟨ps, by rw [concatGo], hm, ?_⟩
    rw [List.append_nil]
    exact hF
  | cons a rest ih =>
    intro D ps hD hm hpos hR hF
    obtain ⟨ss, T⟩ := a
    obtain ⟨a1, a2, a3⟩ := hR (ss, T) (by simp)
    dsimp only at a1 a2 a3
    obtain ⟨qs, q1, q2, q3⟩ := joinAll_stack a3 ((List.range m).map fun i => comp i D) ps ss (D.map Prod.snd).sum
      (by rw [hm, a1]) (by simp [a1]) (by
        intro l hl
        obtain ⟨i, -, rfl⟩ := List.mem_map.1 hl
        refine ⟨by simpa [comp] using hD, ?_, total_comp _ _⟩
        intro a ha
        obtain ⟨b, hb, rfl⟩ := List.mem_map.1 ha
        exact hpos b hb) (by
        intro i _ h2
        simpa using hF i h2) a2
    obtain ⟨rs, r1, r2, r3⟩ := ih (D ++ [(ss, T)]) qs (by simp) (by omega) (by
        intro a ha
        rcases List.mem_append.1 ha with h | h
        · exact hpos a h
        · rw [List.mem_singleton.1 h]; exact a3)
      (fun a ha => hR a (List.mem_cons_of_mem _ ha)) (by
        intro i hi
        have := q3 i (by simp; omega) hi (by omega)
        simp only [List.getElem_map, List.getElem_range] at this
        have e : comp i (D ++ [(ss, T)]) = comp i D ++ [(ss[i], T)] := by
          simp only [comp, List.map_append, List.map_cons, List.map_nil]
          rw [List.getD_eq_getElem _ _ (by omega)]
        rw [e]
        exact this)
    refine ⟨rs, ?_, r2, ?_⟩
    · rw [concatGo, q1, Option.bind_some, ← r1]
      simp
    · intro i hi
      have := r3 i hi
      rwa [List.append_assoc] at this

theorem Segment.follows {d : ℕ} {s : BSpline K} (hs : Segment d s) {T : K} (hT : 0 < T) :
    Follows d [(s, T)] (s.scale T 0) := by
  obtain ⟨cs, ws, ds, s0, s1, es⟩ := hs.scaled hT 0
  refine ⟨cs, ws, ds, s0, by rw [s1]; simp [total], fun x _ h => ?_⟩
  have h : x ≤ T := by simpa [total] using h
  rw [es, path, if_pos h, sub_zero]

/-! ## Property theorems -/

/-- **C121** Concatenation with `degree+1` knots at the joints, any number of segments and components: the
result runs from time `0` to the total time, and at each time has the value of the segment of that
time. -/
theorem C121_stack (d m : ℕ) (segs : List (List (BSpline K) × K)) (hne : segs ≠ [])
    (h : ∀ a ∈ segs, a.1.length = m ∧ (∀ s ∈ a.1, Segment d s) ∧ 0 < a.2) :
    ∃ r, concatSplines segs (some (d + 1)) = some r ∧ r.length = m ∧
      ∀ i (hi : i < r.length), r[i].basis.knots.headD 0 = 0 ∧
        r[i].basis.knots.getLastD 0 = (segs.map Prod.snd).sum ∧
        ∀ x, 0 ≤ x → x ≤ (segs.map Prod.snd).sum → r[i].eval x = path (comp i segs) x := by
  obtain ⟨⟨s0, T0⟩, rest, rfl⟩ := List.exists_cons_of_ne_nil hne
  obtain ⟨a1, a2, a3⟩ := h (s0, T0) (by simp)
  dsimp only at a1 a2 a3
  obtain ⟨r, r1, r2, r3⟩ := concatGo_stack (d := d) (m := m) rest [(s0, T0)] (s0.map fun s => s.scale T0 0)
    (by simp) (by simpa using a1) (by simpa using a3) (fun a ha => h a (List.mem_cons_of_mem _ ha)) (by
      intro i hi
      have hi' : i < s0.length := by simpa using hi
      rw [List.getElem_map]
      have e : comp i [(s0, T0)] = [(s0[i], T0)] := by
        simp only [comp, List.map_cons, List.map_nil]
        rw [List.getD_eq_getElem _ _ hi']
      rw [e]
      exact (a2 _ (List.getElem_mem _)).follows a3)
  refine ⟨r, ?_, r2, fun i hi => ?_⟩
  · rw [concatSplines, ← r1]
    simp
  · have := r3 i hi
    rw [List.cons_append, List.nil_append] at this
    rw [headD_eq_k this.clamped, getLastD_eq_k this.clamped, ← total_comp i]
    exact ⟨this.first, this.last, this.eval⟩

/-- **C121** Without a given number of knots: when the first component of the second segment does not
start where the first segment ends (as the code tests it), the joints get `degree+1` knots. -/
theorem C121_discontinuous (d : ℕ) (s0 s1 : BSpline K) (ss0 ss1 : List (BSpline K)) (T0 T1 : K)
    (rest : List (List (BSpline K) × K)) (h0 : Segment d s0) (h1 : Segment d s1) (hT0 : 0 < T0) (hT1 : 0 < T1)
    (h : s1.eval 0 + s0.eval 1 = 0 ∨ 1 / 1000 < |s1.eval 0 - s0.eval 1| * (1 / 2) / (s1.eval 0 + s0.eval 1)) :
    concatSplines ((s0 :: ss0, T0) :: (s1 :: ss1, T1) :: rest) none
      = concatSplines ((s0 :: ss0, T0) :: (s1 :: ss1, T1) :: rest) (some (d + 1)) := by
  have e0 : (s0.scale T0 0).eval T0 = s0.eval 1 := by
    rw [(h0.scaled hT0 0).2.2.2.2.2, sub_zero, div_self hT0.ne']
  have e1 : (s1.scale T1 T0).eval T0 = s1.eval 0 := by
    rw [(h1.scaled hT1 T0).2.2.2.2.2, sub_self, zero_div]
  have hd0 : ∀ s : BSpline K, s.derivative? 0 = some s := by
    intro s
    unfold BSpline.derivative? BSpline.deltasOK BSpline.derivative
    simp
  have hn : nInsert (s0.scale T0 0) s1 T1 T0 = some (d + 1) := by
    have dg : (s0.scale T0 0).basis.degree = d := h0.degree
    unfold nInsert
    rw [dg, List.range_succ_eq_map, nInsertGo, hd0, hd0]
    dsimp only
    rw [e0, e1, if_neg]
    unfold sameVal
    rw [decide_eq_true_eq]
    rintro ⟨u, v⟩
    rcases h with h | h
    · exact u h
    · exact absurd h (not_lt.2 v)
  simp only [concatSplines, concatGo, List.map_cons, joinAll, getInsert, hn]

/-- **C121** One step with `1 ≤ n ≤ degree` knots at the joint: when the trajectories fit at the joint,
that is, the polynomial `q1` before and the polynomial `q2` behind the joint have the same value and
derivatives up to order `degree - n`, the result is the motion along the one and then the other.

Partial: assumes that the linear system has a solution, and that the joint is not an evaluation
point. -/
theorem C121_join_partial (d n : ℕ) (hn : 1 ≤ n) (hnd : n ≤ d) (p s : BSpline K) (hp : p.basis.Clamped) (wp : p.WF)
    (dp : p.basis.degree = d) (hs : Segment d s) (T t : K) (hT : 0 < T) (ht : p.basis.knots.getLastD 0 = t)
    (q1 q2 : K[X]) (a b : K) (ha : a < t) (hb : 0 < b)
    (h1 : ∀ x, a < x → x < t → p.eval x = q1.eval x)
    (h2 : ∀ x, 0 < x → x < b → s.eval (x / T) = q2.eval (t + x))
    (hder : ∀ o, o ≤ d - n → (derivative^[o] q1).eval t = (derivative^[o] q2).eval t)
    (hg : t ∉ shiftEnds (totalBasis p.basis s.basis T n).greville)
    (q : BSpline K) (h : joinSeg p s T t n = some q) :
    q.basis.Clamped ∧ q.WF ∧ q.basis.degree = d ∧
    q.basis.knots.headD 0 = p.basis.knots.headD 0 ∧ q.basis.knots.getLastD 0 = t + T ∧
    ∀ x, q.eval x = if x ≤ t then p.eval x else s.eval ((x - t) / T) := by
  rw [getLastD_eq_k hp] at ht
  have := joinSeg_smooth hn hnd hp wp dp hs hT ht ha hb h1 h2 hder hg h
  refine ⟨this.clamped, this.wf, this.degree.trans dp, ?_, ?_, this.eval⟩
  · rw [headD_eq_k hp, headD_eq_k this.clamped]; exact this.first
  · rw [getLastD_eq_k this.clamped]; exact this.last

/-- **C121** `concat_splines` of two trajectories that fit at the joint, with the hypotheses of
`C121_join_partial`. -/
theorem C121_two_partial (d n : ℕ) (hn : 1 ≤ n) (hnd : n ≤ d) (s0 s1 : BSpline K) (h0 : Segment d s0) (hs : Segment d s1)
    (T0 T1 : K) (hT0 : 0 < T0) (hT1 : 0 < T1)
    (q0 q1 : K[X]) (b : K) (hb : 0 < b)
    (h1 : ∀ x, 0 < x → x < b → s0.eval (1 - x / T0) = q0.eval (-x))
    (h2 : ∀ x, 0 < x → x < b → s1.eval (x / T1) = q1.eval x)
    (hder : ∀ o, o ≤ d - n → (derivative^[o] q0).eval 0 = (derivative^[o] q1).eval 0)
    (hg : T0 ∉ shiftEnds (totalBasis (s0.scale T0 0).basis s1.basis T1 n).greville)
    (r : List (BSpline K)) (h : concatSplines [([s0], T0), ([s1], T1)] (some n) = some r) :
    ∃ q, r = [q] ∧ q.basis.knots.headD 0 = 0 ∧ q.basis.knots.getLastD 0 = T0 + T1 ∧
      ∀ x, 0 ≤ x → x ≤ T0 + T1 → q.eval x = path [(s0, T0), (s1, T1)] x := by
  obtain ⟨cs, ws, ds, u0, u1, es⟩ := h0.scaled hT0 0
  rw [zero_add] at u1
  have hsh : ∀ (q : K[X]) (o : ℕ), (derivative^[o] (q.comp (X - C T0))).eval T0 = (derivative^[o] q).eval 0 := by
    intro q o
    have : derivative^[o] (q.comp (X - C T0)) = (derivative^[o] q).comp (X - C T0) := by
      induction o generalizing q with
      | zero => rfl
      | succ o ih =>
        rw [Function.iterate_succ_apply, Function.iterate_succ_apply, derivative_comp, ← ih]
        simp
    rw [this]
    simp
  simp only [concatSplines, concatGo, List.map_cons, List.map_nil, joinAll, getInsert] at h
  rw [if_neg (by rw [ds, hs.degree]; simp)] at h
  simp only [Option.bind_some, Option.map_some] at h
  cases hq : joinSeg (s0.scale T0 0) s1 T1 T0 n with
  | none => rw [hq] at h; simp at h
  | some q =>
    rw [hq] at h
    simp at h
    refine ⟨q, h.symm, ?_⟩
    have := joinSeg_smooth (q1 := q0.comp (X - C T0)) (q2 := q1.comp (X - C T0)) (a := T0 - b) (b := b) hn hnd cs ws ds hs hT1 u1
      (by linarith) hb (by
        intro x v1 v2
        rw [es, sub_zero, eval_comp, eval_sub, eval_X, eval_C]
        have := h1 (T0 - x) (by linarith) (by linarith)
        rw [neg_sub, sub_div, div_self hT0.ne', sub_sub_cancel] at this
        exact this) (by
        intro x v1 v2
        rw [h2 x v1 v2, eval_comp, eval_sub, eval_X, eval_C, add_sub_cancel_left]) (by
        intro o ho
        rw [hsh, hsh]; exact hder o ho) hg hq
    rw [headD_eq_k this.clamped, getLastD_eq_k this.clamped]
    refine ⟨this.first.trans u0, this.last, fun x _ hx => ?_⟩
    rw [this.eval, path, path]
    by_cases c : x ≤ T0
    · rw [if_pos c, if_pos c, es, sub_zero]
    · rw [if_neg c, if_neg c, if_pos (by linarith)]

/-! ### Violations -/

/-- **C121** is violated whenever the joint is an evaluation point: both trajectories have a value
there, and the result takes their sum. -/
theorem C121_joint_violated (n : ℕ) (p s : BSpline K) (hp : p.basis.Clamped) (hs : s.basis.Clamped)
    (T t : K) (hT : 0 < T) (hn : 1 ≤ n) (hnd : n ≤ p.basis.degree)
    (hg : t ∈ shiftEnds (totalBasis p.basis s.basis T n).greville)
    (q : BSpline K) (h : joinSeg p s T t n = some q) : q.eval t = p.eval t + s.eval 0 := by
  obtain ⟨r1, -, r3, -⟩ := joinSeg_points hp hn hnd h
  rw [r3 t (r1 ▸ hg)]
  have := C07_scale s hs T t hT 0
  rw [zero_mul, zero_add] at this
  rw [this]

/-- **C121** is violated for every pair of trajectories that are continuous, but no more (`degree` knots
at the joint): the result passes the joint at twice the value. -/
theorem C121_continuous_violated (d : ℕ) (hd : 1 ≤ d) (p s : BSpline K) (hp : p.basis.Clamped) (dp : p.basis.degree = d)
    (hs : Segment d s) (T t : K) (hT : 0 < T) (ht : p.basis.knots.getLastD 0 = t)
    (hcont : s.eval 0 = p.eval t) (q : BSpline K) (h : joinSeg p s T t d = some q) : q.eval t = 2 * p.eval t := by
  subst dp
  rw [getLastD_eq_k hp] at ht
  suffices q.eval t = p.eval t + s.eval 0 by rw [this, hcont, two_mul]
  refine C121_joint_violated p.basis.degree p s hp hs.clamped T t hT hd le_rfl ?_ q h
  obtain ⟨cs, ws, ds, s0, s1, es⟩ := hs.scaled hT t
  have hj : (s.scale T t).basis.k 0 = p.basis.k p.basis.len := by rw [s0, ht]
  have hT2 : totalBasis p.basis s.basis T p.basis.degree = glue p.basis (s.scale T t).basis p.basis.degree := by
    rw [totalBasis_eq hp, ht]; rfl
  rw [hT2]
  set J := glue p.basis (s.scale T t).basis p.basis.degree with hJ
  have hk := glue_k hp cs ds (Nat.le_succ p.basis.degree)
  rw [← hJ] at hk
  have hl := glue_len hp cs ds (Nat.le_succ p.basis.degree)
  rw [← hJ] at hl
  have h4 := hp.lt_len
  have h5 := cs.lt_len
  have hgl : J.greville.length = J.len := by simp [Basis.greville]
  have hlen : (shiftEnds J.greville).length = J.len := by simp [shiftEnds, hgl]
  have hJd : J.degree = p.basis.degree := rfl
  rw [List.mem_iff_getElem]
  refine ⟨p.basis.len - 1, by omega, ?_⟩
  unfold shiftEnds
  dsimp only
  rw [List.getElem_set_ne (by omega), List.getElem_set_ne (by omega)]
  unfold Basis.greville
  rw [List.getElem_map, List.getElem_range, hJd]
  have : ((List.range p.basis.degree).map fun r => J.k (p.basis.len - 1 + 1 + r)).sum = p.basis.degree * t := by
    rw [List.map_congr_left (g := fun _ => t), List.map_const', List.sum_replicate, List.length_range, nsmul_eq_mul]
    intro r hr
    have hr := List.mem_range.1 hr
    rw [hk, if_pos (by omega), hp.last _ (by omega), ht]
  rw [this, one_div, inv_mul_cancel_left₀]
  exact Nat.cast_ne_zero.2 (by omega)

/-- **C121** is violated for negative values: the test of continuity divides by the sum of the values
and takes any two values with a negative sum as equal. -/
theorem C121_negative_violated (v1 v2 : K) (h : v1 + v2 < 0) : sameVal v1 v2 = true := by
  unfold sameVal
  rw [decide_eq_true_eq]
  refine ⟨h.ne, le_trans (div_nonpos_of_nonneg_of_nonpos ?_ h.le) ?_⟩
  · positivity
  · positivity

/-- A vector equation that shows what `la.solve` returns. -/
theorem npSolveV_eq {n : ℕ} {A Ai : Matrix (Fin n) (Fin n) K} {v c : Fin n → K} (h : A * Ai = 1) (hX : A.mulVec c = v) :
    npSolveV A v = some c := by
  have hd : IsUnit A.det := Matrix.isUnit_det_of_right_inverse h
  unfold npSolveV
  rw [if_neg hd.ne_zero, ← hX, Matrix.mulVec_mulVec, Matrix.nonsing_inv_mul _ hd, Matrix.one_mulVec]

theorem joinSeg_of_solve {p s : BSpline K} {T t : K} {n : ℕ} (hn : n ≠ p.basis.degree + 1) (h0 : p.basis.degree ≠ 0) (N : ℕ)
    (hN : (solveBasis p.basis s.basis T n).len = N) (Ai : Fin N → Fin N → K) (c : Fin N → K)
    (hA : ∀ i j : Fin N, ∑ k : Fin N, (solveBasis p.basis s.basis T n).fn k
      ((shiftEnds (solveBasis p.basis s.basis T n).greville).getD i 0) * Ai k j = if i = j then 1 else 0)
    (hc : ∀ i : Fin N, ∑ k : Fin N, (solveBasis p.basis s.basis T n).fn k
      ((shiftEnds (solveBasis p.basis s.basis T n).greville).getD i 0) * c k
      = p.eval ((shiftEnds (solveBasis p.basis s.basis T n).greville).getD i 0)
        + (s.scale T t).eval ((shiftEnds (solveBasis p.basis s.basis T n).greville).getD i 0)) :
    joinSeg p s T t n = some ⟨totalBasis p.basis s.basis T n, List.ofFn c⟩ := by
  subst hN
  unfold joinSeg
  rw [if_neg hn, if_neg h0, npSolveV_eq (Ai := Matrix.of Ai) (c := c)]
  · rfl
  · refine Matrix.ext fun i j => ?_
    rw [Matrix.mul_apply, Matrix.one_apply]
    exact hA i j
  · exact funext hc

/-- One interval on `[0, 1]`, linear and quadratic. -/
def linB : Basis ℚ := ⟨[0, 0, 1, 1], 1⟩
def quadB : Basis ℚ := ⟨[0, 0, 0, 1, 1, 1], 2⟩

theorem linB_clamped : linB.Clamped := by
  refine ⟨by decide +kernel, by decide +kernel, ?_, by decide +kernel, ?_⟩
  · intro i hi
    have : i ≤ 1 := hi
    interval_cases i <;> decide +kernel
  · intro i h1 h2
    have h1 : 2 ≤ i := h1
    have h2 : i < 4 := h2
    interval_cases i <;> decide +kernel

theorem quadB_clamped : quadB.Clamped := by
  refine ⟨by decide +kernel, by decide +kernel, ?_, by decide +kernel, ?_⟩
  · intro i hi
    have : i ≤ 2 := hi
    interval_cases i <;> decide +kernel
  · intro i h1 h2
    have h1 : 3 ≤ i := h1
    have h2 : i < 6 := h2
    interval_cases i <;> decide +kernel

theorem quad_segment {c : List ℚ} (h : c.length = 3) : Segment 2 (⟨quadB, c⟩ : BSpline ℚ) := by
  have h0 : quadB.k 0 = 0 := by decide +kernel
  have h1 : quadB.k quadB.len = 1 := by decide +kernel
  exact ⟨quadB_clamped, h, rfl, h0, h1⟩

/-- The inverse of the matrix of two quadratics of duration 1. -/
def quadInv : List (List ℚ) :=
  [[5975000/5890599, -997/59202, 199/59202, -5000/5890599],
   [-830000/1963533, 16517/9867, -9950/29601, 500000/5890599],
   [500000/5890599, -9950/29601, 16517/9867, -830000/1963533],
   [-5000/5890599, 199/59202, -997/59202, 5975000/5890599]]

/-- Straight lines from `0` to `1` and on to `2`. -/
theorem line_join : joinSeg (BSpline.scale ⟨quadB, [0, 1/2, 1]⟩ 1 0) ⟨quadB, [1, 3/2, 2]⟩ 1 1 1
    = some ⟨⟨[0, 0, 0, 1, 2, 2, 2], 2⟩, [0, 1/2, 3/2, 2]⟩ := by
  rw [joinSeg_of_solve (by decide) (by decide) 4 (by decide +kernel)
    (fun i j => (quadInv.getD i []).getD j 0) (fun i => [0, 1/2, 3/2, 2].getD i 0)
    (by decide +kernel) (by decide +kernel)]
  have e : totalBasis (BSpline.scale ⟨quadB, [0, 1/2, 1]⟩ 1 0).basis quadB 1 1 = ⟨[0, 0, 0, 1, 2, 2, 2], 2⟩ := by
    decide +kernel
  rw [e]
  exact congrArg (fun c => some (BSpline.mk _ c)) (by decide +kernel)

/-- The constant `1` and then the constant `5`, with the same number of knots. -/
theorem jump_join : joinSeg (BSpline.scale ⟨quadB, [1, 1, 1]⟩ 1 0) ⟨quadB, [5, 5, 5]⟩ 1 1 1
    = some ⟨⟨[0, 0, 0, 1, 2, 2, 2], 2⟩, [201/199, -1/199, 1195/199, 993/199]⟩ := by
  rw [joinSeg_of_solve (by decide) (by decide) 4 (by decide +kernel)
    (fun i j => (quadInv.getD i []).getD j 0) (fun i => [201/199, -1/199, 1195/199, 993/199].getD i 0)
    (by decide +kernel) (by decide +kernel)]
  have e : totalBasis (BSpline.scale ⟨quadB, [1, 1, 1]⟩ 1 0).basis quadB 1 1 = ⟨[0, 0, 0, 1, 2, 2, 2], 2⟩ := by
    decide +kernel
  rw [e]
  exact congrArg (fun c => some (BSpline.mk _ c)) (by decide +kernel)

/-- **C121** is violated for several components: the number of knots found for the first one (a straight
line) is used for the second one, which jumps from `1` to `5`.  The result is smooth and has `3` in the
joint. -/
theorem C121_components_violated :
    concatSplines [([⟨quadB, [0, 1/2, 1]⟩, ⟨quadB, [1, 1, 1]⟩], 1), ([⟨quadB, [1, 3/2, 2]⟩, ⟨quadB, [5, 5, 5]⟩], 1)] none
      = some [⟨⟨[0, 0, 0, 1, 2, 2, 2], 2⟩, [0, 1/2, 3/2, 2]⟩,
          ⟨⟨[0, 0, 0, 1, 2, 2, 2], 2⟩, [201/199, -1/199, 1195/199, 993/199]⟩] ∧
    (⟨⟨[0, 0, 0, 1, 2, 2, 2], 2⟩, [201/199, -1/199, 1195/199, 993/199]⟩ : BSpline ℚ).eval 1 = 597/199 ∧
    (⟨quadB, [1, 1, 1]⟩ : BSpline ℚ).eval 1 = 1 ∧ (⟨quadB, [5, 5, 5]⟩ : BSpline ℚ).eval 0 = 5 := by
  refine ⟨?_, by decide +kernel, by decide +kernel, by decide +kernel⟩
  have hn : nInsert (BSpline.scale ⟨quadB, [0, 1/2, 1]⟩ 1 0) ⟨quadB, [1, 3/2, 2]⟩ 1 1 = some 1 := by decide +kernel
  simp only [concatSplines, concatGo, List.map_cons, List.map_nil, joinAll, getInsert, hn, Option.bind_some, line_join, jump_join]
  rfl

/-- **C121** is violated for a straight line (no knot at the joint): the coefficients are computed on
other knots than those of the result, which ends in `1` instead of `2`. -/
theorem C121_line_violated :
    concatSplines [([⟨linB, [0, 1]⟩], 1), ([⟨linB, [1, 2]⟩], 1)] none = some [⟨⟨[0, 0, 2, 2], 1⟩, [0, 1]⟩] ∧
    (⟨⟨[0, 0, 2, 2], 1⟩, [0, 1]⟩ : BSpline ℚ).eval 2 = 1 ∧ (⟨linB, [1, 2]⟩ : BSpline ℚ).eval 1 = 2 := by
  refine ⟨?_, by decide +kernel, by decide +kernel⟩
  have hn : nInsert (BSpline.scale ⟨linB, [0, 1]⟩ 1 0) ⟨linB, [1, 2]⟩ 1 1 = some 0 := by decide +kernel
  have hj : joinSeg (BSpline.scale ⟨linB, [0, 1]⟩ 1 0) ⟨linB, [1, 2]⟩ 1 1 0 = some ⟨⟨[0, 0, 2, 2], 1⟩, [0, 1]⟩ := by
    rw [joinSeg_of_solve (by decide) (by decide) 2 (by decide +kernel)
      (fun i j => ([[9901/9801, -100/9801], [-1/99, 100/99]].getD i []).getD j 0) (fun i => [0, 1].getD i 0)
      (by decide +kernel) (by decide +kernel)]
    have e : totalBasis (BSpline.scale ⟨linB, [0, 1]⟩ 1 0).basis linB 1 0 = ⟨[0, 0, 2, 2], 1⟩ := by decide +kernel
    rw [e]
    exact congrArg (fun c => some (BSpline.mk _ c)) (by decide +kernel)
  simp only [concatSplines, concatGo, List.map_cons, List.map_nil, joinAll, getInsert, hn, Option.bind_some, hj]
  rfl

/-- **C121** is violated for negative values, from call to result: the constants `-1` and `-5` are taken
as continuous, and the result has the value `-6` in between. -/
theorem C121_negative_values_violated :
    concatSplines [([⟨linB, [-1, -1]⟩], 1), ([⟨linB, [-5, -5]⟩], 1)] none
      = some [⟨⟨[0, 0, 1, 2, 2], 1⟩, [-94/99, -6, -494/99]⟩] ∧
    (⟨⟨[0, 0, 1, 2, 2], 1⟩, [-94/99, -6, -494/99]⟩ : BSpline ℚ).eval 1 = -6 := by
  refine ⟨?_, by decide +kernel⟩
  have hn : nInsert (BSpline.scale ⟨linB, [-1, -1]⟩ 1 0) ⟨linB, [-5, -5]⟩ 1 1 = some 1 := by decide +kernel
  have hj : joinSeg (BSpline.scale ⟨linB, [-1, -1]⟩ 1 0) ⟨linB, [-5, -5]⟩ 1 1 1
      = some ⟨⟨[0, 0, 1, 2, 2], 1⟩, [-94/99, -6, -494/99]⟩ := by
    rw [joinSeg_of_solve (by decide) (by decide) 3 (by decide +kernel)
      (fun i j => ([[100/99, -1/99, 0], [0, 1, 0], [0, -1/99, 100/99]].getD i []).getD j 0)
      (fun i => [-94/99, -6, -494/99].getD i 0) (by decide +kernel) (by decide +kernel)]
    have e : totalBasis (BSpline.scale ⟨linB, [-1, -1]⟩ 1 0).basis linB 1 1 = ⟨[0, 0, 1, 2, 2], 1⟩ := by decide +kernel
    rw [e]
    exact congrArg (fun c => some (BSpline.mk _ c)) (by decide +kernel)
  simp only [concatSplines, concatGo, List.map_cons, List.map_nil, joinAll, getInsert, hn, Option.bind_some, hj]
  rfl

/-- Witness of `C121_continuous_violated`, from call to result: from `0` to `1` and from `1` to `3`. -/
theorem C121_kink_violated :
    concatSplines [([⟨linB, [0, 1]⟩], 1), ([⟨linB, [1, 3]⟩], 1)] none
      = some [⟨⟨[0, 0, 1, 2, 2], 1⟩, [-1/99, 2, 296/99]⟩] ∧
    (⟨⟨[0, 0, 1, 2, 2], 1⟩, [-1/99, 2, 296/99]⟩ : BSpline ℚ).eval 1 = 2 := by
  refine ⟨?_, by decide +kernel⟩
  have hn : nInsert (BSpline.scale ⟨linB, [0, 1]⟩ 1 0) ⟨linB, [1, 3]⟩ 1 1 = some 1 := by decide +kernel
  have hj : joinSeg (BSpline.scale ⟨linB, [0, 1]⟩ 1 0) ⟨linB, [1, 3]⟩ 1 1 1
      = some ⟨⟨[0, 0, 1, 2, 2], 1⟩, [-1/99, 2, 296/99]⟩ := by
    rw [joinSeg_of_solve (by decide) (by decide) 3 (by decide +kernel)
      (fun i j => ([[100/99, -1/99, 0], [0, 1, 0], [0, -1/99, 100/99]].getD i []).getD j 0)
      (fun i => [-1/99, 2, 296/99].getD i 0) (by decide +kernel) (by decide +kernel)]
    have e : totalBasis (BSpline.scale ⟨linB, [0, 1]⟩ 1 0).basis linB 1 1 = ⟨[0, 0, 1, 2, 2], 1⟩ := by decide +kernel
    rw [e]
    exact congrArg (fun c => some (BSpline.mk _ c)) (by decide +kernel)
  simp only [concatSplines, concatGo, List.map_cons, List.map_nil, joinAll, getInsert, hn, Option.bind_some, hj]
  rfl

/-- `n_insert = continuity - (degree-1)`, vehicle.py:255-256. -/
def storeInsert (continuity degree : ℤ) : ℤ := continuity - (degree - 1)

/-- **C121** is violated in `Vehicle.store` for trajectories of which fewer than `degree` orders are equal at
the joint (gcodeproblem.py:113-116 makes `continuity` orders equal): `degree + 1 - continuity` knots are
needed (`C121_join_partial`), another number is inserted. -/
theorem C121_store_violated (continuity degree : ℤ) (h : continuity ≠ degree) :
    storeInsert continuity degree ≠ degree + 1 - continuity := by
  unfold storeInsert
  omega

/-! ### Cases that meet the hypotheses -/

example : ∃ r, concatSplines [([⟨quadB, [0, 1, 1]⟩], 1), ([⟨quadB, [5, 4, 7]⟩], 2)] (some 3) = some r ∧ r.length = 1 := by
  obtain ⟨r, h1, h2, -⟩ := C121_stack 2 1 [([(⟨quadB, [0, 1, 1]⟩ : BSpline ℚ)], 1), ([⟨quadB, [5, 4, 7]⟩], 2)] (by simp) (by
    intro a ha
    rcases List.mem_cons.1 ha with rfl | ha
    · exact ⟨rfl, by simpa using quad_segment rfl, by norm_num⟩
    · rw [List.mem_singleton.1 ha]
      exact ⟨rfl, by simpa using quad_segment rfl, by norm_num⟩)
  exact ⟨r, h1, h2⟩

example : concatSplines [([⟨quadB, [0, 1, 1]⟩], 1), ([⟨quadB, [5, 4, 7]⟩], 2)] none
    = concatSplines [([⟨quadB, [0, 1, 1]⟩], 1), ([(⟨quadB, [5, 4, 7]⟩ : BSpline ℚ)], 2)] (some 3) :=
  C121_discontinuous 2 _ _ [] [] 1 2 [] (quad_segment rfl) (quad_segment rfl) (by norm_num) (by norm_num) (by decide +kernel)

/-- The two straight lines meet the hypotheses of `C121_two_partial`. -/
example (x : ℚ) (h0 : 0 ≤ x) (h1 : x ≤ 2) :
    (⟨⟨[0, 0, 0, 1, 2, 2, 2], 2⟩, [0, 1/2, 3/2, 2]⟩ : BSpline ℚ).eval x
      = path [(⟨quadB, [0, 1/2, 1]⟩, 1), (⟨quadB, [1, 3/2, 2]⟩, 1)] x := by
  have hq : ∀ x : ℚ, 0 < x → x < 1 → ∀ c0 c1 c2 : ℚ,
      (⟨quadB, [c0, c1, c2]⟩ : BSpline ℚ).eval x = c0 * (1 - x) ^ 2 + 2 * c1 * x * (1 - x) + c2 * x ^ 2 := by
    intro x u v c0 c1 c2
    have hw : (⟨quadB, [c0, c1, c2]⟩ : BSpline ℚ).WF := rfl
    have e0 : quadB.k 0 = 0 := by decide +kernel
    rw [BSpline.eval_eq hw]
    change ∑ i ∈ range 3, [c0, c1, c2].getD i 0 * cox quadB.k 2 x 2 i = _
    simp only [Finset.sum_range_succ, Finset.sum_range_zero, cox, ind_of_lt (k := quadB.k) (p := 2) (x := x) (by rw [e0]; exact u)]
    have k1 : quadB.k 1 = 0 := by decide +kernel
    have k2 : quadB.k 2 = 0 := by decide +kernel
    have k3 : quadB.k 3 = 1 := by decide +kernel
    have k4 : quadB.k 4 = 1 := by decide +kernel
    have k5 : quadB.k 5 = 1 := by decide +kernel
    simp [e0, k1, k2, k3, k4, k5, u, v.le]
    ring
  have := C121_two_partial 2 1 le_rfl (by norm_num) ⟨quadB, [0, 1/2, 1]⟩ ⟨quadB, [1, 3/2, 2]⟩ (quad_segment rfl) (quad_segment rfl)
    1 1 (by norm_num) (by norm_num) (1 + X) (1 + X) 1 (by norm_num)
    (by
      intro x u v
      rw [hq _ (by simpa using v) (by simpa using u)]
      simp
      ring)
    (by
      intro x u v
      rw [div_one, hq _ u v]
      simp
      ring)
    (fun _ _ => rfl) (by decide +kernel) [⟨⟨[0, 0, 0, 1, 2, 2, 2], 2⟩, [0, 1/2, 3/2, 2]⟩] (by
      simp only [concatSplines, concatGo, List.map_cons, List.map_nil, joinAll, getInsert, Option.bind_some, line_join]
      rfl)
  obtain ⟨q, e, -, -, hE⟩ := this
  rw [List.singleton_inj] at e
  rw [e]
  exact hE x h0 (by linarith)

end Verif.Spline
