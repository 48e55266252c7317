import Verif.Spline.Lemmas
import Mathlib.Tactic.IntervalCases

/-!
# Properties C01-C03: basis functions and convex hull

`Basis.eval b x` is the row of numbers returned by `BSplineBasis.eval_basis(x)`;
`BSpline.eval s x` is the number returned by calling a spline.
-/

set_option linter.unusedSectionVars false

namespace Verif.Spline

open Finset

variable {K : Type*} [Field K] [LinearOrder K] [IsStrictOrderedRing K]

/-- A quadratic clamped basis with one interior knot, used in the examples. -/
def exBasis : Basis ℚ := ⟨[0, 0, 0, 1/2, 1, 1, 1], 2⟩

theorem exBasis_clamped : exBasis.Clamped where
  sorted := by unfold exBasis; norm_num
  size := by decide
  first := by
    intro i hi
    have : i ≤ 2 := hi
    interval_cases i <;> rfl
  start := by unfold exBasis Basis.k; norm_num
  ends := by
    intro i h1 h2
    have a : 4 ≤ i := h1
    have b : i < 7 := h2
    interval_cases i <;> rfl

/-- A basis with a double interior knot and a non-uniform, shifted domain. -/
def exBasis2 : Basis ℚ := ⟨[-1, -1, -1, 0, 0, 5, 5, 5], 2⟩

theorem exBasis2_clamped : exBasis2.Clamped where
  sorted := by unfold exBasis2; norm_num
  size := by decide
  first := by
    intro i hi
    have : i ≤ 2 := hi
    interval_cases i <;> rfl
  start := by unfold exBasis2 Basis.k; norm_num
  ends := by
    intro i h1 h2
    have a : 5 ≤ i := h1
    have b : i < 8 := h2
    interval_cases i <;> rfl

/-- **C01** One value is returned per basis function: as many as there are knots, minus the degree and
one. -/
theorem C01_length (b : Basis K) (x : K) : (b.eval x).length = b.knots.length - b.degree - 1 := by
  unfold Basis.eval Basis.len
  rw [List.length_map, List.length_range]

/-- **C01** Every value returned by evaluating a clamped basis is non-negative. -/
theorem C01_nonneg (b : Basis K) (hb : b.Clamped) (x : K) : ∀ v ∈ b.eval x, 0 ≤ v := by
  intro v hv
  obtain ⟨i, -, rfl⟩ := List.mem_map.1 hv
  exact Basis.fn_nonneg hb i x

/-- **C01** Inside the domain (between the first and the last knot, both included)
the returned values add up to exactly one. -/
theorem C01_sum_one (b : Basis K) (hb : b.Clamped) (x : K)
    (h0 : b.knots.headD 0 ≤ x) (h1 : x ≤ b.knots.getLastD 0) : (b.eval x).sum = 1 := by
  unfold Basis.eval
  rw [sum_map_range]
  have hl := hb.length_eq
  apply Basis.sum_fn hb
  · unfold Basis.k
    rw [List.getD_eq_getElem _ _ (by omega)]
    rw [List.headD_eq_head?_getD, List.head?_eq_getElem?,
      List.getElem?_eq_getElem (by omega)] at h0
    exact h0
  · rw [← hb.last b.knots.length (by omega)]
    unfold Basis.k
    rw [List.getD_eq_default _ _ le_rfl]
    exact h1

/-- **C01** Outside the domain all returned values are zero. -/
theorem C01_outside (b : Basis K) (hb : b.Clamped) (x : K)
    (h : x < b.knots.headD 0 ∨ b.knots.getLastD 0 < x) : ∀ v ∈ b.eval x, v = 0 := by
  intro v hv
  obtain ⟨i, -, rfl⟩ := List.mem_map.1 hv
  have hl := hb.length_eq
  rcases h with h | h
  · apply Basis.fn_left hb.sorted
    unfold Basis.k
    rw [List.getD_eq_getElem _ _ (by omega)]
    rw [List.headD_eq_head?_getD, List.head?_eq_getElem?,
      List.getElem?_eq_getElem (by omega)] at h
    exact h
  · apply Basis.fn_right hb
    rw [← hb.last b.knots.length (by omega)]
    unfold Basis.k
    rw [List.getD_eq_default _ _ le_rfl]
    exact h

/-- Non-vacuity: values of the example basis at an interior knot, at the first
knot and at the last knot, computed by the model of `eval_basis`. -/
example : exBasis.eval (1/2) = [0, 1/2, 1/2, 0] ∧ exBasis.eval 0 = [1, 0, 0, 0]
    ∧ exBasis.eval 1 = [0, 0, 0, 1] ∧ exBasis.eval 2 = [0, 0, 0, 0] := by
  have hr : List.range exBasis.len = [0, 1, 2, 3] := by rfl
  refine ⟨?_, ?_, ?_, ?_⟩ <;>
  · simp only [Basis.eval, hr, List.map, Basis.fn]
    simp only [exBasis, Basis.k, cox, ind]
    norm_num

example : (exBasis.eval (1/3)).sum = 1 ∧ (exBasis2.eval 0).sum = 1 :=
  ⟨C01_sum_one _ exBasis_clamped _ (by norm_num [exBasis]) (by norm_num [exBasis]),
   C01_sum_one _ exBasis2_clamped _ (by norm_num [exBasis2]) (by norm_num [exBasis2])⟩

/-- **C02** If `support()` lists the interval `(a, c)` for basis function `i`, the value
of that function is zero at every time outside `[a, c]`. -/
theorem C02_support (b : Basis K) (hb : b.Clamped) (i : ℕ) (a c x v : K)
    (hs : b.support[i]? = some (a, c)) (hv : (b.eval x)[i]? = some v)
    (hx : x < a ∨ c < x) : v = 0 := by
  have hl := hb.length_eq
  have hi : i < b.len := by
    rw [List.getElem?_eq_some_iff] at hv
    obtain ⟨h, -⟩ := hv
    simpa [Basis.eval] using h
  have hv' : b.fn i x = v := by
    unfold Basis.eval at hv
    rw [List.getElem?_map, List.getElem?_range hi] at hv
    simpa using hv
  have ha : b.k i = a ∧ b.k (i + b.degree + 1) = c := by
    unfold Basis.support at hs
    rw [List.getElem?_eq_some_iff] at hs
    obtain ⟨h, e⟩ := hs
    rw [List.getElem_zip] at e
    unfold Basis.k
    rw [List.getD_eq_getElem _ _ (by omega), List.getD_eq_getElem _ _ (by omega)]
    simp only [List.getElem_take, List.getElem_drop, Prod.mk.injEq] at e
    refine ⟨e.1, ?_⟩
    rw [← e.2]; congr 1; omega
  rw [← hv', Basis.fn]
  by_cases h0 : b.k 0 < x
  · apply cox_eq_zero hb.mono h0
    rw [ha.1, ha.2]
    exact hx.imp le_of_lt id
  · rcases hx with hx | hx
    · rcases (not_lt.1 h0).lt_or_eq with h0 | h0
      · exact Basis.fn_left hb.sorted i h0
      · rw [h0, cox_first hb.first hb.mono hb.start _ _ le_rfl, if_neg]
        rintro (h | h)
        · have : i = 0 := by omega
          subst this; rw [← ha.1, h0] at hx; exact lt_irrefl _ hx
        · have := hb.first i h.2
          rw [← ha.1, this, h0] at hx; exact lt_irrefl _ hx
    · exfalso
      rw [← ha.2] at hx
      exact absurd ((hb.mono (Nat.zero_le _)).trans_lt hx) h0

/-- **C02** Changing one coefficient changes the spline only on the support of the
corresponding basis function. -/
theorem C02_local (b : Basis K) (hb : b.Clamped) (c : List K) (hc : c.length = b.len)
    (i : ℕ) (a e x v : K) (hs : b.support[i]? = some (a, e)) (hx : x < a ∨ e < x) :
    (BSpline.mk b (c.set i v)).eval x = (BSpline.mk b c).eval x := by
  rw [BSpline.eval_eq (s := ⟨b, c.set i v⟩) (by simp [BSpline.WF, hc]),
    BSpline.eval_eq (s := ⟨b, c⟩) hc]
  refine Finset.sum_congr rfl fun j hj => ?_
  have hj' : j < b.len := Finset.mem_range.1 hj
  by_cases hij : i = j
  · subst hij
    have : b.fn i x = 0 := C02_support b hb i a e x _ hs (by
      unfold Basis.eval
      rw [List.getElem?_map, List.getElem?_range hj']; rfl) hx
    simp only [this, mul_zero]
  · congr 1
    simp only [List.getD_eq_getElem?_getD, List.getElem?_set_ne hij]

example : exBasis.support = [(0, 1/2), (0, 1), (0, 1), (1/2, 1)] := by rfl

example : (BSpline.mk exBasis [7, 2, 3, 4]).eval (3/4) = (BSpline.mk exBasis [1, 2, 3, 4]).eval (3/4) :=
  C02_local exBasis exBasis_clamped [1, 2, 3, 4] rfl 0 0 (1/2) (3/4) 7 rfl (Or.inr (by norm_num))

/-- **C03** Bounds on the coefficients are bounds on the spline at every time of the
domain. -/
theorem C03_bounds (s : BSpline K) (hb : s.basis.Clamped) (hs : s.WF) (lo hi : K)
    (hc : ∀ c ∈ s.coeffs, lo ≤ c ∧ c ≤ hi) (x : K)
    (h0 : s.basis.knots.headD 0 ≤ x) (h1 : x ≤ s.basis.knots.getLastD 0) :
    lo ≤ s.eval x ∧ s.eval x ≤ hi := by
  have hone := C01_sum_one s.basis hb x h0 h1
  unfold Basis.eval at hone
  rw [sum_map_range] at hone
  have hget : ∀ i ∈ range s.basis.len, lo ≤ s.coeffs.getD i 0 ∧ s.coeffs.getD i 0 ≤ hi := by
    intro i hi'
    have : i < s.coeffs.length := by rw [hs]; exact Finset.mem_range.1 hi'
    rw [List.getD_eq_getElem _ _ this]
    exact hc _ (List.getElem_mem _)
  rw [BSpline.eval_eq hs]
  constructor
  · calc lo = ∑ i ∈ range s.basis.len, lo * s.basis.fn i x := by
          rw [← Finset.mul_sum, hone, mul_one]
      _ ≤ _ := Finset.sum_le_sum fun i h =>
          mul_le_mul_of_nonneg_right (hget i h).1 (Basis.fn_nonneg hb i x)
  · calc _ ≤ ∑ i ∈ range s.basis.len, hi * s.basis.fn i x := Finset.sum_le_sum fun i h =>
          mul_le_mul_of_nonneg_right (hget i h).2 (Basis.fn_nonneg hb i x)
      _ = hi := by rw [← Finset.mul_sum, hone, mul_one]

/-- **C03** is tight at the two ends of the horizon: the first and the last coefficient are
the values at the first and the last knot (so initial/terminal conditions imposed on
coefficients are conditions on the trajectory). -/
theorem C03_endpoints (s : BSpline K) (hb : s.basis.Clamped) (hs : s.WF)
    (hstop : s.basis.k (s.basis.len - 1) < s.basis.k s.basis.len) :
    s.eval (s.basis.knots.headD 0) = s.coeffs.headD 0 ∧
    s.eval (s.basis.knots.getLastD 0) = s.coeffs.getLastD 0 := by
  have hl := hb.length_eq
  have hlt := hb.lt_len
  have hcl : s.coeffs.length = s.basis.len := hs
  have e0 : s.basis.knots.headD 0 = s.basis.k 0 := by
    unfold Basis.k
    rw [List.getD_eq_getElem _ _ (by omega), List.headD_eq_head?_getD, List.head?_eq_getElem?,
      List.getElem?_eq_getElem (by omega), Option.getD_some]
  have e1 : s.basis.knots.getLastD 0 = s.basis.k s.basis.len := by
    rw [← hb.last s.basis.knots.length (by omega)]
    unfold Basis.k
    rw [List.getD_eq_default _ _ le_rfl]
  rw [e0, e1, BSpline.eval_eq hs, BSpline.eval_eq hs]
  constructor
  · rw [Finset.sum_eq_single 0]
    · rw [Basis.fn, cox_first hb.first hb.mono hb.start _ _ le_rfl, if_pos (by omega), mul_one,
        List.headD_eq_head?_getD, List.head?_eq_getElem?, List.getD_eq_getElem?_getD]
    · intro i _ hi
      rw [Basis.fn, cox_first hb.first hb.mono hb.start _ _ le_rfl, if_neg (by omega), mul_zero]
    · intro h; exact absurd (Finset.mem_range.2 (by omega)) h
  · rw [Finset.sum_eq_single (s.basis.len - 1)]
    · rw [Basis.fn, cox_last (by omega) hb.last hb.mono hstop hb.first_lt_last, if_pos rfl, mul_one,
        List.getLastD_eq_getLast?, List.getLast?_eq_getElem?, List.getD_eq_getElem?_getD, hcl]
    · intro i _ hi
      rw [Basis.fn, cox_last (by omega) hb.last hb.mono hstop hb.first_lt_last, if_neg hi, mul_zero]
    · intro h; exact absurd (Finset.mem_range.2 (by omega)) h

example : (BSpline.mk exBasis2 [3, 1, 4, 1, 5]).eval (-1) = 3
    ∧ (BSpline.mk exBasis2 [3, 1, 4, 1, 5]).eval 5 = 5 := by
  have h := C03_endpoints (BSpline.mk exBasis2 [3, 1, 4, 1, 5]) exBasis2_clamped
    (by rfl) (by norm_num [exBasis2, Basis.k, Basis.len])
  exact h

example : 1 ≤ (BSpline.mk exBasis [1, 2, 4, 3]).eval (1/3)
    ∧ (BSpline.mk exBasis [1, 2, 4, 3]).eval (1/3) ≤ 4 :=
  C03_bounds ⟨exBasis, _⟩ exBasis_clamped (by rfl) 1 4 (by norm_num) _
    (by norm_num [exBasis]) (by norm_num [exBasis])

end Verif.Spline
