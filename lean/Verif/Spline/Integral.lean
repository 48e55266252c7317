import Verif.Spline.Smooth
import Mathlib.MeasureTheory.Integral.DivergenceTheorem

/-! # Property C06: integrals of splines -/

set_option linter.unusedSectionVars false

namespace Verif.Spline

open Finset

section Model
variable {K : Type*} [Field K] [LinearOrder K]

/-- `running_integral`, spline_extra.py:58-76: the knots with the first and the last one repeated
once more, degree raised by one, and the coefficients of the loop 69-70. -/
def runningIntegral (s : BSpline K) : BSpline K :=
  let knots := s.basis.knots
  let basisInt : Basis K := ⟨knots.headD 0 :: knots ++ [knots.getLastD 0], s.basis.degree + 1⟩
  ⟨basisInt, (List.range (basisInt.len - 1)).foldl (fun c i =>
      c ++ [c.getD i 0 + (knots.getD (s.basis.degree + i + 1) 0 - knots.getD i 0)
        / ((s.basis.degree + 1 : ℕ) : K) * s.coeffs.getD i 0]) [0]⟩

/-- `definite_integral`, spline_extra.py:79-85. -/
def definiteIntegral (s : BSpline K) (a b : K) : K :=
  (runningIntegral s).eval b - (runningIntegral s).eval a

/-- `BSpline.integral`, spline.py:477-487: the diagonal matrix of
`(knots[d+1:] - knots[:-(d+1)])/(d+1)` times the coefficients, summed. -/
def BSpline.integral (s : BSpline K) : K :=
  let d := s.basis.degree
  let diag := ((s.basis.knots.drop (d + 1)).zipWith (· - ·)
    (s.basis.knots.take (s.basis.knots.length - (d + 1)))).map (· / ((d + 1 : ℕ) : K))
  (diag.zipWith (· * ·) s.coeffs).sum

end Model

section Lemmas
variable {K : Type*} [Field K] [LinearOrder K] [IsStrictOrderedRing K]

theorem getD_eq_k {b : Basis K} {i : ℕ} (hi : i < b.knots.length) (d : K) :
    b.knots.getD i d = b.k i := by
  unfold Basis.k
  rw [List.getD_eq_getElem _ _ hi, List.getD_eq_getElem _ _ hi]

/-- Coefficients of the running integral: partial sums. -/
theorem fold_partial_sums (f : ℕ → K) (n : ℕ) :
    (List.range n).foldl (fun c i => c ++ [c.getD i 0 + f i]) [0]
      = (List.range (n + 1)).map (fun i => ∑ j ∈ range i, f j) := by
  induction n with
  | zero => simp
  | succ n ih =>
    rw [List.range_succ, List.foldl_append, ih, List.foldl_cons, List.foldl_nil,
      List.range_succ (n := n + 1), List.map_append, List.map_cons, List.map_nil]
    congr 2
    rw [List.getD_eq_getElem _ _ (by simp), List.getElem_map, List.getElem_range, Finset.sum_range_succ]

theorem runningIntegral_spec {s : BSpline K} (hb : s.basis.Clamped) :
    (runningIntegral s).basis.degree = s.basis.degree + 1 ∧
    (runningIntegral s).basis.len = s.basis.len + 1 ∧
    (runningIntegral s).basis.k 0 = s.basis.k 0 ∧
    (∀ i, (runningIntegral s).basis.k (i + 1) = s.basis.k i) ∧
    (runningIntegral s).WF ∧ (runningIntegral s).basis.Clamped ∧
    ∀ i, i ≤ s.basis.len → (runningIntegral s).coeffs.getD i 0
      = ∑ j ∈ range i, (s.basis.k (s.basis.degree + j + 1) - s.basis.k j)
          / ((s.basis.degree + 1 : ℕ) : K) * s.coeffs.getD j 0 := by
  have hl := hb.length_eq
  have hlt := hb.lt_len
  have hkn : (runningIntegral s).basis.knots
      = s.basis.knots.headD 0 :: s.basis.knots ++ [s.basis.knots.getLastD 0] := rfl
  have hdeg : (runningIntegral s).basis.degree = s.basis.degree + 1 := rfl
  have hkl : (runningIntegral s).basis.knots.length = s.basis.knots.length + 2 := by
    rw [hkn]; simp
  have hlen : (runningIntegral s).basis.len = s.basis.len + 1 := by
    unfold Basis.len at *; rw [hkl, hdeg]; omega
  have hk0 : (runningIntegral s).basis.k 0 = s.basis.k 0 := by
    unfold Basis.k
    rw [hkn]
    simp only [List.cons_append, List.getD_cons_zero]
    exact headD_eq_k hb
  have hk : ∀ i, (runningIntegral s).basis.k (i + 1) = s.basis.k i := by
    intro i
    have hlast : (runningIntegral s).basis.knots.getLastD 0 = s.basis.knots.getLastD 0 := by
      rw [hkn, List.getLastD_eq_getLast?, List.getLast?_concat]; rfl
    unfold Basis.k
    rw [hlast, hkn, List.cons_append, List.getD_cons_succ]
    rcases Nat.lt_or_ge i s.basis.knots.length with h | h
    · rw [List.getD_append _ _ _ _ h]
    · rw [List.getD_append_right _ _ _ _ h, List.getD_eq_default s.basis.knots _ h]
      rcases Nat.eq_zero_or_pos (i - s.basis.knots.length) with z | z
      · rw [z]; rfl
      · rw [List.getD_eq_default]; simp; omega
  have hco : (runningIntegral s).coeffs = (List.range (s.basis.len + 1)).map
      (fun i => ∑ j ∈ range i, (s.basis.knots.getD (s.basis.degree + j + 1) 0 - s.basis.knots.getD j 0)
          / ((s.basis.degree + 1 : ℕ) : K) * s.coeffs.getD j 0) := by
    rw [← fold_partial_sums]
    have : (runningIntegral s).basis.len - 1 = s.basis.len := by omega
    rw [← this]
    rfl
  refine ⟨hdeg, hlen, hk0, hk, ?_, ⟨?_, ?_, ?_, ?_, ?_⟩, ?_⟩
  · unfold BSpline.WF; rw [hco, hlen]; simp
  · rw [hkn, List.cons_append, List.pairwise_cons]
    have hle : ∀ x ∈ s.basis.knots, s.basis.k 0 ≤ x ∧ x ≤ s.basis.k s.basis.len := by
      intro x hx
      obtain ⟨i, hi, rfl⟩ := List.getElem_of_mem hx
      have e : s.basis.knots[i] = s.basis.k i := by
        unfold Basis.k; rw [List.getD_eq_getElem _ _ hi]
      rw [e]
      refine ⟨hb.mono (Nat.zero_le _), ?_⟩
      rcases Nat.lt_or_ge i s.basis.len with h | h
      · exact hb.mono h.le
      · rw [hb.last _ h]
    constructor
    · intro x hx
      rw [headD_eq_k hb]
      rw [List.mem_append] at hx
      rcases hx with h | h
      · exact (hle x h).1
      · rw [List.mem_singleton] at h
        rw [h, getLastD_eq_k hb]; exact hb.mono (Nat.zero_le _)
    · rw [List.pairwise_append]
      refine ⟨hb.sorted, by simp, ?_⟩
      intro x hx y hy
      rw [List.mem_singleton] at hy
      rw [hy, getLastD_eq_k hb]; exact (hle x hx).2
  · rw [hkl, hdeg]; have := hb.size; omega
  · intro i hi
    rw [hdeg] at hi
    rw [hk0]
    rcases i with _ | i
    · exact hk0
    · rw [hk, hb.first i (by omega)]
  · rw [hdeg, hk, hk]; exact hb.start
  · intro i hi h'
    rw [hlen] at *
    rcases i with _ | i
    · omega
    · rw [hk, hk, hb.last i (by omega)]
  · intro i hi
    rw [hco, List.getD_eq_getElem _ _ (by simp; omega), List.getElem_map, List.getElem_range]
    refine Finset.sum_congr rfl fun j hj => ?_
    have hj := Finset.mem_range.1 hj
    rw [getD_eq_k (by omega), getD_eq_k (by omega)]

/-- Supports are non-degenerate when knots are repeated at most `degree + 1` times. -/
theorem support_pos {b : Basis K} (hb : b.Clamped)
    (hint : ∀ τ, b.k 0 < τ → τ < b.k b.len → b.knots.count τ ≤ b.degree + 1)
    (hlast : b.knots.count (b.k b.len) ≤ b.degree + 1) {j : ℕ} (hj : j < b.len) :
    b.k j < b.k (j + b.degree + 1) := by
  have hl := hb.length_eq
  have hmono := hb.mono
  refine lt_of_le_of_ne (hmono (by omega)) ?_
  intro hz
  set τ := b.k j with hτ
  have f := filter_le_length b.knots τ
  have a1 : (b.knots.filter (· < τ)).length ≤ j := by
    by_contra hc
    push Not at hc
    have := (k_lt_iff hb.sorted τ j (by omega)).2 hc
    exact lt_irrefl _ this
  have a2 : j + b.degree + 1 < (b.knots.filter (· ≤ τ)).length :=
    (k_le_iff hb.sorted τ _ (by omega)).1 hz.symm.le
  have hgt : b.k 0 < τ := by
    rw [hz]
    exact (hb.k_degree ▸ hb.start).trans_le (hmono (by omega))
  rcases lt_or_ge τ (b.k b.len) with h | h
  · have := hint τ hgt h
    omega
  · have he : τ = b.k b.len := le_antisymm (hmono hj.le) h
    rw [← he] at hlast
    omega

/-- The running integral differentiates back to the spline. -/
theorem runningIntegral_deriv {s : BSpline K} (hb : s.basis.Clamped) (hs : s.WF)
    (hpos : ∀ j, j < s.basis.len → s.basis.k j < s.basis.k (j + s.basis.degree + 1)) :
    (runningIntegral s).derivative 1 = s := by
  obtain ⟨h1, h2, h3, h4, h5, h6, h7⟩ := runningIntegral_spec hb
  obtain ⟨g1, g2, g3, g4, g5, g6⟩ := derivative_one_spec h6 h5 (by omega)
  have hl := hb.length_eq
  have hlt := hb.lt_len
  have hsl : s.coeffs.length = s.basis.len := hs
  have hbasis : ((runningIntegral s).derivative 1).basis = s.basis := by
    have hkn : ((runningIntegral s).derivative 1).basis.knots = s.basis.knots := by
      show ((s.basis.knots.headD 0 :: s.basis.knots ++ [s.basis.knots.getLastD 0]).drop 1).take
        ((s.basis.knots.headD 0 :: s.basis.knots ++ [s.basis.knots.getLastD 0]).length - 2) = _
      simp
    have hdg : ((runningIntegral s).derivative 1).basis.degree = s.basis.degree := by rw [g2, h1]; omega
    calc ((runningIntegral s).derivative 1).basis
        = ⟨((runningIntegral s).derivative 1).basis.knots, ((runningIntegral s).derivative 1).basis.degree⟩ := rfl
      _ = s.basis := by rw [hkn, hdg]
  have hcoe : ((runningIntegral s).derivative 1).coeffs = s.coeffs := by
    have g4' : ((runningIntegral s).derivative 1).coeffs.length = s.basis.len := by
      have : ((runningIntegral s).derivative 1).coeffs.length = ((runningIntegral s).derivative 1).basis.len := g4
      rw [this, hbasis]
    apply List.ext_getElem
    · omega
    · intro i a1 a2
      have := g6 i (by omega)
      rw [List.getD_eq_getElem _ _ a1] at this
      rw [this, h7 i (by omega), h7 (i + 1) (by omega), Finset.sum_range_succ, add_sub_cancel_left, h1,
        show i + (s.basis.degree + 1) + 1 = (i + s.basis.degree + 1) + 1 by omega, h4, h4,
        List.getD_eq_getElem _ _ a2, show s.basis.degree + i + 1 = i + s.basis.degree + 1 by omega]
      have hp := sub_pos.2 (hpos i (by omega))
      have hd : ((s.basis.degree + 1 : ℕ) : K) ≠ 0 := by positivity
      field_simp
  calc (runningIntegral s).derivative 1
      = ⟨((runningIntegral s).derivative 1).basis, ((runningIntegral s).derivative 1).coeffs⟩ := rfl
    _ = s := by rw [hbasis, hcoe]

/-- `integral()` is the last coefficient of the running integral. -/
theorem integral_eq_sum {s : BSpline K} (hb : s.basis.Clamped) (hs : s.WF) :
    s.integral = ∑ j ∈ range s.basis.len, (s.basis.k (s.basis.degree + j + 1) - s.basis.k j)
          / ((s.basis.degree + 1 : ℕ) : K) * s.coeffs.getD j 0 := by
  have hl := hb.length_eq
  have hsl : s.coeffs.length = s.basis.len := hs
  unfold BSpline.integral
  dsimp only
  rw [← sum_map_range]
  congr 1
  apply List.ext_getElem
  · simp; omega
  · intro i a1 a2
    simp only [List.getElem_zipWith, List.getElem_map, List.getElem_range, List.getElem_take,
      List.getElem_drop]
    have hi : i < s.basis.len := by simpa using a2
    unfold Basis.k
    rw [List.getD_eq_getElem _ _ (by omega), List.getD_eq_getElem _ _ (by omega),
      List.getD_eq_getElem _ _ (by omega)]
    congr 4; omega

end Lemmas

/-! ### Measurability and boundedness -/

theorem measurable_cox (k : ℕ → ℝ) (p d i : ℕ) : Measurable (fun x => cox k p x d i) := by
  induction d generalizing i with
  | zero =>
    simp only [cox, ind]
    split_ifs with h
    · exact Measurable.ite measurableSet_Icc measurable_const measurable_const
    · exact Measurable.ite measurableSet_Ioc measurable_const measurable_const
  | succ d ih =>
    simp only [cox_succ]
    have := ih i
    have := ih (i + 1)
    fun_prop

theorem measurable_eval {s : BSpline ℝ} (hs : s.WF) : Measurable s.eval := by
  have : s.eval = fun x => ∑ i ∈ range s.basis.len, s.coeffs.getD i 0 * s.basis.fn i x :=
    funext fun x => BSpline.eval_eq hs x
  rw [this]
  refine Finset.measurable_sum _ fun i _ => ?_
  exact (measurable_cox _ _ _ _).const_mul _

theorem eval_bounded {s : BSpline ℝ} (hb : s.basis.Clamped) (hs : s.WF) :
    ∃ M, ∀ x ∈ Set.Icc (s.basis.k 0) (s.basis.k s.basis.len), ‖s.eval x‖ ≤ M := by
  refine ⟨∑ i ∈ range s.basis.len, |s.coeffs.getD i 0|, fun x hx => ?_⟩
  rw [BSpline.eval_eq hs, Real.norm_eq_abs]
  refine (Finset.abs_sum_le_sum_abs _ _).trans (Finset.sum_le_sum fun i hi => ?_)
  rw [abs_mul]
  have h0 : 0 ≤ s.basis.fn i x := Basis.fn_nonneg hb i x
  have h1 : s.basis.fn i x ≤ 1 := by
    rw [← Basis.sum_fn hb hx.1 hx.2]
    exact Finset.single_le_sum (f := fun i => s.basis.fn i x) (fun j _ => Basis.fn_nonneg hb j x) hi
  rw [abs_of_nonneg h0]
  exact mul_le_of_le_one_right (abs_nonneg _) h1

theorem intervalIntegrable_eval {s : BSpline ℝ} (hb : s.basis.Clamped) (hs : s.WF) {a b : ℝ}
    (ha : s.basis.k 0 ≤ a) (hab : a ≤ b) (hbk : b ≤ s.basis.k s.basis.len) :
    IntervalIntegrable s.eval MeasureTheory.volume a b := by
  obtain ⟨M, hM⟩ := eval_bounded hb hs
  rw [intervalIntegrable_iff_integrableOn_Icc_of_le hab]
  refine MeasureTheory.Measure.integrableOn_of_bounded (M := M) (by simp)
    (measurable_eval hs).aestronglyMeasurable ?_
  rw [MeasureTheory.ae_restrict_iff' measurableSet_Icc]
  exact Filter.Eventually.of_forall fun x hx => hM x ⟨ha.trans hx.1, hx.2.trans hbk⟩

/-- **C06** `definite_integral(s, a, b)` is the integral of the trajectory over `[a, b]`, for every
`a ≤ b` in its time interval. -/
theorem C06_definite (s : BSpline ℝ) (hb : s.basis.Clamped) (hs : s.WF)
    (hint : ∀ τ, s.basis.knots.headD 0 < τ → τ < s.basis.knots.getLastD 0 →
      s.basis.knots.count τ ≤ s.basis.degree + 1)
    (hlast : s.basis.knots.count (s.basis.knots.getLastD 0) ≤ s.basis.degree + 1)
    (a b : ℝ) (ha : s.basis.knots.headD 0 ≤ a) (hab : a ≤ b) (hbk : b ≤ s.basis.knots.getLastD 0) :
    definiteIntegral s a b = ∫ x in a..b, s.eval x := by
  rw [headD_eq_k hb] at *
  rw [getLastD_eq_k hb] at *
  obtain ⟨h1, h2, h3, h4, h5, h6, h7⟩ := runningIntegral_spec hb
  have hder := runningIntegral_deriv hb hs (fun j hj => support_pos hb hint hlast hj)
  have hcont := continuousOn_k h6 h5 (by omega) (by
    intro τ t0 t1
    rw [h3] at t0
    rw [h2, h4] at t1
    have hkn : (runningIntegral s).basis.knots
      = s.basis.knots.headD 0 :: s.basis.knots ++ [s.basis.knots.getLastD 0] := rfl
    have := hint τ t0 t1
    rw [hkn, headD_eq_k hb, getLastD_eq_k hb, List.count_append, List.count_cons_of_ne t0.ne,
      List.count_cons_of_ne t1.ne', List.count_nil, h1]
    omega)
  rw [h3, h2, h4] at hcont
  unfold definiteIntegral
  symm
  refine MeasureTheory.integral_eq_of_hasDerivAt_off_countable_of_le _ _ hab
    (s := {x | x ∈ (runningIntegral s).basis.knots})
    (List.finite_toSet _).countable (hcont.mono (Set.Icc_subset_Icc ha hbk)) ?_
    (intervalIntegrable_eval hb hs ha hab hbk)
  intro x hx
  have := hasDerivAt_one h6 h5 (by omega) (x := x) (by rw [h3]; exact ha.trans_lt hx.1.1)
    (by rw [h2, h4]; exact hx.1.2.trans_le hbk) hx.2
  rwa [hder] at this

/-- **C06** `integral()` is the integral of the trajectory over its whole time interval. -/
theorem C06_integral (s : BSpline ℝ) (hb : s.basis.Clamped) (hs : s.WF)
    (hint : ∀ τ, s.basis.knots.headD 0 < τ → τ < s.basis.knots.getLastD 0 →
      s.basis.knots.count τ ≤ s.basis.degree + 1)
    (hlast : s.basis.knots.count (s.basis.knots.getLastD 0) ≤ s.basis.degree + 1) :
    s.integral = ∫ x in (s.basis.knots.headD 0)..(s.basis.knots.getLastD 0), s.eval x := by
  have hle : s.basis.knots.headD 0 ≤ s.basis.knots.getLastD 0 := by
    rw [headD_eq_k hb, getLastD_eq_k hb]; exact hb.mono (Nat.zero_le _)
  rw [← C06_definite s hb hs hint hlast _ _ le_rfl hle le_rfl]
  obtain ⟨h1, h2, h3, h4, h5, h6, h7⟩ := runningIntegral_spec hb
  have hlt := hb.lt_len
  have hl := hb.length_eq
  have hcl : (runningIntegral s).coeffs.length = (runningIntegral s).basis.len := h5
  obtain ⟨e1, e2⟩ := C03_endpoints (runningIntegral s) h6 h5 (by
    rw [h2, h4, Nat.add_sub_cancel]
    have := support_pos hb (by rwa [headD_eq_k hb, getLastD_eq_k hb] at hint)
      (by rwa [getLastD_eq_k hb] at hlast) (j := s.basis.len - 1) (by omega)
    rw [hb.last (s.basis.len - 1 + s.basis.degree + 1) (by omega)] at this
    obtain ⟨m, hm⟩ : ∃ m, s.basis.len = m + 1 := ⟨s.basis.len - 1, by omega⟩
    rw [hm] at this ⊢
    rw [h4]
    exact this)
  rw [headD_eq_k h6] at e1
  rw [getLastD_eq_k h6, h2, h4] at e2
  unfold definiteIntegral
  rw [headD_eq_k hb, getLastD_eq_k hb, e2, ← h3, e1, integral_eq_sum hb hs, ← h7 _ le_rfl]
  have z : (runningIntegral s).coeffs.headD 0 = 0 := by
    rw [List.headD_eq_head?_getD, List.head?_eq_getElem?, ← List.getD_eq_getElem?_getD,
      h7 0 (Nat.zero_le _), Finset.sum_range_zero]
  rw [z, sub_zero, List.getLastD_eq_getLast?, List.getLast?_eq_getElem?, ← List.getD_eq_getElem?_getD,
    hcl, h2, Nat.add_sub_cancel]

/-- **C06** Integrals over adjacent intervals add up. -/
theorem C06_additive {K : Type*} [Field K] [LinearOrder K] [IsStrictOrderedRing K]
    (s : BSpline K) (a b c : K) :
    definiteIntegral s a b + definiteIntegral s b c = definiteIntegral s a c := by
  unfold definiteIntegral; ring

/-- **C06** The running integral starts at zero and differentiates back to the spline. -/
theorem C06_running {K : Type*} [Field K] [LinearOrder K] [IsStrictOrderedRing K]
    (s : BSpline K) (hb : s.basis.Clamped) (hs : s.WF)
    (hint : ∀ τ, s.basis.knots.headD 0 < τ → τ < s.basis.knots.getLastD 0 →
      s.basis.knots.count τ ≤ s.basis.degree + 1)
    (hlast : s.basis.knots.count (s.basis.knots.getLastD 0) ≤ s.basis.degree + 1) :
    (runningIntegral s).eval (s.basis.knots.headD 0) = 0 ∧ (runningIntegral s).derivative 1 = s := by
  obtain ⟨h1, h2, h3, h4, h5, h6, h7⟩ := runningIntegral_spec hb
  rw [headD_eq_k hb, getLastD_eq_k hb] at hint
  rw [getLastD_eq_k hb] at hlast
  refine ⟨?_, runningIntegral_deriv hb hs (fun j hj => support_pos hb hint hlast hj)⟩
  rw [headD_eq_k hb, ← h3, BSpline.eval_eq h5, Finset.sum_eq_single 0]
  · rw [h7 0 (Nat.zero_le _), Finset.sum_range_zero, zero_mul]
  · intro i _ hi
    rw [Basis.fn, cox_first h6.first h6.mono h6.start _ _ le_rfl, if_neg (by omega), mul_zero]
  · intro h
    exact absurd (Finset.mem_range.2 (by omega)) h

example : definiteIntegral (BSpline.mk exBasisR [1, 2, 4, 3]) (1/4) (3/4)
    = ∫ x in (1/4)..(3/4), (BSpline.mk exBasisR [1, 2, 4, 3]).eval x :=
  C06_definite ⟨exBasisR, [1, 2, 4, 3]⟩ exBasisR_clamped rfl (by
    intro τ h0 h1
    have := exBasisR_count (τ := τ) (by simpa [exBasisR] using h0) (by simpa [exBasisR] using h1)
    show exBasisR.knots.count τ ≤ 3
    omega) (by
    show exBasisR.knots.count (exBasisR.knots.getLastD 0) ≤ 3
    have : exBasisR.knots.getLastD 0 = 1 := rfl
    rw [this]
    norm_num [exBasisR, List.count_cons]) _ _ (by norm_num [exBasisR]) (by norm_num)
    (by norm_num [exBasisR])

example : (BSpline.mk exBasis [1, 2, 4, 3]).integral = 8 / 3 := by
  norm_num [BSpline.integral, exBasis]

end Verif.Spline
