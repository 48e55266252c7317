import Verif.Spline.Props3
import Mathlib.Analysis.Calculus.FDeriv.Extend
import Mathlib.Analysis.Calculus.ContDiff.Basic

/-! # Property C51: trajectories are as smooth as their knots allow -/

set_option linter.unusedSectionVars false

namespace Verif.Spline

open Finset Set

/-- Continuity from the right at every time before the end whose knot multiplicity is at most the
degree; obtained from cropping there. -/
theorem continuousWithinAt_right {s : BSpline ℝ} (hb : s.basis.Clamped) (hs : s.WF)
    (hp : 1 ≤ s.basis.degree) {x : ℝ} (h0 : s.basis.k 0 ≤ x) (h1 : x < s.basis.k s.basis.len)
    (hm : x = s.basis.k 0 ∨ s.basis.knots.count x ≤ s.basis.degree) :
    ContinuousWithinAt s.eval (Ici x) x := by
  rcases h0.eq_or_lt with e | h0'
  · subst e
    exact (hasDerivWithinAt_first hb hs hp).continuousWithinAt
  · have hm' : s.basis.knots.count x ≤ s.basis.degree := by
      rcases hm with h | h
      · exact absurd h h0'.ne'
      · exact h
    obtain ⟨c1, c2, c3, c4, c5, c6⟩ := crop_spec s hb hs x (s.basis.k s.basis.len) h0 h1 le_rfl (by omega)
    have hd := (hasDerivWithinAt_first c1 c2 (by omega)).continuousWithinAt
    rw [c4] at hd
    refine hd.congr_of_eventuallyEq ?_ ?_
    · filter_upwards [mem_nhdsWithin_of_mem_nhds (Iio_mem_nhds h1), self_mem_nhdsWithin] with y hy hy0
      exact (c6 y hy0 (le_of_lt hy) (fun _ => Or.inr hm')).symm
    · exact (c6 x le_rfl h1.le (fun _ => Or.inr hm')).symm

theorem continuousAt_interior {s : BSpline ℝ} (hb : s.basis.Clamped) (hs : s.WF)
    (hp : 1 ≤ s.basis.degree) {x : ℝ} (h0 : s.basis.k 0 < x) (h1 : x < s.basis.k s.basis.len)
    (hm : s.basis.knots.count x ≤ s.basis.degree) : ContinuousAt s.eval x := by
  rw [continuousAt_iff_continuous_left_right]
  exact ⟨(hasDerivWithinAt_left hb hs hp h0 h1.le).continuousWithinAt,
    continuousWithinAt_right hb hs hp h0.le h1 (Or.inr hm)⟩

/-- Knots of the derivative are knots of the spline. -/
theorem count_derivative (s : BSpline ℝ) (o : ℕ) (x : ℝ) :
    (s.derivative o).basis.knots.count x ≤ s.basis.knots.count x := by
  have hk : (s.derivative o).basis.knots = (s.basis.knots.drop o).take (s.basis.knots.length - 2 * o) := by
    unfold BSpline.derivative
    split_ifs with h
    · subst h; simp
    · rfl
  rw [hk]
  exact ((List.take_sublist _ _).trans (List.drop_sublist _ _)).count_le _

theorem continuousOn_k {s : BSpline ℝ} (hb : s.basis.Clamped) (hs : s.WF)
    (hp : 1 ≤ s.basis.degree)
    (hm : ∀ τ, s.basis.k 0 < τ → τ < s.basis.k s.basis.len → s.basis.knots.count τ ≤ s.basis.degree) :
    ContinuousOn s.eval (Icc (s.basis.k 0) (s.basis.k s.basis.len)) := by
  intro x hx
  rcases hx.1.eq_or_lt with e | h0
  · subst e
    exact ((hasDerivWithinAt_first hb hs hp).continuousWithinAt).mono Icc_subset_Ici_self
  · rcases hx.2.eq_or_lt with e | h1
    · exact ((hasDerivWithinAt_left hb hs hp h0 hx.2).continuousWithinAt).mono
        (fun y hy => by rw [e]; exact hy.2)
    · exact (continuousAt_interior hb hs hp h0 h1 (hm x h0 h1)).continuousWithinAt

theorem hasDerivAt_interior {s : BSpline ℝ} (hb : s.basis.Clamped) (hs : s.WF)
    {x : ℝ} (h0 : s.basis.k 0 < x) (h1 : x < s.basis.k s.basis.len)
    (hm : s.basis.knots.count x + 1 ≤ s.basis.degree) :
    HasDerivAt s.eval ((s.derivative 1).eval x) x := by
  by_cases hx : x ∈ s.basis.knots
  · have hc : 1 ≤ s.basis.knots.count x := List.one_le_count_iff.2 hx
    have hp : 1 ≤ s.basis.degree := by omega
    obtain ⟨g1, g2, g3, g4, g5⟩ := clamped_derivative hb hs 1 hp
    have hlt := hb.lt_len
    have hcd := count_derivative s 1 x
    have g40 := g4 0
    have g4n := g4 (s.derivative 1).basis.len
    rw [hb.first (0 + 1) (by omega)] at g40
    rw [show (s.derivative 1).basis.len + 1 = s.basis.len by omega] at g4n
    have hcont : ContinuousAt (s.derivative 1).eval x :=
      continuousAt_interior g1 g2 (by omega) (by rw [g40]; exact h0) (by rw [g4n]; exact h1) (by omega)
    have hleft := hasDerivWithinAt_left hb hs hp h0 h1.le
    -- near x (right of it) there is no other knot
    have hfree : ∀ᶠ y in nhdsWithin x (Ioi x), HasDerivAt s.eval ((s.derivative 1).eval y) y := by
      have hopen : {y : ℝ | y ∉ s.basis.knots.filter (· ≠ x)} ∈ nhds x := by
        have : {y : ℝ | y ∉ s.basis.knots.filter (· ≠ x)} = ({y | y ∈ s.basis.knots.filter (· ≠ x)})ᶜ := rfl
        rw [this]
        refine (List.finite_toSet _).isClosed.isOpen_compl.mem_nhds ?_
        simp
      filter_upwards [mem_nhdsWithin_of_mem_nhds (Iio_mem_nhds h1), self_mem_nhdsWithin,
        mem_nhdsWithin_of_mem_nhds hopen] with y hy hyx hyk
      refine hasDerivAt_one hb hs hp (h0.trans hyx) hy ?_
      intro hmem
      apply hyk
      simp only [List.mem_filter]
      exact ⟨hmem, by simpa using (ne_of_gt (show x < y from hyx))⟩
    have hright : HasDerivWithinAt s.eval ((s.derivative 1).eval x) (Ici x) x := by
      obtain ⟨u, hu, hu'⟩ := (mem_nhdsGT_iff_exists_Ioo_subset.1 hfree)
      refine hasDerivWithinAt_Ici_of_tendsto_deriv (s := Ioo x u) ?_ ?_ (Ioo_mem_nhdsGT hu) ?_
      · intro y hy
        exact (hu' hy : HasDerivAt _ _ _).differentiableAt.differentiableWithinAt
      · exact (continuousAt_interior hb hs hp h0 h1 (by omega)).continuousWithinAt
      · refine Filter.Tendsto.congr' (f₁ := (s.derivative 1).eval) ?_ (hcont.tendsto.mono_left nhdsWithin_le_nhds)
        filter_upwards [hfree] with y hy
        exact hy.deriv.symm
    have := hleft.union hright
    rwa [Iic_union_Ici, hasDerivWithinAt_univ] at this
  · exact hasDerivAt_one hb hs (by omega) h0 h1 hx

theorem contDiffOn_k {s : BSpline ℝ} (hb : s.basis.Clamped) (hs : s.WF) (o : ℕ)
    (ho : o < s.basis.degree)
    (hm : ∀ τ, s.basis.k 0 < τ → τ < s.basis.k s.basis.len →
      s.basis.knots.count τ + o ≤ s.basis.degree) :
    ContDiffOn ℝ o s.eval (Ioo (s.basis.k 0) (s.basis.k s.basis.len)) := by
  induction o generalizing s with
  | zero =>
    rw [Nat.cast_zero, contDiffOn_zero]
    intro x hx
    exact (continuousAt_interior hb hs (by omega) hx.1 hx.2 (hm x hx.1 hx.2)).continuousWithinAt
  | succ o ih =>
    obtain ⟨g1, g2, g3, g4, g5⟩ := clamped_derivative hb hs 1 (by omega)
    have hlt := hb.lt_len
    have g40 := g4 0
    have g4n := g4 (s.derivative 1).basis.len
    rw [hb.first (0 + 1) (by omega)] at g40
    rw [show (s.derivative 1).basis.len + 1 = s.basis.len by omega] at g4n
    have := ih g1 g2 (by omega) (by
      intro τ h0 h1
      have := hm τ (by rw [← g40]; exact h0) (by rw [← g4n]; exact h1)
      have := count_derivative s 1 τ
      omega)
    rw [g40, g4n] at this
    rw [show ((o + 1 : ℕ) : WithTop ℕ∞) = (o : WithTop ℕ∞) + 1 by norm_cast,
      contDiffOn_succ_iff_deriv_of_isOpen isOpen_Ioo]
    have hder : ∀ x ∈ Ioo (s.basis.k 0) (s.basis.k s.basis.len),
        HasDerivAt s.eval ((s.derivative 1).eval x) x := fun x hx =>
      hasDerivAt_interior hb hs hx.1 hx.2 (by have := hm x hx.1 hx.2; omega)
    refine ⟨fun x hx => (hder x hx).differentiableAt.differentiableWithinAt, by simp, ?_⟩
    exact this.congr fun x hx => (hder x hx).deriv

/-- **C51** A trajectory of degree at least one whose interior knots are repeated at most `degree`
times is continuous on its whole time interval, ends included. -/
theorem C51_continuous (s : BSpline ℝ) (hb : s.basis.Clamped) (hs : s.WF) (hp : 1 ≤ s.basis.degree)
    (hm : ∀ τ, s.basis.knots.headD 0 < τ → τ < s.basis.knots.getLastD 0 →
      s.basis.knots.count τ ≤ s.basis.degree) :
    ContinuousOn s.eval (Icc (s.basis.knots.headD 0) (s.basis.knots.getLastD 0)) := by
  rw [headD_eq_k hb, getLastD_eq_k hb] at *
  exact continuousOn_k hb hs hp hm

/-- **C51** With interior knots repeated at most `degree - o` times the trajectory has `o`
continuous derivatives inside its time interval. -/
theorem C51_smooth (s : BSpline ℝ) (hb : s.basis.Clamped) (hs : s.WF) (o : ℕ)
    (ho : o < s.basis.degree)
    (hm : ∀ τ, s.basis.knots.headD 0 < τ → τ < s.basis.knots.getLastD 0 →
      s.basis.knots.count τ + o ≤ s.basis.degree) :
    ContDiffOn ℝ o s.eval (Ioo (s.basis.knots.headD 0) (s.basis.knots.getLastD 0)) := by
  rw [headD_eq_k hb, getLastD_eq_k hb] at *
  exact contDiffOn_k hb hs o ho hm

/-- **C51** At every interior time with multiplicity below the degree, `derivative()` is the
two-sided derivative, knots included. -/
theorem C51_hasDerivAt (s : BSpline ℝ) (hb : s.basis.Clamped) (hs : s.WF) (x : ℝ)
    (h0 : s.basis.knots.headD 0 < x) (h1 : x < s.basis.knots.getLastD 0)
    (hm : s.basis.knots.count x + 1 ≤ s.basis.degree) :
    HasDerivAt s.eval ((s.derivative 1).eval x) x := by
  rw [headD_eq_k hb, getLastD_eq_k hb] at *
  exact hasDerivAt_interior hb hs h0 h1 hm

theorem exBasisR_count {τ : ℝ} (h0 : 0 < τ) (h1 : τ < 1) : exBasisR.knots.count τ ≤ 1 := by
  simp only [exBasisR, List.count_cons, List.count_nil]
  have e0 : ((0 : ℝ) == τ) = false := by simpa using h0.ne
  have e1 : ((1 : ℝ) == τ) = false := by simpa using h1.ne'
  rw [e0, e1]
  simp only [Bool.false_eq_true, if_false]
  split_ifs <;> simp

example : ContDiffOn ℝ 1 (BSpline.mk exBasisR [1, 2, 4, 3]).eval (Ioo 0 1) :=
  C51_smooth ⟨exBasisR, [1, 2, 4, 3]⟩ exBasisR_clamped rfl 1 (by decide) (by
    intro τ h0 h1
    have := exBasisR_count (τ := τ) (by simpa [exBasisR] using h0) (by simpa [exBasisR] using h1)
    show exBasisR.knots.count τ + 1 ≤ 2
    omega)

example : ContinuousOn (BSpline.mk exBasisR [1, 2, 4, 3]).eval (Icc 0 1) :=
  C51_continuous ⟨exBasisR, [1, 2, 4, 3]⟩ exBasisR_clamped rfl (by decide) (by
    intro τ h0 h1
    have := exBasisR_count (τ := τ) (by simpa [exBasisR] using h0) (by simpa [exBasisR] using h1)
    show exBasisR.knots.count τ ≤ 2
    omega)

example : HasDerivAt (BSpline.mk exBasisR [1, 2, 4, 3]).eval
    (((BSpline.mk exBasisR [1, 2, 4, 3]).derivative 1).eval (1/2)) (1/2) :=
  C51_hasDerivAt ⟨exBasisR, [1, 2, 4, 3]⟩ exBasisR_clamped rfl _ (by norm_num [exBasisR])
    (by norm_num [exBasisR])
    (by have := exBasisR_count (τ := 1/2) (by norm_num) (by norm_num)
        show exBasisR.knots.count (1/2) + 1 ≤ 2
        omega)

end Verif.Spline
