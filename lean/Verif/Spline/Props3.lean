import Verif.Spline.Deriv
import Verif.Spline.Props2

/-! # Property C04: `derivative()` is the time derivative -/

set_option linter.unusedSectionVars false

namespace Verif.Spline

open Finset

/-- `derivative(o)` succeeds whenever interior knots are repeated at most `degree + 1 - o` times
(i.e. the spline has `o - 1` continuous derivatives) and the last knot at most `degree + 1` times. -/
theorem C04_defined {K : Type*} [Field K] [LinearOrder K] [IsStrictOrderedRing K]
    (s : BSpline K) (hb : s.basis.Clamped) (o : ℕ) (ho : o ≤ s.basis.degree)
    (hint : ∀ τ, s.basis.knots.headD 0 < τ → τ < s.basis.knots.getLastD 0 →
      s.basis.knots.count τ ≤ s.basis.degree + 1 - o)
    (hlast : s.basis.knots.count (s.basis.knots.getLastD 0) ≤ s.basis.degree + 1) :
    s.derivative? o = some (s.derivative o) := by
  rw [headD_eq_k hb, getLastD_eq_k hb] at hint
  rw [getLastD_eq_k hb] at hlast
  have hl := hb.length_eq
  have hlt := hb.lt_len
  have hmono := hb.mono
  unfold BSpline.derivative?
  rw [if_pos]
  refine ⟨ho, ?_⟩
  unfold BSpline.deltasOK
  rw [List.all_eq_true]
  intro i hi
  rw [List.mem_range] at hi
  rw [List.all_eq_true]
  intro j hj
  rw [List.mem_range] at hj
  simp only [decide_eq_true_eq]
  have g1 : (((s.basis.knots.drop (i + 1)).take (s.basis.knots.length - 2 * (i + 1))).drop
      (s.basis.degree - i)).getD j 0 = s.basis.k (j + s.basis.degree + 1) := by
    unfold Basis.k
    rw [List.getD_eq_getElem _ _ (by simp; omega), List.getD_eq_getElem _ _ (by omega)]
    simp
    congr 1; omega
  have g2 : ((s.basis.knots.drop (i + 1)).take (s.basis.knots.length - 2 * (i + 1))).getD j 0
      = s.basis.k (j + i + 1) := by
    unfold Basis.k
    rw [List.getD_eq_getElem _ _ (by simp; omega), List.getD_eq_getElem _ _ (by omega)]
    simp
    congr 1; omega
  rw [g1, g2]
  intro hz
  have hz : s.basis.k (j + s.basis.degree + 1) = s.basis.k (j + i + 1) := sub_eq_zero.1 hz
  set τ := s.basis.k (j + i + 1) with hτ
  -- the value is repeated too often
  have f := filter_le_length s.basis.knots τ
  have a1 : (s.basis.knots.filter (· < τ)).length ≤ j + i + 1 := by
    by_contra hc
    push Not at hc
    have := (k_lt_iff hb.sorted τ (j + i + 1) (by omega)).2 hc
    exact lt_irrefl _ this
  have a2 : j + s.basis.degree + 1 < (s.basis.knots.filter (· ≤ τ)).length :=
    (k_le_iff hb.sorted τ _ (by omega)).1 hz.le
  have hgt : s.basis.k 0 < τ := by
    rw [← hz]
    exact (hb.k_degree ▸ hb.start).trans_le (hmono (by omega))
  rcases lt_or_ge τ (s.basis.k s.basis.len) with h | h
  · have := hint τ hgt h
    omega
  · have he : τ = s.basis.k s.basis.len := by
      refine le_antisymm ?_ h
      rcases Nat.lt_or_ge (j + i + 1) s.basis.len with l | g
      · exact hmono l.le
      · rw [hτ, hb.last _ g]
    have a3 : s.basis.knots.length ≤ (s.basis.knots.filter (· ≤ τ)).length := by
      by_contra hc
      push Not at hc
      have h1 : ¬ s.basis.k (s.basis.knots.length - 1) ≤ τ := by
        rw [k_le_iff hb.sorted τ _ (by omega)]; omega
      apply h1
      rw [hb.last _ (by omega), he]
    rw [← he] at hlast
    omega

theorem clamped_derivative {K : Type*} [Field K] [LinearOrder K] [IsStrictOrderedRing K]
    {s : BSpline K} (hb : s.basis.Clamped) (hs : s.WF) (o : ℕ) (ho : o ≤ s.basis.degree) :
    (s.derivative o).basis.Clamped ∧ (s.derivative o).WF ∧
    (s.derivative o).basis.degree = s.basis.degree - o ∧
    (∀ i, (s.derivative o).basis.k i = s.basis.k (i + o)) ∧
    (s.derivative o).basis.len = s.basis.len - o := by
  induction o with
  | zero =>
    have : s.derivative 0 = s := by unfold BSpline.derivative; rw [if_pos rfl]
    rw [this]
    exact ⟨hb, hs, by simp, by simp, by simp⟩
  | succ o ih =>
    obtain ⟨h1, h2, h3, h4, h5⟩ := ih (by omega)
    rw [derivative_succ]
    obtain ⟨g1, g2, g3, g4, g5, -⟩ := derivative_one_spec h1 h2 (by rw [h3]; omega)
    refine ⟨g5, g4, by rw [g2, h3]; omega, ?_, by rw [g3, h5]; omega⟩
    intro i
    rw [g1, h4]; congr 1; omega

/-- Derivative at a time that is not a knot, first order. -/
theorem hasDerivAt_one {s : BSpline ℝ} (hb : s.basis.Clamped) (hs : s.WF) (hp : 1 ≤ s.basis.degree)
    {x : ℝ} (h0 : s.basis.k 0 < x) (h1 : x < s.basis.k s.basis.len) (hx : x ∉ s.basis.knots) :
    HasDerivAt s.eval ((s.derivative 1).eval x) x := by
  obtain ⟨f1, f2, f3, f4, -⟩ := insert_facts hb h0 h1.le
  have hl := hb.length_eq
  set m := insPos s.basis x
  have f2' : x < s.basis.k (m + 1) := by
    refine lt_of_le_of_ne f2 ?_
    intro e
    apply hx
    rw [e]
    unfold Basis.k
    rw [List.getD_eq_getElem _ _ (by omega)]
    exact List.getElem_mem _
  obtain ⟨g1, g2, g3, g4, g5, g6⟩ := derivative_one_spec hb hs hp
  rw [← hasDerivWithinAt_univ]
  refine eval_hasDerivWithinAt hb hs hp (m := m) (Set.mem_univ _) ?_ ?_
  · rw [nhdsWithin_univ]
    filter_upwards [Ioo_mem_nhds f1 f2', Ioi_mem_nhds h0] with y hy hy0 i
    exact cox_piece hb.mono hy0 hy.1 hy.2.le _ _
  · intro j
    unfold Basis.fn
    rw [g2, ← cox_piece hb.mono (p := s.basis.degree) h0 f1 f2]
    have hsh := cox_shift (k := s.basis.k) (k' := (s.derivative 1).basis.k) (m := 1)
      (p := s.basis.degree) (q := s.basis.degree - 1) h0
      (by rw [g1, hb.first _ (by omega)]; exact h0) (s.basis.degree - 1) j
      (fun j _ => by rw [g1, add_comm])
    rw [hsh, add_comm]

/-- Left derivative at every time after the first knot (also at knots). -/
theorem hasDerivWithinAt_left {s : BSpline ℝ} (hb : s.basis.Clamped) (hs : s.WF)
    (hp : 1 ≤ s.basis.degree) {x : ℝ} (h0 : s.basis.k 0 < x) (h1 : x ≤ s.basis.k s.basis.len) :
    HasDerivWithinAt s.eval ((s.derivative 1).eval x) (Set.Iic x) x := by
  obtain ⟨f1, f2, f3, f4, -⟩ := insert_facts hb h0 h1
  have hl := hb.length_eq
  set m := insPos s.basis x
  obtain ⟨g1, g2, g3, g4, g5, g6⟩ := derivative_one_spec hb hs hp
  refine eval_hasDerivWithinAt hb hs hp (m := m) Set.self_mem_Iic ?_ ?_
  · filter_upwards [mem_nhdsWithin_of_mem_nhds (Ioi_mem_nhds f1),
      mem_nhdsWithin_of_mem_nhds (Ioi_mem_nhds h0), self_mem_nhdsWithin] with y hy hy0 hyx i
    exact cox_piece hb.mono hy0 hy (le_trans hyx f2) _ _
  · intro j
    unfold Basis.fn
    rw [g2, ← cox_piece hb.mono (p := s.basis.degree) h0 f1 f2]
    have hsh := cox_shift (k := s.basis.k) (k' := (s.derivative 1).basis.k) (m := 1)
      (p := s.basis.degree) (q := s.basis.degree - 1) h0
      (by rw [g1, hb.first _ (by omega)]; exact h0) (s.basis.degree - 1) j
      (fun j _ => by rw [g1, add_comm])
    rw [hsh, add_comm]

/-- Right derivative at the first knot. -/
theorem hasDerivWithinAt_first {s : BSpline ℝ} (hb : s.basis.Clamped) (hs : s.WF)
    (hp : 1 ≤ s.basis.degree) :
    HasDerivWithinAt s.eval ((s.derivative 1).eval (s.basis.k 0)) (Set.Ici (s.basis.k 0))
      (s.basis.k 0) := by
  obtain ⟨g1, g2, g3, g4, g5, g6⟩ := derivative_one_spec hb hs hp
  obtain ⟨d, hd⟩ : ∃ d, s.basis.degree = d + 1 := ⟨s.basis.degree - 1, by omega⟩
  have hst := hb.start
  have hfirst : ∀ i, s.basis.fn i (s.basis.k 0)
      = coxB s.basis.k (fun i => if i = s.basis.degree then 1 else 0) (s.basis.k 0) s.basis.degree i := by
    intro i
    have := cox_piece_first hb.mono hb.first hb.start d i (by omega)
    rw [← hd] at this
    exact this
  refine eval_hasDerivWithinAt hb hs hp (m := s.basis.degree) Set.self_mem_Ici ?_ ?_
  · have hlt : s.basis.k 0 < s.basis.k (s.basis.degree + 1) := hb.k_degree ▸ hst
    filter_upwards [mem_nhdsWithin_of_mem_nhds (Iio_mem_nhds hlt), self_mem_nhdsWithin] with y hy hy0 i
    rcases (show s.basis.k 0 ≤ y from hy0).lt_or_eq with h | h
    · exact cox_piece hb.mono h (by rw [hb.k_degree]; exact h) (le_of_lt hy) _ _
    · rw [← h]; exact hfirst i
  · intro j
    have e0 : s.basis.k 0 = (s.derivative 1).basis.k 0 := by
      rw [g1, hb.first (0 + 1) (by omega)]
    have l : (s.derivative 1).basis.fn j (s.basis.k 0) = if j = 0 then 1 else 0 := by
      rw [e0, Basis.fn, cox_first g5.first g5.mono g5.start _ _ le_rfl]
      congr 1; apply propext; constructor
      · rintro (h | h) <;> omega
      · intro h; left; omega
    rw [l]
    rcases Nat.eq_zero_or_pos d with z | z
    · subst z
      rw [hd]
      simp [coxB]
    · obtain ⟨e, he⟩ : ∃ e, d = e + 1 := ⟨d - 1, by omega⟩
      have hp1 := cox_piece_first hb.mono hb.first hb.start e (j + 1) (by omega)
      have : s.basis.degree - 1 = e + 1 := by omega
      rw [this, ← hp1, cox_first hb.first hb.mono hb.start _ _ (by omega)]
      congr 1; apply propext; constructor
      · intro h; left; omega
      · rintro (h | h) <;> omega

/-- **C04** `derivative(o)` is the `o`-th time derivative: at every time inside the domain that is
not a knot, whenever `derivative(o)` returns a spline, that spline evaluates to the `o`-th
derivative of the trajectory. -/
theorem C04_iteratedDeriv (s d : BSpline ℝ) (hb : s.basis.Clamped) (hs : s.WF) (o : ℕ)
    (hd : s.derivative? o = some d) (x : ℝ)
    (h0 : s.basis.knots.headD 0 < x) (h1 : x < s.basis.knots.getLastD 0) (hx : x ∉ s.basis.knots) :
    d.eval x = iteratedDeriv o s.eval x := by
  unfold BSpline.derivative? at hd
  split_ifs at hd with hc
  simp only [Option.some.injEq] at hd
  subst hd
  rw [headD_eq_k hb] at h0
  rw [getLastD_eq_k hb] at h1
  have ho := hc.1
  clear hc
  induction o generalizing x with
  | zero => simp [BSpline.derivative]
  | succ o ih =>
    have ih := fun y a b c => ih y a b c (by omega)
    rw [iteratedDeriv_succ]
    obtain ⟨c1, c2, c3, c4, c5⟩ := clamped_derivative hb hs o (by omega)
    -- near x the o-th derivative spline is the o-th derivative
    have hev : iteratedDeriv o s.eval =ᶠ[nhds x] (s.derivative o).eval := by
      have hopen : {y : ℝ | y ∉ s.basis.knots} ∈ nhds x := by
        have : {y : ℝ | y ∉ s.basis.knots} = ({y | y ∈ s.basis.knots})ᶜ := rfl
        rw [this]
        exact (List.finite_toSet s.basis.knots).isClosed.isOpen_compl.mem_nhds hx
      filter_upwards [Ioo_mem_nhds h0 h1, hopen] with y hy hy'
      exact (ih y hy.1 hy.2 hy').symm
    rw [hev.deriv_eq, derivative_succ]
    have hlt := hb.lt_len
    have := hasDerivAt_one c1 c2 (by rw [c3]; omega) (x := x)
      (by rw [c4, Nat.zero_add, hb.first _ (by omega)]; exact h0)
      (by rw [c4, c5, Nat.sub_add_cancel (by omega)]; exact h1)
      (by
        intro hmem
        apply hx
        have hk : (s.derivative o).basis.knots = (s.basis.knots.drop o).take (s.basis.knots.length - 2 * o) := by
          unfold BSpline.derivative
          split_ifs with h
          · subst h; simp
          · rfl
        rw [hk] at hmem
        exact List.mem_of_mem_drop (List.mem_of_mem_take hmem))
    exact this.deriv.symm

/-- **C04** At knots the returned spline is the derivative from the left (trajectories are
evaluated as left-continuous functions), and at the first knot the derivative from the right. -/
theorem C04_at_knots (s d : BSpline ℝ) (hb : s.basis.Clamped) (hs : s.WF)
    (hd : s.derivative? 1 = some d) :
    (∀ x, s.basis.knots.headD 0 < x → x ≤ s.basis.knots.getLastD 0 →
      HasDerivWithinAt s.eval (d.eval x) (Set.Iic x) x) ∧
    HasDerivWithinAt s.eval (d.eval (s.basis.knots.headD 0)) (Set.Ici (s.basis.knots.headD 0))
      (s.basis.knots.headD 0) := by
  unfold BSpline.derivative? at hd
  split_ifs at hd with hc
  simp only [Option.some.injEq] at hd
  subst hd
  rw [headD_eq_k hb, getLastD_eq_k hb]
  exact ⟨fun x h0 h1 => hasDerivWithinAt_left hb hs hc.1 h0 h1, hasDerivWithinAt_first hb hs hc.1⟩

/-- **C04** Differentiating `o` times in one call or one step at a time gives the same spline. -/
theorem C04_iterate {K : Type*} [Field K] [LinearOrder K] [IsStrictOrderedRing K]
    (s : BSpline K) (o : ℕ) : s.derivative o = (fun t => BSpline.derivative t 1)^[o] s := by
  induction o with
  | zero => simp [BSpline.derivative]
  | succ o ih => rw [derivative_succ, ih, Function.iterate_succ_apply']

/-- Example spline over `ℝ`: quadratic with one interior knot. -/
noncomputable def exBasisR : Basis ℝ := ⟨[0, 0, 0, 1/2, 1, 1, 1], 2⟩

theorem exBasisR_clamped : exBasisR.Clamped where
  sorted := by unfold exBasisR; norm_num
  size := by decide
  first := by
    intro i hi
    have : i ≤ 2 := hi
    interval_cases i <;> rfl
  start := by unfold exBasisR Basis.k; norm_num
  ends := by
    intro i h1 h2
    have a : 4 ≤ i := h1
    have b : i < 7 := h2
    interval_cases i <;> rfl

theorem exBasisR_derivable (c : List ℝ) (o : ℕ) (ho : o ≤ 2) :
    (BSpline.mk exBasisR c).derivative? o = some ((BSpline.mk exBasisR c).derivative o) := by
  apply C04_defined ⟨exBasisR, c⟩ exBasisR_clamped o ho
  · intro τ h0 h1
    have h0 : 0 < τ := by simpa [exBasisR] using h0
    have h1 : τ < 1 := by simpa [exBasisR] using h1
    have : exBasisR.knots.count τ ≤ 1 := by
      simp only [exBasisR, List.count_cons, List.count_nil]
      have e0 : ((0 : ℝ) == τ) = false := by simpa using h0.ne
      have e1 : ((1 : ℝ) == τ) = false := by simpa using h1.ne'
      rw [e0, e1]
      simp only [Bool.false_eq_true, if_false]
      split_ifs <;> simp
    have hd : (BSpline.mk exBasisR c).basis.degree = 2 := rfl
    show exBasisR.knots.count τ ≤ _
    omega
  · show exBasisR.knots.count (exBasisR.knots.getLastD 0) ≤ 3
    have : exBasisR.knots.getLastD 0 = 1 := rfl
    rw [this]
    norm_num [exBasisR, List.count_cons]

example : ((BSpline.mk exBasisR [1, 2, 4, 3]).derivative 2).eval (1/3)
    = iteratedDeriv 2 (BSpline.mk exBasisR [1, 2, 4, 3]).eval (1/3) :=
  C04_iteratedDeriv ⟨exBasisR, [1, 2, 4, 3]⟩ _ exBasisR_clamped (by rfl) 2
    (exBasisR_derivable _ 2 le_rfl) _ (by norm_num [exBasisR]) (by norm_num [exBasisR])
    (by norm_num [exBasisR])

end Verif.Spline
