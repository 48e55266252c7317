import Verif.Export.Vehicle
import Mathlib.Analysis.Calculus.IteratedDeriv.Lemmas

/-! # The exported vehicle at the knots and at the ends of the horizon (C106) -/

set_option linter.unusedSectionVars false

namespace Verif.Spline

open Set

theorem hasDerivWithinAt_closed {s : BSpline ℝ} (hb : s.basis.Clamped) (hs : s.WF) (hp : 1 ≤ s.basis.degree)
    {x : ℝ} (hx : x ∈ Icc (s.basis.k 0) (s.basis.k s.basis.len))
    (hm : s.basis.k 0 < x → x < s.basis.k s.basis.len → s.basis.knots.count x + 1 ≤ s.basis.degree) :
    HasDerivWithinAt s.eval ((s.derivative 1).eval x) (Icc (s.basis.k 0) (s.basis.k s.basis.len)) x := by
  rcases hx.1.eq_or_lt with e | h0
  · subst e
    exact (hasDerivWithinAt_first hb hs hp).mono Icc_subset_Ici_self
  · rcases hx.2.eq_or_lt with e | h1
    · exact (hasDerivWithinAt_left hb hs hp h0 hx.2).mono (fun y hy => by rw [e]; exact hy.2)
    · exact (hasDerivAt_interior hb hs h0 h1 (hm h0 h1)).hasDerivWithinAt

/-- The derivatives of a spline on the whole of its domain, knots and ends included. -/
theorem iteratedDerivWithin_closed {s : BSpline ℝ} (hb : s.basis.Clamped) (hs : s.WF) (o : ℕ) (ho : o ≤ s.basis.degree)
    (hm : ∀ τ, s.basis.k 0 < τ → τ < s.basis.k s.basis.len → s.basis.knots.count τ + o ≤ s.basis.degree)
    {x : ℝ} (hx : x ∈ Icc (s.basis.k 0) (s.basis.k s.basis.len)) :
    (s.derivative o).eval x = iteratedDerivWithin o s.eval (Icc (s.basis.k 0) (s.basis.k s.basis.len)) x := by
  have hlt := hb.lt_len
  have hne : s.basis.k 0 < s.basis.k s.basis.len := by
    rw [← hb.k_degree]
    exact hb.start.trans_le (hb.mono (by omega))
  induction o generalizing x with
  | zero => simp [BSpline.derivative]
  | succ o ih =>
    obtain ⟨c1, c2, c3, c4, c5⟩ := clamped_derivative hb hs o (by omega)
    have e0 : (s.derivative o).basis.k 0 = s.basis.k 0 := by rw [c4, Nat.zero_add, hb.first _ (by omega)]
    have en : (s.derivative o).basis.k (s.derivative o).basis.len = s.basis.k s.basis.len := by
      rw [c4, c5, Nat.sub_add_cancel (by omega)]
    rw [iteratedDerivWithin_succ, derivative_succ]
    have hd := hasDerivWithinAt_closed c1 c2 (by rw [c3]; omega) (x := x) (by rw [e0, en]; exact hx) (by
      intro a b
      have := hm x (by rwa [e0] at a) (by rwa [en] at b)
      have := count_derivative s o x
      omega)
    rw [e0, en] at hd
    have hcongr : ∀ y ∈ Icc (s.basis.k 0) (s.basis.k s.basis.len),
        iteratedDerivWithin o s.eval (Icc (s.basis.k 0) (s.basis.k s.basis.len)) y = (s.derivative o).eval y :=
      fun y hy => (ih (by omega) (fun τ a b => by have := hm τ a b; omega) hy).symm
    rw [derivWithin_congr hcongr (hcongr x hx)]
    exact (hd.derivWithin (uniqueDiffOn_Icc hne x hx)).symm

end Verif.Spline

namespace Verif.Export

open Verif.Spline Set

/-- The spline in time. -/
theorem traj_facts (degree ki : ℕ) (hki : 1 ≤ ki) (h : ℝ) (hh : 0 < h) (c : List ℝ) (hc : c.length = ki + degree) :
    ∃ S : BSpline ℝ, S.basis.Clamped ∧ S.WF ∧ S.basis.degree = degree ∧ S.basis.k 0 = 0 ∧ S.basis.k S.basis.len = h ∧
      (∀ τ, 0 < τ → τ < h → S.basis.knots.count τ ≤ 1) ∧ trajectory degree ki h c = S.eval ∧
      ∀ junk o, o ≤ degree → ∀ t, sampleSpline junk degree ki h o c t = (S.derivative o).eval t := by
  set s : BSpline ℝ := ⟨⟨cppKnots degree ki, degree⟩, c⟩ with hs
  have hb : s.basis.Clamped := cppKnots_clamped degree ki hki
  have hk0 : (0 : ℝ) < ki := Nat.cast_pos.2 (by omega)
  have hwf : s.WF := by
    show c.length = (Basis.mk (cppKnots degree ki : List ℝ) degree).len
    rw [hc]; exact (lenBasis_eq degree ki).symm
  have hb' : (s.scale h 0).basis.Clamped := scale_clamped hb hh 0
  have hkv := cppKnots_k (K := ℝ) degree ki hki degree
  have hhead : s.basis.knots.headD 0 = 0 := by
    rw [headD_eq_k hb]
    show (Basis.mk (cppKnots degree ki : List ℝ) degree).k 0 = 0
    rw [hkv]; split_ifs with a b
    · rfl
    · simp
    · omega
  have hlast : s.basis.knots.getLastD 0 = 1 := by
    rw [getLastD_eq_k hb]
    show (Basis.mk (cppKnots degree ki : List ℝ) degree).k (lenBasis (K := ℝ) degree ki) = 1
    rw [hkv, lenBasis_eq, if_neg (by omega), if_pos (by omega), Nat.add_sub_cancel]
    exact div_self hk0.ne'
  obtain ⟨d1, d2⟩ := C07_domain s hb h 0
  rw [hhead, headD_eq_k hb'] at d1
  rw [hlast, getLastD_eq_k hb'] at d2
  refine ⟨s.scale h 0, hb', ?_, rfl, by rw [d1]; ring, by rw [d2]; ring, ?_, ?_, ?_⟩
  · unfold BSpline.WF BSpline.scale Basis.scale Basis.len
    simp only [List.length_map]; exact hwf
  · intro τ t0 t1
    have e : τ = τ / h * h + 0 := by rw [add_zero, div_mul_cancel₀ _ hh.ne']
    have hcount : (s.scale h 0).basis.knots.count τ = (cppKnots degree ki : List ℝ).count (τ / h) := by
      conv_lhs => rw [e]
      change ((cppKnots degree ki : List ℝ).map (fun y => y * h + 0)).count _ = _
      exact List.count_map_of_injective _ (fun y : ℝ => y * h + 0) (by
        intro a b hab
        simpa [hh.ne'] using hab) _
    rw [hcount]
    have := cppKnots_count degree ki hki (τ / h) (div_pos t0 hh)
    rwa [if_neg (by
      intro e1
      rw [div_eq_one_iff_eq hh.ne'] at e1
      exact t1.ne e1), add_zero] at this
  · funext x
    have := C07_scale s hb h 0 hh (x / h)
    rw [add_zero, div_mul_cancel₀ _ hh.ne'] at this
    exact this.symm
  · intro junk o ho t
    rw [sampleSpline_eq junk degree ki h o ho hki c hc t]
    have := C07_derivative s hb hwf h 0 hh o ho (t / h)
    rw [add_zero, div_mul_cancel₀ _ hh.ne'] at this
    exact this.symm

/-- C106, derivatives below the degree: at every time of the horizon, knots and ends included, the exported vehicle samples the time
derivative of the trajectory (at the ends the derivative from inside the horizon). -/
theorem C106_derivative_closed (junk : ℝ) (degree ki : ℕ) (hki : 1 ≤ ki) (h : ℝ) (hh : 0 < h) (c : List ℝ)
    (hc : c.length = ki + degree) (o : ℕ) (ho : o < degree) (t : ℝ) (h0 : 0 ≤ t) (h1 : t ≤ h) :
    sampleSpline junk degree ki h o c t = iteratedDerivWithin o (trajectory degree ki h c) (Icc 0 h) t := by
  obtain ⟨S, a1, a2, a3, a4, a5, a6, a7, a8⟩ := traj_facts degree ki hki h hh c hc
  rw [a8 junk o ho.le t, a7]
  have := iteratedDerivWithin_closed a1 a2 o (by omega) (by
    intro τ b0 b1
    rw [a4] at b0; rw [a5] at b1
    have := a6 τ b0 b1
    omega) (x := t) (by rw [a4, a5]; exact ⟨h0, h1⟩)
  rw [this, a4, a5]

/-- C106, the derivative of the highest order jumps at the knots: there the exported vehicle samples the derivative from the left. -/
theorem C106_derivative_left (junk : ℝ) (degree ki : ℕ) (hki : 1 ≤ ki) (h : ℝ) (hh : 0 < h) (c : List ℝ)
    (hc : c.length = ki + degree) (o : ℕ) (ho : o < degree) (t : ℝ) (h0 : 0 < t) (h1 : t ≤ h) :
    HasDerivWithinAt (sampleSpline junk degree ki h o c) (sampleSpline junk degree ki h (o + 1) c t) (Iic t) t := by
  obtain ⟨S, a1, a2, a3, a4, a5, a6, a7, a8⟩ := traj_facts degree ki hki h hh c hc
  obtain ⟨c1, c2, c3, c4, c5⟩ := clamped_derivative a1 a2 o (by omega)
  have hlt := a1.lt_len
  rw [funext (a8 junk o ho.le), a8 junk (o + 1) ho t, derivative_succ]
  refine hasDerivWithinAt_left c1 c2 (by rw [c3]; omega) ?_ ?_
  · rw [c4, Nat.zero_add, a1.first _ (by omega), a4]; exact h0
  · rw [c4, c5, Nat.sub_add_cancel (by omega), a5]; exact h1

/-- Ten knot intervals in ten seconds: the knot at three seconds, and the end. -/
example : sampleSpline (-7) 3 10 10 2 (List.replicate 13 2) 3 = iteratedDerivWithin 2 (trajectory 3 10 10 (List.replicate 13 2)) (Icc 0 10) 3 ∧
    sampleSpline (-7) 3 10 10 2 (List.replicate 13 2) 10 = iteratedDerivWithin 2 (trajectory 3 10 10 (List.replicate 13 2)) (Icc 0 10) 10 :=
  ⟨C106_derivative_closed (-7) 3 10 (by norm_num) 10 (by norm_num) _ (by simp) 2 (by norm_num) 3 (by norm_num) (by norm_num),
   C106_derivative_closed (-7) 3 10 (by norm_num) 10 (by norm_num) _ (by simp) 2 (by norm_num) 10 (by norm_num) (by norm_num)⟩

end Verif.Export
