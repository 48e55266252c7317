import Verif.Vehicles.Ex
import Verif.Spline.Integral
import Mathlib.MeasureTheory.Integral.IntervalIntegral.FundThmCalculus

/-! # Positions obtained by integrating velocity splines (C17)

`integrate_once` (dubins.py:262-268, identical in bicycle.py, and inlined in agv.py) and
`integrate_twice` (quadrotor3d.py:238-253). -/

set_option linter.unusedSectionVars false

namespace Verif.Vehicles

open Verif.Spline MeasureTheory

/-- Spline minus number plus number, as in `dx_int - dx_int(t/T) + x0`. -/
noncomputable def shiftTo (s : BSpline ℝ) (τ x0 : ℝ) : BSpline ℝ := (s.addNum (-(s.eval τ))).addNum x0

/-- `integrate_once(dx, x0, t, T)`, dubins.py:262-268: `dx_int = T*running_integral(dx)`;
`x = dx_int - dx_int(t/T) + x0` (for symbolic `t` the evaluation uses `evalspline`, the same loop). -/
noncomputable def integrateOnce (dx : BSpline ℝ) (x0 t T : ℝ) : BSpline ℝ :=
  shiftTo ((runningIntegral dx).mulNum T) (t / T) x0

/-- `integrate_twice(ddx, dx0, x0, t, T)`, quadrotor3d.py:238-253; returns `(x, dx)`. -/
noncomputable def integrateTwice (ddx : BSpline ℝ) (dx0 x0 t T : ℝ) : BSpline ℝ × BSpline ℝ :=
  let dx := integrateOnce ddx dx0 t T
  (integrateOnce dx x0 t T, dx)

/-! ## Well formed splines on any interval -/

/-- Well formed spline on `[lo, hi]` with `n` continuous derivatives inside. -/
structure TrajOn (s : BSpline ℝ) (lo hi : ℝ) (n : ℕ) : Prop where
  clamped : s.basis.Clamped
  wf : s.WF
  first : s.basis.knots.headD 0 = lo
  last : s.basis.knots.getLastD 0 = hi
  simple : ∀ τ, lo < τ → τ < hi → s.basis.knots.count τ + n ≤ s.basis.degree
  tail : s.basis.knots.count hi ≤ s.basis.degree + 1

theorem Traj.trajOn {s : BSpline ℝ} {n : ℕ} (h : Traj s n) : TrajOn s 0 1 n :=
  ⟨h.clamped, h.wf, h.first, h.last, h.simple, h.tail⟩

theorem TrajOn.traj {s : BSpline ℝ} {n : ℕ} (h : TrajOn s 0 1 n) : Traj s n :=
  ⟨h.clamped, h.wf, h.first, h.last, h.simple, h.tail⟩

variable {s dx : BSpline ℝ} {lo hi : ℝ} {n : ℕ}

theorem TrajOn.lt (h : TrajOn s lo hi n) : lo < hi := by
  have := h.clamped.start
  have h2 := h.clamped.first s.basis.degree le_rfl
  have h3 := h.clamped.mono (show s.basis.degree + 1 ≤ s.basis.len from h.clamped.lt_len)
  rw [← h.first, ← h.last, headD_eq_k h.clamped, getLastD_eq_k h.clamped]
  linarith

/-- The running integral, with its value at the start and its derivative. -/
theorem TrajOn.running (h : TrajOn dx lo hi n) :
    TrajOn (runningIntegral dx) lo hi (n + 1) ∧ (runningIntegral dx).derivative 1 = dx ∧
    (runningIntegral dx).eval lo = 0 := by
  obtain ⟨h1, h2, h3, h4, h5, h6, h7⟩ := runningIntegral_spec h.clamped
  have hr := C06_running dx h.clamped h.wf (fun τ a b => by
    rw [h.first] at a; rw [h.last] at b; have := h.simple τ a b; omega) (by rw [h.last]; exact h.tail)
  rw [h.first] at hr
  have hne := h.lt
  have hcnt : ∀ τ, (runningIntegral dx).basis.knots.count τ
      = dx.basis.knots.count τ + (if lo = τ then 1 else 0) + (if hi = τ then 1 else 0) := by
    intro τ
    have : (runningIntegral dx).basis.knots
        = dx.basis.knots.headD 0 :: dx.basis.knots ++ [dx.basis.knots.getLastD 0] := rfl
    rw [this, h.first, h.last, List.count_append, List.count_cons, List.count_cons]
    simp only [List.count_nil, zero_add, beq_iff_eq]
  have hdeg : (runningIntegral dx).basis.degree = dx.basis.degree + 1 := rfl
  refine ⟨⟨h6, h5, ?_, ?_, fun τ a b => ?_, ?_⟩, hr.2, hr.1⟩
  · rw [headD_eq_k h6, h3, ← headD_eq_k h.clamped, h.first]
  · rw [getLastD_eq_k h6, h2, h4, ← getLastD_eq_k h.clamped, h.last]
  · rw [hcnt, hdeg, if_neg a.ne, if_neg b.ne']
    have := h.simple τ a b
    omega
  · rw [hcnt, hdeg, if_neg hne.ne, if_pos rfl]
    have := h.tail
    omega

theorem TrajOn.mulNum (h : TrajOn s lo hi n) (c : ℝ) : TrajOn (s.mulNum c) lo hi n :=
  ⟨h.clamped, by simpa [BSpline.WF, BSpline.mulNum] using h.wf, h.first, h.last, h.simple, h.tail⟩

theorem TrajOn.addNum (h : TrajOn s lo hi n) (c : ℝ) : TrajOn (s.addNum c) lo hi n :=
  ⟨h.clamped, by simpa [BSpline.WF, BSpline.addNum] using h.wf, h.first, h.last, h.simple, h.tail⟩

theorem TrajOn.addNum_eval (h : TrajOn s lo hi n) (c x : ℝ) (h0 : lo ≤ x) (h1 : x ≤ hi) :
    (s.addNum c).eval x = s.eval x + c :=
  (C09_num s h.clamped h.wf c x ⟨h.first.trans_le h0, h1.trans h.last.ge⟩).1

theorem TrajOn.hasDerivAt (h : TrajOn s lo hi (n + 1)) {x : ℝ} (h0 : lo < x) (h1 : x < hi) :
    HasDerivAt s.eval ((s.derivative 1).eval x) x :=
  C51_hasDerivAt s h.clamped h.wf x (by rw [h.first]; exact h0) (by rw [h.last]; exact h1)
    (by have := h.simple x h0 h1; omega)

theorem TrajOn.continuousOn (h : TrajOn s lo hi n) (hd : 1 ≤ s.basis.degree) :
    ContinuousOn s.eval (Set.Icc lo hi) := by
  have := C51_continuous s h.clamped h.wf hd (fun τ a b => by
    rw [h.first] at a; rw [h.last] at b; have := h.simple τ a b; omega)
  rwa [h.first, h.last] at this

theorem TrajOn.continuousAt (h : TrajOn s lo hi n) {x : ℝ} (h0 : lo < x) (h1 : x < hi) :
    ContinuousAt s.eval x := by
  by_cases hd : 1 ≤ s.basis.degree
  · exact (h.continuousOn hd).continuousAt (Icc_mem_nhds h0 h1)
  · -- degree 0 without interior knots: constant
    have hd0 : s.basis.degree = 0 := by omega
    have hz : ∀ τ, lo < τ → τ < hi → s.basis.knots.count τ = 0 := by
      intro τ a b; have := h.simple τ a b; omega
    have hr := (h.running).1
    have key : ∀ y, lo < y → y < hi → s.eval y = s.eval x := by
      intro y y0 y1
      have hl := h.clamped.lt_len
      have hk : ∀ i, s.basis.k i = lo ∨ s.basis.k i = hi := by
        intro i
        have m0 := h.clamped.mono (Nat.zero_le i)
        rw [← headD_eq_k h.clamped, h.first] at m0
        by_cases hi' : i < s.basis.knots.length
        · have e : s.basis.k i = s.basis.knots[i] := by unfold Basis.k; rw [List.getD_eq_getElem _ _ hi']
          by_contra hcon
          push Not at hcon
          have hm : s.basis.knots[i] ∈ s.basis.knots := List.getElem_mem hi'
          have hub := ((counts_of_clamped h.clamped).2.2 _ hm).2
          rw [← getLastD_eq_k h.clamped, h.last, ← e] at hub
          have := hz (s.basis.k i) (lt_of_le_of_ne m0 (Ne.symm hcon.1)) (lt_of_le_of_ne hub hcon.2)
          rw [e] at this
          exact absurd this (List.count_pos_iff.2 hm).ne'
        · right
          unfold Basis.k
          rw [List.getD_eq_default _ _ (by omega), h.last]
      rw [BSpline.eval_eq h.wf, BSpline.eval_eq h.wf]
      refine Finset.sum_congr rfl fun i _ => ?_
      congr 1
      have gen : ∀ z, lo < z → z < hi → s.basis.fn i z = if s.basis.k i = lo ∧ s.basis.k (i + 1) = hi then 1 else 0 := by
        intro z z0 z1
        have e : s.basis.fn i z = cox s.basis.k s.basis.degree z 0 i := by
          unfold Basis.fn; rw [hd0]
        rw [e, cox, ind_of_lt (by rw [← headD_eq_k h.clamped, h.first]; exact z0)]
        have hlh := z0.trans z1
        rcases hk i with a | a <;> rcases hk (i + 1) with b | b <;> rw [a, b]
        · rw [if_neg (by intro q; linarith [q.2]), if_neg (by intro q; linarith [q.2])]
        · rw [if_pos ⟨z0, z1.le⟩, if_pos ⟨rfl, rfl⟩]
        · rw [if_neg (by intro q; linarith [q.1]), if_neg (by intro q; linarith [q.1])]
        · rw [if_neg (by intro q; linarith [q.1]), if_neg (by intro q; linarith [q.1])]
      rw [gen y y0 y1, gen x h0 h1]
    have : s.eval =ᶠ[nhds x] fun _ => s.eval x := by
      filter_upwards [Ioo_mem_nhds h0 h1] with y hy
      exact key y hy.1 hy.2
    exact (continuousAt_const.congr this.symm)

/-- The integrated spline is again well formed, one degree smoother. -/
theorem TrajOn.integrateOnce (h : TrajOn dx lo hi n) (x0 t T : ℝ) :
    TrajOn (integrateOnce dx x0 t T) lo hi (n + 1) :=
  (((h.running).1.mulNum T).addNum _).addNum _

/-- Value of the integrated spline. -/
theorem TrajOn.integrateOnce_eval (h : TrajOn dx lo hi n) (x0 t T τ : ℝ) (h0 : lo ≤ τ) (h1 : τ ≤ hi) :
    (Vehicles.integrateOnce dx x0 t T).eval τ
      = T * ((runningIntegral dx).eval τ - (runningIntegral dx).eval (t / T)) + x0 := by
  have hr := (h.running).1.mulNum T
  unfold Vehicles.integrateOnce shiftTo
  rw [(hr.addNum _).addNum_eval _ _ h0 h1, hr.addNum_eval _ _ h0 h1, (C09_neg_mul _ _ _).2, (C09_neg_mul _ _ _).2]
  ring

/-! ## Properties -/

/-- **C17** The integrated position equals the given position at the current time, and at every time
of the horizon it is that position plus the integral of the velocity over the elapsed physical time. -/
theorem C17_integrate_once (dx : BSpline ℝ) (lo hi : ℝ) (h : TrajOn dx lo hi 0) (T : ℝ) (hT : 0 < T)
    (x0 t0 : ℝ) (a0 : lo ≤ t0 / T) (a1 : t0 / T ≤ hi) :
    (integrateOnce dx x0 t0 T).eval (t0 / T) = x0 ∧
    ∀ t, lo ≤ t / T → t / T ≤ hi →
      (integrateOnce dx x0 t0 T).eval (t / T) = x0 + ∫ u in t0..t, dx.eval (u / T) := by
  have hint : ∀ a b, lo ≤ a → a ≤ b → b ≤ hi →
      (runningIntegral dx).eval b - (runningIntegral dx).eval a = ∫ x in a..b, dx.eval x := by
    intro a b ha hab hb
    exact C06_definite dx h.clamped h.wf (fun τ a b => by
      rw [h.first] at a; rw [h.last] at b; have := h.simple τ a b; omega) (by rw [h.last]; exact h.tail)
      a b (by rw [h.first]; exact ha) hab (by rw [h.last]; exact hb)
  refine ⟨by rw [h.integrateOnce_eval _ _ _ _ a0 a1]; ring, fun t b0 b1 => ?_⟩
  rw [h.integrateOnce_eval _ _ _ _ b0 b1, intervalIntegral.integral_comp_div _ hT.ne', smul_eq_mul]
  rcases le_total (t0 / T) (t / T) with hle | hle
  · rw [hint _ _ a0 hle b1]; ring
  · rw [intervalIntegral.integral_symm, ← hint _ _ b0 hle a1]; ring

/-- **C17** The time derivative of the integrated position is the velocity. -/
theorem C17_velocity (dx : BSpline ℝ) (lo hi : ℝ) (h : TrajOn dx lo hi 0) (T : ℝ) (hT : 0 < T)
    (x0 t0 : ℝ) (t : ℝ) (b0 : lo < t / T) (b1 : t / T < hi) :
    HasDerivAt (fun t => (integrateOnce dx x0 t0 T).eval (t / T)) (dx.eval (t / T)) t := by
  have hr := h.running
  have hd := hr.1.hasDerivAt b0 b1
  rw [hr.2.1] at hd
  have hc := ((hd.comp t ((hasDerivAt_id t).div_const T)).const_mul T).add_const
    (x0 - T * (runningIntegral dx).eval (t0 / T))
  have e : (fun t => (integrateOnce dx x0 t0 T).eval (t / T)) =ᶠ[nhds t]
      fun t => T * (runningIntegral dx).eval (t / T) + (x0 - T * (runningIntegral dx).eval (t0 / T)) := by
    have : ∀ᶠ u in nhds t, lo < u / T ∧ u / T < hi := by
      have c : ContinuousAt (fun u : ℝ => u / T) t := by fun_prop
      exact c.eventually (Ioo_mem_nhds b0 b1)
    filter_upwards [this] with u hu
    rw [h.integrateOnce_eval _ _ _ _ hu.1.le hu.2.le]; ring
  refine (hc.congr_deriv ?_).congr_of_eventuallyEq e
  field_simp

/-- **C17** Two integrations: position and velocity agree with the measurements at the current time,
the velocity is the time derivative of the position and the acceleration that of the velocity. -/
theorem C17_integrate_twice (ddx : BSpline ℝ) (lo hi : ℝ) (h : TrajOn ddx lo hi 0) (T : ℝ) (hT : 0 < T)
    (dx0 x0 t0 : ℝ) (a0 : lo ≤ t0 / T) (a1 : t0 / T ≤ hi) :
    (integrateTwice ddx dx0 x0 t0 T).1.eval (t0 / T) = x0 ∧
    (integrateTwice ddx dx0 x0 t0 T).2.eval (t0 / T) = dx0 ∧
    ∀ t, lo < t / T → t / T < hi →
      HasDerivAt (fun t => (integrateTwice ddx dx0 x0 t0 T).1.eval (t / T))
        ((integrateTwice ddx dx0 x0 t0 T).2.eval (t / T)) t ∧
      HasDerivAt (fun t => (integrateTwice ddx dx0 x0 t0 T).2.eval (t / T)) (ddx.eval (t / T)) t := by
  have h1 : TrajOn (integrateOnce ddx dx0 t0 T) lo hi 1 := h.integrateOnce _ _ _
  have h1' : TrajOn (integrateOnce ddx dx0 t0 T) lo hi 0 :=
    ⟨h1.clamped, h1.wf, h1.first, h1.last, fun τ a b => by have := h1.simple τ a b; omega, h1.tail⟩
  exact ⟨(C17_integrate_once _ lo hi h1' T hT x0 t0 a0 a1).1, (C17_integrate_once _ lo hi h T hT dx0 t0 a0 a1).1,
    fun t b0 b1 => ⟨C17_velocity _ lo hi h1' T hT x0 t0 t b0 b1, C17_velocity _ lo hi h T hT dx0 t0 t b0 b1⟩⟩

/-- Starting at position 7 at time 2 of a motion of 10 seconds. -/
example (t : ℝ) (h0 : 0 ≤ t) (h1 : t ≤ 10) :
    (integrateOnce cub 7 2 10).eval (t / 10) = 7 + ∫ u in (2 : ℝ)..t, cub.eval (u / 10) :=
  (C17_integrate_once cub 0 1 (cub_traj.mono (Nat.zero_le _)).trajOn 10 (by norm_num) 7 2 (by norm_num)
    (by norm_num)).2 t (by positivity) (by linarith)

example (t : ℝ) (h0 : 0 < t) (h1 : t < 10) :
    HasDerivAt (fun t => (integrateOnce cub 7 2 10).eval (t / 10)) (cub.eval (t / 10)) t :=
  C17_velocity cub 0 1 (cub_traj.mono (Nat.zero_le _)).trajOn 10 (by norm_num) 7 2 t (by positivity) (by linarith)

example : (integrateTwice cub 3 7 2 10).1.eval (2 / 10) = 7 ∧ (integrateTwice cub 3 7 2 10).2.eval (2 / 10) = 3 := by
  obtain ⟨a, b, -⟩ := C17_integrate_twice cub 0 1 (cub_traj.mono (Nat.zero_le _)).trajOn 10 (by norm_num) 3 7 2
    (by norm_num) (by norm_num)
  exact ⟨a, b⟩

end Verif.Vehicles
