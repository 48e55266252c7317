import Verif.Vehicles.Goal
import Verif.Spline.Integral
import Verif.Timing.KnotClock
import Mathlib.MeasureTheory.Integral.IntervalIntegral.Basic
import Mathlib.Analysis.SpecialFunctions.Integrals.Basic

/-! # Waiting and the reported objective (C128, C129)

`Problem.sleep` (problem.py:194-207) and the objectives of point-to-point problems (point2point.py:116-117, 235-266, 333-374). -/

set_option linter.unusedSectionVars false

namespace Verif.Vehicles

open Verif.Spline Collision Verif.Timing

/-! ## Model -/

/-- What `Problem.sleep` makes of a spline of the last plan, problem.py:196-204: all coefficients are its last one. -/
noncomputable def sleepSpline (s : BSpline ℝ) : BSpline ℝ := ⟨s.basis, List.replicate s.basis.len (s.coeffs.getLastD 0)⟩

/-- One update of a fixed-time problem with `nv` vehicles: its time, the time that is simulated, the splines with terminal conditions of each
vehicle and the slack splines `g0, g1, ...` (point2point.py:160-166; they have the same names for all vehicles). -/
structure Upd (nv : ℕ) where
  current : ℝ
  sim : ℝ
  x : Fin nv → ℕ → BSpline ℝ
  g : ℕ → BSpline ℝ

/-- The problem: `horizon_time`, `knot_time`, `start_time`, `init_time` and `term_con_len`. -/
structure FixedP (nv : ℕ) where
  H : ℝ
  kt : ℝ
  start : ℝ
  init : Option ℝ
  lens : Fin nv → ℕ

variable {nv : ℕ}

/-- `rel_current_time` in `store` and `simulate`, point2point.py:213-222, 235-240: where the executed part of the plan starts. -/
noncomputable def FixedP.rel (p : FixedP nv) (u : Upd nv) : ℝ :=
  match p.init with
  | none => paramT p.kt (u.current - p.start)
  | some t => t

/-- `simulation_time`, point2point.py:241-242. -/
noncomputable def FixedP.dur (p : FixedP nv) (u : Upd nv) : ℝ := if p.H - p.rel u < u.sim then p.H - p.rel u else u.sim

/-- `compute_partial_objective`, point2point.py:246-256: `init_time` is not looked at here. -/
noncomputable def FixedP.part (p : FixedP nv) (u : Upd nv) : ℝ :=
  let t0 := paramT p.kt (u.current - p.start) / p.H
  let t1 := t0 + p.dur u / p.H
  ∑ v : Fin nv, ∑ k ∈ Finset.range (p.lens v), p.H * definiteIntegral (u.g k) t0 t1

/-- The attribute `objective` after simulated updates, starting from `o`. -/
noncomputable def FixedP.objective (p : FixedP nv) (o : ℝ) (us : List (Upd nv)) : ℝ := us.foldl (fun o u => o + p.part u) o

/-- `compute_objective`, point2point.py:258-266; `g` are the slack splines of the last solution. -/
noncomputable def FixedP.reported (p : FixedP nv) (g : ℕ → BSpline ℝ) (o : ℝ) : ℝ :=
  if o = 0 then ∑ v : Fin nv, ∑ k ∈ Finset.range (p.lens v), p.H * (g k).integral else o

/-- A run of a free-time problem: the time of the next update, `start_time`, the attribute `objective`, and how long the vehicle has moved. -/
structure FreeRun where
  current : ℝ
  start : ℝ
  objective : ℝ
  moved : ℝ

/-- `simulation_time`, point2point.py:341-344, without `init_time`. -/
noncomputable def freeDur (T u : ℝ) : ℝ :=
  let s := if T < u then T else u
  if T - 0 < s then T - 0 else s

/-- One update with update time `u`, `T` being the motion time of the plan: `simulate` (point2point.py:333-346, 370-371), then `update_timing` of the simulator
(simulator.py:43-52). -/
noncomputable def FreeRun.update (sample u : ℝ) (s : FreeRun) (T : ℝ) : FreeRun :=
  if T < sample then { s with current := s.current + u }
  else ⟨s.current + u, s.start, s.current + freeDur T u - s.start, s.moved + freeDur T u⟩

/-- A run (simulator.py:43-52) with the motion times of its plans: `stop_criterium` stops it if `T < update_time` (point2point.py:348-352).
It may be stopped elsewhere too (by `Point2pointProblem.stop_criterium`): take the motion times up to there. -/
noncomputable def FreeRun.run (sample u : ℝ) : FreeRun → List ℝ → FreeRun
  | s, [] => s
  | s, T :: Ts => if T < u then s.update sample u T else (s.update sample u T).run sample u Ts

/-! ## Specification -/

/-- The distances from the goal along the executed motion, integrated over time: during this update condition `k` of vehicle `v` is the spline
`x v k` in physical time, from `rel` on. -/
noncomputable def FixedP.distance (p : FixedP nv) (goal : Fin nv → ℕ → ℝ) (u : Upd nv) : ℝ :=
  ∑ v : Fin nv, ∑ k ∈ Finset.range (p.lens v), ∫ τ in (p.rel u)..(p.rel u + p.dur u), |((u.x v k).scale p.H 0).eval τ - goal v k|

/-- A solution that meets the constraints of `define_terminal_constraints` with the slack splines. -/
structure Solved (p : FixedP nv) (goal : Fin nv → ℕ → ℝ) (u : Upd nv) : Prop where
  x : ∀ v k, k < p.lens v → Traj (u.x v k) 0
  g : ∀ v k, k < p.lens v → Traj (u.g k) 0
  slack : ∀ v k, k < p.lens v → ∀ e ∈ slackC (u.x v k) (goal v k) (u.g k), e.Imposed 0

/-! ## Lemmas -/

theorem sleep_eval {s : BSpline ℝ} (h : Traj s 0) (hstop : s.basis.k (s.basis.len - 1) < s.basis.k s.basis.len) {x : ℝ} (h0 : 0 ≤ x) (h1 : x ≤ 1) :
    (sleepSpline s).eval x = s.eval 1 := by
  have e := (C03_endpoints s h.clamped h.wf hstop).2
  rw [h.last] at e
  have hw : (sleepSpline s).WF := by simp [sleepSpline, BSpline.WF]
  rw [BSpline.eval_eq hw, e]
  have hs := C01_sum_one s.basis h.clamped x (by rw [h.first]; exact h0) (by rw [h.last]; exact h1)
  have hsum : ∑ i ∈ Finset.range s.basis.len, s.basis.fn i x = 1 := by
    rw [← hs]
    unfold Basis.eval
    rw [Finset.sum_range, ← List.sum_ofFn]
    congr 1
    apply List.ext_getElem <;> simp
  have : ∀ i ∈ Finset.range s.basis.len, (sleepSpline s).coeffs.getD i 0 * s.basis.fn i x = s.coeffs.getLastD 0 * s.basis.fn i x := by
    intro i hi
    have hi' := Finset.mem_range.1 hi
    show (List.replicate s.basis.len (s.coeffs.getLastD 0)).getD i 0 * _ = _
    rw [List.getD_eq_getElem _ _ (by simpa using hi'), List.getElem_replicate]
  show ∑ i ∈ Finset.range s.basis.len, (sleepSpline s).coeffs.getD i 0 * s.basis.fn i x = _
  rw [Finset.sum_congr rfl this, ← Finset.mul_sum, hsum, mul_one]

theorem sleep_traj {s : BSpline ℝ} {n : ℕ} (h : Traj s n) : Traj (sleepSpline s) n :=
  ⟨h.clamped, by simp [sleepSpline, BSpline.WF], h.first, h.last, h.simple, h.tail⟩

theorem sleep_deriv {s : BSpline ℝ} (h : Traj s 1) (x : ℝ) : ((sleepSpline s).derivative 1).eval x = 0 := by
  have hd := h.deg
  have ht := sleep_traj h
  obtain ⟨-, -, hl, hw, -, hc⟩ := derivative_one_spec ht.clamped ht.wf hd
  rw [BSpline.eval_eq hw]
  refine Finset.sum_eq_zero fun i hi => ?_
  have hi' := Finset.mem_range.1 hi
  rw [hl] at hi'
  rw [hc i hi']
  show (_ * ((List.replicate s.basis.len (s.coeffs.getLastD 0)).getD (i + 1) 0 - (List.replicate s.basis.len (s.coeffs.getLastD 0)).getD i 0) / _) * _ = _
  have hi2 : i < s.basis.len - 1 := hi'
  rw [List.getD_eq_getElem _ _ (by simp; omega), List.getD_eq_getElem _ _ (by simp; omega)]
  simp

theorem paramT_bounds (kt x : ℝ) (hk : 0 < kt) : 0 ≤ paramT kt x ∧ paramT kt x < kt := C33_range kt x hk

theorem FixedP.objective_eq (p : FixedP nv) (o : ℝ) (us : List (Upd nv)) : p.objective o us = o + (us.map p.part).sum := by
  unfold FixedP.objective
  induction us generalizing o with
  | nil => simp
  | cons u us ih => rw [List.foldl_cons, ih, List.map_cons, List.sum_cons, add_assoc]

theorem FixedP.window (p : FixedP nv) (hi : p.init = none) (hk : 0 < p.kt) (hkH : p.kt ≤ p.H) (u : Upd nv) (h0 : 0 ≤ u.sim) :
    0 ≤ p.rel u ∧ 0 ≤ p.dur u ∧ p.rel u + p.dur u ≤ p.H := by
  have hr : p.rel u = paramT p.kt (u.current - p.start) := by simp [FixedP.rel, hi]
  obtain ⟨a, b⟩ := paramT_bounds p.kt (u.current - p.start) hk
  rw [← hr] at a b
  unfold FixedP.dur
  split_ifs with h
  · exact ⟨a, by linarith, by linarith⟩
  · exact ⟨a, h0, by linarith⟩

/-- The integral of a slack spline in physical time. -/
theorem slack_integral {g : BSpline ℝ} (h : Traj g 0) {H a d : ℝ} (hH : 0 < H) (h0 : 0 ≤ a) (hd : 0 ≤ d) (h1 : a + d ≤ H) :
    H * definiteIntegral g (a / H) (a / H + d / H) = ∫ τ in a..(a + d), g.eval (τ / H) := by
  rw [intervalIntegral.integral_comp_div (fun x => g.eval x) hH.ne', smul_eq_mul, ← add_div]
  congr 1
  refine C06_definite g h.clamped h.wf (fun τ t0 t1 => ?_) ?_ _ _ ?_ ?_ ?_
  · rw [h.first] at t0
    rw [h.last] at t1
    have := h.simple τ t0 t1
    omega
  · rw [h.last]; exact h.tail
  · rw [h.first]; positivity
  · exact div_le_div_of_nonneg_right (by linarith) hH.le
  · rw [h.last]; exact (div_le_one hH).2 h1

theorem eval_integrable {s : BSpline ℝ} (h : Traj s 0) {H a b : ℝ} (hH : 0 < H) (h0 : 0 ≤ a) (hab : a ≤ b) (h1 : b ≤ H) :
    IntervalIntegrable (fun τ => s.eval (τ / H)) MeasureTheory.volume a b := by
  have := intervalIntegrable_eval h.clamped h.wf (a := a / H) (b := b / H)
    (by rw [← headD_eq_k h.clamped, h.first]; positivity) (div_le_div_of_nonneg_right hab hH.le)
    (by rw [← getLastD_eq_k h.clamped, h.last]; exact (div_le_one hH).2 h1)
  have := this.comp_mul_right (c := 1 / H)
  have e1 : a / H / (1 / H) = a := by field_simp
  have e2 : b / H / (1 / H) = b := by field_simp
  rw [e1, e2] at this
  simpa only [mul_one_div] using this

theorem slack_bound {x g : BSpline ℝ} {goal : ℝ} (hx : Traj x 0) (hg : Traj g 0) (hs : ∀ e ∈ slackC x goal g, e.Imposed 0)
    {m : ℝ} (m0 : 0 ≤ m) (m1 : m ≤ 1) : |x.eval m - goal| ≤ g.eval m := by
  have a := C53_imposed (lo := 0) (hi := 1) (.sub (.sub (.spl x) (.num goal)) (.spl g))
    ⟨⟨hx.on, trivial⟩, hg.on⟩ (Or.inl (Or.inl trivial)) 0 (hs _ (by simp [slackC])) _ m0 m1
  have b := C53_imposed (lo := 0) (hi := 1) (.sub (.add (.neg (.spl x)) (.num goal)) (.spl g))
    ⟨⟨hx.on, trivial⟩, hg.on⟩ (Or.inl (Or.inl trivial)) 0 (hs _ (by simp [slackC])) _ m0 m1
  simp only [Expr.val, Expr.sub] at a b
  rw [abs_le]
  constructor <;> linarith

theorem free_run (sample u : ℝ) (hu : sample ≤ u) (Ts : List ℝ) : ∀ s : FreeRun, s.current = s.start + s.moved → s.objective = s.moved →
    (s.run sample u Ts).objective = (s.run sample u Ts).moved := by
  induction Ts with
  | nil => exact fun s _ h => h
  | cons T Ts ih =>
    intro s hc ho
    have h1 : (s.update sample u T).objective = (s.update sample u T).moved := by
      unfold FreeRun.update
      split_ifs
      · exact ho
      · show s.current + _ - s.start = s.moved + _
        linarith
    unfold FreeRun.run
    split_ifs with hT
    · exact h1
    · refine ih _ ?_ h1
      have : ¬ T < sample := fun h => hT (h.trans_le hu)
      have hd : freeDur T u = u := by simp [freeDur, hT]
      unfold FreeRun.update
      rw [if_neg this, hd]
      show s.current + u = s.start + (s.moved + u)
      linarith

theorem line_eval (x : ℝ) (h0 : 0 ≤ x) (h1 : x ≤ 1) : (⟨Bz 1, [0, 4]⟩ : BSpline ℝ).eval x = 4 * x := by
  rw [Bz_eval rfl h0 h1]; simp [Finset.sum_range_succ, bern]

theorem line_slack : ∀ e ∈ slackC ⟨Bz 1, [0, 4]⟩ 0 ⟨Bz 1, [0, 4]⟩, e.Imposed 0 := by
  simp only [slackC, List.forall_mem_cons]
  refine ⟨Expr.AllBz.imposed (D := 1) (by simp [Expr.AllBz, Expr.sub, Bz]) (by simp [Expr.bdeg, Expr.sub, Bz])
    (by norm_num) [0, 0] (fun x x0 x1 => ?_) (fun i hi => ?_), Expr.AllBz.imposed (D := 1)
    (by simp [Expr.AllBz, Expr.sub, Bz]) (by simp [Expr.bdeg, Expr.sub, Bz])
    (by norm_num) [0, -8] (fun x x0 x1 => ?_) (fun i hi => ?_), by simp⟩
  · simp only [Expr.val, Expr.sub]
    rw [line_eval x x0 x1]; simp [Finset.sum_range_succ]
  · interval_cases i <;> norm_num
  · simp only [Expr.val, Expr.sub]
    rw [line_eval x x0 x1]; simp [Finset.sum_range_succ, bern, Nat.choose]; ring
  · interval_cases i <;> norm_num

/-! ## Properties -/

/-- **C128** While it waits a holonomic vehicle stands still, where its last plan ends. -/
theorem C128_still {n : ℕ} (x : Fin n → BSpline ℝ) (hx : ∀ i, Traj (x i) 1) (hstop : ∀ i, (x i).basis.k ((x i).basis.len - 1) < (x i).basis.k (x i).basis.len)
    (S : ℝ) (hS : 0 < S) (t : ℝ) (h0 : 0 ≤ t) (h1 : t ≤ S) :
    (holoSignals (fun i => (sleepSpline (x i)).scale S 0) t).state = (fun i => (x i).eval 1) ∧
    (holoSignals (fun i => (sleepSpline (x i)).scale S 0) t).input = fun _ => 0 := by
  refine ⟨funext fun i => ?_, funext fun i => ?_⟩
  · show ((sleepSpline (x i)).scale S 0).eval t = _
    rw [(sleep_traj (hx i)).sig0 hS, sleep_eval ((hx i).mono (by norm_num)) (hstop i) (div_nonneg h0 hS.le) ((div_le_one hS).2 h1)]
  · show (((sleepSpline (x i)).scale S 0).derivative 1).eval t = _
    rw [Traj.sig1 (n := 0) (sleep_traj (hx i)) hS, sleep_deriv (hx i), zero_div]

/-- **C128** (a vehicle that arrived) so it stays where it is, if that is the end of its plan. -/
theorem C128_stay_partial {n : ℕ} (x : Fin n → BSpline ℝ) (hx : ∀ i, Traj (x i) 1) (hstop : ∀ i, (x i).basis.k ((x i).basis.len - 1) < (x i).basis.k (x i).basis.len)
    (T S : ℝ) (hT : 0 < T) (hS : 0 < S) (t : ℝ) (h0 : 0 ≤ t) (h1 : t ≤ S) :
    (holoSignals (fun i => (sleepSpline (x i)).scale S 0) t).state = (holoSignals (fun i => (x i).scale T 0) T).state := by
  rw [(C128_still x hx hstop S hS t h0 h1).1]
  funext i
  show _ = ((x i).scale T 0).eval T
  rw [(hx i).sig0 hT, div_self hT.ne']

/-- **C128** fails for a vehicle that is still on its way at time `now` of the plan: it is moved to the end of the plan at once. -/
theorem C128_jump_violated {n : ℕ} (x : Fin n → BSpline ℝ) (hx : ∀ i, Traj (x i) 1) (hstop : ∀ i, (x i).basis.k ((x i).basis.len - 1) < (x i).basis.k (x i).basis.len)
    (T S : ℝ) (hS : 0 < S) (now : ℝ) (i : Fin n) (hway : ((x i).scale T 0).eval now ≠ (x i).eval 1) (t : ℝ) (h0 : 0 ≤ t) (h1 : t ≤ S) :
    (holoSignals (fun i => (sleepSpline (x i)).scale S 0) t).state ≠ (holoSignals (fun i => (x i).scale T 0) now).state := by
  rw [(C128_still x hx hstop S hS t h0 h1).1]
  intro h
  exact hway (congrFun h i).symm

/-- **C129** The objective of a simulated run is the slack along the executed motion, integrated over time. -/
theorem C129_integral_partial (p : FixedP nv) (hi : p.init = none) (hk : 0 < p.kt) (hkH : p.kt ≤ p.H) (goal : Fin nv → ℕ → ℝ)
    (us : List (Upd nv)) (hs : ∀ u ∈ us, Solved p goal u) (h0 : ∀ u ∈ us, 0 ≤ u.sim) :
    p.objective 0 us = (us.map fun u => ∑ v : Fin nv, ∑ k ∈ Finset.range (p.lens v),
      ∫ τ in (p.rel u)..(p.rel u + p.dur u), (u.g k).eval (τ / p.H)).sum := by
  rw [p.objective_eq, zero_add]
  congr 1
  refine List.map_congr_left fun u hu => ?_
  obtain ⟨r0, d0, rd⟩ := p.window hi hk hkH u (h0 u hu)
  have hr : p.rel u = paramT p.kt (u.current - p.start) := by simp [FixedP.rel, hi]
  refine Finset.sum_congr rfl fun v _ => Finset.sum_congr rfl fun k hk' => ?_
  rw [← hr]
  exact slack_integral ((hs u hu).g v k (Finset.mem_range.1 hk')) (hk.trans_le hkH) r0 d0 rd

/-- **C129** so it is at least the distance from the goal, integrated over time. -/
theorem C129_bound_partial (p : FixedP nv) (hi : p.init = none) (hk : 0 < p.kt) (hkH : p.kt ≤ p.H) (goal : Fin nv → ℕ → ℝ)
    (us : List (Upd nv)) (hs : ∀ u ∈ us, Solved p goal u) (h0 : ∀ u ∈ us, 0 ≤ u.sim) :
    (us.map (p.distance goal)).sum ≤ p.objective 0 us := by
  rw [C129_integral_partial p hi hk hkH goal us hs h0]
  have hH := hk.trans_le hkH
  refine List.sum_le_sum fun u hu => ?_
  obtain ⟨r0, d0, rd⟩ := p.window hi hk hkH u (h0 u hu)
  refine Finset.sum_le_sum fun v _ => Finset.sum_le_sum fun k hk' => ?_
  have hk'' := Finset.mem_range.1 hk'
  have tx := (hs u hu).x v k hk''
  have tg := (hs u hu).g v k hk''
  simp only [tx.sig0 hH]
  refine intervalIntegral.integral_mono_on (by linarith)
    (((eval_integrable tx hH r0 (by linarith) rd).sub intervalIntegrable_const).abs) (eval_integrable tg hH r0 (by linarith) rd) fun τ hτ => ?_
  exact slack_bound tx tg ((hs u hu).slack v k hk'') (div_nonneg (r0.trans hτ.1) hH.le) ((div_le_one hH).2 (hτ.2.trans rd))

/-- **C129** Without simulation it is the slack along the whole plan. -/
theorem C129_plan (p : FixedP nv) (hH : 0 < p.H) (g : ℕ → BSpline ℝ) (hg : ∀ v k, k < p.lens v → Traj (g k) 0) :
    p.reported g 0 = ∑ v : Fin nv, ∑ k ∈ Finset.range (p.lens v), ∫ τ in (0)..p.H, (g k).eval (τ / p.H) := by
  rw [FixedP.reported, if_pos rfl]
  refine Finset.sum_congr rfl fun v _ => Finset.sum_congr rfl fun k hk => ?_
  have h := hg v k (Finset.mem_range.1 hk)
  rw [C06_integral (g k) h.clamped h.wf, h.first, h.last, intervalIntegral.integral_comp_div (fun x => (g k).eval x) hH.ne', smul_eq_mul,
    zero_div, div_self hH.ne']
  · intro τ t0 t1
    rw [h.first] at t0
    rw [h.last] at t1
    have := h.simple τ t0 t1
    omega
  · rw [h.last]; exact h.tail

/-- **C129** fails for a second run: the objective of the first one is added. -/
theorem C129_again_violated (p : FixedP nv) (us1 us2 : List (Upd nv)) (h : p.objective 0 us1 ≠ 0) :
    p.objective (p.objective 0 us1) us2 = p.objective 0 us1 + p.objective 0 us2 ∧
    p.objective (p.objective 0 us1) us2 ≠ p.objective 0 us2 := by
  simp only [p.objective_eq, zero_add] at h ⊢
  exact ⟨trivial, fun e => h (by linarith)⟩

/-- **C129** fails if an initial time is set: the objective is taken over another part of the plan than the one that is executed. -/
theorem C129_init_violated : ∃ (p : FixedP 1) (u : Upd 1), Solved p (fun _ _ => 0) u ∧ p.rel u = 1 / 2 ∧ p.dur u = 1 / 2 ∧
    p.objective 0 [u] = 1 / 2 ∧ p.distance (fun _ _ => 0) u = 3 / 2 := by
  have tr : Traj (⟨Bz 1, [0, 4]⟩ : BSpline ℝ) 0 := (Bz_traj rfl).mono (by omega)
  have pz : paramT (1 : ℝ) (0 - 0) = 0 := by norm_num [paramT, round6, pyMod]
  refine ⟨⟨1, 1, 0, some (1 / 2), fun _ => 1⟩, ⟨0, 1 / 2, fun _ _ => ⟨Bz 1, [0, 4]⟩, fun _ => ⟨Bz 1, [0, 4]⟩⟩,
    ⟨fun _ _ _ => tr, fun _ _ _ => tr, fun _ _ _ => ?_⟩, rfl, ?_, ?_, ?_⟩
  · exact line_slack
  · norm_num [FixedP.dur, FixedP.rel]
  · have hd := slack_integral (g := ⟨Bz 1, [0, 4]⟩) (H := 1) (a := 0) (d := 1 / 2) tr one_pos le_rfl (by norm_num) (by norm_num)
    have e : ∫ τ in (0 : ℝ)..(0 + 1 / 2), (⟨Bz 1, [0, 4]⟩ : BSpline ℝ).eval (τ / 1) = ∫ τ in (0 : ℝ)..(1 / 2), 4 * τ := by
      rw [zero_add]
      refine intervalIntegral.integral_congr fun x hx => ?_
      rw [Set.uIcc_of_le (by norm_num)] at hx
      show (⟨Bz 1, [0, 4]⟩ : BSpline ℝ).eval (x / 1) = _
      rw [div_one, line_eval x hx.1 (hx.2.trans (by norm_num))]
    rw [e, intervalIntegral.integral_const_mul, integral_id] at hd
    simp only [FixedP.objective, FixedP.part, FixedP.dur, FixedP.rel, List.foldl_cons, List.foldl_nil, pz, Finset.univ_unique, Finset.sum_singleton,
      Finset.sum_range_one]
    norm_num at hd ⊢
    linarith
  · simp only [FixedP.distance, FixedP.dur, FixedP.rel, Finset.univ_unique, Finset.sum_singleton, Finset.sum_range_one]
    have e : ∫ τ in (1 / 2 : ℝ)..1, |((⟨Bz 1, [0, 4]⟩ : BSpline ℝ).scale 1 0).eval τ - 0| = ∫ τ in (1 / 2 : ℝ)..1, 4 * τ := by
      refine intervalIntegral.integral_congr fun x hx => ?_
      rw [Set.uIcc_of_le (by norm_num)] at hx
      show |((⟨Bz 1, [0, 4]⟩ : BSpline ℝ).scale 1 0).eval x - 0| = _
      have h0 : 0 ≤ x := by linarith [hx.1]
      rw [tr.sig0 one_pos, div_one, line_eval x h0 hx.2, sub_zero, abs_of_nonneg (by linarith)]
    norm_num at e ⊢
    rw [e, intervalIntegral.integral_const_mul, integral_id]
    norm_num

/-- **C129** A free-time run reports how long the vehicle moved. -/
theorem C129_free (sample u : ℝ) (hu : sample ≤ u) (start : ℝ) (Ts : List ℝ) :
    ((⟨start, start, 0, 0⟩ : FreeRun).run sample u Ts).objective = ((⟨start, start, 0, 0⟩ : FreeRun).run sample u Ts).moved :=
  free_run sample u hu Ts _ (by simp) rfl

/-! ## Examples -/

-- C128: half way to 1 the vehicle is told to wait for three seconds
example (t : ℝ) (h0 : 0 ≤ t) (h1 : t ≤ 3) :
    (holoSignals (fun _ : Fin 2 => (sleepSpline ⟨Bz 1, [0, 1]⟩).scale 3 0) t).state = (fun _ => 1) ∧
    (holoSignals (fun _ : Fin 2 => (sleepSpline ⟨Bz 1, [0, 1]⟩).scale 3 0) t).state ≠
      (holoSignals (fun _ : Fin 2 => (⟨Bz 1, [0, 1]⟩ : BSpline ℝ).scale 10 0) 5).state := by
  have tr : Traj (⟨Bz 1, [0, 1]⟩ : BSpline ℝ) 1 := Bz_traj rfl
  have ev : ∀ x : ℝ, 0 ≤ x → x ≤ 1 → (⟨Bz 1, [0, 1]⟩ : BSpline ℝ).eval x = x := fun x h0 h1 => by
    rw [Bz_eval rfl h0 h1]; simp [Finset.sum_range_succ, bern]
  have hs : (Bz 1 : Basis ℝ).k ((Bz 1 : Basis ℝ).len - 1) < (Bz 1 : Basis ℝ).k (Bz 1 : Basis ℝ).len := by
    norm_num [Bz, Basis.k, Basis.len]
  refine ⟨?_, C128_jump_violated (fun _ : Fin 2 => ⟨Bz 1, [0, 1]⟩) (fun _ => tr) (fun _ => hs) 10 3 (by norm_num) 5 0 ?_ t h0 h1⟩
  · rw [(C128_still (fun _ : Fin 2 => ⟨Bz 1, [0, 1]⟩) (fun _ => tr) (fun _ => hs) 3 (by norm_num) t h0 h1).1, ev 1 zero_le_one le_rfl]
  · rw [tr.sig0 (by norm_num), ev _ (by norm_num) (by norm_num), ev 1 zero_le_one le_rfl]; norm_num

-- C129: updates of half a second on a horizon of one second with the knot time half a second, to the goal 0
example : ∃ o : ℝ, o = (⟨1, 1 / 2, 0, none, fun _ => 1⟩ : FixedP 1).objective 0
      ([0, 1 / 2, 1].map fun c => ⟨c, 1 / 2, fun _ _ => ⟨Bz 1, [0, 4]⟩, fun _ => ⟨Bz 1, [0, 4]⟩⟩) ∧
    ([0, 1 / 2, 1].map fun c => (⟨1, 1 / 2, 0, none, fun _ => 1⟩ : FixedP 1).distance (fun _ _ => 0)
      ⟨c, 1 / 2, fun _ _ => ⟨Bz 1, [0, 4]⟩, fun _ => ⟨Bz 1, [0, 4]⟩⟩).sum ≤ o := by
  have tr : Traj (⟨Bz 1, [0, 4]⟩ : BSpline ℝ) 0 := (Bz_traj rfl).mono (by omega)
  refine ⟨_, rfl, ?_⟩
  have := C129_bound_partial (⟨1, 1 / 2, 0, none, fun _ => 1⟩ : FixedP 1) rfl (by norm_num) (by norm_num) (fun _ _ => 0)
    (([0, 1 / 2, 1] : List ℝ).map fun c => ⟨c, 1 / 2, fun _ _ => ⟨Bz 1, [0, 4]⟩, fun _ => ⟨Bz 1, [0, 4]⟩⟩)
    (fun u hu => by
      obtain ⟨c, -, rfl⟩ := List.mem_map.1 hu
      exact ⟨fun _ _ _ => tr, fun _ _ _ => tr, fun _ _ _ => line_slack⟩)
    (fun u hu => by obtain ⟨c, -, rfl⟩ := List.mem_map.1 hu; norm_num)
  rwa [List.map_map] at this

-- the vehicle moves by 5/2 seconds in three updates, the last plan takes half a second
example : ((⟨7, 7, 0, 0⟩ : FreeRun).run (1 / 10) 1 [5 / 2, 3 / 2, 1 / 2]).objective = 5 / 2 := by
  norm_num [FreeRun.run, FreeRun.update, freeDur]

end Verif.Vehicles
