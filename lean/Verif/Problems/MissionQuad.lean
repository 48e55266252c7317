import Verif.Problems.MissionFixed
import Verif.Problems.Slow

/-! # A simulated flight of a quadrotor in the plane

A quadrotor that flies in a vertical plane (`Quadrotor`) is steered to a position by a point-to-point problem with free end time in one upright rectangular
room with obstacles; the simulator updates the plan every `q` samples. -/

set_option linter.unusedSectionVars false

namespace Verif.Problems

open Verif.Spline Verif.Vehicles Verif.Collision Verif.Timing

/-! ## Model -/

/-- What the user sets up: the radius of the quadrotor and its options (quadrotor.py:29-38), bounds, the position to fly to, and the room. -/
structure QSetup where
  radius : ℝ
  sd : ℝ
  bounds : Bounds
  intervals : ℕ
  goal : Fin 2 → ℝ
  width : ℝ
  height : ℝ
  room : ℝ × ℝ

/-- The values of one solution, with the parameters for which it was solved: the predicted obstacles and the predicted state of the quadrotor. -/
structure QUpd where
  T : ℝ
  x : Fin 2 → BSpline ℝ
  hyp : ℕ → ℕ → Hyp
  eps : ℕ → ℕ → BSpline ℝ
  obs : List Obs
  start : QuadPred

/-- The shape and the splines as `define_collision_constraints_2d` sees them (quadrotor.py:120-122): a disc (quadrotor.py:32) that moves with the splines, of
degree 4 (quadrotor.py:32). -/
def QSetup.disc (Q : QSetup) : Setup := ⟨[circle Q.radius], Q.sd, Q.bounds, 4, Q.intervals, Q.goal, Q.width, Q.height, Q.room⟩
def QUpd.disc (u : QUpd) : Upd :=
  ⟨u.T, u.x, u.hyp, u.eps, u.obs, ⟨![u.start.pos.1, u.start.pos.2], ![u.start.dspl.1, u.start.dspl.2], ![u.start.ddspl.1, u.start.ddspl.2]⟩⟩

/-- All variables of `FreeTPoint2point` have values that meet all its constraints, point2point.py:31-66,288-311 with quadrotor.py:48-84: splines on the basis of
the vehicle, limits, obstacles, room, start (`t0 = 0`) and end. -/
structure QSolves (Q : QSetup) (u : QUpd) : Prop where
  positive : (-u.T) ≤ 0
  form : ∀ i, OfVehicle 4 Q.intervals (u.x i)
  lines : ∀ k l, (u.hyp k l).On 0 1
  slacks : ∀ s k, (Expr.spl (u.eps s k)).On 0 1
  limits : ∀ e ∈ quadC Q.bounds (u.x 0) (u.x 1) u.T, e.Imposed 0
  avoid : ∀ e ∈ envCons (Q.disc.veh u.disc) u.obs u.hyp, e.Imposed 0
  inside : ∀ e ∈ roomConsRect (circle Q.radius) (.spl (u.x 0)) (.spl (u.x 1)) (Geometry.placedRect Q.width Q.height Q.room).limits, e.Imposed 0
  starts : MeetsInit (quadInit (u.x 0) (u.x 1) u.start u.T) (0 / u.T)
  ends : MeetsEnd (imposedFree false (holoTerm u.x Q.goal 4))

/-- The columns that `FreeTPoint2point.store` (point2point.py:327-342) stores, with the signals of quadrotor.py:124-144: state, `dspl` and `ddspl`, and thrust, on
the time axis `0, Ts, 2 Ts, ...`. -/
noncomputable def QUpd.cols (Ts : ℝ) (u : QUpd) : List (QuadPred × ℝ) :=
  (List.range ((samples u.T Ts).toNat + 1)).map fun (i : ℕ) =>
    (quadFull ((u.x 0).scale u.T 0) ((u.x 1).scale u.T 0) (i * Ts), (quadSignals ((u.x 0).scale u.T 0) ((u.x 1).scale u.T 0) (i * Ts)).u1)

/-! ## Specification -/

/-- A motion of a quadrotor: position, velocity, tilt, thrust and rate of turn at every time. -/
structure Flight where
  pos : ℝ → Fin 2 → ℝ
  vel : ℝ → Fin 2 → ℝ
  tilt : ℝ → ℝ
  thrust : ℝ → ℝ
  rate : ℝ → ℝ

/-- A flight during `[0, total]` that obeys the laws of motion and is safe: position and velocity are continuously differentiable, the acceleration being that of the
thrust in the direction of the tilt and of gravity; the direction of the thrust changes without jumps and turns at the commanded rate; thrust and rate
are within their limits; the disc stays in the room and apart from all obstacles. -/
structure Spec.SafeQuad (Q : QSetup) (world : List Mover) (total : ℝ) (f : Flight) : Prop where
  moves : ∀ i, ∀ t ∈ Set.Icc 0 total, HasDerivWithinAt (fun t => f.pos t i) (f.vel t i) (Set.Icc 0 total) t
  pushX : ∀ t ∈ Set.Icc 0 total, HasDerivWithinAt (fun t => f.vel t 0) (f.thrust t * Real.sin (f.tilt t)) (Set.Icc 0 total) t
  pushY : ∀ t ∈ Set.Icc 0 total, HasDerivWithinAt (fun t => f.vel t 1) (f.thrust t * Real.cos (f.tilt t) - quadG) (Set.Icc 0 total) t
  smooth : ContinuousOn f.thrust (Set.Icc 0 total) ∧ ContinuousOn (fun t => Real.sin (f.tilt t)) (Set.Icc 0 total) ∧
    ContinuousOn (fun t => Real.cos (f.tilt t)) (Set.Icc 0 total)
  turns : ∀ t ∈ Set.Ico 0 total, HasDerivWithinAt (fun t => Real.sin (f.tilt t)) (Real.cos (f.tilt t) * f.rate t) (Set.Icc t total) t ∧
    HasDerivWithinAt (fun t => Real.cos (f.tilt t)) (-Real.sin (f.tilt t) * f.rate t) (Set.Icc t total) t
  limits : ∀ t ∈ Set.Icc 0 total, (lim Q.bounds "u1min" 2 ≤ f.thrust t ∧ f.thrust t ≤ lim Q.bounds "u1max" 15) ∧
    lim Q.bounds "u2min" (-8) ≤ f.rate t ∧ f.rate t ≤ lim Q.bounds "u2max" 8
  room : ∀ t ∈ Set.Icc 0 total, ∀ p : Pt 2, dist p !₂[f.pos t 0, f.pos t 1] ≤ Q.radius → Geometry.InRect Q.width Q.height Q.room (p 0, p 1)
  apart : ∀ t ∈ Set.Icc 0 total, ∀ w ∈ world, ∀ p' ∈ placed (w.pos t) (w.angle t) w.shape.core,
    Q.radius + w.shape.rad ≤ dist !₂[f.pos t 0, f.pos t 1] p'

/-! ## One plan -/

section One
variable {Q : QSetup} {u : QUpd}

noncomputable def QUpd.pos (i : Fin 2) (u : QUpd) (r : ℝ) : ℝ := (u.x i).eval (r / u.T)
noncomputable def QUpd.vel (i : Fin 2) (u : QUpd) (r : ℝ) : ℝ := ((u.x i).derivative 1).eval (r / u.T) / u.T
noncomputable def QUpd.acc (i : Fin 2) (u : QUpd) (r : ℝ) : ℝ := ((u.x i).derivative 2).eval (r / u.T) / u.T ^ 2
noncomputable def QUpd.jerk (i : Fin 2) (u : QUpd) (r : ℝ) : ℝ := ((u.x i).derivative 3).eval (r / u.T) / u.T ^ 3
noncomputable def QUpd.tilt (u : QUpd) (r : ℝ) : ℝ := arctan2 (u.acc 0 r) (u.acc 1 r + quadG)
noncomputable def QUpd.thrust (u : QUpd) (r : ℝ) : ℝ := Real.sqrt (u.acc 0 r ^ 2 + (u.acc 1 r + quadG) ^ 2)
noncomputable def QUpd.rate (u : QUpd) (r : ℝ) : ℝ :=
  (u.jerk 0 r * (u.acc 1 r + quadG) - u.acc 0 r * u.jerk 1 r) / ((u.acc 1 r + quadG) ^ 2 + u.acc 0 r ^ 2)

theorem QSolves.traj (h : QSolves Q u) (hn : 1 ≤ Q.intervals) (i : Fin 2) : Traj (u.x i) 3 := by
  obtain ⟨c, hc, e⟩ := h.form i
  rw [e]
  exact vehBasis_traj (by omega) hn hc

theorem quad_signals (hx : ∀ i, Traj (u.x i) 3) (hT : 0 < u.T) (t : ℝ) :
    quadFull ((u.x 0).scale u.T 0) ((u.x 1).scale u.T 0) t =
      ⟨(u.pos 0 t, u.pos 1 t), (u.vel 0 t, u.vel 1 t), u.tilt t, (u.vel 0 t, u.vel 1 t), (u.acc 0 t, u.acc 1 t)⟩ ∧
    quadSignals ((u.x 0).scale u.T 0) ((u.x 1).scale u.T 0) t = ⟨u.tilt t, u.thrust t, u.rate t⟩ := by
  have s0 : ∀ i, ((u.x i).scale u.T 0).eval t = u.pos i t := fun i => (hx i).sig0 hT t
  have s1 : ∀ i, (((u.x i).scale u.T 0).derivative 1).eval t = u.vel i t := fun i => Traj.sig1 (n := 2) (hx i) hT t
  have s2 : ∀ i, (((u.x i).scale u.T 0).derivative 2).eval t = u.acc i t := fun i => Traj.sig2 (n := 1) (hx i) hT t
  have s3 : ∀ i, (((u.x i).scale u.T 0).derivative 3).eval t = u.jerk i t := fun i => (hx i).signal hT t
  unfold quadFull quadSignals QUpd.tilt QUpd.thrust QUpd.rate
  simp only [s0, s1, s2, s3, and_self]

theorem qpos_deriv (hx : ∀ i, Traj (u.x i) 3) (hT : 0 < u.T) (i : Fin 2) : ∀ r ∈ Set.Icc 0 u.T,
    HasDerivWithinAt (u.pos i) (u.vel i r) (Set.Icc 0 u.T) r := fun _ hr => GCode.RingGuess.phys_within (m := 2) (hx i) hT hr

theorem qvel_deriv (hx : ∀ i, Traj (u.x i) 3) (hT : 0 < u.T) (i : Fin 2) : ∀ r ∈ Set.Icc 0 u.T,
    HasDerivWithinAt (u.vel i) (u.acc i r) (Set.Icc 0 u.T) r := fun r hr => by
  have := (GCode.RingGuess.phys_within (m := 1) (hx i).succ hT hr).div_const u.T
  unfold QUpd.acc
  rw [derivative_succ, pow_two, ← div_div]
  exact this

theorem qacc_deriv (hx : ∀ i, Traj (u.x i) 3) (hT : 0 < u.T) (i : Fin 2) : ∀ r ∈ Set.Icc 0 u.T,
    HasDerivWithinAt (u.acc i) (u.jerk i r) (Set.Icc 0 u.T) r := fun r hr => by
  have t2 : Traj ((u.x i).derivative 2) 1 := (hx i).iterate (n := 2) (m := 1)
  have := (GCode.RingGuess.phys_within (m := 0) t2 hT hr).div_const (u.T ^ 2)
  unfold QUpd.jerk
  rw [derivative_succ, pow_succ', ← div_div]
  exact this

theorem qcols_get (hx : ∀ i, Traj (u.x i) 3) {Ts : ℝ} (hs : 0 < Ts) (hT : 0 < u.T) {q i : ℕ} (hq : q * Ts ≤ u.T) (hi : i ≤ q) :
    (u.cols Ts)[i]? = some (⟨(u.pos 0 (i * Ts), u.pos 1 (i * Ts)), (u.vel 0 (i * Ts), u.vel 1 (i * Ts)), u.tilt (i * Ts),
      (u.vel 0 (i * Ts), u.vel 1 (i * Ts)), (u.acc 0 (i * Ts), u.acc 1 (i * Ts))⟩, u.thrust (i * Ts)) := by
  have h1 : ((q : ℕ) : ℝ) ≤ u.T / Ts := (le_div_iff₀ hs).2 hq
  have h2 : (q : ℤ) ≤ samples u.T Ts := by
    have := pyInt_mono (round6_mono h1)
    have e : ((q : ℕ) : ℝ) = ((q : ℤ) : ℝ) := by norm_cast
    rwa [e, round6_intCast, pyInt_intCast] at this
  have h3 : i < (samples u.T Ts).toNat + 1 := by omega
  unfold QUpd.cols
  rw [List.getElem?_map, List.getElem?_range h3, Option.map_some, (quad_signals hx hT _).1, (quad_signals hx hT _).2]

theorem QSolves.limits_at (h : QSolves Q u) (hx : ∀ i, Traj (u.x i) 3) (hT : 0 < u.T) (hmin : 0 < lim Q.bounds "u1min" 2)
    (hmax : 0 ≤ lim Q.bounds "u1max" 15) {r : ℝ} (h0 : 0 ≤ r) (h1 : r ≤ u.T) :
    (lim Q.bounds "u1min" 2 ≤ u.thrust r ∧ u.thrust r ≤ lim Q.bounds "u1max" 15) ∧
    lim Q.bounds "u2min" (-8) ≤ u.rate r ∧ u.rate r ≤ lim Q.bounds "u2max" 8 := by
  have := C15_limits Q.bounds (u.x 0) (u.x 1) (hx 0) (hx 1) u.T hT h.limits hmin hmax r h0 h1
  simpa only [(quad_signals hx hT r).2] using this

/-- With thrust, the tilt is the direction of the acceleration without gravity. -/
theorem quad_polar {r : ℝ} (h : 0 < u.thrust r) :
    u.thrust r * Real.sin (u.tilt r) = u.acc 0 r ∧ u.thrust r * Real.cos (u.tilt r) = u.acc 1 r + quadG :=
  polar fun e => by
    unfold QUpd.thrust at h
    rw [e, Real.sqrt_zero] at h
    exact lt_irrefl _ h

theorem circle_core (r : ℝ) : (circle r).core = {!₂[0, 0]} := by
  unfold Shape.core circle
  simp

theorem qthrust_deriv (hx : ∀ i, Traj (u.x i) 3) (hT : 0 < u.T) {r : ℝ} (hr : r ∈ Set.Icc 0 u.T) (hp : 0 < u.thrust r) :
    HasDerivWithinAt u.thrust ((u.acc 0 r * u.jerk 0 r + (u.acc 1 r + quadG) * u.jerk 1 r) / u.thrust r) (Set.Icc 0 u.T) r := by
  have dx := qacc_deriv hx hT 0 r hr
  have dy := (qacc_deriv hx hT 1 r hr).add_const quadG
  have hs : HasDerivWithinAt (fun r => u.acc 0 r ^ 2 + (u.acc 1 r + quadG) ^ 2)
      (2 * (u.acc 0 r * u.jerk 0 r + (u.acc 1 r + quadG) * u.jerk 1 r)) (Set.Icc 0 u.T) r := by
    refine ((dx.fun_pow 2).fun_add (dy.fun_pow 2)).congr_deriv ?_
    push_cast; ring
  have hne : u.acc 0 r ^ 2 + (u.acc 1 r + quadG) ^ 2 ≠ 0 := fun e => by
    unfold QUpd.thrust at hp
    rw [e, Real.sqrt_zero] at hp
    exact lt_irrefl _ hp
  have := hs.sqrt hne
  refine this.congr_deriv ?_
  show _ / (2 * u.thrust r) = _
  rw [mul_div_mul_left _ _ two_ne_zero]

theorem qdir_deriv (hx : ∀ i, Traj (u.x i) 3) (hT : 0 < u.T) (hp : ∀ r ∈ Set.Icc 0 u.T, 0 < u.thrust r) {r : ℝ} (hr : r ∈ Set.Icc 0 u.T) :
    HasDerivWithinAt (fun r => Real.sin (u.tilt r)) (Real.cos (u.tilt r) * u.rate r) (Set.Icc 0 u.T) r ∧
    HasDerivWithinAt (fun r => Real.cos (u.tilt r)) (-Real.sin (u.tilt r) * u.rate r) (Set.Icc 0 u.T) r := by
  have pr := hp r hr
  have dx := qacc_deriv hx hT 0 r hr
  have dy := (qacc_deriv hx hT 1 r hr).add_const quadG
  have dt := qthrust_deriv hx hT hr pr
  have es : ∀ r ∈ Set.Icc 0 u.T, Real.sin (u.tilt r) = u.acc 0 r / u.thrust r := fun r hr => by
    rw [eq_div_iff (hp r hr).ne', mul_comm]; exact (quad_polar (hp r hr)).1
  have ec : ∀ r ∈ Set.Icc 0 u.T, Real.cos (u.tilt r) = (u.acc 1 r + quadG) / u.thrust r := fun r hr => by
    rw [eq_div_iff (hp r hr).ne', mul_comm]; exact (quad_polar (hp r hr)).2
  have sq : u.thrust r ^ 2 = u.acc 0 r ^ 2 + (u.acc 1 r + quadG) ^ 2 := Real.sq_sqrt (by positivity)
  have er : u.rate r = (u.jerk 0 r * (u.acc 1 r + quadG) - u.acc 0 r * u.jerk 1 r) / u.thrust r ^ 2 := by
    unfold QUpd.rate; rw [sq, add_comm (u.acc 0 r ^ 2)]
  have s1 := (dx.fun_div dt pr.ne').congr es (es r hr)
  have c1 := (dy.fun_div dt pr.ne').congr ec (ec r hr)
  rw [es r hr, ec r hr, er]
  have hne := pr.ne'
  generalize u.thrust r = N at *
  generalize u.acc 0 r = a at *
  generalize u.acc 1 r + quadG = b at *
  generalize u.jerk 0 r = c at *
  generalize u.jerk 1 r = d at *
  refine ⟨s1.congr_deriv ?_, c1.congr_deriv ?_⟩
  · field_simp
    rw [sq]; ring
  · field_simp
    rw [sq]; ring

end One

/-! ## The property -/

set_option maxHeartbeats 1600000 in
/-- **C182** A simulated flight of a quadrotor in the plane with updates every `q` samples, in which every optimisation problem is solved (all constraints met),
every plan is at least as long as an update, every update starts from the predicted position, `dspl` and `ddspl`, and the obstacles behave as predicted until the next
update: there is one flight, of which the log is the sequence of samples, that starts where the quadrotor is, obeys the laws of motion with a thrust and a
rate of turn that the vehicle model is given, within their limits at every instant; the disc stays in the room and apart from the obstacles; and the
flight ends hovering at the goal. -/
theorem C182_flight_partial (Q : QSetup) (hn : 1 ≤ Q.intervals) (hw : 0 ≤ Q.width) (hh : 0 ≤ Q.height) (hsd : 0 ≤ Q.sd)
    (hmin : 0 < lim Q.bounds "u1min" 2) (hmax : 0 ≤ lim Q.bounds "u1max" 15)
    (Ts : ℝ) (hs : 0 < Ts) (q : ℕ) (hq : 1 ≤ q) (first : QUpd) (more : List QUpd)
    (solved : ∀ u ∈ first :: more, QSolves Q u) (long : ∀ u ∈ first :: more, q * Ts ≤ u.T)
    (predicted : ∀ s, Loop.run (q * Ts) Ts ((first :: more).map (QUpd.cols Ts)) = some s →
      ∀ (k : ℕ) (u : QUpd) (a : QuadPred × ℝ), more[k]? = some u → s.seen[k]? = some a →
        u.start.pos = a.1.pos ∧ u.start.dspl = a.1.dspl ∧ u.start.ddspl = a.1.ddspl)
    (world : List Mover) (foreseen : ∀ (k : ℕ) (u : QUpd), (first :: more)[k]? = some u →
      Spec.Predicted world (k * (q * Ts)) (if k = more.length then u.T else q * Ts) u.disc) :
    ∃ s, Loop.run (q * Ts) Ts ((first :: more).map (QUpd.cols Ts)) = some s ∧ ∃ f : Flight,
      let total := more.length * (q * Ts) + ((first :: more).getLast (List.cons_ne_nil _ _)).T
      Spec.SafeQuad Q world total f ∧
      (f.pos 0 = ![first.start.pos.1, first.start.pos.2] ∧ f.vel 0 = ![first.start.dspl.1, first.start.dspl.2] ∧
        f.thrust 0 * Real.sin (f.tilt 0) = first.start.ddspl.1 ∧ f.thrust 0 * Real.cos (f.tilt 0) - quadG = first.start.ddspl.2) ∧
      (f.pos total = Q.goal ∧ f.vel total = (fun _ => 0) ∧ f.tilt total = 0 ∧ f.thrust total = quadG ∧ f.rate total = 0) ∧
      s.log.length = (more.length + 1) * q + 1 ∧
      ∀ j, j ≤ (more.length + 1) * q → ∃ a, s.log[j]? = some (j * Ts, a) ∧ a.1.pos = (f.pos (j * Ts) 0, f.pos (j * Ts) 1) ∧
        a.1.vel = (f.vel (j * Ts) 0, f.vel (j * Ts) 1) ∧ a.1.theta = f.tilt (j * Ts) ∧ a.2 = f.thrust (j * Ts) := by
  have hu : 0 < (q : ℝ) * Ts := mul_pos (by exact_mod_cast hq) hs
  have hT : ∀ c ∈ first :: more, 0 < c.T := fun c hc => hu.trans_le (long c hc)
  have hx : ∀ c ∈ first :: more, ∀ i, Traj (c.x i) 3 := fun c hc => (solved c hc).traj hn
  have hx2 : ∀ c ∈ first :: more, ∀ i, Traj (c.disc.x i) 2 := fun c hc i => (hx c hc i).mono (by omega)
  have hlim := fun c (hc : c ∈ first :: more) (r : ℝ) (h0 : 0 ≤ r) (h1 : r ≤ c.T) => (solved c hc).limits_at (hx c hc) (hT c hc) hmin hmax h0 h1
  have hpos : ∀ c ∈ first :: more, ∀ r ∈ Set.Icc 0 c.T, 0 < c.thrust r := fun c hc r hr' => hmin.trans_le (hlim c hc r hr'.1 hr'.2).1.1
  have hstart : ∀ c ∈ first :: more, (∀ i, c.pos i 0 = ![c.start.pos.1, c.start.pos.2] i) ∧ (∀ i, c.vel i 0 = ![c.start.dspl.1, c.start.dspl.2] i) ∧
      ∀ i, c.acc i 0 = ![c.start.ddspl.1, c.start.ddspl.2] i := fun c hc => by
    have h := (solved c hc).starts
    have hTc := hT c hc
    simp only [MeetsInit, quadInit, List.forall_mem_cons] at h
    obtain ⟨a1, a2, a3, a4, a5, a6, -⟩ := h
    unfold QUpd.pos QUpd.vel QUpd.acc
    refine ⟨fun i => ?_, fun i => ?_, fun i => ?_⟩ <;> fin_cases i
    · exact a1
    · exact a2
    · exact (div_eq_iff hTc.ne').2 (a3.trans (mul_comm _ _))
    · exact (div_eq_iff hTc.ne').2 (a4.trans (mul_comm _ _))
    · exact (div_eq_iff (by positivity)).2 (a5.trans (mul_comm _ _))
    · exact (div_eq_iff (by positivity)).2 (a6.trans (mul_comm _ _))
  obtain ⟨s, hrun, hl, hseen, hlog⟩ := glue_log Ts hs q hq (QUpd.cols Ts) (fun (c : QUpd) (r : ℝ) => ((⟨(c.pos 0 r, c.pos 1 r), (c.vel 0 r, c.vel 1 r),
    c.tilt r, (c.vel 0 r, c.vel 1 r), (c.acc 0 r, c.acc 1 r)⟩ : QuadPred), c.thrust r)) first more
    (fun c hc i hi => qcols_get (hx c hc) hs (hT c hc) (long c hc) hi)
  -- consecutive plans fit together
  have hjoin : ∀ (k : ℕ) (c d : QUpd), (first :: more)[k]? = some c → (first :: more)[k + 1]? = some d →
      (∀ i, c.pos i (q * Ts) = d.pos i 0) ∧ (∀ i, c.vel i (q * Ts) = d.vel i 0) ∧ ∀ i, c.acc i (q * Ts) = d.acc i 0 := by
    intro k c d hc hd'
    have hdl : k < more.length := by
      have := (List.getElem?_eq_some_iff.1 hd').1
      simpa using this
    obtain ⟨a, b, e⟩ := predicted s hrun k d _ (by simpa using hd') (hseen k c hdl hc)
    obtain ⟨a', b', e'⟩ := hstart d (List.mem_of_getElem? hd')
    refine ⟨fun i => ?_, fun i => ?_, fun i => ?_⟩
    · rw [a', a]; fin_cases i <;> rfl
    · rw [b', b]; fin_cases i <;> rfl
    · rw [e', e]; fin_cases i <;> rfl
  have jt : ∀ (k : ℕ) (c d : QUpd), (first :: more)[k]? = some c → (first :: more)[k + 1]? = some d →
      c.tilt (q * Ts) = d.tilt 0 ∧ c.thrust (q * Ts) = d.thrust 0 := fun k c d h1 h2 => by
    obtain ⟨-, -, e⟩ := hjoin k c d h1 h2
    unfold QUpd.tilt QUpd.thrust
    rw [e 0, e 1]
    exact ⟨rfl, rfl⟩
  have chain : ∀ R : QUpd → QUpd → Prop, (∀ (k : ℕ) (c d : QUpd), (first :: more)[k]? = some c → (first :: more)[k + 1]? = some d → R c d) →
      (first :: more).IsChain R := fun R h => List.isChain_iff_getElem.2 fun k hk =>
    h k _ _ (List.getElem?_eq_getElem _) (List.getElem?_eq_getElem _)
  have htot := lastTime_eq (q * Ts) QUpd.T first more
  set total := lastTime (q * Ts) QUpd.T first more with htotal
  have cases := locate_cases hu (T := QUpd.T) first more long
  refine ⟨s, hrun, ⟨fun t i => along (q * Ts) (QUpd.pos i) first more t, fun t i => along (q * Ts) (QUpd.vel i) first more t,
    along (q * Ts) QUpd.tilt first more, along (q * Ts) QUpd.thrust first more, along (q * Ts) QUpd.rate first more⟩, ?_⟩
  rw [← htot]
  have atend : ∀ F : QUpd → ℝ → ℝ, along (q * Ts) F first more total =
      F ((first :: more).getLast (List.cons_ne_nil _ _)) ((first :: more).getLast (List.cons_ne_nil _ _)).T := fun F => by
    have hlast : (first :: more)[more.length]? = some ((first :: more).getLast (List.cons_ne_nil _ _)) := by
      rw [List.getLast_eq_getElem, List.getElem?_eq_getElem (by simp)]
      simp
    rw [along, htot, locate_at hu first more more.length _ _ hlast (hT _ (List.getLast_mem _)).le (Or.inr rfl)]
  have at0 : ∀ F : QUpd → ℝ → ℝ, along (q * Ts) F first more 0 = F first 0 := fun F => by rw [along, locate_zero hu]
  have vels : ∀ i, ∀ t ∈ Set.Icc 0 total, HasDerivWithinAt (fun t => along (q * Ts) (QUpd.vel i) first more t)
      (along (q * Ts) (QUpd.acc i) first more t) (Set.Icc 0 total) t := fun i t ht =>
    along_deriv hu first more long (fun c hc => qvel_deriv (hx c hc) (hT c hc) i)
      (chain _ fun k c d h1 h2 => ⟨(hjoin k c d h1 h2).2.1 i, (hjoin k c d h1 h2).2.2 i⟩) t ht
  have es : ∀ g : ℝ → ℝ, (fun t => g (along (q * Ts) QUpd.tilt first more t)) = along (q * Ts) (fun c r => g (QUpd.tilt c r)) first more :=
    fun g => by funext t; simp only [along]
  let SF : QUpd → ℝ → ℝ := fun c r => Real.sin (c.tilt r)
  let SG : QUpd → ℝ → ℝ := fun c r => Real.cos (c.tilt r) * c.rate r
  let CF : QUpd → ℝ → ℝ := fun c r => Real.cos (c.tilt r)
  let CG : QUpd → ℝ → ℝ := fun c r => -Real.sin (c.tilt r) * c.rate r
  have dirs : ∀ t ∈ Set.Ico 0 total, HasDerivWithinAt (along (q * Ts) SF first more)
      (Real.cos (along (q * Ts) QUpd.tilt first more t) * along (q * Ts) QUpd.rate first more t) (Set.Icc t total) t ∧
      HasDerivWithinAt (along (q * Ts) CF first more)
      (-Real.sin (along (q * Ts) QUpd.tilt first more t) * along (q * Ts) QUpd.rate first more t) (Set.Icc t total) t := fun t ht => by
    have d1 := along_right_deriv hu (F := SF) (G := SG) first more long
      (fun c hc r hr' => (qdir_deriv (hx c hc) (hT c hc) (hpos c hc) hr').1) t ht
    have d2 := along_right_deriv hu (F := CF) (G := CG) first more long
      (fun c hc r hr' => (qdir_deriv (hx c hc) (hT c hc) (hpos c hc) hr').2) t ht
    have e1 : along (q * Ts) SG first more t = Real.cos (along (q * Ts) QUpd.tilt first more t) * along (q * Ts) QUpd.rate first more t := by
      simp only [along, SG]
    have e2 : along (q * Ts) CG first more t = -Real.sin (along (q * Ts) QUpd.tilt first more t) * along (q * Ts) QUpd.rate first more t := by
      simp only [along, CG]
    rw [e1] at d1
    rw [e2] at d2
    exact ⟨d1, d2⟩
  have hm := List.getLast_mem (List.cons_ne_nil first more)
  have hend := C123_quadrotor _ _ (hx _ hm 0) (hx _ hm 1) (Q.goal 0) (Q.goal 1) 4 (by omega) _ (hT _ hm)
    (Or.inl (by
      have e1 : ![((first :: more).getLast (List.cons_ne_nil _ _)).x 0, ((first :: more).getLast (List.cons_ne_nil _ _)).x 1] =
          ((first :: more).getLast (List.cons_ne_nil _ _)).x := by funext i; fin_cases i <;> rfl
      have e2 : ![Q.goal 0, Q.goal 1] = Q.goal := by funext i; fin_cases i <;> rfl
      rw [e1, e2]
      exact (solved _ hm).ends))
  rw [(quad_signals (hx _ hm) (hT _ hm) _).1, (quad_signals (hx _ hm) (hT _ hm) _).2] at hend
  simp only [QuadPred.mk.injEq, Prod.mk.injEq] at hend
  obtain ⟨⟨⟨g0, g1⟩, ⟨v0, v1⟩, gt, -⟩, gu, gr⟩ := hend
  obtain ⟨st1, st2, st3⟩ := hstart first (by simp)
  have pol0 := quad_polar (hpos first (by simp) 0 ⟨le_rfl, (hT first (by simp)).le⟩)
  refine ⟨⟨?_, ?_, ?_, ⟨?_, ?_, ?_⟩, ?_, ?_, ?_, ?_⟩, ⟨?_, ?_, ?_, ?_⟩, ⟨?_, ?_, ?_, ?_, ?_⟩, hl, ?_⟩
  · intro i t ht
    exact along_deriv hu first more long (fun c hc => qpos_deriv (hx c hc) (hT c hc) i)
      (chain _ fun k c d h1 h2 => ⟨(hjoin k c d h1 h2).1 i, (hjoin k c d h1 h2).2.1 i⟩) t ht
  · intro t ht
    refine (vels 0 t ht).congr_deriv ?_
    obtain ⟨k, c, r, hk, -, h0, h1, -, e⟩ := cases t ht.1 ht.2
    simp only [along, e]
    exact (quad_polar (hpos c (List.mem_of_getElem? hk) r ⟨h0, h1⟩)).1.symm
  · intro t ht
    refine (vels 1 t ht).congr_deriv ?_
    obtain ⟨k, c, r, hk, -, h0, h1, -, e⟩ := cases t ht.1 ht.2
    simp only [along, e]
    linarith [(quad_polar (hpos c (List.mem_of_getElem? hk) r ⟨h0, h1⟩)).2]
  · exact along_cont hu first more long (fun c hc r hr' => (qthrust_deriv (hx c hc) (hT c hc) hr' (hpos c hc r hr')).continuousWithinAt)
      (chain _ fun k c d h1 h2 => (jt k c d h1 h2).2)
  · show ContinuousOn (fun t => Real.sin (along (q * Ts) QUpd.tilt first more t)) _
    rw [es Real.sin]
    exact along_cont hu first more long
      (fun c hc r hr' => (qdir_deriv (hx c hc) (hT c hc) (hpos c hc) hr').1.continuousWithinAt)
      (chain _ fun k c d h1 h2 => by rw [(jt k c d h1 h2).1])
  · show ContinuousOn (fun t => Real.cos (along (q * Ts) QUpd.tilt first more t)) _
    rw [es Real.cos]
    exact along_cont hu first more long
      (fun c hc r hr' => (qdir_deriv (hx c hc) (hT c hc) (hpos c hc) hr').2.continuousWithinAt)
      (chain _ fun k c d h1 h2 => by rw [(jt k c d h1 h2).1])
  · intro t ht
    constructor
    · show HasDerivWithinAt (fun t => Real.sin (along (q * Ts) QUpd.tilt first more t))
        (Real.cos (along (q * Ts) QUpd.tilt first more t) * along (q * Ts) QUpd.rate first more t) _ _
      rw [es Real.sin]
      exact (dirs t ht).1
    · show HasDerivWithinAt (fun t => Real.cos (along (q * Ts) QUpd.tilt first more t))
        (-Real.sin (along (q * Ts) QUpd.tilt first more t) * along (q * Ts) QUpd.rate first more t) _ _
      rw [es Real.cos]
      exact (dirs t ht).2
  · intro t ht
    obtain ⟨k, c, r, hk, -, h0, h1, -, e⟩ := cases t ht.1 ht.2
    simp only [along, e]
    exact hlim c (List.mem_of_getElem? hk) r h0 h1
  · intro t ht p hp
    obtain ⟨k, c, r, hk, -, h0, h1, -, e⟩ := cases t ht.1 ht.2
    have hc := List.mem_of_getElem? hk
    simp only [along, e] at hp
    refine C11_rectangle (circle Q.radius) (.spl (c.x 0)) (.spl (c.x 1)) Q.width Q.height 0 1 hw hh Q.room ⟨(hx c hc 0).on, (hx c hc 1).on⟩
      ⟨trivial, trivial⟩ (solved c hc).inside (r / c.T) (div_nonneg h0 (hT c hc).le) ((div_le_one (hT c hc)).2 h1) p ?_
    refine ⟨p - !₂[c.pos 0 r, c.pos 1 r], ⟨!₂[0, 0], by rw [circle_core]; rfl, ?_⟩, (add_sub_cancel _ _).symm⟩
    have e0 : (!₂[0, 0] : Pt 2) = 0 := by ext i; fin_cases i <;> rfl
    rw [e0, dist_zero_right, ← dist_eq_norm]
    exact hp
  · intro t ht w hw' p' hp'
    obtain ⟨k, c, r, hk, rfl, h0, h1, h2, e⟩ := cases t ht.1 ht.2
    have hc := List.mem_of_getElem? hk
    simp only [along, e]
    have e0 : (!₂[0, 0] : Pt 2) = 0 := by ext i; fin_cases i <;> rfl
    have := apart_of (S := Q.disc) (u := c.disc) (solved c hc).slacks (solved c hc).lines (solved c hc).avoid (hx2 c hc) (hT c hc) hsd (foreseen k c hk) h0 h1
      (by
        split_ifs with hkl
        · exact h1
        · exact (h2.resolve_right hkl).le) (circle Q.radius) (by simp [QSetup.disc]) w hw' !₂[c.pos 0 r, c.pos 1 r]
      ⟨0, by rw [circle_core, e0]; rfl, (add_zero _).symm⟩ p' hp'
    exact this
  · exact funext fun i => (at0 (QUpd.pos i)).trans (st1 i)
  · exact funext fun i => (at0 (QUpd.vel i)).trans (st2 i)
  · show along (q * Ts) QUpd.thrust first more 0 * Real.sin (along (q * Ts) QUpd.tilt first more 0) = _
    rw [at0, at0]
    exact pol0.1.trans (st3 0)
  · show along (q * Ts) QUpd.thrust first more 0 * Real.cos (along (q * Ts) QUpd.tilt first more 0) - quadG = _
    rw [at0, at0]
    have := st3 1
    simp only [Matrix.cons_val_one, Matrix.cons_val_fin_one] at this
    linarith [pol0.2]
  · exact funext fun i => (atend (QUpd.pos i)).trans (by fin_cases i <;> assumption)
  · exact funext fun i => (atend (QUpd.vel i)).trans (by fin_cases i <;> assumption)
  · exact (atend QUpd.tilt).trans gt
  · exact (atend QUpd.thrust).trans gu
  · exact (atend QUpd.rate).trans gr
  · intro j hj
    obtain ⟨c, r, hc, e, hF⟩ := hlog j hj
    refine ⟨_, e, ?_, ?_, ?_, ?_⟩
    · exact Prod.ext (hF (QUpd.pos 0) fun k c d h1 h2 => (hjoin k c d h1 h2).1 0) (hF (QUpd.pos 1) fun k c d h1 h2 => (hjoin k c d h1 h2).1 1)
    · exact Prod.ext (hF (QUpd.vel 0) fun k c d h1 h2 => (hjoin k c d h1 h2).2.1 0) (hF (QUpd.vel 1) fun k c d h1 h2 => (hjoin k c d h1 h2).2.1 1)
    · exact hF QUpd.tilt fun k c d h1 h2 => (jt k c d h1 h2).1
    · exact hF QUpd.thrust fun k c d h1 h2 => (jt k c d h1 h2).2

/-! ## A case: a flight of one metre below a disc, and then hovering, planned twice -/

section Case

/-- A spline of the quadrotor that stands still at the start and has come to rest at the end. -/
theorem rest_facts {c : List ℝ} (hc : c.length = 9) {a b : ℝ} (ha : ∀ j, j ≤ 2 → c.getD j 0 = a) (hb : ∀ j, 4 ≤ j → j < 9 → c.getD j 0 = b) :
    let s : BSpline ℝ := ⟨vehBasis 4 5, c⟩
    (s.eval 0 = a ∧ (s.derivative 1).eval 0 = 0 ∧ (s.derivative 2).eval 0 = 0) ∧
    s.eval 1 = b ∧ ∀ d, 1 ≤ d → d ≤ 4 → (s.derivative d).eval 1 = 0 := by
  intro s
  obtain ⟨c1, l1, e1, r1⟩ := GCode.RingGuess.deriv_veh (d := 3) (n := 5) (c := c) (by norm_num) hc
  obtain ⟨c2, l2, e2, r2⟩ := GCode.RingGuess.deriv_veh (d := 2) (n := 5) (by norm_num) l1
  obtain ⟨c3, l3, e3, r3⟩ := GCode.RingGuess.deriv_veh (d := 1) (n := 5) (by norm_num) l2
  obtain ⟨c4, l4, e4, r4⟩ := GCode.RingGuess.deriv_veh (d := 0) (n := 5) (by norm_num) l3
  have g1 : s.derivative 1 = ⟨vehBasis 3 5, c1⟩ := e1
  have g2 : s.derivative 2 = ⟨vehBasis 2 5, c2⟩ := by rw [derivative_succ, g1, e2]
  have g3 : s.derivative 3 = ⟨vehBasis 1 5, c3⟩ := by rw [derivative_succ, g2, e3]
  have g4 : s.derivative 4 = ⟨vehBasis 0 5, c4⟩ := by rw [derivative_succ, g3, e4]
  have vf := fun {d : ℕ} {c : List ℝ} (h : c.length = 5 + d) => GCode.RingGuess.veh_first (d := d) (n := 5) (by norm_num) h
  have y1 : ∀ j, j ≤ 1 → c1.getD j 0 = 0 := fun j hj => by
    obtain ⟨r, -, e⟩ := r1 j (by omega)
    rw [e, ha _ (by omega), ha _ (by omega), sub_self, mul_zero]
  have y2 : c2.getD 0 0 = 0 := by
    obtain ⟨r, -, e⟩ := r2 0 (by omega)
    rw [e, y1 _ (by omega), y1 _ (by omega), sub_self, mul_zero]
  have z1 : ∀ j, 4 ≤ j → j < 8 → c1.getD j 0 = 0 := fun j h4 hj => by
    obtain ⟨r, -, e⟩ := r1 j (by omega)
    rw [e, hb _ (by omega) (by omega), hb _ (by omega) (by omega), sub_self, mul_zero]
  have z2 : ∀ j, 4 ≤ j → j < 7 → c2.getD j 0 = 0 := fun j h4 hj => by
    obtain ⟨r, -, e⟩ := r2 j (by omega)
    rw [e, z1 _ (by omega) (by omega), z1 _ (by omega) (by omega), sub_self, mul_zero]
  have z3 : ∀ j, 4 ≤ j → j < 6 → c3.getD j 0 = 0 := fun j h4 hj => by
    obtain ⟨r, -, e⟩ := r3 j (by omega)
    rw [e, z2 _ (by omega) (by omega), z2 _ (by omega) (by omega), sub_self, mul_zero]
  have z4 : c4.getD 4 0 = 0 := by
    obtain ⟨r, -, e⟩ := r4 4 (by omega)
    rw [e, z3 _ (by omega) (by omega), z3 _ (by omega) (by omega), sub_self, mul_zero]
  refine ⟨⟨?_, ?_, ?_⟩, ?_, fun d d0 d1 => ?_⟩
  · exact (vf (d := 4) hc).1.trans (ha 0 (by omega))
  · rw [g1]; exact (vf l1).1.trans (y1 0 (by omega))
  · rw [g2]; exact (vf l2).1.trans y2
  · exact (vf (d := 4) hc).2.trans (hb 8 (by omega) (by omega))
  · interval_cases d
    · rw [g1]; exact (vf l1).2.trans (z1 7 (by omega) (by omega))
    · rw [g2]; exact (vf l2).2.trans (z2 6 (by omega) (by omega))
    · rw [g3]; exact (vf l3).2.trans (z3 5 (by omega) (by omega))
    · rw [g4]; exact (vf l4).2.trans z4

noncomputable def caseQS : QSetup := ⟨1, 1 / 2, fun _ => none, 5, ![1, 0], 20, 20, (0, 0)⟩
/-- The plan along the horizontal with the coefficients `c`, which starts at rest in `(a, 0)`. -/
noncomputable def caseQU (c : List ℝ) (a T : ℝ) : QUpd where
  T := T
  x := ![⟨vehBasis 4 5, c⟩, ⟨vehBasis 4 5, List.replicate 9 0⟩]
  hyp := fun _ _ => ⟨.spl (lvl 0), .spl (lvl 1), .spl (lvl (3 / 2))⟩
  eps := fun _ _ => lvl 0
  obs := [⟨circle 1, .spl (lvl (1 / 2)), .spl (lvl 3), .num 1, .num 1, .num 0, true⟩]
  start := ⟨(a, 0), (0, 0), 0, (0, 0), (0, 0)⟩

theorem caseQ_avoid {c : List ℝ} (hc : c.length = 9) (a T : ℝ) :
    ∀ e ∈ envCons (caseQS.disc.veh (caseQU c a T).disc) (caseQU c a T).obs (caseQU c a T).hyp, e.Imposed 0 := by
  have o1 : ∀ c, (Expr.spl (lvl c)).OnIntervals 5 := fun c => on5 (d := 1) (by simp)
  have og : (Expr.spl (⟨vehBasis 4 5, c⟩ : BSpline ℝ)).OnIntervals 5 := on5 (d := 4) hc
  have o3 : (Expr.spl (⟨vehBasis 4 5, List.replicate 9 0⟩ : BSpline ℝ)).OnIntervals 5 := on5 (d := 4) (by simp)
  have v1 : ∀ c x, 0 ≤ x → x ≤ 1 → (lvl c).eval x = c := fun c x h0 h1 => level (d := 1) h0 h1
  have v3 : ∀ x, 0 ≤ x → x ≤ 1 → (⟨vehBasis 4 5, List.replicate 9 0⟩ : BSpline ℝ).eval x = 0 := fun x h0 h1 => level (d := 4) h0 h1
  have d1 : ∀ c, (lvl c).basis.degree = 1 := fun _ => rfl
  have d3 : (vehBasis 4 5).degree = 4 := rfl
  intro e he
  simp only [envCons, caseQS, caseQU, QSetup.disc, QUpd.disc, Setup.veh, Obs.cons, Veh.cons, Veh.eps, circle, normCon] at he
  simp [List.range_succ] at he
  rcases he with rfl | rfl | rfl | rfl | rfl
  · refine const_imposed (n := 5) (v := 0) (by norm_num) (by norm_num) ?_ ?_ ?_ ?_ (fun x h0 h1 => ?_) le_rfl
    · simp [Expr.sub, Expr.OnIntervals]; simpa [Expr.OnIntervals] using ⟨o1 0, o1 1⟩
    · simp [Expr.sub, Expr.totalDegree, d1]
    · simp [Expr.sub, Expr.totalDegree, d1]
    · simp [Expr.sub, Expr.hasSpline]
    · simp [Expr.sub, Expr.val, v1 _ x h0 h1]
  · refine const_imposed (n := 5) (v := -(1 / 2)) (by norm_num) (by norm_num) ?_ ?_ ?_ ?_ (fun x h0 h1 => ?_) (by norm_num)
    · simpa [obsCon2, Expr.sub, Expr.OnIntervals] using ⟨⟨⟨o1 0, o1 _⟩, o1 1, o1 3⟩, o1 (3 / 2)⟩
    · simp [obsCon2, Expr.sub, Expr.totalDegree, d1]
    · simp [obsCon2, Expr.sub, Expr.totalDegree, d1]
    · simp [obsCon2, Expr.sub, Expr.hasSpline]
    · simp [obsCon2, Expr.sub, Expr.val, v1 _ x h0 h1]; norm_num
  · refine const_imposed (n := 5) (v := -(1 / 2)) (by norm_num) (by norm_num) ?_ ?_ ?_ ?_ (fun x h0 h1 => ?_) (by norm_num)
    · simpa [Expr.sub, Expr.OnIntervals] using o1 0
    · simp [Expr.sub, Expr.totalDegree, d1]
    · simp [Expr.sub, Expr.totalDegree, d1]
    · simp [Expr.sub, Expr.hasSpline]
    · simp [Expr.sub, Expr.val, v1 _ x h0 h1]
  · refine const_imposed (n := 5) (v := 0) (by norm_num) (by norm_num) ?_ ?_ ?_ ?_ (fun x h0 h1 => ?_) le_rfl
    · simpa [Expr.sub, Expr.OnIntervals] using o1 0
    · simp [Expr.totalDegree, d1]
    · simp [Expr.totalDegree, d1]
    · simp [Expr.hasSpline]
    · simp [Expr.val, v1 _ x h0 h1]
  · refine const_imposed (n := 5) (v := 0) (by norm_num) (by norm_num) ?_ ?_ ?_ ?_ (fun x h0 h1 => ?_) le_rfl
    · simpa [vehCon2, Expr.sub, Expr.sq, Expr.OnIntervals] using ⟨⟨⟨o1 0, o1 1⟩, ⟨o1 0, og⟩, o1 1, o3⟩, o1 (3 / 2), o1 0⟩
    · simp [vehCon2, Expr.sub, Expr.sq, Expr.totalDegree, d1, d3]
    · simp [vehCon2, Expr.sub, Expr.sq, Expr.totalDegree, d1, d3]
    · simp [vehCon2, Expr.sub, Expr.sq, Expr.hasSpline]
    · have := v3 x h0 h1
      simp only [List.reduceReplicate] at this
      simp [vehCon2, Expr.sub, Expr.sq, Expr.val, v1 _ x h0 h1, this]
      norm_num

theorem caseQ_solves {c : List ℝ} (hc : c.length = 9) {a : ℝ} (ha : ∀ j, j ≤ 2 → c.getD j 0 = a) (hb : ∀ j, 4 ≤ j → j < 9 → c.getD j 0 = 1)
    (hin : ∀ x ∈ c, 0 ≤ x ∧ x ≤ 1) : ∃ T0, 0 < T0 ∧ ∀ T, T0 ≤ T → QSolves caseQS (caseQU c a T) := by
  obtain ⟨T0, h0, hT0⟩ := C181_quadrotor (fun _ => none) (n := 5) (by norm_num) (by norm_num) ⟨vehBasis 4 5, c⟩
    ⟨vehBasis 4 5, List.replicate 9 0⟩ ⟨c, hc, rfl⟩ ⟨_, by simp, rfl⟩ (by unfold lim quadG; norm_num) (by unfold lim quadG; norm_num)
    (by unfold lim; norm_num) (by unfold lim; norm_num)
  obtain ⟨⟨s1, s2, s3⟩, s4, s5⟩ := rest_facts hc ha hb
  obtain ⟨⟨t1, t2, t3⟩, t4, t5⟩ := rest_facts (c := List.replicate 9 0) (by simp) (a := 0) (b := 0)
    (fun j hj => List.getD_replicate _ (by omega)) (fun j _ hj => List.getD_replicate _ (by omega))
  refine ⟨T0, h0, fun T hT => ⟨?_, ?_, ?_, ?_, hT0 T hT, caseQ_avoid hc a T, ?_, ?_, ?_⟩⟩
  · show -T ≤ 0; linarith
  · intro i
    fin_cases i
    · exact ⟨c, hc, rfl⟩
    · exact ⟨List.replicate 9 0, by simp [caseQS], rfl⟩
  · exact fun _ _ => ⟨lvl_on 0, lvl_on 1, lvl_on _, trivial⟩
  · exact fun _ _ => lvl_on 0
  · show ∀ e ∈ roomConsRect (circle 1) (.spl ⟨vehBasis 4 5, c⟩) (.spl ⟨vehBasis 4 5, List.replicate 9 0⟩)
      (Geometry.placedRect (20 : ℝ) 20 (0, 0)).limits, e.Imposed 0
    rw [Geometry.placedRect_limits _ _ (by norm_num) (by norm_num)]
    intro e he
    simp only [roomConsRect, circle] at he
    have hl : ∀ a ∈ (⟨vehBasis 4 5, List.replicate 9 0⟩ : BSpline ℝ).coeffs, a = 0 := fun a ha => List.eq_of_mem_replicate ha
    simp at he
    rcases he with rfl | rfl | rfl | rfl
    · exact low_imposed fun a ha => by linarith [(hin a ha).1]
    · exact high_imposed fun a ha => by linarith [(hin a ha).2]
    · exact low_imposed fun a ha => by rw [hl a (by simpa using ha)]; linarith
    · exact high_imposed fun a ha => by rw [hl a (by simpa using ha)]; linarith
  · show MeetsInit (quadInit ⟨vehBasis 4 5, c⟩ ⟨vehBasis 4 5, List.replicate 9 0⟩ ⟨(a, 0), (0, 0), 0, (0, 0), (0, 0)⟩ T) (0 / T)
    rw [zero_div]
    simp only [MeetsInit, quadInit, List.forall_mem_cons, mul_zero]
    exact ⟨s1, t1, s2, t2, s3, t3, fun c hc => by simp at hc⟩
  · intro e he
    simp only [imposedFree, holoTerm, Bool.false_eq_true, if_false, List.mem_append, List.mem_flatMap, List.mem_range,
      List.mem_ofFn', Set.mem_range] at he
    rcases he with ⟨i, rfl⟩ | ⟨d, hd', i, rfl⟩
    · fin_cases i
      · exact s4
      · exact t4
    · fin_cases i
      · exact s5 (d + 1) (by omega) (by omega)
      · exact t5 (d + 1) (by omega) (by omega)

-- one metre to the side below a disc and then hovering there, planned twice
example : ∃ (T : ℝ) (s : Loop ℝ (QuadPred × ℝ)) (f : Flight), 0 < T ∧
    Loop.run ((1 : ℕ) * T) T ([caseQU [0, 0, 0, 0, 1, 1, 1, 1, 1] 0 T, caseQU (List.replicate 9 1) 1 T].map (QUpd.cols T)) = some s ∧
    Spec.SafeQuad caseQS [⟨circle 1, fun _ => !₂[1 / 2, 3], fun _ => 0⟩] (2 * T) f ∧
    f.pos 0 = ![0, 0] ∧ f.pos (2 * T) = ![1, 0] ∧ f.thrust (2 * T) = quadG := by
  obtain ⟨T1, p1, h1⟩ := caseQ_solves (c := [0, 0, 0, 0, 1, 1, 1, 1, 1]) rfl (a := 0) (fun j hj => by interval_cases j <;> rfl)
    (fun j h4 hj => by interval_cases j <;> rfl) (fun x hx => by simp at hx; rcases hx with rfl | rfl <;> norm_num)
  obtain ⟨T2, p2, h2⟩ := caseQ_solves (c := List.replicate 9 1) (by simp) (a := 1) (fun j hj => List.getD_replicate _ (by omega))
    (fun j _ hj => List.getD_replicate _ (by omega)) (fun x hx => by rw [List.eq_of_mem_replicate hx]; norm_num)
  obtain ⟨T, rfl⟩ : ∃ T, T = max T1 T2 := ⟨_, rfl⟩
  set T := max T1 T2 with hTdef
  have hT : 0 < T := p1.trans_le (le_max_left _ _)
  have q1 := h1 T (le_max_left _ _)
  have q2 := h2 T (le_max_right _ _)
  set u1 := caseQU [0, 0, 0, 0, 1, 1, 1, 1, 1] 0 T with hu1
  set u2 := caseQU (List.replicate 9 1) 1 T with hu2
  have hsol : ∀ u ∈ [u1, u2], QSolves caseQS u := by
    intro u hu
    simp only [List.mem_cons, List.not_mem_nil, or_false] at hu
    rcases hu with rfl | rfl
    · exact q1
    · exact q2
  have hTs : ∀ u ∈ [u1, u2], u.T = T := by
    intro u hu
    simp only [List.mem_cons, List.not_mem_nil, or_false] at hu
    rcases hu with rfl | rfl <;> rfl
  have long : ∀ u ∈ [u1, u2], ((1 : ℕ) : ℝ) * T ≤ u.T := fun u hu => by rw [hTs u hu]; simp
  obtain ⟨s, hrun, f, hsafe, ⟨f0, -⟩, ⟨f1, -, -, f4, -⟩, -⟩ := C182_flight_partial caseQS (by simp [caseQS]) (by simp [caseQS]) (by simp [caseQS]) (by simp [caseQS])
    (by unfold lim caseQS; norm_num) (by unfold lim caseQS; norm_num) T hT 1 le_rfl u1 [u2] hsol long
    (fun s hrun k u a hk ha => by
      have tr : ∀ c ∈ [u1, u2], ∀ i, Traj (c.x i) 3 := fun c hc => (hsol c hc).traj (by simp [caseQS])
      have hTp : ∀ c ∈ [u1, u2], 0 < c.T := fun c hc => by rw [hTs c hc]; exact hT
      obtain ⟨s', hrun', -, hseen, -⟩ := glue_log T hT 1 le_rfl (QUpd.cols T) (fun (c : QUpd) (r : ℝ) =>
        ((⟨(c.pos 0 r, c.pos 1 r), (c.vel 0 r, c.vel 1 r), c.tilt r, (c.vel 0 r, c.vel 1 r), (c.acc 0 r, c.acc 1 r)⟩ : QuadPred), c.thrust r)) u1 [u2]
        (fun c hc i hi => qcols_get (tr c hc) hT (hTp c hc) (long c hc) hi)
      rw [hrun] at hrun'
      obtain rfl := Option.some.inj hrun'
      have hk0 : k = 0 := by
        by_contra h
        rw [List.getElem?_eq_none (by simp; omega)] at hk
        cases hk
      subst hk0
      simp only [List.getElem?_cons_zero, Option.some.injEq] at hk
      subst hk
      have e2 := hseen 0 u1 (by simp) rfl
      rw [ha, Option.some.injEq] at e2
      subst e2
      obtain ⟨-, s4, s5⟩ := rest_facts (c := [0, 0, 0, 0, 1, 1, 1, 1, 1]) rfl (a := 0) (b := 1) (fun j hj => by interval_cases j <;> rfl)
        (fun j h4 hj => by interval_cases j <;> rfl)
      obtain ⟨-, t4, t5⟩ := rest_facts (c := List.replicate 9 0) (by simp) (a := 0) (b := 0)
        (fun j hj => List.getD_replicate _ (by omega)) (fun j _ hj => List.getD_replicate _ (by omega))
      have e : ((1 : ℕ) : ℝ) * T / u1.T = 1 := by
        rw [hTs u1 (by simp), Nat.cast_one, one_mul, div_self hT.ne']
      unfold QUpd.pos QUpd.vel QUpd.acc
      rw [e]
      have x0 : u1.x 0 = ⟨vehBasis 4 5, [0, 0, 0, 0, 1, 1, 1, 1, 1]⟩ := rfl
      have x1 : u1.x 1 = ⟨vehBasis 4 5, List.replicate 9 0⟩ := rfl
      simp only [x0, x1]
      rw [s4, t4, s5 1 (by omega) (by omega), s5 2 (by omega) (by omega), t5 1 (by omega) (by omega), t5 2 (by omega) (by omega), zero_div, zero_div]
      exact ⟨rfl, rfl, rfl⟩)
    [⟨circle 1, fun _ => !₂[1 / 2, 3], fun _ => 0⟩]
    (fun k u hk => by
      have hu := List.mem_of_getElem? hk
      have hob : u.obs = u1.obs := by
        simp only [List.mem_cons, List.not_mem_nil, or_false] at hu
        rcases hu with rfl | rfl <;> rfl
      refine ⟨by show u.obs.length = _; rw [hob]; rfl, fun l o w ho hw => ?_⟩
      have hl0 : l = 0 := by
        by_contra h
        rw [List.getElem?_eq_none (by simp; omega)] at hw
        cases hw
      subst hl0
      have ho' : u1.obs[0]? = some o := by rw [← hob]; exact ho
      rw [hu1] at ho'
      simp only [caseQU, List.getElem?_cons_zero, Option.some.injEq] at ho' hw
      subst ho' hw
      refine ⟨rfl, rfl, fun _ => 0, ⟨lvl_on _, lvl_on _, trivial, trivial, trivial, by simp [Expr.val]⟩, fun r r0 r1 => ⟨?_, rfl⟩⟩
      have r1' : r ≤ T := by
        refine r1.trans ?_
        split_ifs
        · exact (hTs u hu).le
        · simp
      show (!₂[(lvl (1 / 2)).eval (r / u.T), (lvl 3).eval (r / u.T)] : Pt 2) = _
      rw [hTs u hu]
      have a0 : 0 ≤ r / T := div_nonneg r0 hT.le
      have a1 : r / T ≤ 1 := (div_le_one hT).2 r1'
      rw [show (lvl (1 / 2)).eval (r / T) = 1 / 2 from level (d := 1) a0 a1, show (lvl 3).eval (r / T) = 3 from level (d := 1) a0 a1])
  have et : (([u2].length : ℕ) : ℝ) * (((1 : ℕ) : ℝ) * T) + ([u1, u2].getLast (List.cons_ne_nil _ _)).T = 2 * T := by
    rw [hTs _ (List.getLast_mem _)]
    simp; ring
  rw [et] at hsafe f1 f4
  exact ⟨T, s, f, hT, hrun, hsafe, f0, f1, f4⟩

end Case

end Verif.Problems
