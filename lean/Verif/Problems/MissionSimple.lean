import Verif.Problems.MissionSpace
import Verif.Problems.MissionQuad

/-! # A simulated flight of a quadrotor in space (C188)

A quadrotor without yaw (`SimpleQuadrotor3D`) is steered to a position by a point-to-point problem with free end time in one cuboid room, with obstacles in space
and planar obstacles; the simulator updates the plan every `q` samples. -/

set_option linter.unusedSectionVars false

namespace Verif.Problems

open Verif.Spline Verif.Vehicles Verif.Collision Verif.Timing

/-! ## Model -/

/-- What the user sets up: the radius of the quadrotor and its options (quadrotor3d_simple.py:46-66), bounds, the position to fly to, and the room. -/
structure SimpleSetup where
  radius : ℝ
  sd : ℝ
  bounds : Bounds
  intervals : ℕ
  goal : Fin 3 → ℝ
  size : Fin 3 → ℝ
  room : Fin 3 → ℝ

/-- The values of one solution, with the parameters for which it was solved: the predicted obstacles and the predicted state and input of the quadrotor. -/
structure SimpleUpd where
  T : ℝ
  x : Fin 3 → BSpline ℝ
  hyp : ℕ → ℕ → Hyp3
  eps : ℕ → ℕ → BSpline ℝ
  obs : List Obs3
  start : Simple3

/-- Shape and splines as `define_collision_constraints_3d` sees them (quadrotor3d_simple.py:161-165): a ball (quadrotor3d_simple.py:49) that moves with the
splines, in a room that is not turned. -/
def SimpleSetup.ball (Q : SimpleSetup) : Setup3 := ⟨[sphere Q.radius], Q.sd, Q.bounds, false, Q.intervals, Q.goal, Q.size, 0, Q.room⟩
noncomputable def SimpleUpd.ball (u : SimpleUpd) : Upd3 := ⟨u.T, u.x, u.hyp, u.eps, u.obs, ⟨u.start.pos, u.start.vel, u.start.acc⟩⟩

/-- All variables of `FreeTPoint2point` have values that meet all its constraints, point2point.py:31-66,288-311 with quadrotor3d_simple.py:72-117: splines of degree
4 on the basis of the vehicle, limits, obstacles, room, start (`t0 = 0`) and end. -/
structure SimpleSolves (Q : SimpleSetup) (u : SimpleUpd) : Prop where
  positive : (-u.T) ≤ 0
  form : ∀ i, OfVehicle 4 Q.intervals (u.x i)
  planes : ∀ k l i, ((u.hyp k l).a i).On 0 1 ∧ ((u.hyp k l).a i).hasSpline
  offsets : ∀ k l, ((u.hyp k l).b).On 0 1
  slacks : ∀ s k, (Expr.spl (u.eps s k)).On 0 1
  limits : ∀ e ∈ simpleC (quad3Lim Q.bounds) (u.x 0) (u.x 1) (u.x 2) u.T, e.Imposed 0
  avoid : ∀ e ∈ Q.ball.envCons u.ball, e.Imposed 0
  inside : ∀ s ∈ Q.ball.shapes, ∀ e ∈ roomCons3 s (fun k => .spl (u.x k)) Q.ball.lo Q.ball.hi, e.Imposed 0
  starts : MeetsInit (simpleInit u.x u.start u.T) (0 / u.T)
  ends : MeetsEnd (imposedFree false (holoTerm u.x Q.goal 4))

/-- The columns that `FreeTPoint2point.store` (point2point.py:327-342) stores, with the signals of quadrotor3d_simple.py:167-192: state and thrust on the time axis
`0, Ts, 2 Ts, ...`. -/
noncomputable def SimpleUpd.cols (Ts : ℝ) (u : SimpleUpd) : List Simple3 :=
  (List.range ((samples u.T Ts).toNat + 1)).map fun (i : ℕ) => simpleFull (fun j => (u.x j).scale u.T 0) (i * Ts)

/-! ## Specification -/

/-- A motion of a quadrotor in space: position, velocity, roll, pitch, thrust and the rates of roll and pitch at every time. -/
structure Flight3 where
  pos : ℝ → Fin 3 → ℝ
  vel : ℝ → Fin 3 → ℝ
  roll : ℝ → ℝ
  pitch : ℝ → ℝ
  thrust : ℝ → ℝ
  rollRate : ℝ → ℝ
  pitchRate : ℝ → ℝ

/-- The acceleration by a thrust in a direction, and gravity. -/
noncomputable def Spec.pushed (thrust roll pitch : ℝ) : Fin 3 → ℝ :=
  ![thrust * Real.cos roll * Real.sin pitch, -thrust * Real.sin roll, thrust * Real.cos roll * Real.cos pitch - 9.81]

/-- A flight during `[0, total]` that obeys the laws of motion and is safe: position and velocity are continuously differentiable, with the acceleration of
thrust and gravity; thrust and angles change without jumps and the angles at the commanded rates; thrust, pitch rate and angles are within their limits,
and the roll rate too if the limits on the rates are one symmetric interval; the centre stays in the room and the ball apart from all obstacles. -/
structure Spec.SafeSimple (Q : SimpleSetup) (world : List Body) (total : ℝ) (f : Flight3) : Prop where
  moves : ∀ i, ∀ t ∈ Set.Icc 0 total, HasDerivWithinAt (fun t => f.pos t i) (f.vel t i) (Set.Icc 0 total) t
  pushes : ∀ i, ∀ t ∈ Set.Icc 0 total, HasDerivWithinAt (fun t => f.vel t i) (Spec.pushed (f.thrust t) (f.roll t) (f.pitch t) i) (Set.Icc 0 total) t
  smooth : ContinuousOn f.thrust (Set.Icc 0 total) ∧ ContinuousOn f.roll (Set.Icc 0 total) ∧ ContinuousOn f.pitch (Set.Icc 0 total)
  turns : ∀ t ∈ Set.Ico 0 total, HasDerivWithinAt f.roll (f.rollRate t) (Set.Icc t total) t ∧ HasDerivWithinAt f.pitch (f.pitchRate t) (Set.Icc t total) t
  limits : ∀ t ∈ Set.Icc 0 total, let L := quad3Lim Q.bounds
    (L.u1min ≤ f.thrust t ∧ f.thrust t ≤ L.u1max) ∧ (L.u3min ≤ f.pitchRate t ∧ f.pitchRate t ≤ L.u3max) ∧
    (L.phimin ≤ f.roll t ∧ f.roll t ≤ L.phimax) ∧ (L.thetamin ≤ f.pitch t ∧ f.pitch t ≤ L.thetamax) ∧
    (∀ U, L.u2min = -U → L.u2max = U → L.u3min = -U → L.u3max = U → L.u2min ≤ f.rollRate t ∧ f.rollRate t ≤ L.u2max)
  room : ∀ t ∈ Set.Icc 0 total, ∀ k, |f.pos t k - Q.room k| ≤ Q.size k / 2
  apart : ∀ t ∈ Set.Icc 0 total, ∀ w ∈ world, ∀ p' ∈ w.core t, Q.radius + w.rad ≤ dist !₂[f.pos t 0, f.pos t 1, f.pos t 2] p'

/-! ## One plan -/

section OneSimple
variable {Q : SimpleSetup} {u : SimpleUpd}

noncomputable def SimpleUpd.pos (i : Fin 3) (u : SimpleUpd) (r : ℝ) : ℝ := (u.x i).eval (r / u.T)
noncomputable def SimpleUpd.vel (i : Fin 3) (u : SimpleUpd) (r : ℝ) : ℝ := ((u.x i).derivative 1).eval (r / u.T) / u.T
noncomputable def SimpleUpd.acc (i : Fin 3) (u : SimpleUpd) (r : ℝ) : ℝ := ((u.x i).derivative 2).eval (r / u.T) / u.T ^ 2
noncomputable def SimpleUpd.jerk (i : Fin 3) (u : SimpleUpd) (r : ℝ) : ℝ := ((u.x i).derivative 3).eval (r / u.T) / u.T ^ 3
noncomputable def SimpleUpd.sig (u : SimpleUpd) (r : ℝ) : SimpleSignals :=
  simpleSignal (u.acc 0 r) (u.acc 1 r) (u.acc 2 r + quadG) (u.jerk 0 r) (u.jerk 1 r) (u.jerk 2 r)

theorem SimpleSolves.traj (h : SimpleSolves Q u) (hn : 1 ≤ Q.intervals) (i : Fin 3) : Traj (u.x i) 3 := by
  obtain ⟨c, hc, e⟩ := h.form i
  rw [e]
  exact vehBasis_traj (by omega) hn hc

theorem simple_signals (hx : ∀ i, Traj (u.x i) 3) (hT : 0 < u.T) (t : ℝ) :
    simpleSignals ((u.x 0).scale u.T 0) ((u.x 1).scale u.T 0) ((u.x 2).scale u.T 0) t = u.sig t ∧
    simpleFull (fun j => (u.x j).scale u.T 0) t =
      ⟨fun i => u.pos i t, fun i => u.vel i t, (u.sig t).phi, (u.sig t).theta, (u.sig t).u1⟩ := by
  have s0 : ∀ i, ((u.x i).scale u.T 0).eval t = u.pos i t := fun i => (hx i).sig0 hT t
  have s1 : ∀ i, (((u.x i).scale u.T 0).derivative 1).eval t = u.vel i t := fun i => Traj.sig1 (n := 2) (hx i) hT t
  have s2 : ∀ i, (((u.x i).scale u.T 0).derivative 2).eval t = u.acc i t := fun i => Traj.sig2 (n := 1) (hx i) hT t
  have s3 : ∀ i, (((u.x i).scale u.T 0).derivative 3).eval t = u.jerk i t := fun i => (hx i).signal hT t
  unfold simpleFull simpleSignals SimpleUpd.sig
  simp only [s0, s1, s2, s3, and_self]

theorem spos_deriv (hx : ∀ i, Traj (u.x i) 3) (hT : 0 < u.T) (i : Fin 3) : ∀ r ∈ Set.Icc 0 u.T,
    HasDerivWithinAt (u.pos i) (u.vel i r) (Set.Icc 0 u.T) r := fun _ hr => GCode.RingGuess.phys_within (m := 2) (hx i) hT hr

theorem svel_deriv (hx : ∀ i, Traj (u.x i) 3) (hT : 0 < u.T) (i : Fin 3) : ∀ r ∈ Set.Icc 0 u.T,
    HasDerivWithinAt (u.vel i) (u.acc i r) (Set.Icc 0 u.T) r := fun r hr => by
  have := (GCode.RingGuess.phys_within (m := 1) (hx i).succ hT hr).div_const u.T
  unfold SimpleUpd.acc
  rw [derivative_succ, pow_two, ← div_div]
  exact this

theorem sacc_deriv (hx : ∀ i, Traj (u.x i) 3) (hT : 0 < u.T) (i : Fin 3) : ∀ r ∈ Set.Icc 0 u.T,
    HasDerivWithinAt (u.acc i) (u.jerk i r) (Set.Icc 0 u.T) r := fun r hr => by
  have t2 : Traj ((u.x i).derivative 2) 1 := (hx i).iterate (n := 2) (m := 1)
  have := (GCode.RingGuess.phys_within (m := 0) t2 hT hr).div_const (u.T ^ 2)
  unfold SimpleUpd.jerk
  rw [derivative_succ, pow_succ', ← div_div]
  exact this

theorem scols_get (hx : ∀ i, Traj (u.x i) 3) {Ts : ℝ} (hs : 0 < Ts) (hT : 0 < u.T) {q i : ℕ} (hq : q * Ts ≤ u.T) (hi : i ≤ q) :
    (u.cols Ts)[i]? = some ⟨fun k => u.pos k (i * Ts), fun k => u.vel k (i * Ts), (u.sig (i * Ts)).phi, (u.sig (i * Ts)).theta, (u.sig (i * Ts)).u1⟩ := by
  have h1 : ((q : ℕ) : ℝ) ≤ u.T / Ts := (le_div_iff₀ hs).2 hq
  have h2 : (q : ℤ) ≤ samples u.T Ts := by
    have := pyInt_mono (round6_mono h1)
    have e : ((q : ℕ) : ℝ) = ((q : ℤ) : ℝ) := by norm_cast
    rwa [e, round6_intCast, pyInt_intCast] at this
  have h3 : i < (samples u.T Ts).toNat + 1 := by omega
  unfold SimpleUpd.cols
  rw [List.getElem?_map, List.getElem?_range h3, Option.map_some, (simple_signals hx hT _).2]

theorem SimpleSolves.lift (h : SimpleSolves Q u) (hx : ∀ i, Traj (u.x i) 3) (hT : 0 < u.T) (hmin : 0 < (quad3Lim Q.bounds).u1min)
    (hphi : (quad3Lim Q.bounds).phimin < (quad3Lim Q.bounds).phimax) {r : ℝ} (hr : r ∈ Set.Icc 0 u.T) : 0 < u.acc 2 r + quadG :=
  (simpleC_ok (hx 0) (hx 1) (hx 2) hT h.limits hr.1 hr.2).lift_pos hmin hphi

/-- With lift, angles and thrust give the acceleration. -/
theorem simple_pushed {r : ℝ} (h : 0 < u.acc 2 r + quadG) (i : Fin 3) : Spec.pushed (u.sig r).u1 (u.sig r).phi (u.sig r).theta i = u.acc i r := by
  have hac : u.acc 0 r ^ 2 + (u.acc 2 r + quadG) ^ 2 ≠ 0 := by positivity
  unfold Spec.pushed SimpleUpd.sig simpleSignal
  simp only
  have hg : (9.81 : ℝ) = quadG := rfl
  rw [hg]
  generalize hc : u.acc 2 r + quadG = c at *
  have hz : u.acc 2 r = c - quadG := by linarith
  generalize ha : u.acc 0 r = a at *
  generalize hb : u.acc 1 r = b at *
  obtain ⟨t1, t2⟩ := polar (a := a) (b := c) hac
  have hs2 : Real.sqrt (a ^ 2 + c ^ 2) ^ 2 = a ^ 2 + c ^ 2 := Real.sq_sqrt (by positivity)
  have hs : 0 < Real.sqrt (a ^ 2 + c ^ 2) := Real.sqrt_pos.2 (by positivity)
  have hR : (-b) ^ 2 + Real.sqrt (a ^ 2 + c ^ 2) ^ 2 = a ^ 2 + b ^ 2 + c ^ 2 := by rw [hs2]; ring
  obtain ⟨f1, f2⟩ := polar (a := -b) (b := Real.sqrt (a ^ 2 + c ^ 2)) (by positivity)
  rw [hR] at f1 f2
  rw [f2, t1, t2, neg_mul, f1]
  fin_cases i
  · exact ha.symm
  · simpa using hb.symm
  · exact hz.symm

theorem simple_angles (hx : ∀ i, Traj (u.x i) 3) (hT : 0 < u.T) (hl : ∀ r ∈ Set.Icc 0 u.T, 0 < u.acc 2 r + quadG) {r : ℝ} (hr : r ∈ Set.Icc 0 u.T) :
    HasDerivWithinAt (fun r => (u.sig r).phi) (u.sig r).u2 (Set.Icc 0 u.T) r ∧ HasDerivWithinAt (fun r => (u.sig r).theta) (u.sig r).u3 (Set.Icc 0 u.T) r := by
  have da := sacc_deriv hx hT 0 r hr
  have db := sacc_deriv hx hT 1 r hr
  have dc := (sacc_deriv hx hT 2 r hr).add_const quadG
  have hcr := hl r hr
  have hS : ∀ r ∈ Set.Icc 0 u.T, 0 < Real.sqrt (u.acc 0 r ^ 2 + (u.acc 2 r + quadG) ^ 2) := fun r hr => by
    have := hl r hr
    exact Real.sqrt_pos.2 (by positivity)
  have dS : HasDerivWithinAt (fun r => Real.sqrt (u.acc 0 r ^ 2 + (u.acc 2 r + quadG) ^ 2))
      ((u.acc 0 r * u.jerk 0 r + (u.acc 2 r + quadG) * u.jerk 2 r) / Real.sqrt (u.acc 0 r ^ 2 + (u.acc 2 r + quadG) ^ 2)) (Set.Icc 0 u.T) r := by
    have hs : HasDerivWithinAt (fun r => u.acc 0 r ^ 2 + (u.acc 2 r + quadG) ^ 2)
        (2 * (u.acc 0 r * u.jerk 0 r + (u.acc 2 r + quadG) * u.jerk 2 r)) (Set.Icc 0 u.T) r := by
      refine ((da.fun_pow 2).fun_add (dc.fun_pow 2)).congr_deriv ?_
      push_cast; ring
    have := hs.sqrt (by positivity)
    refine this.congr_deriv ?_
    rw [mul_div_mul_left _ _ two_ne_zero]
  have ep : ∀ r ∈ Set.Icc 0 u.T, (u.sig r).phi = Real.arctan (-u.acc 1 r / Real.sqrt (u.acc 0 r ^ 2 + (u.acc 2 r + quadG) ^ 2)) := fun r hr =>
    arctan2_pos_eq (hS r hr)
  have et : ∀ r ∈ Set.Icc 0 u.T, (u.sig r).theta = Real.arctan (u.acc 0 r / (u.acc 2 r + quadG)) := fun r hr => arctan2_pos_eq (hl r hr)
  have d1 := ((db.fun_neg.fun_div dS (hS r hr).ne').arctan).congr ep (ep r hr)
  have d2 := ((da.fun_div dc hcr.ne').arctan).congr et (et r hr)
  refine ⟨d1.congr_deriv ?_, d2.congr_deriv ?_⟩
  · simp only [SimpleUpd.sig, simpleSignal]
    have hs2 : Real.sqrt (u.acc 0 r ^ 2 + (u.acc 2 r + quadG) ^ 2) ^ 2 = u.acc 0 r ^ 2 + (u.acc 2 r + quadG) ^ 2 := Real.sq_sqrt (by positivity)
    have hs := hS r hr
    generalize Real.sqrt (u.acc 0 r ^ 2 + (u.acc 2 r + quadG) ^ 2) = S at *
    generalize u.acc 2 r + quadG = c at *
    generalize u.acc 0 r = a at *
    generalize u.acc 1 r = b at *
    have e : a ^ 2 + b ^ 2 + c ^ 2 = S ^ 2 + b ^ 2 := by rw [hs2]; ring
    rw [e, ← hs2]
    have : S ^ 2 + b ^ 2 ≠ 0 := by positivity
    field_simp
    ring
  · simp only [SimpleUpd.sig, simpleSignal]
    generalize u.acc 2 r + quadG = c at *
    generalize u.acc 0 r = a at *
    have : c ^ 2 + a ^ 2 ≠ 0 := by positivity
    field_simp

theorem simple_thrust (hx : ∀ i, Traj (u.x i) 3) (hT : 0 < u.T) : ContinuousOn (fun r => (u.sig r).u1) (Set.Icc 0 u.T) := by
  have c : ∀ i, ContinuousOn (u.acc i) (Set.Icc 0 u.T) := fun i r hr => (sacc_deriv hx hT i r hr).continuousWithinAt
  exact ((((c 0).pow 2).add ((c 1).pow 2)).add (((c 2).add continuousOn_const).pow 2)).sqrt

theorem sphere_core (r : ℝ) : (sphere r).core = {!₂[0, 0, 0]} := by
  unfold Shape.core sphere
  simp

theorem SimpleSolves.limits_at (h : SimpleSolves Q u) (hx : ∀ i, Traj (u.x i) 3) (hT : 0 < u.T) (h1min : 0 < (quad3Lim Q.bounds).u1min)
    (h1max : 0 ≤ (quad3Lim Q.bounds).u1max) (hphi : (quad3Lim Q.bounds).phimin < (quad3Lim Q.bounds).phimax)
    (hz : (quad3Lim Q.bounds).phimin ≤ 0 ∧ 0 ≤ (quad3Lim Q.bounds).phimax ∧ (quad3Lim Q.bounds).thetamin ≤ 0 ∧ 0 ≤ (quad3Lim Q.bounds).thetamax ∧
      (quad3Lim Q.bounds).u3min ≤ 0 ∧ 0 ≤ (quad3Lim Q.bounds).u3max) {r : ℝ} (h0 : 0 ≤ r) (h1 : r ≤ u.T) :
    let L := quad3Lim Q.bounds
    (L.u1min ≤ (u.sig r).u1 ∧ (u.sig r).u1 ≤ L.u1max) ∧ (L.u3min ≤ (u.sig r).u3 ∧ (u.sig r).u3 ≤ L.u3max) ∧
    (L.phimin ≤ (u.sig r).phi ∧ (u.sig r).phi ≤ L.phimax) ∧ (L.thetamin ≤ (u.sig r).theta ∧ (u.sig r).theta ≤ L.thetamax) ∧
    (∀ U, L.u2min = -U → L.u2max = U → L.u3min = -U → L.u3max = U → L.u2min ≤ (u.sig r).u2 ∧ (u.sig r).u2 ≤ L.u2max) := by
  have := C57_limits_partial (quad3Lim Q.bounds) (u.x 0) (u.x 1) (u.x 2) (hx 0) (hx 1) (hx 2) u.T hT h.limits h1min h1max hphi hz.1 hz.2.1 hz.2.2.1 hz.2.2.2.1
    hz.2.2.2.2.1 hz.2.2.2.2.2 r h0 h1
  simpa only [(simple_signals hx hT r).1] using this

end OneSimple

/-! ## The property -/

set_option maxHeartbeats 1600000 in
/-- **C188** A simulated flight of a quadrotor in space with updates every `q` samples, in which every optimisation problem is solved (all constraints met), every plan
is at least as long as an update, every update starts from the predicted state and thrust, and the obstacles behave as predicted until the next update: there is one
flight, of which the log is the sequence of samples, that starts where the quadrotor is, obeys the laws of motion with a thrust and rates of turn that the vehicle
model is given, keeps thrust, pitch rate and angles within their limits, stays in the room with its centre, stays apart from the obstacles with its whole ball, and
ends hovering at the goal.  Missing from the full statement: the roll rate for limits that differ (`C57_violated`), the parts of the ball outside its centre
in the room (`C11_3d_violated`), and a room that is turned (`C180_turned_violated`). -/
theorem C188_flight_partial (Q : SimpleSetup) (hn : 1 ≤ Q.intervals) (hsize : ∀ k, 0 ≤ Q.size k) (hsd : 0 ≤ Q.sd)
    (hmin : 0 < (quad3Lim Q.bounds).u1min) (hmax : 0 ≤ (quad3Lim Q.bounds).u1max) (hphi : (quad3Lim Q.bounds).phimin < (quad3Lim Q.bounds).phimax)
    (hz : (quad3Lim Q.bounds).phimin ≤ 0 ∧ 0 ≤ (quad3Lim Q.bounds).phimax ∧ (quad3Lim Q.bounds).thetamin ≤ 0 ∧ 0 ≤ (quad3Lim Q.bounds).thetamax ∧
      (quad3Lim Q.bounds).u3min ≤ 0 ∧ 0 ≤ (quad3Lim Q.bounds).u3max)
    (Ts : ℝ) (hs : 0 < Ts) (q : ℕ) (hq : 1 ≤ q) (first : SimpleUpd) (more : List SimpleUpd)
    (solved : ∀ u ∈ first :: more, SimpleSolves Q u) (long : ∀ u ∈ first :: more, q * Ts ≤ u.T)
    (predicted : ∀ s, Loop.run (q * Ts) Ts ((first :: more).map (SimpleUpd.cols Ts)) = some s →
      ∀ (k : ℕ) (u : SimpleUpd) (a : Simple3), more[k]? = some u → s.seen[k]? = some a → u.start = a)
    (world : List Body) (foreseen : ∀ (k : ℕ) (u : SimpleUpd), (first :: more)[k]? = some u →
      Spec.Predicted3 world (k * (q * Ts)) (if k = more.length then u.T else q * Ts) u.ball) :
    ∃ s, Loop.run (q * Ts) Ts ((first :: more).map (SimpleUpd.cols Ts)) = some s ∧ ∃ f : Flight3,
      let total := more.length * (q * Ts) + ((first :: more).getLast (List.cons_ne_nil _ _)).T
      Spec.SafeSimple Q world total f ∧
      (f.pos 0 = first.start.pos ∧ f.vel 0 = first.start.vel ∧
        Spec.pushed (f.thrust 0) (f.roll 0) (f.pitch 0) = Spec.pushed first.start.u1 first.start.phi first.start.theta) ∧
      (f.pos total = Q.goal ∧ f.vel total = (fun _ => 0) ∧ f.roll total = 0 ∧ f.pitch total = 0 ∧ f.thrust total = 9.81 ∧ f.rollRate total = 0 ∧
        f.pitchRate total = 0) ∧
      s.log.length = (more.length + 1) * q + 1 ∧
      ∀ j, j ≤ (more.length + 1) * q → s.log[j]? = some (j * Ts, ⟨f.pos (j * Ts), f.vel (j * Ts), f.roll (j * Ts), f.pitch (j * Ts), f.thrust (j * Ts)⟩) := by
  have hu : 0 < (q : ℝ) * Ts := mul_pos (by exact_mod_cast hq) hs
  have hT : ∀ c ∈ first :: more, 0 < c.T := fun c hc => hu.trans_le (long c hc)
  have hx : ∀ c ∈ first :: more, ∀ i, Traj (c.x i) 3 := fun c hc => (solved c hc).traj hn
  have hx2 : ∀ c ∈ first :: more, ∀ i, Traj (c.ball.x i) 2 := fun c hc i => (hx c hc i).mono (by omega)
  have hlim := fun c (hc : c ∈ first :: more) (r : ℝ) (h0 : 0 ≤ r) (h1 : r ≤ c.T) =>
    (solved c hc).limits_at (hx c hc) (hT c hc) hmin hmax hphi hz h0 h1
  have hlift : ∀ c ∈ first :: more, ∀ r ∈ Set.Icc 0 c.T, 0 < c.acc 2 r + quadG := fun c hc r hr' => (solved c hc).lift (hx c hc) (hT c hc) hmin hphi hr'
  have hstart : ∀ c ∈ first :: more, (∀ i, c.pos i 0 = c.start.pos i) ∧ (∀ i, c.vel i 0 = c.start.vel i) ∧ ∀ i, c.acc i 0 = c.start.acc i := fun c hc => by
    have h := (solved c hc).starts
    have hTc := hT c hc
    refine ⟨fun i => ?_, fun i => ?_, fun i => ?_⟩
    · exact h (c.x i, c.start.pos i) (List.mem_append_left _ (List.mem_append_left _ ((List.mem_ofFn' _ _).2 ⟨i, rfl⟩)))
    · exact (div_eq_iff hTc.ne').2 ((h ((c.x i).derivative 1, c.T * c.start.vel i)
        (List.mem_append_left _ (List.mem_append_right _ ((List.mem_ofFn' _ _).2 ⟨i, rfl⟩)))).trans (mul_comm _ _))
    · exact (div_eq_iff (by positivity)).2 ((h ((c.x i).derivative 2, c.T ^ 2 * c.start.acc i)
        (List.mem_append_right _ ((List.mem_ofFn' _ _).2 ⟨i, rfl⟩))).trans (mul_comm _ _))
  have eacc : ∀ p : Simple3, p.acc = Spec.pushed p.u1 p.phi p.theta := fun p => rfl
  obtain ⟨s, hrun, hl, hseen, hlog⟩ := glue_log Ts hs q hq (SimpleUpd.cols Ts) (fun (c : SimpleUpd) (r : ℝ) =>
    (⟨fun i => c.pos i r, fun i => c.vel i r, (c.sig r).phi, (c.sig r).theta, (c.sig r).u1⟩ : Simple3)) first more
    (fun c hc i hi => scols_get (hx c hc) hs (hT c hc) (long c hc) hi)
  -- consecutive plans fit together
  have hjoin : ∀ (k : ℕ) (c d : SimpleUpd), (first :: more)[k]? = some c → (first :: more)[k + 1]? = some d →
      (∀ i, c.pos i (q * Ts) = d.pos i 0) ∧ (∀ i, c.vel i (q * Ts) = d.vel i 0) ∧ ∀ i, c.acc i (q * Ts) = d.acc i 0 := by
    intro k c d hc hd'
    have hcm := List.mem_of_getElem? hc
    have hdl : k < more.length := by
      have := (List.getElem?_eq_some_iff.1 hd').1
      simpa using this
    have e := predicted s hrun k d _ (by simpa using hd') (hseen k c hdl hc)
    obtain ⟨a', b', e'⟩ := hstart d (List.mem_of_getElem? hd')
    refine ⟨fun i => ?_, fun i => ?_, fun i => ?_⟩
    · rw [a', e]
    · rw [b', e]
    · rw [e', eacc, e]
      exact (simple_pushed (hlift c hcm _ ⟨hu.le, long c hcm⟩) i).symm
  have jt : ∀ (k : ℕ) (c d : SimpleUpd), (first :: more)[k]? = some c → (first :: more)[k + 1]? = some d →
      (c.sig (q * Ts)).phi = (d.sig 0).phi ∧ (c.sig (q * Ts)).theta = (d.sig 0).theta ∧ (c.sig (q * Ts)).u1 = (d.sig 0).u1 := fun k c d h1 h2 => by
    obtain ⟨-, -, e⟩ := hjoin k c d h1 h2
    unfold SimpleUpd.sig simpleSignal
    simp only
    rw [e 0, e 1, e 2]
    exact ⟨rfl, rfl, rfl⟩
  have chain : ∀ R : SimpleUpd → SimpleUpd → Prop, (∀ (k : ℕ) (c d : SimpleUpd), (first :: more)[k]? = some c → (first :: more)[k + 1]? = some d → R c d) →
      (first :: more).IsChain R := fun R h => List.isChain_iff_getElem.2 fun k hk =>
    h k _ _ (List.getElem?_eq_getElem _) (List.getElem?_eq_getElem _)
  have htot := lastTime_eq (q * Ts) SimpleUpd.T first more
  set total := lastTime (q * Ts) SimpleUpd.T first more with htotal
  have cases := locate_cases hu (T := SimpleUpd.T) first more long
  let P : SimpleUpd → ℝ → ℝ := fun c r => (c.sig r).phi
  let Th : SimpleUpd → ℝ → ℝ := fun c r => (c.sig r).theta
  let U1 : SimpleUpd → ℝ → ℝ := fun c r => (c.sig r).u1
  let U2 : SimpleUpd → ℝ → ℝ := fun c r => (c.sig r).u2
  let U3 : SimpleUpd → ℝ → ℝ := fun c r => (c.sig r).u3
  refine ⟨s, hrun, ⟨fun t i => along (q * Ts) (SimpleUpd.pos i) first more t, fun t i => along (q * Ts) (SimpleUpd.vel i) first more t,
    along (q * Ts) P first more, along (q * Ts) Th first more, along (q * Ts) U1 first more, along (q * Ts) U2 first more, along (q * Ts) U3 first more⟩, ?_⟩
  rw [← htot]
  have atend : ∀ F : SimpleUpd → ℝ → ℝ, along (q * Ts) F first more total =
      F ((first :: more).getLast (List.cons_ne_nil _ _)) ((first :: more).getLast (List.cons_ne_nil _ _)).T := fun F => by
    have hlast : (first :: more)[more.length]? = some ((first :: more).getLast (List.cons_ne_nil _ _)) := by
      rw [List.getLast_eq_getElem, List.getElem?_eq_getElem (by simp)]
      simp
    rw [along, htot, locate_at hu first more more.length _ _ hlast (hT _ (List.getLast_mem _)).le (Or.inr rfl)]
  have at0 : ∀ F : SimpleUpd → ℝ → ℝ, along (q * Ts) F first more 0 = F first 0 := fun F => by rw [along, locate_zero hu]
  have vels : ∀ i, ∀ t ∈ Set.Icc 0 total, HasDerivWithinAt (fun t => along (q * Ts) (SimpleUpd.vel i) first more t)
      (along (q * Ts) (SimpleUpd.acc i) first more t) (Set.Icc 0 total) t := fun i t ht =>
    along_deriv hu first more long (fun c hc => svel_deriv (hx c hc) (hT c hc) i)
      (chain _ fun k c d h1 h2 => ⟨(hjoin k c d h1 h2).2.1 i, (hjoin k c d h1 h2).2.2 i⟩) t ht
  have hm := List.getLast_mem (List.cons_ne_nil first more)
  have hend := C123_simple _ (hx _ hm) Q.goal 4 (by omega) _ (hT _ hm) (Or.inl (solved _ hm).ends)
  simp only at hend
  rw [(simple_signals (hx _ hm) (hT _ hm) _).1, (simple_signals (hx _ hm) (hT _ hm) _).2] at hend
  simp only [Simple3.mk.injEq] at hend
  obtain ⟨⟨gp, gv, g1, g2, g3⟩, g4, g5⟩ := hend
  obtain ⟨st1, st2, st3⟩ := hstart first (by simp)
  refine ⟨⟨?_, ?_, ⟨?_, ?_, ?_⟩, ?_, ?_, ?_, ?_⟩, ⟨?_, ?_, ?_⟩, ⟨?_, ?_, ?_, ?_, ?_, ?_, ?_⟩, hl, ?_⟩
  · intro i t ht
    exact along_deriv hu first more long (fun c hc => spos_deriv (hx c hc) (hT c hc) i)
      (chain _ fun k c d h1 h2 => ⟨(hjoin k c d h1 h2).1 i, (hjoin k c d h1 h2).2.1 i⟩) t ht
  · intro i t ht
    refine (vels i t ht).congr_deriv ?_
    obtain ⟨k, c, r, hk, -, h0, h1, -, e⟩ := cases t ht.1 ht.2
    simp only [along, e, P, Th, U1]
    exact (simple_pushed (hlift c (List.mem_of_getElem? hk) r ⟨h0, h1⟩) i).symm
  · exact along_cont hu first more long (fun c hc => simple_thrust (hx c hc) (hT c hc)) (chain _ fun k c d h1 h2 => (jt k c d h1 h2).2.2)
  · exact along_cont hu first more long (fun c hc r hr' => (simple_angles (hx c hc) (hT c hc) (hlift c hc) hr').1.continuousWithinAt)
      (chain _ fun k c d h1 h2 => (jt k c d h1 h2).1)
  · exact along_cont hu first more long (fun c hc r hr' => (simple_angles (hx c hc) (hT c hc) (hlift c hc) hr').2.continuousWithinAt)
      (chain _ fun k c d h1 h2 => (jt k c d h1 h2).2.1)
  · intro t ht
    exact ⟨along_right_deriv hu (F := P) (G := U2) first more long (fun c hc r hr' => (simple_angles (hx c hc) (hT c hc) (hlift c hc) hr').1) t ht,
      along_right_deriv hu (F := Th) (G := U3) first more long (fun c hc r hr' => (simple_angles (hx c hc) (hT c hc) (hlift c hc) hr').2) t ht⟩
  · intro t ht
    obtain ⟨k, c, r, hk, -, h0, h1, -, e⟩ := cases t ht.1 ht.2
    simp only [along, e, P, Th, U1, U2, U3]
    exact hlim c (List.mem_of_getElem? hk) r h0 h1
  · intro t ht k'
    obtain ⟨k, c, r, hk, -, h0, h1, -, e⟩ := cases t ht.1 ht.2
    have hc := List.mem_of_getElem? hk
    simp only [along, e]
    have := C11_3d_partial (sphere Q.radius) (fun k => .spl (c.x k)) Q.ball.lo Q.ball.hi 0 1 (fun k => (hx c hc k).on) (fun _ => trivial)
      ((solved c hc).inside _ (by simp [SimpleSetup.ball])) (r / c.T) (div_nonneg h0 (hT c hc).le) ((div_le_one (hT c hc)).2 h1)
      (!₂[c.pos 0 r, c.pos 1 r, c.pos 2 r] + !₂[0, 0, 0]) ⟨!₂[0, 0, 0], by rw [sphere_core]; rfl, rfl⟩ k'
    have e0 : ((!₂[c.pos 0 r, c.pos 1 r, c.pos 2 r] + !₂[0, 0, 0] : Pt 3)) k' = c.pos k' r := by fin_cases k' <;> simp
    rw [e0] at this
    obtain ⟨a, b⟩ := Q.ball.lo_hi rfl hsize k'
    have er : Q.ball.room k' = Q.room k' := rfl
    have es : Q.ball.size k' = Q.size k' := rfl
    rw [er, es] at a b
    rw [abs_le]
    constructor <;> linarith [this.1, this.2]
  · intro t ht w hw' p' hp'
    obtain ⟨k, c, r, hk, rfl, h0, h1, h2, e⟩ := cases t ht.1 ht.2
    have hc := List.mem_of_getElem? hk
    simp only [along, e]
    exact apart_of3 (S := Q.ball) (u := c.ball) (solved c hc).planes (solved c hc).offsets (solved c hc).slacks (solved c hc).avoid hn (hx2 c hc) (hT c hc) hsd
      (foreseen k c hk) h0 h1
      (by
        split_ifs with hkl
        · exact h1
        · exact (h2.resolve_right hkl).le) (sphere Q.radius) (by simp [SimpleSetup.ball]) w hw' !₂[c.pos 0 r, c.pos 1 r, c.pos 2 r]
      ⟨!₂[0, 0, 0], by rw [sphere_core]; rfl, by
        have e0 : (!₂[0, 0, 0] : Pt 3) = 0 := by ext i; fin_cases i <;> rfl
        rw [e0]; exact (add_zero _).symm⟩ p' hp'
  · exact funext fun i => (at0 (SimpleUpd.pos i)).trans (st1 i)
  · exact funext fun i => (at0 (SimpleUpd.vel i)).trans (st2 i)
  · show Spec.pushed (along (q * Ts) U1 first more 0) (along (q * Ts) P first more 0) (along (q * Ts) Th first more 0) = _
    rw [at0, at0, at0, ← eacc]
    exact funext fun i => (simple_pushed (hlift first (by simp) 0 ⟨le_rfl, (hT first (by simp)).le⟩) i).trans (st3 i)
  · exact funext fun i => (atend (SimpleUpd.pos i)).trans (congrFun gp i)
  · exact funext fun i => (atend (SimpleUpd.vel i)).trans (congrFun gv i)
  · exact (atend P).trans g1
  · exact (atend Th).trans g2
  · exact (atend U1).trans g3
  · exact (atend U2).trans g4
  · exact (atend U3).trans g5
  · intro j hj
    obtain ⟨c, r, hc, e, hF⟩ := hlog j hj
    rw [e]
    have e1 : (fun i => c.pos i r) = fun i => along (q * Ts) (SimpleUpd.pos i) first more (j * Ts) :=
      funext fun i => hF (SimpleUpd.pos i) fun k c d h1 h2 => (hjoin k c d h1 h2).1 i
    have e2 : (fun i => c.vel i r) = fun i => along (q * Ts) (SimpleUpd.vel i) first more (j * Ts) :=
      funext fun i => hF (SimpleUpd.vel i) fun k c d h1 h2 => (hjoin k c d h1 h2).2.1 i
    have e3 : (c.sig r).phi = along (q * Ts) P first more (j * Ts) := hF P fun k c d h1 h2 => (jt k c d h1 h2).1
    have e4 : (c.sig r).theta = along (q * Ts) Th first more (j * Ts) := hF Th fun k c d h1 h2 => (jt k c d h1 h2).2.1
    have e5 : (c.sig r).u1 = along (q * Ts) U1 first more (j * Ts) := hF U1 fun k c d h1 h2 => (jt k c d h1 h2).2.2
    rw [e1, e2, e3, e4, e5]


/-! ## A case: a flight of one metre past a ball and a column, and then hovering, planned twice -/

section CaseSimple

noncomputable def caseSS : SimpleSetup := ⟨1, 1 / 2, fun _ => none, 5, ![1, 0, 0], fun _ => 20, 0⟩
/-- The plan along the first axis with the coefficients `c`, which starts at rest in `(a, 0, 0)`. -/
noncomputable def caseSU (c : List ℝ) (a T : ℝ) : SimpleUpd where
  T := T
  x := ![⟨vehBasis 4 5, c⟩, ⟨vehBasis 4 5, List.replicate 9 0⟩, ⟨vehBasis 4 5, List.replicate 9 0⟩]
  hyp := fun _ _ => ⟨![.spl (lvl 0), .spl (lvl 1), .spl (lvl 0)], .spl (lvl (3 / 2))⟩
  eps := fun _ _ => lvl 0
  obs := [.space (sphere 1) ![.spl (lvl (1 / 2)), .spl (lvl 3), .spl (lvl 0)] true,
    .upright ⟨circle 1, .spl (lvl (1 / 2)), .spl (lvl 3), .num 1, .num 1, .num 0, true⟩]
  start := ⟨![a, 0, 0], fun _ => 0, 0, 0, quadG⟩

theorem caseSimple_avoid {c : List ℝ} (hc : c.length = 9) (a T : ℝ) : ∀ e ∈ caseSS.ball.envCons (caseSU c a T).ball, e.Imposed 0 := by
  have o1 : ∀ c, (Expr.spl (lvl c)).OnIntervals 5 := fun c => on5 (d := 1) (by simp)
  have og : (Expr.spl (⟨vehBasis 4 5, c⟩ : BSpline ℝ)).OnIntervals 5 := on5 (d := 4) hc
  have v1 : ∀ c x, 0 ≤ x → x ≤ 1 → (lvl c).eval x = c := fun c x h0 h1 => level (d := 1) h0 h1
  have d1 : ∀ c, (lvl c).basis.degree = 1 := fun _ => rfl
  have d4 : (vehBasis 4 5).degree = 4 := rfl
  obtain ⟨z, hz⟩ : ∃ z : BSpline ℝ, z = ⟨vehBasis 4 5, List.replicate 9 0⟩ := ⟨_, rfl⟩
  have dz : z.basis.degree = 4 := by rw [hz]; rfl
  have oz : (Expr.spl z).OnIntervals 5 := by rw [hz]; exact on5 (d := 4) (by simp)
  have vz : ∀ x, 0 ≤ x → x ≤ 1 → z.eval x = 0 := fun x h0 h1 => by rw [hz]; exact level (d := 4) h0 h1
  have ef : flat 5 = lvl 0 := rfl
  have n2 : (normCon [.spl (lvl 0), .spl (lvl 1)]).Imposed 0 := by
    unfold normCon
    refine const_imposed (n := 5) (v := 0) (by norm_num) (by norm_num) ?_ ?_ ?_ ?_ (fun x h0 h1 => ?_) le_rfl
    · simp [Expr.sub, Expr.OnIntervals]; simpa [Expr.OnIntervals] using ⟨o1 0, o1 1⟩
    · simp [Expr.sub, Expr.totalDegree, d1]
    · simp [Expr.sub, Expr.totalDegree, d1]
    · simp [Expr.sub, Expr.hasSpline]
    · simp [Expr.sub, Expr.val, v1 _ x h0 h1]
  have n3 : (normCon [.spl (lvl 0), .spl (lvl 1), .spl (lvl 0)]).Imposed 0 := by
    unfold normCon
    refine const_imposed (n := 5) (v := 0) (by norm_num) (by norm_num) ?_ ?_ ?_ ?_ (fun x h0 h1 => ?_) le_rfl
    · simp [Expr.sub, Expr.OnIntervals]; simpa [Expr.OnIntervals] using ⟨⟨o1 0, o1 1⟩, o1 0⟩
    · simp [Expr.sub, Expr.totalDegree, d1]
    · simp [Expr.sub, Expr.totalDegree, d1]
    · simp [Expr.sub, Expr.hasSpline]
    · simp [Expr.sub, Expr.val, v1 _ x h0 h1]
  have b2 : (obsCon2 (.spl (lvl 0)) (.spl (lvl 1)) (.spl (lvl (3 / 2))) (.spl (lvl (1 / 2))) (.spl (lvl 3)) (.num 1) (.num 1) (.num 0) !₂[0, 0] 1).Imposed 0 := by
    refine const_imposed (n := 5) (v := -(1 / 2)) (by norm_num) (by norm_num) ?_ ?_ ?_ ?_ (fun x h0 h1 => ?_) (by norm_num)
    · simpa [obsCon2, Expr.sub, Expr.OnIntervals] using ⟨⟨⟨o1 0, o1 _⟩, o1 1, o1 3⟩, o1 (3 / 2)⟩
    · simp [obsCon2, Expr.sub, Expr.totalDegree, d1]
    · simp [obsCon2, Expr.sub, Expr.totalDegree, d1]
    · simp [obsCon2, Expr.sub, Expr.hasSpline]
    · simp [obsCon2, Expr.sub, Expr.val, v1 _ x h0 h1]; norm_num
  have b3 : (obsCon3 (.spl (lvl 0)) (.spl (lvl 1)) (.spl (lvl 0)) (.spl (lvl (3 / 2))) (.spl (lvl (1 / 2))) (.spl (lvl 3)) (.spl (lvl 0)) !₂[0, 0, 0] 1).Imposed 0 := by
    refine const_imposed (n := 5) (v := -(1 / 2)) (by norm_num) (by norm_num) ?_ ?_ ?_ ?_ (fun x h0 h1 => ?_) (by norm_num)
    · simpa [obsCon3, Expr.sub, Expr.OnIntervals] using ⟨⟨⟨⟨o1 0, o1 _⟩, o1 1, o1 3⟩, o1 0⟩, o1 (3 / 2)⟩
    · simp [obsCon3, Expr.totalDegree, d1]
    · simp [obsCon3, Expr.totalDegree, d1]
    · simp [obsCon3, Expr.hasSpline]
    · simp [obsCon3, Expr.val, v1 _ x h0 h1]; norm_num
  have e1 : (Expr.sub (.spl (lvl 0)) (.num (1 / 2))).Imposed 0 := by
    refine const_imposed (n := 5) (v := -(1 / 2)) (by norm_num) (by norm_num) ?_ ?_ ?_ ?_ (fun x h0 h1 => ?_) (by norm_num)
    · simpa [Expr.sub, Expr.OnIntervals] using o1 0
    · simp [Expr.sub, Expr.totalDegree, d1]
    · simp [Expr.sub, Expr.totalDegree, d1]
    · simp [Expr.sub, Expr.hasSpline]
    · simp [Expr.sub, Expr.val, v1 _ x h0 h1]
  have e2 : (Expr.neg (.spl (lvl 0))).Imposed 0 := by
    refine const_imposed (n := 5) (v := 0) (by norm_num) (by norm_num) ?_ ?_ ?_ ?_ (fun x h0 h1 => ?_) le_rfl
    · simpa [Expr.sub, Expr.OnIntervals] using o1 0
    · simp [Expr.totalDegree, d1]
    · simp [Expr.totalDegree, d1]
    · simp [Expr.hasSpline]
    · simp [Expr.val, v1 _ x h0 h1]
  have vv : (vehCon3 (.spl (lvl 0)) (.spl (lvl 1)) (.spl (lvl 0)) (.spl (lvl (3 / 2))) (.spl ⟨vehBasis 4 5, c⟩) (.spl z) (.spl z) (.spl (lvl 0)) (1 / 2)
      !₂[0, 0, 0] 1).Imposed 0 := by
    refine const_imposed (n := 5) (v := 0) (by norm_num) (by norm_num) ?_ ?_ ?_ ?_ (fun x h0 h1 => ?_) le_rfl
    · simpa [vehCon3, Expr.sub, Expr.OnIntervals] using ⟨⟨⟨⟨⟨o1 0, og⟩, o1 1, oz⟩, o1 0, oz⟩, o1 (3 / 2)⟩, o1 0⟩
    · simp [vehCon3, Expr.sub, Expr.totalDegree, d1, d4, dz]
    · simp [vehCon3, Expr.sub, Expr.totalDegree, d1, d4, dz]
    · simp [vehCon3, Expr.sub, Expr.hasSpline]
    · simp [vehCon3, Expr.sub, Expr.val, v1 _ x h0 h1, vz x h0 h1]; norm_num
  have h12 : (0 : ℝ) < 1 / 2 := by norm_num
  intro e he
  simp only [Setup3.envCons, Setup3.vehCons, Setup3.eps, SimpleSetup.ball, SimpleUpd.ball, caseSS, caseSU, List.zipIdx_cons, List.zipIdx_nil, List.flatMap_cons,
    List.flatMap_nil, Obs3.avoid, Obs3.norm, Obs3.cons, Obs.cons, Obs3.third, sphere, circle, if_true, h12, List.range_succ, List.range_zero, List.nil_append,
    List.map_cons, List.map_nil, List.append_nil, List.filter_cons_of_pos, List.filter_nil, ef, Matrix.cons_val_zero, Matrix.cons_val_one, Matrix.cons_val,
    List.mem_cons, List.not_mem_nil, or_false, List.cons_append, ← hz] at he
  rcases he with rfl | rfl | rfl | rfl | rfl | rfl | rfl | rfl | rfl | rfl
  · exact n3
  · exact b3
  · exact n2
  · exact b2
  · exact e1
  · exact e2
  · exact vv
  · exact e1
  · exact e2
  · exact vv

theorem caseSimple_solves {c : List ℝ} (hc : c.length = 9) {a : ℝ} (ha : ∀ j, j ≤ 2 → c.getD j 0 = a) (hb : ∀ j, 4 ≤ j → j < 9 → c.getD j 0 = 1)
    (hin : ∀ x ∈ c, 0 ≤ x ∧ x ≤ 1) : ∃ T0, 0 < T0 ∧ ∀ T, T0 ≤ T → SimpleSolves caseSS (caseSU c a T) := by
  have hpi := Real.pi_pos
  obtain ⟨T0, h0, hT0⟩ : Spec.Slowly (simpleC (quad3Lim fun _ => none) ⟨vehBasis 4 5, c⟩ ⟨vehBasis 4 5, List.replicate 9 0⟩ ⟨vehBasis 4 5, List.replicate 9 0⟩) := by
    refine C181_simple _ (n := 5) (by norm_num) (by norm_num) _ _ _ ⟨c, hc, rfl⟩ ⟨_, by simp, rfl⟩ ⟨_, by simp, rfl⟩ ?_ ?_ ?_ ?_ ?_ ?_ ?_ ?_ ?_ ?_ <;>
      simp only [quad3Lim, lim, Option.getD_none, quadG] <;> linarith
  obtain ⟨⟨s1, s2, s3⟩, s4, s5⟩ := rest_facts hc ha hb
  obtain ⟨⟨t1, t2, t3⟩, t4, t5⟩ := rest_facts (c := List.replicate 9 0) (by simp) (a := 0) (b := 0)
    (fun j hj => List.getD_replicate _ (by omega)) (fun j _ hj => List.getD_replicate _ (by omega))
  refine ⟨T0, h0, fun T hT => ⟨?_, ?_, ?_, ?_, ?_, hT0 T hT, caseSimple_avoid hc a T, ?_, ?_, ?_⟩⟩
  · show -T ≤ 0; linarith
  · intro i
    fin_cases i
    · exact ⟨c, hc, rfl⟩
    · exact ⟨List.replicate 9 0, by simp [caseSS], rfl⟩
    · exact ⟨List.replicate 9 0, by simp [caseSS], rfl⟩
  · intro _ _ i
    fin_cases i
    · exact ⟨lvl_on 0, trivial⟩
    · exact ⟨lvl_on 1, trivial⟩
    · exact ⟨lvl_on 0, trivial⟩
  · exact fun _ _ => lvl_on _
  · exact fun _ _ => lvl_on 0
  · intro s hs e he
    rw [show caseSS.ball.shapes = [sphere 1] from rfl, List.mem_singleton] at hs
    subst hs
    have eb : caseSS.ball = caseS3 20 0 0 := by
      unfold caseSS SimpleSetup.ball caseS3
      congr
      funext k; fin_cases k <;> rfl
    have A := case3_corner 20 0 0 10 10 10 (Or.inl (by norm_num)) (Or.inl (by norm_num)) (Or.inr (by norm_num))
    have B := case3_corner 20 0 0 (-10) (-10) (-10) (Or.inr (by norm_num)) (Or.inr (by norm_num)) (Or.inl (by norm_num))
    simp only [Real.cos_zero, Real.sin_zero, one_mul, zero_mul, sub_zero, zero_add] at A B
    have lh : ∀ k, caseSS.ball.lo k ≤ -10 + 0 ∧ 10 + 0 ≤ caseSS.ball.hi k := fun k => by
      have h1 := (Setup3.reach _ A k).2
      have h2 := (Setup3.reach _ B k).1
      rw [← eb] at h1 h2
      fin_cases k <;> exact ⟨h2, h1⟩
    have hl : ∀ a ∈ (⟨vehBasis 4 5, List.replicate 9 0⟩ : BSpline ℝ).coeffs, a = 0 := fun a ha => List.eq_of_mem_replicate ha
    obtain ⟨c', hc', he⟩ := List.mem_flatMap.1 he
    have hc0 : c' = !₂[0, 0, 0] := by simpa [sphere] using hc'
    obtain ⟨k, -, he⟩ := List.mem_flatMap.1 he
    have ck : c' k = 0 := by rw [hc0]; fin_cases k <;> rfl
    rw [ck] at he
    simp only [List.mem_cons, List.not_mem_nil, or_false] at he
    have := lh k
    rcases he with rfl | rfl <;> fin_cases k
    · exact low_imposed fun a ha => by have := (hin a ha).1; simp only [Fin.zero_eta] at *; linarith
    · exact low_imposed fun a ha => by rw [hl a ha]; simp only [Fin.mk_one] at *; linarith
    · exact low_imposed fun a ha => by rw [hl a ha]; simp only [Fin.reduceFinMk] at *; linarith
    · exact high_imposed fun a ha => by have := (hin a ha).2; simp only [Fin.zero_eta] at *; linarith
    · exact high_imposed fun a ha => by rw [hl a ha]; simp only [Fin.mk_one] at *; linarith
    · exact high_imposed fun a ha => by rw [hl a ha]; simp only [Fin.reduceFinMk] at *; linarith
  · show MeetsInit (simpleInit _ _ T) (0 / T)
    rw [zero_div]
    intro e he
    simp only [simpleInit, List.mem_append, List.mem_ofFn', Set.mem_range] at he
    rcases he with (⟨i, rfl⟩ | ⟨i, rfl⟩) | ⟨i, rfl⟩
    · fin_cases i
      · exact s1
      · exact t1
      · exact t1
    · fin_cases i
      · exact s2.trans (mul_zero T).symm
      · exact t2.trans (mul_zero T).symm
      · exact t2.trans (mul_zero T).symm
    · have ez : ∀ i, (caseSU c a T).start.acc i = 0 := fun i => by
        fin_cases i <;> simp [Simple3.acc, caseSU]
      simp only [ez, mul_zero]
      fin_cases i
      · exact s3
      · exact t3
      · exact t3
  · intro e he
    simp only [imposedFree, holoTerm, Bool.false_eq_true, if_false, List.mem_append, List.mem_flatMap, List.mem_range,
      List.mem_ofFn', Set.mem_range] at he
    rcases he with ⟨i, rfl⟩ | ⟨d, hd', i, rfl⟩
    · fin_cases i
      · exact s4
      · exact t4
      · exact t4
    · fin_cases i
      · exact s5 (d + 1) (by omega) (by omega)
      · exact t5 (d + 1) (by omega) (by omega)
      · exact t5 (d + 1) (by omega) (by omega)

-- one metre to the side and then hovering there, planned twice
example : ∃ (T : ℝ) (s : Loop ℝ Simple3) (f : Flight3), 0 < T ∧
    Loop.run ((1 : ℕ) * T) T ([caseSU [0, 0, 0, 0, 1, 1, 1, 1, 1] 0 T, caseSU (List.replicate 9 1) 1 T].map (SimpleUpd.cols T)) = some s ∧
    Spec.SafeSimple caseSS [.space (sphere 1) fun _ => !₂[1 / 2, 3, 0], .upright ⟨circle 1, fun _ => !₂[1 / 2, 3], fun _ => 0⟩] (2 * T) f ∧
    f.pos 0 = ![0, 0, 0] ∧ f.pos (2 * T) = ![1, 0, 0] ∧ f.thrust (2 * T) = 9.81 := by
  have hpi := Real.pi_pos
  obtain ⟨T1, p1, h1⟩ := caseSimple_solves (c := [0, 0, 0, 0, 1, 1, 1, 1, 1]) rfl (a := 0) (fun j hj => by interval_cases j <;> rfl)
    (fun j h4 hj => by interval_cases j <;> rfl) (fun x hx => by simp at hx; rcases hx with rfl | rfl <;> norm_num)
  obtain ⟨T2, p2, h2⟩ := caseSimple_solves (c := List.replicate 9 1) (by simp) (a := 1) (fun j hj => List.getD_replicate _ (by omega))
    (fun j _ hj => List.getD_replicate _ (by omega)) (fun x hx => by rw [List.eq_of_mem_replicate hx]; norm_num)
  set T := max T1 T2 with hTdef
  have hT : 0 < T := p1.trans_le (le_max_left _ _)
  have q1 := h1 T (le_max_left _ _)
  have q2 := h2 T (le_max_right _ _)
  set u1 := caseSU [0, 0, 0, 0, 1, 1, 1, 1, 1] 0 T with hu1
  set u2 := caseSU (List.replicate 9 1) 1 T with hu2
  have hsol : ∀ u ∈ [u1, u2], SimpleSolves caseSS u := by
    intro u hu
    simp only [List.mem_cons, List.not_mem_nil, or_false] at hu
    rcases hu with rfl | rfl
    · exact q1
    · exact q2
  have hTs : ∀ u ∈ [u1, u2], u.T = T := by
    intro u hu
    simp only [List.mem_cons, List.not_mem_nil, or_false] at hu
    rcases hu with rfl | rfl <;> rfl
  have long : ∀ u ∈ [u1, u2], ((1 : ℕ) : ℝ) * T ≤ u.T := fun u hu => by rw [hTs u hu]; simp
  have L : quad3Lim caseSS.bounds = ⟨2, 15, -2, 2, -2, 2, -Real.pi / 6, Real.pi / 6, -Real.pi / 6, Real.pi / 6⟩ := rfl
  obtain ⟨s, hrun, f, hsafe, ⟨f0, -⟩, ⟨f1, -, -, -, f4, -⟩, -⟩ := C188_flight_partial caseSS (by simp [caseSS]) (fun k => by simp [caseSS]) (by simp [caseSS])
    (by rw [L]; norm_num) (by rw [L]; norm_num) (by rw [L]; simp only; linarith)
    (by rw [L]; simp only; refine ⟨?_, ?_, ?_, ?_, ?_, ?_⟩ <;> linarith) T hT 1 le_rfl u1 [u2] hsol long
    (fun s hrun k u a hk ha => by
      have tr : ∀ c ∈ [u1, u2], ∀ i, Traj (c.x i) 3 := fun c hc => (hsol c hc).traj (by simp [caseSS])
      have hTp : ∀ c ∈ [u1, u2], 0 < c.T := fun c hc => by rw [hTs c hc]; exact hT
      obtain ⟨s', hrun', -, hseen, -⟩ := glue_log T hT 1 le_rfl (SimpleUpd.cols T) (fun (c : SimpleUpd) (r : ℝ) =>
        (⟨fun i => c.pos i r, fun i => c.vel i r, (c.sig r).phi, (c.sig r).theta, (c.sig r).u1⟩ : Simple3)) u1 [u2]
        (fun c hc i hi => scols_get (tr c hc) hT (hTp c hc) (long c hc) hi)
      rw [hrun] at hrun'
      obtain rfl := Option.some.inj hrun'
      have hk0 : k = 0 := by
        by_contra h
        rw [List.getElem?_eq_none (by simp; omega)] at hk
        cases hk
      subst hk0
      simp only [List.getElem?_cons_zero, Option.some.injEq] at hk
      subst hk
      have e2 := hseen 0 u1 (by simp) rfl
      rw [ha, Option.some.injEq] at e2
      subst e2
      have m1 : u1 ∈ [u1, u2] := by simp
      have hend := C123_simple _ (tr _ m1) caseSS.goal 4 (by omega) _ (hTp _ m1) (Or.inl (hsol _ m1).ends)
      simp only at hend
      rw [(simple_signals (tr _ m1) (hTp _ m1) _).2, hTs _ m1] at hend
      rw [Nat.cast_one, one_mul, hend.1]
      rfl)
    [.space (sphere 1) fun _ => !₂[1 / 2, 3, 0], .upright ⟨circle 1, fun _ => !₂[1 / 2, 3], fun _ => 0⟩]
    (fun k u hk => by
      have hu := List.mem_of_getElem? hk
      have hob : u.obs = u1.obs := by
        simp only [List.mem_cons, List.not_mem_nil, or_false] at hu
        rcases hu with rfl | rfl <;> rfl
      have v1 : ∀ c r, 0 ≤ r → r ≤ T → (lvl c).eval (r / T) = c := fun c r r0 r1 => level (d := 1) (div_nonneg r0 hT.le) ((div_le_one hT).2 r1)
      have r1' : ∀ r, r ≤ (if k = [u2].length then u.T else ((1 : ℕ) : ℝ) * T) → r ≤ T := fun r r1 => by
        refine r1.trans ?_
        split_ifs
        · exact (hTs u hu).le
        · simp
      refine ⟨by show u.obs.length = _; rw [hob]; rfl, fun l o w ho hw => ?_⟩
      have ho' : u1.obs[l]? = some o := by rw [← hob]; exact ho
      have hTu : u.ball.T = T := hTs u hu
      have hl1 : l < 2 := by
        by_contra h
        rw [List.getElem?_eq_none (by simp; omega)] at hw
        cases hw
      interval_cases l
      · rw [← Option.some.inj ho', ← Option.some.inj hw, hTu]
        refine ⟨rfl, rfl, fun i => ?_, fun r r0 r1 => ?_⟩
        · fin_cases i <;> exact lvl_on _
        · have := r1' r r1
          show (!₂[(lvl (1 / 2)).eval (r / T), (lvl 3).eval (r / T), (lvl 0).eval (r / T)] : Pt 3) = _
          rw [v1 _ r r0 this, v1 _ r r0 this, v1 _ r r0 this]
      · rw [← Option.some.inj ho', ← Option.some.inj hw, hTu]
        refine ⟨rfl, rfl, fun _ => 0, ⟨lvl_on _, lvl_on _, trivial, trivial, trivial, by simp [Expr.val]⟩, fun r r0 r1 => ⟨?_, rfl⟩⟩
        have := r1' r r1
        show (!₂[(lvl (1 / 2)).eval (r / T), (lvl 3).eval (r / T)] : Pt 2) = _
        rw [v1 _ r r0 this, v1 _ r r0 this])
  have et : (([u2].length : ℕ) : ℝ) * (((1 : ℕ) : ℝ) * T) + ([u1, u2].getLast (List.cons_ne_nil _ _)).T = 2 * T := by
    rw [hTs _ (List.getLast_mem _)]
    simp; ring
  rw [et] at hsafe f1 f4
  exact ⟨T, s, f, hT, hrun, hsafe, f0, f1, f4⟩

end CaseSimple

end Verif.Problems
