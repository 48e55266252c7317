import Verif.Vehicles.QuadrotorSimple
import Verif.Vehicles.Trailer

/-! # The motion starts where it should (C122)

Every update imposes initial constraints on the splines (`get_initial_constraints` with the values of
`set_parameters`) and samples the solution with `splines2signals`.  The first sample must be the
predicted state, with the predicted input. -/

set_option linter.unusedSectionVars false

namespace Verif.Vehicles

open Verif.Spline Collision

/-! ## Model -/

/-- `Point2pointProblem.define_init_constraints`, point2point.py:60-66: for every pair
`evalspline(spline, t0) - condition` is constrained to `[0, 0]`; `τ = t/T` is `self.t0`. -/
def MeetsInit (cons : List (BSpline ℝ × ℝ)) (τ : ℝ) : Prop := ∀ c ∈ cons, c.1.eval τ = c.2

/-- State, input and its derivative of a vehicle that moves freely in `n` directions. -/
structure Holo (n : ℕ) where
  state : Fin n → ℝ
  input : Fin n → ℝ
  dinput : Fin n → ℝ

/-- `get_initial_constraints` with the parameters of `set_parameters`: holonomic1d.py:50-56,93-98,
holonomic.py:87-96,153-159, holonomic3d.py:73-82,124-129. -/
noncomputable def holoInit {n : ℕ} (x : Fin n → BSpline ℝ) (p : Holo n) (T : ℝ) : List (BSpline ℝ × ℝ) :=
  List.ofFn (fun i => (x i, p.state i)) ++ List.ofFn (fun i => ((x i).derivative 1, T * p.input i))

/-- The same for the tool of a machine, with the accelerations: tool.py:128-137,171-177. -/
noncomputable def toolInit (x : Fin 3 → BSpline ℝ) (p : Holo 3) (T : ℝ) : List (BSpline ℝ × ℝ) :=
  holoInit x p T ++ List.ofFn (fun i => ((x i).derivative 2, T ^ 2 * p.dinput i))

/-- `splines2signals`, holonomic1d.py:103-110, holonomic.py:165-175, holonomic3d.py:135-146,
tool.py:263-275, at one time instant; splines in physical time. -/
noncomputable def holoSignals {n : ℕ} (x : Fin n → BSpline ℝ) (t : ℝ) : Holo n where
  state i := (x i).eval t
  input i := ((x i).derivative 1).eval t
  dinput i := ((x i).derivative 2).eval t

/-- State and input of a holonomic vehicle with orientation. -/
structure Orient where
  x : ℝ
  y : ℝ
  theta : ℝ
  dx : ℝ
  dy : ℝ
  omega : ℝ

/-- `HolonomicOrient`: `get_initial_constraints` (holonomicorient.py:90-100) with the parameters of
`set_parameters` (146-156). -/
noncomputable def orientInit (x y tg : BSpline ℝ) (p : Orient) (T : ℝ) : List (BSpline ℝ × ℝ) :=
  let tg0 := Real.tan (p.theta / 2)
  [(x, p.x), (y, p.y), (tg, tg0), (x.derivative 1, T * p.dx), (y.derivative 1, T * p.dy),
   (tg.derivative 1, T * (1 / 2 * p.omega * (1 + tg0 ^ 2)))]

/-- `HolonomicOrient.splines2signals`, holonomicorient.py:162-177. -/
noncomputable def orientSignals (x y tg : BSpline ℝ) (t : ℝ) : Orient where
  x := x.eval t
  y := y.eval t
  theta := 2 * arctan2 (tg.eval t) 1
  dx := (x.derivative 1).eval t
  dy := (y.derivative 1).eval t
  omega := 2 * (tg.derivative 1).eval t / (1 + tg.eval t ^ 2)

/-- `Dubins`: `get_initial_constraints` (dubins.py:166-179) with the parameters of `set_parameters`
(228-234). -/
noncomputable def dubinsInit (v tg : BSpline ℝ) (p : Unicycle) (T : ℝ) : List (BSpline ℝ × ℝ) :=
  let tg0 := Real.tan (p.theta / 2)
  [(v, p.V / (1 + tg0 ^ 2)), (tg, tg0), (tg.derivative 1, T * (1 / 2 * p.omega * (1 + tg0 ^ 2)))]

/-- What a `Dubins`, `Bicycle` or `AGV` remembers about its position: `self.pose0`, the last entry of
`self.signals['state']` (if the vehicle was simulated) and `self.prediction['state']`. -/
structure Whereabouts where
  pose0 : ℝ × ℝ
  simulated : Option (ℝ × ℝ)
  predicted : ℝ × ℝ

namespace Whereabouts

/-- `set_initial_conditions`, dubins.py:199-204, bicycle.py:203-209, agv.py:170-176. -/
def setInitial (p : ℝ × ℝ) (w : Whereabouts) : Whereabouts := { w with pose0 := p, predicted := p }

/-- `Vehicle.predict` with ideal prediction, vehicle.py:321-324: column `n_samp+delay` of the
trajectory `traj` stored before. -/
def predict (traj : ℕ → ℝ × ℝ) (n delay : ℕ) (w : Whereabouts) : Whereabouts :=
  { w with predicted := traj (n + delay) }

/-- `Vehicle.simulate` with ideal update, vehicle.py:359-370: columns `1:n_samp+1` are appended to the
signals (which begin with column 0). -/
def simulate (traj : ℕ → ℝ × ℝ) (n : ℕ) (w : Whereabouts) : Whereabouts := { w with simulated := some (traj n) }

/-- The position from which `splines2signals` integrates: dubins.py:278-283, bicycle.py:297-305,
agv.py:251-258. -/
def start (w : Whereabouts) : ℝ × ℝ := w.simulated.getD w.pose0

end Whereabouts

/-- State `x, y, theta, delta` and speed of a vehicle with steered wheels. -/
structure Steered where
  x : ℝ
  y : ℝ
  theta : ℝ
  delta : ℝ
  V : ℝ

/-- `Bicycle` (`σ = 1`): `set_parameters` (bicycle.py:234-257) and `get_initial_constraints` (139-173);
`AGV` (`σ = -1`): agv.py:201-224, 111-145.  At low speed the speed and turn rate are set to zero and the
steering angle is imposed by l'Hopital's rule. -/
noncomputable def SteerInit (σ L : ℝ) (v tg : BSpline ℝ) (p : Steered) (T τ : ℝ) : Prop :=
  let tg0 := Real.tan (p.theta / 2)
  let v0 := p.V / (1 + tg0 ^ 2)
  if v0 ≤ 1e-4 then
    MeetsInit [(v, 0), (tg, tg0), (tg.derivative 1, T * 0)] τ ∧
    σ * 2 * (tg.derivative 2).eval τ * L - Real.tan p.delta * ((v.derivative 1).eval τ * (1 + tg0 ^ 2) ^ 2) * T = 0
  else MeetsInit [(v, v0), (tg, tg0),
    (tg.derivative 1, T * (σ * Real.tan p.delta * v0 * (1 + tg0 ^ 2) ^ 2 / (2 * L)))] τ

/-- `splines2signals`, bicycle.py:288-341, agv.py:242-292: sample `k` of the `n` instants `time`, without
the steering rate; splines in physical time, `x0`, `y0` the position at the first instant. -/
noncomputable def steerSignals (σ L : ℝ) (v tg dx dy : BSpline ℝ) (x0 y0 : ℝ) (time : ℕ → ℝ) (n k : ℕ) : Steered where
  x := (integrateOnce dx x0 (time 0) 1).eval (time k)
  y := (integrateOnce dy y0 (time 0) 1).eval (time k)
  theta := 2 * arctan2 (tg.eval (time k)) 1
  delta := storedDelta σ L (fun j => steerSample v tg (time j)) n k
  V := v.eval (time k) * (1 + tg.eval (time k) ^ 2)

/-- What `Quadrotor` predicts: `state[:2]`, `state[2:4]`, `state[4]`, `'dspl'` and `'ddspl'`. -/
structure QuadPred where
  pos : ℝ × ℝ
  vel : ℝ × ℝ
  theta : ℝ
  dspl : ℝ × ℝ
  ddspl : ℝ × ℝ

/-- `Quadrotor`: `get_initial_constraints` (quadrotor.py:64-75) with the parameters of `set_parameters`
(112-118). -/
noncomputable def quadInit (x y : BSpline ℝ) (p : QuadPred) (T : ℝ) : List (BSpline ℝ × ℝ) :=
  [(x, p.pos.1), (y, p.pos.2), (x.derivative 1, T * p.dspl.1), (y.derivative 1, T * p.dspl.2),
   (x.derivative 2, T ^ 2 * p.ddspl.1), (y.derivative 2, T ^ 2 * p.ddspl.2)]

/-- The signals of `Quadrotor.splines2signals` that are predicted, quadrotor.py:124-144. -/
noncomputable def quadFull (x y : BSpline ℝ) (t : ℝ) : QuadPred where
  pos := (x.eval t, y.eval t)
  vel := ((x.derivative 1).eval t, (y.derivative 1).eval t)
  theta := (quadSignals x y t).theta
  dspl := ((x.derivative 1).eval t, (y.derivative 1).eval t)
  ddspl := ((x.derivative 2).eval t, (y.derivative 2).eval t)

/-- `Quadrotor.set_initial_conditions`, quadrotor.py:86-89: only the position of the given state is kept. -/
noncomputable def QuadPred.initial (pos vel : ℝ × ℝ) (theta : ℝ) : QuadPred :=
  let _ := (vel, theta)
  ⟨pos, (0, 0), 0, (0, 0), (0, 0)⟩

/-- `Quadrotor3D`: `get_initial_constraints` (quadrotor3d.py:135-149; the rates are commented out) with the
parameters of `set_parameters` (208-214). -/
noncomputable def quad3Init (f qp qt : BSpline ℝ) (p : Quad3) : List (BSpline ℝ × ℝ) :=
  let p0 := Real.tan (p.phi / 2)
  let t0 := Real.tan (p.theta / 2)
  [(f, p.u1 / ((1 + p0 ^ 2) * (1 + t0 ^ 2))), (qp, p0), (qt, t0)]

/-- The predicted position and velocity, from which `splines2signals` integrates, quadrotor3d.py:262-264. -/
def Quad3.start (p : Quad3) : Start3 := ⟨p.x, p.y, p.z, p.dx, p.dy, p.dz⟩

/-- State and thrust of `SimpleQuadrotor3D`. -/
structure Simple3 where
  pos : Fin 3 → ℝ
  vel : Fin 3 → ℝ
  phi : ℝ
  theta : ℝ
  u1 : ℝ

/-- The initial accelerations, quadrotor3d_simple.py:150-156. -/
noncomputable def Simple3.acc (p : Simple3) : Fin 3 → ℝ :=
  ![p.u1 * Real.cos p.phi * Real.sin p.theta, -p.u1 * Real.sin p.phi,
    p.u1 * Real.cos p.phi * Real.cos p.theta - quadG]

/-- `SimpleQuadrotor3D`: `get_initial_constraints` (quadrotor3d_simple.py:95-106) with the parameters of
`set_parameters` (147-159). -/
noncomputable def simpleInit (x : Fin 3 → BSpline ℝ) (p : Simple3) (T : ℝ) : List (BSpline ℝ × ℝ) :=
  List.ofFn (fun i => (x i, p.pos i)) ++ List.ofFn (fun i => ((x i).derivative 1, T * p.vel i))
  ++ List.ofFn (fun i => ((x i).derivative 2, T ^ 2 * p.acc i))

/-- `SimpleQuadrotor3D.splines2signals`, quadrotor3d_simple.py:167-192, without the rates. -/
noncomputable def simpleFull (x : Fin 3 → BSpline ℝ) (t : ℝ) : Simple3 where
  pos i := (x i).eval t
  vel i := ((x i).derivative 1).eval t
  phi := (simpleSignals (x 0) (x 1) (x 2) t).phi
  theta := (simpleSignals (x 0) (x 1) (x 2) t).theta
  u1 := (simpleSignals (x 0) (x 1) (x 2) t).u1

/-- The angle of a trailer: the pair that `define_init_constraints` uses of the constraint of
`Trailer.get_initial_constraints` (trailer.py:68-78 returns one tuple of four entries, of which
`con[0], con[1]` are used) with the parameter of `set_parameters` (153). -/
noncomputable def trailerInit (tt : BSpline ℝ) (theta : ℝ) : List (BSpline ℝ × ℝ) := [(tt, Real.tan (theta / 2))]

/-- The state that `Trailer.set_initial_conditions` makes, trailer.py:97-111: the position of the trailer is
left at zero. -/
noncomputable def trailerInitial (theta : ℝ) (veh : Unicycle) : TrailerState := ⟨0, 0, theta, veh.x, veh.y, veh.theta⟩

/-! ## Lemmas -/

theorem Traj.sig0 {s : BSpline ℝ} {n : ℕ} {T : ℝ} (h : Traj s n) (hT : 0 < T) (t : ℝ) :
    (s.scale T 0).eval t = s.eval (t / T) := scaled_eval h hT t

theorem Traj.sig1 {s : BSpline ℝ} {n : ℕ} {T : ℝ} (h : Traj s (n + 1)) (hT : 0 < T) (t : ℝ) :
    ((s.scale T 0).derivative 1).eval t = (s.derivative 1).eval (t / T) / T := by
  have := (h.mono (show 1 ≤ n + 1 by omega)).signal hT t
  rwa [pow_one] at this

theorem Traj.sig2 {s : BSpline ℝ} {n : ℕ} {T : ℝ} (h : Traj s (n + 2)) (hT : 0 < T) (t : ℝ) :
    ((s.scale T 0).derivative 2).eval t = (s.derivative 2).eval (t / T) / T ^ 2 :=
  (h.mono (show 2 ≤ n + 2 by omega)).signal hT t

/-- The half angle gives the angle back. -/
theorem angle_back {θ : ℝ} (h0 : -Real.pi < θ) (h1 : θ < Real.pi) : 2 * arctan2 (Real.tan (θ / 2)) 1 = θ := by
  rw [arctan2_one, Real.arctan_tan (by linarith) (by linarith)]; ring

theorem one_add_sq_ne (q : ℝ) : 1 + q ^ 2 ≠ 0 := by positivity

/-- Sampled angle and rate of a tangent half angle spline. -/
theorem half_angle {tg : BSpline ℝ} {T t0 θ ω : ℝ} (ht : Traj tg 1) (hT : 0 < T) (h0 : -Real.pi < θ)
    (h1 : θ < Real.pi) (e0 : tg.eval (t0 / T) = Real.tan (θ / 2))
    (e1 : (tg.derivative 1).eval (t0 / T) = T * (1 / 2 * ω * (1 + Real.tan (θ / 2) ^ 2))) :
    2 * arctan2 ((tg.scale T 0).eval t0) 1 = θ ∧
    2 * ((tg.scale T 0).derivative 1).eval t0 / (1 + (tg.scale T 0).eval t0 ^ 2) = ω := by
  rw [ht.sig0 hT, Traj.sig1 (n := 0) ht hT, e0, e1]
  refine ⟨angle_back h0 h1, ?_⟩
  have := one_add_sq_ne (Real.tan (θ / 2))
  have := hT.ne'
  field_simp

/-- Integration in physical time starts at the given position. -/
theorem integrate_start {dx : BSpline ℝ} {T t0 x0 : ℝ} (h : TrajOn dx 0 T 0) (a0 : 0 ≤ t0) (a1 : t0 ≤ T) :
    (integrateOnce dx x0 t0 1).eval t0 = x0 := by
  have := (C17_integrate_once dx 0 T h 1 one_pos x0 t0 (by simpa using a0) (by simpa using a1)).1
  simpa using this

theorem dxE_traj {v tg dx dy : BSpline ℝ} {T : ℝ} {n m : ℕ} (hv : Traj v n) (ht : Traj tg m) (hT : 0 < T)
    (rx : (dxE (v.scale T 0) (tg.scale T 0)).Runs (.spl dx))
    (ry : (dyE (v.scale T 0) (tg.scale T 0)).Runs (.spl dy)) : TrajOn dx 0 T 0 ∧ TrajOn dy 0 T 0 := by
  have a := (hv.mono (Nat.zero_le n)).scaled hT
  have b := (ht.mono (Nat.zero_le m)).scaled hT
  exact ⟨(runs_spl (n := 0) rx ⟨a, trivial, b, b⟩).1, (runs_spl (n := 0) ry ⟨a, trivial, b⟩).1⟩

/-! ## Properties -/

/-- **C122** (holonomic vehicles on a line, in the plane and in space) the first sample of a motion that
meets the initial constraints is the predicted state, with the predicted velocity. -/
theorem C122_holonomic {n : ℕ} (x : Fin n → BSpline ℝ) (hx : ∀ i, Traj (x i) 1) (p : Holo n) (T : ℝ) (hT : 0 < T)
    (t0 : ℝ) (h : MeetsInit (holoInit x p T) (t0 / T)) :
    (holoSignals (fun i => (x i).scale T 0) t0).state = p.state ∧
    (holoSignals (fun i => (x i).scale T 0) t0).input = p.input := by
  have a : ∀ i, (x i).eval (t0 / T) = p.state i := fun i =>
    h (x i, p.state i) (List.mem_append_left _ ((List.mem_ofFn' _ _).2 ⟨i, rfl⟩))
  have b : ∀ i, ((x i).derivative 1).eval (t0 / T) = T * p.input i := fun i =>
    h ((x i).derivative 1, T * p.input i) (List.mem_append_right _ ((List.mem_ofFn' _ _).2 ⟨i, rfl⟩))
  refine ⟨funext fun i => ?_, funext fun i => ?_⟩
  · exact ((hx i).sig0 hT t0).trans (a i)
  · refine (Traj.sig1 (n := 0) (hx i) hT t0).trans ?_
    rw [b i]; field_simp

/-- **C122** (tool of a machine) and the predicted acceleration. -/
theorem C122_tool (x : Fin 3 → BSpline ℝ) (hx : ∀ i, Traj (x i) 2) (p : Holo 3) (T : ℝ) (hT : 0 < T)
    (t0 : ℝ) (h : MeetsInit (toolInit x p T) (t0 / T)) : holoSignals (fun i => (x i).scale T 0) t0 = p := by
  obtain ⟨a, b⟩ := C122_holonomic x (fun i => (hx i).mono (by norm_num)) p T hT t0
    (fun c hc => h c (List.mem_append_left _ hc))
  have c : ∀ i, ((x i).derivative 2).eval (t0 / T) = T ^ 2 * p.dinput i := fun i =>
    h ((x i).derivative 2, T ^ 2 * p.dinput i) (List.mem_append_right _ ((List.mem_ofFn' _ _).2 ⟨i, rfl⟩))
  have d : (holoSignals (fun i => (x i).scale T 0) t0).dinput = p.dinput := by
    funext i
    refine (Traj.sig2 (n := 0) (hx i) hT t0).trans ?_
    rw [c i]; field_simp
  cases p
  simp only at a b d
  rw [← a, ← b, ← d]

/-- **C122** (holonomic vehicle with orientation) for headings strictly between `-π` and `π`. -/
theorem C122_orient_partial (x y tg : BSpline ℝ) (hx : Traj x 1) (hy : Traj y 1) (ht : Traj tg 1) (p : Orient)
    (T : ℝ) (hT : 0 < T) (t0 : ℝ) (h0 : -Real.pi < p.theta) (h1 : p.theta < Real.pi)
    (h : MeetsInit (orientInit x y tg p T) (t0 / T)) :
    orientSignals (x.scale T 0) (y.scale T 0) (tg.scale T 0) t0 = p := by
  simp only [MeetsInit, orientInit, List.forall_mem_cons] at h
  obtain ⟨a1, a2, a3, a4, a5, a6, -⟩ := h
  obtain ⟨b1, b2⟩ := half_angle ht hT h0 h1 a3 a6
  have e1 := Traj.sig1 (n := 0) hx hT t0
  have e2 := Traj.sig1 (n := 0) hy hT t0
  rw [a4, mul_div_cancel_left₀ _ hT.ne'] at e1
  rw [a5, mul_div_cancel_left₀ _ hT.ne'] at e2
  cases p
  simp only [orientSignals, Orient.mk.injEq]
  exact ⟨(hx.sig0 hT t0).trans a1, (hy.sig0 hT t0).trans a2, b1, e1, e2, b2⟩

/-- **C122** fails for a heading beyond half a turn (as integrated or measured by a machine that goes
round): the motion starts with the heading one turn less, away from the predicted state and from a goal
given beyond half a turn. -/
theorem C122_turn_violated (x y tg : BSpline ℝ) (hx : Traj x 1) (hy : Traj y 1) (ht : Traj tg 1) (p : Orient)
    (T : ℝ) (hT : 0 < T) (t0 : ℝ) (h0 : Real.pi < p.theta) (h1 : p.theta < 3 * Real.pi)
    (h : MeetsInit (orientInit x y tg p T) (t0 / T)) :
    orientSignals (x.scale T 0) (y.scale T 0) (tg.scale T 0) t0 = { p with theta := p.theta - 2 * Real.pi } := by
  refine C122_orient_partial x y tg hx hy ht _ T hT t0 (by simp only; linarith) (by simp only; linarith) ?_
  have e : Real.tan ((p.theta - 2 * Real.pi) / 2) = Real.tan (p.theta / 2) := by
    rw [sub_div, mul_div_cancel_left₀ _ two_ne_zero, Real.tan_sub_pi]
  simpa only [orientInit, e] using h

/-- **C122** (differential drive) if the vehicle integrates from the predicted position, the first sample
is the predicted state and input. -/
theorem C122_dubins_partial (v tg dx dy : BSpline ℝ) (hv : Traj v 0) (ht : Traj tg 1) (p : Unicycle)
    (T : ℝ) (hT : 0 < T) (t0 : ℝ) (a0 : 0 ≤ t0) (a1 : t0 ≤ T) (h0 : -Real.pi < p.theta) (h1 : p.theta < Real.pi)
    (w : Whereabouts) (hw : w.start = (p.x, p.y)) (h : MeetsInit (dubinsInit v tg p T) (t0 / T))
    (rx : (dxE (v.scale T 0) (tg.scale T 0)).Runs (.spl dx))
    (ry : (dyE (v.scale T 0) (tg.scale T 0)).Runs (.spl dy)) :
    dubinsSignals (v.scale T 0) (tg.scale T 0) dx dy w.start.1 w.start.2 t0 t0 = p := by
  simp only [MeetsInit, dubinsInit, List.forall_mem_cons] at h
  obtain ⟨e1, e2, e3, -⟩ := h
  obtain ⟨b1, b2⟩ := half_angle ht hT h0 h1 e2 e3
  obtain ⟨i1, i2⟩ := dxE_traj hv ht hT rx ry
  rw [hw]
  cases p
  simp only [dubinsSignals, Unicycle.mk.injEq]
  refine ⟨integrate_start i1 a0 a1, integrate_start i2 a0 a1, b1, ?_, b2⟩
  rw [hv.sig0 hT, ht.sig0 hT, e1, e2]
  exact div_mul_cancel₀ _ (one_add_sq_ne _)

/-- **C122** the position from which a differential drive, bicycle or AGV integrates is the predicted one:
at the first update, and at every later update that follows a simulation of the same trajectory over the
same number of samples. -/
theorem C122_start_partial (w : Whereabouts) (p : ℝ × ℝ) (traj : ℕ → ℝ × ℝ) (n : ℕ) :
    (w.simulated = none → (w.setInitial p).start = (w.setInitial p).predicted) ∧
    ((w.simulate traj n).predict traj n 0).start = ((w.simulate traj n).predict traj n 0).predicted := by
  refine ⟨fun h => ?_, rfl⟩
  show (Option.getD w.simulated p) = p
  rw [h]; rfl

/-- **C122** fails for a differential drive, bicycle or AGV that is deployed on a real machine (never
simulated): every motion starts in the position given at the very beginning, wherever the vehicle is
predicted to be. -/
theorem C122_deployed_violated (w : Whereabouts) (h : w.simulated = none) (p : ℝ × ℝ)
    (updates : List ((ℕ → ℝ × ℝ) × ℕ × ℕ)) :
    (updates.foldl (fun w u => w.predict u.1 u.2.1 u.2.2) (w.setInitial p)).start = p := by
  have key : ∀ (us : List ((ℕ → ℝ × ℝ) × ℕ × ℕ)) (w : Whereabouts), w.simulated = none →
      (us.foldl (fun w u => w.predict u.1 u.2.1 u.2.2) w).start = w.pose0 := by
    intro us
    induction us with
    | nil => intro w hw; show w.simulated.getD w.pose0 = _; rw [hw]; rfl
    | cons u us ih =>
      intro w hw
      rw [List.foldl_cons, ih _ (by exact hw)]
      rfl
  exact key updates _ (by exact h)

/-- **C122** fails for these vehicles when a new initial condition is given after a simulation: the motion
starts where the last simulation ended. -/
theorem C122_restart_violated (w : Whereabouts) (p q : ℝ × ℝ) (h : w.simulated = some q) :
    (w.setInitial p).start = q ∧ (w.setInitial p).predicted = p := by
  refine ⟨?_, rfl⟩
  show w.simulated.getD p = q
  rw [h]; rfl

/-- **C122** fails for these vehicles when the update comes late: the motion starts `delay` samples before
the predicted position. -/
theorem C122_delay_violated (w : Whereabouts) (traj : ℕ → ℝ × ℝ) (n delay : ℕ) :
    ((w.simulate traj n).predict traj n delay).start = traj n ∧
    ((w.simulate traj n).predict traj n delay).predicted = traj (n + delay) := ⟨rfl, rfl⟩

/-- **C122** (bicycle `σ = 1`, AGV `σ = -1`) at speed, for headings strictly between `-π` and `π` and
steering angles strictly between `-π/2` and `π/2`, if the vehicle integrates from the predicted position. -/
theorem C122_steer_partial (σ L : ℝ) (hσ : σ = 1 ∨ σ = -1) (hL : 0 < L) (v tg dx dy : BSpline ℝ) (hv : Traj v 1)
    (ht : Traj tg 1) (hd : 2 ≤ tg.basis.degree) (p : Steered) (T : ℝ) (hT : 0 < T) (time : ℕ → ℝ) (n : ℕ)
    (a0 : 0 ≤ time 0) (a1 : time 0 ≤ T) (h0 : -Real.pi < p.theta) (h1 : p.theta < Real.pi)
    (d0 : -(Real.pi / 2) < p.delta) (d1 : p.delta < Real.pi / 2)
    (fast : 1e-4 < p.V / (1 + Real.tan (p.theta / 2) ^ 2)) (w : Whereabouts) (hw : w.start = (p.x, p.y))
    (h : SteerInit σ L v tg p T (time 0 / T))
    (rx : (dxE (v.scale T 0) (tg.scale T 0)).Runs (.spl dx))
    (ry : (dyE (v.scale T 0) (tg.scale T 0)).Runs (.spl dy)) :
    steerSignals σ L (v.scale T 0) (tg.scale T 0) dx dy w.start.1 w.start.2 time n 0 = p := by
  unfold SteerInit at h
  simp only at h
  rw [if_neg (not_le.2 fast)] at h
  simp only [MeetsInit, List.forall_mem_cons] at h
  obtain ⟨e1, e2, e3, -⟩ := h
  obtain ⟨i1, i2⟩ := dxE_traj hv ht hT rx ry
  have hs := steerSample_eq hv ht hd hT (time 0)
  have hv0 : (0 : ℝ) < p.V / (1 + Real.tan (p.theta / 2) ^ 2) := lt_trans (by norm_num) fast
  have hD : (0 : ℝ) < (1 + Real.tan (p.theta / 2) ^ 2) ^ 2 := by positivity
  rw [hw]
  have ev : p.V / (1 + Real.tan (p.theta / 2) ^ 2) * (1 + Real.tan (p.theta / 2) ^ 2) = p.V :=
    div_mul_cancel₀ _ (one_add_sq_ne _)
  have edelta : storedDelta σ L (fun j => steerSample (v.scale T 0) (tg.scale T 0) (time j)) n 0 = p.delta := by
    unfold storedDelta
    rw [hs, if_neg (fun hc => absurd hc.1 (by rw [e1]; exact not_le.2 fast))]
    unfold rawDelta
    simp only
    rw [e1, e2, e3, arctan2_pos (mul_pos hv0 hD)]
    rw [show σ * 2 * (T * (σ * Real.tan p.delta * (p.V / (1 + Real.tan (p.theta / 2) ^ 2))
        * (1 + Real.tan (p.theta / 2) ^ 2) ^ 2 / (2 * L)) / T) * L
        / (p.V / (1 + Real.tan (p.theta / 2) ^ 2) * (1 + Real.tan (p.theta / 2) ^ 2) ^ 2) = σ ^ 2 * Real.tan p.delta by
      have := hv0.ne'
      have := hD.ne'
      generalize p.V / (1 + Real.tan (p.theta / 2) ^ 2) = v0 at *
      generalize (1 + Real.tan (p.theta / 2) ^ 2) ^ 2 = D at *
      have := hT.ne'
      have := hL.ne'
      field_simp]
    rw [show σ ^ 2 = 1 by rcases hσ with rfl | rfl <;> norm_num, one_mul]
    exact Real.arctan_tan d0 d1
  have etheta : 2 * arctan2 ((tg.scale T 0).eval (time 0)) 1 = p.theta := by
    rw [ht.sig0 hT, e2]; exact angle_back h0 h1
  have eV : (v.scale T 0).eval (time 0) * (1 + (tg.scale T 0).eval (time 0) ^ 2) = p.V := by
    rw [hv.sig0 hT, ht.sig0 hT, e1, e2]; exact ev
  cases p
  simp only [steerSignals, Steered.mk.injEq]
  exact ⟨integrate_start i1 a0 a1, integrate_start i2 a0 a1, etheta, edelta, eV⟩

/-- **C122** (bicycle, AGV) at standstill, the steering angle is kept if the vehicle speeds up. -/
theorem C122_standstill_partial (σ L : ℝ) (v tg : BSpline ℝ) (hv : Traj v 1)
    (ht : Traj tg 1) (hd : 2 ≤ tg.basis.degree) (p : Steered) (hV : p.V = 0) (T : ℝ) (hT : 0 < T) (time : ℕ → ℝ) (n : ℕ)
    (d0 : -(Real.pi / 2) < p.delta) (d1 : p.delta < Real.pi / 2)
    (h : SteerInit σ L v tg p T (time 0 / T)) (up : 0 < (v.derivative 1).eval (time 0 / T)) :
    storedDelta σ L (fun j => steerSample (v.scale T 0) (tg.scale T 0) (time j)) n 0 = p.delta := by
  unfold SteerInit at h
  simp only at h
  rw [if_pos (by rw [hV, zero_div]; norm_num)] at h
  obtain ⟨h, hop⟩ := h
  simp only [MeetsInit, List.forall_mem_cons] at h
  obtain ⟨e1, e2, e3, -⟩ := h
  have hs := steerSample_eq hv ht hd hT (time 0)
  have hD : (0 : ℝ) < (1 + Real.tan (p.theta / 2) ^ 2) ^ 2 := by positivity
  unfold storedDelta
  rw [hs, if_pos (by simp only; rw [e1, e3]; constructor <;> norm_num)]
  unfold hopDelta
  simp only
  rw [e2, arctan2_pos (mul_pos (div_pos up hT) hD)]
  have e4 : σ * 2 * (tg.derivative 2).eval (time 0 / T) * L
      = Real.tan p.delta * ((v.derivative 1).eval (time 0 / T) * (1 + Real.tan (p.theta / 2) ^ 2) ^ 2) * T := by
    linarith
  rw [show σ * 2 * ((tg.derivative 2).eval (time 0 / T) / T ^ 2) * L
      = σ * 2 * (tg.derivative 2).eval (time 0 / T) * L / T ^ 2 by ring, e4]
  rw [show Real.tan p.delta * ((v.derivative 1).eval (time 0 / T) * (1 + Real.tan (p.theta / 2) ^ 2) ^ 2) * T / T ^ 2
      / ((v.derivative 1).eval (time 0 / T) / T * (1 + Real.tan (p.theta / 2) ^ 2) ^ 2) = Real.tan p.delta by
    have := up.ne'
    have := hD.ne'
    have := hT.ne'
    generalize (1 + Real.tan (p.theta / 2) ^ 2) ^ 2 = D at *
    generalize (v.derivative 1).eval (time 0 / T) = a at *
    field_simp]
  exact Real.arctan_tan d0 d1

/-- **C122** fails for a bicycle or AGV at standstill that does not speed up at once: whatever its steering
angle, the planned motion starts with the wheel straight. -/
theorem C122_standstill_violated (σ L : ℝ) (v tg : BSpline ℝ) (hv : Traj v 1)
    (ht : Traj tg 1) (hd : 2 ≤ tg.basis.degree) (p : Steered) (hV : p.V = 0) (T : ℝ) (hT : 0 < T) (time : ℕ → ℝ) (n : ℕ)
    (h : SteerInit σ L v tg p T (time 0 / T)) (up : (v.derivative 1).eval (time 0 / T) = 0) :
    storedDelta σ L (fun j => steerSample (v.scale T 0) (tg.scale T 0) (time j)) n 0 = 0 := by
  unfold SteerInit at h
  simp only at h
  rw [if_pos (by rw [hV, zero_div]; norm_num)] at h
  obtain ⟨h, hop⟩ := h
  simp only [MeetsInit, List.forall_mem_cons] at h
  obtain ⟨e1, e2, e3, -⟩ := h
  have hs := steerSample_eq hv ht hd hT (time 0)
  unfold storedDelta
  rw [hs, if_pos (by simp only; rw [e1, e3]; constructor <;> norm_num)]
  unfold hopDelta
  simp only
  rw [up] at hop ⊢
  have e4 : σ * 2 * (tg.derivative 2).eval (time 0 / T) * L = 0 := by linarith
  rw [show σ * 2 * ((tg.derivative 2).eval (time 0 / T) / T ^ 2) * L
      = σ * 2 * (tg.derivative 2).eval (time 0 / T) * L / T ^ 2 by ring, e4, zero_div, zero_div, zero_mul]
  exact Complex.arg_zero

/-- **C122** fails for a bicycle or AGV that drives backwards, or slowly: the planned motion starts with
speed zero. -/
theorem C122_backwards_violated (σ L : ℝ) (v tg dx dy : BSpline ℝ) (hv : Traj v 1) (p : Steered) (T : ℝ)
    (hT : 0 < T) (time : ℕ → ℝ) (n : ℕ) (x0 y0 : ℝ) (slow : p.V ≤ 1e-4)
    (h : SteerInit σ L v tg p T (time 0 / T)) :
    (steerSignals σ L (v.scale T 0) (tg.scale T 0) dx dy x0 y0 time n 0).V = 0 := by
  have hs : p.V / (1 + Real.tan (p.theta / 2) ^ 2) ≤ 1e-4 := by
    rw [div_le_iff₀ (by positivity)]
    nlinarith [sq_nonneg (Real.tan (p.theta / 2))]
  unfold SteerInit at h
  simp only at h
  rw [if_pos hs] at h
  have e1 := h.1 _ List.mem_cons_self
  simp only at e1
  simp only [steerSignals]
  rw [hv.sig0 hT, e1, zero_mul]

/-- **C122** (quadrotor in the plane) if the predicted velocity and tilt agree with the predicted spline
derivatives, the first sample is the prediction. -/
theorem C122_quadrotor_partial (x y : BSpline ℝ) (hx : Traj x 2) (hy : Traj y 2) (p : QuadPred) (T : ℝ)
    (hT : 0 < T) (t0 : ℝ) (hv : p.vel = p.dspl) (hθ : p.theta = arctan2 p.ddspl.1 (p.ddspl.2 + quadG))
    (h : MeetsInit (quadInit x y p T) (t0 / T)) : quadFull (x.scale T 0) (y.scale T 0) t0 = p := by
  simp only [MeetsInit, quadInit, List.forall_mem_cons] at h
  obtain ⟨a1, a2, a3, a4, a5, a6, -⟩ := h
  have c1 := Traj.sig1 (n := 1) hx hT t0
  have c2 := Traj.sig1 (n := 1) hy hT t0
  have c3 := Traj.sig2 (n := 0) hx hT t0
  have c4 := Traj.sig2 (n := 0) hy hT t0
  have hT2 : T ^ 2 ≠ 0 := by positivity
  rw [a3, mul_div_cancel_left₀ _ hT.ne'] at c1
  rw [a4, mul_div_cancel_left₀ _ hT.ne'] at c2
  rw [a5, mul_div_cancel_left₀ _ hT2] at c3
  rw [a6, mul_div_cancel_left₀ _ hT2] at c4
  obtain ⟨⟨p1, p2⟩, vel, theta, ⟨d1, d2⟩, ⟨g1, g2⟩⟩ := p
  simp only at *
  simp only [quadFull, quadSignals, QuadPred.mk.injEq, Prod.mk.injEq]
  rw [hv, hθ, c1, c2, c3, c4, hx.sig0 hT, hy.sig0 hT, a1, a2]
  exact ⟨⟨rfl, rfl⟩, rfl, rfl, ⟨rfl, rfl⟩, rfl, rfl⟩

/-- **C122** fails for a quadrotor in the plane whose predicted velocity is not the planned one (as when the
state is integrated with the real input, or measured): the motion starts with the planned velocity. -/
theorem C122_quadrotor_violated (x y : BSpline ℝ) (hx : Traj x 2) (hy : Traj y 2) (p : QuadPred) (T : ℝ)
    (hT : 0 < T) (t0 : ℝ) (hv : p.vel ≠ p.dspl)
    (h : MeetsInit (quadInit x y p T) (t0 / T)) : (quadFull (x.scale T 0) (y.scale T 0) t0).vel ≠ p.vel := by
  simp only [MeetsInit, quadInit, List.forall_mem_cons] at h
  obtain ⟨a1, a2, a3, a4, a5, a6, -⟩ := h
  have c1 := Traj.sig1 (n := 1) hx hT t0
  have c2 := Traj.sig1 (n := 1) hy hT t0
  rw [a3, mul_div_cancel_left₀ _ hT.ne'] at c1
  rw [a4, mul_div_cancel_left₀ _ hT.ne'] at c2
  intro hc
  apply hv
  rw [← hc]
  simp only [quadFull]
  rw [c1, c2]

/-- **C122** fails for a quadrotor in the plane that is given an initial velocity: it is thrown away. -/
theorem C122_quadrotor_initial_violated (pos vel : ℝ × ℝ) (theta : ℝ) (h : vel ≠ (0, 0)) :
    (QuadPred.initial pos vel theta).vel ≠ vel := fun hc => h hc.symm

/-- **C122** (quadrotor in space) state and thrust, for angles strictly between `-π` and `π`. -/
theorem C122_quadrotor3d_partial (f qp qt ax ay az : BSpline ℝ) (hf : Traj f 0) (hp : Traj qp 1) (hq : Traj qt 1)
    (p : Quad3) (T : ℝ) (hT : 0 < T) (t0 : ℝ) (a0 : 0 ≤ t0) (a1 : t0 ≤ T)
    (p0 : -Real.pi < p.phi) (p1 : p.phi < Real.pi) (q0 : -Real.pi < p.theta) (q1 : p.theta < Real.pi)
    (rx : (ddxE (f.scale T 0) (qp.scale T 0) (qt.scale T 0)).Runs (.spl ax))
    (ry : (ddyE (f.scale T 0) (qp.scale T 0) (qt.scale T 0)).Runs (.spl ay))
    (rz : (ddzE (f.scale T 0) (qp.scale T 0) (qt.scale T 0)).Runs (.spl az))
    (h : MeetsInit (quad3Init f qp qt p) (t0 / T)) :
    let s := quad3Signals (f.scale T 0) (qp.scale T 0) (qt.scale T 0) ax ay az p.start t0 t0
    s.state = p.state ∧ s.u1 = p.u1 := by
  simp only [MeetsInit, quad3Init, List.forall_mem_cons] at h
  obtain ⟨e1, e2, e3, -⟩ := h
  have sf := hf.scaled hT
  have sp := (hp.mono (Nat.zero_le 1)).scaled hT
  have sq := (hq.mono (Nat.zero_le 1)).scaled hT
  have i1 := (runs_spl (n := 0) rx (by simp only [ddxE, Expr.sub, Expr.sq, AllTraj]; exact ⟨⟨sf, trivial, sp, sp⟩, trivial, sq⟩)).1
  have i2 := (runs_spl (n := 0) ry (by simp only [ddyE, AllTraj]; exact ⟨⟨sf, trivial, sq, sq⟩, trivial, sp⟩)).1
  have i3 := (runs_spl (n := 0) rz (by simp only [ddzE, Expr.sub, Expr.sq, AllTraj]; exact ⟨⟨⟨sf, trivial, sp, sp⟩, trivial, sq, sq⟩, trivial⟩)).1
  have b0 : (0 : ℝ) ≤ t0 / 1 := by simpa using a0
  have b1 : t0 / 1 ≤ T := by simpa using a1
  have j1 := C17_integrate_twice ax 0 T i1 1 one_pos p.dx p.x t0 b0 b1
  have j2 := C17_integrate_twice ay 0 T i2 1 one_pos p.dy p.y t0 b0 b1
  have j3 := C17_integrate_twice az 0 T i3 1 one_pos p.dz p.z t0 b0 b1
  rw [div_one] at j1 j2 j3
  have ef := hf.sig0 hT t0
  have ep := hp.sig0 hT t0
  have eq := hq.sig0 hT t0
  rw [e1] at ef
  rw [e2] at ep
  rw [e3] at eq
  refine ⟨?_, ?_⟩
  · simp only [Quad3.state, quad3Signals, Quad3.start]
    rw [j1.1, j1.2.1, j2.1, j2.2.1, j3.1, j3.2.1, ep, eq, angle_back p0 p1, angle_back q0 q1]
  · simp only [quad3Signals]
    rw [ef, ep, eq]
    have := one_add_sq_ne (Real.tan (p.phi / 2))
    have := one_add_sq_ne (Real.tan (p.theta / 2))
    field_simp

/-- **C122** fails for the rates of a quadrotor in space: a plan that meets the initial constraints of a
prediction meets them for any other predicted rates, so it starts with rates other than the predicted ones. -/
theorem C122_rates_violated (f qp qt ax ay az : BSpline ℝ) (p : Quad3) (T t0 u2 u3 : ℝ)
    (h : MeetsInit (quad3Init f qp qt p) (t0 / T))
    (hu : (quad3Signals (f.scale T 0) (qp.scale T 0) (qt.scale T 0) ax ay az p.start t0 t0).u2 ≠ u2) :
    let p' : Quad3 := { p with u2 := u2, u3 := u3 }
    MeetsInit (quad3Init f qp qt p') (t0 / T) ∧
    (quad3Signals (f.scale T 0) (qp.scale T 0) (qt.scale T 0) ax ay az p'.start t0 t0).u2 ≠ p'.u2 := ⟨h, hu⟩

/-- **C122** (simple quadrotor in space) state and thrust, for positive thrust, roll strictly between `-π/2`
and `π/2` and pitch strictly between `-π` and `π`. -/
theorem C122_simple_partial (x : Fin 3 → BSpline ℝ) (hx : ∀ i, Traj (x i) 2) (p : Simple3) (T : ℝ) (hT : 0 < T)
    (t0 : ℝ) (hu : 0 < p.u1) (p0 : -(Real.pi / 2) < p.phi) (p1 : p.phi < Real.pi / 2) (q0 : -Real.pi < p.theta)
    (q1 : p.theta < Real.pi) (h : MeetsInit (simpleInit x p T) (t0 / T)) :
    simpleFull (fun i => (x i).scale T 0) t0 = p := by
  have a : ∀ i, (x i).eval (t0 / T) = p.pos i := fun i =>
    h (x i, p.pos i) (List.mem_append_left _ (List.mem_append_left _ ((List.mem_ofFn' _ _).2 ⟨i, rfl⟩)))
  have b : ∀ i, ((x i).derivative 1).eval (t0 / T) = T * p.vel i := fun i =>
    h ((x i).derivative 1, T * p.vel i) (List.mem_append_left _ (List.mem_append_right _ ((List.mem_ofFn' _ _).2 ⟨i, rfl⟩)))
  have c : ∀ i, ((x i).derivative 2).eval (t0 / T) = T ^ 2 * p.acc i := fun i =>
    h ((x i).derivative 2, T ^ 2 * p.acc i) (List.mem_append_right _ ((List.mem_ofFn' _ _).2 ⟨i, rfl⟩))
  have hT2 : T ^ 2 ≠ 0 := by positivity
  have a' : ∀ i, ((x i).scale T 0).eval t0 = p.pos i := fun i => ((hx i).sig0 hT t0).trans (a i)
  have b' : ∀ i, (((x i).scale T 0).derivative 1).eval t0 = p.vel i := fun i => by
    rw [Traj.sig1 (n := 1) (hx i) hT, b i, mul_div_cancel_left₀ _ hT.ne']
  have c' : ∀ i, (((x i).scale T 0).derivative 2).eval t0 = p.acc i := fun i => by
    rw [Traj.sig2 (n := 0) (hx i) hT, c i, mul_div_cancel_left₀ _ hT2]
  have hcos : 0 < Real.cos p.phi := Real.cos_pos_of_mem_Ioo ⟨p0, p1⟩
  have hk : 0 < p.u1 * Real.cos p.phi := mul_pos hu hcos
  have hcs := Real.sin_sq_add_cos_sq p.theta
  have hcs' := Real.sin_sq_add_cos_sq p.phi
  have ex : p.acc 0 = p.u1 * Real.cos p.phi * Real.sin p.theta := rfl
  have ey : p.acc 1 = -p.u1 * Real.sin p.phi := rfl
  have ez : p.acc 2 + quadG = p.u1 * Real.cos p.phi * Real.cos p.theta := by
    show p.u1 * Real.cos p.phi * Real.cos p.theta - quadG + quadG = _
    ring
  have er : Real.sqrt ((p.u1 * Real.cos p.phi * Real.sin p.theta) ^ 2 + (p.u1 * Real.cos p.phi * Real.cos p.theta) ^ 2)
      = p.u1 * Real.cos p.phi := by
    rw [show (p.u1 * Real.cos p.phi * Real.sin p.theta) ^ 2 + (p.u1 * Real.cos p.phi * Real.cos p.theta) ^ 2
        = (p.u1 * Real.cos p.phi) ^ 2 * (Real.sin p.theta ^ 2 + Real.cos p.theta ^ 2) by ring, hcs, mul_one]
    exact Real.sqrt_sq hk.le
  have et : simpleSignals ((x 0).scale T 0) ((x 1).scale T 0) ((x 2).scale T 0) t0
      = simpleSignal (p.acc 0) (p.acc 1) (p.acc 2 + quadG)
        ((((x 0).scale T 0).derivative 3).eval t0) ((((x 1).scale T 0).derivative 3).eval t0)
        ((((x 2).scale T 0).derivative 3).eval t0) := by
    unfold simpleSignals
    rw [c' 0, c' 1, c' 2]
  have ephi : (simpleSignals ((x 0).scale T 0) ((x 1).scale T 0) ((x 2).scale T 0) t0).phi = p.phi := by
    rw [et]
    simp only [simpleSignal]
    rw [ex, ey, ez, er, arctan2_pos hk]
    rw [show -(-p.u1 * Real.sin p.phi) / (p.u1 * Real.cos p.phi) = Real.tan p.phi by
      rw [Real.tan_eq_sin_div_cos]; field_simp]
    exact Real.arctan_tan p0 p1
  have etheta : (simpleSignals ((x 0).scale T 0) ((x 1).scale T 0) ((x 2).scale T 0) t0).theta = p.theta := by
    rw [et]
    simp only [simpleSignal]
    rw [ex, ez]
    have := Complex.arg_mul_cos_add_sin_mul_I hk (θ := p.theta) ⟨q0, q1.le⟩
    unfold arctan2
    convert this using 2
    apply Complex.ext <;> simp [Complex.cos_ofReal_re, Complex.sin_ofReal_re, Complex.cos_ofReal_im, Complex.sin_ofReal_im]
  have eu : (simpleSignals ((x 0).scale T 0) ((x 1).scale T 0) ((x 2).scale T 0) t0).u1 = p.u1 := by
    rw [et]
    simp only [simpleSignal]
    rw [ex, ey, ez]
    rw [show (p.u1 * Real.cos p.phi * Real.sin p.theta) ^ 2 + (-p.u1 * Real.sin p.phi) ^ 2
        + (p.u1 * Real.cos p.phi * Real.cos p.theta) ^ 2
        = p.u1 ^ 2 * (Real.cos p.phi ^ 2 * (Real.sin p.theta ^ 2 + Real.cos p.theta ^ 2) + Real.sin p.phi ^ 2) by ring,
      hcs, mul_one, add_comm, hcs', mul_one]
    exact Real.sqrt_sq hu.le
  cases p
  simp only [simpleFull, Simple3.mk.injEq]
  exact ⟨funext a', funext b', ephi, etheta, eu⟩

/-- **C122** (trailer) the angle of the trailer, for angles strictly between `-π` and `π`. -/
theorem C122_trailer_partial (l : ℝ) (tt : BSpline ℝ) (ht : Traj tt 0) (veh : Unicycle) (theta T : ℝ) (hT : 0 < T)
    (t0 : ℝ) (h0 : -Real.pi < theta) (h1 : theta < Real.pi) (h : MeetsInit (trailerInit tt theta) (t0 / T)) :
    (trailerSignals l (tt.scale T 0) veh t0).th = theta := by
  have e := h _ List.mem_cons_self
  simp only at e
  show 2 * arctan2 ((tt.scale T 0).eval t0) 1 = theta
  rw [ht.sig0 hT, e]
  exact angle_back h0 h1

/-- **C122** fails for the position of a trailer: unless the vehicle happens to stand at `(l cos θ, l sin θ)`,
the first sample differs from the initial state, in which the trailer is at the origin. -/
theorem C122_trailer_violated (l : ℝ) (tt : BSpline ℝ) (ht : Traj tt 0) (veh : Unicycle) (theta T : ℝ) (hT : 0 < T)
    (t0 : ℝ) (h0 : -Real.pi < theta) (h1 : theta < Real.pi) (h : MeetsInit (trailerInit tt theta) (t0 / T)) :
    trailerSignals l (tt.scale T 0) veh t0 = trailerInitial theta veh ↔
      veh.x = l * Real.cos theta ∧ veh.y = l * Real.sin theta := by
  have e := C122_trailer_partial l tt ht veh theta T hT t0 h0 h1 h
  simp only [trailerSignals] at e
  simp only [trailerSignals, trailerInitial, TrailerState.mk.injEq]
  rw [e, sub_eq_zero, sub_eq_zero]
  simp

/-! ## Cases -/

theorem ev1 {a b x : ℝ} (h0 : 0 ≤ x) (h1 : x ≤ 1) : (⟨Bz 1, [a, b]⟩ : BSpline ℝ).eval x = a * (1 - x) + b * x := by
  rw [Bz_eval rfl h0 h1]; simp [Finset.sum_range_succ, bern]

theorem ev0 {a x : ℝ} (h0 : 0 ≤ x) (h1 : x ≤ 1) : (⟨Bz 0, [a]⟩ : BSpline ℝ).eval x = a := by
  rw [Bz_eval rfl h0 h1]; simp [bern]

theorem cub_q : cub.eval (1 / 4) = 5 / 32 ∧ (cub.derivative 1).eval (1 / 4) = 9 / 8 ∧
    (cub.derivative 2).eval (1 / 4) = 3 := by
  refine ⟨?_, ?_, ?_⟩
  · rw [cub, Bz_eval rfl (by norm_num) (by norm_num)]; simp [Finset.sum_range_succ, bern, Nat.choose]; norm_num
  · rw [cub_d1, Bz_eval rfl (by norm_num) (by norm_num)]; simp [Finset.sum_range_succ, bern, Nat.choose]; norm_num
  · rw [cub_d2, ev1 (by norm_num) (by norm_num)]; norm_num

/-- A tool on its way, 2.5 s into a motion of 10 s; the same motion for a holonomic vehicle. -/
example : holoSignals (fun _ : Fin 3 => cub.scale 10 0) (5 / 2) = ⟨fun _ => 5 / 32, fun _ => 9 / 80, fun _ => 3 / 100⟩ ∧
    (holoSignals (fun _ : Fin 2 => cub.scale 10 0) (5 / 2)).input = fun _ => 9 / 80 := by
  obtain ⟨a, b, c⟩ := cub_q
  refine ⟨C122_tool (fun _ => cub) (fun _ => cub_traj.mono (by omega)) _ 10 (by norm_num) (5 / 2) ?_,
    (C122_holonomic (fun _ => cub) (fun _ => cub_traj.mono (by omega)) ⟨fun _ => 5 / 32, fun _ => 9 / 80, fun _ => 0⟩ 10
      (by norm_num) (5 / 2) ?_).2⟩
  · intro d hd
    simp only [toolInit, holoInit, List.mem_append, List.mem_ofFn', Set.mem_range, exists_const] at hd
    rcases hd with (rfl | rfl) | rfl <;> simp only <;> norm_num [a, b, c]
  · intro d hd
    simp only [holoInit, List.mem_append, List.mem_ofFn', Set.mem_range, exists_const] at hd
    rcases hd with rfl | rfl <;> simp only <;> norm_num [a, b]

theorem tan_half (q : ℝ) : Real.tan (2 * Real.arctan q / 2) = q := by
  rw [mul_div_cancel_left₀ _ two_ne_zero, Real.tan_arctan]

theorem angle_lt (q : ℝ) : -Real.pi < 2 * Real.arctan q ∧ 2 * Real.arctan q < Real.pi :=
  ⟨by linarith [Real.neg_pi_div_two_lt_arctan q], by linarith [Real.arctan_lt_pi_div_two q]⟩

/-- A holonomic vehicle that moves and turns. -/
example : orientSignals (cub.scale 10 0) (cub.scale 10 0) (exTg.scale 10 0) (5 / 2)
    = ⟨5 / 32, 5 / 32, 2 * Real.arctan (1 / 40), 9 / 80, 9 / 80, 2 / 100 / (1 + (1 / 40) ^ 2)⟩ := by
  obtain ⟨a, b, c⟩ := cub_q
  refine C122_orient_partial cub cub exTg (cub_traj.mono (by omega)) (cub_traj.mono (by omega)) exTg_traj _ 10
    (by norm_num) _ (angle_lt _).1 (angle_lt _).2 ?_
  simp only [MeetsInit, orientInit, List.forall_mem_cons, tan_half, exTg_d1]
  rw [show (5 / 2 / 10 : ℝ) = 1 / 4 by norm_num, a, b, ev0 (by norm_num) (by norm_num), exTg,
    ev1 (by norm_num) (by norm_num)]
  norm_num

/-- The same vehicle after one turn to the left. -/
example : (orientSignals (cub.scale 10 0) (cub.scale 10 0) (exTg.scale 10 0) (5 / 2)).theta
    ≠ 2 * Real.arctan (1 / 40) + 2 * Real.pi := by
  obtain ⟨a, b, c⟩ := cub_q
  have hpi := Real.pi_pos
  have e : Real.tan ((2 * Real.arctan (1 / 40) + 2 * Real.pi) / 2) = 1 / 40 := by
    rw [add_div, mul_div_cancel_left₀ _ two_ne_zero, mul_div_cancel_left₀ _ two_ne_zero, Real.tan_add_pi, Real.tan_arctan]
  have := C122_turn_violated cub cub exTg (cub_traj.mono (by omega)) (cub_traj.mono (by omega)) exTg_traj
    ⟨5 / 32, 5 / 32, 2 * Real.arctan (1 / 40) + 2 * Real.pi, 9 / 80, 9 / 80, 2 / 100 / (1 + (1 / 40) ^ 2)⟩ 10
    (by norm_num) (5 / 2) (by simp only; linarith [(angle_lt (1 / 40)).1]) (by simp only; linarith [(angle_lt (1 / 40)).2])
    (by
      simp only [MeetsInit, orientInit, List.forall_mem_cons, e, exTg_d1]
      rw [show (5 / 2 / 10 : ℝ) = 1 / 4 by norm_num, a, b, ev0 (by norm_num) (by norm_num), exTg,
        ev1 (by norm_num) (by norm_num)]
      norm_num)
  rw [this]
  simp only
  intro h
  linarith

/-- A differential drive, first update of a motion of one second. -/
example : ∃ dx dy, dubinsSignals exV exTg dx dy 3 1 0 0 = ⟨3, 1, 2 * Real.arctan 0, 1 / 10, 1 / 5⟩ := by
  obtain ⟨dx, rx⟩ := exDx
  obtain ⟨dy, ry⟩ := exDy
  refine ⟨dx, dy, ?_⟩
  have := C122_dubins_partial exV exTg dx dy (exV_traj.mono (by omega)) exTg_traj
    ⟨3, 1, 2 * Real.arctan 0, 1 / 10, 1 / 5⟩ 1 one_pos 0 le_rfl zero_le_one
    (angle_lt _).1 (angle_lt _).2 ((⟨(0, 0), none, (0, 0)⟩ : Whereabouts).setInitial (3, 1)) rfl
    (by
      simp only [MeetsInit, dubinsInit, List.forall_mem_cons, tan_half, exTg_d1]
      rw [zero_div, ev0 le_rfl zero_le_one, exTg, exV, ev1 le_rfl zero_le_one, ev1 le_rfl zero_le_one]
      norm_num)
    (by rw [scale_one, scale_one]; exact rx) (by rw [scale_one, scale_one]; exact ry)
  rwa [scale_one, scale_one] at this

/-- A vehicle at the end of its trip is asked to start again from the origin; deployed, it is still thought
to be at the origin after one metre. -/
example : ((⟨(0, 0), some (5, 5), (5, 5)⟩ : Whereabouts).setInitial (0, 0)).start = (5, 5) ∧
    ((((⟨(0, 0), none, (0, 0)⟩ : Whereabouts).setInitial (0, 0)).predict (fun k => (k / 10, 0)) 5 0).predict
      (fun k => (1 / 2 + k / 10, 0)) 5 0).start = (0, 0) :=
  ⟨(C122_restart_violated _ (0, 0) (5, 5) rfl).1,
    C122_deployed_violated ⟨(0, 0), none, (0, 0)⟩ rfl (0, 0)
      [(fun k => (k / 10, 0), 5, 0), (fun k => (1 / 2 + k / 10, 0), 5, 0)]⟩

theorem brDxy : (∃ s, (dxE brV brTg).Runs (.spl s)) ∧ ∃ s, (dyE brV brTg).Runs (.spl s) := by
  refine ⟨?_, ?_⟩
  · obtain ⟨s, h, -⟩ := (Expr.AllBz.runs (e := dxE brV brTg)
      (by simp [Expr.AllBz, Expr.sub, Expr.sq, dxE, brV, brTg, Bz])).2 6
      (by simp [Expr.bdeg, Expr.sub, Expr.sq, dxE, brV, brTg, Bz]) (by norm_num)
    exact ⟨s, h⟩
  · obtain ⟨s, h, -⟩ := (Expr.AllBz.runs (e := dyE brV brTg)
      (by simp [Expr.AllBz, dyE, brV, brTg, Bz])).2 4
      (by simp [Expr.bdeg, dyE, brV, brTg, Bz]) (by norm_num)
    exact ⟨s, h⟩

/-- A bicycle in a bend. -/
example : ∃ dx dy, steerSignals 1 (2 / 5) brV brTg dx dy 3 1 (fun k => (k : ℝ) / 10) 11 0
    = ⟨3, 1, 2 * Real.arctan (1 / 4), Real.arctan (-(1 / 2) * (4 / 5) / (1 / 10 * (17 / 16) ^ 2)), 17 / 160⟩ := by
  obtain ⟨⟨dx, rx⟩, dy, ry⟩ := brDxy
  refine ⟨dx, dy, ?_⟩
  have := C122_steer_partial 1 (2 / 5) (Or.inl rfl) (by norm_num) brV brTg dx dy brV_traj brTg_traj le_rfl
    ⟨3, 1, 2 * Real.arctan (1 / 4), Real.arctan (-(1 / 2) * (4 / 5) / (1 / 10 * (17 / 16) ^ 2)), 17 / 160⟩ 1 one_pos
    (fun k => (k : ℝ) / 10) 11 (by norm_num) (by norm_num) (angle_lt _).1 (angle_lt _).2
    (Real.neg_pi_div_two_lt_arctan _) (Real.arctan_lt_pi_div_two _) (by simp only [tan_half]; norm_num)
    ⟨(3, 1), none, (3, 1)⟩ rfl
    (by
      unfold SteerInit
      simp only [tan_half, Real.tan_arctan]
      rw [if_neg (by norm_num)]
      simp only [MeetsInit, List.forall_mem_cons]
      rw [Nat.cast_zero, zero_div, zero_div, brV_eval le_rfl zero_le_one, brTg_eval le_rfl zero_le_one,
        brTg1_eval le_rfl zero_le_one]
      norm_num)
    (by rw [scale_one, scale_one]; exact rx) (by rw [scale_one, scale_one]; exact ry)
  rwa [scale_one, scale_one] at this

/-- Leaving from standstill with the wheel at 45 degrees. -/
noncomputable def upV : BSpline ℝ := ⟨Bz 2, [0, 2 / 5, 1]⟩
noncomputable def upTg : BSpline ℝ := ⟨Bz 2, [0, 0, 1 / 2]⟩

theorem up_meets : SteerInit 1 (2 / 5) upV upTg ⟨0, 0, 2 * Real.arctan 0, Real.pi / 4, 0⟩ 1 0 := by
  have d1 : upTg.derivative 1 = ⟨Bz 1, [0, 1]⟩ := by
    unfold upTg; rw [Bz_derivative rfl]; norm_num [List.range_succ]
  have d2 : upTg.derivative 2 = ⟨Bz 0, [1]⟩ := by
    rw [derivative_succ, d1, Bz_derivative rfl]; norm_num [List.range_succ]
  have d3 : upV.derivative 1 = ⟨Bz 1, [4 / 5, 6 / 5]⟩ := by
    unfold upV; rw [Bz_derivative rfl]; norm_num [List.range_succ]
  have e1 : upV.eval 0 = 0 := by
    rw [upV, Bz_eval rfl le_rfl zero_le_one]; simp [Finset.sum_range_succ, bern, Nat.choose]
  have e2 : upTg.eval 0 = 0 := by
    rw [upTg, Bz_eval rfl le_rfl zero_le_one]; simp [Finset.sum_range_succ, bern, Nat.choose]
  unfold SteerInit
  simp only [tan_half, Real.tan_pi_div_four]
  rw [if_pos (by norm_num)]
  simp only [MeetsInit, List.forall_mem_cons]
  rw [d1, d2, d3, e1, e2, ev1 le_rfl zero_le_one, ev1 le_rfl zero_le_one, ev0 le_rfl zero_le_one]
  norm_num

example : storedDelta 1 (2 / 5) (fun j => steerSample (upV.scale 1 0) (upTg.scale 1 0) ((j : ℝ) / 10)) 11 0 = Real.pi / 4 := by
  have hpi := Real.pi_pos
  have d3 : upV.derivative 1 = ⟨Bz 1, [4 / 5, 6 / 5]⟩ := by
    unfold upV; rw [Bz_derivative rfl]; norm_num [List.range_succ]
  refine C122_standstill_partial 1 (2 / 5) upV upTg ((Bz_traj rfl).mono (by norm_num)) ((Bz_traj rfl).mono (by norm_num))
    le_rfl ⟨0, 0, 2 * Real.arctan 0, Real.pi / 4, 0⟩ rfl 1 one_pos (fun k => (k : ℝ) / 10) 11 (by simp only; linarith)
    (by simp only; linarith) (by simpa using up_meets) ?_
  simp only [Nat.cast_zero, zero_div]
  rw [d3, ev1 le_rfl zero_le_one]
  norm_num

/-- A bicycle that stays where it is: the 45 degrees of its wheel are lost. -/
example : storedDelta 1 (2 / 5) (fun j => steerSample
      ((⟨Bz 2, [0, 0, 0]⟩ : BSpline ℝ).scale 1 0) ((⟨Bz 2, [0, 0, 0]⟩ : BSpline ℝ).scale 1 0) ((j : ℝ) / 10)) 11 0 = 0 := by
  have d1 : (⟨Bz 2, [0, 0, 0]⟩ : BSpline ℝ).derivative 1 = ⟨Bz 1, [0, 0]⟩ := by
    rw [Bz_derivative rfl]; norm_num [List.range_succ]
  have d2 : (⟨Bz 2, [0, 0, 0]⟩ : BSpline ℝ).derivative 2 = ⟨Bz 0, [0]⟩ := by
    rw [derivative_succ, d1, Bz_derivative rfl]; norm_num [List.range_succ]
  have e1 : (⟨Bz 2, [0, 0, 0]⟩ : BSpline ℝ).eval 0 = 0 := by
    rw [Bz_eval rfl le_rfl zero_le_one]; simp [Finset.sum_range_succ]
  refine C122_standstill_violated 1 (2 / 5) _ _ ((Bz_traj rfl).mono (by norm_num)) ((Bz_traj rfl).mono (by norm_num))
    le_rfl ⟨0, 0, 2 * Real.arctan 0, Real.pi / 4, 0⟩ rfl 1 one_pos (fun k => (k : ℝ) / 10) 11 ?_ ?_
  · unfold SteerInit
    simp only [tan_half, Real.tan_pi_div_four, Nat.cast_zero, zero_div]
    rw [if_pos (by norm_num)]
    simp only [MeetsInit, List.forall_mem_cons]
    rw [d1, d2, e1, ev1 le_rfl zero_le_one, ev0 le_rfl zero_le_one]
    norm_num
  · simp only [Nat.cast_zero, zero_div]
    rw [d1, ev1 le_rfl zero_le_one]; norm_num

/-- A bicycle that was moving backwards at 1 m/s is planned to start from standstill. -/
example (dx dy : BSpline ℝ) : (steerSignals 1 (2 / 5) (upV.scale 1 0) (upTg.scale 1 0) dx dy 0 0
    (fun k => (k : ℝ) / 10) 11 0).V = 0 := by
  refine C122_backwards_violated 1 (2 / 5) upV upTg dx dy ((Bz_traj rfl).mono (by norm_num))
    ⟨0, 0, 2 * Real.arctan 0, Real.pi / 4, -1⟩ 1 one_pos _ _ _ _ (by norm_num) ?_
  have := up_meets
  unfold SteerInit at this ⊢
  simp only [tan_half] at this ⊢
  rw [if_pos (by norm_num)] at this ⊢
  simpa using this

/-- A quadrotor on its way; with a measured velocity that is not the planned one. -/
example : quadFull (cub.scale 10 0) (cub.scale 10 0) (5 / 2) = ⟨(5 / 32, 5 / 32), (9 / 80, 9 / 80),
      arctan2 (3 / 100) (3 / 100 + quadG), (9 / 80, 9 / 80), (3 / 100, 3 / 100)⟩ ∧
    (quadFull (cub.scale 10 0) (cub.scale 10 0) (5 / 2)).vel ≠ (1 / 10, 9 / 80) := by
  obtain ⟨a, b, c⟩ := cub_q
  have m : ∀ (v : ℝ × ℝ) (θ : ℝ), MeetsInit (quadInit cub cub ⟨(5 / 32, 5 / 32), v, θ, (9 / 80, 9 / 80), (3 / 100, 3 / 100)⟩ 10)
      (5 / 2 / 10) := by
    intro v θ
    simp only [MeetsInit, quadInit, List.forall_mem_cons]
    rw [show (5 / 2 / 10 : ℝ) = 1 / 4 by norm_num, a, b, c]
    norm_num
  exact ⟨C122_quadrotor_partial cub cub (cub_traj.mono (by omega)) (cub_traj.mono (by omega)) _ 10 (by norm_num) _ rfl rfl
      (m _ _),
    C122_quadrotor_violated cub cub (cub_traj.mono (by omega)) (cub_traj.mono (by omega))
      ⟨(5 / 32, 5 / 32), (1 / 10, 9 / 80), 0, (9 / 80, 9 / 80), (3 / 100, 3 / 100)⟩ 10 (by norm_num) _ (by norm_num)
      (m _ _)⟩

theorem hv_meets (r1 r2 : ℝ) : MeetsInit (quad3Init hvF hvP hvQ
    ⟨1, 2, 3, 0, 0, 1 / 10, 2 * Real.arctan 0, 2 * Real.arctan (1 / 10), 101 / 10, r1, r2⟩) (0 / 1) := by
  simp only [MeetsInit, quad3Init, List.forall_mem_cons, tan_half]
  rw [zero_div, hvF, hvP, hvQ, ev0 le_rfl zero_le_one, ev1 le_rfl zero_le_one, ev1 le_rfl zero_le_one]
  norm_num

/-- A hovering quadrotor: state and thrust, but not a predicted rate of 1 rad/s. -/
example : ∃ ax ay az, (quad3Signals hvF hvP hvQ ax ay az ⟨1, 2, 3, 0, 0, 1 / 10⟩ 0 0).u1 = 101 / 10 := by
  obtain ⟨⟨ax, rx⟩, ⟨ay, ry⟩, ⟨az, rz⟩⟩ := hvDd
  have := C122_quadrotor3d_partial hvF hvP hvQ ax ay az (Bz_traj rfl) (Bz_traj rfl) (Bz_traj rfl)
    ⟨1, 2, 3, 0, 0, 1 / 10, 2 * Real.arctan 0, 2 * Real.arctan (1 / 10), 101 / 10, 0, 0⟩ 1 one_pos 0 le_rfl zero_le_one
    (angle_lt _).1 (angle_lt _).2 (angle_lt _).1 (angle_lt _).2
    (by rw [scale_one, scale_one, scale_one]; exact rx) (by rw [scale_one, scale_one, scale_one]; exact ry)
    (by rw [scale_one, scale_one, scale_one]; exact rz) (hv_meets 0 0)
  rw [scale_one, scale_one, scale_one] at this
  exact ⟨ax, ay, az, this.2⟩

/-- A simple quadrotor that starts with 45 degrees pitch. -/
noncomputable def tiltX : Fin 3 → BSpline ℝ := ![⟨Bz 2, [0, 0, quadG / 2]⟩, ⟨Bz 2, [1, 1, 1]⟩, ⟨Bz 2, [2, 2, 2]⟩]

example : simpleFull (fun i => (tiltX i).scale 1 0) 0
    = ⟨![0, 1, 2], ![0, 0, 0], 0, Real.pi / 4, quadG * Real.sqrt 2⟩ := by
  have hpi := Real.pi_pos
  have d : ∀ c0 c1 c2 : ℝ, (⟨Bz 2, [c0, c1, c2]⟩ : BSpline ℝ).eval 0 = c0 ∧
      ((⟨Bz 2, [c0, c1, c2]⟩ : BSpline ℝ).derivative 1).eval 0 = 2 * (c1 - c0) ∧
      ((⟨Bz 2, [c0, c1, c2]⟩ : BSpline ℝ).derivative 2).eval 0 = 2 * (c2 - c1) - 2 * (c1 - c0) := by
    intro c0 c1 c2
    have e1 : (⟨Bz 2, [c0, c1, c2]⟩ : BSpline ℝ).derivative 1 = ⟨Bz 1, [2 * (c1 - c0), 2 * (c2 - c1)]⟩ := by
      rw [Bz_derivative rfl]; norm_num [List.range_succ]
    have e2 : (⟨Bz 2, [c0, c1, c2]⟩ : BSpline ℝ).derivative 2 = ⟨Bz 0, [2 * (c2 - c1) - 2 * (c1 - c0)]⟩ := by
      rw [derivative_succ, e1, Bz_derivative rfl]; norm_num [List.range_succ]
    refine ⟨?_, ?_, ?_⟩
    · rw [Bz_eval rfl le_rfl zero_le_one]; simp [Finset.sum_range_succ, bern, Nat.choose]
    · rw [e1, ev1 le_rfl zero_le_one]; ring
    · rw [e2, ev0 le_rfl zero_le_one]
  have hs : Real.sqrt 2 * Real.sqrt 2 = 2 := Real.mul_self_sqrt (by norm_num)
  refine C122_simple_partial tiltX ?_ _ 1 one_pos 0 (by unfold quadG; positivity) (by simp only; linarith)
    (by simp only; linarith) (by simp only; linarith) (by simp only; linarith) ?_
  · intro i; fin_cases i <;> exact Bz_traj rfl
  · intro c hc
    simp only [simpleInit, List.mem_append, List.mem_ofFn', Set.mem_range] at hc
    rw [zero_div]
    have h2 : quadG * Real.sqrt 2 * (Real.sqrt 2 / 2) = quadG := by
      rw [mul_div_assoc', mul_assoc, hs]; ring
    rcases hc with (⟨i, rfl⟩ | ⟨i, rfl⟩) | ⟨i, rfl⟩
    · fin_cases i
      · exact (d _ _ _).1
      · exact (d _ _ _).1
      · exact (d _ _ _).1
    · fin_cases i
      · refine (d _ _ _).2.1.trans ?_; simp
      · refine (d _ _ _).2.1.trans ?_; simp
      · refine (d _ _ _).2.1.trans ?_; simp
    · fin_cases i
      · refine (d _ _ _).2.2.trans ?_; simp [Simple3.acc, h2]; ring
      · refine (d _ _ _).2.2.trans ?_; simp [Simple3.acc]
      · refine (d _ _ _).2.2.trans ?_; simp [Simple3.acc, h2]

/-- A trailer behind a vehicle at `(3, 1)`: the angle is right, the position is not `(0, 0)`. -/
example : (trailerSignals (1 / 5) (exTg.scale 10 0) ⟨3, 1, 0, 0, 0⟩ 5).th = 2 * Real.arctan (1 / 20) ∧
    trailerSignals (1 / 5) (exTg.scale 10 0) ⟨3, 1, 0, 0, 0⟩ 5 ≠ trailerInitial (2 * Real.arctan (1 / 20)) ⟨3, 1, 0, 0, 0⟩ := by
  have m : MeetsInit (trailerInit exTg (2 * Real.arctan (1 / 20))) (5 / 10) := by
    simp only [MeetsInit, trailerInit, List.forall_mem_cons, tan_half]
    rw [exTg, ev1 (by norm_num) (by norm_num)]
    norm_num
  refine ⟨C122_trailer_partial (1 / 5) exTg (exTg_traj.mono (by omega)) ⟨3, 1, 0, 0, 0⟩ _ 10 (by norm_num) 5 (angle_lt _).1
    (angle_lt _).2 m, fun h => ?_⟩
  have := ((C122_trailer_violated (1 / 5) exTg (exTg_traj.mono (by omega)) ⟨3, 1, 0, 0, 0⟩ _ 10 (by norm_num) 5 (angle_lt _).1
    (angle_lt _).2 m).1 h).1
  simp only at this
  have := Real.cos_le_one (2 * Real.arctan (1 / 20))
  linarith

end Verif.Vehicles
