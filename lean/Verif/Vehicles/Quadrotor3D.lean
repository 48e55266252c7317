import Verif.Vehicles.Quadrotor

/-! # Quadrotor in space and oriented holonomic vehicle (C55, C56)

Models of `Quadrotor3D` (quadrotor3d.py) and `HolonomicOrient` (holonomicorient.py). -/

set_option linter.unusedSectionVars false

namespace Verif.Vehicles

open Verif.Spline Collision

/-! ## Model -/

/-- `2*dq - (1+q**2)*T*hi <= 0` and `-2*dq + (1+q**2)*T*lo <= 0`. -/
noncomputable def rateC (lo hi : ℝ) (q : BSpline ℝ) (T : ℝ) : List (Expr ℝ) :=
  [.sub (.mul (.num 2) (.spl (q.derivative 1))) (.mul (.mul (denE q) (.num T)) (.num hi)),
   .add (.mul (.num (-2)) (.spl (q.derivative 1))) (.mul (.mul (denE q) (.num T)) (.num lo))]

/-- The user's limits with their defaults, quadrotor3d.py:54-63. -/
structure Quad3Lim where
  u1min : ℝ
  u1max : ℝ
  u2min : ℝ
  u2max : ℝ
  u3min : ℝ
  u3max : ℝ
  phimin : ℝ
  phimax : ℝ
  thetamin : ℝ
  thetamax : ℝ

noncomputable def quad3Lim (b : Bounds) : Quad3Lim where
  u1min := lim b "u1min" 2
  u1max := lim b "u1max" 15
  u2min := lim b "u2min" (-2)
  u2max := lim b "u2max" 2
  u3min := lim b "u3min" (-2)
  u3max := lim b "u3max" 2
  phimin := lim b "phimin" (-Real.pi / 6)
  phimax := lim b "phimax" (Real.pi / 6)
  thetamin := lim b "thetamin" (-Real.pi / 6)
  thetamax := lim b "thetamax" (Real.pi / 6)

/-- `Quadrotor3D.define_trajectory_constraints`, quadrotor3d.py:82-99 (each expression is `<= 0`). -/
noncomputable def quad3C (L : Quad3Lim) (f qp qt : BSpline ℝ) (T : ℝ) : List (Expr ℝ) :=
  [.sub (.mul (.mul (.spl f) (denE qp)) (denE qt)) (.num L.u1max),
   .add (.mul (.mul (.neg (.spl f)) (denE qp)) (denE qt)) (.num L.u1min)]
  ++ rateC L.u2min L.u2max qp T ++ rateC L.u3min L.u3max qt T
  ++ [leC qp (Real.tan (1 / 2 * L.phimax)), geC qp (Real.tan (1 / 2 * L.phimin)),
      leC qt (Real.tan (1 / 2 * L.thetamax)), geC qt (Real.tan (1 / 2 * L.thetamin))]

/-- `f_til*(1-q_phi**2)*(2*q_theta)`, quadrotor3d.py:103,258. -/
noncomputable def ddxE (f qp qt : BSpline ℝ) : Expr ℝ :=
  .mul (.mul (.spl f) (.sub (.num 1) (.sq (.spl qp)))) (.mul (.num 2) (.spl qt))

/-- `-f_til*(1+q_theta**2)*(2*q_phi)`, quadrotor3d.py:104,259. -/
noncomputable def ddyE (f qp qt : BSpline ℝ) : Expr ℝ :=
  .mul (.mul (.neg (.spl f)) (denE qt)) (.mul (.num 2) (.spl qp))

/-- `f_til*(1-q_phi**2)*(1-q_theta**2) - g`, quadrotor3d.py:105,260. -/
noncomputable def ddzE (f qp qt : BSpline ℝ) : Expr ℝ :=
  .sub (.mul (.mul (.spl f) (.sub (.num 1) (.sq (.spl qp)))) (.sub (.num 1) (.sq (.spl qt)))) (.num quadG)

/-- State and input of the quadrotor. -/
structure Quad3 where
  x : ℝ
  y : ℝ
  z : ℝ
  dx : ℝ
  dy : ℝ
  dz : ℝ
  phi : ℝ
  theta : ℝ
  u1 : ℝ
  u2 : ℝ
  u3 : ℝ

/-- Position and velocity from which the integration starts. -/
structure Start3 where
  x : ℝ
  y : ℝ
  z : ℝ
  dx : ℝ
  dy : ℝ
  dz : ℝ

/-- `Quadrotor3D.splines2signals`, quadrotor3d.py:253-275, at one time instant.  Splines are in physical
time; `ax`, `ay`, `az` are the splines computed for the accelerations.  The sampled product spline `den`
is replaced by its value. -/
noncomputable def quad3Signals (f qp qt ax ay az : BSpline ℝ) (p : Start3) (t0 t : ℝ) : Quad3 where
  x := (integrateTwice ax p.dx p.x t0 1).1.eval t
  y := (integrateTwice ay p.dy p.y t0 1).1.eval t
  z := (integrateTwice az p.dz p.z t0 1).1.eval t
  dx := (integrateTwice ax p.dx p.x t0 1).2.eval t
  dy := (integrateTwice ay p.dy p.y t0 1).2.eval t
  dz := (integrateTwice az p.dz p.z t0 1).2.eval t
  phi := 2 * arctan2 (qp.eval t) 1
  theta := 2 * arctan2 (qt.eval t) 1
  u1 := f.eval t * ((1 + qp.eval t ^ 2) * (1 + qt.eval t ^ 2))
  u2 := 2 * (qp.derivative 1).eval t / (1 + qp.eval t ^ 2)
  u3 := 2 * (qt.derivative 1).eval t / (1 + qt.eval t ^ 2)

/-- `Quadrotor3D.ode`, quadrotor3d.py:300-304: derivative of `(x, y, z, dx, dy, dz, phi, theta)`. -/
noncomputable def quad3Ode (s : Quad3) : List ℝ :=
  [s.dx, s.dy, s.dz, s.u1 * Real.sin s.theta * Real.cos s.phi, -s.u1 * Real.sin s.phi,
   -quadG + s.u1 * Real.cos s.phi * Real.cos s.theta, s.u2, s.u3]

/-- The states in the order of the code, quadrotor3d.py:274. -/
def Quad3.state (s : Quad3) : List ℝ := [s.x, s.y, s.z, s.dx, s.dy, s.dz, s.phi, s.theta]

/-- `HolonomicOrient.define_trajectory_constraints` with `'norm_inf'`, holonomicorient.py:60-75. -/
noncomputable def orientInf (b : Bounds) (x y tg : BSpline ℝ) (T : ℝ) : List (Expr ℝ) :=
  ([x, y].flatMap fun s => axisC s T (lim b "vmin" (-(1 / 2))) (lim b "vmax" (1 / 2)) (lim b "amin" (-1)) (lim b "amax" 1))
  ++ turnC b tg T

/-- `HolonomicOrient.define_trajectory_constraints` with `'norm_2'`, holonomicorient.py:55-59,74-75. -/
noncomputable def orientTwo (b : Bounds) (x y tg : BSpline ℝ) (T : ℝ) : List (Expr ℝ) :=
  holoTwo b x y T ++ turnC b tg T

/-! ## Lemmas -/

theorem rateC_le {lo hi : ℝ} {q : BSpline ℝ} {T t : ℝ} (hq : Traj q 1) (hT : 0 < T)
    (hc : ∀ e ∈ rateC lo hi q T, e.Imposed 0) (h0 : 0 ≤ t) (h1 : t ≤ T) :
    lo ≤ 2 * ((q.derivative 1).eval (t / T) / T) / (1 + q.eval (t / T) ^ 2) ∧
    2 * ((q.derivative 1).eval (t / T) / T) / (1 + q.eval (t / T) ^ 2) ≤ hi := by
  have h := turnC_le (b := fun k => if k = "wmax" then some hi else if k = "wmin" then some lo else none) hq hT
    (t := t) (by simpa [turnC, rateC, lim] using hc) h0 h1
  simpa [lim] using h

theorem heading_le {q c : ℝ} (h : q ≤ Real.tan (1 / 2 * c)) (h0 : -Real.pi < c) (h1 : c < Real.pi) : heading q ≤ c := by
  have := Real.arctan_strictMono.monotone h
  rw [Real.arctan_tan (by linarith) (by linarith)] at this
  unfold heading; linarith

theorem le_heading {q c : ℝ} (h : Real.tan (1 / 2 * c) ≤ q) (h0 : -Real.pi < c) (h1 : c < Real.pi) : c ≤ heading q := by
  have := Real.arctan_strictMono.monotone h
  rw [Real.arctan_tan (by linarith) (by linarith)] at this
  unfold heading; linarith

/-! ## Properties -/

/-- **C55** If the trajectory constraints hold then, at every instant, thrust, roll and pitch rates and the roll
and pitch angles stored for the user are within the limits. -/
theorem C55_limits (L : Quad3Lim) (f qp qt ax ay az : BSpline ℝ) (hf : Traj f 0) (hp : Traj qp 1) (hq : Traj qt 1)
    (T : ℝ) (hT : 0 < T) (hc : ∀ e ∈ quad3C L f qp qt T, e.Imposed 0)
    (r1 : -Real.pi < L.phimin) (r2 : L.phimin < Real.pi) (r3 : -Real.pi < L.phimax) (r4 : L.phimax < Real.pi)
    (r5 : -Real.pi < L.thetamin) (r6 : L.thetamin < Real.pi) (r7 : -Real.pi < L.thetamax) (r8 : L.thetamax < Real.pi)
    (p : Start3) (t0 t : ℝ) (h0 : 0 ≤ t) (h1 : t ≤ T) :
    let s := quad3Signals (f.scale T 0) (qp.scale T 0) (qt.scale T 0) ax ay az p t0 t
    (L.u1min ≤ s.u1 ∧ s.u1 ≤ L.u1max) ∧ (L.u2min ≤ s.u2 ∧ s.u2 ≤ L.u2max) ∧ (L.u3min ≤ s.u3 ∧ s.u3 ≤ L.u3max) ∧
    (L.phimin ≤ s.phi ∧ s.phi ≤ L.phimax) ∧ (L.thetamin ≤ s.theta ∧ s.theta ≤ L.thetamax) := by
  intro s
  have ef : (f.scale T 0).eval t = f.eval (t / T) := scaled_eval hf hT t
  have ep : (qp.scale T 0).eval t = qp.eval (t / T) := scaled_eval hp hT t
  have eq : (qt.scale T 0).eval t = qt.eval (t / T) := scaled_eval hq hT t
  have dp : ((qp.scale T 0).derivative 1).eval t = (qp.derivative 1).eval (t / T) / T := by
    have := hp.signal hT t; rwa [pow_one] at this
  have dq : ((qt.scale T 0).derivative 1).eval t = (qt.derivative 1).eval (t / T) / T := by
    have := hq.signal hT t; rwa [pow_one] at this
  simp only [quad3C, List.forall_mem_append, List.forall_mem_cons] at hc
  obtain ⟨⟨⟨⟨c1, c2, -⟩, c3⟩, c4⟩, c5, c6, c7, c8, -⟩ := hc
  have a1 := imposed_le c1 ⟨⟨⟨hf.on, trivial, hp.on, hp.on⟩, trivial, hq.on, hq.on⟩, trivial⟩ (Or.inl (Or.inl (Or.inl trivial))) hT h0 h1
  have a2 := imposed_le c2 ⟨⟨⟨hf.on, trivial, hp.on, hp.on⟩, trivial, hq.on, hq.on⟩, trivial⟩ (Or.inl (Or.inl (Or.inl trivial))) hT h0 h1
  simp only [Expr.val, Expr.sub, Expr.sq, denE] at a1 a2
  have a3 := rateC_le hp hT c3 h0 h1
  have a4 := rateC_le hq hT c4 h0 h1
  simp only [s, quad3Signals, ef, ep, eq, dp, dq, heading_eq]
  exact ⟨⟨by nlinarith [a2], by nlinarith [a1]⟩, a3, a4,
    ⟨le_heading (geC_le hp c6 hT h0 h1) r1 r2, heading_le (leC_le hp c5 hT h0 h1) r3 r4⟩,
    le_heading (geC_le hq c8 hT h0 h1) r5 r6, heading_le (leC_le hq c7 hT h0 h1) r7 r8⟩

/-- **C55** The stored state moves as the vehicle model says under the stored inputs: all eight states. -/
theorem C55_reproduces (f qp qt ax ay az : BSpline ℝ) (hf : Traj f 0) (hp : Traj qp 1) (hq : Traj qt 1)
    (T : ℝ) (hT : 0 < T)
    (rx : (ddxE (f.scale T 0) (qp.scale T 0) (qt.scale T 0)).Runs (.spl ax))
    (ry : (ddyE (f.scale T 0) (qp.scale T 0) (qt.scale T 0)).Runs (.spl ay))
    (rz : (ddzE (f.scale T 0) (qp.scale T 0) (qt.scale T 0)).Runs (.spl az))
    (p : Start3) (t0 t : ℝ) (h0 : 0 < t) (h1 : t < T) (i : ℕ) (hi : i < 8) :
    let s := quad3Signals (f.scale T 0) (qp.scale T 0) (qt.scale T 0) ax ay az p t0
    HasDerivAt (fun t => ((s t).state).getD i 0) ((quad3Ode (s t)).getD i 0) t := by
  intro s
  have sf := hf.scaled hT
  have sp := hp.scaled hT
  have sq := hq.scaled hT
  have sp0 := sp.mono (Nat.zero_le 1)
  have sq0 := sq.mono (Nat.zero_le 1)
  obtain ⟨ta, ea⟩ := runs_spl (n := 0) rx ⟨⟨sf, trivial, sp0, sp0⟩, trivial, sq0⟩
  obtain ⟨tb, eb⟩ := runs_spl (n := 0) ry ⟨⟨sf, trivial, sq0, sq0⟩, trivial, sp0⟩
  obtain ⟨tc, ec⟩ := runs_spl (n := 0) rz ⟨⟨⟨sf, trivial, sp0, sp0⟩, trivial, sq0, sq0⟩, trivial⟩
  have b0 : 0 < t / 1 := by simpa using h0
  have b1 : t / 1 < T := by simpa using h1
  have tw : ∀ (a : BSpline ℝ), TrajOn a 0 T 0 → ∀ v0 x0 : ℝ,
      HasDerivAt (fun t => (integrateTwice a v0 x0 t0 1).1.eval t) ((integrateTwice a v0 x0 t0 1).2.eval t) t ∧
      HasDerivAt (fun t => (integrateTwice a v0 x0 t0 1).2.eval t) (a.eval t) t := by
    intro a ha v0 x0
    have u1 : TrajOn (integrateOnce a v0 t0 1) 0 T 0 := (ha.integrateOnce v0 t0 1).mono (Nat.zero_le 1)
    have w1 := C17_velocity _ 0 T u1 1 one_pos x0 t0 t b0 b1
    have w2 := C17_velocity _ 0 T ha 1 one_pos v0 t0 t b0 b1
    simp only [div_one] at w1 w2
    exact ⟨w1, w2⟩
  have hP : (0 : ℝ) < 1 + (qp.scale T 0).eval t ^ 2 := by positivity
  have hQ : (0 : ℝ) < 1 + (qt.scale T 0).eval t ^ 2 := by positivity
  have hpd := heading_hasDerivAt (sp.hasDerivAt h0 h1)
  have hqd := heading_hasDerivAt (sq.hasDerivAt h0 h1)
  interval_cases i
  · exact (tw ax ta _ _).1
  · exact (tw ay tb _ _).1
  · exact (tw az tc _ _).1
  · refine ((tw ax ta p.dx p.x).2).congr_deriv ?_
    rw [ea t h0.le h1.le]
    simp only [s, quad3Ode, quad3Signals, heading_eq, ddxE, Expr.val, Expr.sub, Expr.sq, List.getD_cons_succ,
      List.getD_cons_zero, sin_heading', cos_heading']
    field_simp; ring
  · refine ((tw ay tb p.dy p.y).2).congr_deriv ?_
    rw [eb t h0.le h1.le]
    simp only [s, quad3Ode, quad3Signals, heading_eq, ddyE, denE, Expr.val, Expr.sq, List.getD_cons_succ,
      List.getD_cons_zero, sin_heading']
    field_simp
  · refine ((tw az tc p.dz p.z).2).congr_deriv ?_
    rw [ec t h0.le h1.le]
    simp only [s, quad3Ode, quad3Signals, heading_eq, ddzE, Expr.val, Expr.sub, Expr.sq, List.getD_cons_succ,
      List.getD_cons_zero, cos_heading']
    field_simp; ring
  · have e : (fun t => ((s t).state).getD 6 0) = fun t => heading ((qp.scale T 0).eval t) := by
      funext u; simp [s, quad3Signals, Quad3.state, heading_eq]
    rw [e]; exact hpd
  · have e : (fun t => ((s t).state).getD 7 0) = fun t => heading ((qt.scale T 0).eval t) := by
      funext u; simp [s, quad3Signals, Quad3.state, heading_eq]
    rw [e]; exact hqd

/-- **C55** (option `substitution`, quadrotor3d.py:118-133).  The position splines `X` on which collision is
checked are separate variables; the constraint `-eps <= X - x <= eps` keeps them within 1 mm of the true
trajectory `x` at every time. -/
theorem C55_substitution (X x : BSpline ℝ) (hX : Traj X 0) (hx : Traj x 0) (T : ℝ) (hT : 0 < T)
    (hu : (Expr.sub (.spl X) (.spl x)).Imposed (1 / 1000)) (hl : (Expr.neg (.sub (.spl X) (.spl x))).Imposed (1 / 1000))
    (t : ℝ) (h0 : 0 ≤ t) (h1 : t ≤ T) : |X.eval (t / T) - x.eval (t / T)| ≤ 1 / 1000 := by
  have a1 := imposed_le hu ⟨hX.on, hx.on⟩ (Or.inl trivial) hT h0 h1
  have a2 := imposed_le hl ⟨hX.on, hx.on⟩ (Or.inl trivial) hT h0 h1
  simp only [Expr.val, Expr.sub] at a1 a2
  rw [abs_le]
  constructor <;> linarith

/-- **C56** (`HolonomicOrient`, `'norm_inf'`): velocity and acceleration along each axis, and the turn rate of the
heading `2 arctan tg_ha`, are within the user's limits at every time. -/
theorem C56_norm_inf (b : Bounds) (x y tg : BSpline ℝ) (hx : Traj x 2) (hy : Traj y 2) (ht : Traj tg 1) (T : ℝ) (hT : 0 < T)
    (hc : ∀ e ∈ orientInf b x y tg T, e.Imposed 0) (t : ℝ) (h0 : 0 < t) (h1 : t < T) :
    (∀ s ∈ [x, y], Within s.eval T t (lim b "vmin" (-(1 / 2))) (lim b "vmax" (1 / 2)) (lim b "amin" (-1)) (lim b "amax" 1)) ∧
    lim b "wmin" (-Real.pi / 6) ≤ deriv (fun t => heading (tg.eval (t / T))) t ∧
    deriv (fun t => heading (tg.eval (t / T))) t ≤ lim b "wmax" (Real.pi / 6) := by
  refine ⟨fun s hs => ?_, ?_⟩
  · refine axisC_within ?_ hT (fun e he => hc e ?_) h0 h1
    · simp only [List.mem_cons, List.not_mem_nil, or_false] at hs
      rcases hs with rfl | rfl <;> assumption
    · exact List.mem_append_left _ (List.mem_flatMap.2 ⟨s, hs, he⟩)
  · rw [(heading_hasDerivAt (ht.phys hT h0 h1)).deriv]
    exact turnC_le ht hT (fun e he => hc e (List.mem_append_right _ he)) h0.le h1.le

/-- **C56** (`HolonomicOrient`, `'norm_2'`). -/
theorem C56_norm_2 (b : Bounds) (x y tg : BSpline ℝ) (hx : Traj x 2) (hy : Traj y 2) (ht : Traj tg 1) (T : ℝ) (hT : 0 < T)
    (hv : 0 ≤ lim b "vmax" (1 / 2)) (ha : 0 ≤ lim b "amax" 1)
    (hc : ∀ e ∈ orientTwo b x y tg T, e.Imposed 0) (t : ℝ) (h0 : 0 < t) (h1 : t < T) :
    Real.sqrt (deriv (fun t => x.eval (t / T)) t ^ 2 + deriv (fun t => y.eval (t / T)) t ^ 2) ≤ lim b "vmax" (1 / 2) ∧
    Real.sqrt (iteratedDeriv 2 (fun t => x.eval (t / T)) t ^ 2 + iteratedDeriv 2 (fun t => y.eval (t / T)) t ^ 2)
      ≤ lim b "amax" 1 ∧
    lim b "wmin" (-Real.pi / 6) ≤ deriv (fun t => heading (tg.eval (t / T))) t ∧
    deriv (fun t => heading (tg.eval (t / T))) t ≤ lim b "wmax" (Real.pi / 6) := by
  obtain ⟨a1, a2⟩ := C13_norm_2 b x y hx hy T hT hv ha (fun e he => hc e (List.mem_append_left _ he)) t h0 h1
  refine ⟨a1, a2, ?_⟩
  rw [(heading_hasDerivAt (ht.phys hT h0 h1)).deriv]
  exact turnC_le ht hT (fun e he => hc e (List.mem_append_right _ he)) h0.le h1.le

/-! ### Examples -/

/-- Moving along both axes while turning slowly, ten seconds, default bounds. -/
example : deriv (fun t => heading (exTg.eval (t / 10))) 5 ≤ Real.pi / 6 := by
  refine (C56_norm_inf (fun _ => none) cub cub exTg (cub_traj.mono (by omega)) (cub_traj.mono (by omega)) exTg_traj 10
    (by norm_num) ?_ 5 (by norm_num) (by norm_num)).2.2
  have hax : ∀ e ∈ axisC cub 10 (-(1 / 2)) (1 / 2) (-1) 1, e.Imposed 0 := by
    intro e he
    simp only [axisC, cub_d1, cub_d2, List.mem_cons, List.not_mem_nil, or_false] at he
    rcases he with rfl | rfl | rfl | rfl
    · exact geC_imposed (by norm_num)
    · exact leC_imposed (by norm_num)
    · exact geC_imposed (by norm_num)
    · exact leC_imposed (by norm_num)
  intro e he
  simp only [orientInf, List.mem_append, List.mem_flatMap, lim, Option.getD_none] at he
  rcases he with ⟨s, hs, he⟩ | he
  · simp only [List.mem_cons, List.not_mem_nil, or_false] at hs
    rcases hs with rfl | rfl <;> exact hax e he
  · exact exDubins 10 (by norm_num) e (List.mem_cons_of_mem _ (List.mem_cons_of_mem _ he))

/-- Nearly hovering, rolling one way and pitching the other. -/
noncomputable def hvF : BSpline ℝ := ⟨Bz 0, [10]⟩
noncomputable def hvP : BSpline ℝ := ⟨Bz 1, [0, 1 / 10]⟩
noncomputable def hvQ : BSpline ℝ := ⟨Bz 1, [1 / 10, 0]⟩

theorem hv_imposed : ∀ e ∈ quad3C (quad3Lim fun _ => none) hvF hvP hvQ 1, e.Imposed 0 := by
  have d1 : hvP.derivative 1 = ⟨Bz 0, [1 / 10]⟩ := by
    unfold hvP; rw [Bz_derivative rfl]; norm_num [List.range_succ]
  have d2 : hvQ.derivative 1 = ⟨Bz 0, [-1 / 10]⟩ := by
    unfold hvQ; rw [Bz_derivative rfl]; norm_num [List.range_succ]
  have evP : ∀ {x : ℝ}, 0 ≤ x → x ≤ 1 → hvP.eval x = (1 - (1 - x)) / 10 := by
    intro x h0 h1; rw [hvP, Bz_eval rfl h0 h1]; simp [Finset.sum_range_succ, bern]; ring
  have evQ : ∀ {x : ℝ}, 0 ≤ x → x ≤ 1 → hvQ.eval x = (1 - x) / 10 := by
    intro x h0 h1; rw [hvQ, Bz_eval rfl h0 h1]; simp [Finset.sum_range_succ, bern]; ring
  have ev0 : ∀ {c x : ℝ}, 0 ≤ x → x ≤ 1 → (⟨Bz 0, [c]⟩ : BSpline ℝ).eval x = c := by
    intro c x h0 h1; rw [Bz_eval rfl h0 h1]; simp [bern]
  have hpi := Real.pi_gt_three
  have hpi4 := Real.pi_le_four
  have te := Real.lt_tan (x := 1 / 2 * (Real.pi / 6)) (by positivity) (by linarith)
  have tn : Real.tan (1 / 2 * (-Real.pi / 6)) = -Real.tan (1 / 2 * (Real.pi / 6)) := by rw [← Real.tan_neg]; congr 1; ring
  have te' : 1 / 10 ≤ Real.tan (1 / 2 * (Real.pi / 6)) := by linarith
  simp only [quad3C, quad3Lim, rateC, denE, List.cons_append, List.nil_append, List.forall_mem_cons,
    List.not_mem_nil, false_imp_iff, implies_true, and_true, lim, Option.getD_none, d1, d2, tn]
  generalize Real.tan (1 / 2 * (Real.pi / 6)) = q at te'
  refine ⟨?_, ?_, ?_, ?_, ?_, ?_, ?_, ?_, ?_, ?_⟩
  · refine Expr.AllBz.imposed_pow (D := 4) ?_ ?_ (by norm_num)
      (fun j => [101 / 10 - 15, -2 / 10, 201 / 1000, -2 / 1000, 1 / 1000].getD j 0) (fun x h0 h1 => ?_) ?_
    · simp [Expr.AllBz, Expr.sub, Expr.sq, Bz, hvF, hvP, hvQ]
    · simp [Expr.bdeg, Expr.sub, Expr.sq, Bz, hvF, hvP, hvQ]
    · simp only [Expr.val, Expr.sub, Expr.sq, evP h0 h1, evQ h0 h1, hvF, ev0 h0 h1]
      simp [Finset.sum_range_succ]; ring
    · intro w w0 wp wm
      simp [Finset.sum_range_succ, w0]
      have := wp 1; have := wp 2; have := wp 3; have := wp 4; have := wm 0; have := wm 1; have := wm 2; have := wm 3
      norm_num at *
      linarith
  · refine Expr.AllBz.imposed_pow (D := 4) ?_ ?_ (by norm_num)
      (fun j => [-101 / 10 + 2, 2 / 10, -201 / 1000, 2 / 1000, -1 / 1000].getD j 0) (fun x h0 h1 => ?_) ?_
    · simp [Expr.AllBz, Expr.sq, Bz, hvF, hvP, hvQ]
    · simp [Expr.bdeg, Expr.sq, Bz, hvF, hvP, hvQ]
    · simp only [Expr.val, Expr.sq, evP h0 h1, evQ h0 h1, hvF, ev0 h0 h1]
      simp [Finset.sum_range_succ]; ring
    · intro w w0 wp wm
      simp [Finset.sum_range_succ, w0]
      have := wp 1; have := wp 2; have := wp 3; have := wp 4; have := wm 0; have := wm 1; have := wm 2; have := wm 3
      norm_num at *
      linarith
  · refine Expr.AllBz.imposed_pow (D := 2) ?_ ?_ (by norm_num)
      (fun j => [2 / 10 - 202 / 100, 4 / 100, -2 / 100].getD j 0) (fun x h0 h1 => ?_) ?_
    · simp [Expr.AllBz, Expr.sub, Expr.sq, Bz, hvP]
    · simp [Expr.bdeg, Expr.sub, Expr.sq, Bz, hvP]
    · simp only [Expr.val, Expr.sub, Expr.sq, evP h0 h1, ev0 h0 h1]
      simp [Finset.sum_range_succ]; ring
    · intro w w0 wp wm
      simp [Finset.sum_range_succ, w0]
      have := wp 1; have := wp 2; have := wm 0
      norm_num at *
      linarith
  · refine Expr.AllBz.imposed_pow (D := 2) ?_ ?_ (by norm_num)
      (fun j => [-2 / 10 - 202 / 100, 4 / 100, -2 / 100].getD j 0) (fun x h0 h1 => ?_) ?_
    · simp [Expr.AllBz, Expr.sq, Bz, hvP]
    · simp [Expr.bdeg, Expr.sq, Bz, hvP]
    · simp only [Expr.val, Expr.sq, evP h0 h1, ev0 h0 h1]
      simp [Finset.sum_range_succ]; ring
    · intro w w0 wp wm
      simp [Finset.sum_range_succ, w0]
      have := wp 1; have := wp 2; have := wm 0
      norm_num at *
      linarith
  · refine Expr.AllBz.imposed_pow (D := 2) ?_ ?_ (by norm_num)
      (fun j => [-22 / 10, 0, -2 / 100].getD j 0) (fun x h0 h1 => ?_) ?_
    · simp [Expr.AllBz, Expr.sub, Expr.sq, Bz, hvQ]
    · simp [Expr.bdeg, Expr.sub, Expr.sq, Bz, hvQ]
    · simp only [Expr.val, Expr.sub, Expr.sq, evQ h0 h1, ev0 h0 h1]
      simp [Finset.sum_range_succ]; ring
    · intro w w0 wp wm
      simp [Finset.sum_range_succ, w0]
      have := wp 1; have := wp 2; have := wm 0
      norm_num at *
      linarith
  · refine Expr.AllBz.imposed_pow (D := 2) ?_ ?_ (by norm_num)
      (fun j => [-18 / 10, 0, -2 / 100].getD j 0) (fun x h0 h1 => ?_) ?_
    · simp [Expr.AllBz, Expr.sq, Bz, hvQ]
    · simp [Expr.bdeg, Expr.sq, Bz, hvQ]
    · simp only [Expr.val, Expr.sq, evQ h0 h1, ev0 h0 h1]
      simp [Finset.sum_range_succ]; ring
    · intro w w0 wp wm
      simp [Finset.sum_range_succ, w0]
      have := wp 1; have := wp 2; have := wm 0
      norm_num at *
      linarith
  · refine leC_imposed ?_
    intro a ha; simp [hvP] at ha; rcases ha with rfl | rfl <;> linarith
  · refine geC_imposed ?_
    intro a ha; simp [hvP] at ha; rcases ha with rfl | rfl <;> linarith
  · refine leC_imposed ?_
    intro a ha; simp [hvQ] at ha; rcases ha with rfl | rfl <;> linarith
  · refine geC_imposed ?_
    intro a ha; simp [hvQ] at ha; rcases ha with rfl | rfl <;> linarith

theorem hvDd : (∃ s, (ddxE hvF hvP hvQ).Runs (.spl s)) ∧ (∃ s, (ddyE hvF hvP hvQ).Runs (.spl s)) ∧
    ∃ s, (ddzE hvF hvP hvQ).Runs (.spl s) := by
  refine ⟨?_, ?_, ?_⟩
  · obtain ⟨s, h, -⟩ := (Expr.AllBz.runs (e := ddxE hvF hvP hvQ)
      (by simp [Expr.AllBz, Expr.sub, Expr.sq, ddxE, hvF, hvP, hvQ, Bz])).2 3
      (by simp [Expr.bdeg, Expr.sub, Expr.sq, ddxE, hvF, hvP, hvQ, Bz]) (by norm_num)
    exact ⟨s, h⟩
  · obtain ⟨s, h, -⟩ := (Expr.AllBz.runs (e := ddyE hvF hvP hvQ)
      (by simp [Expr.AllBz, Expr.sq, ddyE, denE, hvF, hvP, hvQ, Bz])).2 3
      (by simp [Expr.bdeg, Expr.sq, ddyE, denE, hvF, hvP, hvQ, Bz]) (by norm_num)
    exact ⟨s, h⟩
  · obtain ⟨s, h, -⟩ := (Expr.AllBz.runs (e := ddzE hvF hvP hvQ)
      (by simp [Expr.AllBz, Expr.sub, Expr.sq, ddzE, hvF, hvP, hvQ, Bz])).2 4
      (by simp [Expr.bdeg, Expr.sub, Expr.sq, ddzE, hvF, hvP, hvQ, Bz]) (by norm_num)
    exact ⟨s, h⟩

/-- Default bounds: thrust and roll angle halfway; the horizontal velocity changes as the model says. -/
example : ∃ ax ay az, (ddxE hvF hvP hvQ).Runs (.spl ax) ∧
    (let s := quad3Signals hvF hvP hvQ ax ay az ⟨1, 2, 3, 0, 0, 1 / 10⟩ 0
     (s (1 / 2)).u1 ≤ 15 ∧ (s (1 / 2)).phi ≤ Real.pi / 6 ∧
     HasDerivAt (fun t => (s t).dx) ((s (1 / 2)).u1 * Real.sin (s (1 / 2)).theta * Real.cos (s (1 / 2)).phi) (1 / 2)) := by
  obtain ⟨⟨ax, rx⟩, ⟨ay, ry⟩, ⟨az, rz⟩⟩ := hvDd
  have hpi := Real.pi_pos
  have tf : Traj hvF 0 := Bz_traj rfl
  have tp : Traj hvP 1 := Bz_traj rfl
  have tq : Traj hvQ 1 := Bz_traj rfl
  have l := C55_limits (quad3Lim fun _ => none) hvF hvP hvQ ax ay az tf tp tq 1 one_pos hv_imposed
    (by simp only [quad3Lim, lim, Option.getD_none]; linarith) (by simp only [quad3Lim, lim, Option.getD_none]; linarith)
    (by simp only [quad3Lim, lim, Option.getD_none]; linarith) (by simp only [quad3Lim, lim, Option.getD_none]; linarith)
    (by simp only [quad3Lim, lim, Option.getD_none]; linarith) (by simp only [quad3Lim, lim, Option.getD_none]; linarith)
    (by simp only [quad3Lim, lim, Option.getD_none]; linarith) (by simp only [quad3Lim, lim, Option.getD_none]; linarith)
    ⟨1, 2, 3, 0, 0, 1 / 10⟩ 0 (1 / 2) (by norm_num) (by norm_num)
  have r := C55_reproduces hvF hvP hvQ ax ay az tf tp tq 1 one_pos (by simpa only [scale_one] using rx)
    (by simpa only [scale_one] using ry) (by simpa only [scale_one] using rz) ⟨1, 2, 3, 0, 0, 1 / 10⟩ 0 (1 / 2)
    (by norm_num) (by norm_num) 3 (by norm_num)
  simp only [scale_one] at l r
  exact ⟨ax, ay, az, rx, l.1.2, l.2.2.2.1.2, r⟩

example : |(⟨Bz 1, [0, 1]⟩ : BSpline ℝ).eval (3 / 10) - (⟨Bz 1, [1 / 2000, 1]⟩ : BSpline ℝ).eval (3 / 10)| ≤ 1 / 1000 := by
  have ev : ∀ {a b x : ℝ}, 0 ≤ x → x ≤ 1 → (⟨Bz 1, [a, b]⟩ : BSpline ℝ).eval x = a * (1 - x) + b * x := by
    intro a b x h0 h1; rw [Bz_eval rfl h0 h1]; simp [Finset.sum_range_succ, bern]
  refine C55_substitution _ _ ((Bz_traj rfl : Traj ⟨Bz 1, [0, 1]⟩ 1).mono (by omega))
    ((Bz_traj rfl : Traj ⟨Bz 1, [1 / 2000, 1]⟩ 1).mono (by omega)) 10 (by norm_num) ?_ ?_ 3 (by norm_num) (by norm_num)
  · refine Expr.AllBz.imposed (D := 1) (by simp [Expr.AllBz, Expr.sub, Bz]) (by simp [Expr.bdeg, Expr.sub, Bz]) (by norm_num)
      [-1 / 2000, 0] (fun x h0 h1 => ?_) ?_
    · simp only [Expr.val, Expr.sub, ev h0 h1]
      simp [Finset.sum_range_succ, bern]; ring
    · intro i hi; interval_cases i <;> norm_num
  · refine Expr.AllBz.imposed (D := 1) (by simp [Expr.AllBz, Expr.sub, Bz]) (by simp [Expr.bdeg, Expr.sub, Bz]) (by norm_num)
      [1 / 2000, 0] (fun x h0 h1 => ?_) ?_
    · simp only [Expr.val, Expr.sub, ev h0 h1]
      simp [Finset.sum_range_succ, bern]
    · intro i hi; interval_cases i <;> norm_num

/-- The same motion satisfies the limits on the magnitudes. -/
example : Real.sqrt (deriv (fun t => cub.eval (t / 10)) 5 ^ 2 + deriv (fun t => cub.eval (t / 10)) 5 ^ 2) ≤ 1 / 2 := by
  refine (C56_norm_2 (fun _ => none) cub cub exTg (cub_traj.mono (by omega)) (cub_traj.mono (by omega)) exTg_traj 10
    (by norm_num) (by norm_num [lim]) (by norm_num [lim]) ?_ 5 (by norm_num) (by norm_num)).1
  intro e he
  rcases List.mem_append.1 he with he | he
  · have ev1 : ∀ {x : ℝ}, 0 ≤ x → x ≤ 1 → (⟨Bz 2, [0, 3, 0]⟩ : BSpline ℝ).eval x = 6 * ((1 - x) - (1 - x) ^ 2) := by
      intro x h0 h1; rw [Bz_eval rfl h0 h1]; simp [Finset.sum_range_succ, bern]; ring
    have ev2 : ∀ {x : ℝ}, 0 ≤ x → x ≤ 1 → (⟨Bz 1, [6, -6]⟩ : BSpline ℝ).eval x = 12 * (1 - x) - 6 := by
      intro x h0 h1; rw [Bz_eval rfl h0 h1]; simp [Finset.sum_range_succ, bern]; ring
    simp only [holoTwo, cub_d1, cub_d2, List.mem_cons, List.not_mem_nil, or_false, lim, Option.getD_none] at he
    rcases he with rfl | rfl
    · refine Expr.AllBz.imposed (D := 4) (by simp [Expr.AllBz, Expr.sub, Expr.sq, Bz]) (by simp [Expr.bdeg, Expr.sub, Expr.sq, Bz])
        (by norm_num) [-25, -25, -13, -25, -25] (fun x h0 h1 => ?_) ?_
      · simp only [Expr.val, Expr.sub, Expr.sq, ev1 h0 h1]
        simp [Finset.sum_range_succ, bern, Nat.choose]; ring
      · intro i hi; interval_cases i <;> norm_num
    · refine Expr.AllBz.imposed_pow (D := 2) (by simp [Expr.AllBz, Expr.sub, Expr.sq, Bz]) (by simp [Expr.bdeg, Expr.sub, Expr.sq, Bz])
        (by norm_num) (fun j => [72 - 10000, -288, 288].getD j 0) (fun x h0 h1 => ?_) ?_
      · simp only [Expr.val, Expr.sub, Expr.sq, ev2 h0 h1]
        simp [Finset.sum_range_succ]; ring
      · intro w w0 wp wm
        simp [Finset.sum_range_succ, w0]
        have := wm 0; have := wm 1; have := wp 2
        norm_num at *
        linarith
  · exact exDubins 10 (by norm_num) e (List.mem_cons_of_mem _ (List.mem_cons_of_mem _ he))

end Verif.Vehicles
