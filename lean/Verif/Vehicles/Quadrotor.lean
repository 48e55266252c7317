import Verif.Vehicles.Bicycle
import Mathlib.Analysis.SpecialFunctions.Complex.LogDeriv

/-! # Quadrotor in the plane (C15)

Model of `Quadrotor` (quadrotor.py). -/

set_option linter.unusedSectionVars false

namespace Verif.Vehicles

open Verif.Spline Collision

/-! ## Model -/

/-- `self.g = 9.81`, quadrotor.py:38. -/
noncomputable def quadG : ℝ := 9.81

/-- `ddx**2 + (ddy+g_tf)**2`. -/
noncomputable def thrustE (x y : BSpline ℝ) (T : ℝ) : Expr ℝ :=
  .add (.sq (.spl (x.derivative 2))) (.sq (.add (.spl (y.derivative 2)) (.num (quadG * T ^ 2))))

/-- `dddx*(ddy+g_tf) - ddx*dddy`. -/
noncomputable def spinE (x y : BSpline ℝ) (T : ℝ) : Expr ℝ :=
  .sub (.mul (.spl (x.derivative 3)) (.add (.spl (y.derivative 2)) (.num (quadG * T ^ 2))))
    (.mul (.spl (x.derivative 2)) (.spl (y.derivative 3)))

/-- `Quadrotor.define_trajectory_constraints`, quadrotor.py:48-62 (each expression is `<= 0`). -/
noncomputable def quadC (b : Bounds) (x y : BSpline ℝ) (T : ℝ) : List (Expr ℝ) :=
  [.add (.neg (thrustE x y T)) (.num (T ^ 4 * lim b "u1min" 2 ^ 2)),
   .sub (thrustE x y T) (.num (T ^ 4 * lim b "u1max" 15 ^ 2)),
   .add (.neg (spinE x y T)) (.mul (thrustE x y T) (.num (T * lim b "u2min" (-8)))),
   .sub (spinE x y T) (.mul (thrustE x y T) (.num (T * lim b "u2max" 8)))]

structure QuadSignals where
  theta : ℝ
  u1 : ℝ
  u2 : ℝ

/-- `Quadrotor.splines2signals`, quadrotor.py:124-144, at one time instant; splines in physical time. -/
noncomputable def quadSignals (x y : BSpline ℝ) (t : ℝ) : QuadSignals where
  theta := arctan2 ((x.derivative 2).eval t) ((y.derivative 2).eval t + quadG)
  u1 := Real.sqrt ((x.derivative 2).eval t ^ 2 + ((y.derivative 2).eval t + quadG) ^ 2)
  u2 := ((x.derivative 3).eval t * ((y.derivative 2).eval t + quadG) - (x.derivative 2).eval t * (y.derivative 3).eval t)
    / (((y.derivative 2).eval t + quadG) ^ 2 + (x.derivative 2).eval t ^ 2)

/-- `Quadrotor.ode`, quadrotor.py:149-152: derivatives of the velocities and of `theta`. -/
noncomputable def quadOde (s : QuadSignals) : ℝ × ℝ × ℝ :=
  (s.u1 * Real.sin s.theta, s.u1 * Real.cos s.theta - quadG, s.u2)

/-! ## Lemmas -/

theorem polar {a b : ℝ} (h : a ^ 2 + b ^ 2 ≠ 0) :
    Real.sqrt (a ^ 2 + b ^ 2) * Real.sin (arctan2 a b) = a ∧ Real.sqrt (a ^ 2 + b ^ 2) * Real.cos (arctan2 a b) = b := by
  have hn : ‖(⟨b, a⟩ : ℂ)‖ = Real.sqrt (a ^ 2 + b ^ 2) := by
    rw [Complex.norm_def, Complex.normSq_mk]; congr 1; ring
  have hz : (⟨b, a⟩ : ℂ) ≠ 0 := by
    intro h0
    apply h
    have h1 := congrArg Complex.re h0
    have h2 := congrArg Complex.im h0
    simp at h1 h2
    rw [h1, h2]; ring
  have hpos : Real.sqrt (a ^ 2 + b ^ 2) ≠ 0 := by
    rw [← hn]; exact norm_ne_zero_iff.2 hz
  unfold arctan2
  rw [Complex.sin_arg, Complex.cos_arg hz, hn]
  constructor <;> field_simp

/-- Derivative of the angle of a moving vector. -/
theorem arctan2_hasDerivAt {f g : ℝ → ℝ} {f' g' t : ℝ} (hf : HasDerivAt f f' t) (hg : HasDerivAt g g' t)
    (hs : 0 < g t ∨ f t ≠ 0) :
    HasDerivAt (fun t => arctan2 (f t) (g t)) ((f' * g t - f t * g') / (g t ^ 2 + f t ^ 2)) t := by
  have hz : HasDerivAt (fun t => ((g t : ℂ) + (f t : ℂ) * Complex.I)) ((g' : ℂ) + (f' : ℂ) * Complex.I) t :=
    hg.ofReal_comp.add (hf.ofReal_comp.mul_const _)
  have hs' : ((g t : ℂ) + (f t : ℂ) * Complex.I) ∈ Complex.slitPlane := by
    rw [Complex.mem_slitPlane_iff]
    simpa using hs
  have hl := hz.clog_real hs'
  have him := (Complex.imCLM.hasFDerivAt.comp_hasDerivAt t hl)
  have e : (fun t => arctan2 (f t) (g t)) = (Complex.imCLM ∘ fun t => Complex.log ((g t : ℂ) + (f t : ℂ) * Complex.I)) := by
    funext u
    simp only [Function.comp_apply, Complex.imCLM_apply, Complex.log_im, arctan2]
    congr 1
    apply Complex.ext <;> simp
  rw [e]
  refine him.congr_deriv ?_
  rw [Complex.imCLM_apply, Complex.div_im]
  simp [Complex.normSq_apply]
  ring

/-! ## Properties -/

/-- **C15** If the trajectory constraints hold, thrust and rotation rate computed from the splines are
within the bounds at every time. -/
theorem C15_limits (b : Bounds) (x y : BSpline ℝ) (hx : Traj x 3) (hy : Traj y 3) (T : ℝ) (hT : 0 < T)
    (hc : ∀ e ∈ quadC b x y T, e.Imposed 0) (hmin : 0 < lim b "u1min" 2) (hmax : 0 ≤ lim b "u1max" 15)
    (t : ℝ) (h0 : 0 ≤ t) (h1 : t ≤ T) :
    let s := quadSignals (x.scale T 0) (y.scale T 0) t
    (lim b "u1min" 2 ≤ s.u1 ∧ s.u1 ≤ lim b "u1max" 15) ∧ lim b "u2min" (-8) ≤ s.u2 ∧ s.u2 ≤ lim b "u2max" 8 := by
  intro s
  have x2 : Traj (x.derivative 2) 1 := hx.iterate (n := 2) (m := 1)
  have y2 : Traj (y.derivative 2) 1 := hy.iterate (n := 2) (m := 1)
  have x3 : Traj (x.derivative 3) 0 := hx.iterate (n := 3) (m := 0)
  have y3 : Traj (y.derivative 3) 0 := hy.iterate (n := 3) (m := 0)
  have ot : (thrustE x y T).On 0 1 := ⟨⟨x2.on, x2.on⟩, ⟨y2.on, trivial⟩, y2.on, trivial⟩
  have os : (spinE x y T).On 0 1 := ⟨⟨x3.on, y2.on, trivial⟩, x2.on, y3.on⟩
  simp only [quadC, List.forall_mem_cons] at hc
  obtain ⟨c1, c2, c3, c4, -⟩ := hc
  have a1 := imposed_le c1 ⟨ot, trivial⟩ (Or.inl (Or.inl (Or.inl trivial))) hT h0 h1
  have a2 := imposed_le c2 ⟨ot, trivial⟩ (Or.inl (Or.inl (Or.inl trivial))) hT h0 h1
  have a3 := imposed_le c3 ⟨os, ot, trivial⟩ (Or.inl (Or.inl (Or.inl trivial))) hT h0 h1
  have a4 := imposed_le c4 ⟨os, ot, trivial⟩ (Or.inl (Or.inl (Or.inl trivial))) hT h0 h1
  simp only [Expr.val, Expr.sub, Expr.sq, thrustE, spinE] at a1 a2 a3 a4
  have e2x := (hx.mono (show 2 ≤ 3 by norm_num)).signal hT t
  have e2y := (hy.mono (show 2 ≤ 3 by norm_num)).signal hT t
  have e3x := hx.signal hT t
  have e3y := hy.signal hT t
  simp only [s, quadSignals, e2x, e2y, e3x, e3y]
  generalize (x.derivative 2).eval (t / T) = A at *
  generalize (y.derivative 2).eval (t / T) = B at *
  generalize (x.derivative 3).eval (t / T) = C at *
  generalize (y.derivative 3).eval (t / T) = D at *
  generalize quadG = G at *
  have hT4 : 0 < T ^ 4 := by positivity
  have k1 : (A / T ^ 2) ^ 2 + (B / T ^ 2 + G) ^ 2 = (A ^ 2 + (B + G * T ^ 2) ^ 2) / T ^ 4 := by field_simp
  have k2 : lim b "u1min" 2 ^ 2 ≤ (A / T ^ 2) ^ 2 + (B / T ^ 2 + G) ^ 2 := by
    rw [k1, le_div_iff₀ hT4]; nlinarith [a1]
  have k3 : (A / T ^ 2) ^ 2 + (B / T ^ 2 + G) ^ 2 ≤ lim b "u1max" 15 ^ 2 := by
    rw [k1, div_le_iff₀ hT4]; nlinarith [a2]
  have hden : 0 < A ^ 2 + (B + G * T ^ 2) ^ 2 := by
    have : 0 < (A ^ 2 + (B + G * T ^ 2) ^ 2) / T ^ 4 := by rw [← k1]; exact lt_of_lt_of_le (by positivity) k2
    exact (div_pos_iff_of_pos_right hT4).1 this
  have k4 : (C / T ^ 3 * (B / T ^ 2 + G) - A / T ^ 2 * (D / T ^ 3)) / ((B / T ^ 2 + G) ^ 2 + (A / T ^ 2) ^ 2)
      = (C * (B + G * T ^ 2) - A * D) / ((A ^ 2 + (B + G * T ^ 2) ^ 2) * T) := by
    have : (B / T ^ 2 + G) ^ 2 + (A / T ^ 2) ^ 2 = (A ^ 2 + (B + G * T ^ 2) ^ 2) / T ^ 4 := by rw [← k1]; ring
    rw [this, div_div_eq_mul_div, div_eq_div_iff hden.ne' (by positivity)]
    field_simp
  refine ⟨⟨Real.le_sqrt_of_sq_le k2, ?_⟩, ?_, ?_⟩
  · rw [Real.sqrt_le_left hmax]; exact k3
  · rw [k4, le_div_iff₀ (by positivity)]; linarith
  · rw [k4, div_le_iff₀ (by positivity)]; linarith

/-- **C15** Feeding the computed thrust and angle to the vehicle model reproduces the accelerations of the
splines, and, unless the thrust points straight down, the angle turns at the computed rate. -/
theorem C15_reproduces (b : Bounds) (x y : BSpline ℝ) (hx : Traj x 3) (hy : Traj y 3) (T : ℝ) (hT : 0 < T)
    (hc : ∀ e ∈ quadC b x y T, e.Imposed 0) (hmin : 0 < lim b "u1min" 2) (hmax : 0 ≤ lim b "u1max" 15)
    (t : ℝ) (h0 : 0 < t) (h1 : t < T) :
    let s := quadSignals (x.scale T 0) (y.scale T 0)
    iteratedDeriv 2 (fun t => x.eval (t / T)) t = (quadOde (s t)).1 ∧
    iteratedDeriv 2 (fun t => y.eval (t / T)) t = (quadOde (s t)).2.1 ∧
    (0 < iteratedDeriv 2 (fun t => y.eval (t / T)) t + quadG ∨ iteratedDeriv 2 (fun t => x.eval (t / T)) t ≠ 0 →
      HasDerivAt (fun t => (s t).theta) (quadOde (s t)).2.2 t) := by
  intro s
  have hl := (C15_limits b x y hx hy T hT hc hmin hmax t h0.le h1.le).1.1
  have hx2 := hx.mono (show 2 ≤ 3 by norm_num)
  have hy2 := hy.mono (show 2 ≤ 3 by norm_num)
  have e2x := fun t => hx2.signal hT t
  have e2y := fun t => hy2.signal hT t
  have e3x := fun t => hx.signal hT t
  have e3y := fun t => hy.signal hT t
  rw [hx2.iteratedDeriv hT h0 h1, hy2.iteratedDeriv hT h0 h1]
  simp only [quadSignals, e2x, e2y] at hl
  simp only [s, quadSignals, quadOde, e2x, e2y, e3x, e3y]
  have hne : ((x.derivative 2).eval (t / T) / T ^ 2) ^ 2 + ((y.derivative 2).eval (t / T) / T ^ 2 + quadG) ^ 2 ≠ 0 := by
    intro h
    rw [h, Real.sqrt_zero] at hl
    linarith
  obtain ⟨p1, p2⟩ := polar hne
  rw [p1, p2]
  refine ⟨rfl, by ring, fun hs => ?_⟩
  have x2 : Traj (x.derivative 2) 1 := hx.iterate (n := 2) (m := 1)
  have y2 : Traj (y.derivative 2) 1 := hy.iterate (n := 2) (m := 1)
  have dx := (x2.phys hT h0 h1).div_const (T ^ 2)
  have dy := ((y2.phys hT h0 h1).div_const (T ^ 2)).add_const quadG
  rw [← derivative_succ] at dx dy
  refine (arctan2_hasDerivAt dx dy hs).congr_deriv ?_
  congr 2 <;> field_simp

/-! ### Example: moving one metre in ten seconds -/

theorem exQuad : ∀ e ∈ quadC (fun _ => none) cub cub 10, e.Imposed 0 := by
  simp only [quadC, thrustE, spinE, List.forall_mem_cons, List.not_mem_nil, false_imp_iff, implies_true, and_true,
    lim, Option.getD_none, cub_d2, cub_d3, quadG]
  have ev : ∀ {x : ℝ}, 0 ≤ x → x ≤ 1 → (⟨Bz 1, [6, -6]⟩ : BSpline ℝ).eval x = 12 * (1 - x) - 6 := by
    intro x h0 h1; rw [Bz_eval rfl h0 h1]; simp [Finset.sum_range_succ, bern]; ring
  have ev0 : ∀ {x : ℝ}, 0 ≤ x → x ≤ 1 → (⟨Bz 0, [-12]⟩ : BSpline ℝ).eval x = -12 := by
    intro x h0 h1; rw [Bz_eval rfl h0 h1]; simp [bern]
  refine ⟨?_, ?_, ?_, ?_⟩
  · refine Expr.AllBz.imposed_pow (D := 2) ?_ ?_ (by norm_num)
      (fun j => [-(36 + 975 ^ 2) + 40000, -(12 * 2 * (-6 + 975)), -(2 * 144)].getD j 0) (fun x h0 h1 => ?_) ?_
    · simp [Expr.AllBz, Expr.sq, Bz]
    · simp [Expr.bdeg, Expr.sq, Bz]
    · simp only [Expr.val, Expr.sq, ev h0 h1]
      simp [Finset.sum_range_succ]; ring
    · intro w w0 wp wm
      simp [Finset.sum_range_succ, w0]
      have := wp 1; have := wp 2; have := wm 0; have := wm 1
      linarith
  · refine Expr.AllBz.imposed_pow (D := 2) ?_ ?_ (by norm_num)
      (fun j => [(36 + 975 ^ 2) - 2250000, (12 * 2 * (-6 + 975)), (2 * 144)].getD j 0) (fun x h0 h1 => ?_) ?_
    · simp [Expr.AllBz, Expr.sub, Expr.sq, Bz]
    · simp [Expr.bdeg, Expr.sub, Expr.sq, Bz]
    · simp only [Expr.val, Expr.sub, Expr.sq, ev h0 h1]
      simp [Finset.sum_range_succ]; ring
    · intro w w0 wp wm
      simp [Finset.sum_range_succ, w0]
      have := wp 1; have := wp 2; have := wm 0; have := wm 1
      linarith
  · refine Expr.AllBz.imposed_pow (D := 2) ?_ ?_ (by norm_num)
      (fun j => [-(-12 * 981) - (36 + 975 ^ 2) * 80, -(12 * 2 * (-6 + 975)) * 80, -(2 * 144) * 80].getD j 0)
      (fun x h0 h1 => ?_) ?_
    · simp [Expr.AllBz, Expr.sub, Expr.sq, Bz]
    · simp [Expr.bdeg, Expr.sub, Expr.sq, Bz]
    · simp only [Expr.val, Expr.sub, Expr.sq, ev h0 h1, ev0 h0 h1]
      simp [Finset.sum_range_succ]; ring
    · intro w w0 wp wm
      simp [Finset.sum_range_succ, w0]
      have := wp 1; have := wp 2; have := wm 0; have := wm 1
      linarith
  · refine Expr.AllBz.imposed_pow (D := 2) ?_ ?_ (by norm_num)
      (fun j => [(-12 * 981) - (36 + 975 ^ 2) * 80, -(12 * 2 * (-6 + 975)) * 80, -(2 * 144) * 80].getD j 0)
      (fun x h0 h1 => ?_) ?_
    · simp [Expr.AllBz, Expr.sub, Expr.sq, Bz]
    · simp [Expr.bdeg, Expr.sub, Expr.sq, Bz]
    · simp only [Expr.val, Expr.sub, Expr.sq, ev h0 h1, ev0 h0 h1]
      simp [Finset.sum_range_succ]; ring
    · intro w w0 wp wm
      simp [Finset.sum_range_succ, w0]
      have := wp 1; have := wp 2; have := wm 0; have := wm 1
      linarith

/-- Default bounds. -/
example (t : ℝ) (h0 : 0 ≤ t) (h1 : t ≤ 10) :
    2 ≤ (quadSignals (cub.scale 10 0) (cub.scale 10 0) t).u1 ∧ (quadSignals (cub.scale 10 0) (cub.scale 10 0) t).u2 ≤ 8 := by
  have := C15_limits (fun _ => none) cub cub cub_traj cub_traj 10 (by norm_num) exQuad (by norm_num [lim]) (by norm_num [lim])
    t h0 h1
  exact ⟨this.1.1, this.2.2⟩

example : iteratedDeriv 2 (fun t => cub.eval (t / 10)) 4
    = (quadOde (quadSignals (cub.scale 10 0) (cub.scale 10 0) 4)).1 :=
  (C15_reproduces (fun _ => none) cub cub cub_traj cub_traj 10 (by norm_num) exQuad (by norm_num [lim]) (by norm_num [lim])
    4 (by norm_num) (by norm_num)).1

end Verif.Vehicles
