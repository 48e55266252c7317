import Verif.Vehicles.Ex

/-! # Holonomic vehicles (C13)

Model of `define_trajectory_constraints` and of the signals of `Holonomic`, `Holonomic3D` and
`Holonomic1D`. -/

set_option linter.unusedSectionVars false

namespace Verif.Vehicles

open Verif.Spline

/-- The `bounds` dictionary of a vehicle. -/
abbrev Bounds := String → Option ℝ

/-- holonomic.py:33-52: `vxmin` etc. come from `bounds`, with a default, and are replaced by the
common value (`vmin` etc.) when that is given. -/
def holoLim (b : Bounds) (own common : String) (default : ℝ) : ℝ :=
  match b common with
  | some v => v
  | none => (b own).getD default

/-- A single bound: `bounds[key] if key in bounds else default`. -/
def lim (b : Bounds) (key : String) (default : ℝ) : ℝ := (b key).getD default

/-- `-s + c <= 0`, i.e. `c` is a lower bound. -/
def geC (s : BSpline ℝ) (c : ℝ) : Expr ℝ := .add (.neg (.spl s)) (.num c)

/-- `s - c <= 0`, i.e. `c` is an upper bound. -/
def leC (s : BSpline ℝ) (c : ℝ) : Expr ℝ := .sub (.spl s) (.num c)

/-- Constraints of one axis: velocity and acceleration. -/
noncomputable def axisC (x : BSpline ℝ) (T vmin vmax amin amax : ℝ) : List (Expr ℝ) :=
  [geC (x.derivative 1) (T * vmin), leC (x.derivative 1) (T * vmax),
   geC (x.derivative 2) (T ^ 2 * amin), leC (x.derivative 2) (T ^ 2 * amax)]

/-- `Holonomic.define_trajectory_constraints` with `syslimit = 'norm_inf'`, holonomic.py:59-83 (the
order of the constraints is changed, which is irrelevant). -/
noncomputable def holoInf (b : Bounds) (x y : BSpline ℝ) (T : ℝ) : List (Expr ℝ) :=
  axisC x T (holoLim b "vxmin" "vmin" (-(1 / 2))) (holoLim b "vxmax" "vmax" (1 / 2))
    (holoLim b "axmin" "amin" (-1)) (holoLim b "axmax" "amax" 1) ++
  axisC y T (holoLim b "vymin" "vmin" (-(1 / 2))) (holoLim b "vymax" "vmax" (1 / 2))
    (holoLim b "aymin" "amin" (-1)) (holoLim b "aymax" "amax" 1)

/-- `Holonomic.define_trajectory_constraints` with `syslimit = 'norm_2'`, holonomic.py:64-68. -/
noncomputable def holoTwo (b : Bounds) (x y : BSpline ℝ) (T : ℝ) : List (Expr ℝ) :=
  [.sub (.add (.sq (.spl (x.derivative 1))) (.sq (.spl (y.derivative 1))))
      (.num (T ^ 2 * lim b "vmax" (1 / 2) ^ 2)),
   .sub (.add (.sq (.spl (x.derivative 2))) (.sq (.spl (y.derivative 2))))
      (.num (T ^ 4 * lim b "amax" 1 ^ 2))]

/-- `Holonomic3D.define_trajectory_constraints`, `'norm_inf'`, holonomic3d.py:45-71. -/
noncomputable def holo3Inf (b : Bounds) (x y z : BSpline ℝ) (T : ℝ) : List (Expr ℝ) :=
  [x, y, z].flatMap fun s => axisC s T (lim b "vmin" (-(1 / 2))) (lim b "vmax" (1 / 2))
    (lim b "amin" (-1)) (lim b "amax" 1)

/-- `Holonomic3D.define_trajectory_constraints`, `'norm_2'`, holonomic3d.py:50-54. -/
noncomputable def holo3Two (b : Bounds) (x y z : BSpline ℝ) (T : ℝ) : List (Expr ℝ) :=
  [.sub (.add (.add (.sq (.spl (x.derivative 1))) (.sq (.spl (y.derivative 1)))) (.sq (.spl (z.derivative 1))))
      (.num (T ^ 2 * lim b "vmax" (1 / 2) ^ 2)),
   .sub (.add (.add (.sq (.spl (x.derivative 2))) (.sq (.spl (y.derivative 2)))) (.sq (.spl (z.derivative 2))))
      (.num (T ^ 4 * lim b "amax" 1 ^ 2))]

/-- `Holonomic1D.define_trajectory_constraints`, holonomic1d.py:40-48. -/
noncomputable def holo1 (b : Bounds) (x : BSpline ℝ) (T : ℝ) : List (Expr ℝ) :=
  axisC x T (lim b "vmin" (-(1 / 2))) (lim b "vmax" (1 / 2)) (lim b "amin" (-1)) (lim b "amax" 1)

/-- Samples of `splines2signals` (holonomic.py:165-175): the splines are first brought to physical time
(`concat_splines`, spline_extra.py:314-317, one segment) and then differentiated. -/
noncomputable def inputSignal (x : BSpline ℝ) (T t : ℝ) : ℝ := ((x.scale T 0).derivative 1).eval t

noncomputable def dinputSignal (x : BSpline ℝ) (T t : ℝ) : ℝ := ((x.scale T 0).derivative 2).eval t

/-! ## Properties -/

section
variable {x y z : BSpline ℝ} {T t c v : ℝ}

theorem geC_le {s : BSpline ℝ} {n : ℕ} (h : Traj s n) (hi : (geC s c).Imposed 0) (hT : 0 < T)
    (h0 : 0 ≤ t) (h1 : t ≤ T) : c ≤ s.eval (t / T) := by
  have := imposed_le hi ⟨h.on, trivial⟩ (Or.inl trivial) hT h0 h1
  simp only [geC, Expr.val] at this
  linarith

theorem leC_le {s : BSpline ℝ} {n : ℕ} (h : Traj s n) (hi : (leC s c).Imposed 0) (hT : 0 < T)
    (h0 : 0 ≤ t) (h1 : t ≤ T) : s.eval (t / T) ≤ c := by
  have := imposed_le hi ⟨h.on, trivial⟩ (Or.inl trivial) hT h0 h1
  simp only [leC, Expr.val, Expr.sub] at this
  linarith

/-- What the constraints of an axis give, in scaled derivatives. -/
theorem axisC_le {vmin vmax amin amax : ℝ} (hx : Traj x 2) (hT : 0 < T)
    (hc : ∀ e ∈ axisC x T vmin vmax amin amax, e.Imposed 0) (h0 : 0 ≤ t) (h1 : t ≤ T) :
    (vmin ≤ (x.derivative 1).eval (t / T) / T ∧ (x.derivative 1).eval (t / T) / T ≤ vmax) ∧
    amin ≤ (x.derivative 2).eval (t / T) / T ^ 2 ∧ (x.derivative 2).eval (t / T) / T ^ 2 ≤ amax := by
  have d1 : Traj (x.derivative 1) 1 := hx.succ
  have d2 : Traj (x.derivative 2) 0 := hx.iterate (n := 2) (m := 0)
  simp only [axisC, List.forall_mem_cons] at hc
  have a1 := geC_le d1 hc.1 hT h0 h1
  have a2 := leC_le d1 hc.2.1 hT h0 h1
  have a3 := geC_le d2 hc.2.2.1 hT h0 h1
  have a4 := leC_le d2 hc.2.2.2.1 hT h0 h1
  have hT2 : 0 < T ^ 2 := by positivity
  refine ⟨⟨?_, ?_⟩, ?_, ?_⟩
  · rw [le_div_iff₀ hT]; linarith
  · rw [div_le_iff₀ hT]; linarith
  · rw [le_div_iff₀ hT2]; linarith
  · rw [div_le_iff₀ hT2]; linarith

end

/-- The velocity and acceleration of the trajectory `t ↦ p (t/T)` at time `t` are within limits. -/
def Within (p : ℝ → ℝ) (T t vmin vmax amin amax : ℝ) : Prop :=
  (vmin ≤ deriv (fun t => p (t / T)) t ∧ deriv (fun t => p (t / T)) t ≤ vmax) ∧
  (amin ≤ iteratedDeriv 2 (fun t => p (t / T)) t ∧ iteratedDeriv 2 (fun t => p (t / T)) t ≤ amax)

theorem Traj.deriv_phys {s : BSpline ℝ} {n : ℕ} {T t : ℝ} (h : Traj s (n + 1)) (hT : 0 < T) (h0 : 0 < t)
    (h1 : t < T) : deriv (fun t => s.eval (t / T)) t = (s.derivative 1).eval (t / T) / T :=
  (h.phys hT h0 h1).deriv

theorem axisC_within {x : BSpline ℝ} {T t vmin vmax amin amax : ℝ} (hx : Traj x 2) (hT : 0 < T)
    (hc : ∀ e ∈ axisC x T vmin vmax amin amax, e.Imposed 0) (h0 : 0 < t) (h1 : t < T) :
    Within x.eval T t vmin vmax amin amax := by
  unfold Within
  rw [hx.deriv_phys hT h0 h1, hx.iteratedDeriv hT h0 h1]
  exact axisC_le hx hT hc h0.le h1.le

/-- **C13** (`syslimit = 'norm_inf'`).  Whatever the motion time, velocity and acceleration along each
axis stay within the limits given by the user, at every time. -/
theorem C13_norm_inf (b : Bounds) (x y : BSpline ℝ) (hx : Traj x 2) (hy : Traj y 2) (T : ℝ) (hT : 0 < T)
    (hc : ∀ e ∈ holoInf b x y T, e.Imposed 0) (t : ℝ) (h0 : 0 < t) (h1 : t < T) :
    Within x.eval T t (holoLim b "vxmin" "vmin" (-(1 / 2))) (holoLim b "vxmax" "vmax" (1 / 2))
      (holoLim b "axmin" "amin" (-1)) (holoLim b "axmax" "amax" 1) ∧
    Within y.eval T t (holoLim b "vymin" "vmin" (-(1 / 2))) (holoLim b "vymax" "vmax" (1 / 2))
      (holoLim b "aymin" "amin" (-1)) (holoLim b "aymax" "amax" 1) :=
  ⟨axisC_within hx hT (fun e he => hc e (List.mem_append_left _ he)) h0 h1,
   axisC_within hy hT (fun e he => hc e (List.mem_append_right _ he)) h0 h1⟩

theorem holoTwo_le {b : Bounds} {x y : BSpline ℝ} (hx : Traj x 2) (hy : Traj y 2) {T : ℝ} (hT : 0 < T)
    (hc : ∀ e ∈ holoTwo b x y T, e.Imposed 0) {t : ℝ} (h0 : 0 ≤ t) (h1 : t ≤ T) :
    ((x.derivative 1).eval (t / T) / T) ^ 2 + ((y.derivative 1).eval (t / T) / T) ^ 2 ≤ lim b "vmax" (1 / 2) ^ 2 ∧
    ((x.derivative 2).eval (t / T) / T ^ 2) ^ 2 + ((y.derivative 2).eval (t / T) / T ^ 2) ^ 2
      ≤ lim b "amax" 1 ^ 2 := by
  simp only [holoTwo, List.forall_mem_cons] at hc
  have dx1 := (hx.iterate (n := 1) (m := 1)).on
  have dy1 := (hy.iterate (n := 1) (m := 1)).on
  have dx2 := (hx.iterate (n := 2) (m := 0)).on
  have dy2 := (hy.iterate (n := 2) (m := 0)).on
  have a1 := imposed_le hc.1 ⟨⟨⟨dx1, dx1⟩, dy1, dy1⟩, trivial⟩ (Or.inl (Or.inl (Or.inl trivial))) hT h0 h1
  have a2 := imposed_le hc.2.1 ⟨⟨⟨dx2, dx2⟩, dy2, dy2⟩, trivial⟩ (Or.inl (Or.inl (Or.inl trivial))) hT h0 h1
  simp only [Expr.val, Expr.sub, Expr.sq] at a1 a2
  constructor
  · rw [div_pow, div_pow, ← add_div, div_le_iff₀ (by positivity)]; linarith
  · rw [div_pow, div_pow, ← add_div, div_le_iff₀ (by positivity), ← pow_mul]; linarith

/-- **C13** (`syslimit = 'norm_2'`).  The speed and the magnitude of the acceleration stay below the
limits at every time. -/
theorem C13_norm_2 (b : Bounds) (x y : BSpline ℝ) (hx : Traj x 2) (hy : Traj y 2) (T : ℝ) (hT : 0 < T)
    (hv : 0 ≤ lim b "vmax" (1 / 2)) (ha : 0 ≤ lim b "amax" 1)
    (hc : ∀ e ∈ holoTwo b x y T, e.Imposed 0) (t : ℝ) (h0 : 0 < t) (h1 : t < T) :
    Real.sqrt (deriv (fun t => x.eval (t / T)) t ^ 2 + deriv (fun t => y.eval (t / T)) t ^ 2)
      ≤ lim b "vmax" (1 / 2) ∧
    Real.sqrt (iteratedDeriv 2 (fun t => x.eval (t / T)) t ^ 2 + iteratedDeriv 2 (fun t => y.eval (t / T)) t ^ 2)
      ≤ lim b "amax" 1 := by
  rw [hx.deriv_phys hT h0 h1, hy.deriv_phys hT h0 h1, hx.iteratedDeriv hT h0 h1, hy.iteratedDeriv hT h0 h1]
  obtain ⟨a1, a2⟩ := holoTwo_le hx hy hT hc h0.le h1.le
  exact ⟨Real.sqrt_le_iff.2 ⟨hv, a1⟩, Real.sqrt_le_iff.2 ⟨ha, a2⟩⟩

/-- **C13** (three dimensions, `'norm_inf'`). -/
theorem C13_3d_norm_inf (b : Bounds) (x y z : BSpline ℝ) (T : ℝ) (hT : 0 < T)
    (hx : Traj x 2) (hy : Traj y 2) (hz : Traj z 2)
    (hc : ∀ e ∈ holo3Inf b x y z T, e.Imposed 0) (t : ℝ) (h0 : 0 < t) (h1 : t < T) :
    ∀ s ∈ [x, y, z], Within s.eval T t (lim b "vmin" (-(1 / 2))) (lim b "vmax" (1 / 2))
      (lim b "amin" (-1)) (lim b "amax" 1) := by
  intro s hs
  refine axisC_within ?_ hT (fun e he => hc e ?_) h0 h1
  · simp only [List.mem_cons, List.not_mem_nil, or_false] at hs
    rcases hs with rfl | rfl | rfl <;> assumption
  · exact List.mem_flatMap.2 ⟨s, hs, he⟩

/-- **C13** (three dimensions, `'norm_2'`). -/
theorem C13_3d_norm_2 (b : Bounds) (x y z : BSpline ℝ) (T : ℝ) (hT : 0 < T)
    (hx : Traj x 2) (hy : Traj y 2) (hz : Traj z 2)
    (hv : 0 ≤ lim b "vmax" (1 / 2)) (ha : 0 ≤ lim b "amax" 1)
    (hc : ∀ e ∈ holo3Two b x y z T, e.Imposed 0) (t : ℝ) (h0 : 0 < t) (h1 : t < T) :
    Real.sqrt (deriv (fun t => x.eval (t / T)) t ^ 2 + deriv (fun t => y.eval (t / T)) t ^ 2
      + deriv (fun t => z.eval (t / T)) t ^ 2) ≤ lim b "vmax" (1 / 2) ∧
    Real.sqrt (iteratedDeriv 2 (fun t => x.eval (t / T)) t ^ 2 + iteratedDeriv 2 (fun t => y.eval (t / T)) t ^ 2
      + iteratedDeriv 2 (fun t => z.eval (t / T)) t ^ 2) ≤ lim b "amax" 1 := by
  rw [hx.deriv_phys hT h0 h1, hy.deriv_phys hT h0 h1, hz.deriv_phys hT h0 h1, hx.iteratedDeriv hT h0 h1,
    hy.iteratedDeriv hT h0 h1, hz.iteratedDeriv hT h0 h1]
  simp only [holo3Two, List.forall_mem_cons] at hc
  have dx1 := (hx.iterate (n := 1) (m := 1)).on
  have dy1 := (hy.iterate (n := 1) (m := 1)).on
  have dz1 := (hz.iterate (n := 1) (m := 1)).on
  have dx2 := (hx.iterate (n := 2) (m := 0)).on
  have dy2 := (hy.iterate (n := 2) (m := 0)).on
  have dz2 := (hz.iterate (n := 2) (m := 0)).on
  have a1 := imposed_le hc.1 ⟨⟨⟨⟨dx1, dx1⟩, dy1, dy1⟩, dz1, dz1⟩, trivial⟩
    (Or.inl (Or.inr (Or.inl trivial))) hT h0.le h1.le
  have a2 := imposed_le hc.2.1 ⟨⟨⟨⟨dx2, dx2⟩, dy2, dy2⟩, dz2, dz2⟩, trivial⟩
    (Or.inl (Or.inr (Or.inl trivial))) hT h0.le h1.le
  simp only [Expr.val, Expr.sub, Expr.sq] at a1 a2
  refine ⟨Real.sqrt_le_iff.2 ⟨hv, ?_⟩, Real.sqrt_le_iff.2 ⟨ha, ?_⟩⟩
  · rw [div_pow, div_pow, div_pow, ← add_div, ← add_div, div_le_iff₀ (by positivity)]; linarith
  · rw [div_pow, div_pow, div_pow, ← add_div, ← add_div, div_le_iff₀ (by positivity), ← pow_mul]; linarith

/-- **C13** (one dimension). -/
theorem C13_1d (b : Bounds) (x : BSpline ℝ) (T : ℝ) (hT : 0 < T) (hx : Traj x 2)
    (hc : ∀ e ∈ holo1 b x T, e.Imposed 0) (t : ℝ) (h0 : 0 < t) (h1 : t < T) :
    Within x.eval T t (lim b "vmin" (-(1 / 2))) (lim b "vmax" (1 / 2)) (lim b "amin" (-1)) (lim b "amax" 1) :=
  axisC_within hx hT hc h0 h1

/-- **C13** The signals stored for the vehicle (`input` and `dinput`) are the velocity and the
acceleration of the trajectory, and obey the limits at every sample time, including both ends. -/
theorem C13_signals (b : Bounds) (x y : BSpline ℝ) (hx : Traj x 2) (hy : Traj y 2) (T : ℝ) (hT : 0 < T)
    (hc : ∀ e ∈ holoInf b x y T, e.Imposed 0) (t : ℝ) (h0 : 0 ≤ t) (h1 : t ≤ T) :
    ((holoLim b "vxmin" "vmin" (-(1 / 2)) ≤ inputSignal x T t ∧
      inputSignal x T t ≤ holoLim b "vxmax" "vmax" (1 / 2)) ∧
     (holoLim b "axmin" "amin" (-1) ≤ dinputSignal x T t ∧
      dinputSignal x T t ≤ holoLim b "axmax" "amax" 1)) ∧
    ((holoLim b "vymin" "vmin" (-(1 / 2)) ≤ inputSignal y T t ∧
      inputSignal y T t ≤ holoLim b "vymax" "vmax" (1 / 2)) ∧
     (holoLim b "aymin" "amin" (-1) ≤ dinputSignal y T t ∧
      dinputSignal y T t ≤ holoLim b "aymax" "amax" 1)) ∧
    (0 < t → t < T → inputSignal x T t = deriv (fun t => x.eval (t / T)) t ∧
      dinputSignal x T t = iteratedDeriv 2 (fun t => x.eval (t / T)) t) := by
  have hx1 : Traj x 1 := hx.mono (by omega)
  have hy1 : Traj y 1 := hy.mono (by omega)
  unfold inputSignal dinputSignal
  rw [hx1.signal hT, hy1.signal hT, hx.signal hT, hy.signal hT, pow_one]
  refine ⟨axisC_le hx hT (fun e he => hc e (List.mem_append_left _ he)) h0 h1,
   axisC_le hy hT (fun e he => hc e (List.mem_append_right _ he)) h0 h1, fun g0 g1 => ?_⟩
  exact ⟨(hx1.deriv_phys hT g0 g1).symm, (hx.iteratedDeriv hT g0 g1).symm⟩

/-! ## Concrete cases -/

theorem geC_imposed {s : BSpline ℝ} {c : ℝ} (h : ∀ a ∈ s.coeffs, c ≤ a) : (geC s c).Imposed 0 := by
  refine ⟨_, .addSN (.negSpl (.spl s)) (.num c), fun a ha => ?_⟩
  simp only [BSpline.addNum, BSpline.neg, List.map_map, List.mem_map, Function.comp] at ha
  obtain ⟨d, hd, rfl⟩ := ha
  linarith [h d hd]

theorem leC_imposed {s : BSpline ℝ} {c : ℝ} (h : ∀ a ∈ s.coeffs, a ≤ c) : (leC s c).Imposed 0 := by
  refine ⟨_, .addSN (.spl s) (.negNum (.num c)), fun a ha => ?_⟩
  simp only [BSpline.addNum, List.mem_map] at ha
  obtain ⟨d, hd, rfl⟩ := ha
  linarith [h d hd]

/-- User bounds: slower along `y`. -/
noncomputable def exB : Bounds := fun k => if k = "vymax" then some (3 / 10) else none

theorem cub_axis : ∀ e ∈ axisC cub 10 (-(1 / 2)) (3 / 10) (-1) 1, e.Imposed 0 := by
  intro e he
  simp only [axisC, cub_d1, cub_d2, List.mem_cons, List.not_mem_nil, or_false] at he
  rcases he with rfl | rfl | rfl | rfl
  · exact geC_imposed (by norm_num)
  · exact leC_imposed (by norm_num)
  · exact geC_imposed (by norm_num)
  · exact leC_imposed (by norm_num)

theorem cub_axis' : ∀ e ∈ axisC cub 10 (-(1 / 2)) (1 / 2) (-1) 1, e.Imposed 0 := by
  intro e he
  simp only [axisC, cub_d1, cub_d2, List.mem_cons, List.not_mem_nil, or_false] at he
  rcases he with rfl | rfl | rfl | rfl
  · exact geC_imposed (by norm_num)
  · exact leC_imposed (by norm_num)
  · exact geC_imposed (by norm_num)
  · exact leC_imposed (by norm_num)

theorem exB_holo : ∀ e ∈ holoInf exB cub cub 10, e.Imposed 0 := by
  intro e he
  rcases List.mem_append.1 he with h | h
  · exact cub_axis' e (by simpa [holoLim, exB] using h)
  · exact cub_axis e (by simpa [holoLim, exB] using h)

/-- The manoeuvre in 10 seconds meets the constraints and, by the theorem, the limits. -/
example (t : ℝ) (h0 : 0 < t) (h1 : t < 10) : deriv (fun t => cub.eval (t / 10)) t ≤ 3 / 10 := by
  have := (C13_norm_inf exB cub cub (cub_traj.mono (by omega)) (cub_traj.mono (by omega)) 10 (by norm_num)
    exB_holo t h0 h1).2.1.2
  simpa [holoLim, exB] using this

example (t : ℝ) (h0 : 0 ≤ t) (h1 : t ≤ 10) : dinputSignal cub 10 t ≤ 1 := by
  have := (C13_signals exB cub cub (cub_traj.mono (by omega)) (cub_traj.mono (by omega)) 10 (by norm_num)
    exB_holo t h0 h1).1.2.2
  simpa [holoLim, exB] using this

theorem cub_two : ∀ e ∈ holoTwo (fun _ => none) cub cub 10, e.Imposed 0 := by
  intro e he
  simp only [holoTwo, cub_d1, cub_d2, List.mem_cons, List.not_mem_nil, or_false] at he
  rcases he with rfl | rfl
  · refine Expr.AllBz.imposed (D := 4) ?_ ?_ (by norm_num) [-25, -25, -13, -25, -25] (fun x h0 h1 => ?_) ?_
    · simp [Expr.AllBz, Expr.sub, Expr.sq, Bz]
    · simp [Expr.bdeg, Expr.sub, Expr.sq, Bz]
    · simp only [Expr.val, Expr.sub, Expr.sq]
      rw [Bz_eval rfl h0 h1]
      simp [Finset.sum_range_succ, bern, Nat.choose, lim]
      ring
    · intro i hi; interval_cases i <;> norm_num
  · refine Expr.AllBz.imposed (D := 2) ?_ ?_ (by norm_num) [-9928, -10072, -9928] (fun x h0 h1 => ?_) ?_
    · simp [Expr.AllBz, Expr.sub, Expr.sq, Bz]
    · simp [Expr.bdeg, Expr.sub, Expr.sq, Bz]
    · simp only [Expr.val, Expr.sub, Expr.sq]
      rw [Bz_eval rfl h0 h1]
      simp [Finset.sum_range_succ, bern, Nat.choose, lim]
      ring
    · intro i hi; interval_cases i <;> norm_num

example (t : ℝ) (h0 : 0 < t) (h1 : t < 10) :
    Real.sqrt (deriv (fun t => cub.eval (t / 10)) t ^ 2 + deriv (fun t => cub.eval (t / 10)) t ^ 2) ≤ 1 / 2 := by
  have := (C13_norm_2 (fun _ => none) cub cub (cub_traj.mono (by omega)) (cub_traj.mono (by omega)) 10 (by norm_num)
    (by norm_num [lim]) (by norm_num [lim]) cub_two t h0 h1).1
  simpa [lim] using this

example (t : ℝ) (h0 : 0 < t) (h1 : t < 10) : deriv (fun t => cub.eval (t / 10)) t ≤ 1 / 2 := by
  have := (C13_3d_norm_inf (fun _ => none) cub cub cub 10 (by norm_num) (cub_traj.mono (by omega))
    (cub_traj.mono (by omega)) (cub_traj.mono (by omega)) (fun e he => by
      obtain ⟨s, hs, he⟩ := List.mem_flatMap.1 he
      have : s = cub := by simpa using hs
      subst this
      exact cub_axis' e (by simpa [lim] using he)) t h0 h1 cub (by simp)).1.2
  simpa [lim] using this

theorem cub_3two : ∀ e ∈ holo3Two (fun _ => none) cub cub cub 10, e.Imposed 0 := by
  intro e he
  simp only [holo3Two, cub_d1, cub_d2, List.mem_cons, List.not_mem_nil, or_false] at he
  rcases he with rfl | rfl
  · refine Expr.AllBz.imposed (D := 4) ?_ ?_ (by norm_num) [-25, -25, -7, -25, -25] (fun x h0 h1 => ?_) ?_
    · simp [Expr.AllBz, Expr.sub, Expr.sq, Bz]
    · simp [Expr.bdeg, Expr.sub, Expr.sq, Bz]
    · simp only [Expr.val, Expr.sub, Expr.sq]
      rw [Bz_eval rfl h0 h1]
      simp [Finset.sum_range_succ, bern, Nat.choose, lim]
      ring
    · intro i hi; interval_cases i <;> norm_num
  · refine Expr.AllBz.imposed (D := 2) ?_ ?_ (by norm_num) [-9892, -10108, -9892] (fun x h0 h1 => ?_) ?_
    · simp [Expr.AllBz, Expr.sub, Expr.sq, Bz]
    · simp [Expr.bdeg, Expr.sub, Expr.sq, Bz]
    · simp only [Expr.val, Expr.sub, Expr.sq]
      rw [Bz_eval rfl h0 h1]
      simp [Finset.sum_range_succ, bern, Nat.choose, lim]
      ring
    · intro i hi; interval_cases i <;> norm_num

example (t : ℝ) (h0 : 0 < t) (h1 : t < 10) :
    Real.sqrt (iteratedDeriv 2 (fun t => cub.eval (t / 10)) t ^ 2 + iteratedDeriv 2 (fun t => cub.eval (t / 10)) t ^ 2
      + iteratedDeriv 2 (fun t => cub.eval (t / 10)) t ^ 2) ≤ 1 := by
  have := (C13_3d_norm_2 (fun _ => none) cub cub cub 10 (by norm_num) (cub_traj.mono (by omega))
    (cub_traj.mono (by omega)) (cub_traj.mono (by omega)) (by norm_num [lim]) (by norm_num [lim]) cub_3two t h0 h1).2
  simpa [lim] using this

example (t : ℝ) (h0 : 0 < t) (h1 : t < 10) : deriv (fun t => cub.eval (t / 10)) t ≤ 1 / 2 := by
  have := (C13_1d (fun _ => none) cub 10 (by norm_num) (cub_traj.mono (by omega))
    (by simpa [holo1, lim] using cub_axis') t h0 h1).1.2
  simpa [lim] using this

/-- The default splines of a vehicle (degree 3, 10 knot intervals) meet the smoothness assumption. -/
example (c : List ℝ) (h : c.length = 13) : Traj ⟨vehBasis 3 10, c⟩ 2 := vehBasis_traj (by omega) (by omega) h

end Verif.Vehicles
