import Verif.Vehicles.Runs
import Verif.Vehicles.Holonomic
import Mathlib.Analysis.SpecialFunctions.Complex.Arg

/-! # Differential drive vehicle (C14)

Model of `Dubins` (dubins.py) with the option `substitution` off (the default). -/

set_option linter.unusedSectionVars false

namespace Verif.Vehicles

open Verif.Spline Collision

/-! ## Model -/

/-- `numpy.arctan2(y, x)`. -/
noncomputable def arctan2 (y x : ℝ) : ℝ := Complex.arg ⟨x, y⟩

/-- The turn rate constraints on the tangent half angle: dubins.py:115-116, holonomicorient.py:82-83. -/
noncomputable def turnC (b : Bounds) (tg : BSpline ℝ) (T : ℝ) : List (Expr ℝ) :=
  [.sub (.mul (.num 2) (.spl (tg.derivative 1)))
      (.mul (.mul (denE tg) (.num T)) (.num (lim b "wmax" (Real.pi / 6)))),
   .add (.mul (.num (-2)) (.spl (tg.derivative 1)))
      (.mul (.mul (denE tg) (.num T)) (.num (lim b "wmin" (-Real.pi / 6))))]

/-- `Dubins.define_trajectory_constraints`, dubins.py:74-116 (each expression is `<= 0`). -/
noncomputable def dubinsC (b : Bounds) (v tg : BSpline ℝ) (T : ℝ) : List (Expr ℝ) :=
  .sub (.mul (.spl v) (denE tg)) (.num (lim b "vmax" (1 / 2))) :: .neg (.spl v) :: turnC b tg T

/-- State and input of a differential drive vehicle. -/
structure Unicycle where
  x : ℝ
  y : ℝ
  theta : ℝ
  V : ℝ
  omega : ℝ

/-- `Dubins.splines2signals`, dubins.py:270-291, at one time instant.  The splines are in physical time;
`dx`, `dy` are the splines `v_til*(1-tg_ha**2)` and `v_til*(2*tg_ha)`; `x0`, `y0` the position at the
first instant `t0`.  The sampled `den = 1+tg_ha**2` is replaced by its value. -/
noncomputable def dubinsSignals (v tg dx dy : BSpline ℝ) (x0 y0 t0 t : ℝ) : Unicycle where
  x := (integrateOnce dx x0 t0 1).eval t
  y := (integrateOnce dy y0 t0 1).eval t
  theta := 2 * arctan2 (tg.eval t) 1
  V := v.eval t * (1 + tg.eval t ^ 2)
  omega := 2 * (tg.derivative 1).eval t / (1 + tg.eval t ^ 2)

/-- `Dubins.ode`, dubins.py:321-328: derivative of `(x, y, theta)`. -/
noncomputable def dubinsOde (s : Unicycle) : ℝ × ℝ × ℝ :=
  (s.V * Real.cos s.theta, s.V * Real.sin s.theta, s.omega)

/-! ## Lemmas -/

theorem arctan2_one (q : ℝ) : arctan2 q 1 = Real.arctan q := by
  unfold arctan2
  rw [Complex.arg_of_re_nonneg (by simp), Real.arctan_eq_arcsin]
  congr 2
  rw [Complex.norm_def, Complex.normSq_mk]
  congr 1; ring

theorem heading_eq (q : ℝ) : 2 * arctan2 q 1 = heading q := by rw [arctan2_one]; rfl

theorem Traj.scaled {s : BSpline ℝ} {n : ℕ} {T : ℝ} (h : Traj s n) (hT : 0 < T) : TrajOn (s.scale T 0) 0 T n := by
  obtain ⟨d1, d2⟩ := C07_domain s h.clamped T 0
  have hc : ∀ τ, (s.scale T 0).basis.knots.count τ = s.basis.knots.count (τ / T) := by
    intro τ
    have hinj : Function.Injective (fun t : ℝ => t * T + 0) := fun a b hab => by
      have : a * T + 0 = b * T + 0 := hab
      exact mul_right_cancel₀ hT.ne' (by linarith)
    have e : τ = (fun t : ℝ => t * T + 0) (τ / T) := by simp [div_mul_cancel₀ _ hT.ne']
    show (s.basis.knots.map _).count τ = _
    conv_lhs => rw [e]
    rw [List.count_map_of_injective _ _ hinj]
  refine ⟨scale_clamped h.clamped hT 0, ?_, by rw [d1, h.first]; ring, by rw [d2, h.last]; ring, ?_, ?_⟩
  · show s.coeffs.length = (s.basis.scale T 0).len
    have : (s.basis.scale T 0).len = s.basis.len := by simp [Basis.len, Basis.scale]
    rw [this]; exact h.wf
  · intro τ h0 h1
    rw [hc]
    exact h.simple _ (div_pos h0 hT) ((div_lt_one hT).2 h1)
  · rw [hc, div_self hT.ne']; exact h.tail

theorem scaled_eval {s : BSpline ℝ} {n : ℕ} {T : ℝ} (h : Traj s n) (hT : 0 < T) (t : ℝ) :
    (s.scale T 0).eval t = s.eval (t / T) := by
  have := (h.mono (Nat.zero_le n)).signal hT t
  simpa [BSpline.derivative] using this

theorem TrajOn.mono {s : BSpline ℝ} {lo hi : ℝ} {n m : ℕ} (h : TrajOn s lo hi n) (hm : m ≤ n) : TrajOn s lo hi m :=
  ⟨h.clamped, h.wf, h.first, h.last, fun τ a b => by have := h.simple τ a b; omega, h.tail⟩

/-- The integrated position moves along the heading with speed `v_til*(1+tg_ha**2)`. -/
theorem unicycle {v tg dx dy : BSpline ℝ} {lo hi T : ℝ} (hv : TrajOn v lo hi 0) (htg : TrajOn tg lo hi 0)
    (rx : (dxE v tg).Runs (.spl dx)) (ry : (dyE v tg).Runs (.spl dy)) (hT : 0 < T) (x0 y0 t0 : ℝ) {t : ℝ}
    (h0 : lo < t / T) (h1 : t / T < hi) :
    HasDerivAt (fun t => (integrateOnce dx x0 t0 T).eval (t / T))
      (v.eval (t / T) * (1 + tg.eval (t / T) ^ 2) * Real.cos (heading (tg.eval (t / T)))) t ∧
    HasDerivAt (fun t => (integrateOnce dy y0 t0 T).eval (t / T))
      (v.eval (t / T) * (1 + tg.eval (t / T) ^ 2) * Real.sin (heading (tg.eval (t / T)))) t := by
  obtain ⟨a1, a2⟩ := runs_spl (n := 0) rx ⟨hv, trivial, htg, htg⟩
  obtain ⟨b1, b2⟩ := runs_spl (n := 0) ry ⟨hv, trivial, htg⟩
  have c1 := C17_velocity dx lo hi a1 T hT x0 t0 t h0 h1
  have c2 := C17_velocity dy lo hi b1 T hT y0 t0 t h0 h1
  rw [a2 _ h0.le h1.le] at c1
  rw [b2 _ h0.le h1.le] at c2
  have hp : (0 : ℝ) < 1 + tg.eval (t / T) ^ 2 := by positivity
  refine ⟨c1.congr_deriv ?_, c2.congr_deriv ?_⟩
  · rw [cos_heading']; simp only [dxE, Expr.val, Expr.sub, Expr.sq]; field_simp; ring
  · rw [sin_heading']; simp only [dyE, Expr.val]; field_simp

/-- The turn rate constraints bound the derivative of the heading. -/
theorem turnC_le {b : Bounds} {tg : BSpline ℝ} {T t : ℝ} (ht : Traj tg 1) (hT : 0 < T)
    (hc : ∀ e ∈ turnC b tg T, e.Imposed 0) (h0 : 0 ≤ t) (h1 : t ≤ T) :
    lim b "wmin" (-Real.pi / 6) ≤ 2 * ((tg.derivative 1).eval (t / T) / T) / (1 + tg.eval (t / T) ^ 2) ∧
    2 * ((tg.derivative 1).eval (t / T) / T) / (1 + tg.eval (t / T) ^ 2) ≤ lim b "wmax" (Real.pi / 6) := by
  have d1 : Traj (tg.derivative 1) 0 := ht.succ
  simp only [turnC, List.forall_mem_cons] at hc
  have a1 := imposed_le hc.1 ⟨⟨trivial, d1.on⟩, ⟨⟨trivial, ht.on, ht.on⟩, trivial⟩, trivial⟩ (Or.inl (Or.inr trivial)) hT h0 h1
  have a2 := imposed_le hc.2.1 ⟨⟨trivial, d1.on⟩, ⟨⟨trivial, ht.on, ht.on⟩, trivial⟩, trivial⟩ (Or.inl (Or.inr trivial)) hT h0 h1
  simp only [Expr.val, Expr.sub, Expr.sq, denE] at a1 a2
  have hp : (0 : ℝ) < 1 + tg.eval (t / T) ^ 2 := by positivity
  have e : 2 * ((tg.derivative 1).eval (t / T) / T) / (1 + tg.eval (t / T) ^ 2)
      = 2 * (tg.derivative 1).eval (t / T) / ((1 + tg.eval (t / T) ^ 2) * T) := by field_simp
  rw [e, le_div_iff₀ (by positivity), div_le_iff₀ (by positivity)]
  constructor
  · nlinarith [a2]
  · nlinarith [a1]

theorem speed_le {v tg : BSpline ℝ} {T t vmax : ℝ} (hv : Traj v 0) (ht : Traj tg 0) (hT : 0 < T)
    (c1 : (Expr.sub (.mul (.spl v) (denE tg)) (.num vmax)).Imposed 0) (c2 : (Expr.neg (.spl v)).Imposed 0)
    (h0 : 0 ≤ t) (h1 : t ≤ T) :
    0 ≤ v.eval (t / T) * (1 + tg.eval (t / T) ^ 2) ∧ v.eval (t / T) * (1 + tg.eval (t / T) ^ 2) ≤ vmax := by
  have a1 := imposed_le c1 ⟨⟨hv.on, trivial, ht.on, ht.on⟩, trivial⟩ (Or.inl (Or.inl trivial)) hT h0 h1
  have a2 := imposed_le c2 hv.on trivial hT h0 h1
  simp only [Expr.val, Expr.sub, Expr.sq, denE] at a1 a2
  have : 0 ≤ v.eval (t / T) := by linarith
  exact ⟨by positivity, by nlinarith [a1]⟩

/-! ## Properties -/

/-- **C14** (differential drive, the trajectory inside the optimisation problem).  If the trajectory
constraints hold then at every time of the motion the vehicle moves along its heading `2 arctan tg_ha`
with a speed `V` between 0 and `vmax`, and the turn rate is between `wmin` and `wmax`. -/
theorem C14_dubins (b : Bounds) (v tg dx dy : BSpline ℝ) (hv : Traj v 0) (ht : Traj tg 1) (T : ℝ) (hT : 0 < T)
    (hc : ∀ e ∈ dubinsC b v tg T, e.Imposed 0)
    (rx : (dxE v tg).Runs (.spl dx)) (ry : (dyE v tg).Runs (.spl dy)) (x0 y0 t0 t : ℝ) (h0 : 0 < t) (h1 : t < T) :
    ∃ V ω, 0 ≤ V ∧ V ≤ lim b "vmax" (1 / 2) ∧
      lim b "wmin" (-Real.pi / 6) ≤ ω ∧ ω ≤ lim b "wmax" (Real.pi / 6) ∧
      HasDerivAt (fun t => heading (tg.eval (t / T))) ω t ∧
      HasDerivAt (fun t => (integrateOnce dx x0 t0 T).eval (t / T)) (V * Real.cos (heading (tg.eval (t / T)))) t ∧
      HasDerivAt (fun t => (integrateOnce dy y0 t0 T).eval (t / T)) (V * Real.sin (heading (tg.eval (t / T)))) t := by
  obtain ⟨m0, m1⟩ := phys_mem hT h0 h1
  simp only [dubinsC] at hc
  rw [List.forall_mem_cons, List.forall_mem_cons] at hc
  obtain ⟨s1, s2⟩ := speed_le hv (ht.mono (Nat.zero_le _)) hT hc.1 hc.2.1 h0.le h1.le
  obtain ⟨w1, w2⟩ := turnC_le ht hT hc.2.2 h0.le h1.le
  obtain ⟨u1, u2⟩ := unicycle hv.trajOn (ht.mono (Nat.zero_le _)).trajOn rx ry hT x0 y0 t0 m0 m1
  exact ⟨_, _, s1, s2, w1, w2, heading_hasDerivAt (ht.phys hT h0 h1), u1, u2⟩

/-- **C14** (differential drive, the signals given to the user).  The stored inputs respect the limits at
every instant, and the stored state moves as the vehicle model says under the stored inputs. -/
theorem C14_dubins_signals (b : Bounds) (v tg dx dy : BSpline ℝ) (hv : Traj v 0) (ht : Traj tg 1) (T : ℝ)
    (hT : 0 < T) (hc : ∀ e ∈ dubinsC b v tg T, e.Imposed 0)
    (rx : (dxE (v.scale T 0) (tg.scale T 0)).Runs (.spl dx))
    (ry : (dyE (v.scale T 0) (tg.scale T 0)).Runs (.spl dy)) (x0 y0 t0 : ℝ) :
    let s := dubinsSignals (v.scale T 0) (tg.scale T 0) dx dy x0 y0 t0
    (∀ t, 0 ≤ t → t ≤ T → 0 ≤ (s t).V ∧ (s t).V ≤ lim b "vmax" (1 / 2) ∧
      lim b "wmin" (-Real.pi / 6) ≤ (s t).omega ∧ (s t).omega ≤ lim b "wmax" (Real.pi / 6)) ∧
    (∀ t, 0 < t → t < T →
      HasDerivAt (fun t => (s t).x) (dubinsOde (s t)).1 t ∧ HasDerivAt (fun t => (s t).y) (dubinsOde (s t)).2.1 t ∧
      HasDerivAt (fun t => (s t).theta) (dubinsOde (s t)).2.2 t) ∧
    (0 ≤ t0 → t0 ≤ T → (s t0).x = x0 ∧ (s t0).y = y0) := by
  intro s
  simp only [dubinsC] at hc
  rw [List.forall_mem_cons, List.forall_mem_cons] at hc
  have ht0 := ht.mono (Nat.zero_le 1)
  have ev : ∀ t, (v.scale T 0).eval t = v.eval (t / T) := scaled_eval hv hT
  have et : ∀ t, (tg.scale T 0).eval t = tg.eval (t / T) := scaled_eval ht hT
  have ed : ∀ t, ((tg.scale T 0).derivative 1).eval t = (tg.derivative 1).eval (t / T) / T := by
    intro t; have := ht.signal hT t; rwa [pow_one] at this
  have sv := hv.scaled hT
  have st := ht.scaled hT
  refine ⟨fun t h0 h1 => ?_, fun t h0 h1 => ?_, fun h0 h1 => ?_⟩
  · obtain ⟨s1, s2⟩ := speed_le hv ht0 hT hc.1 hc.2.1 h0 h1
    obtain ⟨w1, w2⟩ := turnC_le ht hT hc.2.2 h0 h1
    simp only [s, dubinsSignals, ev, et, ed]
    exact ⟨s1, s2, w1, w2⟩
  · obtain ⟨u1, u2⟩ := unicycle sv (st.mono (Nat.zero_le _)) rx ry one_pos x0 y0 t0 (t := t) (by simpa using h0) (by simpa using h1)
    have hd := heading_hasDerivAt (st.hasDerivAt h0 h1)
    simp only [div_one] at u1 u2
    simp only [s, dubinsSignals, dubinsOde, heading_eq]
    exact ⟨u1, u2, hd⟩
  · obtain ⟨a1, -⟩ := runs_spl (n := 0) rx ⟨sv, trivial, st.mono (Nat.zero_le _), st.mono (Nat.zero_le _)⟩
    obtain ⟨b1, -⟩ := runs_spl (n := 0) ry ⟨sv, trivial, st.mono (Nat.zero_le _)⟩
    have c1 := (C17_integrate_once dx 0 T a1 1 one_pos x0 t0 (by simpa using h0) (by simpa using h1)).1
    have c2 := (C17_integrate_once dy 0 T b1 1 one_pos y0 t0 (by simpa using h0) (by simpa using h1)).1
    simp only [div_one] at c1 c2
    exact ⟨c1, c2⟩

/-- Speeding up from 0.1 to 0.2 while turning. -/
noncomputable def exV : BSpline ℝ := ⟨Bz 1, [1 / 10, 1 / 5]⟩
noncomputable def exTg : BSpline ℝ := ⟨Bz 1, [0, 1 / 10]⟩

theorem exTg_d1 : exTg.derivative 1 = ⟨Bz 0, [1 / 10]⟩ := by
  unfold exTg; rw [Bz_derivative rfl]; norm_num [List.range_succ]

theorem exDubins (T : ℝ) (hT : 1 ≤ T) : ∀ e ∈ dubinsC (fun _ => none) exV exTg T, e.Imposed 0 := by
  have hpi := Real.pi_gt_three
  have hb : ∀ i : ℕ, i ≤ 2 → ([0, 0, 1 / 100] : List ℝ).getD i 0 ≤ 1 := by
    intro i hi; interval_cases i <;> norm_num
  have hb0 : ∀ i : ℕ, i ≤ 2 → 0 ≤ ([0, 0, 1 / 100] : List ℝ).getD i 0 := by
    intro i hi; interval_cases i <;> norm_num
  simp only [dubinsC, turnC, List.forall_mem_cons]
  rw [exTg_d1]
  refine ⟨?_, ?_, ?_, ?_, by simp⟩
  · refine Expr.AllBz.imposed (D := 3) ?_ ?_ (by norm_num)
      [1 / 10 - 1 / 2, 2 / 15 - 1 / 2, 1 / 6 + 1 / 3000 - 1 / 2, 1 / 5 + 1 / 500 - 1 / 2] (fun x h0 h1 => ?_) ?_
    · simp [Expr.AllBz, Expr.sub, Expr.sq, denE, exV, exTg, Bz]
    · simp [Expr.bdeg, Expr.sub, Expr.sq, denE, exV, exTg, Bz]
    · simp only [Expr.val, Expr.sub, Expr.sq, denE, exV, exTg]
      rw [Bz_eval rfl h0 h1, Bz_eval rfl h0 h1]
      simp [Finset.sum_range_succ, bern, Nat.choose, lim]; ring
    · intro i hi; interval_cases i <;> norm_num
  · refine Expr.AllBz.imposed (D := 1) ?_ ?_ (by norm_num) [-(1 / 10), -(1 / 5)] (fun x h0 h1 => ?_) ?_
    · simp [Expr.AllBz, exV, Bz]
    · simp [Expr.bdeg, exV, Bz]
    · simp only [Expr.val, exV]
      rw [Bz_eval rfl h0 h1]
      simp [Finset.sum_range_succ, bern, Nat.choose]; ring
    · intro i hi; interval_cases i <;> norm_num
  · refine Expr.AllBz.imposed (D := 2) ?_ ?_ (by norm_num)
      [1 / 5 - T * (Real.pi / 6), 1 / 5 - T * (Real.pi / 6), 1 / 5 - T * (Real.pi / 6) * (101 / 100)] (fun x h0 h1 => ?_) ?_
    · simp [Expr.AllBz, Expr.sub, Expr.sq, denE, exTg, Bz]
    · simp [Expr.bdeg, Expr.sub, Expr.sq, denE, exTg, Bz]
    · simp only [Expr.val, Expr.sub, Expr.sq, denE, exTg]
      rw [Bz_eval rfl h0 h1, Bz_eval rfl h0 h1]
      simp [Finset.sum_range_succ, bern, Nat.choose, lim]; ring
    · intro i hi; interval_cases i <;> simp only [List.getD_cons_zero, List.getD_cons_succ] <;> nlinarith
  · refine Expr.AllBz.imposed (D := 2) ?_ ?_ (by norm_num)
      [-(1 / 5) - T * (Real.pi / 6), -(1 / 5) - T * (Real.pi / 6), -(1 / 5) - T * (Real.pi / 6) * (101 / 100)]
      (fun x h0 h1 => ?_) ?_
    · simp [Expr.AllBz, Expr.sq, denE, exTg, Bz]
    · simp [Expr.bdeg, Expr.sq, denE, exTg, Bz]
    · simp only [Expr.val, Expr.sq, denE, exTg]
      rw [Bz_eval rfl h0 h1, Bz_eval rfl h0 h1]
      simp [Finset.sum_range_succ, bern, Nat.choose, lim]; ring
    · intro i hi; interval_cases i <;> simp only [List.getD_cons_zero, List.getD_cons_succ] <;> nlinarith

theorem exDx : ∃ s, (dxE exV exTg).Runs (.spl s) := by
  obtain ⟨s, h, -⟩ := (Expr.AllBz.runs (e := dxE exV exTg)
    (by simp [Expr.AllBz, Expr.sub, Expr.sq, dxE, exV, exTg, Bz])).2 3
    (by simp [Expr.bdeg, Expr.sub, Expr.sq, dxE, exV, exTg, Bz]) (by norm_num)
  exact ⟨s, h⟩

theorem exDy : ∃ s, (dyE exV exTg).Runs (.spl s) := by
  obtain ⟨s, h, -⟩ := (Expr.AllBz.runs (e := dyE exV exTg)
    (by simp [Expr.AllBz, dyE, exV, exTg, Bz])).2 2
    (by simp [Expr.bdeg, dyE, exV, exTg, Bz]) (by norm_num)
  exact ⟨s, h⟩

theorem exV_traj : Traj exV 1 := Bz_traj rfl
theorem exTg_traj : Traj exTg 1 := Bz_traj rfl

/-- Default bounds, motion time 8 s: halfway the speed is between 0 and 0.5. -/
example : ∃ dx V ω, (dxE exV exTg).Runs (.spl dx) ∧ 0 ≤ V ∧ V ≤ 1 / 2 ∧ -Real.pi / 6 ≤ ω ∧ ω ≤ Real.pi / 6 ∧
    HasDerivAt (fun t => heading (exTg.eval (t / 8))) ω 4 ∧
    HasDerivAt (fun t => (integrateOnce dx 3 0 8).eval (t / 8)) (V * Real.cos (heading (exTg.eval (4 / 8)))) 4 := by
  obtain ⟨dx, rx⟩ := exDx
  obtain ⟨dy, ry⟩ := exDy
  obtain ⟨V, ω, a, b, c, d, e, f, -⟩ := C14_dubins (fun _ => none) exV exTg dx dy (exV_traj.mono (Nat.zero_le _))
    exTg_traj 8 (by norm_num) (exDubins 8 (by norm_num)) rx ry 3 1 0 4 (by norm_num) (by norm_num)
  exact ⟨dx, V, ω, rx, a, b, c, d, e, f⟩

theorem scale_one (s : BSpline ℝ) : s.scale 1 0 = s := by
  simp [BSpline.scale, Basis.scale]

/-- One second of motion: the stored inputs. -/
example : ∃ dx dy, (dxE exV exTg).Runs (.spl dx) ∧ ∀ t, 0 ≤ t → t ≤ 1 →
    (dubinsSignals exV exTg dx dy 3 1 0 t).V ≤ 1 / 2 ∧ (dubinsSignals exV exTg dx dy 3 1 0 0).x = 3 := by
  obtain ⟨dx, rx⟩ := exDx
  obtain ⟨dy, ry⟩ := exDy
  have := C14_dubins_signals (fun _ => none) exV exTg dx dy (exV_traj.mono (Nat.zero_le _))
    exTg_traj 1 one_pos (exDubins 1 le_rfl) (by rw [scale_one, scale_one]; exact rx)
    (by rw [scale_one, scale_one]; exact ry) 3 1 0
  simp only [scale_one] at this
  exact ⟨dx, dy, rx, fun t h0 h1 => ⟨(this.1 t h0 h1).2.1, (this.2.2 le_rfl zero_le_one).1⟩⟩

end Verif.Vehicles
