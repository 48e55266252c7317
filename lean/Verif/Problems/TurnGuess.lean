import Verif.Problems.InitGuess
import Verif.GCode.RingGuess
import Verif.Vehicles.Dubins
import Verif.Vehicles.Goal
import Verif.Vehicles.Quadrotor3D
import Verif.Spline.Usable
import Verif.Problems.Mission

/-! # Initial guesses of vehicles that are steered by their heading (C189)

Mirrors `get_init_spline_value` of `dubins.py`, `agv.py`, `bicycle.py`, `quadrotor3d.py` and `trailer.py`. -/

set_option linter.unusedSectionVars false

namespace Verif.Problems.TurnGuess

open Verif.Spline Verif.Vehicles Verif.Problems.InitGuess

/-! ## Model -/

/-- `get_init_spline_value`, dubins.py:209-218, agv.py:181-190 and bicycle.py:214-223: zeros for `v_til` and `linspace` for the tangent of half the heading;
columns of the array for the `len` coefficients. -/
noncomputable def turnGuess (len : ℕ) (theta0 thetaT : ℝ) : List (List ℝ) :=
  [List.replicate len 0, linspace (Real.tan (theta0 / 2)) (Real.tan (thetaT / 2)) len]

/-- `Quadrotor3D.get_init_spline_value`, quadrotor3d.py:187-198. -/
noncomputable def leanGuess (len : ℕ) (phi0 phiT theta0 thetaT : ℝ) : List (List ℝ) :=
  [List.replicate len 0, linspace (Real.tan (phi0 / 2)) (Real.tan (phiT / 2)) len, linspace (Real.tan (theta0 / 2)) (Real.tan (thetaT / 2)) len]

/-- `Trailer.get_init_spline_value`, trailer.py:117-128: the column of the trailer before the columns of the vehicle that pulls it (`np.c_`); without a heading to
end with (`theta_trT`) the trailer keeps its own.  `none` is the `ValueError` of `np.c_` for columns of different lengths. -/
noncomputable def trailerGuess (len : ℕ) (theta0 : ℝ) (thetaT : Option ℝ) (lead : List (List ℝ)) : Option (List (List ℝ)) :=
  if ∀ c ∈ lead, c.length = len then
    some (linspace (Real.tan (theta0 / 2)) (Real.tan (thetaT.getD theta0 / 2)) len :: lead)
  else none

/-! ## Specification -/

/-- A turn during `[0, T]` from one heading to another without turning back. -/
def Spec.Turns (T theta0 thetaT : ℝ) (heading : ℝ → ℝ) : Prop :=
  heading 0 = theta0 ∧ heading T = thetaT ∧ ContinuousOn heading (Set.Icc 0 T) ∧
  (theta0 ≤ thetaT → MonotoneOn heading (Set.Icc 0 T)) ∧ (thetaT ≤ theta0 → AntitoneOn heading (Set.Icc 0 T))

/-! ## Lemmas -/

theorem deriv_veh_pos {d n : ℕ} (hn : 1 ≤ n) {c : List ℝ} (hc : c.length = n + (d + 1)) :
    ∃ c' : List ℝ, c'.length = n + d ∧ (⟨vehBasis (d + 1) n, c⟩ : BSpline ℝ).derivative 1 = ⟨vehBasis d n, c'⟩ ∧
      ∀ j, j < n + d → ∃ r : ℝ, 0 < r ∧ c'.getD j 0 = r * (c.getD (j + 1) 0 - c.getD j 0) := by
  obtain ⟨c', l, e, -⟩ := GCode.RingGuess.deriv_veh (d := d) hn hc
  refine ⟨c', l, e, fun j hj => ?_⟩
  have wf : (⟨vehBasis (d + 1) n, c⟩ : BSpline ℝ).WF := by unfold BSpline.WF; simp only; rw [vehBasis_len, hc]
  obtain ⟨-, -, -, -, -, h6⟩ := derivative_one_spec (s := ⟨vehBasis (d + 1) n, c⟩) (vehBasis_clamped hn) wf (by show 1 ≤ d + 1; omega)
  have := h6 j (by simp only; rw [vehBasis_len]; omega)
  rw [e] at this
  simp only at this
  rw [this]
  have hd : (vehBasis (d + 1) n).degree = d + 1 := rfl
  rw [hd]
  have hn0 : (0 : ℝ) < n := by exact_mod_cast hn
  have hk : 0 < (vehBasis (d + 1) n).k (j + (d + 1) + 1) - (vehBasis (d + 1) n).k (j + 1) := by
    rw [vehBasis_k hn, vehBasis_k hn, ← sub_div]
    refine div_pos (sub_pos.2 ?_) hn0
    have : min (j + 1 - (d + 1)) n < min (j + (d + 1) + 1 - (d + 1)) n := by omega
    exact_mod_cast this
  exact ⟨((d + 1 : ℕ) : ℝ) / ((vehBasis (d + 1) n).k (j + (d + 1) + 1) - (vehBasis (d + 1) n).k (j + 1)), div_pos (by positivity) hk, by ring⟩

theorem line_traj {d n : ℕ} (hd : 2 ≤ d) (hn : 1 ≤ n) (a b : ℝ) : Traj ⟨vehBasis d n, linspace a b (n + d)⟩ 1 :=
  (vehBasis_traj (by omega) hn (linspace_length _ _ _)).mono (by omega)

/-- A spline through equal steps goes from the first to the last without turning back. -/
theorem line_mono {d n : ℕ} (hd : 2 ≤ d) (hn : 1 ≤ n) (a b : ℝ) :
    let s : BSpline ℝ := ⟨vehBasis d n, linspace a b (n + d)⟩
    s.eval 0 = a ∧ s.eval 1 = b ∧ ContinuousOn s.eval (Set.Icc 0 1) ∧
    (a ≤ b → MonotoneOn s.eval (Set.Icc 0 1)) ∧ (b ≤ a → AntitoneOn s.eval (Set.Icc 0 1)) := by
  intro s
  have ht := line_traj hd hn a b
  obtain ⟨d, rfl⟩ : ∃ e, d = e + 1 := ⟨d - 1, by omega⟩
  obtain ⟨c', l, e, hr⟩ := deriv_veh_pos hn (linspace_length a b (n + (d + 1)))
  have h2 : (2 : ℝ) ≤ ((n + (d + 1) : ℕ) : ℝ) := by exact_mod_cast (by omega)
  obtain ⟨v0, v1⟩ := GCode.RingGuess.veh_first (d := d + 1) hn (linspace_length a b (n + (d + 1)))
  have step : ∀ j, j < n + d → (linspace a b (n + (d + 1))).getD (j + 1) 0 - (linspace a b (n + (d + 1))).getD j 0 =
      (b - a) / (((n + (d + 1) : ℕ) : ℝ) - 1) := fun j hj => by
    rw [linspace_getD _ _ _ _ (by omega), linspace_getD _ _ _ _ (by omega)]
    push_cast
    ring
  have sgn : ∀ σ : ℝ, 0 ≤ σ * (b - a) → ∀ j, j < n + d → 0 ≤ σ * c'.getD j 0 := fun σ hs j hj => by
    obtain ⟨r, hr0, er⟩ := hr j hj
    rw [er, step j hj]
    have : σ * (r * ((b - a) / (((n + (d + 1) : ℕ) : ℝ) - 1))) = r * ((σ * (b - a)) / (((n + (d + 1) : ℕ) : ℝ) - 1)) := by ring
    rw [this]
    exact mul_nonneg hr0.le (div_nonneg hs (by linarith))
  have dsgn : ∀ τ, 0 ≤ τ → τ ≤ 1 → (∀ j, j < n + d → 0 ≤ c'.getD j 0) → 0 ≤ (s.derivative 1).eval τ := fun τ t0 t1 hj => by
    rw [show s.derivative 1 = _ from e]
    obtain ⟨e0, e1⟩ := GCode.BangBang.veh_ends d n hn
    have hwf : (BSpline.mk (vehBasis d n) c').WF := by simp [BSpline.WF, l, vehBasis_len]
    obtain ⟨M, -, hM⟩ := list_bound c'
    exact (C03_bounds (BSpline.mk (vehBasis d n) c') (vehBasis_clamped hn) hwf 0 M (fun c hc => by
      obtain ⟨i, hi, rfl⟩ := List.mem_iff_getElem.1 hc
      have := hj i (by simp only at hi; omega)
      rw [List.getD_eq_getElem _ _ hi] at this
      exact ⟨this, (le_abs_self _).trans (hM _ (List.getElem_mem hi))⟩) τ (by rw [show _ = _ from e0]; exact t0) (by rw [show _ = _ from e1]; exact t1)).1
  have dsgn' : ∀ τ, 0 ≤ τ → τ ≤ 1 → (∀ j, j < n + d → c'.getD j 0 ≤ 0) → (s.derivative 1).eval τ ≤ 0 := fun τ t0 t1 hj => by
    rw [show s.derivative 1 = _ from e]
    obtain ⟨e0, e1⟩ := GCode.BangBang.veh_ends d n hn
    have hwf : (BSpline.mk (vehBasis d n) c').WF := by simp [BSpline.WF, l, vehBasis_len]
    obtain ⟨M, -, hM⟩ := list_bound c'
    exact (C03_bounds (BSpline.mk (vehBasis d n) c') (vehBasis_clamped hn) hwf (-M) 0 (fun c hc => by
      obtain ⟨i, hi, rfl⟩ := List.mem_iff_getElem.1 hc
      have := hj i (by simp only at hi; omega)
      rw [List.getD_eq_getElem _ _ hi] at this
      exact ⟨neg_le_of_abs_le (hM _ (List.getElem_mem hi)), this⟩) τ (by rw [show _ = _ from e0]; exact t0) (by rw [show _ = _ from e1]; exact t1)).2
  have cont : ContinuousOn s.eval (Set.Icc 0 1) := fun τ hτ => (GCode.RingGuess.within_Icc (m := 0) ht hτ.1 hτ.2).continuousWithinAt
  have dif : ∀ τ ∈ interior (Set.Icc (0 : ℝ) 1), HasDerivAt s.eval ((s.derivative 1).eval τ) τ := fun τ hτ => by
    rw [interior_Icc] at hτ
    exact ht.hasDerivAt hτ.1 hτ.2
  have inn : ∀ τ ∈ interior (Set.Icc (0 : ℝ) 1), 0 ≤ τ ∧ τ ≤ 1 := fun τ hτ => Set.mem_Icc.1 (interior_subset hτ)
  refine ⟨?_, ?_, cont, fun hab => ?_, fun hab => ?_⟩
  · rw [v0, linspace_getD _ _ _ _ (by omega)]; simp
  · rw [v1, linspace_getD _ _ _ _ (by omega), Nat.cast_sub (by omega), Nat.cast_one, div_self (by linarith)]
    ring
  · refine monotoneOn_of_deriv_nonneg (convex_Icc 0 1) cont (fun τ hτ => (dif τ hτ).differentiableAt.differentiableWithinAt) fun τ hτ => ?_
    rw [(dif τ hτ).deriv]
    exact dsgn τ (inn τ hτ).1 (inn τ hτ).2 fun j hj => by simpa using sgn 1 (by linarith) j hj
  · refine antitoneOn_of_deriv_nonpos (convex_Icc 0 1) cont (fun τ hτ => (dif τ hτ).differentiableAt.differentiableWithinAt) fun τ hτ => ?_
    rw [(dif τ hτ).deriv]
    exact dsgn' τ (inn τ hτ).1 (inn τ hτ).2 fun j hj => by have := sgn (-1) (by linarith) j hj; linarith

theorem tan_half_le {a b : ℝ} (ha : -Real.pi < a) (hb : b < Real.pi) (h : a ≤ b) : Real.tan (a / 2) ≤ Real.tan (b / 2) := by
  rcases h.eq_or_lt with rfl | h
  · exact le_rfl
  · exact (Real.tan_lt_tan_of_lt_of_lt_pi_div_two (by linarith) (by linarith) (by linarith)).le

/-- The heading of a spline through equal steps between tangents of half headings. -/
theorem turn_line {d n : ℕ} (hd : 2 ≤ d) (hn : 1 ≤ n) {T : ℝ} (hT : 0 < T) {a b : ℝ} (a0 : -Real.pi < a) (a1 : a < Real.pi) (b0 : -Real.pi < b)
    (b1 : b < Real.pi) : Spec.Turns T a b fun t =>
      2 * arctan2 (((⟨vehBasis d n, linspace (Real.tan (a / 2)) (Real.tan (b / 2)) (n + d)⟩ : BSpline ℝ).scale T 0).eval t) 1 := by
  have ht := line_traj hd hn (Real.tan (a / 2)) (Real.tan (b / 2))
  obtain ⟨e0, e1, hc, hm, ha⟩ := line_mono hd hn (Real.tan (a / 2)) (Real.tan (b / 2))
  simp only [scaled_eval ht hT]
  have m : ∀ t ∈ Set.Icc 0 T, t / T ∈ Set.Icc (0 : ℝ) 1 := fun t h => ⟨div_nonneg h.1 hT.le, (div_le_one hT).2 h.2⟩
  have dm : ∀ t ∈ Set.Icc 0 T, ∀ u ∈ Set.Icc 0 T, t ≤ u → t / T ≤ u / T := fun t _ u _ h => by gcongr
  refine ⟨?_, ?_, ?_, fun h => ?_, fun h => ?_⟩
  · beta_reduce; rw [zero_div, e0]; exact angle_back a0 a1
  · beta_reduce; rw [div_self hT.ne', e1]; exact angle_back b0 b1
  · simp only [arctan2_one]
    exact continuousOn_const.mul (Real.continuous_arctan.comp_continuousOn (hc.comp (continuousOn_id.div_const T) m))
  · intro t h0 u h1 htu
    simp only [arctan2_one]
    have := hm (tan_half_le a0 b1 h) (m t h0) (m u h1) (dm t h0 u h1 htu)
    linarith [Real.arctan_mono this]
  · intro t h0 u h1 htu
    simp only [arctan2_one]
    have := ha (tan_half_le b0 a1 h) (m t h0) (m u h1) (dm t h0 u h1 htu)
    linarith [Real.arctan_mono this]

theorem zero_eval {d n : ℕ} (hn : 1 ≤ n) {x : ℝ} (h0 : 0 ≤ x) (h1 : x ≤ 1) : (⟨vehBasis d n, List.replicate (n + d) 0⟩ : BSpline ℝ).eval x = 0 := by
  have := eval_weights d n hn (fun _ => 0) 0 0 (List.replicate (n + d) 0) (by simp) (fun i hi => by rw [getD_rep _ _ _ _ hi]; ring) x h0 h1
  simpa [InitGuess.Spec.at'] using this

/-! ## C189 -/

/-- **C189** The first guess of a vehicle with a heading (for a Dubins vehicle with headings within half a turn of zero): carried out, the vehicle turns on the spot,
from its own heading to that of the goal, without turning back. -/
theorem C189_turns (d n : ℕ) (hd : 2 ≤ d) (hn : 1 ≤ n) (theta0 thetaT : ℝ) (a0 : -Real.pi < theta0) (a1 : theta0 < Real.pi) (b0 : -Real.pi < thetaT)
    (b1 : thetaT < Real.pi) (T : ℝ) (hT : 0 < T) (v tg dx dy : BSpline ℝ) (guess : turnGuess (n + d) theta0 thetaT = [v.coeffs, tg.coeffs])
    (hv : v.basis = vehBasis d n) (ht : tg.basis = vehBasis d n) (rx : (dxE (v.scale T 0) (tg.scale T 0)).Runs (.spl dx))
    (ry : (dyE (v.scale T 0) (tg.scale T 0)).Runs (.spl dy)) (x0 y0 : ℝ) :
    let s := dubinsSignals (v.scale T 0) (tg.scale T 0) dx dy x0 y0 0
    (∀ t ∈ Set.Icc 0 T, (s t).x = x0 ∧ (s t).y = y0 ∧ (s t).V = 0) ∧ Spec.Turns T theta0 thetaT fun t => (s t).theta := by
  intro s
  obtain ⟨bv, cv⟩ := v
  obtain ⟨bt, ct⟩ := tg
  simp only [turnGuess, List.cons.injEq, and_true] at guess hv ht
  obtain ⟨rfl, rfl⟩ := guess
  subst hv ht
  have tt := line_traj hd hn (Real.tan (theta0 / 2)) (Real.tan (thetaT / 2))
  have tv : Traj (⟨vehBasis d n, List.replicate (n + d) 0⟩ : BSpline ℝ) 0 := (vehBasis_traj (by omega) hn (by simp)).mono (Nat.zero_le _)
  have ev := scaled_eval tv hT
  have z : ∀ t ∈ Set.Icc 0 T, ((⟨vehBasis d n, List.replicate (n + d) 0⟩ : BSpline ℝ).scale T 0).eval t = 0 := fun t h => by
    rw [ev]; exact zero_eval hn (div_nonneg h.1 hT.le) ((div_le_one hT).2 h.2)
  have sv := tv.scaled hT
  have st := (tt.mono (Nat.zero_le 1)).scaled hT
  obtain ⟨x1, x2⟩ := runs_spl (n := 0) rx ⟨sv, trivial, st, st⟩
  obtain ⟨y1, y2⟩ := runs_spl (n := 0) ry ⟨sv, trivial, st⟩
  refine ⟨fun t h => ⟨?_, ?_, ?_⟩, turn_line hd hn hT a0 a1 b0 b1⟩
  · have := (C17_integrate_once dx 0 T x1 1 one_pos x0 0 (by simp) (by simpa using hT.le)).2 t (by simpa using h.1) (by simpa using h.2)
    simp only [div_one] at this
    show (integrateOnce dx x0 0 1).eval t = x0
    rw [this, intervalIntegral.integral_zero_ae, add_zero]
    refine Filter.Eventually.of_forall fun u hu => ?_
    rw [Set.uIoc_of_le h.1] at hu
    rw [x2 u hu.1.le (hu.2.trans h.2)]
    simp [dxE, Expr.val, Expr.sub, z u ⟨hu.1.le, hu.2.trans h.2⟩]
  · have := (C17_integrate_once dy 0 T y1 1 one_pos y0 0 (by simp) (by simpa using hT.le)).2 t (by simpa using h.1) (by simpa using h.2)
    simp only [div_one] at this
    show (integrateOnce dy y0 0 1).eval t = y0
    rw [this, intervalIntegral.integral_zero_ae, add_zero]
    refine Filter.Eventually.of_forall fun u hu => ?_
    rw [Set.uIoc_of_le h.1] at hu
    rw [y2 u hu.1.le (hu.2.trans h.2)]
    simp [dyE, Expr.val, z u ⟨hu.1.le, hu.2.trans h.2⟩]
  · show ((⟨vehBasis d n, List.replicate (n + d) 0⟩ : BSpline ℝ).scale T 0).eval t * _ = 0
    rw [z t h, zero_mul]

/-- **C189** (the way round) The guess may take the longer way: between headings on either side of zero that are more than half a turn apart it goes through heading
zero, though the turn through half a turn is shorter. -/
theorem C189_longer_violated (d n : ℕ) (hd : 2 ≤ d) (hn : 1 ≤ n) (theta0 thetaT : ℝ) (a0 : 0 < theta0) (a1 : theta0 < Real.pi) (b0 : -Real.pi < thetaT)
    (b1 : thetaT < 0) (far : Real.pi < theta0 - thetaT) (T : ℝ) (hT : 0 < T) (c : List ℝ) (guess : (turnGuess (n + d) theta0 thetaT)[1]? = some c) :
    2 * Real.pi - (theta0 - thetaT) < theta0 - thetaT ∧
    ∃ t ∈ Set.Icc 0 T, 2 * arctan2 (((⟨vehBasis d n, c⟩ : BSpline ℝ).scale T 0).eval t) 1 = 0 := by
  simp only [turnGuess, List.getElem?_cons_succ, List.getElem?_cons_zero, Option.some.injEq] at guess
  subst guess
  obtain ⟨h0, h1, hc, -⟩ := turn_line hd hn hT (by linarith) a1 b0 (by linarith)
  refine ⟨by linarith, ?_⟩
  obtain ⟨t, ht, e⟩ := intermediate_value_Icc' hT.le hc (show (0 : ℝ) ∈ Set.Icc _ _ from ⟨h1.le.trans b1.le, a0.le.trans h0.ge⟩)
  exact ⟨t, ht, e⟩

/-- **C189** (quadrotor in space) Roll and pitch go from their values to those of the goal without turning back. -/
theorem C189_leans (d n : ℕ) (hd : 2 ≤ d) (hn : 1 ≤ n) (phi0 phiT theta0 thetaT : ℝ) (h : ∀ a ∈ [phi0, phiT, theta0, thetaT], -Real.pi < a ∧ a < Real.pi)
    (T : ℝ) (hT : 0 < T) (f qp qt ax ay az : BSpline ℝ) (guess : leanGuess (n + d) phi0 phiT theta0 thetaT = [f.coeffs, qp.coeffs, qt.coeffs])
    (hp : qp.basis = vehBasis d n) (ht : qt.basis = vehBasis d n) (p : Start3) :
    let s := quad3Signals (f.scale T 0) (qp.scale T 0) (qt.scale T 0) ax ay az p 0
    (Spec.Turns T phi0 phiT fun t => (s t).phi) ∧ Spec.Turns T theta0 thetaT fun t => (s t).theta := by
  intro s
  obtain ⟨bp, cp⟩ := qp
  obtain ⟨bt, ct⟩ := qt
  simp only [leanGuess, List.cons.injEq, and_true] at guess hp ht
  obtain ⟨-, rfl, rfl⟩ := guess
  subst hp ht
  have a := h phi0 (by simp)
  have b := h phiT (by simp)
  have c := h theta0 (by simp)
  have e := h thetaT (by simp)
  exact ⟨turn_line hd hn hT a.1 a.2 b.1 b.2, turn_line hd hn hT c.1 c.2 e.1 e.2⟩

/-- **C189** (trailer) With a vehicle whose splines are like those of the trailer, the guess is that of the vehicle behind a column for the trailer, which turns from its
heading to that wanted, or keeps it if none is. -/
theorem C189_trailer_partial (d n : ℕ) (hd : 2 ≤ d) (hn : 1 ≤ n) (theta0 : ℝ) (thetaT : Option ℝ) (a0 : -Real.pi < theta0) (a1 : theta0 < Real.pi)
    (b : ∀ a ∈ thetaT, -Real.pi < a ∧ a < Real.pi) (veh0 vehT : ℝ) (T : ℝ) (hT : 0 < T) :
    ∃ c, trailerGuess (n + d) theta0 thetaT (turnGuess (n + d) veh0 vehT) = some (c :: turnGuess (n + d) veh0 vehT) ∧
      Spec.Turns T theta0 (thetaT.getD theta0) fun t => 2 * arctan2 (((⟨vehBasis d n, c⟩ : BSpline ℝ).scale T 0).eval t) 1 := by
  refine ⟨_, by unfold trailerGuess; rw [if_pos]; intro c hc; simp only [turnGuess, List.mem_cons, List.not_mem_nil, or_false] at hc; rcases hc with rfl | rfl <;> simp [linspace_length], ?_⟩
  have hb : -Real.pi < thetaT.getD theta0 ∧ thetaT.getD theta0 < Real.pi := by
    cases thetaT with
    | none => exact ⟨a0, a1⟩
    | some a => exact b a rfl
  exact turn_line hd hn hT a0 a1 hb.1 hb.2

/-- **C189** (trailer, violated) A trailer, which has splines of degree 3, cannot be pulled by a vehicle whose splines have another degree (`AGV`, `Bicycle`: 2), whatever
the headings and however many knot intervals both have: there is no guess but an exception. -/
theorem C189_trailer_violated (n dv : ℕ) (hv : dv ≠ 3) (theta0 : ℝ) (thetaT : Option ℝ) (veh0 vehT : ℝ) :
    trailerGuess (n + 3) theta0 thetaT (turnGuess (n + dv) veh0 vehT) = none := by
  unfold trailerGuess
  rw [if_neg]
  intro h
  have := h (List.replicate (n + dv) 0) (by simp [turnGuess])
  simp at this
  omega

/-! ## Cases -/

theorem scale_one (s : BSpline ℝ) : s.scale 1 0 = s := by
  obtain ⟨⟨k, d⟩, c⟩ := s
  simp [BSpline.scale, Basis.scale]

/-- From heading −60° to 90° on the spot in `(3, 4)`, for a vehicle with splines of degree 2. -/
example : ∃ v tg dx dy : BSpline ℝ, turnGuess (5 + 2) (-Real.pi / 3) (Real.pi / 2) = [v.coeffs, tg.coeffs] ∧
    let s := dubinsSignals (v.scale 1 0) (tg.scale 1 0) dx dy 3 4 0
    (∀ t ∈ Set.Icc (0 : ℝ) 1, (s t).x = 3 ∧ (s t).y = 4 ∧ (s t).V = 0) ∧ Spec.Turns 1 (-Real.pi / 3) (Real.pi / 2) fun t => (s t).theta := by
  have hpi := Real.pi_pos
  obtain ⟨v, hv⟩ : ∃ v : BSpline ℝ, v = ⟨vehBasis 2 5, List.replicate (5 + 2) 0⟩ := ⟨_, rfl⟩
  obtain ⟨tg, htg⟩ : ∃ v : BSpline ℝ, v = ⟨vehBasis 2 5, linspace (Real.tan (-Real.pi / 3 / 2)) (Real.tan (Real.pi / 2 / 2)) (5 + 2)⟩ := ⟨_, rfl⟩
  have ov : (Expr.spl v).OnIntervals 5 := by rw [hv]; exact on5 (d := 2) (by simp)
  have ot : (Expr.spl tg).OnIntervals 5 := by rw [htg]; exact on5 (d := 2) (linspace_length _ _ _)
  have dv : v.basis.degree = 2 := by rw [hv]; rfl
  have dt : tg.basis.degree = 2 := by rw [htg]; rfl
  obtain ⟨vx, rx, -⟩ := C157_intervals (n := 5) (by norm_num) (by norm_num) (dxE v tg)
    (by simpa [dxE, Expr.sub, Expr.sq, Expr.OnIntervals] using ⟨ov, ot⟩) (by simp [dxE, Expr.sub, Expr.sq, Expr.totalDegree, dv, dt])
    (by simp [dxE, Expr.sub, Expr.sq, Expr.totalDegree, dv, dt])
  obtain ⟨vy, ry, -⟩ := C157_intervals (n := 5) (by norm_num) (by norm_num) (dyE v tg)
    (by simpa [dyE, Expr.OnIntervals] using ⟨ov, ot⟩) (by simp [dyE, Expr.totalDegree, dv, dt]) (by simp [dyE, Expr.totalDegree, dv, dt])
  obtain ⟨dx, rfl⟩ := Expr.runs_spline rx (Or.inl trivial)
  obtain ⟨dy, rfl⟩ := Expr.runs_spline ry (Or.inl trivial)
  refine ⟨v, tg, dx, dy, by rw [hv, htg]; rfl, ?_⟩
  exact C189_turns 2 5 le_rfl (by norm_num) (-Real.pi / 3) (Real.pi / 2) (by linarith) (by linarith) (by linarith) (by linarith) 1 one_pos v tg dx dy
    (by rw [hv, htg]; rfl) (by rw [hv]) (by rw [htg]) (by rw [scale_one, scale_one]; exact rx) (by rw [scale_one, scale_one]; exact ry) 3 4

/-- From 135° to −135° through zero, though the shorter turn is one of 90°. -/
example : ∃ t ∈ Set.Icc (0 : ℝ) 10, 2 * arctan2 (((⟨vehBasis 3 10, linspace (Real.tan (3 * Real.pi / 4 / 2)) (Real.tan (-(3 * Real.pi / 4) / 2)) (10 + 3)⟩ :
    BSpline ℝ).scale 10 0).eval t) 1 = 0 := by
  have := Real.pi_pos
  exact (C189_longer_violated 3 10 (by norm_num) (by norm_num) (3 * Real.pi / 4) (-(3 * Real.pi / 4)) (by linarith) (by linarith) (by linarith) (by linarith)
    (by linarith) 10 (by norm_num) _ rfl).2

/-- Levelling out. -/
example (f ax ay az : BSpline ℝ) (hf : f.coeffs = List.replicate 12 0) (p : Start3) : ∃ qp qt : BSpline ℝ,
    Spec.Turns 10 (Real.pi / 6) 0 fun t => (quad3Signals (f.scale 10 0) (qp.scale 10 0) (qt.scale 10 0) ax ay az p 0 t).phi := by
  have hpi := Real.pi_pos
  refine ⟨⟨vehBasis 2 10, linspace (Real.tan (Real.pi / 6 / 2)) (Real.tan (0 / 2)) 12⟩, ⟨vehBasis 2 10, linspace (Real.tan (0 / 2)) (Real.tan (0 / 2)) 12⟩, ?_⟩
  refine (C189_leans 2 10 le_rfl (by norm_num) (Real.pi / 6) 0 0 0 ?_ 10 (by norm_num) f _ _ ax ay az (by rw [hf]; rfl) rfl rfl p).1
  simp only [List.forall_mem_cons, List.not_mem_nil, false_imp_iff, implies_true, and_true]
  refine ⟨⟨?_, ?_⟩, ⟨?_, ?_⟩, ⟨?_, ?_⟩, ?_, ?_⟩ <;> linarith

/-- A Dubins vehicle with a trailer, and a bicycle with a trailer. -/
example : (∃ c, trailerGuess (9 + 3) 1 (some 0) (turnGuess (9 + 3) 0 1) = some (c :: turnGuess (9 + 3) 0 1)) ∧
    trailerGuess (9 + 3) 1 (some 0) (turnGuess (9 + 2) 0 1) = none := by
  have := Real.pi_gt_three
  obtain ⟨c, h, -⟩ := C189_trailer_partial 3 9 (by norm_num) (by norm_num) 1 (some 0) (by linarith) (by linarith) (fun a ha => by
    rw [Option.mem_some_iff] at ha; subst ha; constructor <;> linarith) 0 1 1 one_pos
  exact ⟨⟨c, h⟩, C189_trailer_violated 9 2 (by norm_num) 1 (some 0) 0 1⟩

end Verif.Problems.TurnGuess
