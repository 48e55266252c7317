import Verif.Vehicles.Quadrotor
import Mathlib.Analysis.Calculus.MeanValue

/-! # Trailer (C18, C54)

Model of `Trailer` (trailer.py) pulled by a differential drive vehicle. -/

set_option linter.unusedSectionVars false

namespace Verif.Vehicles

open Verif.Spline Collision

/-! ## Model -/

/-- `[x_tr, y_tr, theta_tr, x_veh, y_veh, theta_veh]`. -/
structure TrailerState where
  xt : ℝ
  yt : ℝ
  th : ℝ
  xv : ℝ
  yv : ℝ
  psi : ℝ

/-- `Trailer.ode`, trailer.py:191-206, with a differential drive vehicle in front (dubins.py:321-328). -/
noncomputable def trailerOde (l : ℝ) (s : TrailerState) (V ω : ℝ) : TrailerState :=
  let dth := V / l * Real.sin (s.psi - s.th)
  let veh := dubinsOde ⟨s.xv, s.yv, s.psi, V, ω⟩
  { xt := veh.1 + l * Real.sin s.th * dth
    yt := veh.2.1 - l * Real.cos s.th * dth
    th := dth
    xv := veh.1
    yv := veh.2.1
    psi := veh.2.2 }

/-- Slack of the trailer equation, trailer.py:54. -/
noncomputable def trailerEps : ℝ := 1 / 1000

/-- `2*tg_ha_veh*(1-tg_ha_tr**2)-(1-tg_ha_veh**2)*2*tg_ha_tr`, trailer.py:56. -/
noncomputable def hitchE (tt tv : BSpline ℝ) : Expr ℝ :=
  .sub (.mul (.mul (.num 2) (.spl tv)) (.sub (.num 1) (.sq (.spl tt))))
    (.mul (.mul (.sub (.num 1) (.sq (.spl tv))) (.num 2)) (.spl tt))

/-- The constraints `Trailer.define_trajectory_constraints` adds to those of the pulling vehicle,
trailer.py:45-64. -/
noncomputable def trailerC (b : Bounds) (l : ℝ) (tt v tv : BSpline ℝ) (T : ℝ) : List (Expr ℝ) :=
  [.sub (.sub (.mul (.mul (.num 2) (.spl (tt.derivative 1))) (.num l))
      (.mul (.mul (.num T) (.spl v)) (hitchE tt tv))) (.num (T * trailerEps)),
   .sub (.add (.mul (.mul (.num (-2)) (.spl (tt.derivative 1))) (.num l))
      (.mul (.mul (.num T) (.spl v)) (hitchE tt tv))) (.num (T * trailerEps)),
   .sub (.sub (.spl tv) (.spl tt)) (.num (Real.tan (lim b "tmax" (Real.pi / 4) / 2))),
   .add (.add (.neg (.spl tv)) (.spl tt)) (.num (Real.tan (lim b "tmin" (-Real.pi / 4) / 2)))]

/-- `Trailer.splines2signals`, trailer.py:172-189, at one time instant, given the state of the vehicle. -/
noncomputable def trailerSignals (l : ℝ) (tt : BSpline ℝ) (veh : Unicycle) (t : ℝ) : TrailerState :=
  let th := 2 * arctan2 (tt.eval t) 1
  { xt := veh.x - l * Real.cos th
    yt := veh.y - l * Real.sin th
    th := th
    xv := veh.x
    yv := veh.y
    psi := veh.theta }

/-! ## Specification -/

/-- The trailer is at hitch distance behind the vehicle, in the direction of the trailer heading. -/
def Hitched (l : ℝ) (s : TrailerState) : Prop :=
  s.xv = s.xt + l * Real.cos s.th ∧ s.yv = s.yt + l * Real.sin s.th

/-- `s` is a motion of the trailer model on the time interval `I` under the inputs `V`, `ω`. -/
structure Solves (l : ℝ) (s : ℝ → TrailerState) (V ω : ℝ → ℝ) (I : Set ℝ) : Prop where
  xt : ∀ t ∈ I, HasDerivWithinAt (fun t => (s t).xt) (trailerOde l (s t) (V t) (ω t)).xt I t
  yt : ∀ t ∈ I, HasDerivWithinAt (fun t => (s t).yt) (trailerOde l (s t) (V t) (ω t)).yt I t
  th : ∀ t ∈ I, HasDerivWithinAt (fun t => (s t).th) (trailerOde l (s t) (V t) (ω t)).th I t
  xv : ∀ t ∈ I, HasDerivWithinAt (fun t => (s t).xv) (trailerOde l (s t) (V t) (ω t)).xv I t
  yv : ∀ t ∈ I, HasDerivWithinAt (fun t => (s t).yv) (trailerOde l (s t) (V t) (ω t)).yv I t
  psi : ∀ t ∈ I, HasDerivWithinAt (fun t => (s t).psi) (trailerOde l (s t) (V t) (ω t)).psi I t

theorem const_of_deriv {f : ℝ → ℝ} {I : Set ℝ} (hI : Convex ℝ I) (hf : ∀ t ∈ I, HasDerivWithinAt f 0 I t)
    {a b : ℝ} (ha : a ∈ I) (hb : b ∈ I) : f b = f a := by
  have := hI.norm_image_sub_le_of_norm_hasDerivWithin_le (C := 0) (f' := fun _ => 0) hf (by simp) ha hb
  simpa [sub_eq_zero] using this

/-! ## Properties -/

/-- **C18** A trailer that is hitched at one time of a motion of the vehicle model is hitched at all times of
that motion, whatever the inputs. -/
theorem C18_hitched (l : ℝ) (s : ℝ → TrailerState) (V ω : ℝ → ℝ) (I : Set ℝ) (hI : Convex ℝ I)
    (hs : Solves l s V ω I) (t0 : ℝ) (h0 : t0 ∈ I) (hh : Hitched l (s t0)) (t : ℝ) (ht : t ∈ I) :
    Hitched l (s t) := by
  have c1 := const_of_deriv (f := fun t => (s t).xt + l * Real.cos (s t).th - (s t).xv) hI (fun t ht => by
    refine (((hs.xt t ht).add ((hs.th t ht).cos.const_mul l)).sub (hs.xv t ht)).congr_deriv ?_
    simp only [trailerOde]; ring) h0 ht
  have c2 := const_of_deriv (f := fun t => (s t).yt + l * Real.sin (s t).th - (s t).yv) hI (fun t ht => by
    refine (((hs.yt t ht).add ((hs.th t ht).sin.const_mul l)).sub (hs.yv t ht)).congr_deriv ?_
    simp only [trailerOde]; ring) h0 ht
  obtain ⟨e1, e2⟩ := hh
  constructor <;> linarith

/-- **C18** The wheels of the trailer do not slip: the trailer moves along its own heading, with the speed of
the vehicle projected on that heading. -/
theorem C18_no_slip (l : ℝ) (hl : l ≠ 0) (s : TrailerState) (V ω : ℝ) :
    let d := trailerOde l s V ω
    d.xt = V * Real.cos (s.psi - s.th) * Real.cos s.th ∧ d.yt = V * Real.cos (s.psi - s.th) * Real.sin s.th := by
  simp only [trailerOde, dubinsOde]
  have e := Real.sin_sq_add_cos_sq s.th
  rw [Real.sin_sub, Real.cos_sub]
  constructor
  · field_simp
    linear_combination (V * Real.cos s.psi) * (-e)
  · field_simp
    linear_combination (V * Real.sin s.psi) * (-e)

/-- **C18** The stored trailer state is hitched to the stored vehicle state. -/
theorem C18_signals (l : ℝ) (tt : BSpline ℝ) (veh : Unicycle) (t : ℝ) :
    Hitched l (trailerSignals l tt veh t) ∧ (trailerSignals l tt veh t).xv = veh.x ∧
    (trailerSignals l tt veh t).yv = veh.y ∧ (trailerSignals l tt veh t).th = heading (tt.eval t) := by
  refine ⟨⟨?_, ?_⟩, rfl, rfl, ?_⟩
  · simp [trailerSignals]
  · simp [trailerSignals]
  · simp only [trailerSignals, heading_eq]

theorem trailerC_le {b : Bounds} {l T t : ℝ} {tt v tv : BSpline ℝ} (ht : Traj tt 1) (hv : Traj v 0) (hv' : Traj tv 0)
    (hT : 0 < T) (hc : ∀ e ∈ trailerC b l tt v tv T, e.Imposed 0) (h0 : 0 ≤ t) (h1 : t ≤ T) :
    (|2 * (tt.derivative 1).eval (t / T) * l - T * v.eval (t / T) *
      (2 * tv.eval (t / T) * (1 - tt.eval (t / T) ^ 2) - (1 - tv.eval (t / T) ^ 2) * 2 * tt.eval (t / T))|
      ≤ T * trailerEps) ∧
    tv.eval (t / T) - tt.eval (t / T) ≤ Real.tan (lim b "tmax" (Real.pi / 4) / 2) ∧
    Real.tan (lim b "tmin" (-Real.pi / 4) / 2) ≤ tv.eval (t / T) - tt.eval (t / T) := by
  have d1 : Traj (tt.derivative 1) 0 := ht.succ
  have oh : (hitchE tt tv).On 0 1 :=
    ⟨⟨⟨trivial, hv'.on⟩, trivial, ht.on, ht.on⟩, ⟨⟨trivial, hv'.on, hv'.on⟩, trivial⟩, ht.on⟩
  simp only [trailerC, List.forall_mem_cons] at hc
  obtain ⟨c1, c2, c3, c4, -⟩ := hc
  have a1 := imposed_le c1 ⟨⟨⟨⟨trivial, d1.on⟩, trivial⟩, ⟨trivial, hv.on⟩, oh⟩, trivial⟩
    (Or.inl (Or.inl (Or.inl (Or.inr trivial)))) hT h0 h1
  have a2 := imposed_le c2 ⟨⟨⟨⟨trivial, d1.on⟩, trivial⟩, ⟨trivial, hv.on⟩, oh⟩, trivial⟩
    (Or.inl (Or.inl (Or.inl (Or.inr trivial)))) hT h0 h1
  have a3 := imposed_le c3 ⟨⟨hv'.on, ht.on⟩, trivial⟩ (Or.inl (Or.inl trivial)) hT h0 h1
  have a4 := imposed_le c4 ⟨⟨hv'.on, ht.on⟩, trivial⟩ (Or.inl (Or.inl trivial)) hT h0 h1
  simp only [Expr.val, Expr.sub, Expr.sq, hitchE] at a1 a2 a3 a4
  refine ⟨abs_le.2 ⟨?_, ?_⟩, by linarith, by linarith⟩ <;> linarith

/-- **C18** (planned motion).  If the trajectory constraints hold, the planned trailer never slips sideways
faster than 1 mm/s: the component of the trailer velocity across its heading is below `eps`. -/
theorem C18_plan_slip (b : Bounds) (l T : ℝ) (tt v tv dx dy : BSpline ℝ) (ht : Traj tt 1) (hv : Traj v 0) (hv' : Traj tv 0)
    (hT : 0 < T) (hc : ∀ e ∈ trailerC b l tt v tv T, e.Imposed 0)
    (rx : (dxE v tv).Runs (.spl dx)) (ry : (dyE v tv).Runs (.spl dy)) (x0 y0 t0 t : ℝ) (h0 : 0 < t) (h1 : t < T) :
    let θ := fun t => heading (tt.eval (t / T))
    let xt := fun t => (integrateOnce dx x0 t0 T).eval (t / T) - l * Real.cos (θ t)
    let yt := fun t => (integrateOnce dy y0 t0 T).eval (t / T) - l * Real.sin (θ t)
    |deriv xt t * Real.sin (θ t) - deriv yt t * Real.cos (θ t)| ≤ trailerEps := by
  intro θ xt yt
  obtain ⟨m0, m1⟩ := phys_mem hT h0 h1
  obtain ⟨u1, u2⟩ := unicycle hv.trajOn hv'.trajOn rx ry hT x0 y0 t0 m0 m1
  have hθ : HasDerivAt θ _ t := heading_hasDerivAt (ht.phys hT h0 h1)
  have dx' : HasDerivAt xt _ t := u1.sub (hθ.cos.const_mul l)
  have dy' : HasDerivAt yt _ t := u2.sub (hθ.sin.const_mul l)
  rw [dx'.deriv, dy'.deriv]
  have k := (trailerC_le ht hv hv' hT hc h0.le h1.le).1
  have st := sin_heading' (tt.eval (t / T))
  have ct := cos_heading' (tt.eval (t / T))
  have sv := sin_heading' (tv.eval (t / T))
  have cv := cos_heading' (tv.eval (t / T))
  have sc := Real.sin_sq_add_cos_sq (heading (tt.eval (t / T)))
  have hp : (0 : ℝ) < 1 + tt.eval (t / T) ^ 2 := by positivity
  have hq : (0 : ℝ) < 1 + tv.eval (t / T) ^ 2 := by positivity
  have key : v.eval (t / T) * (1 + tv.eval (t / T) ^ 2) * (Real.cos (heading (tv.eval (t / T))) * Real.sin (heading (tt.eval (t / T)))
        - Real.sin (heading (tv.eval (t / T))) * Real.cos (heading (tt.eval (t / T))))
      + l * (2 * ((tt.derivative 1).eval (t / T) / T) / (1 + tt.eval (t / T) ^ 2))
      = (2 * (tt.derivative 1).eval (t / T) * l - T * v.eval (t / T) *
      (2 * tv.eval (t / T) * (1 - tt.eval (t / T) ^ 2) - (1 - tv.eval (t / T) ^ 2) * 2 * tt.eval (t / T)))
        / (T * (1 + tt.eval (t / T) ^ 2)) := by
    rw [st, ct, sv, cv]
    field_simp
    ring
  have e : ∀ A w S C : ℝ, S ^ 2 + C ^ 2 = 1 → ∀ cv sv : ℝ, (A * cv - l * (-S * w)) * S - (A * sv - l * (C * w)) * C
      = A * (cv * S - sv * C) + l * w := by
    intro A w S C h cv sv
    linear_combination (l * w) * h
  show |(_ - l * (-Real.sin (heading (tt.eval (t / T))) * _)) * Real.sin (heading (tt.eval (t / T)))
    - (_ - l * (Real.cos (heading (tt.eval (t / T))) * _)) * Real.cos (heading (tt.eval (t / T)))| ≤ _
  rw [e _ _ _ _ sc, key, abs_div, abs_of_pos (by positivity : 0 < T * (1 + tt.eval (t / T) ^ 2)), div_le_iff₀ (by positivity)]
  refine k.trans ?_
  have : (0 : ℝ) ≤ trailerEps := by norm_num [trailerEps]
  have h3 : 0 ≤ T * trailerEps * tt.eval (t / T) ^ 2 := by positivity
  nlinarith [h3]

/-! ### The angle between vehicle and trailer -/

theorem arctan_sub_le {a b c : ℝ} (hab : 0 ≤ a * b) (h : a - b ≤ Real.tan c) (h0 : 0 ≤ c) (h1 : c < Real.pi / 2) :
    Real.arctan a - Real.arctan b ≤ c := by
  by_contra hlt
  push Not at hlt
  have m1 := Real.arctan_lt_pi_div_two a
  have m2 := Real.neg_pi_div_two_lt_arctan b
  have m1' := Real.arctan_lt_pi_div_two b
  have m2' := Real.neg_pi_div_two_lt_arctan a
  -- the difference is below a right angle because both have the same sign
  have hd : Real.arctan a - Real.arctan b < Real.pi / 2 := by
    rcases le_or_gt 0 b with hb | hb
    · have := Real.arctan_nonneg.2 hb
      linarith
    · have ha : a ≤ 0 := by nlinarith
      have := Real.arctan_strictMono.monotone ha
      rw [Real.arctan_zero] at this
      linarith
  have ht := Real.tan_lt_tan_of_lt_of_lt_pi_div_two (by linarith) hd hlt
  have c1 := Real.cos_arctan_pos a
  have c2 := Real.cos_arctan_pos b
  have et : Real.tan (Real.arctan a - Real.arctan b) = (a - b) / (1 + a * b) := by
    have sa : Real.sin (Real.arctan a) = a * Real.cos (Real.arctan a) := by
      have := Real.tan_mul_cos (x := Real.arctan a) (by positivity)
      rwa [Real.tan_arctan, eq_comm] at this
    have sb : Real.sin (Real.arctan b) = b * Real.cos (Real.arctan b) := by
      have := Real.tan_mul_cos (x := Real.arctan b) (by positivity)
      rwa [Real.tan_arctan, eq_comm] at this
    rw [Real.tan_eq_sin_div_cos, Real.sin_sub, Real.cos_sub, sa, sb]
    have : (0 : ℝ) < 1 + a * b := by positivity
    field_simp
  rw [et] at ht
  have hp : (0 : ℝ) < 1 + a * b := by positivity
  rw [lt_div_iff₀ hp] at ht
  have : 0 ≤ Real.tan c := Real.tan_nonneg_of_nonneg_of_le_pi_div_two h0 h1.le
  nlinarith

/-- **C54** (part).  If the trajectory constraints hold, the angle between vehicle and trailer is within the
user's limits `tmin <= 0 <= tmax` at every time at which both headings are on the same side of zero.  (Missing:
times at which they are on opposite sides, where it is false, see `C54_violated`.) -/
theorem C54_partial (b : Bounds) (l T : ℝ) (tt v tv : BSpline ℝ) (ht : Traj tt 1) (hv : Traj v 0) (hv' : Traj tv 0)
    (hT : 0 < T) (hc : ∀ e ∈ trailerC b l tt v tv T, e.Imposed 0)
    (k0 : 0 ≤ lim b "tmax" (Real.pi / 4)) (k1 : lim b "tmax" (Real.pi / 4) < Real.pi)
    (k2 : lim b "tmin" (-Real.pi / 4) ≤ 0) (k3 : -Real.pi < lim b "tmin" (-Real.pi / 4))
    (t : ℝ) (h0 : 0 ≤ t) (h1 : t ≤ T) (hside : 0 ≤ tv.eval (t / T) * tt.eval (t / T)) :
    lim b "tmin" (-Real.pi / 4) ≤ heading (tv.eval (t / T)) - heading (tt.eval (t / T)) ∧
    heading (tv.eval (t / T)) - heading (tt.eval (t / T)) ≤ lim b "tmax" (Real.pi / 4) := by
  obtain ⟨-, a1, a2⟩ := trailerC_le ht hv hv' hT hc h0 h1
  have u := arctan_sub_le hside a1 (by linarith) (by linarith)
  have w := arctan_sub_le (a := tt.eval (t / T)) (b := tv.eval (t / T)) (c := -(lim b "tmin" (-Real.pi / 4) / 2))
    (by rw [mul_comm]; exact hside) (by rw [Real.tan_neg]; linarith) (by linarith) (by linarith)
  unfold heading
  constructor <;> linarith

/-- A trailer that follows slowly. -/
noncomputable def trTt : BSpline ℝ := ⟨Bz 1, [0, 1 / 100]⟩
noncomputable def trTv : BSpline ℝ := ⟨Bz 1, [0, 1 / 20]⟩
noncomputable def trV : BSpline ℝ := ⟨Bz 1, [1 / 100, 1 / 100]⟩

theorem trTt_d1 : trTt.derivative 1 = ⟨Bz 0, [1 / 100]⟩ := by
  unfold trTt; rw [Bz_derivative rfl]; norm_num [List.range_succ]

theorem tan_eighth : (2 / 5 : ℝ) ≤ Real.tan (Real.pi / 4 / 2) := by
  have h1 := Real.pi_gt_d2
  have h2 := Real.lt_tan (x := Real.pi / 4 / 2) (by positivity) (by linarith)
  -- tan (pi/8) = sqrt 2 - 1
  have h3 : Real.tan (2 * (Real.pi / 4 / 2)) = 1 := by
    rw [show 2 * (Real.pi / 4 / 2) = Real.pi / 4 by ring, Real.tan_pi_div_four]
  rw [Real.tan_two_mul] at h3
  set q := Real.tan (Real.pi / 4 / 2)
  have hq : 0 < q := by linarith
  have hne : 1 - q ^ 2 ≠ 0 := by
    intro h; rw [h, div_zero] at h3; exact zero_ne_one h3
  rw [div_eq_one_iff_eq hne] at h3
  nlinarith

theorem tr_imposed : ∀ e ∈ trailerC (fun _ => none) (1 / 5) trTt trV trTv 10, e.Imposed 0 := by
  have ev1 : ∀ {x : ℝ}, 0 ≤ x → x ≤ 1 → trTt.eval x = (1 - (1 - x)) / 100 := by
    intro x h0 h1; rw [trTt, Bz_eval rfl h0 h1]; simp [Finset.sum_range_succ, bern]; ring
  have ev2 : ∀ {x : ℝ}, 0 ≤ x → x ≤ 1 → trTv.eval x = (1 - (1 - x)) / 20 := by
    intro x h0 h1; rw [trTv, Bz_eval rfl h0 h1]; simp [Finset.sum_range_succ, bern]; ring
  have ev3 : ∀ {x : ℝ}, 0 ≤ x → x ≤ 1 → trV.eval x = 1 / 100 := by
    intro x h0 h1; rw [trV, Bz_eval rfl h0 h1]; simp [Finset.sum_range_succ, bern]; ring
  have ev0 : ∀ {x : ℝ}, 0 ≤ x → x ≤ 1 → (⟨Bz 0, [1 / 100]⟩ : BSpline ℝ).eval x = 1 / 100 := by
    intro x h0 h1; rw [Bz_eval rfl h0 h1]; simp [bern]
  have te := tan_eighth
  have tn : Real.tan (-Real.pi / 4 / 2) = -Real.tan (Real.pi / 4 / 2) := by rw [← Real.tan_neg]; congr 1; ring
  simp only [trailerC, hitchE, List.forall_mem_cons, List.not_mem_nil, false_imp_iff, implies_true, and_true, lim,
    Option.getD_none, trailerEps, trTt_d1, tn]
  generalize Real.tan (Real.pi / 4 / 2) = q at te
  refine ⟨?_, ?_, ?_, ?_⟩
  · refine Expr.AllBz.imposed_pow (D := 4) ?_ ?_ (by norm_num)
      (fun j => [-14 / 1000 - 4 / 10 ^ 6, 8 / 1000 + 12 / 10 ^ 6, -(12 / 10 ^ 6), 4 / 10 ^ 6, 0].getD j 0)
      (fun x h0 h1 => ?_) ?_
    · simp [Expr.AllBz, Expr.sub, Expr.sq, Bz, trTt, trTv, trV]
    · simp [Expr.bdeg, Expr.sub, Expr.sq, Bz, trTt, trTv, trV]
    · simp only [Expr.val, Expr.sub, Expr.sq, ev1 h0 h1, ev2 h0 h1, ev3 h0 h1, ev0 h0 h1]
      simp [Finset.sum_range_succ]; ring
    · intro w w0 wp wm
      simp [Finset.sum_range_succ, w0]
      have := wp 1; have := wp 2; have := wp 3; have := wm 0; have := wm 1; have := wm 2
      norm_num at *
      linarith
  · refine Expr.AllBz.imposed_pow (D := 4) ?_ ?_ (by norm_num)
      (fun j => [-6 / 1000 + 4 / 10 ^ 6, -(8 / 1000) - 12 / 10 ^ 6, (12 / 10 ^ 6), -(4 / 10 ^ 6), 0].getD j 0)
      (fun x h0 h1 => ?_) ?_
    · simp [Expr.AllBz, Expr.sub, Expr.sq, Bz, trTt, trTv, trV]
    · simp [Expr.bdeg, Expr.sub, Expr.sq, Bz, trTt, trTv, trV]
    · simp only [Expr.val, Expr.sub, Expr.sq, ev1 h0 h1, ev2 h0 h1, ev3 h0 h1, ev0 h0 h1]
      simp [Finset.sum_range_succ]; ring
    · intro w w0 wp wm
      simp [Finset.sum_range_succ, w0]
      have := wp 1; have := wp 2; have := wp 3; have := wm 0; have := wm 1; have := wm 2
      norm_num at *
      linarith
  · refine Expr.AllBz.imposed_pow (D := 1) ?_ ?_ (by norm_num)
      (fun j => [4 / 100 - q, -(4 / 100)].getD j 0) (fun x h0 h1 => ?_) ?_
    · simp [Expr.AllBz, Expr.sub, Bz, trTt, trTv]
    · simp [Expr.bdeg, Expr.sub, Bz, trTt, trTv]
    · simp only [Expr.val, Expr.sub, ev1 h0 h1, ev2 h0 h1]
      simp [Finset.sum_range_succ]; ring
    · intro w w0 wp wm
      simp [Finset.sum_range_succ, w0]
      have := wp 1
      linarith
  · refine Expr.AllBz.imposed_pow (D := 1) ?_ ?_ (by norm_num)
      (fun j => [-4 / 100 - q, (4 / 100)].getD j 0) (fun x h0 h1 => ?_) ?_
    · simp [Expr.AllBz, Bz, trTt, trTv]
    · simp [Expr.bdeg, Bz, trTt, trTv]
    · simp only [Expr.val, ev1 h0 h1, ev2 h0 h1]
      simp [Finset.sum_range_succ]; ring
    · intro w w0 wp wm
      simp [Finset.sum_range_succ, w0]
      have := wp 1; have := wm 0
      linarith

theorem exTrDx : ∃ s, (dxE trV trTv).Runs (.spl s) := by
  obtain ⟨s, h, -⟩ := (Expr.AllBz.runs (e := dxE trV trTv)
    (by simp [Expr.AllBz, Expr.sub, Expr.sq, dxE, trV, trTv, Bz])).2 3
    (by simp [Expr.bdeg, Expr.sub, Expr.sq, dxE, trV, trTv, Bz]) (by norm_num)
  exact ⟨s, h⟩

theorem exTrDy : ∃ s, (dyE trV trTv).Runs (.spl s) := by
  obtain ⟨s, h, -⟩ := (Expr.AllBz.runs (e := dyE trV trTv)
    (by simp [Expr.AllBz, dyE, trV, trTv, Bz])).2 2
    (by simp [Expr.bdeg, dyE, trV, trTv, Bz]) (by norm_num)
  exact ⟨s, h⟩

theorem trTt_traj : Traj trTt 1 := Bz_traj rfl
theorem trTv_traj : Traj trTv 1 := Bz_traj rfl
theorem trV_traj : Traj trV 1 := Bz_traj rfl

/-- Straight driving solves the model; the trailer stays hitched. -/
example (t : ℝ) : Hitched (1 / 5) ((fun t : ℝ => (⟨t - 1 / 5, 0, 0, t, 0, 0⟩ : TrailerState)) t) := by
  refine C18_hitched (1 / 5) (fun t : ℝ => (⟨t - 1 / 5, 0, 0, t, 0, 0⟩ : TrailerState)) (fun _ => 1) (fun _ => 0) Set.univ convex_univ
    ⟨fun t _ => ?_, fun t _ => ?_, fun t _ => ?_, fun t _ => ?_, fun t _ => ?_, fun t _ => ?_⟩
    0 trivial ⟨by simp, by simp⟩ t trivial
  · exact (((hasDerivAt_id t).sub_const _).congr_deriv (by simp [trailerOde, dubinsOde])).hasDerivWithinAt
  · exact ((hasDerivAt_const t _).congr_deriv (by simp [trailerOde, dubinsOde])).hasDerivWithinAt
  · exact ((hasDerivAt_const t _).congr_deriv (by simp [trailerOde])).hasDerivWithinAt
  · exact ((hasDerivAt_id t).congr_deriv (by simp [trailerOde, dubinsOde])).hasDerivWithinAt
  · exact ((hasDerivAt_const t _).congr_deriv (by simp [trailerOde, dubinsOde])).hasDerivWithinAt
  · exact ((hasDerivAt_const t _).congr_deriv (by simp [trailerOde, dubinsOde])).hasDerivWithinAt

/-- A trailer at a right angle to the vehicle does not move forward, it turns. -/
example : (trailerOde (1 / 5) ⟨0, 0, 0, 1 / 5, 0, Real.pi / 2⟩ 1 0).xt = 0 := by
  rw [(C18_no_slip (1 / 5) (by norm_num) _ _ _).1]
  simp

example : ∃ dx dy, (dxE trV trTv).Runs (.spl dx) ∧
    |deriv (fun t => (integrateOnce dx 0 0 10).eval (t / 10) - 1 / 5 * Real.cos (heading (trTt.eval (t / 10)))) 5
        * Real.sin (heading (trTt.eval (5 / 10)))
      - deriv (fun t => (integrateOnce dy 0 0 10).eval (t / 10) - 1 / 5 * Real.sin (heading (trTt.eval (t / 10)))) 5
        * Real.cos (heading (trTt.eval (5 / 10)))| ≤ trailerEps := by
  obtain ⟨dx, rx⟩ := exTrDx
  obtain ⟨dy, ry⟩ := exTrDy
  exact ⟨dx, dy, rx, C18_plan_slip (fun _ => none) (1 / 5) 10 trTt trV trTv dx dy trTt_traj (trV_traj.mono (by omega))
    (trTv_traj.mono (by omega)) (by norm_num) tr_imposed rx ry 0 0 0 5 (by norm_num) (by norm_num)⟩

example : heading (trTv.eval (5 / 10)) - heading (trTt.eval (5 / 10)) ≤ Real.pi / 4 := by
  have hpi := Real.pi_pos
  refine (C54_partial (fun _ => none) (1 / 5) 10 trTt trV trTv trTt_traj (trV_traj.mono (by omega))
    (trTv_traj.mono (by omega)) (by norm_num) tr_imposed ?_ ?_ ?_ ?_ 5 (by norm_num) (by norm_num) ?_).2
  · simp only [lim, Option.getD_none]; linarith
  · simp only [lim, Option.getD_none]; linarith
  · simp only [lim, Option.getD_none]; linarith
  · simp only [lim, Option.getD_none]; linarith
  · rw [trTv, trTt, Bz_eval rfl (by norm_num) (by norm_num), Bz_eval rfl (by norm_num) (by norm_num)]
    norm_num [Finset.sum_range_succ, bern]

/-- Vehicle and trailer standing still, turned to opposite sides. -/
noncomputable def jackTt : BSpline ℝ := ⟨Bz 1, [-1 / 5, -1 / 5]⟩
noncomputable def jackTv : BSpline ℝ := ⟨Bz 1, [1 / 5, 1 / 5]⟩
noncomputable def jackV : BSpline ℝ := ⟨Bz 1, [0, 0]⟩

theorem jack_eval {c x : ℝ} (h0 : 0 ≤ x) (h1 : x ≤ 1) : (⟨Bz 1, [c, c]⟩ : BSpline ℝ).eval x = c := by
  rw [Bz_eval rfl h0 h1]; simp [Finset.sum_range_succ, bern]; ring

theorem jack_imposed : ∀ e ∈ trailerC (fun _ => none) (1 / 5) jackTt jackV jackTv 10 ++ dubinsC (fun _ => none) jackV jackTv 10,
    e.Imposed 0 := by
  have d1 : jackTt.derivative 1 = ⟨Bz 0, [0]⟩ := by
    unfold jackTt; rw [Bz_derivative rfl]; norm_num [List.range_succ]
  have d2 : jackTv.derivative 1 = ⟨Bz 0, [0]⟩ := by
    unfold jackTv; rw [Bz_derivative rfl]; norm_num [List.range_succ]
  have ev0 : ∀ {x : ℝ}, 0 ≤ x → x ≤ 1 → (⟨Bz 0, [0]⟩ : BSpline ℝ).eval x = 0 := by
    intro x h0 h1; rw [Bz_eval rfl h0 h1]; simp [bern]
  have te := tan_eighth
  have hpi := Real.pi_pos
  have tn : Real.tan (-Real.pi / 4 / 2) = -Real.tan (Real.pi / 4 / 2) := by rw [← Real.tan_neg]; congr 1; ring
  simp only [trailerC, dubinsC, turnC, denE, hitchE, List.cons_append, List.nil_append, List.forall_mem_cons,
    List.not_mem_nil, false_imp_iff, implies_true, and_true, lim, Option.getD_none, trailerEps, d1, d2, tn]
  generalize Real.tan (Real.pi / 4 / 2) = q at te
  refine ⟨?_, ?_, ?_, ?_, ?_, ?_, ?_, ?_⟩
  · refine Expr.AllBz.imposed_pow (D := 4) ?_ ?_ (by norm_num)
      (fun j => [-1 / 100, 0, 0, 0, 0].getD j 0) (fun x h0 h1 => ?_) ?_
    · simp [Expr.AllBz, Expr.sub, Expr.sq, Bz, jackTt, jackTv, jackV]
    · simp [Expr.bdeg, Expr.sub, Expr.sq, Bz, jackTt, jackTv, jackV]
    · simp only [Expr.val, Expr.sub, Expr.sq, jackTt, jackTv, jackV, jack_eval h0 h1, ev0 h0 h1]
      norm_num [Finset.sum_range_succ]
    · intro w w0 wp wm; norm_num [Finset.sum_range_succ, w0]
  · refine Expr.AllBz.imposed_pow (D := 4) ?_ ?_ (by norm_num)
      (fun j => [-1 / 100, 0, 0, 0, 0].getD j 0) (fun x h0 h1 => ?_) ?_
    · simp [Expr.AllBz, Expr.sub, Expr.sq, Bz, jackTt, jackTv, jackV]
    · simp [Expr.bdeg, Expr.sub, Expr.sq, Bz, jackTt, jackTv, jackV]
    · simp only [Expr.val, Expr.sub, Expr.sq, jackTt, jackTv, jackV, jack_eval h0 h1, ev0 h0 h1]
      norm_num [Finset.sum_range_succ]
    · intro w w0 wp wm; norm_num [Finset.sum_range_succ, w0]
  · refine Expr.AllBz.imposed_pow (D := 1) ?_ ?_ (by norm_num)
      (fun j => [2 / 5 - q, 0].getD j 0) (fun x h0 h1 => ?_) ?_
    · simp [Expr.AllBz, Expr.sub, Bz, jackTt, jackTv]
    · simp [Expr.bdeg, Expr.sub, Bz, jackTt, jackTv]
    · simp only [Expr.val, Expr.sub, jackTt, jackTv, jack_eval h0 h1]
      simp [Finset.sum_range_succ]; ring
    · intro w w0 wp wm; simp [Finset.sum_range_succ, w0]; linarith
  · refine Expr.AllBz.imposed_pow (D := 1) ?_ ?_ (by norm_num)
      (fun j => [-2 / 5 - q, 0].getD j 0) (fun x h0 h1 => ?_) ?_
    · simp [Expr.AllBz, Bz, jackTt, jackTv]
    · simp [Expr.bdeg, Bz, jackTt, jackTv]
    · simp only [Expr.val, jackTt, jackTv, jack_eval h0 h1]
      simp [Finset.sum_range_succ]; ring
    · intro w w0 wp wm; simp [Finset.sum_range_succ, w0]; linarith
  · refine Expr.AllBz.imposed_pow (D := 3) ?_ ?_ (by norm_num)
      (fun j => [-1 / 2, 0, 0, 0].getD j 0) (fun x h0 h1 => ?_) ?_
    · simp [Expr.AllBz, Expr.sub, Expr.sq, Bz, jackV, jackTv]
    · simp [Expr.bdeg, Expr.sub, Expr.sq, Bz, jackV, jackTv]
    · simp only [Expr.val, Expr.sub, Expr.sq, jackV, jackTv, jack_eval h0 h1]
      simp [Finset.sum_range_succ]; ring
    · intro w w0 wp wm; norm_num [Finset.sum_range_succ, w0]
  · refine Expr.AllBz.imposed_pow (D := 1) ?_ ?_ (by norm_num)
      (fun j => [0, 0].getD j 0) (fun x h0 h1 => ?_) ?_
    · simp [Expr.AllBz, Bz, jackV]
    · simp [Expr.bdeg, Bz, jackV]
    · simp only [Expr.val, jackV, jack_eval h0 h1]
      simp [Finset.sum_range_succ]
    · intro w w0 wp wm; simp [Finset.sum_range_succ]
  · refine Expr.AllBz.imposed_pow (D := 2) ?_ ?_ (by norm_num)
      (fun j => [-(26 / 25 * 10 * (Real.pi / 6)), 0, 0].getD j 0) (fun x h0 h1 => ?_) ?_
    · simp [Expr.AllBz, Expr.sub, Expr.sq, Bz, jackTv]
    · simp [Expr.bdeg, Expr.sub, Expr.sq, Bz, jackTv]
    · simp only [Expr.val, Expr.sub, Expr.sq, jackTv, jack_eval h0 h1, ev0 h0 h1]
      simp [Finset.sum_range_succ]; ring
    · intro w w0 wp wm; simp [Finset.sum_range_succ, w0]; positivity
  · refine Expr.AllBz.imposed_pow (D := 2) ?_ ?_ (by norm_num)
      (fun j => [-(26 / 25 * 10 * (Real.pi / 6)), 0, 0].getD j 0) (fun x h0 h1 => ?_) ?_
    · simp [Expr.AllBz, Expr.sq, Bz, jackTv]
    · simp [Expr.bdeg, Expr.sq, Bz, jackTv]
    · simp only [Expr.val, Expr.sq, jackTv, jack_eval h0 h1, ev0 h0 h1]
      simp [Finset.sum_range_succ]; ring
    · intro w w0 wp wm; simp [Finset.sum_range_succ, w0]; positivity

/-- **C54** is false: all constraints of trailer and vehicle hold with the default bounds, but the angle between
vehicle and trailer exceeds `tmax` (45 degrees) all the time.  The code compares the difference of the tangents of
the half angles with the tangent of the half limit. -/
theorem C54_violated : ∃ (l T : ℝ) (tt v tv : BSpline ℝ), 0 < l ∧ 0 < T ∧ Traj tt 1 ∧ Traj v 0 ∧ Traj tv 1 ∧
    (∀ e ∈ trailerC (fun _ => none) l tt v tv T ++ dubinsC (fun _ => none) v tv T, e.Imposed 0) ∧
    ∀ t, 0 ≤ t → t ≤ T →
      lim (fun _ => none) "tmax" (Real.pi / 4) < heading (tv.eval (t / T)) - heading (tt.eval (t / T)) := by
  refine ⟨1 / 5, 10, jackTt, jackV, jackTv, by norm_num, by norm_num, Bz_traj rfl,
    (Bz_traj rfl : Traj jackV 1).mono (by omega), Bz_traj rfl, jack_imposed, fun t h0 h1 => ?_⟩
  have m0 : 0 ≤ t / 10 := by positivity
  have m1 : t / 10 ≤ 1 := by linarith
  rw [jackTv, jackTt, jack_eval m0 m1, jack_eval m0 m1]
  have hm := Real.four_mul_arctan_inv_5_sub_arctan_inv_239
  have hpos : 0 < Real.arctan 239⁻¹ := Real.arctan_pos.2 (by norm_num)
  have e : Real.arctan (-1 / 5 : ℝ) = -Real.arctan 5⁻¹ := by rw [← Real.arctan_neg]; congr 1; norm_num
  simp only [lim, Option.getD_none, heading, e, one_div]
  linarith

end Verif.Vehicles
