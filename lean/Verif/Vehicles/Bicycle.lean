import Verif.Vehicles.Dubins

/-! # Vehicles with a steering wheel: bicycle and AGV (C14)

Model of `Bicycle` (bicycle.py, option `substitution` off) and `AGV` (agv.py). -/

set_option linter.unusedSectionVars false

namespace Verif.Vehicles

open Verif.Spline Collision

/-! ## Model -/

/-- `bounds` of bicycle.py:60-65 and agv.py:57-62; the default `vmax` differs. -/
structure SteerLim where
  vmax : ℝ
  amax : ℝ
  dmin : ℝ
  dmax : ℝ
  ddmin : ℝ
  ddmax : ℝ

noncomputable def steerLim (b : Bounds) (vmaxDefault : ℝ) : SteerLim where
  vmax := lim b "vmax" vmaxDefault
  amax := lim b "amax" 1
  dmin := lim b "dmin" (-Real.pi / 6)
  dmax := lim b "dmax" (Real.pi / 6)
  ddmin := lim b "ddmin" (-Real.pi / 4)
  ddmax := lim b "ddmax" (Real.pi / 4)

noncomputable def bicycleLim (b : Bounds) : SteerLim := steerLim b (4 / 5)
noncomputable def agvLim (b : Bounds) : SteerLim := steerLim b (1 / 2)

/-- `v_til*(1+tg_ha**2)**2`. -/
noncomputable def vden2 (v tg : BSpline ℝ) : Expr ℝ := .mul (.spl v) (.sq (denE tg))

/-- `dv_til*(1+tg_ha**2)**2+v_til*(4*tg_ha+4*tg_ha**3)*dtg_ha`. -/
noncomputable def dvden2 (v tg : BSpline ℝ) : Expr ℝ :=
  .add (.mul (.spl (v.derivative 1)) (.sq (denE tg)))
    (.mul (.mul (.spl v) (.add (.mul (.num 4) (.spl tg))
      (.mul (.num 4) (.mul (.mul (.spl tg) (.spl tg)) (.spl tg))))) (.spl (tg.derivative 1)))

/-- `(horizon_time**2)*v_til**2*(1+tg_ha**2)**4+(2*self.length*dtg_ha)**2`. -/
noncomputable def rateDen (L : ℝ) (v tg : BSpline ℝ) (T : ℝ) : Expr ℝ :=
  .add (.mul (.mul (.num (T ^ 2)) (.sq (.spl v))) (.mul (.mul (.mul (denE tg) (denE tg)) (denE tg)) (denE tg)))
    (.sq (.mul (.num (2 * L)) (.spl (tg.derivative 1))))

/-- `2*L*ddtg_ha*(v_til*(1+tg_ha**2)**2) - 2*L*dtg_ha*(...)`. -/
noncomputable def rateUp (L : ℝ) (v tg : BSpline ℝ) : Expr ℝ :=
  .sub (.mul (.mul (.num (2 * L)) (.spl (tg.derivative 2))) (vden2 v tg))
    (.mul (.mul (.num (2 * L)) (.spl (tg.derivative 1))) (dvden2 v tg))

/-- `-2*L*ddtg_ha*(v_til*(1+tg_ha**2)**2) + 2*L*dtg_ha*(...)`. -/
noncomputable def rateDown (L : ℝ) (v tg : BSpline ℝ) : Expr ℝ :=
  .add (.mul (.mul (.num (-2 * L)) (.spl (tg.derivative 2))) (vden2 v tg))
    (.mul (.mul (.num (2 * L)) (.spl (tg.derivative 1))) (dvden2 v tg))

/-- Speed and acceleration: bicycle.py:87-90 and 144, agv.py:78-81 and 110. -/
noncomputable def speedC (l : SteerLim) (v tg : BSpline ℝ) (T : ℝ) : List (Expr ℝ) :=
  [.sub (.mul (.spl v) (denE tg)) (.num l.vmax),
   .sub (.add (.mul (.spl (v.derivative 1)) (denE tg))
      (.mul (.mul (.mul (.num 2) (.spl v)) (.spl tg)) (.spl (tg.derivative 1)))) (.num (T * l.amax)),
   .neg (.spl v)]

/-- `Bicycle.define_trajectory_constraints`, bicycle.py:80-144 (each expression is `<= 0`). -/
noncomputable def bicycleC (l : SteerLim) (L : ℝ) (v tg : BSpline ℝ) (T : ℝ) : List (Expr ℝ) :=
  [.sub (.mul (.mul (.num 2) (.spl (tg.derivative 1))) (.num L))
     (.mul (.mul (vden2 v tg) (.num (Real.tan l.dmax))) (.num T)),
   .add (.mul (.mul (.num (-2)) (.spl (tg.derivative 1))) (.num L))
     (.mul (.mul (vden2 v tg) (.num (Real.tan l.dmin))) (.num T)),
   .sub (rateUp L v tg) (.mul (rateDen L v tg T) (.num l.ddmax)),
   .add (rateDown L v tg) (.mul (rateDen L v tg T) (.num l.ddmin))] ++ speedC l v tg T

/-- `AGV.define_trajectory_constraints`, agv.py:71-110: as the bicycle with the sign of `dtg_ha` in the
steering angle reversed (the wheel is at the back). -/
noncomputable def agvC (l : SteerLim) (L : ℝ) (v tg : BSpline ℝ) (T : ℝ) : List (Expr ℝ) :=
  [.sub (.mul (.mul (.num (-2)) (.spl (tg.derivative 1))) (.num L))
     (.mul (.mul (vden2 v tg) (.num (Real.tan l.dmax))) (.num T)),
   .add (.mul (.mul (.num 2) (.spl (tg.derivative 1))) (.num L))
     (.mul (.mul (vden2 v tg) (.num (Real.tan l.dmin))) (.num T)),
   .sub (rateDown L v tg) (.mul (rateDen L v tg T) (.num l.ddmax)),
   .add (rateUp L v tg) (.mul (rateDen L v tg T) (.num l.ddmin))] ++ speedC l v tg T

/-- One column of the sampled splines (physical time). -/
structure SteerSample where
  v : ℝ
  dv : ℝ
  tg : ℝ
  dtg : ℝ
  ddtg : ℝ

noncomputable def steerSample (v tg : BSpline ℝ) (t : ℝ) : SteerSample :=
  ⟨v.eval t, (v.derivative 1).eval t, tg.eval t, (tg.derivative 1).eval t, (tg.derivative 2).eval t⟩

/-- The formula for the steering angle: bicycle.py:313 (`σ = 1`), agv.py:258 (`σ = -1`). -/
noncomputable def rawDelta (σ L : ℝ) (s : SteerSample) : ℝ :=
  arctan2 (σ * 2 * s.dtg * L) (s.v * (1 + s.tg ^ 2) ^ 2)

/-- The formula for the steering rate: bicycle.py:314 (`σ = 1`), agv.py:259 (`σ = -1`). -/
noncomputable def rawDdelta (σ L : ℝ) (s : SteerSample) : ℝ :=
  σ * (2 * s.ddtg * L * (s.v * (1 + s.tg ^ 2) ^ 2) - 2 * s.dtg * L * (s.dv * (1 + s.tg ^ 2) ^ 2
    + s.v * (4 * s.tg + 4 * s.tg ^ 3) * s.dtg)) / (s.v ^ 2 * (1 + s.tg ^ 2) ^ 4 + (2 * s.dtg * L) ^ 2)

/-- The replacement by l'Hopital's rule: `arctan2(2*ddtg_ha*L, dv_til*(1+tg_ha**2)**2)`. -/
noncomputable def hopDelta (σ L : ℝ) (s : SteerSample) : ℝ :=
  arctan2 (σ * 2 * s.ddtg * L) (s.dv * (1 + s.tg ^ 2) ^ 2)

/-- The stored steering angle at sample `k` of `n` (bicycle.py:315-335, agv.py:260-280): the formula,
replaced at low speed; at the start and in the middle by l'Hopital's rule, at the end by the previous
sample. -/
noncomputable def storedDelta (σ L : ℝ) (s : ℕ → SteerSample) (n : ℕ) : ℕ → ℝ
  | 0 => if (s 0).v ≤ 1e-4 ∧ (s 0).dtg ≤ 1e-4 then hopDelta σ L (s 0) else rawDelta σ L (s 0)
  | k + 1 =>
    if k + 1 < n - 1 then
      if (s (k + 1)).v ≤ 1e-3 ∧ (s (k + 1)).dtg ≤ 1e-3 then
        if (s (k + 1)).ddtg ≤ 1e-4 ∧ (s (k + 1)).dv ≤ 1e-4 then storedDelta σ L s n k
        else hopDelta σ L (s (k + 1))
      else rawDelta σ L (s (k + 1))
    else if (s (k + 1)).v ≤ 1e-4 ∧ (s (k + 1)).dtg ≤ 1e-4 then storedDelta σ L s n k
    else rawDelta σ L (s (k + 1))

/-- The stored steering rate at sample `k` of `n` (same lines): replaced at low speed by the next
sample at the start, by the previous one later. -/
noncomputable def storedDdelta (σ L : ℝ) (s : ℕ → SteerSample) (n : ℕ) : ℕ → ℝ
  | 0 => if (s 0).v ≤ 1e-4 ∧ (s 0).dtg ≤ 1e-4 then rawDdelta σ L (s 1) else rawDdelta σ L (s 0)
  | k + 1 =>
    if k + 1 < n - 1 then
      if (s (k + 1)).v ≤ 1e-3 ∧ (s (k + 1)).dtg ≤ 1e-3 then storedDdelta σ L s n k
      else rawDdelta σ L (s (k + 1))
    else if (s (k + 1)).v ≤ 1e-4 ∧ (s (k + 1)).dtg ≤ 1e-4 then storedDdelta σ L s n k
    else rawDdelta σ L (s (k + 1))

/-! ## Lemmas -/

theorem arctan2_pos {y x : ℝ} (hx : 0 < x) : arctan2 y x = Real.arctan (y / x) := by
  have h1 := Complex.tan_arg ⟨x, y⟩
  have h2 : |Complex.arg ⟨x, y⟩| < Real.pi / 2 := Complex.abs_arg_lt_pi_div_two_iff.2 (Or.inl hx)
  rw [abs_lt] at h2
  unfold arctan2
  rw [← Real.arctan_tan h2.1 h2.2, h1]

theorem Traj.on_deriv {s : BSpline ℝ} {n : ℕ} (h : Traj s n) (o : ℕ) (ho : o ≤ s.basis.degree) :
    (Expr.spl (s.derivative o)).On 0 1 := by
  obtain ⟨g1, g2, g3, g4, g5⟩ := clamped_derivative h.clamped h.wf o ho
  have hl := h.clamped.lt_len
  refine ⟨g1, g2, ?_, ?_⟩
  · rw [headD_eq_k g1, g4, Nat.zero_add, h.clamped.first o ho, ← headD_eq_k h.clamped, h.first]
  · rw [getLastD_eq_k g1, g4, g5, Nat.sub_add_cancel (by omega), ← getLastD_eq_k h.clamped, h.last]

theorem vden2_on {v tg : BSpline ℝ} {n m : ℕ} (hv : Traj v n) (ht : Traj tg m) : (vden2 v tg).On 0 1 :=
  ⟨hv.on, ⟨trivial, ht.on, ht.on⟩, trivial, ht.on, ht.on⟩

theorem denE_on {tg : BSpline ℝ} {m : ℕ} (ht : Traj tg m) : (denE tg).On 0 1 := ⟨trivial, ht.on, ht.on⟩

theorem dvden2_on {v tg : BSpline ℝ} (hv : Traj v 1) (ht : Traj tg 1) : (dvden2 v tg).On 0 1 :=
  ⟨⟨hv.succ.on, denE_on ht, denE_on ht⟩, ⟨hv.on, ⟨trivial, ht.on⟩, trivial, ⟨ht.on, ht.on⟩, ht.on⟩, ht.succ.on⟩

theorem rateDen_on {v tg : BSpline ℝ} {L T : ℝ} (hv : Traj v 1) (ht : Traj tg 1) : (rateDen L v tg T).On 0 1 :=
  ⟨⟨⟨trivial, hv.on, hv.on⟩, ⟨⟨denE_on ht, denE_on ht⟩, denE_on ht⟩, denE_on ht⟩, ⟨trivial, ht.succ.on⟩, trivial, ht.succ.on⟩

theorem rateUp_on {v tg : BSpline ℝ} {L : ℝ} (hv : Traj v 1) (ht : Traj tg 1) (hd : 2 ≤ tg.basis.degree) :
    (rateUp L v tg).On 0 1 :=
  ⟨⟨⟨trivial, ht.on_deriv 2 hd⟩, vden2_on hv ht⟩, ⟨trivial, ht.succ.on⟩, dvden2_on hv ht⟩

theorem rateDown_on {v tg : BSpline ℝ} {L : ℝ} (hv : Traj v 1) (ht : Traj tg 1) (hd : 2 ≤ tg.basis.degree) :
    (rateDown L v tg).On 0 1 :=
  ⟨⟨⟨trivial, ht.on_deriv 2 hd⟩, vden2_on hv ht⟩, ⟨trivial, ht.succ.on⟩, dvden2_on hv ht⟩

/-- The constraints as inequalities between values, for the bicycle (`σ = 1`) and the AGV (`σ = -1`). -/
structure SteerOk (σ : ℝ) (l : SteerLim) (L T v dv tg dtg ddtg : ℝ) : Prop where
  hi : σ * 2 * dtg * L ≤ v * (1 + tg ^ 2) ^ 2 * Real.tan l.dmax * T
  lo : v * (1 + tg ^ 2) ^ 2 * Real.tan l.dmin * T ≤ σ * 2 * dtg * L
  rhi : σ * (2 * ddtg * L * (v * (1 + tg ^ 2) ^ 2) - 2 * dtg * L * (dv * (1 + tg ^ 2) ^ 2
    + v * (4 * tg + 4 * tg ^ 3) * dtg)) ≤ (T ^ 2 * v ^ 2 * (1 + tg ^ 2) ^ 4 + (2 * L * dtg) ^ 2) * l.ddmax
  rlo : (T ^ 2 * v ^ 2 * (1 + tg ^ 2) ^ 4 + (2 * L * dtg) ^ 2) * l.ddmin ≤
    σ * (2 * ddtg * L * (v * (1 + tg ^ 2) ^ 2) - 2 * dtg * L * (dv * (1 + tg ^ 2) ^ 2
    + v * (4 * tg + 4 * tg ^ 3) * dtg))
  v0 : 0 ≤ v
  v1 : v * (1 + tg ^ 2) ≤ l.vmax
  acc : dv * (1 + tg ^ 2) + 2 * v * tg * dtg ≤ T * l.amax

/-- The constraint list of the vehicle with sign `σ`. -/
noncomputable def steerC (σ : ℝ) (l : SteerLim) (L : ℝ) (v tg : BSpline ℝ) (T : ℝ) : List (Expr ℝ) :=
  if σ = 1 then bicycleC l L v tg T else agvC l L v tg T

theorem steerOk {σ : ℝ} (hσ : σ = 1 ∨ σ = -1) {l : SteerLim} {L T t : ℝ} {v tg : BSpline ℝ} (hv : Traj v 1)
    (ht : Traj tg 1) (hd : 2 ≤ tg.basis.degree) (hT : 0 < T) (hc : ∀ e ∈ steerC σ l L v tg T, e.Imposed 0)
    (h0 : 0 ≤ t) (h1 : t ≤ T) :
    SteerOk σ l L T (v.eval (t / T)) ((v.derivative 1).eval (t / T)) (tg.eval (t / T))
      ((tg.derivative 1).eval (t / T)) ((tg.derivative 2).eval (t / T)) := by
  have hv0 := hv.on
  have ht0 := ht.on
  have ht1 := ht.succ.on
  have hden := denE_on ht
  have hvd := vden2_on hv ht
  have hrd := rateDen_on (L := L) (T := T) hv ht
  have hru := rateUp_on (L := L) hv ht hd
  have hrw := rateDown_on (L := L) hv ht hd
  rcases hσ with rfl | rfl
  · rw [steerC, if_pos rfl] at hc
    simp only [bicycleC, speedC, List.cons_append, List.nil_append, List.forall_mem_cons] at hc
    obtain ⟨c1, c2, c3, c4, c5, c6, c7, -⟩ := hc
    have a1 := imposed_le c1 ⟨⟨⟨trivial, ht1⟩, trivial⟩, ⟨hvd, trivial⟩, trivial⟩ (Or.inl (Or.inl (Or.inr trivial))) hT h0 h1
    have a2 := imposed_le c2 ⟨⟨⟨trivial, ht1⟩, trivial⟩, ⟨hvd, trivial⟩, trivial⟩ (Or.inl (Or.inl (Or.inr trivial))) hT h0 h1
    have a3 := imposed_le c3 ⟨hru, hrd, trivial⟩ (Or.inl (Or.inl (Or.inl (Or.inr trivial)))) hT h0 h1
    have a4 := imposed_le c4 ⟨hrw, hrd, trivial⟩ (Or.inl (Or.inl (Or.inl (Or.inr trivial)))) hT h0 h1
    have a5 := imposed_le c5 ⟨⟨hv0, hden⟩, trivial⟩ (Or.inl (Or.inl trivial)) hT h0 h1
    have a6 := imposed_le c6 ⟨⟨⟨hv.succ.on, hden⟩, ⟨⟨trivial, hv0⟩, ht0⟩, ht1⟩, trivial⟩ (Or.inl (Or.inl (Or.inl trivial))) hT h0 h1
    have a7 := imposed_le c7 hv0 trivial hT h0 h1
    simp only [Expr.val, Expr.sub, Expr.sq, denE, vden2, dvden2, rateDen, rateUp, rateDown] at a1 a2 a3 a4 a5 a6 a7
    generalize v.eval (t / T) = V at *
    generalize tg.eval (t / T) = q at *
    generalize (tg.derivative 1).eval (t / T) = q1 at *
    generalize (tg.derivative 2).eval (t / T) = q2 at *
    generalize (v.derivative 1).eval (t / T) = V1 at *
    clear hv0 ht0 ht1 hden hvd hrd hru hrw c1 c2 c3 c4 c5 c6 c7 hv ht hd
    constructor <;> linarith
  · rw [steerC, if_neg (by norm_num)] at hc
    simp only [agvC, speedC, List.cons_append, List.nil_append, List.forall_mem_cons] at hc
    obtain ⟨c1, c2, c3, c4, c5, c6, c7, -⟩ := hc
    have a1 := imposed_le c1 ⟨⟨⟨trivial, ht1⟩, trivial⟩, ⟨hvd, trivial⟩, trivial⟩ (Or.inl (Or.inl (Or.inr trivial))) hT h0 h1
    have a2 := imposed_le c2 ⟨⟨⟨trivial, ht1⟩, trivial⟩, ⟨hvd, trivial⟩, trivial⟩ (Or.inl (Or.inl (Or.inr trivial))) hT h0 h1
    have a3 := imposed_le c3 ⟨hrw, hrd, trivial⟩ (Or.inl (Or.inl (Or.inl (Or.inr trivial)))) hT h0 h1
    have a4 := imposed_le c4 ⟨hru, hrd, trivial⟩ (Or.inl (Or.inl (Or.inl (Or.inr trivial)))) hT h0 h1
    have a5 := imposed_le c5 ⟨⟨hv0, hden⟩, trivial⟩ (Or.inl (Or.inl trivial)) hT h0 h1
    have a6 := imposed_le c6 ⟨⟨⟨hv.succ.on, hden⟩, ⟨⟨trivial, hv0⟩, ht0⟩, ht1⟩, trivial⟩ (Or.inl (Or.inl (Or.inl trivial))) hT h0 h1
    have a7 := imposed_le c7 hv0 trivial hT h0 h1
    simp only [Expr.val, Expr.sub, Expr.sq, denE, vden2, dvden2, rateDen, rateUp, rateDown] at a1 a2 a3 a4 a5 a6 a7
    generalize v.eval (t / T) = V at *
    generalize tg.eval (t / T) = q at *
    generalize (tg.derivative 1).eval (t / T) = q1 at *
    generalize (tg.derivative 2).eval (t / T) = q2 at *
    generalize (v.derivative 1).eval (t / T) = V1 at *
    clear hv0 ht0 ht1 hden hvd hrd hru hrw c1 c2 c3 c4 c5 c6 c7 hv ht hd
    constructor <;> linarith

/-- The sampled splines in physical time. -/
theorem steerSample_eq {v tg : BSpline ℝ} {T : ℝ} (hv : Traj v 1) (ht : Traj tg 1) (hd : 2 ≤ tg.basis.degree)
    (hT : 0 < T) (t : ℝ) : steerSample (v.scale T 0) (tg.scale T 0) t =
    ⟨v.eval (t / T), (v.derivative 1).eval (t / T) / T, tg.eval (t / T), (tg.derivative 1).eval (t / T) / T,
      (tg.derivative 2).eval (t / T) / T ^ 2⟩ := by
  unfold steerSample
  have e1 := hv.signal hT t
  have e2 := ht.signal hT t
  have e3 := C07_derivative tg ht.clamped ht.wf T 0 hT 2 hd (t / T)
  rw [div_mul_cancel₀ _ hT.ne', add_zero] at e3
  rw [pow_one] at e1 e2
  rw [e1, e2, e3, scaled_eval hv hT, scaled_eval ht hT]

theorem rawDelta_mem {σ : ℝ} {l : SteerLim} {L T v dv tg dtg ddtg : ℝ} (hT : 0 < T)
    (h : SteerOk σ l L T v dv tg dtg ddtg) (hv : 0 < v) (d1 : -(Real.pi / 2) < l.dmin) (d2 : l.dmin < Real.pi / 2)
    (d3 : -(Real.pi / 2) < l.dmax) (d4 : l.dmax < Real.pi / 2) :
    l.dmin ≤ rawDelta σ L ⟨v, dv / T, tg, dtg / T, ddtg / T ^ 2⟩ ∧
    rawDelta σ L ⟨v, dv / T, tg, dtg / T, ddtg / T ^ 2⟩ ≤ l.dmax := by
  have hD : 0 < v * (1 + tg ^ 2) ^ 2 := by positivity
  unfold rawDelta
  dsimp only
  rw [arctan2_pos hD]
  have e : σ * 2 * (dtg / T) * L / (v * (1 + tg ^ 2) ^ 2) = σ * 2 * dtg * L / (v * (1 + tg ^ 2) ^ 2 * T) := by
    field_simp
  rw [e]
  constructor
  · rw [← Real.arctan_tan d1 d2]
    refine Real.arctan_strictMono.monotone ?_
    rw [le_div_iff₀ (by positivity)]
    nlinarith [h.lo]
  · conv_rhs => rw [← Real.arctan_tan d3 d4]
    refine Real.arctan_strictMono.monotone ?_
    rw [div_le_iff₀ (by positivity)]
    nlinarith [h.hi]

theorem rawDdelta_mem {σ : ℝ} {l : SteerLim} {L T v dv tg dtg ddtg : ℝ} (hT : 0 < T)
    (h : SteerOk σ l L T v dv tg dtg ddtg) (hv : 0 < v) :
    l.ddmin ≤ rawDdelta σ L ⟨v, dv / T, tg, dtg / T, ddtg / T ^ 2⟩ ∧
    rawDdelta σ L ⟨v, dv / T, tg, dtg / T, ddtg / T ^ 2⟩ ≤ l.ddmax := by
  have hD : 0 < T ^ 2 * v ^ 2 * (1 + tg ^ 2) ^ 4 + (2 * L * dtg) ^ 2 := by positivity
  have hD' : 0 < v ^ 2 * (1 + tg ^ 2) ^ 4 + (2 * (dtg / T) * L) ^ 2 := by positivity
  unfold rawDdelta
  dsimp only
  have e : σ * (2 * (ddtg / T ^ 2) * L * (v * (1 + tg ^ 2) ^ 2) - 2 * (dtg / T) * L * (dv / T * (1 + tg ^ 2) ^ 2
      + v * (4 * tg + 4 * tg ^ 3) * (dtg / T))) / (v ^ 2 * (1 + tg ^ 2) ^ 4 + (2 * (dtg / T) * L) ^ 2)
      = σ * (2 * ddtg * L * (v * (1 + tg ^ 2) ^ 2) - 2 * dtg * L * (dv * (1 + tg ^ 2) ^ 2
    + v * (4 * tg + 4 * tg ^ 3) * dtg)) / (T ^ 2 * v ^ 2 * (1 + tg ^ 2) ^ 4 + (2 * L * dtg) ^ 2) := by
    rw [div_eq_div_iff hD'.ne' hD.ne']
    field_simp
  rw [e, le_div_iff₀ hD, div_le_iff₀ hD]
  exact ⟨by linarith [h.rlo], by linarith [h.rhi]⟩

/-! ## Properties -/

/-- **C14** (bicycle `σ = 1`, AGV `σ = -1`): speed, forward acceleration and motion along the heading.
The state is the stored one; `dx`, `dy` are the splines `v_til*(1-tg_ha**2)` and `v_til*(2*tg_ha)`. -/
theorem C14_steer_motion (σ : ℝ) (hσ : σ = 1 ∨ σ = -1) (l : SteerLim) (L : ℝ) (v tg dx dy : BSpline ℝ)
    (hv : Traj v 1) (ht : Traj tg 1) (hd : 2 ≤ tg.basis.degree) (T : ℝ) (hT : 0 < T)
    (hc : ∀ e ∈ steerC σ l L v tg T, e.Imposed 0)
    (rx : (dxE (v.scale T 0) (tg.scale T 0)).Runs (.spl dx))
    (ry : (dyE (v.scale T 0) (tg.scale T 0)).Runs (.spl dy)) (x0 y0 t0 : ℝ) :
    let s := dubinsSignals (v.scale T 0) (tg.scale T 0) dx dy x0 y0 t0
    (∀ t, 0 ≤ t → t ≤ T → 0 ≤ (s t).V ∧ (s t).V ≤ l.vmax) ∧
    (∀ t, 0 < t → t < T → DifferentiableAt ℝ (fun t => (s t).V) t ∧ deriv (fun t => (s t).V) t ≤ l.amax ∧
      HasDerivAt (fun t => (s t).x) ((s t).V * Real.cos (s t).theta) t ∧
      HasDerivAt (fun t => (s t).y) ((s t).V * Real.sin (s t).theta) t) := by
  intro s
  have ev : ∀ t, (v.scale T 0).eval t = v.eval (t / T) := scaled_eval hv hT
  have et : ∀ t, (tg.scale T 0).eval t = tg.eval (t / T) := scaled_eval ht hT
  have sv := hv.scaled hT
  have st := ht.scaled hT
  refine ⟨fun t h0 h1 => ?_, fun t h0 h1 => ?_⟩
  · have h := steerOk hσ hv ht hd hT hc h0 h1
    simp only [s, dubinsSignals, ev, et]
    have := h.v0
    exact ⟨by positivity, h.v1⟩
  · have h := steerOk hσ hv ht hd hT hc h0.le h1.le
    obtain ⟨u1, u2⟩ := unicycle (sv.mono (Nat.zero_le _)) (st.mono (Nat.zero_le _)) rx ry one_pos x0 y0 t0 (t := t)
      (by simpa using h0) (by simpa using h1)
    simp only [div_one] at u1 u2
    have d1 := hv.phys hT h0 h1
    have d2 := ht.phys hT h0 h1
    have d3 := d1.mul ((d2.pow 2).const_add 1)
    have e : (fun t => (s t).V) = fun t => v.eval (t / T) * (1 + tg.eval (t / T) ^ 2) := by
      funext t; simp only [s, dubinsSignals, ev, et]
    rw [e]
    refine ⟨d3.differentiableAt, ?_, ?_, ?_⟩
    · have := d3.deriv
      have e2 : (fun t => v.eval (t / T) * (1 + tg.eval (t / T) ^ 2))
        = (fun t => v.eval (t / T)) * fun t => 1 + tg.eval (t / T) ^ 2 := rfl
      rw [e2]
      refine le_trans (le_of_eq this) ?_
      have ha := h.acc
      have e3 : (v.derivative 1).eval (t / T) / T * (1 + tg.eval (t / T) ^ 2) +
          v.eval (t / T) * (↑(2 : ℕ) * tg.eval (t / T) ^ (2 - 1) * ((tg.derivative 1).eval (t / T) / T))
          = ((v.derivative 1).eval (t / T) * (1 + tg.eval (t / T) ^ 2) +
            2 * v.eval (t / T) * tg.eval (t / T) * (tg.derivative 1).eval (t / T)) / T := by
        norm_num; field_simp
      calc _ = _ := e3
        _ ≤ _ := by rw [div_le_iff₀ hT]; linarith
    · simp only [s, dubinsSignals, heading_eq]; exact u1
    · simp only [s, dubinsSignals, heading_eq]; exact u2

/-- **C14** (bicycle `σ = 1`, AGV `σ = -1`): while the vehicle moves, the steering angle is within
`[dmin, dmax]`, the heading turns at the rate `±V/L tan δ` of the vehicle model, and away from the spline
knots the steering angle changes at the computed rate, which is within `[ddmin, ddmax]`. -/
theorem C14_steer_angle (σ : ℝ) (hσ : σ = 1 ∨ σ = -1) (l : SteerLim) (L : ℝ) (hL : 0 < L) (v tg : BSpline ℝ)
    (hv : Traj v 1) (ht : Traj tg 1) (hd : 2 ≤ tg.basis.degree) (T : ℝ) (hT : 0 < T)
    (d1 : -(Real.pi / 2) < l.dmin) (d2 : l.dmin < Real.pi / 2)
    (d3 : -(Real.pi / 2) < l.dmax) (d4 : l.dmax < Real.pi / 2)
    (hc : ∀ e ∈ steerC σ l L v tg T, e.Imposed 0) :
    let s := steerSample (v.scale T 0) (tg.scale T 0)
    (∀ t, 0 ≤ t → t ≤ T → 0 < (s t).v →
      (l.dmin ≤ rawDelta σ L (s t) ∧ rawDelta σ L (s t) ≤ l.dmax) ∧
      l.ddmin ≤ rawDdelta σ L (s t) ∧ rawDdelta σ L (s t) ≤ l.ddmax) ∧
    (∀ t, 0 < t → t < T → 0 < (s t).v →
      HasDerivAt (fun t => 2 * arctan2 (s t).tg 1)
        (σ * ((s t).v * (1 + (s t).tg ^ 2)) / L * Real.tan (rawDelta σ L (s t))) t ∧
      (t / T ∉ tg.basis.knots → HasDerivAt (fun t => rawDelta σ L (s t)) (rawDdelta σ L (s t)) t)) := by
  intro s
  have es : ∀ t, s t = ⟨v.eval (t / T), (v.derivative 1).eval (t / T) / T, tg.eval (t / T),
    (tg.derivative 1).eval (t / T) / T, (tg.derivative 2).eval (t / T) / T ^ 2⟩ := steerSample_eq hv ht hd hT
  refine ⟨fun t h0 h1 hp => ?_, fun t h0 h1 hp => ?_⟩
  · have h := steerOk hσ hv ht hd hT hc h0 h1
    rw [es] at hp ⊢
    exact ⟨rawDelta_mem hT h hp d1 d2 d3 d4, rawDdelta_mem hT h hp⟩
  · simp only [es] at hp ⊢
    have hD : 0 < v.eval (t / T) * (1 + tg.eval (t / T) ^ 2) ^ 2 := by positivity
    have hσ2 : σ * σ = 1 := by rcases hσ with h | h <;> rw [h] <;> norm_num
    have d1 := hv.phys hT h0 h1
    have d2 := ht.phys hT h0 h1
    obtain ⟨m0, m1⟩ := phys_mem hT h0 h1
    constructor
    · have hh := heading_hasDerivAt d2
      simp only [heading_eq]
      refine hh.congr_deriv ?_
      unfold rawDelta
      dsimp only
      rw [arctan2_pos hD, Real.tan_arctan]
      field_simp
      have : σ ^ 2 = 1 := by rw [pow_two]; exact hσ2
      rw [this, mul_one]
    · intro hk
      have ht1 : Traj (tg.derivative 1) 0 := ht.succ
      have hdeg : (tg.derivative 1).basis.degree = tg.basis.degree - 1 :=
        (clamped_derivative ht.clamped ht.wf 1 (by omega)).2.2.1
      have hcnt : (tg.derivative 1).basis.knots.count (t / T) = 0 := by
        have := count_derivative tg 1 (t / T)
        rw [List.count_eq_zero.2 hk] at this
        omega
      have d3 := (C51_hasDerivAt (tg.derivative 1) ht1.clamped ht1.wf (t / T) (by rw [ht1.first]; exact m0)
        (by rw [ht1.last]; exact m1) (by omega)).comp t ((hasDerivAt_id t).div_const T)
      rw [← derivative_succ] at d3
      have dN := (((d3.div_const T).const_mul (σ * 2)).mul_const L)
      have dD := d1.mul (((d2.pow 2).const_add 1).pow 2)
      have dq := (dN.div dD hD.ne').arctan
      have hcont : ContinuousAt (fun t => v.eval (t / T)) t := d1.continuousAt
      have hpos : ∀ᶠ u in nhds t, 0 < v.eval (u / T) := hcont.eventually (lt_mem_nhds hp)
      have heq : (fun t => rawDelta σ L ⟨v.eval (t / T), (v.derivative 1).eval (t / T) / T, tg.eval (t / T),
          (tg.derivative 1).eval (t / T) / T, (tg.derivative 2).eval (t / T) / T ^ 2⟩) =ᶠ[nhds t] fun u =>
          Real.arctan (σ * 2 * ((tg.derivative 1).eval (u / T) / T) * L / (v.eval (u / T) * (1 + tg.eval (u / T) ^ 2) ^ 2)) := by
        filter_upwards [hpos] with u hu
        unfold rawDelta
        dsimp only
        rw [arctan2_pos (by positivity)]
      refine HasDerivAt.congr_of_eventuallyEq (HasDerivAt.congr_deriv dq ?_) heq
      unfold rawDdelta
      simp only [Function.comp_apply, id, Pi.mul_apply, Pi.div_apply, Pi.pow_apply]
      generalize v.eval (t / T) = V at *
      generalize tg.eval (t / T) = q at *
      generalize (tg.derivative 1).eval (t / T) = q1 at *
      generalize (tg.derivative 2).eval (t / T) = q2 at *
      generalize (v.derivative 1).eval (t / T) = V1 at *
      have hs2 : σ ^ 2 = 1 := by rw [pow_two]; exact hσ2
      have k1 : (1 + (σ * 2 * (q1 / T) * L / (V * (1 + q ^ 2) ^ 2)) ^ 2) * (V * (1 + q ^ 2) ^ 2) ^ 2
          = V ^ 2 * (1 + q ^ 2) ^ 4 + (2 * (q1 / T) * L) ^ 2 := by
        rw [add_mul, div_pow, div_mul_cancel₀ _ (by positivity)]
        linear_combination ((2 * (q1 / T) * L) ^ 2) * hs2
      rw [← k1, div_mul_div_comm, one_mul]
      congr 1
      push_cast
      ring

/-- **C14** (bicycle, AGV), the stored samples.  Full claim: every stored steering angle and rate is
within its limits.  Proved here for the samples with `v_til` above `1e-3`, where the code does not replace
the formula; `C14_steer_stored_violated` shows that the replacement can leave the limits. -/
theorem C14_steer_stored_partial (σ : ℝ) (hσ : σ = 1 ∨ σ = -1) (l : SteerLim) (L : ℝ) (hL : 0 < L)
    (v tg : BSpline ℝ) (hv : Traj v 1) (ht : Traj tg 1) (hd : 2 ≤ tg.basis.degree) (T : ℝ) (hT : 0 < T)
    (d1 : -(Real.pi / 2) < l.dmin) (d2 : l.dmin < Real.pi / 2)
    (d3 : -(Real.pi / 2) < l.dmax) (d4 : l.dmax < Real.pi / 2)
    (hc : ∀ e ∈ steerC σ l L v tg T, e.Imposed 0) (time : ℕ → ℝ) (n k : ℕ) (h0 : 0 ≤ time k) (h1 : time k ≤ T)
    (hk : 1e-3 < v.eval (time k / T)) :
    let s := fun k => steerSample (v.scale T 0) (tg.scale T 0) (time k)
    (l.dmin ≤ storedDelta σ L s n k ∧ storedDelta σ L s n k ≤ l.dmax) ∧
    l.ddmin ≤ storedDdelta σ L s n k ∧ storedDdelta σ L s n k ≤ l.ddmax := by
  intro s
  have ev : (s k).v = v.eval (time k / T) := scaled_eval hv hT _
  have h3 : ¬ (s k).v ≤ 1e-3 := by rw [ev]; exact not_le.2 hk
  have h4 : ¬ (s k).v ≤ 1e-4 := by rw [ev]; norm_num at hk ⊢; linarith
  have r1 : storedDelta σ L s n k = rawDelta σ L (s k) := by
    cases k with
    | zero => rw [storedDelta, if_neg (fun q => h4 q.1)]
    | succ k =>
      rw [storedDelta]
      split_ifs with a b c d
      · exact absurd b.1 h3
      · exact absurd b.1 h3
      · rfl
      · exact absurd d.1 h4
      · rfl
  have r2 : storedDdelta σ L s n k = rawDdelta σ L (s k) := by
    cases k with
    | zero => rw [storedDdelta, if_neg (fun q => h4 q.1)]
    | succ k =>
      rw [storedDdelta]
      split_ifs with a b c
      · exact absurd b.1 h3
      · rfl
      · exact absurd c.1 h4
      · rfl
  rw [r1, r2]
  exact (C14_steer_angle σ hσ l L hL v tg hv ht hd T hT d1 d2 d3 d4 hc).1 (time k) h0 h1
    (by show 0 < (s k).v; rw [ev]; norm_num at hk; linarith)

/-! ### Example: braking to a standstill while straightening out -/

/-- `v_til = (1 - τ)/10`. -/
noncomputable def brV : BSpline ℝ := ⟨Bz 2, [1 / 10, 1 / 20, 0]⟩
/-- `tg_ha = (1 - τ)²/4`. -/
noncomputable def brTg : BSpline ℝ := ⟨Bz 2, [1 / 4, 0, 0]⟩

theorem brV_traj : Traj brV 1 := (Bz_traj rfl).mono (by norm_num)
theorem brTg_traj : Traj brTg 1 := (Bz_traj rfl).mono (by norm_num)

theorem brV_d1 : brV.derivative 1 = ⟨Bz 1, [-(1 / 10), -(1 / 10)]⟩ := by
  unfold brV; rw [Bz_derivative rfl]; norm_num [List.range_succ]
theorem brTg_d1 : brTg.derivative 1 = ⟨Bz 1, [-(1 / 2), 0]⟩ := by
  unfold brTg; rw [Bz_derivative rfl]; norm_num [List.range_succ]
theorem brTg_d2 : brTg.derivative 2 = ⟨Bz 0, [1 / 2]⟩ := by
  rw [derivative_succ, brTg_d1, Bz_derivative rfl]; norm_num [List.range_succ]

theorem brV_eval {x : ℝ} (h0 : 0 ≤ x) (h1 : x ≤ 1) : brV.eval x = (1 - x) / 10 := by
  unfold brV; rw [Bz_eval rfl h0 h1]; simp [Finset.sum_range_succ, bern, Nat.choose]; ring
theorem brTg_eval {x : ℝ} (h0 : 0 ≤ x) (h1 : x ≤ 1) : brTg.eval x = (1 - x) ^ 2 / 4 := by
  unfold brTg; rw [Bz_eval rfl h0 h1]; simp [Finset.sum_range_succ, bern]; ring
theorem brV1_eval {x : ℝ} (h0 : 0 ≤ x) (h1 : x ≤ 1) : (brV.derivative 1).eval x = -(1 / 10) := by
  rw [brV_d1, Bz_eval rfl h0 h1]; simp [Finset.sum_range_succ, bern, Nat.choose]; ring
theorem brTg1_eval {x : ℝ} (h0 : 0 ≤ x) (h1 : x ≤ 1) : (brTg.derivative 1).eval x = -(1 - x) / 2 := by
  rw [brTg_d1, Bz_eval rfl h0 h1]; simp [Finset.sum_range_succ, bern]; ring
theorem brTg2_eval {x : ℝ} (h0 : 0 ≤ x) (h1 : x ≤ 1) : (brTg.derivative 2).eval x = 1 / 2 := by
  rw [brTg_d2, Bz_eval rfl h0 h1]; simp [bern]

theorem half_lt_tan : (1 : ℝ) / 2 < Real.tan (Real.pi / 6) := by
  rw [Real.tan_pi_div_six]
  have : Real.sqrt 3 < 2 := by
    rw [Real.sqrt_lt' (by norm_num)]; norm_num
  have h3 : 0 < Real.sqrt 3 := Real.sqrt_pos.2 (by norm_num)
  exact one_div_lt_one_div_of_lt h3 this

/-- With the default bounds, length 0.4 and motion time 10, all constraints of the bicycle hold. -/
theorem br_imposed : ∀ e ∈ bicycleC (bicycleLim fun _ => none) (2 / 5) brV brTg 10, e.Imposed 0 := by
  have hpi := Real.pi_gt_three
  have hr := half_lt_tan
  have hm : Real.tan (-Real.pi / 6) = -Real.tan (Real.pi / 6) := by rw [neg_div, Real.tan_neg]
  have e0 : (brV.basis.degree, brTg.basis.degree, (brV.derivative 1).basis.degree, (brTg.derivative 1).basis.degree,
    (brTg.derivative 2).basis.degree) = (2, 2, 1, 1, 0) := by
    rw [brV_d1, brTg_d1, brTg_d2]; rfl
  simp only [Prod.mk.injEq] at e0
  have z : ∀ s ∈ [brV, brTg, brV.derivative 1, brTg.derivative 1, brTg.derivative 2], (Expr.spl s).AllBz := by
    rw [brV_d1, brTg_d1, brTg_d2]
    simp only [List.forall_mem_cons, List.not_mem_nil, false_imp_iff, implies_true, and_true]
    refine ⟨⟨rfl, rfl⟩, ⟨rfl, rfl⟩, ⟨rfl, rfl⟩, ⟨rfl, rfl⟩, rfl, rfl⟩
  simp only [List.forall_mem_cons, List.not_mem_nil, false_imp_iff, implies_true, and_true, Expr.AllBz] at z
  obtain ⟨z1, z2, z3, z4, z5⟩ := z
  simp only [bicycleC, speedC, List.cons_append, List.nil_append, List.forall_mem_cons, List.not_mem_nil,
    false_imp_iff, implies_true, and_true, bicycleLim, steerLim, lim, Option.getD_none, hm]
  generalize Real.tan (Real.pi / 6) = r at *
  generalize Real.pi = p at *
  refine ⟨?_, ?_, ?_, ?_, ?_, ?_, ?_⟩
  · refine Expr.AllBz.imposed_pow (D := 10) ?_ ?_ (by norm_num)
      (fun j => [0, -(2 / 5) - r, 0, 0, 0, -(r / 8), 0, 0, 0, -(r / 256)].getD j 0) (fun x h0 h1 => ?_) ?_
    · simp only [Expr.AllBz, Expr.sub, Expr.sq, denE, vden2]
      repeat' apply And.intro
      all_goals trivial
    · simp [Expr.bdeg, Expr.sub, Expr.sq, denE, vden2, e0]
    · simp only [Expr.val, Expr.sub, Expr.sq, denE, vden2, brV_eval h0 h1, brTg_eval h0 h1, brTg1_eval h0 h1]
      simp [Finset.sum_range_succ]; ring
    · intro w w0 wp wm
      simp [Finset.sum_range_succ]
      have := wp 1; have := wp 5; have := wp 9
      nlinarith
  · refine Expr.AllBz.imposed_pow (D := 10) ?_ ?_ (by norm_num)
      (fun j => [0, (2 / 5) - r, 0, 0, 0, -(r / 8), 0, 0, 0, -(r / 256)].getD j 0) (fun x h0 h1 => ?_) ?_
    · simp only [Expr.AllBz, Expr.sq, denE, vden2]
      repeat' apply And.intro
      all_goals trivial
    · simp [Expr.bdeg, Expr.sq, denE, vden2, e0]
    · simp only [Expr.val, Expr.sq, denE, vden2, brV_eval h0 h1, brTg_eval h0 h1, brTg1_eval h0 h1]
      simp [Finset.sum_range_succ]; ring
    · intro w w0 wp wm
      simp [Finset.sum_range_succ]
      have := wp 1; have := wp 5; have := wp 9
      nlinarith
  · refine Expr.AllBz.imposed_pow (D := 20) ?_ ?_ (by norm_num)
      (fun j => [0, 0, -(p / 4) * (29 / 25), 0, 0, -(1 / 50), -(p / 4) * (1 / 4), 0, 0, -(1 / 800), -(p / 4) * (3 / 128),
        0, 0, 0, -(p / 4) * (1 / 1024), 0, 0, 0, -(p / 4) * (1 / 65536)].getD j 0) (fun x h0 h1 => ?_) ?_
    · simp only [Expr.AllBz, Expr.sub, Expr.sq, denE, vden2, dvden2, rateUp, rateDen]
      repeat' apply And.intro
      all_goals trivial
    · simp [Expr.bdeg, Expr.sub, Expr.sq, denE, vden2, dvden2, rateUp, rateDen, e0]
    · simp only [Expr.val, Expr.sub, Expr.sq, denE, vden2, dvden2, rateUp, rateDen, brV_eval h0 h1, brTg_eval h0 h1,
        brTg1_eval h0 h1, brV1_eval h0 h1, brTg2_eval h0 h1]
      simp [Finset.sum_range_succ]; ring
    · intro w w0 wp wm
      simp [Finset.sum_range_succ]
      have q2 := wp 2; have q5 := wp 5; have q6 := wp 6; have q9 := wp 9; have q10 := wp 10; have q14 := wp 14
      have q18 := wp 18
      have m2 := mul_nonneg (show 0 ≤ p by linarith) q2
      have m6 := mul_nonneg (show 0 ≤ p by linarith) q6
      have m10 := mul_nonneg (show 0 ≤ p by linarith) q10
      have m14 := mul_nonneg (show 0 ≤ p by linarith) q14
      have m18 := mul_nonneg (show 0 ≤ p by linarith) q18
      linarith
  · refine Expr.AllBz.imposed_pow (D := 20) ?_ ?_ (by norm_num)
      (fun j => [0, 0, -(p / 4) * (29 / 25), 0, 0, (1 / 50), -(p / 4) * (1 / 4), 0, 0, (1 / 800), -(p / 4) * (3 / 128),
        0, 0, 0, -(p / 4) * (1 / 1024), 0, 0, 0, -(p / 4) * (1 / 65536)].getD j 0) (fun x h0 h1 => ?_) ?_
    · simp only [Expr.AllBz, Expr.sq, denE, vden2, dvden2, rateDown, rateDen]
      repeat' apply And.intro
      all_goals trivial
    · simp [Expr.bdeg, Expr.sq, denE, vden2, dvden2, rateDown, rateDen, e0]
    · simp only [Expr.val, Expr.sq, denE, vden2, dvden2, rateDown, rateDen, brV_eval h0 h1, brTg_eval h0 h1,
        brTg1_eval h0 h1, brV1_eval h0 h1, brTg2_eval h0 h1]
      simp [Finset.sum_range_succ]; ring
    · intro w w0 wp wm
      simp [Finset.sum_range_succ]
      have q2 := wp 2; have q5 := wp 5; have q6 := wp 6; have q9 := wp 9; have q10 := wp 10; have q14 := wp 14
      have q18 := wp 18
      have t5 : w 5 ≤ w 2 := (wm 4).trans ((wm 3).trans (wm 2))
      have t9 : w 9 ≤ w 5 := (wm 8).trans ((wm 7).trans ((wm 6).trans (wm 5)))
      have m2 := mul_nonneg (show 0 ≤ p - 3 by linarith) q2
      have m6 := mul_nonneg (show 0 ≤ p by linarith) q6
      have m10 := mul_nonneg (show 0 ≤ p by linarith) q10
      have m14 := mul_nonneg (show 0 ≤ p by linarith) q14
      have m18 := mul_nonneg (show 0 ≤ p by linarith) q18
      nlinarith
  · refine Expr.AllBz.imposed_pow (D := 6) ?_ ?_ (by norm_num)
      (fun j => [-(4 / 5), 1 / 10, 0, 0, 0, 1 / 160].getD j 0) (fun x h0 h1 => ?_) ?_
    · simp only [Expr.AllBz, Expr.sub, Expr.sq, denE]
      repeat' apply And.intro
      all_goals trivial
    · simp [Expr.bdeg, Expr.sub, Expr.sq, denE, e0]
    · simp only [Expr.val, Expr.sub, Expr.sq, denE, brV_eval h0 h1, brTg_eval h0 h1]
      simp [Finset.sum_range_succ]; ring
    · intro w w0 wp wm
      simp [Finset.sum_range_succ, w0]
      have := wm 0; have := wm 1; have := wm 2; have := wm 3; have := wm 4
      linarith
  · refine Expr.AllBz.imposed_pow (D := 5) ?_ ?_ (by norm_num)
      (fun j => [-(1 / 10) - 10, 0, 0, 0, -(1 / 160) - 1 / 40].getD j 0) (fun x h0 h1 => ?_) ?_
    · simp only [Expr.AllBz, Expr.sub, Expr.sq, denE]
      repeat' apply And.intro
      all_goals trivial
    · simp [Expr.bdeg, Expr.sub, Expr.sq, denE, e0]
    · simp only [Expr.val, Expr.sub, Expr.sq, denE, brV_eval h0 h1, brTg_eval h0 h1, brV1_eval h0 h1, brTg1_eval h0 h1]
      simp [Finset.sum_range_succ]; ring
    · intro w w0 wp wm
      simp [Finset.sum_range_succ, w0]
      have := wp 4
      linarith
  · refine Expr.AllBz.imposed_pow (D := 2) ?_ ?_ (by norm_num) (fun j => [0, -(1 / 10)].getD j 0) (fun x h0 h1 => ?_) ?_
    · simpa [Expr.AllBz] using z1
    · simp [Expr.bdeg, e0]
    · simp only [Expr.val, brV_eval h0 h1]
      simp [Finset.sum_range_succ]; ring
    · intro w w0 wp wm
      simp [Finset.sum_range_succ]
      have := wp 1
      linarith

theorem br_steerC : ∀ e ∈ steerC 1 (bicycleLim fun _ => none) (2 / 5) brV brTg 10, e.Imposed 0 := by
  rw [steerC, if_pos rfl]; exact br_imposed

theorem br_lim : -(Real.pi / 2) < (bicycleLim fun _ => none).dmin ∧ (bicycleLim fun _ => none).dmin < Real.pi / 2 ∧
    -(Real.pi / 2) < (bicycleLim fun _ => none).dmax ∧ (bicycleLim fun _ => none).dmax < Real.pi / 2 := by
  have := Real.pi_pos
  simp only [bicycleLim, steerLim, lim, Option.getD_none]
  refine ⟨?_, ?_, ?_, ?_⟩ <;> linarith

/-- Halfway the braking motion the steering angle is in range. -/
example : -Real.pi / 6 ≤ rawDelta 1 (2 / 5) (steerSample (brV.scale 10 0) (brTg.scale 10 0) 5) := by
  have := (C14_steer_angle 1 (Or.inl rfl) (bicycleLim fun _ => none) (2 / 5) (by norm_num) brV brTg brV_traj brTg_traj
    le_rfl 10 (by norm_num) br_lim.1 br_lim.2.1 br_lim.2.2.1 br_lim.2.2.2 br_steerC).1 5 (by norm_num) (by norm_num)
    (by show 0 < (brV.scale 10 0).eval 5; rw [scaled_eval brV_traj (by norm_num), brV_eval (by norm_num) (by norm_num)]; norm_num)
  exact this.1.1

example : storedDelta 1 (2 / 5) (fun k => steerSample (brV.scale 10 0) (brTg.scale 10 0) ((k : ℝ) / 10)) 101 50 ≤ Real.pi / 6 :=
  (C14_steer_stored_partial 1 (Or.inl rfl) (bicycleLim fun _ => none) (2 / 5) (by norm_num) brV brTg brV_traj brTg_traj
    le_rfl 10 (by norm_num) br_lim.1 br_lim.2.1 br_lim.2.2.1 br_lim.2.2.2 br_steerC (fun k : ℕ => (k : ℝ) / 10) 101 50
    (by norm_num) (by norm_num) (by rw [brV_eval (by norm_num) (by norm_num)]; norm_num)).1.2

/-- A constant heading. -/
noncomputable def stTg : BSpline ℝ := ⟨Bz 2, [1 / 2, 1 / 2, 1 / 2]⟩

theorem stTg_traj : Traj stTg 1 := (Bz_traj rfl).mono (by norm_num)
theorem stTg_d1 : stTg.derivative 1 = ⟨Bz 1, [0, 0]⟩ := by
  unfold stTg; rw [Bz_derivative rfl]; norm_num [List.range_succ]
theorem stTg_d2 : stTg.derivative 2 = ⟨Bz 0, [0]⟩ := by
  rw [derivative_succ, stTg_d1, Bz_derivative rfl]; norm_num [List.range_succ]
theorem stTg_eval {x : ℝ} (h0 : 0 ≤ x) (h1 : x ≤ 1) : stTg.eval x = 1 / 2 := by
  unfold stTg; rw [Bz_eval rfl h0 h1]; simp [Finset.sum_range_succ, bern, Nat.choose]; ring
theorem stTg1_eval {x : ℝ} (h0 : 0 ≤ x) (h1 : x ≤ 1) : (stTg.derivative 1).eval x = 0 := by
  rw [stTg_d1, Bz_eval rfl h0 h1]; simp [Finset.sum_range_succ]
theorem stTg2_eval {x : ℝ} (h0 : 0 ≤ x) (h1 : x ≤ 1) : (stTg.derivative 2).eval x = 0 := by
  rw [stTg_d2, Bz_eval rfl h0 h1]; simp

/-- An AGV driving straight on and braking satisfies its constraints. -/
theorem st_imposed : ∀ e ∈ agvC (agvLim fun _ => none) (2 / 5) brV stTg 1, e.Imposed 0 := by
  have hpi := Real.pi_gt_three
  have hr := half_lt_tan
  have hm : Real.tan (-Real.pi / 6) = -Real.tan (Real.pi / 6) := by rw [neg_div, Real.tan_neg]
  have e0 : (brV.basis.degree, stTg.basis.degree, (brV.derivative 1).basis.degree, (stTg.derivative 1).basis.degree,
    (stTg.derivative 2).basis.degree) = (2, 2, 1, 1, 0) := by
    rw [brV_d1, stTg_d1, stTg_d2]; rfl
  simp only [Prod.mk.injEq] at e0
  have z : ∀ s ∈ [brV, stTg, brV.derivative 1, stTg.derivative 1, stTg.derivative 2], (Expr.spl s).AllBz := by
    rw [brV_d1, stTg_d1, stTg_d2]
    simp only [List.forall_mem_cons, List.not_mem_nil, false_imp_iff, implies_true, and_true]
    refine ⟨⟨rfl, rfl⟩, ⟨rfl, rfl⟩, ⟨rfl, rfl⟩, ⟨rfl, rfl⟩, rfl, rfl⟩
  simp only [List.forall_mem_cons, List.not_mem_nil, false_imp_iff, implies_true, and_true, Expr.AllBz] at z
  obtain ⟨z1, z2, z3, z4, z5⟩ := z
  simp only [agvC, speedC, List.cons_append, List.nil_append, List.forall_mem_cons, List.not_mem_nil,
    false_imp_iff, implies_true, and_true, agvLim, steerLim, lim, Option.getD_none, hm]
  generalize Real.tan (Real.pi / 6) = r at *
  generalize Real.pi = p at *
  refine ⟨?_, ?_, ?_, ?_, ?_, ?_, ?_⟩
  iterate 2
    refine Expr.AllBz.imposed_pow (D := 10) ?_ ?_ (by norm_num)
      (fun j => [0, -(r * (5 / 32))].getD j 0) (fun x h0 h1 => ?_) ?_
    · simp only [Expr.AllBz, Expr.sub, Expr.sq, denE, vden2]
      repeat' apply And.intro
      all_goals trivial
    · simp [Expr.bdeg, Expr.sub, Expr.sq, denE, vden2, e0]
    · simp only [Expr.val, Expr.sub, Expr.sq, denE, vden2, brV_eval h0 h1, stTg_eval h0 h1, stTg1_eval h0 h1]
      simp [Finset.sum_range_succ]; ring
    · intro w w0 wp wm
      simp [Finset.sum_range_succ]
      have := wp 1
      nlinarith
  iterate 2
    refine Expr.AllBz.imposed_pow (D := 20) ?_ ?_ (by norm_num)
      (fun j => [0, 0, -(p / 4) * (5 ^ 4 / 4 ^ 4) / 100].getD j 0) (fun x h0 h1 => ?_) ?_
    · simp only [Expr.AllBz, Expr.sub, Expr.sq, denE, vden2, dvden2, rateUp, rateDown, rateDen]
      repeat' apply And.intro
      all_goals trivial
    · simp [Expr.bdeg, Expr.sub, Expr.sq, denE, vden2, dvden2, rateUp, rateDown, rateDen, e0]
    · simp only [Expr.val, Expr.sub, Expr.sq, denE, vden2, dvden2, rateUp, rateDown, rateDen, brV_eval h0 h1,
        stTg_eval h0 h1, stTg1_eval h0 h1, brV1_eval h0 h1, stTg2_eval h0 h1]
      simp [Finset.sum_range_succ]; ring
    · intro w w0 wp wm
      simp [Finset.sum_range_succ]
      have := mul_nonneg (show 0 ≤ p by linarith) (wp 2)
      linarith
  · refine Expr.AllBz.imposed_pow (D := 6) ?_ ?_ (by norm_num)
      (fun j => [-(1 / 2), 1 / 8].getD j 0) (fun x h0 h1 => ?_) ?_
    · simp only [Expr.AllBz, Expr.sub, Expr.sq, denE]
      repeat' apply And.intro
      all_goals trivial
    · simp [Expr.bdeg, Expr.sub, Expr.sq, denE, e0]
    · simp only [Expr.val, Expr.sub, Expr.sq, denE, brV_eval h0 h1, stTg_eval h0 h1]
      simp [Finset.sum_range_succ]; ring
    · intro w w0 wp wm
      simp [Finset.sum_range_succ, w0]
      have := wm 0
      linarith
  · refine Expr.AllBz.imposed_pow (D := 5) ?_ ?_ (by norm_num)
      (fun j => [-(1 / 8) - 1].getD j 0) (fun x h0 h1 => ?_) ?_
    · simp only [Expr.AllBz, Expr.sub, Expr.sq, denE]
      repeat' apply And.intro
      all_goals trivial
    · simp [Expr.bdeg, Expr.sub, Expr.sq, denE, e0]
    · simp only [Expr.val, Expr.sub, Expr.sq, denE, brV_eval h0 h1, stTg_eval h0 h1, brV1_eval h0 h1, stTg1_eval h0 h1]
      simp [Finset.sum_range_succ]; ring
    · intro w w0 wp wm
      simp [Finset.sum_range_succ, w0]
      norm_num
  · refine Expr.AllBz.imposed_pow (D := 2) ?_ ?_ (by norm_num) (fun j => [0, -(1 / 10)].getD j 0) (fun x h0 h1 => ?_) ?_
    · simpa [Expr.AllBz] using z1
    · simp [Expr.bdeg, e0]
    · simp only [Expr.val, brV_eval h0 h1]
      simp [Finset.sum_range_succ]; ring
    · intro w w0 wp wm
      simp [Finset.sum_range_succ]
      have := wp 1
      linarith

theorem stDx : ∃ s, (dxE brV stTg).Runs (.spl s) := by
  obtain ⟨s, h, -⟩ := (Expr.AllBz.runs (e := dxE brV stTg)
    (by simp [Expr.AllBz, Expr.sub, Expr.sq, dxE, brV, stTg, Bz])).2 6
    (by simp [Expr.bdeg, Expr.sub, Expr.sq, dxE, brV, stTg, Bz]) (by norm_num)
  exact ⟨s, h⟩

theorem stDy : ∃ s, (dyE brV stTg).Runs (.spl s) := by
  obtain ⟨s, h, -⟩ := (Expr.AllBz.runs (e := dyE brV stTg)
    (by simp [Expr.AllBz, dyE, brV, stTg, Bz])).2 4
    (by simp [Expr.bdeg, dyE, brV, stTg, Bz]) (by norm_num)
  exact ⟨s, h⟩

/-- The AGV at half time. -/
example : ∃ dx dy, (dxE brV stTg).Runs (.spl dx) ∧ (dyE brV stTg).Runs (.spl dy) ∧
    (dubinsSignals brV stTg dx dy 3 1 0 (1 / 2)).V ≤ 1 / 2 ∧
    deriv (fun t => (dubinsSignals brV stTg dx dy 3 1 0 t).V) (1 / 2) ≤ 1 := by
  obtain ⟨dx, rx⟩ := stDx
  obtain ⟨dy, ry⟩ := stDy
  have := C14_steer_motion (-1) (Or.inr rfl) (agvLim fun _ => none) (2 / 5) brV stTg dx dy brV_traj stTg_traj le_rfl 1
    one_pos (by rw [steerC, if_neg (by norm_num)]; exact st_imposed) (by rw [scale_one, scale_one]; exact rx)
    (by rw [scale_one, scale_one]; exact ry) 3 1 0
  simp only [scale_one] at this
  exact ⟨dx, dy, rx, ry, (this.1 _ (by norm_num) (by norm_num)).2, (this.2 _ (by norm_num) (by norm_num)).2.1⟩

/-- **C14**, the stored steering angle is wrong: a bicycle brakes from 0.1 m/s to standstill in 10 s,
straightening its wheel, sampled every 0.1 s.  All constraints hold with the default bounds, but one sample
before the end the stored steering angle exceeds 90 degrees while `dmax` is 30 degrees.  (l'Hopital's rule
is applied with `arctan2` to a numerator and denominator that both have the wrong sign.) -/
theorem C14_steer_stored_violated :
    ∃ (L : ℝ) (v tg : BSpline ℝ) (T : ℝ), 0 < L ∧ 0 < T ∧ Traj v 1 ∧ Traj tg 1 ∧ 2 ≤ tg.basis.degree ∧
      (∀ e ∈ bicycleC (bicycleLim fun _ => none) L v tg T, e.Imposed 0) ∧
      (bicycleLim fun _ => none).dmax = Real.pi / 6 ∧
      Real.pi / 2 < storedDelta 1 L (fun k => steerSample (v.scale T 0) (tg.scale T 0) ((k : ℝ) / 10)) 101 99 := by
  refine ⟨2 / 5, brV, brTg, 10, by norm_num, by norm_num, brV_traj, brTg_traj, le_rfl, br_imposed, rfl, ?_⟩
  have es := steerSample_eq brV_traj brTg_traj le_rfl (T := 10) (by norm_num) ((99 : ℕ) / 10)
  have h0 : (0 : ℝ) ≤ ((99 : ℕ) : ℝ) / 10 / 10 := by norm_num
  have h1 : ((99 : ℕ) : ℝ) / 10 / 10 ≤ 1 := by norm_num
  rw [brV_eval h0 h1, brV1_eval h0 h1, brTg_eval h0 h1, brTg1_eval h0 h1, brTg2_eval h0 h1] at es
  rw [show (99 : ℕ) = 98 + 1 from rfl, storedDelta, if_pos (by norm_num)]
  simp only [show (98 : ℕ) + 1 = 99 from rfl]
  rw [es, if_pos (by norm_num), if_neg (by norm_num)]
  unfold hopDelta arctan2
  dsimp only
  have h2 : ¬ |Complex.arg ⟨-(1 / 10) / 10 * (1 + ((1 - ((99 : ℕ) : ℝ) / 10 / 10) ^ 2 / 4) ^ 2) ^ 2,
      1 * 2 * (1 / 2 / 10 ^ 2) * (2 / 5)⟩| ≤ Real.pi / 2 := by
    rw [Complex.abs_arg_le_pi_div_two_iff]
    norm_num
  have h3 : 0 ≤ Complex.arg ⟨-(1 / 10) / 10 * (1 + ((1 - ((99 : ℕ) : ℝ) / 10 / 10) ^ 2 / 4) ^ 2) ^ 2,
      1 * 2 * (1 / 2 / 10 ^ 2) * (2 / 5)⟩ := by
    rw [Complex.arg_nonneg_iff]
    norm_num
  rw [abs_of_nonneg h3] at h2
  exact not_le.1 h2

end Verif.Vehicles
