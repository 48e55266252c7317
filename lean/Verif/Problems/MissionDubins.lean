import Verif.Problems.MissionFixed
import Verif.Vehicles.Bodies

/-! # A simulated drive of a differential drive vehicle

A vehicle that drives along its heading (`Dubins`, one shape, `substitution` off) is steered to a pose by a point-to-point problem with free end time in one
upright rectangular room with obstacles; the simulator updates the plan every `q` samples.  Position is not a variable of the optimisation problem: it is
integrated, in the constraints from the predicted position and in what is stored from the last position of the log. -/

set_option linter.unusedSectionVars false

namespace Verif.Problems

open Verif.Spline Verif.Vehicles Verif.Collision Verif.Timing

/-! ## Model -/

/-- What the user sets up: shape and options of the vehicle, bounds, the pose to drive to, and the room (position and sides). -/
structure DSetup where
  part : Part
  sd : ℝ
  bounds : Bounds
  degree : ℕ
  intervals : ℕ
  gx : ℝ
  gy : ℝ
  gθ : ℝ
  width : ℝ
  height : ℝ
  room : ℝ × ℝ

/-- The values of one solution: motion time, the splines `v_til` and `tg_ha`, separating lines, slacks; the splines `v_til*(1-tg_ha**2)` and `v_til*(2*tg_ha)`
computed from them, in unit time for the constraints (`dx`, `dy`, dubins.py:251-252) and in physical time for the stored signals (`dxs`, `dys`,
dubins.py:276-277); the predicted obstacles, the predicted state and input, and the position from which the stored position is integrated
(dubins.py:278-283). -/
structure DUpd where
  T : ℝ
  v : BSpline ℝ
  tg : BSpline ℝ
  dx : BSpline ℝ
  dy : BSpline ℝ
  dxs : BSpline ℝ
  dys : BSpline ℝ
  hyp : ℕ → ℕ → Hyp
  eps : ℕ → ℕ → BSpline ℝ
  obs : List Obs
  start : Unicycle
  origin : ℝ × ℝ

/-- The position splines of the constraints, dubins.py:253-254: from the predicted position (`pos0`, dubins.py:236) at `t = 0`. -/
noncomputable def DUpd.xs (u : DUpd) : BSpline ℝ := integrateOnce u.dx u.start.x 0 u.T
noncomputable def DUpd.ys (u : DUpd) : BSpline ℝ := integrateOnce u.dy u.start.y 0 u.T

/-- The room constraints of the vehicle's shape in an upright rectangular room, vehicle.py:164-190: limits for a disc (no heading is passed on), the sides of
the room for other shapes. -/
noncomputable def roomDubins (D : DSetup) (x y tg : BSpline ℝ) : List (Expr ℝ) :=
  match D.part.form with
  | .circle r => roomConsRect (Collision.circle r) (.spl x) (.spl y) (Geometry.placedRect D.width D.height D.room).limits
  | .other s => roomConsHyp s (.spl tg) (.spl x) (.spl y) 0 (Geometry.rectVertices D.width D.height) D.room

/-- All variables of `FreeTPoint2point` have values that meet all its constraints, point2point.py:31-66,288-311. -/
structure DSolves (D : DSetup) (u : DUpd) : Prop where
  positive : (-u.T) ≤ 0
  formV : ∃ c, c.length = D.intervals + D.degree ∧ u.v = ⟨vehBasis D.degree D.intervals, c⟩
  formT : ∃ c, c.length = D.intervals + D.degree ∧ u.tg = ⟨vehBasis D.degree D.intervals, c⟩
  runX : (dxE u.v u.tg).Runs (.spl u.dx)
  runY : (dyE u.v u.tg).Runs (.spl u.dy)
  lines : ∀ k l, (u.hyp k l).On 0 1
  slacks : ∀ s k, (Expr.spl (u.eps s k)).On 0 1
  limits : ∀ e ∈ dubinsC D.bounds u.v u.tg u.T, e.Imposed 0
  avoid : ∃ cs, envRun [D.part] u.obs u.hyp (dubinsOwn [D.part] u.xs u.ys u.tg D.sd u.eps) = some cs ∧ ∀ e ∈ cs, e.Imposed 0
  inside : ∀ e ∈ roomDubins D u.xs u.ys u.tg, e.Imposed 0
  starts : MeetsInit (dubinsInit u.v u.tg u.start u.T) (0 / u.T)
  ends : MeetsEnd (imposedFree false (dubinsTerm u.v u.tg u.dx u.dy (u.start.x, u.start.y) 0 u.T D.gx D.gy D.gθ))

/-- What is computed when the solution is stored, dubins.py:276-277. -/
structure DStored (u : DUpd) : Prop where
  runX : (dxE (u.v.scale u.T 0) (u.tg.scale u.T 0)).Runs (.spl u.dxs)
  runY : (dyE (u.v.scale u.T 0) (u.tg.scale u.T 0)).Runs (.spl u.dys)

/-- State and input as stored, at time `r` of the plan, dubins.py:270-294. -/
noncomputable def DUpd.sig (u : DUpd) (r : ℝ) : Unicycle :=
  dubinsSignals (u.v.scale u.T 0) (u.tg.scale u.T 0) u.dxs u.dys u.origin.1 u.origin.2 0 r

/-- The columns that `FreeTPoint2point.store` (point2point.py:327-342) stores. -/
noncomputable def DUpd.cols (Ts : ℝ) (u : DUpd) : List Unicycle :=
  (List.range ((samples u.T Ts).toNat + 1)).map fun (i : ℕ) => u.sig (i * Ts)

/-! ## Specification -/

/-- The obstacles `obs` as predicted for a motion of duration `T` in an update at time `t0` are the obstacles that there are (all to be avoided), and for a time
`d` they do what was predicted. -/
def Spec.Foreseen (world : List Mover) (t0 d T : ℝ) (obs : List Obs) : Prop :=
  obs.length = world.length ∧ ∀ (l : ℕ) (o : Obs) (w : Mover), obs[l]? = some o → world[l]? = some w → o.shape = w.shape ∧ o.avoid = true ∧
    ∃ φ : ℝ → ℝ, o.On 0 1 φ ∧
      ∀ r, 0 ≤ r → r ≤ d → (!₂[o.q0.val (r / T), o.q1.val (r / T)] : Pt 2) = w.pos (t0 + r) ∧ φ (r / T) = w.angle (t0 + r)

/-- A safe motion during `[0, total]` of a vehicle that drives along its heading: position and heading follow speed and turn rate, which do not jump and respect
their limits; the vehicle, turned into its heading, is in the room and apart from all obstacles. -/
structure Spec.SafeWheels (D : DSetup) (world : List Mover) (total : ℝ) (p : ℝ → Unicycle) : Prop where
  movesX : ∀ t ∈ Set.Icc 0 total, HasDerivWithinAt (fun t => (p t).x) ((p t).V * Real.cos (p t).theta) (Set.Icc 0 total) t
  movesY : ∀ t ∈ Set.Icc 0 total, HasDerivWithinAt (fun t => (p t).y) ((p t).V * Real.sin (p t).theta) (Set.Icc 0 total) t
  turns : ∀ t ∈ Set.Icc 0 total, HasDerivWithinAt (fun t => (p t).theta) (p t).omega (Set.Icc 0 total) t
  smoothV : ContinuousOn (fun t => (p t).V) (Set.Icc 0 total)
  smoothW : ContinuousOn (fun t => (p t).omega) (Set.Icc 0 total)
  speed : ∀ t ∈ Set.Icc 0 total, 0 ≤ (p t).V ∧ (p t).V ≤ lim D.bounds "vmax" (1 / 2)
  rate : ∀ t ∈ Set.Icc 0 total, lim D.bounds "wmin" (-Real.pi / 6) ≤ (p t).omega ∧ (p t).omega ≤ lim D.bounds "wmax" (Real.pi / 6)
  room : ∀ t ∈ Set.Icc 0 total, ∀ a ∈ placed !₂[(p t).x, (p t).y] (p t).theta D.part.form.shape.region,
    Geometry.InRect D.width D.height D.room (a 0, a 1)
  apart : ∀ t ∈ Set.Icc 0 total, ∀ w ∈ world, ∀ a ∈ placed !₂[(p t).x, (p t).y] (p t).theta D.part.form.shape.core,
    ∀ b ∈ placed (w.pos t) (w.angle t) w.shape.core, D.part.form.shape.rad + w.shape.rad ≤ dist a b

/-! ## One plan -/

section One
variable {D : DSetup} {u : DUpd}

theorem DSolves.trajV (h : DSolves D u) (hd : 2 ≤ D.degree) (hn : 1 ≤ D.intervals) : Traj u.v 1 := by
  obtain ⟨c, hc, e⟩ := h.formV
  rw [e]
  exact (vehBasis_traj (by omega) hn hc).mono (by omega)

theorem DSolves.trajT (h : DSolves D u) (hd : 2 ≤ D.degree) (hn : 1 ≤ D.intervals) : Traj u.tg 1 := by
  obtain ⟨c, hc, e⟩ := h.formT
  rw [e]
  exact (vehBasis_traj (by omega) hn hc).mono (by omega)

/-- The quantities of the plan. -/
noncomputable def DUpd.X (u : DUpd) (r : ℝ) : ℝ := (integrateOnce u.dx u.origin.1 0 u.T).eval (r / u.T)
noncomputable def DUpd.Y (u : DUpd) (r : ℝ) : ℝ := (integrateOnce u.dy u.origin.2 0 u.T).eval (r / u.T)
noncomputable def DUpd.θ (u : DUpd) (r : ℝ) : ℝ := heading (u.tg.eval (r / u.T))
noncomputable def DUpd.V (u : DUpd) (r : ℝ) : ℝ := u.v.eval (r / u.T) * (1 + u.tg.eval (r / u.T) ^ 2)
noncomputable def DUpd.W (u : DUpd) (r : ℝ) : ℝ := 2 * ((u.tg.derivative 1).eval (r / u.T) / u.T) / (1 + u.tg.eval (r / u.T) ^ 2)

theorem sig_eq (h : DSolves D u) (hs : DStored u) (hv : Traj u.v 1) (ht : Traj u.tg 1) (hT : 0 < u.T) {r : ℝ} (h0 : 0 ≤ r) (h1 : r ≤ u.T) :
    u.sig r = ⟨u.X r, u.Y r, u.θ r, u.V r, u.W r⟩ := by
  obtain ⟨⟨u1, u2⟩, ⟨s1, s2⟩, e1, e2⟩ := dxE_clocks hv ht hT h.runX h.runY hs.runX hs.runY
  unfold DUpd.sig dubinsSignals DUpd.X DUpd.Y DUpd.θ DUpd.V DUpd.W
  rw [two_clocks hT u1 s1 e1 le_rfl hT.le h0 h1 (x1 := u.origin.1), two_clocks hT u2 s2 e2 le_rfl hT.le h0 h1 (x1 := u.origin.2), hv.sig0 hT, ht.sig0 hT,
    Traj.sig1 (n := 0) ht hT, heading_eq]
  simp

theorem integrate_within {s : BSpline ℝ} (h : TrajOn s 0 1 0) (x0 : ℝ) {T : ℝ} (hT : 0 < T) {r : ℝ} (hr : r ∈ Set.Icc 0 T) :
    HasDerivWithinAt (fun r => (integrateOnce s x0 0 T).eval (r / T)) (s.eval (r / T)) (Set.Icc 0 T) r := by
  have hrun := h.running
  have hw := (GCode.RingGuess.phys_within (m := 0) hrun.1.traj hT hr).const_mul T
  rw [hrun.2.1, mul_div_cancel₀ _ hT.ne'] at hw
  have hw2 := hw.add_const (x0 - T * (runningIntegral s).eval (0 / T))
  exact hw2.congr (fun t ht => by rw [h.integrateOnce_eval _ _ _ _ (div_nonneg ht.1 hT.le) ((div_le_one hT).2 ht.2)]; ring)
    (by rw [h.integrateOnce_eval _ _ _ _ (div_nonneg hr.1 hT.le) ((div_le_one hT).2 hr.2)]; ring)

theorem DSolves.moves (h : DSolves D u) (hv : Traj u.v 1) (ht : Traj u.tg 1) (hT : 0 < u.T) : ∀ r ∈ Set.Icc 0 u.T,
    HasDerivWithinAt u.X (u.V r * Real.cos (u.θ r)) (Set.Icc 0 u.T) r ∧ HasDerivWithinAt u.Y (u.V r * Real.sin (u.θ r)) (Set.Icc 0 u.T) r ∧
    HasDerivWithinAt u.θ (u.W r) (Set.Icc 0 u.T) r := by
  intro r hr
  have v0 := (hv.mono (Nat.zero_le 1)).trajOn
  have t0 := (ht.mono (Nat.zero_le 1)).trajOn
  obtain ⟨d1, d2⟩ := runs_spl (n := 0) h.runX ⟨v0, trivial, t0, t0⟩
  obtain ⟨e1, e2⟩ := runs_spl (n := 0) h.runY ⟨v0, trivial, t0⟩
  have m0 := div_nonneg hr.1 hT.le
  have m1 := (div_le_one hT).2 hr.2
  have hp : (0 : ℝ) < 1 + u.tg.eval (r / u.T) ^ 2 := by positivity
  refine ⟨(integrate_within d1 u.origin.1 hT hr).congr_deriv ?_, (integrate_within e1 u.origin.2 hT hr).congr_deriv ?_, ?_⟩
  · rw [d2 _ m0 m1]
    simp only [DUpd.V, DUpd.θ, cos_heading', dxE, Expr.val, Expr.sub, Expr.sq]; field_simp; ring
  · rw [e2 _ m0 m1]
    simp only [DUpd.V, DUpd.θ, sin_heading', dyE, Expr.val]; field_simp
  · have := ((GCode.RingGuess.phys_within (m := 0) ht hT hr).arctan).const_mul 2
    refine this.congr_deriv ?_
    unfold DUpd.W
    ring

theorem eval_cont {s : BSpline ℝ} (h : TrajOn s 0 1 0) (hd : 1 ≤ s.basis.degree) {T : ℝ} (hT : 0 < T) :
    ContinuousOn (fun r => s.eval (r / T)) (Set.Icc 0 T) :=
  (h.continuousOn hd).comp (continuous_id.div_const T).continuousOn fun _ hr => ⟨div_nonneg hr.1 hT.le, (div_le_one hT).2 hr.2⟩

theorem DSolves.conts (h : DSolves D u) (hd : 2 ≤ D.degree) (hv : Traj u.v 1) (ht : Traj u.tg 1) (hT : 0 < u.T) :
    ContinuousOn u.V (Set.Icc 0 u.T) ∧ ContinuousOn u.W (Set.Icc 0 u.T) := by
  have dg : u.tg.basis.degree = D.degree := by obtain ⟨c, -, e⟩ := h.formT; rw [e]; rfl
  have a := eval_cont (hv.mono (Nat.zero_le 1)).trajOn (hv.deg) hT
  have b := eval_cont (ht.mono (Nat.zero_le 1)).trajOn (ht.deg) hT
  have c := eval_cont (Traj.trajOn (Traj.succ (n := 0) ht)) (by
    have := (clamped_derivative ht.clamped ht.wf 1 (by omega)).2.2.1
    omega) hT
  exact ⟨a.mul (continuousOn_const.add (b.pow 2)), (continuousOn_const.mul (c.div_const _)).div (continuousOn_const.add (b.pow 2)) fun r _ => by positivity⟩

theorem DSolves.limits_at (h : DSolves D u) (hv : Traj u.v 1) (ht : Traj u.tg 1) (hT : 0 < u.T) {r : ℝ} (h0 : 0 ≤ r) (h1 : r ≤ u.T) :
    (0 ≤ u.V r ∧ u.V r ≤ lim D.bounds "vmax" (1 / 2)) ∧
    (lim D.bounds "wmin" (-Real.pi / 6) ≤ u.W r ∧ u.W r ≤ lim D.bounds "wmax" (Real.pi / 6)) := by
  have hc := h.limits
  simp only [dubinsC] at hc
  rw [List.forall_mem_cons, List.forall_mem_cons] at hc
  exact ⟨speed_le (hv.mono (Nat.zero_le _)) (ht.mono (Nat.zero_le _)) hT hc.1 hc.2.1 h0 h1, turnC_le ht hT hc.2.2 h0 h1⟩

theorem circle_region_heading (r : ℝ) (p : Pt 2) (θ : ℝ) : placed p θ (circle r).region ⊆ shifted p (circle r).region := by
  have hc : (circle r).core = {(!₂[0, 0] : Pt 2)} := by simp [Shape.core, circle]
  have hz : (!₂[0, 0] : Pt 2) = 0 := by ext i; fin_cases i <;> simp
  rintro a ⟨q, ⟨c, hc', hd⟩, rfl⟩
  rw [hc] at hc'
  obtain rfl : c = _ := hc'
  refine ⟨rot θ q, ⟨!₂[0, 0], by rw [hc]; rfl, ?_⟩, rfl⟩
  rw [hz, dist_zero_right] at hd ⊢
  rw [show rot θ q = rotL θ q from rfl, norm_rot]
  exact hd

theorem hull_rect {w h : ℝ} {p : ℝ × ℝ} (hp : p ∈ convexHull ℝ {v | v ∈ Geometry.rectVertices w h}) (hw : 0 ≤ w) (hh : 0 ≤ h) :
    |p.1| ≤ w / 2 ∧ |p.2| ≤ h / 2 := by
  have : convexHull ℝ {v | v ∈ Geometry.rectVertices w h} ⊆ Set.Icc (-(w / 2)) (w / 2) ×ˢ Set.Icc (-(h / 2)) (h / 2) := by
    refine convexHull_min (fun v hv => ?_) ((convex_Icc _ _).prod (convex_Icc _ _))
    replace hv : v ∈ Geometry.rectVertices w h := hv
    simp only [Geometry.rectVertices, List.mem_cons, List.not_mem_nil, or_false] at hv
    rcases hv with rfl | rfl | rfl | rfl <;> refine ⟨⟨?_, ?_⟩, ?_, ?_⟩ <;> simp only <;> linarith
  obtain ⟨⟨a, b⟩, c, d⟩ := this hp
  exact ⟨abs_le.2 ⟨a, b⟩, abs_le.2 ⟨c, d⟩⟩

theorem DSolves.room_at (h : DSolves D u) (hv : Traj u.v 1) (ht : Traj u.tg 1) (ho : u.origin = (u.start.x, u.start.y)) (hw : 0 < D.width) (hh : 0 < D.height)
    (hT : 0 < u.T) {r : ℝ} (h0 : 0 ≤ r) (h1 : r ≤ u.T) : ∀ a ∈ placed !₂[u.X r, u.Y r] (u.θ r) D.part.form.shape.region,
    Geometry.InRect D.width D.height D.room (a 0, a 1) := by
  have v0 := (hv.mono (Nat.zero_le 1)).trajOn
  have t0 := (ht.mono (Nat.zero_le 1)).trajOn
  obtain ⟨d1, -⟩ := runs_spl (n := 0) h.runX ⟨v0, trivial, t0, t0⟩
  obtain ⟨e1, -⟩ := runs_spl (n := 0) h.runY ⟨v0, trivial, t0⟩
  have ox := (d1.integrateOnce u.start.x 0 u.T).on01
  have oy := (e1.integrateOnce u.start.y 0 u.T).on01
  have m0 := div_nonneg h0 hT.le
  have m1 := (div_le_one hT).2 h1
  have hin := h.inside
  intro a ha
  unfold DUpd.X DUpd.Y at ha
  rw [ho] at ha
  rcases hf : D.part.form with rad | s <;> simp only [roomDubins, hf] at hin <;> rw [hf] at ha
  · exact C11_rectangle (Collision.circle rad) (.spl u.xs) (.spl u.ys) D.width D.height 0 1 hw.le hh.le D.room ⟨ox, oy⟩ ⟨trivial, trivial⟩ hin _ m0 m1 a
      (circle_region_heading rad _ _ ha)
  · have := C11_polyhedron s (.spl u.tg) (.spl u.xs) (.spl u.ys) 0 0 1 _ (Geometry.rect_convexCW _ _ hw hh) D.room ⟨ht.on, ox, oy⟩ trivial hin _ m0 m1 a
      (by rw [carried_zero]; exact ha)
    exact hull_rect this hw.le hh.le

theorem DSolves.apart_at (h : DSolves D u) (hv : Traj u.v 1) (ht : Traj u.tg 1) (ho : u.origin = (u.start.x, u.start.y)) (hT : 0 < u.T)
    {world : List Mover} {t0 d : ℝ} (hp : Spec.Foreseen world t0 d u.T u.obs) {r : ℝ} (h0 : 0 ≤ r) (h1 : r ≤ u.T) (hd : r ≤ d) (hS : 0 ≤ D.sd) :
    ∀ w ∈ world, ∀ a ∈ placed !₂[u.X r, u.Y r] (u.θ r) D.part.form.shape.core,
    ∀ b ∈ placed (w.pos (t0 + r)) (w.angle (t0 + r)) w.shape.core, D.part.form.shape.rad + w.shape.rad ≤ dist a b := by
  intro w hw a ha b hb
  obtain ⟨l, hl⟩ := List.mem_iff_getElem?.1 hw
  have hlen : l < u.obs.length := by rw [hp.1]; exact (List.getElem?_eq_some_iff.1 hl).1
  obtain ⟨e1, e2, φ, e3, e4⟩ := hp.2 l _ w (List.getElem?_eq_getElem hlen) hl
  have all : ∀ l' : ℕ, ∃ φ : ℝ → ℝ, ∀ o : Obs, u.obs[l']? = some o → o.On 0 1 φ := fun l' => by
    by_cases hl' : l' < u.obs.length
    · obtain ⟨-, -, φ, a, -⟩ := hp.2 l' _ _ (List.getElem?_eq_getElem hl') (List.getElem?_eq_getElem (hp.1 ▸ hl'))
      exact ⟨φ, fun o ho => by rw [List.getElem?_eq_getElem hl', Option.some.injEq] at ho; exact ho ▸ a⟩
    · exact ⟨fun _ => 0, fun o ho => by rw [List.getElem?_eq_none (by omega)] at ho; cases ho⟩
  choose φs hφ using all
  have v0 := hv.mono (Nat.zero_le 1)
  have tg0 := ht.mono (Nat.zero_le 1)
  obtain ⟨cs, hcs, hall⟩ := C164_partial D.part u.obs u.hyp (fun l' => if l' = l then φ else φs l') u.v u.tg u.dx u.dy v0 tg0 u.T hT h.runX h.runY
    (u.start.x, u.start.y) 0 le_rfl hT.le D.sd u.eps h.slacks h.lines
    (fun l' o ho => by
      by_cases he : l' = l
      · subst he
        rw [if_pos rfl]
        rw [List.getElem?_eq_getElem hlen, Option.some.injEq] at ho
        exact ho ▸ e3
      · rw [if_neg he]; exact hφ l' o ho)
  obtain ⟨cs', hcs', himp⟩ := h.avoid
  obtain rfl : cs' = cs := Option.some.inj (hcs'.symm.trans hcs)
  obtain ⟨ε, b1, b2, b3⟩ := hall himp r h0 h1 l _ (List.getElem?_eq_getElem hlen) e2
  rw [show wheeled _ _ (u.start.x, u.start.y) 0 r = _ from wheeled_eq v0 tg0 hT h.runX h.runY (u.start.x, u.start.y) le_rfl hT.le h0 h1, if_pos rfl] at b3
  unfold DUpd.X DUpd.Y at ha
  rw [ho] at ha
  have hb' : b ∈ (u.obs[l]).coreAt (φ (r / u.T)) (r / u.T) := by
    show b ∈ placed _ _ _
    rw [(e4 r h0 hd).1, (e4 r h0 hd).2, e1]
    exact hb
  have := b3.2 a ha b hb'
  rw [e1] at this
  have h4 : 0 ≤ D.sd - ε := by
    rcases hS.eq_or_lt with h | h
    · rw [b2 h.ge, ← h]; simp
    · linarith [(b1 h).2]
  linarith

theorem dcols_get (h : DSolves D u) (hs : DStored u) (hv : Traj u.v 1) (ht : Traj u.tg 1) {Ts : ℝ} (hTs : 0 < Ts) (hT : 0 < u.T) {q i : ℕ}
    (hq : q * Ts ≤ u.T) (hi : i ≤ q) : (u.cols Ts)[i]? = some ⟨u.X (i * Ts), u.Y (i * Ts), u.θ (i * Ts), u.V (i * Ts), u.W (i * Ts)⟩ := by
  have h1 : ((q : ℕ) : ℝ) ≤ u.T / Ts := (le_div_iff₀ hTs).2 hq
  have h2 : (q : ℤ) ≤ samples u.T Ts := by
    have := pyInt_mono (round6_mono h1)
    have e : ((q : ℕ) : ℝ) = ((q : ℤ) : ℝ) := by norm_cast
    rwa [e, round6_intCast, pyInt_intCast] at this
  have h3 : i < (samples u.T Ts).toNat + 1 := by omega
  have h4 : (i : ℝ) * Ts ≤ u.T := le_trans (mul_le_mul_of_nonneg_right (by exact_mod_cast hi) hTs.le) hq
  unfold DUpd.cols
  rw [List.getElem?_map, List.getElem?_range h3, Option.map_some, sig_eq h hs hv ht hT (by positivity) h4]

end One

/-! ## The property -/

/-- **C166** A simulated drive of a differential drive vehicle with one shape, with updates every `q` samples, in which every optimisation problem is solved (all
constraints met), every plan is at least as long as an update, every update starts from the state logged last, and the obstacles behave as predicted until the next
update: there is one motion of the vehicle, of which the log is the sequence of samples, that starts in the initial state, in which position and heading follow speed
and turn rate, which do not jump and stay within their limits at every instant, in which the vehicle stays in the room and never overlaps an obstacle, and which,
when the last plan is followed to its end, ends in standstill in the pose of the goal. -/
theorem C166_drive (D : DSetup) (hd : 2 ≤ D.degree) (hn : 1 ≤ D.intervals) (hw : 0 < D.width) (hh : 0 < D.height) (hsd : 0 ≤ D.sd)
    (hg0 : -Real.pi < D.gθ) (hg1 : D.gθ < Real.pi) (Ts : ℝ) (hs : 0 < Ts) (q : ℕ) (hq : 1 ≤ q) (first : DUpd) (more : List DUpd)
    (solved : ∀ u ∈ first :: more, DSolves D u) (stored : ∀ u ∈ first :: more, DStored u) (long : ∀ u ∈ first :: more, q * Ts ≤ u.T)
    (heading0 : -Real.pi < first.start.theta ∧ first.start.theta < Real.pi) (origin0 : first.origin = (first.start.x, first.start.y))
    (predicted : ∀ s, Loop.run (q * Ts) Ts ((first :: more).map (DUpd.cols Ts)) = some s →
      ∀ (k : ℕ) (u : DUpd) (a : Unicycle), more[k]? = some u → s.seen[k]? = some a → u.start = a ∧ u.origin = (a.x, a.y))
    (world : List Mover) (foreseen : ∀ (k : ℕ) (u : DUpd), (first :: more)[k]? = some u →
      Spec.Foreseen world (k * (q * Ts)) (if k = more.length then u.T else q * Ts) u.T u.obs) :
    ∃ s, Loop.run (q * Ts) Ts ((first :: more).map (DUpd.cols Ts)) = some s ∧ ∃ p : ℝ → Unicycle,
      let total := more.length * (q * Ts) + ((first :: more).getLast (List.cons_ne_nil _ _)).T
      Spec.SafeWheels D world total p ∧ p 0 = first.start ∧ p total = ⟨D.gx, D.gy, D.gθ, 0, 0⟩ ∧
      s.log.length = (more.length + 1) * q + 1 ∧ ∀ j, j ≤ (more.length + 1) * q → s.log[j]? = some (j * Ts, p (j * Ts)) := by
  have hu : 0 < (q : ℝ) * Ts := mul_pos (by exact_mod_cast hq) hs
  have hT : ∀ c ∈ first :: more, 0 < c.T := fun c hc => hu.trans_le (long c hc)
  have hv : ∀ c ∈ first :: more, Traj c.v 1 := fun c hc => (solved c hc).trajV hd hn
  have ht : ∀ c ∈ first :: more, Traj c.tg 1 := fun c hc => (solved c hc).trajT hd hn
  obtain ⟨s, hrun, hl, hseen, hlog⟩ := glue_log Ts hs q hq (DUpd.cols Ts)
    (fun c r => (⟨c.X r, c.Y r, c.θ r, c.V r, c.W r⟩ : Unicycle)) first more
    fun c hc i hi => dcols_get (solved c hc) (stored c hc) (hv c hc) (ht c hc) hs (hT c hc) (long c hc) hi
  have hprev : ∀ (k : ℕ) (c d : DUpd), (first :: more)[k]? = some c → (first :: more)[k + 1]? = some d →
      d.start = ⟨c.X (q * Ts), c.Y (q * Ts), c.θ (q * Ts), c.V (q * Ts), c.W (q * Ts)⟩ ∧ d.origin = (d.start.x, d.start.y) := by
    intro k c d hc hd'
    have hdl : k < more.length := by
      have := (List.getElem?_eq_some_iff.1 hd').1
      simpa using this
    obtain ⟨a, b⟩ := predicted s hrun k d _ (by simpa using hd') (hseen k c hdl hc)
    exact ⟨a, by rw [b, a]⟩
  have good : ∀ c ∈ first :: more, (-Real.pi < c.start.theta ∧ c.start.theta < Real.pi) ∧ c.origin = (c.start.x, c.start.y) := by
    intro c hc
    obtain ⟨k, hk⟩ := List.mem_iff_getElem?.1 hc
    cases k with
    | zero => simp at hk; subst hk; exact ⟨heading0, origin0⟩
    | succ k =>
      have hlt := (List.getElem?_eq_some_iff.1 hk).1
      obtain ⟨a, b⟩ := hprev k _ c (List.getElem?_eq_getElem (by omega)) hk
      refine ⟨?_, b⟩
      rw [a]
      exact angle_lt _
  have hstart : ∀ c ∈ first :: more, (⟨c.X 0, c.Y 0, c.θ 0, c.V 0, c.W 0⟩ : Unicycle) = c.start := fun c hc => by
    have g := good c hc
    have := C122_dubins_partial c.v c.tg c.dxs c.dys ((hv c hc).mono (Nat.zero_le 1)) (ht c hc) c.start c.T (hT c hc) 0 le_rfl (hT c hc).le g.1.1 g.1.2
      ⟨c.origin, none, c.origin⟩ g.2 (solved c hc).starts (stored c hc).runX (stored c hc).runY
    rw [← this]
    exact (sig_eq (solved c hc) (stored c hc) (hv c hc) (ht c hc) (hT c hc) le_rfl (hT c hc).le).symm
  have hjoin : ∀ (k : ℕ) (c d : DUpd), (first :: more)[k]? = some c → (first :: more)[k + 1]? = some d →
      c.X (q * Ts) = d.X 0 ∧ c.Y (q * Ts) = d.Y 0 ∧ c.θ (q * Ts) = d.θ 0 ∧ c.V (q * Ts) = d.V 0 ∧ c.W (q * Ts) = d.W 0 := by
    intro k c d hc hd'
    have e := (hstart d (List.mem_of_getElem? hd')).trans (hprev k c d hc hd').1
    simp only [Unicycle.mk.injEq] at e
    exact ⟨e.1.symm, e.2.1.symm, e.2.2.1.symm, e.2.2.2.1.symm, e.2.2.2.2.symm⟩
  have chain : ∀ R : DUpd → DUpd → Prop, (∀ (k : ℕ) (c d : DUpd), (first :: more)[k]? = some c → (first :: more)[k + 1]? = some d → R c d) →
      (first :: more).IsChain R := fun R h => List.isChain_iff_getElem.2 fun k hk =>
    h k _ _ (List.getElem?_eq_getElem _) (List.getElem?_eq_getElem _)
  have htot := lastTime_eq (q * Ts) DUpd.T first more
  set total := lastTime (q * Ts) DUpd.T first more with htotal
  have cases := locate_cases hu (T := DUpd.T) first more long
  refine ⟨s, hrun, fun t => ⟨along (q * Ts) DUpd.X first more t, along (q * Ts) DUpd.Y first more t, along (q * Ts) DUpd.θ first more t,
    along (q * Ts) DUpd.V first more t, along (q * Ts) DUpd.W first more t⟩, ?_⟩
  rw [← htot]
  have hm := List.getLast_mem (List.cons_ne_nil first more)
  have atend : ∀ F : DUpd → ℝ → ℝ, along (q * Ts) F first more total =
      F ((first :: more).getLast (List.cons_ne_nil _ _)) ((first :: more).getLast (List.cons_ne_nil _ _)).T := fun F => by
    have hlast : (first :: more)[more.length]? = some ((first :: more).getLast (List.cons_ne_nil _ _)) := by
      rw [List.getLast_eq_getElem, List.getElem?_eq_getElem (by simp)]
      simp
    rw [along, htot, locate_at hu first more more.length _ _ hlast (hT _ (List.getLast_mem _)).le (Or.inr rfl)]
  have mv := fun c hc => (solved c hc).moves (hv c hc) (ht c hc) (hT c hc)
  have ct := fun c hc => (solved c hc).conts hd (hv c hc) (ht c hc) (hT c hc)
  refine ⟨⟨?_, ?_, ?_, ?_, ?_, ?_, ?_, ?_, ?_⟩, ?_, ?_, hl, ?_⟩
  · exact fun t h => along_deriv hu (F := DUpd.X) (G := fun c r => c.V r * Real.cos (c.θ r)) first more long (fun c hc r hr => (mv c hc r hr).1)
      (chain _ fun k c d h1 h2 => by obtain ⟨a, -, b, e, -⟩ := hjoin k c d h1 h2; exact ⟨a, by rw [b, e]⟩) t h
  · exact fun t h => along_deriv hu (F := DUpd.Y) (G := fun c r => c.V r * Real.sin (c.θ r)) first more long (fun c hc r hr => (mv c hc r hr).2.1)
      (chain _ fun k c d h1 h2 => by obtain ⟨-, a, b, e, -⟩ := hjoin k c d h1 h2; exact ⟨a, by rw [b, e]⟩) t h
  · exact fun t h => along_deriv hu (F := DUpd.θ) (G := DUpd.W) first more long (fun c hc r hr => (mv c hc r hr).2.2)
      (chain _ fun k c d h1 h2 => by obtain ⟨-, -, b, -, e⟩ := hjoin k c d h1 h2; exact ⟨b, e⟩) t h
  · exact along_cont hu first more long (fun c hc => (ct c hc).1) (chain _ fun k c d h1 h2 => (hjoin k c d h1 h2).2.2.2.1)
  · exact along_cont hu first more long (fun c hc => (ct c hc).2) (chain _ fun k c d h1 h2 => (hjoin k c d h1 h2).2.2.2.2)
  · intro t h
    obtain ⟨k, c, r, hk, -, h0, h1, -, e⟩ := cases t h.1 h.2
    have hc := List.mem_of_getElem? hk
    simp only [along, e]
    exact ((solved c hc).limits_at (hv c hc) (ht c hc) (hT c hc) h0 h1).1
  · intro t h
    obtain ⟨k, c, r, hk, -, h0, h1, -, e⟩ := cases t h.1 h.2
    have hc := List.mem_of_getElem? hk
    simp only [along, e]
    exact ((solved c hc).limits_at (hv c hc) (ht c hc) (hT c hc) h0 h1).2
  · intro t h
    obtain ⟨k, c, r, hk, -, h0, h1, -, e⟩ := cases t h.1 h.2
    have hc := List.mem_of_getElem? hk
    simp only [along, e]
    exact (solved c hc).room_at (hv c hc) (ht c hc) (good c hc).2 hw hh (hT c hc) h0 h1
  · intro t h
    obtain ⟨k, c, r, hk, rfl, h0, h1, h2, e⟩ := cases t h.1 h.2
    have hc := List.mem_of_getElem? hk
    simp only [along, e]
    refine (solved c hc).apart_at (hv c hc) (ht c hc) (good c hc).2 (hT c hc) (foreseen k c hk) h0 h1 ?_ hsd
    split_ifs with hkl
    · exact h1
    · exact (h2.resolve_right hkl).le
  · simp only [along, locate_zero hu]
    exact hstart first (by simp)
  · simp only [atend]
    have g := (good _ hm).2
    have := C123_dubins_partial _ _ _ _ _ _ ((hv _ hm).mono (Nat.zero_le 1)) (ht _ hm) D.gx D.gy D.gθ _ 0 (hT _ hm) le_rfl (hT _ hm).le
      ⟨((first :: more).getLast (List.cons_ne_nil _ _)).origin, none, ((first :: more).getLast (List.cons_ne_nil _ _)).origin⟩ rfl hg0 hg1
      (solved _ hm).runX (solved _ hm).runY (stored _ hm).runX (stored _ hm).runY (Or.inl (by rw [g]; exact (solved _ hm).ends))
    rw [← this]
    exact (sig_eq (solved _ hm) (stored _ hm) (hv _ hm) (ht _ hm) (hT _ hm) (hT _ hm).le le_rfl).symm
  · intro j hj
    obtain ⟨c, r, hc, e, key⟩ := hlog j hj
    rw [e, key DUpd.X fun k c d h1 h2 => (hjoin k c d h1 h2).1, key DUpd.Y fun k c d h1 h2 => (hjoin k c d h1 h2).2.1,
      key DUpd.θ fun k c d h1 h2 => (hjoin k c d h1 h2).2.2.1, key DUpd.V fun k c d h1 h2 => (hjoin k c d h1 h2).2.2.2.1,
      key DUpd.W fun k c d h1 h2 => (hjoin k c d h1 h2).2.2.2.2]

/-! ## A case: a disc that drives off, and in the middle of it gets another plan to the same goal -/

section Case

/-- From 3/40 to rest, straight ahead. -/
noncomputable def brakeV : BSpline ℝ := ⟨Bz 3, [3 / 40, 1 / 40, 0, 0]⟩

theorem brakeV_eval {x : ℝ} (h0 : 0 ≤ x) (h1 : x ≤ 1) : brakeV.eval x = 3 / 40 * (1 - x) ^ 2 := by
  unfold brakeV; rw [Bz_eval rfl h0 h1]; simp [Finset.sum_range_succ, bern, Nat.choose]; ring

theorem vehBasis_bz : vehBasis 3 1 = Bz 3 := by
  simp [vehBasis, Bz, List.range_succ, List.replicate_succ]

/-- Limits of a straight drive of one second. -/
theorem straight_limits {v : BSpline ℝ} (hb : v.basis = Bz 3) (hl : v.coeffs.length = 4) (a : ℕ → ℝ)
    (ha : ∀ x, 0 ≤ x → x ≤ 1 → v.eval x = ∑ j ∈ Finset.range 4, a j * (1 - x) ^ j)
    (hs : ∀ w : ℕ → ℝ, w 0 = 1 → (∀ j, 0 ≤ w j) → (∀ j, w (j + 1) ≤ w j) →
      0 ≤ ∑ j ∈ Finset.range 4, a j * w j ∧ ∑ j ∈ Finset.range 4, a j * w j ≤ 1 / 2) :
    ∀ e ∈ dubinsC (fun _ => none) v flat3 1, e.Imposed 0 := by
  have hpi := Real.pi_gt_three
  have hdeg : v.basis.degree = 3 := by rw [hb]; rfl
  have av : (Expr.spl v).AllBz := ⟨by rw [hdeg]; exact hb, by rw [hl, hdeg]⟩
  have af : (Expr.spl flat3).AllBz := ⟨rfl, rfl⟩
  simp only [dubinsC, turnC, List.forall_mem_cons]
  rw [flat3_d1]
  refine ⟨?_, ?_, ?_, ?_, by simp⟩
  · refine Expr.AllBz.imposed_pow (D := 9) ?_ ?_ (by norm_num) (fun j => if j = 0 then a 0 - 1 / 2 else if j < 4 then a j else 0)
      (fun x h0 h1 => ?_) fun w w0 w1 w2 => ?_
    · exact ⟨⟨av, trivial, af, af⟩, trivial⟩
    · simp [Expr.bdeg, Expr.sub, Expr.sq, denE, hdeg, flat3, Bz]
    · simp only [Expr.val, Expr.sub, Expr.sq, denE, flat3_eval h0 h1, ha x h0 h1]
      simp [Finset.sum_range_succ, lim]; ring
    · have := (hs w w0 w1 w2).2
      simp [Finset.sum_range_succ, w0] at this ⊢
      linarith
  · refine Expr.AllBz.imposed_pow (D := 3) ?_ ?_ (by norm_num) (fun j => - a j) (fun x h0 h1 => ?_) fun w w0 w1 w2 => ?_
    · exact av
    · simp [Expr.bdeg, hdeg]
    · simp only [Expr.val, ha x h0 h1]
      simp [Finset.sum_range_succ]
    · have := (hs w w0 w1 w2).1
      simp [Finset.sum_range_succ, w0] at this ⊢
      linarith
  · refine bz_const (D := 6) (v := - (1 * (Real.pi / 6))) ?_ ?_ (by norm_num) (fun x h0 h1 => ?_) (by linarith)
    · simp [Expr.AllBz, Expr.sub, Expr.sq, denE, flat3, Bz]
    · simp [Expr.bdeg, Expr.sub, Expr.sq, denE, flat3, Bz]
    · simp only [Expr.val, Expr.sub, Expr.sq, denE, flat3_eval h0 h1, flat2_eval h0 h1]; simp [lim]
  · refine bz_const (D := 6) (v := - (1 * (Real.pi / 6))) ?_ ?_ (by norm_num) (fun x h0 h1 => ?_) (by linarith)
    · simp [Expr.AllBz, Expr.sq, denE, flat3, Bz]
    · simp [Expr.bdeg, Expr.sq, denE, flat3, Bz]
    · simp only [Expr.val, Expr.sq, denE, flat3_eval h0 h1, flat2_eval h0 h1]; simp [lim]; ring

/-- Room of 20 by 20, goal at (1/20, 0). -/
noncomputable def caseD : DSetup := ⟨⟨0, .circle (1 / 10)⟩, 0, fun _ => none, 3, 1, 1 / 20, 0, 0, 20, 20, (0, 0)⟩

/-- One second straight ahead with speed `v`, from `(x, 0)`, below a disc at `(0, 1/2)`. -/
noncomputable def caseP (v dx dy : BSpline ℝ) (x V : ℝ) : DUpd :=
  ⟨1, v, flat3, dx, dy, dx, dy, fun _ _ => flatLine 0 1 (3 / 10), fun _ _ => flat3, [stillDisc 0 (1 / 2) (1 / 10)], ⟨x, 0, 0, V, 0⟩, (x, 0)⟩

theorem case_plan {v : BSpline ℝ} (hb : v.basis = Bz 3) (hl : v.coeffs.length = 4) (a : ℕ → ℝ)
    (ha : ∀ x, 0 ≤ x → x ≤ 1 → v.eval x = ∑ j ∈ Finset.range 4, a j * (1 - x) ^ j)
    (hs : ∀ w : ℕ → ℝ, w 0 = 1 → (∀ j, 0 ≤ w j) → (∀ j, w (j + 1) ≤ w j) →
      0 ≤ ∑ j ∈ Finset.range 4, a j * w j ∧ ∑ j ∈ Finset.range 4, a j * w j ≤ 1 / 2)
    (b : ℕ → ℝ) (hF : ∀ x : ℝ, HasDerivAt (fun x => ∑ j ∈ Finset.range 4, b j * (1 - x) ^ j) (∑ j ∈ Finset.range 4, a j * (1 - x) ^ j) x)
    (hbw : ∀ w : ℕ → ℝ, w 0 = 1 → (∀ j, 0 ≤ w j) → (∀ j, w (j + 1) ≤ w j) → |∑ j ∈ Finset.range 4, b j * w j| ≤ 1)
    (x V : ℝ) (hx : x = ∑ j ∈ Finset.range 4, b j) (hg : b 0 = 1 / 20) (hV : v.eval 0 = V) (hV1 : v.eval 1 = 0) :
    ∃ dx dy, DSolves caseD (caseP v dx dy x V) ∧ DStored (caseP v dx dy x V) ∧
      ∀ r, 0 ≤ r → r ≤ 1 → (caseP v dx dy x V).X r = ∑ j ∈ Finset.range 4, b j * (1 - r) ^ j ∧ (caseP v dx dy x V).Y r = 0 := by
  obtain ⟨dx, dy, r1, r2, b1, l1, b2, l2, ev⟩ := flat_runs hb hl
  have hdeg : v.basis.degree = 3 := by rw [hb]; rfl
  have tv0 : Traj flat3 0 := (Bz_traj rfl).mono (Nat.zero_le _)
  have tr0 : Traj v 0 := by
    obtain ⟨bb, cc⟩ := v
    cases hb
    exact (Bz_traj hl).mono (Nat.zero_le _)
  have d1 := (runs_spl (n := 0) r1 ⟨tr0.trajOn, trivial, tv0.trajOn, tv0.trajOn⟩).1
  have d2 := (runs_spl (n := 0) r2 ⟨tr0.trajOn, trivial, tv0.trajOn⟩).1
  have y0 : ∀ t, 0 ≤ t → t ≤ 1 → (integrateOnce dy 0 0 1).eval t = 0 := fun t h0 h1 => by
    rw [integrate_value d2 (f := fun _ => 0) (F := fun _ => 0) (fun x h0 h1 => (ev x h0 h1).2) continuous_const (fun x => hasDerivAt_const x 0) 0 h0 h1]
    simp
  have x0 : ∀ t, 0 ≤ t → t ≤ 1 → (integrateOnce dx x 0 1).eval t = ∑ j ∈ Finset.range 4, b j * (1 - t) ^ j := fun t h0 h1 => by
    rw [integrate_value d1 (fun x h0 h1 => ((ev x h0 h1).1.trans (ha x h0 h1))) (by fun_prop) hF x h0 h1, hx]
    simp [Finset.sum_range_succ]
  obtain ⟨ax, bx⟩ := integrateOnce_bz b1 l1 x 0 1
  obtain ⟨ay, by'⟩ := integrateOnce_bz b2 l2 0 0 1
  obtain ⟨cs, hcs, himp⟩ := disc_env (obj := 0) (r := 1 / 10) (a0 := 0) (a1 := 1) (b := 3 / 10) (qx := 0) (qy := 1 / 2) (ro := 1 / 10)
    (offset := 0) (m := 0) (tg := .num 0) (fun _ _ => flat3) ax ay trivial (D := 11) (fun c rad => by
      simp only [Expr.bdeg, Option.some.injEq] at bx by'; simp [vehCon2, flatLine, Expr.bdeg, Expr.sub, Expr.sq, bx, by', Bz]) (by norm_num)
    (fun τ h0 h1 => rfl) (fun τ h0 h1 => by simp [Expr.val, y0 τ h0 h1]) (by norm_num) (by norm_num) (by norm_num)
  refine ⟨dx, dy, ⟨?_, ?_, ?_, r1, r2, ?_, ?_, straight_limits hb hl a ha hs, ⟨cs, ?_, himp⟩, ?_, ?_, ?_⟩, ⟨?_, ?_⟩, fun r h0 h1 => ⟨?_, ?_⟩⟩
  · show (-1 : ℝ) ≤ 0; norm_num
  · refine ⟨v.coeffs, by simp [caseD, hl], ?_⟩
    show v = ⟨vehBasis 3 1, v.coeffs⟩
    rw [vehBasis_bz, ← hb]
  · refine ⟨flat3.coeffs, by simp [caseD, flat3], ?_⟩
    show flat3 = ⟨vehBasis 3 1, flat3.coeffs⟩
    rw [vehBasis_bz]; rfl
  · exact fun _ _ => ⟨Bz_on rfl, Bz_on rfl, Bz_on rfl, trivial⟩
  · exact fun _ _ => Bz_on rfl
  · show envRun [⟨0, .circle (1 / 10)⟩] _ _ (dubinsOwn [⟨0, .circle (1 / 10)⟩] _ _ _ _ _) = _
    rw [dubinsOwn_circle rfl]
    exact hcs
  · show ∀ e ∈ roomConsRect (circle (1 / 10)) (.spl (integrateOnce dx x 0 1)) (.spl (integrateOnce dy 0 0 1)) (Geometry.placedRect 20 20 (0, 0)).limits, e.Imposed 0
    rw [Geometry.placedRect_limits _ _ (by norm_num) (by norm_num)]
    simp only [roomConsRect, circle, List.flatMap_cons, List.flatMap_nil, List.append_nil, List.forall_mem_cons]
    refine ⟨?_, ?_, ?_, ?_, by simp⟩
    · refine Expr.AllBz.imposed_pow (D := 10) ?_ ?_ (by norm_num)
        (fun j => if j = 0 then - b 0 - 99 / 10 else if j < 4 then - b j else 0) (fun t h0 h1 => ?_) fun w w0 w1 w2 => ?_
      · exact ⟨⟨⟨trivial, ax⟩, trivial⟩, trivial⟩
      · simp only [Expr.bdeg, Option.some.injEq] at bx; simp [roomLow, Expr.bdeg, bx]
      · simp only [roomLow, Expr.val, x0 t h0 h1]
        simp [Finset.sum_range_succ]; ring
      · have := (abs_le.1 (hbw w w0 w1 w2)).1
        simp [Finset.sum_range_succ, w0] at this ⊢
        linarith
    · refine Expr.AllBz.imposed_pow (D := 10) ?_ ?_ (by norm_num)
        (fun j => if j = 0 then b 0 - 99 / 10 else if j < 4 then b j else 0) (fun t h0 h1 => ?_) fun w w0 w1 w2 => ?_
      · exact ⟨⟨⟨trivial, ax⟩, trivial⟩, trivial⟩
      · simp only [Expr.bdeg, Option.some.injEq] at bx; simp [roomHigh, Expr.sub, Expr.bdeg, bx]
      · simp only [roomHigh, Expr.sub, Expr.val, x0 t h0 h1]
        simp [Finset.sum_range_succ]; ring
      · have := (abs_le.1 (hbw w w0 w1 w2)).2
        simp [Finset.sum_range_succ, w0] at this ⊢
        linarith
    · refine bz_const (D := 7) (v := - (99 / 10)) ?_ ?_ (by norm_num) (fun t h0 h1 => ?_) (by norm_num)
      · exact ⟨⟨⟨trivial, ay⟩, trivial⟩, trivial⟩
      · simp only [Expr.bdeg, Option.some.injEq] at by'; simp [roomLow, Expr.bdeg, by']
      · simp only [roomLow, Expr.val, y0 t h0 h1]; simp; norm_num
    · refine bz_const (D := 7) (v := - (99 / 10)) ?_ ?_ (by norm_num) (fun t h0 h1 => ?_) (by norm_num)
      · exact ⟨⟨⟨trivial, ay⟩, trivial⟩, trivial⟩
      · simp only [Expr.bdeg, Option.some.injEq] at by'; simp [roomHigh, Expr.sub, Expr.bdeg, by']
      · simp only [roomHigh, Expr.sub, Expr.val, y0 t h0 h1]; simp; norm_num
  · simp only [MeetsInit, dubinsInit, caseP, List.forall_mem_cons, flat3_d1, zero_div, Real.tan_zero]
    refine ⟨by simpa using hV, flat3_eval le_rfl zero_le_one, ?_, by simp⟩
    rw [flat2_eval le_rfl zero_le_one]; simp
  · simp only [MeetsEnd, imposedFree, dubinsTerm, caseP, caseD, Bool.false_eq_true, if_false, List.cons_append, List.nil_append, List.forall_mem_cons, flat3_d1,
      zero_div, Real.tan_zero]
    refine ⟨?_, y0 1 zero_le_one le_rfl, flat3_eval zero_le_one le_rfl, hV1, flat2_eval zero_le_one le_rfl, by simp⟩
    rw [x0 1 zero_le_one le_rfl, ← hg]
    simp [Finset.sum_range_succ]
  · show (dxE (v.scale 1 0) (flat3.scale 1 0)).Runs _
    rw [scale_one, scale_one]; exact r1
  · show (dyE (v.scale 1 0) (flat3.scale 1 0)).Runs _
    rw [scale_one, scale_one]; exact r2
  · show (integrateOnce dx x 0 1).eval (r / 1) = _
    rw [div_one]; exact x0 r h0 h1
  · show (integrateOnce dy 0 0 1).eval (r / 1) = _
    rw [div_one]; exact y0 r h0 h1

/-- `C166_drive` applies: samples of 0.05 s, an update after 10 samples in the middle of the first plan. -/
example : ∃ (first second : DUpd) (s : Loop ℝ Unicycle), Loop.run (((10 : ℕ) : ℝ) * (1 / 20)) (1 / 20) ([first, second].map (DUpd.cols (1 / 20))) = some s ∧
    first.start = ⟨0, 0, 0, 0, 0⟩ ∧ second.start = ⟨1 / 40, 0, 0, 3 / 40, 0⟩ ∧
    ∃ p : ℝ → Unicycle, Spec.SafeWheels caseD [⟨circle (1 / 10), fun _ => !₂[0, 1 / 2], fun _ => 0⟩] (3 / 2) p ∧ p 0 = ⟨0, 0, 0, 0, 0⟩ ∧
      p (3 / 2) = ⟨1 / 20, 0, 0, 0, 0⟩ ∧ s.log[20]? = some (1, p 1) := by
  obtain ⟨dx, dy, s1, t1, p1⟩ := case_plan (v := rollV) rfl rfl (fun j => [0, 3 / 10, -(3 / 10)].getD j 0)
    (fun x h0 h1 => by rw [rollV_eval h0 h1]; simp [Finset.sum_range_succ]; ring)
    (fun w w0 w1 w2 => by
      simp [Finset.sum_range_succ]
      have := w1 1; have := w1 2; have := w2 1; have := w2 0
      constructor <;> linarith)
    (fun j => [1 / 20, 0, -(3 / 20), 1 / 10].getD j 0)
    (fun x => by
      simp [Finset.sum_range_succ]
      have h := ((hasDerivAt_id x).const_sub 1)
      have := (((h.pow 2).const_mul (3 / 20)).neg.const_add (1 / 20)).add ((h.pow 3).const_mul (1 / 10))
      refine (this.congr_deriv ?_).congr_of_eventuallyEq (Filter.Eventually.of_forall fun y => ?_)
      · simp; ring
      · simp)
    (fun w w0 w1 w2 => by
      simp [Finset.sum_range_succ, w0]
      have := w1 2; have := w1 3; have := w2 1; have := w2 0; have := w2 2
      rw [abs_le]; constructor <;> linarith)
    0 0 (by simp [Finset.sum_range_succ]; norm_num) (by simp) (by rw [rollV_eval le_rfl zero_le_one]; norm_num) (by rw [rollV_eval zero_le_one le_rfl]; norm_num)
  obtain ⟨dx', dy', s2, t2, p2⟩ := case_plan (v := brakeV) rfl rfl (fun j => [0, 0, 3 / 40].getD j 0)
    (fun x h0 h1 => by rw [brakeV_eval h0 h1]; simp [Finset.sum_range_succ])
    (fun w w0 w1 w2 => by
      simp [Finset.sum_range_succ]
      have := w1 1; have := w1 2; have := w2 1; have := w2 0
      constructor <;> linarith)
    (fun j => [1 / 20, 0, 0, -(1 / 40)].getD j 0)
    (fun x => by
      simp [Finset.sum_range_succ]
      have h := ((hasDerivAt_id x).const_sub 1)
      have := (h.pow 3).const_mul (-(1 / 40))
      refine (this.congr_deriv ?_).congr_of_eventuallyEq (Filter.Eventually.of_forall fun y => ?_)
      · simp; ring
      · simp)
    (fun w w0 w1 w2 => by
      simp [Finset.sum_range_succ, w0]
      have := w1 2; have := w1 3; have := w2 1; have := w2 0; have := w2 2
      rw [abs_le]; constructor <;> linarith)
    (1 / 40) (3 / 40) (by simp [Finset.sum_range_succ]; norm_num) (by simp) (by rw [brakeV_eval le_rfl zero_le_one]; norm_num)
    (by rw [brakeV_eval zero_le_one le_rfl]; norm_num)
  have hpi := Real.pi_pos
  have solved : ∀ u ∈ [caseP rollV dx dy 0 0, caseP brakeV dx' dy' (1 / 40) (3 / 40)], DSolves caseD u ∧ DStored u := fun u hu => by
    simp only [List.mem_cons, List.not_mem_nil, or_false] at hu
    rcases hu with rfl | rfl
    · exact ⟨s1, t1⟩
    · exact ⟨s2, t2⟩
  have one : ∀ u ∈ [caseP rollV dx dy 0 0, caseP brakeV dx' dy' (1 / 40) (3 / 40)], u.T = 1 := fun u hu => by
    simp only [List.mem_cons, List.not_mem_nil, or_false] at hu
    rcases hu with rfl | rfl <;> rfl
  have far : ((10 : ℕ) : ℝ) * (1 / 20) = 1 / 2 := by norm_num
  have get : ∀ c ∈ [caseP rollV dx dy 0 0, caseP brakeV dx' dy' (1 / 40) (3 / 40)], ∀ i : ℕ, i ≤ 10 → (c.cols (1 / 20))[i]? =
      some ⟨c.X (i * (1 / 20)), c.Y (i * (1 / 20)), c.θ (i * (1 / 20)), c.V (i * (1 / 20)), c.W (i * (1 / 20))⟩ := fun c hc i hi =>
    dcols_get (solved c hc).1 (solved c hc).2 ((solved c hc).1.trajV (by simp [caseD]) (by simp [caseD])) ((solved c hc).1.trajT (by simp [caseD]) (by simp [caseD]))
      (by norm_num) (by rw [one c hc]; norm_num) (q := 10) (by rw [one c hc]; norm_num) hi
  obtain ⟨s', hrun', -, hseen, -⟩ := glue_log (1 / 20) (by norm_num) 10 (by norm_num) (DUpd.cols (1 / 20))
    (fun c r => (⟨c.X r, c.Y r, c.θ r, c.V r, c.W r⟩ : Unicycle)) (caseP rollV dx dy 0 0) [caseP brakeV dx' dy' (1 / 40) (3 / 40)] get
  obtain ⟨s, hrun, p, safe, e0, e1, -, hlog⟩ := C166_drive caseD (by simp [caseD]) (by simp [caseD]) (by simp [caseD]) (by simp [caseD]) (by simp [caseD])
    (by simpa [caseD] using hpi) (by simpa [caseD] using hpi) (1 / 20) (by norm_num) 10 (by norm_num) (caseP rollV dx dy 0 0)
    [caseP brakeV dx' dy' (1 / 40) (3 / 40)] (fun u hu => (solved u hu).1) (fun u hu => (solved u hu).2) (fun u hu => by rw [one u hu]; norm_num)
    ⟨by simpa [caseP] using hpi, by simpa [caseP] using hpi⟩ rfl
    (fun s hrun k u a hk ha => by
      rw [hrun] at hrun'
      obtain rfl := Option.some.inj hrun'
      have hk0 : k = 0 := by
        have := (List.getElem?_eq_some_iff.1 hk).1
        simpa using this
      subst hk0
      have hu : caseP brakeV dx' dy' (1 / 40) (3 / 40) = u := by simpa using hk
      have := hseen 0 (caseP rollV dx dy 0 0) (by simp) rfl
      rw [ha, Option.some.injEq, far] at this
      subst hu
      have h0 : (0 : ℝ) ≤ 1 / 2 := by norm_num
      have h1 : (1 / 2 : ℝ) ≤ 1 := by norm_num
      have q := p1 (1 / 2) h0 h1
      have : a = ⟨1 / 40, 0, 0, 3 / 40, 0⟩ := by
        rw [this, q.1, q.2]
        simp only [DUpd.θ, DUpd.V, DUpd.W, caseP, div_one, flat3_d1, flat3_eval h0 h1, flat2_eval h0 h1, rollV_eval h0 h1, heading]
        simp [Finset.sum_range_succ]
        norm_num
      rw [this]
      exact ⟨rfl, rfl⟩)
    [⟨circle (1 / 10), fun _ => !₂[0, 1 / 2], fun _ => 0⟩]
    (fun k u hk => by
      have hobs : u.obs = [stillDisc 0 (1 / 2) (1 / 10)] := by
        have := List.mem_of_getElem? hk
        simp only [List.mem_cons, List.not_mem_nil, or_false] at this
        rcases this with rfl | rfl <;> rfl
      rw [hobs]
      refine ⟨rfl, fun l o w ho hw => ?_⟩
      have hl0 : l = 0 := by
        have := (List.getElem?_eq_some_iff.1 ho).1
        simpa using this
      subst hl0
      simp at ho hw
      subst ho hw
      exact ⟨rfl, rfl, fun _ => 0, stillDisc_on _ _ _, fun r _ _ => ⟨by simp [stillDisc, Expr.val], rfl⟩⟩)
  have tot : (([caseP brakeV dx' dy' (1 / 40) (3 / 40)] : List DUpd).length : ℝ) * (((10 : ℕ) : ℝ) * (1 / 20)) +
      (([caseP rollV dx dy 0 0, caseP brakeV dx' dy' (1 / 40) (3 / 40)] : List DUpd).getLast (List.cons_ne_nil _ _)).T = 3 / 2 := by
    simp [caseP]; norm_num
  rw [tot] at safe e1
  refine ⟨_, _, s, hrun, rfl, rfl, p, safe, e0, e1, ?_⟩
  have := hlog 20 (by norm_num)
  rw [this]
  norm_num

end Case

end Verif.Problems
