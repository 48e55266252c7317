import Verif.Vehicles.Trailer
import Verif.Collision.Props2
import Mathlib.Analysis.SpecialFunctions.Integrals.Basic

/-! # What is kept away from the obstacles: vehicles with a heading (C164) and trailers (C165)

Model of `define_collision_constraints` of `Dubins` (dubins.py:244-260; `AGV`, agv.py:226-241, and
`Bicycle`, bicycle.py:259-278, do the same) and `Trailer` (trailer.py:162-169), of the loop over the
shapes in `Vehicle.define_collision_constraints_2d` (vehicle.py:122-161), and of the dictionary of
separating lines that `Environment.define_collision_constraints` (environment.py:119-146) builds.
Left out: the room constraints, the objective terms of the slacks, the option `substitution`. -/

set_option linter.unusedSectionVars false

namespace Verif.Vehicles

open Verif.Spline Collision

/-! ## Model -/

/-- What `isinstance(shape, Circle)` distinguishes, dubins.py:257. -/
inductive Form where
  | circle (r : ℝ)
  | other (s : Shape 2)

/-- Checkpoints and radius of a shape. -/
def Form.shape : Form → Shape 2
  | .circle r => Collision.circle r
  | .other s => s

/-- An element of `vehicle.shapes`: the object (dictionary key) and what it describes. -/
structure Part where
  obj : ℕ
  form : Form

/-- `hyp_veh` after the loop over `vehicle.shapes`, environment.py:119-143: `lines k` are the lines made
for the shape number `k`; `hyp_veh[shape] = []` starts afresh, so that the last of equal keys counts. -/
def hypDict (parts : List Part) (lines : ℕ → List Hyp) (o : ℕ) : Option (List Hyp) :=
  (parts.zipIdx.filter fun q => q.1.obj = o).getLast?.map fun q => lines q.2

/-- The slack of shape `s` and line `k`, vehicle.py:138-146. -/
noncomputable def slackE (sd : ℝ) (epsVar : ℕ → ℕ → BSpline ℝ) (s k : ℕ) : Expr ℝ :=
  if 0 < sd then .spl (epsVar s k) else .num 0

/-- `Vehicle.define_collision_constraints_2d`, vehicle.py:122-161, without room constraints:
`position = positions[s]` for every shape (`none` is the `IndexError`), lines only for shapes that are
keys of the dictionary. -/
noncomputable def collide2d (parts : List Part) (positions : List (Expr ℝ × Expr ℝ)) (tg : Expr ℝ) (offset sd : ℝ)
    (epsVar : ℕ → ℕ → BSpline ℝ) (dict : ℕ → Option (List Hyp)) : Option (List (Expr ℝ)) :=
  (parts.zipIdx.mapM fun q => positions[q.2]?.map fun p =>
    (((dict q.1.obj).getD []).zipIdx.flatMap fun h =>
      (if 0 < sd then [Expr.sub (slackE sd epsVar q.2 h.2) (.num sd), .neg (slackE sd epsVar q.2 h.2)] else []) ++
      q.1.form.shape.chk.map fun c =>
        vehCon2 h.1.a0 h.1.a1 h.1.b tg p.1 p.2 (slackE sd epsVar q.2 h.2) offset sd c q.1.form.shape.rad)).map List.flatten

/-- `Dubins.define_collision_constraints`, dubins.py:244-260: one position for the whole vehicle; the
heading is passed on unless the first shape is a circle (no shapes: `IndexError`). -/
noncomputable def dubinsOwn (parts : List Part) (x y tg : BSpline ℝ) (sd : ℝ) (epsVar : ℕ → ℕ → BSpline ℝ)
    (dict : ℕ → Option (List Hyp)) : Option (List (Expr ℝ)) :=
  match parts.head?.map Part.form with
  | none => none
  | some (.circle _) => collide2d parts [(.spl x, .spl y)] (.num 0) 0 sd epsVar dict
  | some (.other _) => collide2d parts [(.spl x, .spl y)] (.spl tg) 0 sd epsVar dict

/-- `Trailer.define_collision_constraints`, trailer.py:162-169: the trailer's shapes behind the
vehicle, then the constraints of the leading vehicle with the same dictionary. -/
noncomputable def trailerOwn (parts lead : List Part) (x y tt tv : BSpline ℝ) (l sd sdLead : ℝ)
    (epsVar epsLead : ℕ → ℕ → BSpline ℝ) (dict : ℕ → Option (List Hyp)) : Option (List (Expr ℝ)) := do
  let own ← collide2d parts [(.spl x, .spl y)] (.spl tt) (-l) sd epsVar dict
  let pulling ← dubinsOwn lead x y tv sdLead epsLead dict
  return own ++ pulling

/-- `Environment.define_collision_constraints`, environment.py:102-146, for one vehicle in one segment:
lines for the shapes and the obstacles to be avoided, constraints of the obstacles, and then those the
vehicle itself makes from the dictionary. -/
noncomputable def envRun (parts : List Part) (obs : List Obs) (hyp : ℕ → ℕ → Hyp)
    (own : (ℕ → Option (List Hyp)) → Option (List (Expr ℝ))) : Option (List (Expr ℝ)) :=
  (own (hypDict parts fun k => (obs.zipIdx.filter fun q => q.1.avoid).map fun q => hyp k q.2)).map fun c =>
    (parts.zipIdx.flatMap fun q => obs.zipIdx.flatMap fun o =>
      if o.1.avoid then
        normCon [(hyp q.2 o.2).a0, (hyp q.2 o.2).a1] :: o.1.cons ((List.range (q.2 + 1)).map fun k' => hyp k' o.2)
      else []) ++ c

/-! ## Specification -/

/-- Where a wheeled vehicle is that starts at `p` at time `t0` and drives with speed `V` in the
direction `θ`. -/
noncomputable def wheeled (V θ : ℝ → ℝ) (p : ℝ × ℝ) (t0 t : ℝ) : ℝ × ℝ :=
  (p.1 + ∫ u in t0..t, V u * Real.cos (θ u), p.2 + ∫ u in t0..t, V u * Real.sin (θ u))

/-- A shape at position `p` with heading `θ` keeps the distance `d` from an obstacle of orientation `φ`
at (relative) time `x`: points of the two are at least `d` apart, and points of the two cores at least `d` and both radii. -/
def Clear (s : Shape 2) (p : Pt 2) (θ : ℝ) (o : Obs) (φ x d : ℝ) : Prop :=
  (∀ a ∈ placed p θ s.region, ∀ b ∈ o.regionAt φ x, d ≤ dist a b) ∧
  ∀ a ∈ placed p θ s.core, ∀ b ∈ o.coreAt φ x, d + s.rad + o.shape.rad ≤ dist a b

/-! ## Helpers -/

theorem collide2d_one (part : Part) (x y tg : Expr ℝ) (offset sd : ℝ) (epsVar : ℕ → ℕ → BSpline ℝ)
    (dict : ℕ → Option (List Hyp)) :
    collide2d [part] [(x, y)] tg offset sd epsVar dict = some (Veh.cons ⟨[part.form.shape], fun _ => x, fun _ => y, tg, offset, sd, epsVar⟩
      fun _ => (dict part.obj).getD []) := by
  simp [collide2d, Veh.cons, Veh.eps, slackE]

theorem collide2d_many {parts : List Part} (h : 2 ≤ parts.length) (p : Expr ℝ × Expr ℝ) (tg : Expr ℝ) (offset sd : ℝ)
    (epsVar : ℕ → ℕ → BSpline ℝ) (dict : ℕ → Option (List Hyp)) :
    collide2d parts [p] tg offset sd epsVar dict = none := by
  match parts, h with
  | a :: b :: rest, _ => simp [collide2d, List.zipIdx_cons]

theorem hypDict_one (part : Part) (lines : ℕ → List Hyp) (o : ℕ) :
    hypDict [part] lines o = if part.obj = o then some (lines 0) else none := by
  by_cases h : part.obj = o <;> simp [hypDict, h]

/-- One shape: the constraints of the environment are those of the model of `C10`. -/
theorem envRun_one (part : Part) (obs : List Obs) (hyp : ℕ → ℕ → Hyp) (x y tg : Expr ℝ) (offset sd : ℝ) (epsVar : ℕ → ℕ → BSpline ℝ) :
    envRun [part] obs hyp (collide2d [part] [(x, y)] tg offset sd epsVar) =
      some (envCons ⟨[part.form.shape], fun _ => x, fun _ => y, tg, offset, sd, epsVar⟩ obs hyp) := by
  rw [envRun, collide2d_one, hypDict_one, if_pos rfl]
  simp only [Option.map_some, Option.getD_some, envCons, Option.some.injEq]
  simp [Veh.cons]

theorem circle_core_heading (r : ℝ) (p : Pt 2) (θ θ' : ℝ) : placed p θ (circle r).core ⊆ placed p θ' (circle r).core := by
  have hc : (circle r).core = {(!₂[0, 0] : Pt 2)} := by simp [Shape.core, circle]
  have h0 : ∀ θ, rot θ (!₂[0, 0] : Pt 2) = 0 := fun θ => by ext i; fin_cases i <;> simp [rot]
  rintro a ⟨q, hq, rfl⟩
  rw [hc] at hq ⊢
  obtain rfl : q = _ := hq
  exact ⟨_, rfl, by rw [h0, h0]⟩

theorem placed_region {s : Shape 2} {p a : Pt 2} {θ : ℝ} (h : a ∈ placed p θ s.region) : ∃ b ∈ placed p θ s.core, dist a b ≤ s.rad := by
  obtain ⟨q, ⟨c, hc, hd⟩, rfl⟩ := h
  refine ⟨p + rot θ c, ⟨c, hc, rfl⟩, ?_⟩
  have e : ∀ z, rot θ z = rotL θ z := fun _ => rfl
  rw [dist_eq_norm, e, e, add_sub_add_left_eq_sub, ← map_sub, norm_rot, ← dist_eq_norm]
  exact hd

theorem obs_region {o : Obs} {φ x : ℝ} {a : Pt 2} (h : a ∈ o.regionAt φ x) : ∃ b ∈ o.coreAt φ x, dist a b ≤ o.shape.rad :=
  placed_region h

/-- The cores decide. -/
theorem Clear.of_core {s : Shape 2} {p : Pt 2} {θ : ℝ} {o : Obs} {φ x d : ℝ}
    (h : ∀ a ∈ placed p θ s.core, ∀ b ∈ o.coreAt φ x, d + s.rad + o.shape.rad ≤ dist a b) : Clear s p θ o φ x d := by
  refine ⟨fun a ha b hb => ?_, h⟩
  obtain ⟨a', ha', da⟩ := placed_region ha
  obtain ⟨b', hb', db⟩ := obs_region hb
  have := h a' ha' b' hb'
  have t1 := dist_triangle a' a b'
  have t2 := dist_triangle a b b'
  rw [dist_comm] at da
  linarith

/-- The integrated splines are at the place where the vehicle is. -/
theorem wheeled_eq {v tg dx dy : BSpline ℝ} (hv : Traj v 0) (ht : Traj tg 0) {T : ℝ} (hT : 0 < T)
    (rx : (dxE v tg).Runs (.spl dx)) (ry : (dyE v tg).Runs (.spl dy)) (p : ℝ × ℝ) {t0 t : ℝ} (a0 : 0 ≤ t0) (a1 : t0 ≤ T)
    (h0 : 0 ≤ t) (h1 : t ≤ T) :
    wheeled (fun u => v.eval (u / T) * (1 + tg.eval (u / T) ^ 2)) (fun u => 2 * Real.arctan (tg.eval (u / T))) p t0 t =
      ((integrateOnce dx p.1 t0 T).eval (t / T), (integrateOnce dy p.2 t0 T).eval (t / T)) := by
  obtain ⟨d1, d2⟩ := runs_spl (n := 0) rx ⟨hv.trajOn, trivial, ht.trajOn, ht.trajOn⟩
  obtain ⟨e1, e2⟩ := runs_spl (n := 0) ry ⟨hv.trajOn, trivial, ht.trajOn⟩
  have b0 : 0 ≤ t0 / T := by positivity
  have b1 : t0 / T ≤ 1 := (div_le_one hT).2 a1
  have c0 : 0 ≤ t / T := by positivity
  have c1 : t / T ≤ 1 := (div_le_one hT).2 h1
  have mem : ∀ u ∈ Set.uIcc t0 t, 0 ≤ u / T ∧ u / T ≤ 1 := fun u hu => by
    rw [Set.mem_uIcc] at hu
    have : 0 ≤ u ∧ u ≤ T := by rcases hu with h | h <;> constructor <;> linarith
    exact ⟨div_nonneg this.1 hT.le, (div_le_one hT).2 this.2⟩
  rw [(C17_integrate_once dx 0 1 d1 T hT p.1 t0 b0 b1).2 t c0 c1, (C17_integrate_once dy 0 1 e1 T hT p.2 t0 b0 b1).2 t c0 c1]
  unfold wheeled
  refine Prod.ext ?_ ?_ <;> simp only [add_right_inj] <;> refine intervalIntegral.integral_congr fun u hu => ?_ <;> obtain ⟨m0, m1⟩ := mem u hu <;>
    have hp : (0 : ℝ) < 1 + tg.eval (u / T) ^ 2 := by positivity
  · show _ = dx.eval (u / T)
    rw [d2 _ m0 m1]
    change _ * Real.cos (heading _) = _
    simp only [cos_heading', dxE, Expr.val, Expr.sub, Expr.sq]; field_simp; ring
  · show _ = dy.eval (u / T)
    rw [e2 _ m0 m1]
    change _ * Real.sin (heading _) = _
    simp only [sin_heading', dyE, Expr.val]; field_simp

theorem TrajOn.on01 {s : BSpline ℝ} {n : ℕ} (h : TrajOn s 0 1 n) : (Expr.spl s).On 0 1 := ⟨h.clamped, h.wf, h.first, h.last⟩

/-- A vehicle with one shape and one position is kept clear. -/
theorem one_clear {part : Part} {obs : List Obs} {hyp : ℕ → ℕ → Hyp} {x y tg : Expr ℝ} {offset sd : ℝ} {epsVar : ℕ → ℕ → BSpline ℝ} {φ : ℕ → ℝ → ℝ}
    (hx : x.On 0 1) (hy : y.On 0 1) (htg : tg.On 0 1) (he : ∀ s k, (Expr.spl (epsVar s k)).On 0 1) (hh : ∀ k l, (hyp k l).On 0 1)
    (ho : ∀ (l : ℕ) (o : Obs), obs[l]? = some o → o.On 0 1 (φ l))
    (himp : ∀ e ∈ envCons ⟨[part.form.shape], fun _ => x, fun _ => y, tg, offset, sd, epsVar⟩ obs hyp, e.Imposed 0)
    {l : ℕ} {o : Obs} (hl : obs[l]? = some o) (hav : o.avoid = true) {τ : ℝ} (h0 : 0 ≤ τ) (h1 : τ ≤ 1) :
    Clear part.form.shape (carried (x.val τ) (y.val τ) offset (heading (tg.val τ))) (heading (tg.val τ)) o (φ l τ) τ
      (sd - (slackE sd epsVar 0 (avoidedBefore obs l)).val τ) ∧
    (0 < sd → 0 ≤ (slackE sd epsVar 0 (avoidedBefore obs l)).val τ ∧ (slackE sd epsVar 0 (avoidedBefore obs l)).val τ ≤ sd) := by
  have := C10_environment ⟨[part.form.shape], fun _ => x, fun _ => y, tg, offset, sd, epsVar⟩ obs hyp 0 1 φ
    ⟨htg, fun _ => hx, fun _ => hy, he⟩ hh ho himp 0 part.form.shape rfl l o hl hav τ h0 h1
  exact ⟨⟨this.1, this.2.1⟩, this.2.2⟩

theorem dubinsOwn_circle {part : Part} {r : ℝ} (hf : part.form = .circle r) (x y tg : BSpline ℝ) (sd : ℝ) (epsVar : ℕ → ℕ → BSpline ℝ) :
    dubinsOwn [part] x y tg sd epsVar = collide2d [part] [(.spl x, .spl y)] (.num 0) 0 sd epsVar := by
  funext d; simp [dubinsOwn, hf]

theorem dubinsOwn_other {part : Part} {s : Shape 2} (hf : part.form = .other s) (x y tg : BSpline ℝ) (sd : ℝ) (epsVar : ℕ → ℕ → BSpline ℝ) :
    dubinsOwn [part] x y tg sd epsVar = collide2d [part] [(.spl x, .spl y)] (.spl tg) 0 sd epsVar := by
  funext d; simp [dubinsOwn, hf]

theorem carried_zero (a b θ : ℝ) : carried a b 0 θ = !₂[a, b] := by simp [carried]

/-! ## C164 -/

/-- **C164** (one shape).  A differential drive vehicle with one shape always gets its collision
constraints, and if they hold then at every time of the motion the vehicle, at the place to which it
really drives and turned into the direction in which it really drives, keeps the safety distance up to
the slack from every obstacle that is to be avoided - whether or not the heading was passed on. -/
theorem C164_partial (part : Part) (obs : List Obs) (hyp : ℕ → ℕ → Hyp) (φ : ℕ → ℝ → ℝ) (v tg dx dy : BSpline ℝ) (hv : Traj v 0) (ht : Traj tg 0)
    (T : ℝ) (hT : 0 < T) (rx : (dxE v tg).Runs (.spl dx)) (ry : (dyE v tg).Runs (.spl dy)) (p : ℝ × ℝ) (t0 : ℝ) (a0 : 0 ≤ t0) (a1 : t0 ≤ T)
    (sd : ℝ) (epsVar : ℕ → ℕ → BSpline ℝ) (he : ∀ s k, (Expr.spl (epsVar s k)).On 0 1) (hh : ∀ k l, (hyp k l).On 0 1)
    (ho : ∀ (l : ℕ) (o : Obs), obs[l]? = some o → o.On 0 1 (φ l)) :
    ∃ cs, envRun [part] obs hyp (dubinsOwn [part] (integrateOnce dx p.1 t0 T) (integrateOnce dy p.2 t0 T) tg sd epsVar) = some cs ∧
      ((∀ e ∈ cs, e.Imposed 0) → ∀ t, 0 ≤ t → t ≤ T → ∀ (l : ℕ) (o : Obs), obs[l]? = some o → o.avoid = true →
        let θ := fun u => 2 * Real.arctan (tg.eval (u / T))
        let pos := wheeled (fun u => v.eval (u / T) * (1 + tg.eval (u / T) ^ 2)) θ p t0 t
        ∃ ε, (0 < sd → 0 ≤ ε ∧ ε ≤ sd) ∧ (sd ≤ 0 → ε = 0) ∧ Clear part.form.shape !₂[pos.1, pos.2] (θ t) o (φ l (t / T)) (t / T) (sd - ε)) := by
  obtain ⟨d1, -⟩ := runs_spl (n := 0) rx ⟨hv.trajOn, trivial, ht.trajOn, ht.trajOn⟩
  obtain ⟨e1, -⟩ := runs_spl (n := 0) ry ⟨hv.trajOn, trivial, ht.trajOn⟩
  have ox := (d1.integrateOnce p.1 t0 T).on01
  have oy := (e1.integrateOnce p.2 t0 T).on01
  have zero : ∀ k τ, sd ≤ 0 → (slackE sd epsVar 0 k).val τ = 0 := fun k τ h => by simp [slackE, not_lt.2 h, Expr.val]
  have wh := fun t (h0 : 0 ≤ t) (h1 : t ≤ T) => wheeled_eq hv ht hT rx ry p a0 a1 h0 h1
  rcases hf : part.form with r | s
  · refine ⟨_, by rw [dubinsOwn_circle hf]; exact envRun_one _ _ _ _ _ _ _ _ _, fun himp t h0 h1 l o hl hav => ?_⟩
    obtain ⟨c1, c2⟩ := one_clear (tg := .num 0) ox oy trivial he hh ho himp hl hav (τ := t / T) (by positivity) ((div_le_one hT).2 h1)
    refine ⟨_, c2, zero _ _, Clear.of_core fun a ha b hb => ?_⟩
    rw [show wheeled _ _ p t0 t = _ from wh t h0 h1] at ha
    rw [hf, carried_zero] at c1
    exact c1.2 a (circle_core_heading r _ _ _ ha) b hb
  · refine ⟨_, by rw [dubinsOwn_other hf]; exact envRun_one _ _ _ _ _ _ _ _ _, fun himp t h0 h1 l o hl hav => ?_⟩
    obtain ⟨c1, c2⟩ := one_clear ox oy ht.on he hh ho himp hl hav (τ := t / T) (by positivity) ((div_le_one hT).2 h1)
    refine ⟨_, c2, zero _ _, ?_⟩
    rw [hf, carried_zero] at c1
    show Clear _ !₂[(wheeled _ _ p t0 t).1, (wheeled _ _ p t0 t).2] _ _ _ _ _
    rw [show wheeled _ _ p t0 t = _ from wh t h0 h1]
    exact c1

/-- **C164** (several shapes; fails for every such vehicle).  A vehicle with two or more shapes gets no
constraints at all: building the problem ends with an `IndexError`, whatever the shapes, the
obstacles, the lines and the motion. -/
theorem C164_several_shapes_violated (parts : List Part) (h2 : 2 ≤ parts.length) (obs : List Obs) (hyp : ℕ → ℕ → Hyp) (x y tg : BSpline ℝ)
    (sd : ℝ) (epsVar : ℕ → ℕ → BSpline ℝ) : envRun parts obs hyp (dubinsOwn parts x y tg sd epsVar) = none := by
  obtain ⟨a, rest, rfl⟩ := List.exists_cons_of_length_pos (by omega : 0 < parts.length)
  rcases hf : a.form with r | s <;> simp [envRun, dubinsOwn, hf, collide2d_many h2]

/-! ## C165 -/

/-- **C165** (the trailer itself).  A trailer with one shape keeps, at hitch distance behind the vehicle
and in its own direction, the safety distance up to the slack from every obstacle to be avoided. -/
theorem C165_trailer_partial (part : Part) (lead : Part) (obs : List Obs) (hyp : ℕ → ℕ → Hyp) (φ : ℕ → ℝ → ℝ) (tt v tv dx dy : BSpline ℝ)
    (htt : Traj tt 0) (hv : Traj v 0) (ht : Traj tv 0) (T : ℝ) (hT : 0 < T) (rx : (dxE v tv).Runs (.spl dx)) (ry : (dyE v tv).Runs (.spl dy))
    (p : ℝ × ℝ) (t0 : ℝ) (a0 : 0 ≤ t0) (a1 : t0 ≤ T) (len sd sdLead : ℝ) (epsVar epsLead : ℕ → ℕ → BSpline ℝ)
    (he : ∀ s k, (Expr.spl (epsVar s k)).On 0 1) (hh : ∀ k l, (hyp k l).On 0 1)
    (ho : ∀ (l : ℕ) (o : Obs), obs[l]? = some o → o.On 0 1 (φ l)) :
    ∃ cs, envRun [part] obs hyp (trailerOwn [part] [lead] (integrateOnce dx p.1 t0 T) (integrateOnce dy p.2 t0 T) tt tv len sd sdLead
        epsVar epsLead) = some cs ∧
      ((∀ e ∈ cs, e.Imposed 0) → ∀ t, 0 ≤ t → t ≤ T → ∀ (l : ℕ) (o : Obs), obs[l]? = some o → o.avoid = true →
        let pos := wheeled (fun u => v.eval (u / T) * (1 + tv.eval (u / T) ^ 2)) (fun u => 2 * Real.arctan (tv.eval (u / T))) p t0 t
        let ψ := 2 * Real.arctan (tt.eval (t / T))
        ∃ ε, (0 < sd → 0 ≤ ε ∧ ε ≤ sd) ∧ (sd ≤ 0 → ε = 0) ∧
          Clear part.form.shape !₂[pos.1 - len * Real.cos ψ, pos.2 - len * Real.sin ψ] ψ o (φ l (t / T)) (t / T) (sd - ε)) := by
  obtain ⟨d1, -⟩ := runs_spl (n := 0) rx ⟨hv.trajOn, trivial, ht.trajOn, ht.trajOn⟩
  obtain ⟨e1, -⟩ := runs_spl (n := 0) ry ⟨hv.trajOn, trivial, ht.trajOn⟩
  have ox := (d1.integrateOnce p.1 t0 T).on01
  have oy := (e1.integrateOnce p.2 t0 T).on01
  have zero : ∀ k τ, sd ≤ 0 → (slackE sd epsVar 0 k).val τ = 0 := fun k τ h => by simp [slackE, not_lt.2 h, Expr.val]
  have wh := fun t (h0 : 0 ≤ t) (h1 : t ≤ T) => wheeled_eq hv ht hT rx ry p a0 a1 h0 h1
  obtain ⟨rest, hrest⟩ : ∃ rest, ∀ c, envRun [part] obs hyp (fun dict => (collide2d [part]
      [(.spl (integrateOnce dx p.1 t0 T), .spl (integrateOnce dy p.2 t0 T))] (.spl tt) (-len) sd epsVar dict)) = some c →
      envRun [part] obs hyp (trailerOwn [part] [lead] (integrateOnce dx p.1 t0 T) (integrateOnce dy p.2 t0 T) tt tv len sd sdLead
        epsVar epsLead) = some (c ++ rest) := by
    rcases hf : lead.form with r | s <;>
      exact ⟨_, fun c hc => by
        simp only [envRun, trailerOwn, dubinsOwn, List.head?_cons, Option.map_some, hf, collide2d_one, Option.bind_eq_bind, Option.bind_some,
          Option.pure_def, Option.some.injEq] at hc ⊢
        rw [← hc, List.append_assoc]⟩
  refine ⟨_, hrest _ (envRun_one _ _ _ _ _ _ _ _ _), fun himp t h0 h1 l o hl hav => ?_⟩
  obtain ⟨c1, c2⟩ := one_clear ox oy htt.on he hh ho (fun e he => himp e (List.mem_append_left _ he)) hl hav (τ := t / T) (by positivity) ((div_le_one hT).2 h1)
  refine ⟨_, c2, zero _ _, ?_⟩
  show Clear _ !₂[(wheeled _ _ p t0 t).1 - _, (wheeled _ _ p t0 t).2 - _] _ _ _ _ _
  rw [show wheeled _ _ p t0 t = _ from wh t h0 h1]
  have e : ∀ a b θ, carried a b (-len) θ = !₂[a - len * Real.cos θ, b - len * Real.sin θ] := fun a b θ => by
    simp [carried, sub_eq_add_neg]
  rw [e] at c1
  exact c1

/-- **C165** (a shared shape).  If trailer and leading vehicle are given the very same shape object, the
leading vehicle is kept clear as well. -/
theorem C165_shared_partial (part : Part) (obs : List Obs) (hyp : ℕ → ℕ → Hyp) (φ : ℕ → ℝ → ℝ) (tt v tv dx dy : BSpline ℝ)
    (hv : Traj v 0) (ht : Traj tv 0) (T : ℝ) (hT : 0 < T) (rx : (dxE v tv).Runs (.spl dx)) (ry : (dyE v tv).Runs (.spl dy))
    (p : ℝ × ℝ) (t0 : ℝ) (a0 : 0 ≤ t0) (a1 : t0 ≤ T) (len sd sdLead : ℝ) (epsVar epsLead : ℕ → ℕ → BSpline ℝ)
    (he : ∀ s k, (Expr.spl (epsLead s k)).On 0 1) (hh : ∀ k l, (hyp k l).On 0 1)
    (ho : ∀ (l : ℕ) (o : Obs), obs[l]? = some o → o.On 0 1 (φ l)) (cs : List (Expr ℝ))
    (hcs : envRun [part] obs hyp (trailerOwn [part] [part] (integrateOnce dx p.1 t0 T) (integrateOnce dy p.2 t0 T) tt tv len sd sdLead
        epsVar epsLead) = some cs) (himp : ∀ e ∈ cs, e.Imposed 0) (t : ℝ) (h0 : 0 ≤ t) (h1 : t ≤ T)
    (l : ℕ) (o : Obs) (hl : obs[l]? = some o) (hav : o.avoid = true) :
    let θ := fun u => 2 * Real.arctan (tv.eval (u / T))
    let pos := wheeled (fun u => v.eval (u / T) * (1 + tv.eval (u / T) ^ 2)) θ p t0 t
    ∃ ε, (0 < sdLead → 0 ≤ ε ∧ ε ≤ sdLead) ∧ (sdLead ≤ 0 → ε = 0) ∧
      Clear part.form.shape !₂[pos.1, pos.2] (θ t) o (φ l (t / T)) (t / T) (sdLead - ε) := by
  obtain ⟨c, hc, hall⟩ := C164_partial part obs hyp φ v tv dx dy hv ht T hT rx ry p t0 a0 a1 sdLead epsLead he hh ho
  refine hall (fun e hec => himp e ?_) t h0 h1 l o hl hav
  rcases hf : part.form with r | s <;>
    simp only [envRun, trailerOwn, dubinsOwn, List.head?_cons, Option.map_some, hf, collide2d_one, Option.bind_eq_bind, Option.bind_some,
          Option.pure_def, Option.some.injEq] at hc hcs <;>
    · rw [← hc] at hec
      rw [← hcs]
      simp only [List.mem_append] at hec ⊢
      rcases hec with h | h
      · exact Or.inl h
      · exact Or.inr (Or.inr h)

/-- **C165** (nothing is imposed).  Whenever the leading vehicle's shape is another object than the
trailer's, the collision constraints of the pair are those of the trailer alone. -/
theorem C165_nothing_imposed_violated (part lead : Part) (hne : part.obj ≠ lead.obj) (obs : List Obs) (hyp : ℕ → ℕ → Hyp)
    (x y tt tv : BSpline ℝ) (len sd sdLead : ℝ) (epsVar epsLead : ℕ → ℕ → BSpline ℝ) :
    envRun [part] obs hyp (trailerOwn [part] [lead] x y tt tv len sd sdLead epsVar epsLead) =
      envRun [part] obs hyp (collide2d [part] [(.spl x, .spl y)] (.spl tt) (-len) sd epsVar) := by
  rcases hf : lead.form with r | s <;>
    simp [envRun, trailerOwn, dubinsOwn, hf, collide2d_one, hypDict_one, hne, Veh.cons]

/-! ## Cases -/

/-- A constant line. -/
noncomputable def flatLine (a0 a1 b : ℝ) : Hyp :=
  ⟨.spl ⟨Bz 1, [a0, a0]⟩, .spl ⟨Bz 1, [a1, a1]⟩, .spl ⟨Bz 1, [b, b]⟩⟩

/-- A disc standing still. -/
noncomputable def stillDisc (x y r : ℝ) : Obs := ⟨circle r, .num x, .num y, .num 1, .num 1, .num 0, true⟩

theorem bz_const {e : Expr ℝ} (h : e.AllBz) {D : ℕ} (hd : e.bdeg = some D) (hD : D ≤ 250) {v ub : ℝ}
    (hv : ∀ x, 0 ≤ x → x ≤ 1 → e.val x = v) (hub : v ≤ ub) : e.Imposed ub := by
  refine h.imposed hd hD (List.replicate (D + 1) v) (fun x h0 h1 => ?_) fun i hi => ?_
  · rw [hv x h0 h1]
    have one : ∑ i ∈ Finset.range (D + 1), bern D i x = 1 := by
      have := add_pow x (1 - x) D
      rw [add_sub_cancel, one_pow] at this
      rw [this]
      exact Finset.sum_congr rfl fun i _ => by unfold bern; ring
    rw [Finset.sum_congr rfl fun i hi => by rw [List.getD_replicate _ (Finset.mem_range.1 hi)], ← Finset.mul_sum, one, mul_one]
  · rw [List.getD_replicate _ (by omega)]; exact hub

theorem bz_two {c x : ℝ} (h0 : 0 ≤ x) (h1 : x ≤ 1) : (⟨Bz 1, [c, c]⟩ : BSpline ℝ).eval x = c := by
  rw [Bz_eval rfl h0 h1]; simp [Finset.sum_range_succ, bern]; ring

/-- From rest to rest, straight ahead. -/
noncomputable def rollV : BSpline ℝ := ⟨Bz 3, [0, 1 / 10, 1 / 10, 0]⟩
/-- Zero. -/
noncomputable def flat3 : BSpline ℝ := ⟨Bz 3, [0, 0, 0, 0]⟩

theorem flat3_eval {x : ℝ} (h0 : 0 ≤ x) (h1 : x ≤ 1) : flat3.eval x = 0 := by
  unfold flat3; rw [Bz_eval rfl h0 h1]; simp [Finset.sum_range_succ]

theorem rollV_eval {x : ℝ} (h0 : 0 ≤ x) (h1 : x ≤ 1) : rollV.eval x = 3 / 10 * (x - x ^ 2) := by
  unfold rollV; rw [Bz_eval rfl h0 h1]; simp [Finset.sum_range_succ, bern, Nat.choose]; ring

theorem flat3_d1 : flat3.derivative 1 = ⟨Bz 2, [0, 0, 0]⟩ := by
  unfold flat3; rw [Bz_derivative rfl]; norm_num [List.range_succ]

theorem flat2_eval {x : ℝ} (h0 : 0 ≤ x) (h1 : x ≤ 1) : (⟨Bz 2, [0, 0, 0]⟩ : BSpline ℝ).eval x = 0 := by
  rw [Bz_eval rfl h0 h1]; simp [Finset.sum_range_succ]

/-- The integral of a spline without inner knots has none. -/
theorem integrateOnce_bz {s : BSpline ℝ} {D : ℕ} (hb : s.basis = Bz D) (hl : s.coeffs.length = D + 1) (x0 t T : ℝ) :
    (Expr.spl (integrateOnce s x0 t T)).AllBz ∧ (Expr.spl (integrateOnce s x0 t T)).bdeg = some (D + 1) := by
  have hs : TrajOn s 0 1 0 := by
    have := (Bz_traj (p := D) hl).mono (Nat.zero_le _)
    obtain ⟨b, c⟩ := s
    cases hb
    exact this.trajOn
  have base : (integrateOnce s x0 t T).basis = Bz (D + 1) := by
    show (⟨s.basis.knots.headD 0 :: s.basis.knots ++ [s.basis.knots.getLastD 0], s.basis.degree + 1⟩ : Basis ℝ) = _
    rw [hs.first, hs.last, hb]
    unfold Bz
    simp only [List.replicate_succ, List.cons_append, List.append_assoc, List.cons.injEq, Basis.mk.injEq, and_true, true_and,
      List.append_cancel_left_eq]
    rw [← List.replicate_succ', List.replicate_succ]
  have wf := (hs.integrateOnce x0 t T).wf
  unfold BSpline.WF at wf
  rw [base, Bz_len] at wf
  have hdeg : (integrateOnce s x0 t T).basis.degree = D + 1 := by rw [base]; rfl
  refine ⟨⟨by rw [hdeg]; exact base, by rw [hdeg]; exact wf⟩, ?_⟩
  simp only [Expr.bdeg, hdeg]

/-- A disc and a standing disc on the two sides of a fixed line. -/
theorem disc_env {obj : ℕ} {r a0 a1 b qx qy ro offset m : ℝ} {x y tg : Expr ℝ} (eps : ℕ → ℕ → BSpline ℝ) (hx : x.AllBz) (hy : y.AllBz) (ht : tg.AllBz)
    {D : ℕ} (hd : ∀ c rad, (vehCon2 (flatLine a0 a1 b).a0 (flatLine a0 a1 b).a1 (flatLine a0 a1 b).b tg x y (.num 0) offset 0 c rad).bdeg = some D)
    (hD : D ≤ 250) (ht0 : ∀ τ, 0 ≤ τ → τ ≤ 1 → tg.val τ = 0)
    (hm : ∀ τ, 0 ≤ τ → τ ≤ 1 → a0 * (x.val τ + offset) + a1 * y.val τ = m) (hn : a0 ^ 2 + a1 ^ 2 ≤ 1) (h1 : m - b + r ≤ 0)
    (h2 : b - a0 * qx - a1 * qy + ro ≤ 0) :
    ∃ cs, envRun [⟨obj, .circle r⟩] [stillDisc qx qy ro] (fun _ _ => flatLine a0 a1 b)
      (collide2d [⟨obj, .circle r⟩] [(x, y)] tg offset 0 eps) = some cs ∧ ∀ e ∈ cs, e.Imposed 0 := by
  refine ⟨_, envRun_one _ _ _ _ _ _ _ _ _, fun e he => ?_⟩
  simp [envCons, Veh.cons, Obs.cons, stillDisc, Form.shape, circle, Veh.eps] at he
  rcases he with rfl | rfl | rfl
  · refine bz_const (D := 2) (v := a0 ^ 2 + a1 ^ 2 - 1) ?_ ?_ (by norm_num) (fun τ g0 g1 => ?_) (by linarith)
    · simp [normCon, flatLine, Expr.AllBz, Expr.sub, Bz]
    · simp [normCon, flatLine, Expr.bdeg, Expr.sub, Bz]
    · simp only [normCon, flatLine, List.foldl_cons, List.foldl_nil, Expr.val, Expr.sub]
      simp only [bz_two g0 g1]; ring
  · refine bz_const (D := 1) (v := b - a0 * qx - a1 * qy + ro) ?_ ?_ (by norm_num) (fun τ g0 g1 => ?_) h2
    · simp [obsCon2, flatLine, Expr.AllBz, Expr.sub, Bz]
    · simp [obsCon2, flatLine, Expr.bdeg, Expr.sub, Bz]
    · simp [obsCon2, flatLine, Expr.val, Expr.sub, bz_two g0 g1]; ring
  · refine bz_const (v := m - b + r) ?_ (hd _ _) hD (fun τ g0 g1 => ?_) h1
    · simp [vehCon2, flatLine, Expr.AllBz, Expr.sub, Expr.sq, hx, hy, ht, Bz]
    · rw [← hm τ g0 g1]
      simp [vehCon2, flatLine, Expr.val, Expr.sub, Expr.sq, bz_two g0 g1, ht0 τ g0 g1]; ring

theorem roll_imposed : ∀ e ∈ dubinsC (fun _ => none) rollV flat3 80, e.Imposed 0 := by
  have hpi := Real.pi_gt_three
  simp only [dubinsC, turnC, List.forall_mem_cons]
  rw [flat3_d1]
  refine ⟨?_, ?_, ?_, ?_, by simp⟩
  · refine Expr.AllBz.imposed_pow (D := 9) ?_ ?_ (by norm_num) (fun j => [-(1 / 2), 3 / 10, -(3 / 10)].getD j 0) (fun x h0 h1 => ?_) fun w w0 w1 w2 => ?_
    · simp [Expr.AllBz, Expr.sub, Expr.sq, denE, rollV, flat3, Bz]
    · simp [Expr.bdeg, Expr.sub, Expr.sq, denE, rollV, flat3, Bz]
    · simp only [Expr.val, Expr.sub, Expr.sq, denE, rollV_eval h0 h1, flat3_eval h0 h1]
      simp [Finset.sum_range_succ, lim]; ring
    · simp [Finset.sum_range_succ]
      linarith [w1 1, w1 2, w2 1, w2 0]
  · refine Expr.AllBz.imposed (D := 3) ?_ ?_ (by norm_num) [0, -(1 / 10), -(1 / 10), 0] (fun x h0 h1 => ?_) ?_
    · simp [Expr.AllBz, rollV, Bz]
    · simp [Expr.bdeg, rollV, Bz]
    · simp only [Expr.val, rollV_eval h0 h1]
      simp [Finset.sum_range_succ, bern, Nat.choose]; ring
    · intro i hi; interval_cases i <;> norm_num
  · refine bz_const (D := 6) (v := - (80 * (Real.pi / 6))) ?_ ?_ (by norm_num) (fun x h0 h1 => ?_) (by linarith)
    · simp [Expr.AllBz, Expr.sub, Expr.sq, denE, flat3, Bz]
    · simp [Expr.bdeg, Expr.sub, Expr.sq, denE, flat3, Bz]
    · simp only [Expr.val, Expr.sub, Expr.sq, denE, flat3_eval h0 h1, flat2_eval h0 h1]; simp [lim]
  · refine bz_const (D := 6) (v := - (80 * (Real.pi / 6))) ?_ ?_ (by norm_num) (fun x h0 h1 => ?_) (by linarith)
    · simp [Expr.AllBz, Expr.sq, denE, flat3, Bz]
    · simp [Expr.bdeg, Expr.sq, denE, flat3, Bz]
    · simp only [Expr.val, Expr.sq, denE, flat3_eval h0 h1, flat2_eval h0 h1]; simp [lim]; ring

theorem stay_imposed : ∀ e ∈ dubinsC (fun _ => none) flat3 flat3 80, e.Imposed 0 := by
  have hpi := Real.pi_gt_three
  simp only [dubinsC, turnC, List.forall_mem_cons]
  rw [flat3_d1]
  refine ⟨?_, ?_, ?_, ?_, by simp⟩
  · refine bz_const (D := 9) (v := -(1 / 2)) ?_ ?_ (by norm_num) (fun x h0 h1 => ?_) (by norm_num)
    · simp [Expr.AllBz, Expr.sub, Expr.sq, denE, flat3, Bz]
    · simp [Expr.bdeg, Expr.sub, Expr.sq, denE, flat3, Bz]
    · simp only [Expr.val, Expr.sub, Expr.sq, denE, flat3_eval h0 h1]; simp [lim]
  · refine bz_const (D := 3) (v := 0) ?_ ?_ (by norm_num) (fun x h0 h1 => ?_) le_rfl
    · simp [Expr.AllBz, flat3, Bz]
    · simp [Expr.bdeg, flat3, Bz]
    · simp only [Expr.val, flat3_eval h0 h1, neg_zero]
  · have := roll_imposed
    simp only [dubinsC, turnC, List.forall_mem_cons, flat3_d1] at this
    exact this.2.2.1
  · have := roll_imposed
    simp only [dubinsC, turnC, List.forall_mem_cons, flat3_d1] at this
    exact this.2.2.2.1

theorem roll_trailer : ∀ e ∈ trailerC (fun _ => none) (3 / 2) flat3 rollV flat3 80, e.Imposed 0 := by
  have hpi := Real.pi_pos
  have ht1 : 0 ≤ Real.tan (Real.pi / 4 / 2) := Real.tan_nonneg_of_nonneg_of_le_pi_div_two (by linarith) (by linarith)
  have ht2 : Real.tan (-Real.pi / 4 / 2) ≤ 0 := by
    rw [show -Real.pi / 4 / 2 = -(Real.pi / 4 / 2) by ring, Real.tan_neg]; linarith
  simp only [trailerC, List.forall_mem_cons]
  rw [flat3_d1]
  refine ⟨?_, ?_, ?_, ?_, by simp⟩
  · refine bz_const (D := 12) (v := - (80 * trailerEps)) ?_ ?_ (by norm_num) (fun x h0 h1 => ?_) (by norm_num [trailerEps])
    · simp [Expr.AllBz, Expr.sub, Expr.sq, hitchE, rollV, flat3, Bz]
    · simp [Expr.bdeg, Expr.sub, Expr.sq, hitchE, rollV, flat3, Bz]
    · simp only [Expr.val, Expr.sub, Expr.sq, hitchE, flat3_eval h0 h1, flat2_eval h0 h1]; ring
  · refine bz_const (D := 12) (v := - (80 * trailerEps)) ?_ ?_ (by norm_num) (fun x h0 h1 => ?_) (by norm_num [trailerEps])
    · simp [Expr.AllBz, Expr.sub, Expr.sq, hitchE, rollV, flat3, Bz]
    · simp [Expr.bdeg, Expr.sub, Expr.sq, hitchE, rollV, flat3, Bz]
    · simp only [Expr.val, Expr.sub, Expr.sq, hitchE, flat3_eval h0 h1, flat2_eval h0 h1]; ring
  · refine bz_const (D := 3) (v := - Real.tan (Real.pi / 4 / 2)) ?_ ?_ (by norm_num) (fun x h0 h1 => ?_) (by linarith)
    · simp [Expr.AllBz, Expr.sub, flat3, Bz]
    · simp [Expr.bdeg, Expr.sub, flat3, Bz]
    · simp only [Expr.val, Expr.sub, flat3_eval h0 h1]; simp [lim]
  · refine bz_const (D := 3) (v := Real.tan (-Real.pi / 4 / 2)) ?_ ?_ (by norm_num) (fun x h0 h1 => ?_) (by linarith)
    · simp [Expr.AllBz, flat3, Bz]
    · simp [Expr.bdeg, flat3, Bz]
    · simp only [Expr.val, flat3_eval h0 h1]; simp [lim]

/-- The velocity splines of the two cases exist, without inner knots. -/
theorem flat_runs {v : BSpline ℝ} (hb : v.basis = Bz 3) (hl : v.coeffs.length = 4) :
    ∃ dx dy, (dxE v flat3).Runs (.spl dx) ∧ (dyE v flat3).Runs (.spl dy) ∧ dx.basis = Bz 9 ∧ dx.coeffs.length = 10 ∧ dy.basis = Bz 6 ∧ dy.coeffs.length = 7 ∧
      ∀ x, 0 ≤ x → x ≤ 1 → dx.eval x = v.eval x ∧ dy.eval x = 0 := by
  have hdeg : v.basis.degree = 3 := by rw [hb]; rfl
  have av : (Expr.spl v).AllBz := ⟨by rw [hdeg]; exact hb, by rw [hl, hdeg]⟩
  have af : (Expr.spl flat3).AllBz := ⟨rfl, rfl⟩
  have a1 : (dxE v flat3).AllBz := ⟨av, trivial, af, af⟩
  have a2 : (dyE v flat3).AllBz := ⟨av, trivial, af⟩
  obtain ⟨dx, r1, b1⟩ := (Expr.AllBz.runs a1).2 9 (by simp [Expr.bdeg, Expr.sub, Expr.sq, dxE, hdeg, flat3, Bz]) (by norm_num)
  obtain ⟨dy, r2, b2⟩ := (Expr.AllBz.runs a2).2 6 (by simp [Expr.bdeg, dyE, hdeg, flat3, Bz]) (by norm_num)
  obtain ⟨-, w1, -, -, e1⟩ := Expr.runs_means r1 a1.on
  obtain ⟨-, w2, -, -, e2⟩ := Expr.runs_means r2 a2.on
  refine ⟨dx, dy, r1, r2, b1, ?_, b2, ?_, fun x h0 h1 => ⟨?_, ?_⟩⟩
  · rw [show dx.coeffs.length = _ from w1, b1, Bz_len]
  · rw [show dy.coeffs.length = _ from w2, b2, Bz_len]
  · rw [e1 x h0 h1]; simp [dxE, Expr.val, Expr.sub, Expr.sq, flat3_eval h0 h1]
  · rw [e2 x h0 h1]; simp [dyE, Expr.val, flat3_eval h0 h1]

theorem integrate_value {s : BSpline ℝ} (h : TrajOn s 0 1 0) {f F : ℝ → ℝ} (hf : ∀ x, 0 ≤ x → x ≤ 1 → s.eval x = f x) (hc : Continuous f)
    (hF : ∀ x, HasDerivAt F (f x) x) (x0 : ℝ) {x : ℝ} (h0 : 0 ≤ x) (h1 : x ≤ 1) : (integrateOnce s x0 0 1).eval x = x0 + (F x - F 0) := by
  have := (C17_integrate_once s 0 1 h 1 one_pos x0 0 (by simp) (by simp)).2 x (by simpa using h0) (by simpa using h1)
  simp only [div_one] at this
  rw [this, intervalIntegral.integral_congr (g := f) fun u hu => ?_, intervalIntegral.integral_eq_sub_of_hasDerivAt (fun u _ => hF u) (hc.intervalIntegrable _ _)]
  rw [Set.uIcc_of_le h0] at hu
  exact hf u hu.1 (hu.2.trans h1)

theorem roll_far {dx : BSpline ℝ} (h : TrajOn dx 0 1 0) (hd : ∀ x, 0 ≤ x → x ≤ 1 → dx.eval x = rollV.eval x) :
    (integrateOnce dx 0 0 80).eval 1 = 4 := by
  have := (C17_integrate_once dx 0 1 h 80 (by norm_num) 0 0 (by norm_num) (by norm_num)).2 80 (by norm_num) (by norm_num)
  rw [div_self (by norm_num), zero_add] at this
  rw [this, intervalIntegral.integral_congr (g := fun u => 3 / 800 * u - 3 / 64000 * u ^ 2) fun u hu => ?_]
  · have i1 : IntervalIntegrable (fun u : ℝ => 3 / 800 * u) MeasureTheory.volume 0 80 := (by fun_prop : Continuous _).intervalIntegrable _ _
    have i2 : IntervalIntegrable (fun u : ℝ => 3 / 64000 * u ^ 2) MeasureTheory.volume 0 80 := (by fun_prop : Continuous _).intervalIntegrable _ _
    have j1 : ∫ u in (0 : ℝ)..80, 3 / 800 * u = 12 := by rw [intervalIntegral.integral_const_mul, integral_id]; norm_num
    have j2 : ∫ u in (0 : ℝ)..80, 3 / 64000 * u ^ 2 = 8 := by rw [intervalIntegral.integral_const_mul, integral_pow]; norm_num
    rw [intervalIntegral.integral_sub i1 i2, j1, j2]; norm_num
  · rw [Set.uIcc_of_le (by norm_num)] at hu
    have a0 : 0 ≤ u / 80 := by linarith [hu.1]
    have a1 : u / 80 ≤ 1 := by linarith [hu.2]
    show dx.eval (u / 80) = _
    rw [hd _ a0 a1, rollV_eval a0 a1]; ring

theorem still_on {dx : BSpline ℝ} (h : TrajOn dx 0 1 0) (hd : ∀ x, 0 ≤ x → x ≤ 1 → dx.eval x = 0) {x : ℝ} (h0 : 0 ≤ x) (h1 : x ≤ 1) :
    (integrateOnce dx 0 0 80).eval x = 0 := by
  have := (C17_integrate_once dx 0 1 h 80 (by norm_num) 0 0 (by norm_num) (by norm_num)).2 (80 * x) (by linarith) (by linarith)
  rw [mul_div_cancel_left₀ _ (by norm_num : (80 : ℝ) ≠ 0), zero_add] at this
  rw [this, intervalIntegral.integral_congr (g := fun _ => 0) fun u hu => ?_]
  · simp
  · rw [Set.uIcc_of_le (by linarith)] at hu
    exact hd _ (by linarith [hu.1]) (by linarith [hu.2])

/-- **C165** (the leading vehicle is not kept clear).  A disc of radius 1 pulls a trailer of radius 0.1
at a distance of 1.5, there is one obstacle, a disc of radius 0.1 that stands at (4, 0.5), and the
vehicle is also passed to the problem, as the example of the repository does.  A plan over 80 seconds,
from rest to rest, meets the limits of the vehicle and the trailer, all collision constraints of the
trailer (with the leading vehicle's, as called by the trailer) and, with the splines the problem gives the
vehicle itself, the limits and all collision constraints of the vehicle; both sets of splines start at
the given position at rest.  At its end the leading vehicle has run over the obstacle. -/
theorem C165_lead_vehicle_violated : ∃ (tt v tv vOwn tgOwn dx dy dxOwn dyOwn : BSpline ℝ) (line lineOwn : Hyp) (cs csOwn : List (Expr ℝ)),
    let obstacle := stillDisc 4 (1 / 2) (1 / 10)
    let trailer : Part := ⟨0, .circle (1 / 10)⟩
    let vehicle : Part := ⟨1, .circle 1⟩
    (dxE v tv).Runs (.spl dx) ∧ (dyE v tv).Runs (.spl dy) ∧ (dxE vOwn tgOwn).Runs (.spl dxOwn) ∧ (dyE vOwn tgOwn).Runs (.spl dyOwn) ∧
    (∀ e ∈ dubinsC (fun _ => none) v tv 80, e.Imposed 0) ∧ (∀ e ∈ trailerC (fun _ => none) (3 / 2) tt v tv 80, e.Imposed 0) ∧
    (∀ e ∈ dubinsC (fun _ => none) vOwn tgOwn 80, e.Imposed 0) ∧
    v.eval 0 = 0 ∧ v.eval 1 = 0 ∧ vOwn.eval 0 = 0 ∧ vOwn.eval 1 = 0 ∧ tv = tgOwn ∧
    envRun [trailer] [obstacle] (fun _ _ => line) (trailerOwn [trailer] [vehicle] (integrateOnce dx 0 0 80) (integrateOnce dy 0 0 80) tt tv (3 / 2) 0 0
      (fun _ _ => tt) (fun _ _ => tt)) = some cs ∧ (∀ e ∈ cs, e.Imposed 0) ∧
    envRun [vehicle] [obstacle] (fun _ _ => lineOwn) (dubinsOwn [vehicle] (integrateOnce dxOwn 0 0 80) (integrateOnce dyOwn 0 0 80) tgOwn 0
      (fun _ _ => tt)) = some csOwn ∧ (∀ e ∈ csOwn, e.Imposed 0) ∧
    let pos := wheeled (fun u => v.eval (u / 80) * (1 + tv.eval (u / 80) ^ 2)) (fun u => 2 * Real.arctan (tv.eval (u / 80))) (0, 0) 0 80
    pos = (4, 0) ∧ (!₂[4, 1 / 2] : Pt 2) ∈ placed !₂[pos.1, pos.2] (2 * Real.arctan (tv.eval 1)) vehicle.form.shape.region ∧
      (!₂[4, 1 / 2] : Pt 2) ∈ obstacle.regionAt 0 1 := by
  obtain ⟨dx, dy, r1, r2, b1, l1, b2, l2, ev⟩ := flat_runs (v := rollV) rfl rfl
  obtain ⟨dx', dy', r1', r2', b1', l1', b2', l2', ev'⟩ := flat_runs (v := flat3) rfl rfl
  have tv0 : Traj flat3 0 := (Bz_traj rfl).mono (Nat.zero_le _)
  have tr0 : Traj rollV 0 := (Bz_traj rfl).mono (Nat.zero_le _)
  have d1 := (runs_spl (n := 0) r1 ⟨tr0.trajOn, trivial, tv0.trajOn, tv0.trajOn⟩).1
  have d2 := (runs_spl (n := 0) r2 ⟨tr0.trajOn, trivial, tv0.trajOn⟩).1
  have d1' := (runs_spl (n := 0) r1' ⟨tv0.trajOn, trivial, tv0.trajOn, tv0.trajOn⟩).1
  have d2' := (runs_spl (n := 0) r2' ⟨tv0.trajOn, trivial, tv0.trajOn⟩).1
  have y0 : ∀ x, 0 ≤ x → x ≤ 1 → (integrateOnce dy 0 0 80).eval x = 0 := fun x h0 h1 => still_on d2 (fun x h0 h1 => (ev x h0 h1).2) h0 h1
  have x0' : ∀ x, 0 ≤ x → x ≤ 1 → (integrateOnce dx' 0 0 80).eval x = 0 := fun x h0 h1 =>
    still_on d1' (fun x h0 h1 => (ev' x h0 h1).1.trans (flat3_eval h0 h1)) h0 h1
  obtain ⟨ax, bx⟩ := integrateOnce_bz b1 l1 0 0 80
  obtain ⟨ay, by'⟩ := integrateOnce_bz b2 l2 0 0 80
  obtain ⟨ax', bx'⟩ := integrateOnce_bz b1' l1' 0 0 80
  obtain ⟨ay', by''⟩ := integrateOnce_bz b2' l2' 0 0 80
  obtain ⟨cs, hcs, himp⟩ := disc_env (obj := 0) (r := 1 / 10) (a0 := 0) (a1 := 1) (b := 3 / 10) (qx := 4) (qy := 1 / 2) (ro := 1 / 10)
    (offset := -(3 / 2)) (m := 0) (tg := .spl flat3) (fun _ _ => flat3) ax ay ⟨rfl, rfl⟩ (D := 17) (fun c rad => by
      simp only [Expr.bdeg, Option.some.injEq] at bx by'; simp [vehCon2, flatLine, Expr.bdeg, Expr.sub, Expr.sq, bx, by', flat3, Bz]) (by norm_num) (fun τ h0 h1 => flat3_eval h0 h1)
    (fun τ h0 h1 => by simp [Expr.val, y0 τ h0 h1]) (by norm_num) (by norm_num) (by norm_num)
  obtain ⟨cs', hcs', himp'⟩ := disc_env (obj := 1) (r := 1) (a0 := 1) (a1 := 0) (b := 2) (qx := 4) (qy := 1 / 2) (ro := 1 / 10)
    (offset := 0) (m := 0) (tg := .num 0) (fun _ _ => flat3) ax' ay' trivial (D := 11) (fun c rad => by
      simp only [Expr.bdeg, Option.some.injEq] at bx' by''; simp [vehCon2, flatLine, Expr.bdeg, Expr.sub, Expr.sq, bx', by'', Bz]) (by norm_num) (fun τ h0 h1 => rfl)
    (fun τ h0 h1 => by simp [Expr.val, x0' τ h0 h1]) (by norm_num) (by norm_num) (by norm_num)
  have hpos := wheeled_eq tr0 tv0 (T := 80) (by norm_num) r1 r2 (0, 0) (t0 := 0) (t := 80) le_rfl (by norm_num) (by norm_num) le_rfl
  rw [div_self (by norm_num)] at hpos
  simp only at hpos
  rw [roll_far d1 fun x h0 h1 => (ev x h0 h1).1, y0 1 zero_le_one le_rfl] at hpos
  refine ⟨flat3, rollV, flat3, flat3, flat3, dx, dy, dx', dy', flatLine 0 1 (3 / 10), flatLine 1 0 2, cs, cs', r1, r2, r1', r2',
    roll_imposed, roll_trailer, stay_imposed, ?_, ?_, ?_, ?_, rfl, ?_, himp, ?_, himp', hpos, ?_, ?_⟩
  · rw [rollV_eval le_rfl zero_le_one]; norm_num
  · rw [rollV_eval zero_le_one le_rfl]; norm_num
  · exact flat3_eval le_rfl zero_le_one
  · exact flat3_eval zero_le_one le_rfl
  · rw [C165_nothing_imposed_violated _ _ (by norm_num)]; exact hcs
  · rw [dubinsOwn_circle rfl]; exact hcs'
  · rw [hpos, flat3_eval zero_le_one le_rfl]
    refine ⟨!₂[0, 1 / 2], ⟨0, ?_, ?_⟩, ?_⟩
    · exact subset_convexHull ℝ _ (by simp [Form.shape, circle]; ext i; fin_cases i <;> simp)
    · simp [Form.shape, circle, EuclideanSpace.norm_eq, Fin.sum_univ_two]
      norm_num
    · ext i; fin_cases i <;> simp [rot]
  · refine ⟨0, ⟨0, ?_, ?_⟩, ?_⟩
    · exact subset_convexHull ℝ _ (by simp [stillDisc, circle]; ext i; fin_cases i <;> simp)
    · simp [stillDisc, circle]
    · ext i; fin_cases i <;> simp [rot, stillDisc, Expr.val]

theorem flatLine_on (a0 a1 b : ℝ) : (flatLine a0 a1 b).On 0 1 := ⟨Bz_on rfl, Bz_on rfl, Bz_on rfl, trivial⟩

theorem stillDisc_on (x y r : ℝ) : (stillDisc x y r).On 0 1 fun _ => 0 :=
  ⟨trivial, trivial, trivial, trivial, trivial, fun _ _ _ => by simp [stillDisc, Expr.val]⟩

/-- `C164_partial` applies: a disc of radius 0.1 drives from (0, 0) to (4, 0) below an obstacle. -/
example : ∃ dx dy, (dxE rollV flat3).Runs (.spl dx) ∧ (dyE rollV flat3).Runs (.spl dy) ∧
    ∃ cs, envRun [⟨0, .circle (1 / 10)⟩] [stillDisc 4 (1 / 2) (1 / 10)] (fun _ _ => flatLine 0 1 (3 / 10))
      (dubinsOwn [⟨0, .circle (1 / 10)⟩] (integrateOnce dx 0 0 80) (integrateOnce dy 0 0 80) flat3 0 fun _ _ => flat3) = some cs ∧
    (∀ e ∈ cs, e.Imposed 0) ∧
    Clear (circle (1 / 10)) !₂[4, 0] 0 (stillDisc 4 (1 / 2) (1 / 10)) 0 1 0 := by
  obtain ⟨dx, dy, r1, r2, b1, l1, b2, l2, ev⟩ := flat_runs (v := rollV) rfl rfl
  have tv0 : Traj flat3 0 := (Bz_traj rfl).mono (Nat.zero_le _)
  have tr0 : Traj rollV 0 := (Bz_traj rfl).mono (Nat.zero_le _)
  have d1 := (runs_spl (n := 0) r1 ⟨tr0.trajOn, trivial, tv0.trajOn, tv0.trajOn⟩).1
  have d2 := (runs_spl (n := 0) r2 ⟨tr0.trajOn, trivial, tv0.trajOn⟩).1
  have y0 : ∀ x, 0 ≤ x → x ≤ 1 → (integrateOnce dy 0 0 80).eval x = 0 := fun x h0 h1 => still_on d2 (fun x h0 h1 => (ev x h0 h1).2) h0 h1
  obtain ⟨ax, bx⟩ := integrateOnce_bz b1 l1 0 0 80
  obtain ⟨ay, by'⟩ := integrateOnce_bz b2 l2 0 0 80
  obtain ⟨cs, hcs, himp⟩ := disc_env (obj := 0) (r := 1 / 10) (a0 := 0) (a1 := 1) (b := 3 / 10) (qx := 4) (qy := 1 / 2) (ro := 1 / 10)
    (offset := 0) (m := 0) (tg := .num 0) (fun _ _ => flat3) ax ay trivial (D := 11) (fun c rad => by
      simp only [Expr.bdeg, Option.some.injEq] at bx by'; simp [vehCon2, flatLine, Expr.bdeg, Expr.sub, Expr.sq, bx, by', Bz]) (by norm_num)
    (fun τ h0 h1 => rfl) (fun τ h0 h1 => by simp [Expr.val, y0 τ h0 h1]) (by norm_num) (by norm_num) (by norm_num)
  have hpos := wheeled_eq tr0 tv0 (T := 80) (by norm_num) r1 r2 (0, 0) (t0 := 0) (t := 80) le_rfl (by norm_num) (by norm_num) le_rfl
  rw [div_self (by norm_num)] at hpos
  simp only at hpos
  rw [roll_far d1 fun x h0 h1 => (ev x h0 h1).1, y0 1 zero_le_one le_rfl] at hpos
  obtain ⟨cs', hcs', hall⟩ := C164_partial ⟨0, .circle (1 / 10)⟩ [stillDisc 4 (1 / 2) (1 / 10)] (fun _ _ => flatLine 0 1 (3 / 10)) (fun _ _ => 0)
    rollV flat3 dx dy tr0 tv0 80 (by norm_num) r1 r2 (0, 0) 0 le_rfl (by norm_num) 0 (fun _ _ => flat3) (fun _ _ => Bz_on rfl)
    (fun _ _ => flatLine_on _ _ _) (fun l o hl => by
      cases l with
      | zero => cases hl; exact stillDisc_on _ _ _
      | succ l => simp at hl)
  have same : cs' = cs := by rw [dubinsOwn_circle rfl] at hcs'; exact Option.some.inj (hcs'.symm.trans hcs)
  subst same
  refine ⟨dx, dy, r1, r2, cs', hcs', himp, ?_⟩
  obtain ⟨ε, -, hε, c⟩ := hall himp 80 (by norm_num) le_rfl 0 _ rfl rfl
  rw [hpos] at c
  simpa [hε le_rfl, Form.shape, flat3_eval zero_le_one le_rfl] using c

/-- `C165_trailer_partial` and `C165_shared_partial` apply: trailer and vehicle made of the same disc. -/
example : ∃ dx dy cs, (dxE rollV flat3).Runs (.spl dx) ∧ (dyE rollV flat3).Runs (.spl dy) ∧
    envRun [⟨0, .circle (1 / 10)⟩] [stillDisc 4 (1 / 2) (1 / 10)] (fun _ _ => flatLine 0 1 (3 / 10))
      (trailerOwn [⟨0, .circle (1 / 10)⟩] [⟨0, .circle (1 / 10)⟩] (integrateOnce dx 0 0 80) (integrateOnce dy 0 0 80) flat3 flat3 (3 / 2) 0 0
        (fun _ _ => flat3) fun _ _ => flat3) = some cs ∧ ∀ e ∈ cs, e.Imposed 0 := by
  obtain ⟨dx, dy, r1, r2, b1, l1, b2, l2, ev⟩ := flat_runs (v := rollV) rfl rfl
  have tv0 : Traj flat3 0 := (Bz_traj rfl).mono (Nat.zero_le _)
  have tr0 : Traj rollV 0 := (Bz_traj rfl).mono (Nat.zero_le _)
  have d2 := (runs_spl (n := 0) r2 ⟨tr0.trajOn, trivial, tv0.trajOn⟩).1
  have y0 : ∀ x, 0 ≤ x → x ≤ 1 → (integrateOnce dy 0 0 80).eval x = 0 := fun x h0 h1 => still_on d2 (fun x h0 h1 => (ev x h0 h1).2) h0 h1
  obtain ⟨ax, bx⟩ := integrateOnce_bz b1 l1 0 0 80
  obtain ⟨ay, by'⟩ := integrateOnce_bz b2 l2 0 0 80
  obtain ⟨cs, hcs, himp⟩ := disc_env (obj := 0) (r := 1 / 10) (a0 := 0) (a1 := 1) (b := 3 / 10) (qx := 4) (qy := 1 / 2) (ro := 1 / 10)
    (offset := 0) (m := 0) (tg := .num 0) (fun _ _ => flat3) ax ay trivial (D := 11) (fun c rad => by
      simp only [Expr.bdeg, Option.some.injEq] at bx by'; simp [vehCon2, flatLine, Expr.bdeg, Expr.sub, Expr.sq, bx, by', Bz]) (by norm_num)
    (fun τ h0 h1 => rfl) (fun τ h0 h1 => by simp [Expr.val, y0 τ h0 h1]) (by norm_num) (by norm_num) (by norm_num)
  obtain ⟨cs', hcs', himp'⟩ := disc_env (obj := 0) (r := 1 / 10) (a0 := 0) (a1 := 1) (b := 3 / 10) (qx := 4) (qy := 1 / 2) (ro := 1 / 10)
    (offset := -(3 / 2)) (m := 0) (tg := .spl flat3) (fun _ _ => flat3) ax ay ⟨rfl, rfl⟩ (D := 17) (fun c rad => by
      simp only [Expr.bdeg, Option.some.injEq] at bx by'; simp [vehCon2, flatLine, Expr.bdeg, Expr.sub, Expr.sq, bx, by', flat3, Bz]) (by norm_num)
    (fun τ h0 h1 => flat3_eval h0 h1) (fun τ h0 h1 => by simp [Expr.val, y0 τ h0 h1]) (by norm_num) (by norm_num) (by norm_num)
  simp only [envRun, collide2d_one, Option.map_some, Option.some.injEq] at hcs hcs'
  refine ⟨dx, dy, _, r1, r2, by
    simp only [envRun, trailerOwn, dubinsOwn_circle (part := ⟨0, .circle (1 / 10)⟩) rfl, collide2d_one, Option.bind_eq_bind, Option.bind_some,
      Option.pure_def, Option.map_some]; rfl, fun e he => ?_⟩
  rw [← List.append_assoc, hcs'] at he
  rcases List.mem_append.1 he with h | h
  · exact himp' e h
  · exact himp e (hcs ▸ List.mem_append_right _ h)

/-- `C164_several_shapes_violated` applies: two discs. -/
example (obs : List Obs) (hyp : ℕ → ℕ → Hyp) (e : ℕ → ℕ → BSpline ℝ) :
    envRun [⟨0, .circle 1⟩, ⟨1, .circle 1⟩] obs hyp (dubinsOwn [⟨0, .circle 1⟩, ⟨1, .circle 1⟩] rollV flat3 flat3 0 e) = none :=
  C164_several_shapes_violated _ (by simp) _ _ _ _ _ _ _

end Verif.Vehicles
