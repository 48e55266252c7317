import Verif.Collision.Props

/-! # The loops of `Environment` that create the collision constraints: model

`Environment.define_collision_constraints` (environment.py:102-146, one segment, plane) and
`Environment.define_intervehicle_collision_constraints` (environment.py:148-176, one segment, plane)
as functions from the data to the list of constraint expressions (all of the form `expr <= 0`). -/

namespace Verif.Collision

open Verif.Spline Expr

/-- A separating line `{'a': [a0, a1], 'b': b}`. -/
structure Hyp where
  a0 : Expr ℝ
  a1 : Expr ℝ
  b : Expr ℝ

/-- `{'a': [-a_i for a_i in a], 'b': -b}`, environment.py:171. -/
def Hyp.flip (h : Hyp) : Hyp := ⟨h.a0.neg, h.a1.neg, h.b.neg⟩

/-- The data of a vehicle that `Vehicle.define_collision_constraints_2d` uses: its shapes, and per
shape the position (`positions[s]`), heading (`tg_ha`) and offset; the option `safety_distance`; the
slack splines `eps_<s><k>`. -/
structure Veh where
  shapes : List (Shape 2)
  p0 : ℕ → Expr ℝ
  p1 : ℕ → Expr ℝ
  tg : Expr ℝ
  offset : ℝ
  sd : ℝ
  epsVar : ℕ → ℕ → BSpline ℝ

/-- `eps` for shape `s` and hyperplane `k`, vehicle.py:138-146. -/
noncomputable def Veh.eps (v : Veh) (s k : ℕ) : Expr ℝ :=
  if 0 < v.sd then .spl (v.epsVar s k) else .num 0

/-- Obstacle-avoidance part of `Vehicle.define_collision_constraints_2d`, vehicle.py:130-161. -/
noncomputable def Veh.cons (v : Veh) (hyps : ℕ → List Hyp) : List (Expr ℝ) :=
  v.shapes.zipIdx.flatMap fun (shape, s) =>
    (hyps s).zipIdx.flatMap fun (h, k) =>
      (if 0 < v.sd then [sub (v.eps s k) (num v.sd), neg (v.eps s k)] else []) ++
      shape.chk.map fun c =>
        vehCon2 h.a0 h.a1 h.b v.tg (v.p0 s) (v.p1 s) (v.eps s k) v.offset v.sd c shape.rad

/-- An obstacle: shape, predicted position, rotation splines, option `avoid`. -/
structure Obs where
  shape : Shape 2
  q0 : Expr ℝ
  q1 : Expr ℝ
  w : Expr ℝ
  co : Expr ℝ
  si : Expr ℝ
  avoid : Bool

/-- `Obstacle2D.define_collision_constraints`, obstacle.py:334-343. -/
noncomputable def Obs.cons (o : Obs) (hyps : List Hyp) : List (Expr ℝ) :=
  hyps.flatMap fun h => o.shape.chk.map fun c => obsCon2 h.a0 h.a1 h.b o.q0 o.q1 o.w o.co o.si c o.shape.rad

/-- `Environment.define_collision_constraints`, environment.py:111-146, for one segment: `hyp k l` is
the line created for vehicle shape `k` and obstacle `l`.  `hyp_obs[obstacle]` grows with every shape
and the obstacle's constraints are written again for all its lines so far. -/
noncomputable def envCons (v : Veh) (obs : List Obs) (hyp : ℕ → ℕ → Hyp) : List (Expr ℝ) :=
  (v.shapes.zipIdx.flatMap fun (_, k) => obs.zipIdx.flatMap fun (o, l) =>
    if o.avoid then
      normCon [(hyp k l).a0, (hyp k l).a1] :: o.cons ((List.range (k + 1)).map fun k' => hyp k' l)
    else []) ++
  v.cons fun k => (obs.zipIdx.filter fun (o, _) => o.avoid).map fun (_, l) => hyp k l

/-- The quadruples (vehicle, shape, vehicle, shape) visited in environment.py:152-164. -/
def interPairs (vs : List Veh) : List ((ℕ × ℕ) × (ℕ × ℕ)) :=
  vs.zipIdx.flatMap fun (v1, k) => (vs.zipIdx.drop (k + 1)).flatMap fun (v2, l) =>
    v1.shapes.zipIdx.flatMap fun (_, kk) => v2.shapes.zipIdx.map fun (_, ll) => ((k, kk), (l, ll))

/-- `hyp_veh[vehicle][shape]` after the loops, environment.py:151-171. -/
def interHyps (vs : List Veh) (hyp : ℕ × ℕ → ℕ × ℕ → Hyp) (v s : ℕ) : List Hyp :=
  (interPairs vs).filterMap fun q =>
    if q.1 = (v, s) then some (hyp q.1 q.2) else if q.2 = (v, s) then some (hyp q.1 q.2).flip else none

/-- `Environment.define_intervehicle_collision_constraints`, environment.py:148-176, one segment. -/
noncomputable def interCons (vs : List Veh) (hyp : ℕ × ℕ → ℕ × ℕ → Hyp) : List (Expr ℝ) :=
  ((interPairs vs).map fun q => normCon [(hyp q.1 q.2).a0, (hyp q.1 q.2).a1]) ++
  vs.zipIdx.flatMap fun (v, k) => v.cons (interHyps vs hyp k)

/-- Region of shape `s` of vehicle `v` at time `x`. -/
noncomputable def Veh.regionAt (v : Veh) (s : ℕ) (shape : Shape 2) (x : ℝ) : Set (Pt 2) :=
  placed (carried ((v.p0 s).val x) ((v.p1 s).val x) v.offset (heading (v.tg.val x)))
    (heading (v.tg.val x)) shape.region

/-- Region of an obstacle with orientation `φ` at time `x`. -/
noncomputable def Obs.regionAt (o : Obs) (φ x : ℝ) : Set (Pt 2) :=
  placed !₂[o.q0.val x, o.q1.val x] φ o.shape.region

/-- Cores of the same. -/
noncomputable def Veh.coreAt (v : Veh) (s : ℕ) (shape : Shape 2) (x : ℝ) : Set (Pt 2) :=
  placed (carried ((v.p0 s).val x) ((v.p1 s).val x) v.offset (heading (v.tg.val x)))
    (heading (v.tg.val x)) shape.core
noncomputable def Obs.coreAt (o : Obs) (φ x : ℝ) : Set (Pt 2) :=
  placed !₂[o.q0.val x, o.q1.val x] φ o.shape.core

/-! ## Well-formedness -/

/-- All splines of the vehicle live on `[lo, hi]`. -/
def Veh.On (v : Veh) (lo hi : ℝ) : Prop :=
  v.tg.On lo hi ∧ (∀ s, (v.p0 s).On lo hi) ∧ (∀ s, (v.p1 s).On lo hi) ∧
    ∀ s k, (Expr.spl (v.epsVar s k)).On lo hi

def Hyp.On (h : Hyp) (lo hi : ℝ) : Prop :=
  h.a0.On lo hi ∧ h.a1.On lo hi ∧ h.b.On lo hi ∧ h.a0.hasSpline

/-- All splines of the obstacle live on `[lo, hi]` and its `cos`, `sin`, `weight` describe a rotation
by the angle `φ` at every time. -/
def Obs.On (o : Obs) (lo hi : ℝ) (φ : ℝ → ℝ) : Prop :=
  o.q0.On lo hi ∧ o.q1.On lo hi ∧ o.w.On lo hi ∧ o.co.On lo hi ∧ o.si.On lo hi ∧
  ∀ x, lo ≤ x → x ≤ hi → 0 < o.w.val x ∧ o.co.val x = o.w.val x * Real.cos (φ x) ∧
      o.si.val x = o.w.val x * Real.sin (φ x)

/-! ## Helpers -/

theorem Veh.eps_on {v : Veh} {lo hi : ℝ} (h : v.On lo hi) (s k : ℕ) : (v.eps s k).On lo hi := by
  unfold Veh.eps
  split_ifs
  · exact h.2.2.2 s k
  · trivial

theorem mem_zipIdx' {α : Type*} {l : List α} {a : α} {i : ℕ} : (a, i) ∈ l.zipIdx ↔ l[i]? = some a :=
  List.mk_mem_zipIdx_iff_getElem?

/-- What the constraints of one vehicle give for one of its lines. -/
theorem Veh.cons_spec {v : Veh} {hyps : ℕ → List Hyp} {lo hi : ℝ} (hon : v.On lo hi)
    (himp : ∀ e ∈ v.cons hyps, e.Imposed 0) {s : ℕ} {shape : Shape 2} (hs : v.shapes[s]? = some shape)
    {k : ℕ} {h : Hyp} (hk : (hyps s)[k]? = some h) (hh : h.On lo hi) {x : ℝ} (h0 : lo ≤ x) (h1 : x ≤ hi) :
    (∀ c ∈ shape.chk, (vehCon2 h.a0 h.a1 h.b v.tg (v.p0 s) (v.p1 s) (v.eps s k) v.offset v.sd c
      shape.rad).val x ≤ 0) ∧
    (0 < v.sd → 0 ≤ (v.eps s k).val x ∧ (v.eps s k).val x ≤ v.sd) := by
  have hmem : ∀ e, e ∈ ((if 0 < v.sd then [sub (v.eps s k) (num v.sd), neg (v.eps s k)] else []) ++
      shape.chk.map fun c =>
        vehCon2 h.a0 h.a1 h.b v.tg (v.p0 s) (v.p1 s) (v.eps s k) v.offset v.sd c shape.rad) →
      e ∈ v.cons hyps := by
    intro e he
    exact List.mem_flatMap.2 ⟨(shape, s), mem_zipIdx'.2 hs,
      List.mem_flatMap.2 ⟨(h, k), mem_zipIdx'.2 hk, he⟩⟩
  obtain ⟨oa0, oa1, ob, hsp⟩ := hh
  have ot := hon.1
  have op0 := hon.2.1 s
  have op1 := hon.2.2.1 s
  have oe := Veh.eps_on hon s k
  constructor
  · intro c hc
    refine C53_imposed _ ?_ ?_ 0 (himp _ (hmem _ (List.mem_append_right _ (List.mem_map_of_mem hc)))) x h0 h1
    · simp [vehCon2, Expr.sub, Expr.sq, Expr.On, oa0, oa1, ob, ot, op0, op1, oe]
    · simp [vehCon2, Expr.sub, Expr.sq, Expr.hasSpline, hsp]
  · intro hsd
    have hes : (v.eps s k).hasSpline := by unfold Veh.eps; rw [if_pos hsd]; trivial
    have i1 := C53_imposed (sub (v.eps s k) (num v.sd)) ⟨oe, trivial⟩ (Or.inl hes) 0
      (himp _ (hmem _ (by rw [if_pos hsd]; simp))) x h0 h1
    have i2 := C53_imposed (neg (v.eps s k)) oe hes 0
      (himp _ (hmem _ (by rw [if_pos hsd]; simp))) x h0 h1
    simp only [Expr.sub, Expr.val] at i1 i2
    constructor <;> linarith

/-- The number of obstacles before number `l` that are to be avoided. -/
def avoidedBefore (obs : List Obs) (l : ℕ) : ℕ := (obs.take l).countP fun o => o.avoid

theorem avoid_getElem? (obs : List Obs) (n : ℕ) {l : ℕ} {o : Obs} (hl : obs[l]? = some o) (ha : o.avoid = true) :
    ((obs.zipIdx n).filter fun (o, _) => o.avoid)[avoidedBefore obs l]? = some (o, n + l) := by
  induction obs generalizing l n with
  | nil => simp at hl
  | cons o' obs ih =>
    cases l with
    | zero =>
      simp only [List.getElem?_cons_zero, Option.some.injEq] at hl
      subst hl
      simp [avoidedBefore, ha]
    | succ l =>
      simp only [List.getElem?_cons_succ] at hl
      have := ih (n + 1) hl
      unfold avoidedBefore at this ⊢
      rw [List.zipIdx_cons, List.take_succ_cons, List.countP_cons]
      by_cases h : o'.avoid = true
      · rw [List.filter_cons_of_pos (by simpa using h), if_pos h, List.getElem?_cons_succ, this]
        congr 2; omega
      · rw [List.filter_cons_of_neg (by simpa using h), if_neg h, add_zero, this]
        congr 2; omega

end Verif.Collision
