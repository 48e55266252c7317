import Verif.Problems.Drive
import Verif.Geometry.Shapes

/-! # A simulated flight from start to goal

The drive of C158 in space: `Holonomic3D` with a point-to-point problem with free end time in one cuboid room, with obstacles in space and planar obstacles
(which are walls or columns without end), the plan updated every `q` samples. -/

set_option linter.unusedSectionVars false

namespace Verif.Problems

open Verif.Spline Verif.Vehicles Verif.Collision Verif.Timing
open Verif.Geometry (amin amax rectVertices)
open Verif.Geometry.Shapes (twoFaces rot3 amin_spec amax_spec)

/-! ## Model -/

/-- What the user sets up: shapes and options of the vehicle (vehicle.py:76-99), bounds, the option `syslimit`, goal, and the room: the sides of the `Cuboid`
along its own axes, its roll, pitch and yaw, and its position. -/
structure Setup3 where
  shapes : List (Shape 3)
  sd : ℝ
  bounds : Bounds
  norm2 : Bool
  intervals : ℕ
  goal : Fin 3 → ℝ
  size : Fin 3 → ℝ
  turn : Fin 3 → ℝ
  room : Fin 3 → ℝ

/-- The vertices of the room: those of `Cuboid.get_vertices` (shape.py:419-435, `C151_cuboid`), turned in `Polyhedron3D.__init__` (shape.py:339-346). -/
noncomputable def Setup3.corners (S : Setup3) : List (Fin 3 → ℝ) :=
  (twoFaces (rectVertices (S.size 0) (S.size 1)) (S.size 2)).map fun v => (rot3 (S.turn 0) (S.turn 1) (S.turn 2)).mulVec ![v.1.1, v.1.2, v.2]

/-- `room_limits`, vehicle.py:222-225: `Polyhedron3D.get_canvas_limits` (shape.py:356-361) plus the position. -/
noncomputable def Setup3.lo (S : Setup3) (k : Fin 3) : ℝ := amin (S.corners.map fun v => v k) + S.room k
noncomputable def Setup3.hi (S : Setup3) (k : Fin 3) : ℝ := amax (S.corners.map fun v => v k) + S.room k

/-- A separating plane `{'a': [a0, a1, a2], 'b': b}`; for a planar obstacle `a 2` is not used. -/
structure Hyp3 where
  a : Fin 3 → Expr ℝ
  b : Expr ℝ

/-- An obstacle in a room in space: one in space (`Obstacle3D`: shape, predicted position, option `avoid`), or a planar one (`Obstacle2D`). -/
inductive Obs3 where
  | space (shape : Shape 3) (q : Fin 3 → Expr ℝ) (avoid : Bool)
  | upright (o : Obs)

def Obs3.avoid : Obs3 → Bool
  | .space _ _ a => a
  | .upright o => o.avoid

/-- `sum([a[p]*a[p] for p in range(obstacle.n_dim)])-1`, environment.py:132-133. -/
noncomputable def Obs3.norm : Obs3 → Hyp3 → Expr ℝ
  | .space _ _ _, h => normCon [h.a 0, h.a 1, h.a 2]
  | .upright _, h => normCon [h.a 0, h.a 1]

/-- `Obstacle3D.define_collision_constraints`, obstacle.py:528-533, and `Obstacle2D.define_collision_constraints`, obstacle.py:334-343. -/
noncomputable def Obs3.cons : Obs3 → List Hyp3 → List (Expr ℝ)
  | .space s q _, hyps => hyps.flatMap fun h => s.chk.map fun c => obsCon3 (h.a 0) (h.a 1) (h.a 2) h.b (q 0) (q 1) (q 2) c s.rad
  | .upright o, hyps => o.cons (hyps.map fun h => ⟨h.a 0, h.a 1, h.b⟩)

/-- `BSpline(basis, np.zeros(len(basis)))`, environment.py:135, on the basis of environment.py:107-112. -/
noncomputable def flat (n : ℕ) : BSpline ℝ := ⟨vehBasis 1 n, List.replicate (n + 1) 0⟩

/-- The third component of the normal as the vehicle gets it, environment.py:134-138. -/
noncomputable def Obs3.third (n : ℕ) : Obs3 → Hyp3 → Expr ℝ
  | .space _ _ _, h => h.a 2
  | .upright _, _ => .spl (flat n)

/-- The values of one solution of the optimisation problem, and the parameters for which it was solved. -/
structure Upd3 where
  T : ℝ
  x : Fin 3 → BSpline ℝ
  hyp : ℕ → ℕ → Hyp3
  eps : ℕ → ℕ → BSpline ℝ
  obs : List Obs3
  start : Holo 3

/-- `eps` for shape `s` and plane `k`, vehicle.py:205-216. -/
noncomputable def Setup3.eps (S : Setup3) (u : Upd3) (s k : ℕ) : Expr ℝ := if 0 < S.sd then .spl (u.eps s k) else .num 0

/-- Obstacle avoidance in `Vehicle.define_collision_constraints_3d`, vehicle.py:199-220: per shape the planes of the obstacles that are to be avoided. -/
noncomputable def Setup3.vehCons (S : Setup3) (u : Upd3) : List (Expr ℝ) :=
  S.shapes.zipIdx.flatMap fun (shape, s) =>
    (u.obs.zipIdx.filter fun (o, _) => o.avoid).zipIdx.flatMap fun (ol, k) =>
      (if 0 < S.sd then [.sub (S.eps u s k) (.num S.sd), .neg (S.eps u s k)] else []) ++
      shape.chk.map fun c => vehCon3 ((u.hyp s ol.2).a 0) ((u.hyp s ol.2).a 1) (ol.1.third S.intervals (u.hyp s ol.2)) (u.hyp s ol.2).b
        (.spl (u.x 0)) (.spl (u.x 1)) (.spl (u.x 2)) (S.eps u s k) S.sd c shape.rad

/-- `Environment.define_collision_constraints`, environment.py:102-146, one room, in space. -/
noncomputable def Setup3.envCons (S : Setup3) (u : Upd3) : List (Expr ℝ) :=
  (S.shapes.zipIdx.flatMap fun (_, k) => u.obs.zipIdx.flatMap fun (o, l) =>
    if o.avoid then o.norm (u.hyp k l) :: o.cons ((List.range (k + 1)).map fun k' => u.hyp k' l) else []) ++
  S.vehCons u

/-- All variables of `FreeTPoint2point` have values that meet all its constraints, point2point.py:31-66,288-311: splines of degree 3 on the basis of the vehicle
(holonomic3d.py:31, vehicle.py:94-99), limits (holonomic3d.py:44-71), obstacles, room (vehicle.py:222-232), start (`t0 = 0`) and end. -/
structure Solves3 (S : Setup3) (u : Upd3) : Prop where
  positive : (-u.T) ≤ 0
  form : ∀ i, ∃ c, c.length = S.intervals + 3 ∧ u.x i = ⟨vehBasis 3 S.intervals, c⟩
  planes : ∀ k l i, ((u.hyp k l).a i).On 0 1 ∧ ((u.hyp k l).a i).hasSpline
  offsets : ∀ k l, ((u.hyp k l).b).On 0 1
  slacks : ∀ s k, (Expr.spl (u.eps s k)).On 0 1
  limits : ∀ e ∈ (if S.norm2 then holo3Two S.bounds (u.x 0) (u.x 1) (u.x 2) u.T else holo3Inf S.bounds (u.x 0) (u.x 1) (u.x 2) u.T), e.Imposed 0
  avoid : ∀ e ∈ S.envCons u, e.Imposed 0
  inside : ∀ s ∈ S.shapes, ∀ e ∈ roomCons3 s (fun k => .spl (u.x k)) S.lo S.hi, e.Imposed 0
  starts : MeetsInit (holoInit u.x u.start u.T) (0 / u.T)
  ends : MeetsEnd (imposedFree false (holoTerm u.x S.goal 3))

/-! ## Specification -/

/-- What really is in the way: a body in space with its place at every time, or a planar shape with its place and angle that stands upright without end. -/
inductive Body where
  | space (shape : Shape 3) (pos : ℝ → Pt 3)
  | upright (m : Mover)

/-- The points of the core of the body at time `t`. -/
def Body.core (t : ℝ) : Body → Set (Pt 3)
  | .space s pos => shifted (pos t) s.core
  | .upright m => {p | (!₂[p 0, p 1] : Pt 2) ∈ placed (m.pos t) (m.angle t) m.shape.core}

def Body.rad : Body → ℝ
  | .space s _ => s.rad
  | .upright m => m.shape.rad

/-- The obstacle `o` as predicted at time `t0` by a plan of duration `T` is the body `w`, is to be avoided, and the body does for a time `d` what was predicted. -/
def Spec.Behaves (t0 d T : ℝ) : Obs3 → Body → Prop
  | .space s q a, .space s' pos => s = s' ∧ a = true ∧ (∀ i, (q i).On 0 1) ∧
      ∀ r, 0 ≤ r → r ≤ d → (!₂[(q 0).val (r / T), (q 1).val (r / T), (q 2).val (r / T)] : Pt 3) = pos (t0 + r)
  | .upright o, .upright m => o.shape = m.shape ∧ o.avoid = true ∧ ∃ φ : ℝ → ℝ, o.On 0 1 φ ∧
      ∀ r, 0 ≤ r → r ≤ d → (!₂[o.q0.val (r / T), o.q1.val (r / T)] : Pt 2) = m.pos (t0 + r) ∧ φ (r / T) = m.angle (t0 + r)
  | _, _ => False

def Spec.Predicted3 (world : List Body) (t0 d : ℝ) (u : Upd3) : Prop :=
  u.obs.length = world.length ∧ ∀ (l : ℕ) (o : Obs3) (w : Body), u.obs[l]? = some o → world[l]? = some w → Spec.Behaves t0 d u.T o w

/-- A cuboid with sides `size` along its own axes, turned by `turn` and put at `pos`. -/
def Spec.InCuboid (size turn pos : Fin 3 → ℝ) (p : Pt 3) : Prop :=
  ∃ w : Fin 3 → ℝ, (∀ k, |w k| ≤ size k / 2) ∧ ∀ k, p k = pos k + (rot3 (turn 0) (turn 1) (turn 2)).mulVec w k

/-- A safe motion during `[0, total]`. -/
structure Spec.Safe3 (S : Setup3) (world : List Body) (total : ℝ) (pos vel acc : ℝ → Fin 3 → ℝ) : Prop where
  moves : Spec.Moves total pos vel acc
  limit : ∀ t ∈ Set.Icc 0 total,
    if S.norm2 then vel t 0 ^ 2 + vel t 1 ^ 2 + vel t 2 ^ 2 ≤ lim S.bounds "vmax" (1 / 2) ^ 2 ∧
        acc t 0 ^ 2 + acc t 1 ^ 2 + acc t 2 ^ 2 ≤ lim S.bounds "amax" 1 ^ 2
    else ∀ i, (lim S.bounds "vmin" (-(1 / 2)) ≤ vel t i ∧ vel t i ≤ lim S.bounds "vmax" (1 / 2)) ∧
        lim S.bounds "amin" (-1) ≤ acc t i ∧ acc t i ≤ lim S.bounds "amax" 1
  room : ∀ t ∈ Set.Icc 0 total, ∀ s ∈ S.shapes, ∀ p ∈ shifted !₂[pos t 0, pos t 1, pos t 2] s.core, Spec.InCuboid S.size S.turn S.room p
  apart : ∀ t ∈ Set.Icc 0 total, ∀ s ∈ S.shapes, ∀ w ∈ world, ∀ p ∈ shifted !₂[pos t 0, pos t 1, pos t 2] s.core,
    ∀ p' ∈ w.core t, s.rad + w.rad ≤ dist p p'

/-! ## One plan -/

section Space
variable {S : Setup3} {u : Upd3}

theorem Solves3.traj (h : Solves3 S u) (hn : 1 ≤ S.intervals) (i : Fin 3) : Traj (u.x i) 2 := by
  obtain ⟨c, hc, e⟩ := h.form i
  rw [e]
  exact (vehBasis_traj (by omega) hn hc).mono (by omega)

theorem holo3Two_le {b : Bounds} {x y z : BSpline ℝ} {T : ℝ} (hT : 0 < T) (hx : Traj x 2) (hy : Traj y 2) (hz : Traj z 2)
    (hc : ∀ e ∈ holo3Two b x y z T, e.Imposed 0) {t : ℝ} (h0 : 0 ≤ t) (h1 : t ≤ T) :
    ((x.derivative 1).eval (t / T) / T) ^ 2 + ((y.derivative 1).eval (t / T) / T) ^ 2 + ((z.derivative 1).eval (t / T) / T) ^ 2
      ≤ lim b "vmax" (1 / 2) ^ 2 ∧
    ((x.derivative 2).eval (t / T) / T ^ 2) ^ 2 + ((y.derivative 2).eval (t / T) / T ^ 2) ^ 2 + ((z.derivative 2).eval (t / T) / T ^ 2) ^ 2
      ≤ lim b "amax" 1 ^ 2 := by
  simp only [holo3Two, List.forall_mem_cons] at hc
  have dx1 := (hx.iterate (n := 1) (m := 1)).on
  have dy1 := (hy.iterate (n := 1) (m := 1)).on
  have dz1 := (hz.iterate (n := 1) (m := 1)).on
  have dx2 := (hx.iterate (n := 2) (m := 0)).on
  have dy2 := (hy.iterate (n := 2) (m := 0)).on
  have dz2 := (hz.iterate (n := 2) (m := 0)).on
  have a1 := imposed_le hc.1 ⟨⟨⟨⟨dx1, dx1⟩, dy1, dy1⟩, dz1, dz1⟩, trivial⟩ (Or.inl (Or.inr (Or.inl trivial))) hT h0 h1
  have a2 := imposed_le hc.2.1 ⟨⟨⟨⟨dx2, dx2⟩, dy2, dy2⟩, dz2, dz2⟩, trivial⟩ (Or.inl (Or.inr (Or.inl trivial))) hT h0 h1
  simp only [Expr.val, Expr.sub, Expr.sq] at a1 a2
  constructor
  · rw [div_pow, div_pow, div_pow, ← add_div, ← add_div, div_le_iff₀ (by positivity)]; linarith
  · rw [div_pow, div_pow, div_pow, ← add_div, ← add_div, div_le_iff₀ (by positivity), ← pow_mul]; linarith

theorem Solves3.limits_at (h : Solves3 S u) (hx : ∀ i, Traj (u.x i) 2) (hT : 0 < u.T) {r : ℝ} (h0 : 0 ≤ r) (h1 : r ≤ u.T) :
    let vel := planVel u.x u.T r
    let acc := planAcc u.x u.T r
    if S.norm2 then vel 0 ^ 2 + vel 1 ^ 2 + vel 2 ^ 2 ≤ lim S.bounds "vmax" (1 / 2) ^ 2 ∧
        acc 0 ^ 2 + acc 1 ^ 2 + acc 2 ^ 2 ≤ lim S.bounds "amax" 1 ^ 2
    else ∀ i, (lim S.bounds "vmin" (-(1 / 2)) ≤ vel i ∧ vel i ≤ lim S.bounds "vmax" (1 / 2)) ∧
        lim S.bounds "amin" (-1) ≤ acc i ∧ acc i ≤ lim S.bounds "amax" 1 := by
  intro vel acc
  have hl := h.limits
  split_ifs at hl ⊢ with hb
  · exact holo3Two_le hT (hx 0) (hx 1) (hx 2) hl h0 h1
  · intro i
    refine axisC_le (hx i) hT (fun e he => hl e (List.mem_flatMap.2 ⟨u.x i, ?_, he⟩)) h0 h1
    fin_cases i <;> simp

/-- The limits of a room that is not turned. -/
theorem Setup3.lo_hi (S : Setup3) (hturn : S.turn = 0) (hsize : ∀ k, 0 ≤ S.size k) (k : Fin 3) :
    S.room k - S.size k / 2 ≤ S.lo k ∧ S.hi k ≤ S.room k + S.size k / 2 := by
  have hR : rot3 (S.turn 0) (S.turn 1) (S.turn 2) = 1 := by
    rw [hturn]
    ext i j
    fin_cases i <;> fin_cases j <;> simp [rot3]
  have hne : S.corners.map (fun v => v k) ≠ [] := by simp [Setup3.corners, twoFaces, rectVertices]
  have all : ∀ y ∈ S.corners.map (fun v => v k), |y| ≤ S.size k / 2 := by
    intro y hy
    simp only [Setup3.corners, hR, Matrix.one_mulVec, twoFaces, rectVertices, List.map_cons, List.map_nil, List.cons_append, List.nil_append,
      List.mem_cons, List.not_mem_nil, or_false] at hy
    have hk := hsize k
    rw [abs_le]
    rcases hy with rfl | rfl | rfl | rfl | rfl | rfl | rfl | rfl <;> fin_cases k <;> simp at hk ⊢ <;>
      first | linarith | (constructor <;> linarith)
  unfold Setup3.lo Setup3.hi
  have l := all _ (amin_spec _ hne).2
  have g := all _ (amax_spec _ hne).2
  rw [abs_le] at l g
  exact ⟨by linarith, by linarith⟩

theorem room_of3 (inside : ∀ s ∈ S.shapes, ∀ e ∈ roomCons3 s (fun k => .spl (u.x k)) S.lo S.hi, e.Imposed 0) (hx : ∀ i, Traj (u.x i) 2)
    (hturn : S.turn = 0) (hsize : ∀ k, 0 ≤ S.size k) (hT : 0 < u.T) {r : ℝ} (h0 : 0 ≤ r) (h1 : r ≤ u.T) : ∀ s ∈ S.shapes,
    ∀ p ∈ shifted !₂[planPos u.x u.T r 0, planPos u.x u.T r 1, planPos u.x u.T r 2] s.core, Spec.InCuboid S.size S.turn S.room p := fun s hs p hp => by
  have := C11_3d_partial s (fun k => .spl (u.x k)) S.lo S.hi 0 1 (fun k => (hx k).on) (fun _ => trivial) (inside s hs) (r / u.T)
    (div_nonneg h0 hT.le) ((div_le_one hT).2 h1) p hp
  have hR : rot3 (S.turn 0) (S.turn 1) (S.turn 2) = 1 := by
    rw [hturn]
    ext i j
    fin_cases i <;> fin_cases j <;> simp [rot3]
  refine ⟨fun k => p k - S.room k, fun k => ?_, fun k => ?_⟩
  · obtain ⟨a, b⟩ := S.lo_hi hturn hsize k
    rw [abs_le]
    constructor <;> linarith [(this k).1, (this k).2]
  · rw [hR, Matrix.one_mulVec]; ring

theorem Solves3.room_at (h : Solves3 S u) (hx : ∀ i, Traj (u.x i) 2) (hturn : S.turn = 0) (hsize : ∀ k, 0 ≤ S.size k) (hT : 0 < u.T) {r : ℝ}
    (h0 : 0 ≤ r) (h1 : r ≤ u.T) : ∀ s ∈ S.shapes,
    ∀ p ∈ shifted !₂[planPos u.x u.T r 0, planPos u.x u.T r 1, planPos u.x u.T r 2] s.core, Spec.InCuboid S.size S.turn S.room p :=
  room_of3 h.inside hx hturn hsize hT h0 h1

/-- Which plane of the vehicle belongs to obstacle `l`. -/
theorem kept_getElem? {α : Type} (f : α → Bool) : ∀ (l : List α) (n i : ℕ) (a : α), l[i]? = some a → f a = true →
    ∃ k : ℕ, ((l.zipIdx n).filter fun (o, _) => f o)[k]? = some (a, n + i)
  | [], _, _, _, h, _ => by simp at h
  | b :: l, n, 0, a, h, ha => by
    simp only [List.getElem?_cons_zero, Option.some.injEq] at h
    subst h
    exact ⟨0, by simp [ha]⟩
  | b :: l, n, i + 1, a, h, ha => by
    obtain ⟨k, hk⟩ := kept_getElem? f l (n + 1) i a (by simpa using h) ha
    rw [List.zipIdx_cons]
    by_cases hb : f b = true
    · refine ⟨k + 1, ?_⟩
      rw [List.filter_cons_of_pos (by simpa using hb), List.getElem?_cons_succ, hk]
      congr 2; omega
    · refine ⟨k, ?_⟩
      rw [List.filter_cons_of_neg (by simpa using hb), hk]
      congr 2; omega

theorem flat_zero (n : ℕ) (x : ℝ) : (flat n).eval x = 0 := by
  rw [BSpline.eval_eq (by show (List.replicate (n + 1) (0 : ℝ)).length = (vehBasis 1 n).len; rw [vehBasis_len, List.length_replicate])]
  refine Finset.sum_eq_zero fun i hi => ?_
  show (List.replicate (n + 1) (0 : ℝ)).getD i 0 * _ = 0
  rcases Nat.lt_or_ge i (n + 1) with h | h
  · rw [List.getD_replicate _ h, zero_mul]
  · rw [List.getD_eq_default _ _ (by simpa using h), zero_mul]

theorem flat_on (n : ℕ) (hn : 1 ≤ n) : (Expr.spl (flat n)).On 0 1 :=
  OnIntervals.on hn ⟨by show (List.replicate (n + 1) (0 : ℝ)).length = (vehBasis 1 n).len; rw [vehBasis_len, List.length_replicate], 1, 1, le_rfl, by omega, vehBasis_uni hn⟩

theorem apart_of3 (planes : ∀ k l i, ((u.hyp k l).a i).On 0 1 ∧ ((u.hyp k l).a i).hasSpline) (offsets : ∀ k l, ((u.hyp k l).b).On 0 1)
    (slacks : ∀ s k, (Expr.spl (u.eps s k)).On 0 1) (avoid : ∀ e ∈ S.envCons u, e.Imposed 0)
    (hn : 1 ≤ S.intervals) (hx : ∀ i, Traj (u.x i) 2) (hT : 0 < u.T) (hS : 0 ≤ S.sd) {world : List Body} {t0 d : ℝ}
    (hp : Spec.Predicted3 world t0 d u) {r : ℝ} (h0 : 0 ≤ r) (h1 : r ≤ u.T) (hd : r ≤ d) :
    ∀ s ∈ S.shapes, ∀ w ∈ world, ∀ p ∈ shifted !₂[planPos u.x u.T r 0, planPos u.x u.T r 1, planPos u.x u.T r 2] s.core,
    ∀ p' ∈ w.core (t0 + r), s.rad + w.rad ≤ dist p p' := by
  intro s hs w hw p hpp p' hpp'
  obtain ⟨k, hk⟩ := List.mem_iff_getElem?.1 hs
  obtain ⟨l, hl⟩ := List.mem_iff_getElem?.1 hw
  have hlen : l < u.obs.length := by rw [hp.1]; exact (List.getElem?_eq_some_iff.1 hl).1
  have hol := List.getElem?_eq_getElem hlen
  have hf := hp.2 l _ w hol hl
  set o := u.obs[l] with hodef
  have x0 : 0 ≤ r / u.T := div_nonneg h0 hT.le
  have x1 : r / u.T ≤ 1 := (div_le_one hT).2 h1
  have hav : o.avoid = true := by
    cases ho : o with
    | space s' q a =>
      rw [ho] at hf
      cases w with
      | space _ _ => exact hf.2.1
      | upright _ => exact hf.elim
    | upright o' =>
      rw [ho] at hf
      cases w with
      | space _ _ => exact hf.elim
      | upright _ => exact hf.2.1
  obtain ⟨kk, hkk⟩ := kept_getElem? Obs3.avoid u.obs 0 l o hol hav
  rw [Nat.zero_add] at hkk
  set hy := u.hyp k l with hydef
  have env : ∀ e, e ∈ (o.norm hy :: o.cons ((List.range (k + 1)).map fun k' => u.hyp k' l)) → e.Imposed 0 := fun e he => by
    refine avoid e (List.mem_append_left _ (List.mem_flatMap.2 ⟨(s, k), mem_zipIdx'.2 hk, List.mem_flatMap.2 ⟨(o, l), mem_zipIdx'.2 hol, ?_⟩⟩))
    show e ∈ (if o.avoid = true then _ else _)
    rw [if_pos hav]
    exact he
  have veh : ∀ e, e ∈ ((if 0 < S.sd then [Expr.sub (S.eps u k kk) (.num S.sd), Expr.neg (S.eps u k kk)] else []) ++
      s.chk.map fun c => vehCon3 (hy.a 0) (hy.a 1) (o.third S.intervals hy) hy.b
        (.spl (u.x 0)) (.spl (u.x 1)) (.spl (u.x 2)) (S.eps u k kk) S.sd c s.rad) → e.Imposed 0 := fun e he =>
    avoid e (List.mem_append_right _ (List.mem_flatMap.2 ⟨(s, k), mem_zipIdx'.2 hk, List.mem_flatMap.2 ⟨((o, l), kk), mem_zipIdx'.2 hkk, he⟩⟩))
  have vcon : ∀ c ∈ s.chk, (vehCon3 (hy.a 0) (hy.a 1) (o.third S.intervals hy) hy.b
        (.spl (u.x 0)) (.spl (u.x 1)) (.spl (u.x 2)) (S.eps u k kk) S.sd c s.rad).Imposed 0 := fun c hc =>
    veh _ (List.mem_append_right _ (List.mem_map_of_mem hc))
  have oe : (S.eps u k kk).On 0 1 := by
    unfold Setup3.eps
    split_ifs
    · exact slacks k kk
    · trivial
  have slack : 0 ≤ S.sd - (S.eps u k kk).val (r / u.T) := by
    rcases hS.eq_or_lt with hz | hz
    · unfold Setup3.eps
      rw [if_neg (by rw [← hz]; exact lt_irrefl _), ← hz]
      simp [Expr.val]
    · have hes : (S.eps u k kk).hasSpline := by unfold Setup3.eps; rw [if_pos hz]; trivial
      have i1 := C53_imposed (Expr.sub (S.eps u k kk) (.num S.sd)) ⟨oe, trivial⟩ (Or.inl hes) 0
        (veh _ (by rw [if_pos hz]; simp)) (r / u.T) x0 x1
      simp only [Expr.sub, Expr.val] at i1
      linarith
  have kin : k ∈ List.range (k + 1) := List.mem_range.2 (Nat.lt_succ_self k)
  have ha := planes k l
  have hb := offsets k l
  rw [← hydef] at ha hb
  cases ho : o with
  | space s' q a =>
    rw [ho] at hf env vcon
    cases w with
    | upright _ => exact hf.elim
    | space s'' pos =>
      obtain ⟨e1, -, e3, e4⟩ := hf
      subst e1
      have := C10_3d s s' (hy.a 0) (hy.a 1) (hy.a 2) hy.b (.spl (u.x 0)) (.spl (u.x 1)) (.spl (u.x 2)) (S.eps u k kk) (q 0) (q 1) (q 2) S.sd 0 1 (ha 0).2
        (by simp [(ha 0).1, (ha 1).1, (ha 2).1, hb, (hx 0).on, (hx 1).on, (hx 2).on, oe, e3])
        (env _ List.mem_cons_self) vcon
        (fun c hc => env _ (List.mem_cons_of_mem _ (List.mem_flatMap.2 ⟨hy, List.mem_map.2 ⟨k, kin, rfl⟩, List.mem_map_of_mem hc⟩))) (r / u.T) x0 x1
      have g := this.2 p hpp p' (by rw [e4 r h0 hd]; exact hpp')
      show s.rad + s'.rad ≤ _
      linarith
  | upright o' =>
    rw [ho] at hf env vcon
    cases w with
    | space _ _ => exact hf.elim
    | upright m =>
      obtain ⟨e1, -, φ, e3, e4⟩ := hf
      obtain ⟨oq0, oq1, ow, oc, os, hrot⟩ := e3
      have := C10_cylinder s o'.shape (hy.a 0) (hy.a 1) hy.b (.spl (u.x 0)) (.spl (u.x 1)) (.spl (u.x 2)) (S.eps u k kk) o'.q0 o'.q1 o'.w o'.co o'.si
        (.spl (flat S.intervals)) S.sd 0 1 φ (ha 0).2 (fun x => flat_zero _ x)
        (by simp [(ha 0).1, (ha 1).1, hb, (hx 0).on, (hx 1).on, (hx 2).on, oe, oq0, oq1, ow, oc, os, flat_on _ hn]) hrot
        (env _ List.mem_cons_self) vcon
        (fun c hc => env _ (List.mem_cons_of_mem _ (List.mem_flatMap.2 ⟨⟨hy.a 0, hy.a 1, hy.b⟩,
          List.mem_map.2 ⟨hy, List.mem_map.2 ⟨k, kin, rfl⟩, rfl⟩, List.mem_map_of_mem hc⟩))) (r / u.T) x0 x1
      have g := this.2 p hpp p' (by rw [(e4 r h0 hd).1, (e4 r h0 hd).2, e1]; exact hpp')
      show s.rad + m.shape.rad ≤ _
      rw [e1] at g
      linarith

theorem Solves3.apart_at (h : Solves3 S u) (hn : 1 ≤ S.intervals) (hx : ∀ i, Traj (u.x i) 2) (hT : 0 < u.T) (hS : 0 ≤ S.sd) {world : List Body} {t0 d : ℝ}
    (hp : Spec.Predicted3 world t0 d u) {r : ℝ} (h0 : 0 ≤ r) (h1 : r ≤ u.T) (hd : r ≤ d) :
    ∀ s ∈ S.shapes, ∀ w ∈ world, ∀ p ∈ shifted !₂[planPos u.x u.T r 0, planPos u.x u.T r 1, planPos u.x u.T r 2] s.core,
    ∀ p' ∈ w.core (t0 + r), s.rad + w.rad ≤ dist p p' :=
  apart_of3 h.planes h.offsets h.slacks h.avoid hn hx hT hS hp h0 h1 hd

end Space

/-! ## The property -/

/-- **C180** A simulated flight with updates every `q` samples, in which every optimisation problem is solved, every plan is at least as long as an update, every
update starts from the prediction, and the obstacles behave as predicted until the next update: there is one motion, of which the log is the sequence of samples,
that starts in the initial state, never jumps in position or velocity, respects the limits on velocity and acceleration at every instant, never comes closer to a
body or an upright column than the sum of the radii, and ends in standstill in the goal; and the hulls of the checkpoints stay in the room.  Missing from the full
statement: a room that is turned (`C180_turned_violated`), and the points within the radius of the checkpoints (`C11_3d_violated`). -/
theorem C180_flight_partial (S : Setup3) (hn : 1 ≤ S.intervals) (hturn : S.turn = 0) (hsize : ∀ k, 0 ≤ S.size k) (hsd : 0 ≤ S.sd)
    (Ts : ℝ) (hs : 0 < Ts) (q : ℕ) (hq : 1 ≤ q) (first : Upd3) (more : List Upd3)
    (solved : ∀ u ∈ first :: more, Solves3 S u) (long : ∀ u ∈ first :: more, q * Ts ≤ u.T)
    (predicted : ∀ s, Loop.run (q * Ts) Ts ((first :: more).map fun u => planCols Ts u.x u.T) = some s →
      ∀ (k : ℕ) (u : Upd3) (a : Holo 3), more[k]? = some u → s.seen[k]? = some a → u.start.state = a.state ∧ u.start.input = a.input)
    (world : List Body) (foreseen : ∀ (k : ℕ) (u : Upd3), (first :: more)[k]? = some u →
      Spec.Predicted3 world (k * (q * Ts)) (if k = more.length then u.T else q * Ts) u) :
    ∃ s, Loop.run (q * Ts) Ts ((first :: more).map fun u => planCols Ts u.x u.T) = some s ∧ ∃ pos vel acc : ℝ → Fin 3 → ℝ,
      let total := more.length * (q * Ts) + ((first :: more).getLast (List.cons_ne_nil _ _)).T
      Spec.Safe3 S world total pos vel acc ∧
      pos 0 = first.start.state ∧ vel 0 = first.start.input ∧
      pos total = S.goal ∧ vel total = (fun _ => 0) ∧
      s.log.length = (more.length + 1) * q + 1 ∧
      ∀ j, j ≤ (more.length + 1) * q → ∃ a, s.log[j]? = some (j * Ts, a) ∧ a.state = pos (j * Ts) ∧ a.input = vel (j * Ts) := by
  have hu : 0 < (q : ℝ) * Ts := mul_pos (by exact_mod_cast hq) hs
  have hT : ∀ c ∈ first :: more, 0 < c.T := fun c hc => hu.trans_le (long c hc)
  have hx : ∀ c ∈ first :: more, ∀ i, Traj (c.x i) 2 := fun c hc => (solved c hc).traj hn
  obtain ⟨s, hrun, pos, vel, acc, hm, p0, v0, p1, v1, hl, hlog, hall⟩ := drive Upd3.T Upd3.x Upd3.start S.goal 3 (by norm_num) Ts hs q hq first more hx
    (fun c hc => (solved c hc).starts) (fun c hc => (solved c hc).ends) long predicted
  refine ⟨s, hrun, pos, vel, acc, ⟨hm, ?_, ?_, ?_⟩, p0, v0, p1, v1, hl, hlog⟩
  · intro t ht
    obtain ⟨k, c, r, hk, -, h0, h1, -, -, ev, ea⟩ := hall t ht
    have hc := List.mem_of_getElem? hk
    rw [ev, ea]
    exact (solved c hc).limits_at (hx c hc) (hT c hc) h0 h1
  · intro t ht
    obtain ⟨k, c, r, hk, -, h0, h1, -, ep, -, -⟩ := hall t ht
    have hc := List.mem_of_getElem? hk
    rw [ep]
    exact (solved c hc).room_at (hx c hc) hturn hsize (hT c hc) h0 h1
  · intro t ht
    obtain ⟨k, c, r, hk, et, h0, h1, h2, ep, -, -⟩ := hall t ht
    have hc := List.mem_of_getElem? hk
    rw [ep, et]
    exact (solved c hc).apart_at hn (hx c hc) (hT c hc) hsd (foreseen k c hk) h0 h1 h2

/-! ## A case: a ball that waits and then flies past a ball and a column, planned twice; and the same in a room that is turned -/

section Case3

noncomputable def caseS3 (side yaw y : ℝ) : Setup3 := ⟨[sphere 1], 1 / 2, fun _ => none, false, 5, ![1, y, 0], fun _ => side, ![0, 0, yaw], 0⟩
noncomputable def caseU3 (y T : ℝ) : Upd3 where
  T := T
  x := ![go, lvl3 y, lvl3 0]
  hyp := fun _ _ => ⟨![.spl (lvl 0), .spl (lvl 1), .spl (lvl 0)], .spl (lvl (3 / 2))⟩
  eps := fun _ _ => lvl 0
  obs := [.space (sphere 1) ![.spl (lvl (1 / 2)), .spl (lvl 3), .spl (lvl 0)] true,
    .upright ⟨circle 1, .spl (lvl (1 / 2)), .spl (lvl 3), .num 1, .num 1, .num 0, true⟩]
  start := ⟨![0, y, 0], fun _ => 0, fun _ => 0⟩

theorem case3_avoid (side yaw : ℝ) {y : ℝ} (hy : y ≤ 0) (T : ℝ) : ∀ e ∈ (caseS3 side yaw y).envCons (caseU3 y T), e.Imposed 0 := by
  have o1 : ∀ c, (Expr.spl (lvl c)).OnIntervals 5 := fun c => on5 (d := 1) (by simp)
  have og : (Expr.spl go).OnIntervals 5 := on5 (d := 3) (by simp)
  have o3 : ∀ c, (Expr.spl (lvl3 c)).OnIntervals 5 := fun c => on5 (d := 3) (by simp)
  have v1 : ∀ c x, 0 ≤ x → x ≤ 1 → (lvl c).eval x = c := fun c x h0 h1 => level (d := 1) h0 h1
  have v3 : ∀ c x, 0 ≤ x → x ≤ 1 → (lvl3 c).eval x = c := fun c x h0 h1 => level (d := 3) h0 h1
  have d1 : ∀ c, (lvl c).basis.degree = 1 := fun _ => rfl
  have d3 : ∀ c, (lvl3 c).basis.degree = 3 := fun _ => rfl
  have dg : go.basis.degree = 3 := rfl
  have ef : flat 5 = lvl 0 := rfl
  have n2 : (normCon [.spl (lvl 0), .spl (lvl 1)]).Imposed 0 := by
    unfold normCon
    refine const_imposed (n := 5) (v := 0) (by norm_num) (by norm_num) ?_ ?_ ?_ ?_ (fun x h0 h1 => ?_) le_rfl
    · simp [Expr.sub, Expr.OnIntervals]; simpa [Expr.OnIntervals] using ⟨o1 0, o1 1⟩
    · simp [Expr.sub, Expr.totalDegree, d1]
    · simp [Expr.sub, Expr.totalDegree, d1]
    · simp [Expr.sub, Expr.hasSpline]
    · simp [Expr.sub, Expr.val, v1 _ x h0 h1]
  have n3 : (normCon [.spl (lvl 0), .spl (lvl 1), .spl (lvl 0)]).Imposed 0 := by
    unfold normCon
    refine const_imposed (n := 5) (v := 0) (by norm_num) (by norm_num) ?_ ?_ ?_ ?_ (fun x h0 h1 => ?_) le_rfl
    · simp [Expr.sub, Expr.OnIntervals]; simpa [Expr.OnIntervals] using ⟨⟨o1 0, o1 1⟩, o1 0⟩
    · simp [Expr.sub, Expr.totalDegree, d1]
    · simp [Expr.sub, Expr.totalDegree, d1]
    · simp [Expr.sub, Expr.hasSpline]
    · simp [Expr.sub, Expr.val, v1 _ x h0 h1]
  have b2 : (obsCon2 (.spl (lvl 0)) (.spl (lvl 1)) (.spl (lvl (3 / 2))) (.spl (lvl (1 / 2))) (.spl (lvl 3)) (.num 1) (.num 1) (.num 0) !₂[0, 0] 1).Imposed 0 := by
    refine const_imposed (n := 5) (v := -(1 / 2)) (by norm_num) (by norm_num) ?_ ?_ ?_ ?_ (fun x h0 h1 => ?_) (by norm_num)
    · simpa [obsCon2, Expr.sub, Expr.OnIntervals] using ⟨⟨⟨o1 0, o1 _⟩, o1 1, o1 3⟩, o1 (3 / 2)⟩
    · simp [obsCon2, Expr.sub, Expr.totalDegree, d1]
    · simp [obsCon2, Expr.sub, Expr.totalDegree, d1]
    · simp [obsCon2, Expr.sub, Expr.hasSpline]
    · simp [obsCon2, Expr.sub, Expr.val, v1 _ x h0 h1]; norm_num
  have b3 : (obsCon3 (.spl (lvl 0)) (.spl (lvl 1)) (.spl (lvl 0)) (.spl (lvl (3 / 2))) (.spl (lvl (1 / 2))) (.spl (lvl 3)) (.spl (lvl 0)) !₂[0, 0, 0] 1).Imposed 0 := by
    refine const_imposed (n := 5) (v := -(1 / 2)) (by norm_num) (by norm_num) ?_ ?_ ?_ ?_ (fun x h0 h1 => ?_) (by norm_num)
    · simpa [obsCon3, Expr.sub, Expr.OnIntervals] using ⟨⟨⟨⟨o1 0, o1 _⟩, o1 1, o1 3⟩, o1 0⟩, o1 (3 / 2)⟩
    · simp [obsCon3, Expr.sub, Expr.totalDegree, d1]
    · simp [obsCon3, Expr.sub, Expr.totalDegree, d1]
    · simp [obsCon3, Expr.sub, Expr.hasSpline]
    · simp [obsCon3, Expr.sub, Expr.val, v1 _ x h0 h1]; norm_num
  have e1 : (Expr.sub (.spl (lvl 0)) (.num (1 / 2))).Imposed 0 := by
    refine const_imposed (n := 5) (v := -(1 / 2)) (by norm_num) (by norm_num) ?_ ?_ ?_ ?_ (fun x h0 h1 => ?_) (by norm_num)
    · simpa [Expr.sub, Expr.OnIntervals] using o1 0
    · simp [Expr.sub, Expr.totalDegree, d1]
    · simp [Expr.sub, Expr.totalDegree, d1]
    · simp [Expr.sub, Expr.hasSpline]
    · simp [Expr.sub, Expr.val, v1 _ x h0 h1]
  have e2 : (Expr.neg (.spl (lvl 0))).Imposed 0 := by
    refine const_imposed (n := 5) (v := 0) (by norm_num) (by norm_num) ?_ ?_ ?_ ?_ (fun x h0 h1 => ?_) le_rfl
    · simpa [Expr.sub, Expr.OnIntervals] using o1 0
    · simp [Expr.totalDegree, d1]
    · simp [Expr.totalDegree, d1]
    · simp [Expr.hasSpline]
    · simp [Expr.val, v1 _ x h0 h1]
  have vv : (vehCon3 (.spl (lvl 0)) (.spl (lvl 1)) (.spl (lvl 0)) (.spl (lvl (3 / 2))) (.spl go) (.spl (lvl3 y)) (.spl (lvl3 0)) (.spl (lvl 0)) (1 / 2)
      !₂[0, 0, 0] 1).Imposed 0 := by
    refine const_imposed (n := 5) (v := y) (by norm_num) (by norm_num) ?_ ?_ ?_ ?_ (fun x h0 h1 => ?_) hy
    · simpa [vehCon3, Expr.sub, Expr.OnIntervals] using ⟨⟨⟨⟨⟨o1 0, og⟩, o1 1, o3 y⟩, o1 0, o3 0⟩, o1 (3 / 2)⟩, o1 0⟩
    · simp [vehCon3, Expr.sub, Expr.totalDegree, d1, d3, dg]
    · simp [vehCon3, Expr.sub, Expr.totalDegree, d1, d3, dg]
    · simp [vehCon3, Expr.sub, Expr.hasSpline]
    · simp [vehCon3, Expr.sub, Expr.val, v1 _ x h0 h1, v3 _ x h0 h1]; ring
  have h12 : (0 : ℝ) < 1 / 2 := by norm_num
  intro e he
  simp only [Setup3.envCons, Setup3.vehCons, Setup3.eps, caseS3, caseU3, List.zipIdx_cons, List.zipIdx_nil, List.flatMap_cons, List.flatMap_nil, Obs3.avoid,
    Obs3.norm, Obs3.cons, Obs.cons, Obs3.third, sphere, circle, if_true, h12, List.range_succ, List.range_zero, List.nil_append, List.map_cons, List.map_nil,
    List.append_nil, List.filter_cons_of_pos, List.filter_nil, ef, Matrix.cons_val_zero, Matrix.cons_val_one, Matrix.cons_val,
    List.mem_cons, List.not_mem_nil, or_false, List.cons_append] at he
  rcases he with rfl | rfl | rfl | rfl | rfl | rfl | rfl | rfl | rfl | rfl
  · exact n3
  · exact b3
  · exact n2
  · exact b2
  · exact e1
  · exact e2
  · exact vv
  · exact e1
  · exact e2
  · exact vv

theorem case3_solves : ∃ T0, 0 < T0 ∧ ∀ side yaw y, y ≤ 0 → (caseS3 side yaw y).lo 0 ≤ 0 → 1 ≤ (caseS3 side yaw y).hi 0 →
    (caseS3 side yaw y).lo 1 ≤ y → y ≤ (caseS3 side yaw y).hi 1 → (caseS3 side yaw y).lo 2 ≤ 0 → 0 ≤ (caseS3 side yaw y).hi 2 →
    ∀ T, T0 ≤ T → Solves3 (caseS3 side yaw y) (caseU3 y T) := by
  obtain ⟨c1, c2, c3, l1, l2, l3, g1, g2, g3, z1, f1, f2, f3⟩ := go_facts
  obtain ⟨U, U0, hU⟩ := list_bound (c1 ++ c2)
  have vf := fun {d : ℕ} {c : List ℝ} (h : c.length = 5 + d) => GCode.RingGuess.veh_first (d := d) (n := 5) (by norm_num) h
  have zmem : ∀ {l : List ℝ} {n : ℕ}, l.length = n → (∀ j, j < n → l.getD j 0 = 0) → ∀ a ∈ l, a = 0 := fun hl hz a ha => by
    obtain ⟨j, hj, rfl⟩ := List.mem_iff_getElem.1 ha
    have := hz j (by omega)
    rwa [List.getD_eq_getElem _ _ hj] at this
  have flatAxis : ∀ (c T : ℝ), 1 ≤ T → ∀ e ∈ axisC (lvl3 c) T (-(1 / 2)) (1 / 2) (-1) 1, e.Imposed 0 := by
    intro c T hT e he
    obtain ⟨k1, k2, k3, m1, m2, m3, h1, h2, h3, y1, y2, y3⟩ := lvl3_facts c
    have k1z := zmem m1 y1
    have k2z := zmem m2 y2
    simp only [axisC, h1, h2, List.mem_cons, List.not_mem_nil, or_false] at he
    rcases he with rfl | rfl | rfl | rfl
    · exact geC_imposed fun a ha => by rw [k1z a ha]; linarith
    · exact leC_imposed fun a ha => by rw [k1z a ha]; linarith
    · exact geC_imposed fun a ha => by rw [k2z a ha]; nlinarith
    · exact leC_imposed fun a ha => by rw [k2z a ha]; nlinarith
  have flatInit : ∀ c : ℝ, (lvl3 c).eval 0 = c ∧ ((lvl3 c).derivative 1).eval 0 = 0 := fun c => by
    obtain ⟨k1, k2, k3, m1, m2, m3, h1, h2, h3, y1, y2, y3⟩ := lvl3_facts c
    exact ⟨level (d := 3) le_rfl zero_le_one, by rw [h1, (vf m1).1, y1 0 (by norm_num)]⟩
  have flatEnd : ∀ c : ℝ, (lvl3 c).eval 1 = c ∧ ∀ d, 1 ≤ d → d ≤ 3 → ((lvl3 c).derivative d).eval 1 = 0 := fun c => by
    obtain ⟨k1, k2, k3, m1, m2, m3, h1, h2, h3, y1, y2, y3⟩ := lvl3_facts c
    refine ⟨level (d := 3) zero_le_one le_rfl, fun d d0 d1 => ?_⟩
    interval_cases d
    · rw [h1, (vf m1).2]; exact y1 6 (by norm_num)
    · rw [h2, (vf m2).2]; exact y2 5 (by norm_num)
    · rw [h3, (vf m3).2]; exact y3
  refine ⟨2 * U + 1, by linarith, fun side yaw y hy r1 r2 r3 r4 r5 r6 T hT0 => ?_⟩
  have hT : (1 : ℝ) ≤ T := by linarith
  have hT2 : U ≤ T ^ 2 := by nlinarith
  refine ⟨?_, ?_, ?_, ?_, ?_, ?_, case3_avoid side yaw hy _, ?_, ?_, ?_⟩
  · show -T ≤ 0; linarith
  · intro i
    fin_cases i
    · exact ⟨_, by simp [caseS3], rfl⟩
    · exact ⟨_, by simp [caseS3], rfl⟩
    · exact ⟨_, by simp [caseS3], rfl⟩
  · intro _ _ i
    fin_cases i
    · exact ⟨lvl_on 0, trivial⟩
    · exact ⟨lvl_on 1, trivial⟩
    · exact ⟨lvl_on 0, trivial⟩
  · exact fun _ _ => lvl_on _
  · exact fun _ _ => lvl_on 0
  · show ∀ e ∈ holo3Inf (fun _ => none) go (lvl3 y) (lvl3 0) T, e.Imposed 0
    intro e he
    have b1 : ∀ a ∈ c1, -U ≤ a ∧ a ≤ U := fun a ha => abs_le.1 (hU a (List.mem_append_left _ ha))
    have b2 : ∀ a ∈ c2, -U ≤ a ∧ a ≤ U := fun a ha => abs_le.1 (hU a (List.mem_append_right _ ha))
    simp only [holo3Inf, lim, List.flatMap_cons, List.flatMap_nil, List.append_nil, List.mem_append, Option.getD_none] at he
    rcases he with he | he | he
    · simp only [axisC, g1, g2, List.mem_cons, List.not_mem_nil, or_false] at he
      rcases he with rfl | rfl | rfl | rfl
      · exact geC_imposed fun a ha => by linarith [(b1 a ha).1]
      · exact leC_imposed fun a ha => by linarith [(b1 a ha).2]
      · exact geC_imposed fun a ha => by linarith [(b2 a ha).1]
      · exact leC_imposed fun a ha => by linarith [(b2 a ha).2]
    · exact flatAxis y T hT e he
    · exact flatAxis 0 T hT e he
  · intro s hs e he
    rw [show (caseS3 side yaw y).shapes = [sphere 1] from rfl, List.mem_singleton] at hs
    subst hs
    have hg : ∀ a ∈ go.coeffs, 0 ≤ a ∧ a ≤ 1 := fun a ha => by simp [go] at ha; rcases ha with rfl | rfl <;> norm_num
    have hl : ∀ c, ∀ a ∈ (lvl3 c).coeffs, a = c := fun c a ha => by simp [lvl3] at ha; exact ha
    obtain ⟨c, hc, he⟩ := List.mem_flatMap.1 he
    have hc0 : c = !₂[0, 0, 0] := by simpa [sphere] using hc
    obtain ⟨k, -, he⟩ := List.mem_flatMap.1 he
    have ck : c k = 0 := by rw [hc0]; fin_cases k <;> rfl
    rw [ck] at he
    simp only [List.mem_cons, List.not_mem_nil, or_false] at he
    rcases he with rfl | rfl <;> fin_cases k
    · exact low_imposed fun a ha => by have := (hg a ha).1; simp only [Fin.zero_eta]; linarith
    · exact low_imposed fun a ha => by rw [hl y a ha]; simp only [Fin.mk_one]; linarith
    · exact low_imposed fun a ha => by rw [hl 0 a ha]; simp only [Fin.reduceFinMk]; linarith
    · exact high_imposed fun a ha => by have := (hg a ha).2; simp only [Fin.zero_eta]; linarith
    · exact high_imposed fun a ha => by rw [hl y a ha]; simp only [Fin.mk_one]; linarith
    · exact high_imposed fun a ha => by rw [hl 0 a ha]; simp only [Fin.reduceFinMk]; linarith
  · show MeetsInit (holoInit ![go, lvl3 y, lvl3 0] ⟨![0, y, 0], fun _ => 0, fun _ => 0⟩ T) (0 / T)
    rw [zero_div]
    intro c hc
    simp [holoInit] at hc
    rcases hc with rfl | rfl | rfl | rfl | rfl | rfl
    · exact (vf (d := 3) (c := [0, 0, 0, 0, 1, 1, 1, 1]) rfl).1
    · exact (flatInit y).1
    · exact (flatInit 0).1
    · show (go.derivative 1).eval 0 = 0
      rw [g1, (vf l1).1, z1 0 (by norm_num)]
    · exact (flatInit y).2
    · exact (flatInit 0).2
  · have ends : ∀ d, 1 ≤ d → d ≤ 3 → (go.derivative d).eval 1 = 0 := by
      intro d d0 d1
      interval_cases d
      · rw [g1, (vf l1).2]; exact f1
      · rw [g2, (vf l2).2]; exact f2
      · rw [g3, (vf l3).2]; exact f3
    have e1 : go.eval 1 = 1 := (vf (d := 3) (c := [0, 0, 0, 0, 1, 1, 1, 1]) rfl).2
    intro c hc
    simp only [imposedFree, holoTerm, Bool.false_eq_true, if_false, List.mem_append, List.mem_flatMap, List.mem_range,
      List.mem_ofFn', Set.mem_range] at hc
    rcases hc with ⟨i, rfl⟩ | ⟨d, hd', i, rfl⟩
    · fin_cases i
      · exact e1
      · exact (flatEnd y).1
      · exact (flatEnd 0).1
    · fin_cases i
      · exact ends (d + 1) (by omega) (by omega)
      · exact (flatEnd y).2 (d + 1) (by omega) (by omega)
      · exact (flatEnd 0).2 (d + 1) (by omega) (by omega)

/-- The limits of a room reach its corners. -/
theorem Setup3.reach (S : Setup3) {v : Fin 3 → ℝ} (h : v ∈ S.corners) (k : Fin 3) : S.lo k ≤ v k + S.room k ∧ v k + S.room k ≤ S.hi k := by
  have hm : v k ∈ S.corners.map fun v => v k := List.mem_map_of_mem h
  have hne : S.corners.map (fun v => v k) ≠ [] := List.ne_nil_of_mem hm
  exact ⟨add_le_add ((amin_spec _ hne).1 _ hm) le_rfl, add_le_add ((amax_spec _ hne).1 _ hm) le_rfl⟩

theorem case3_corner (side yaw y a b c : ℝ) (ha : a = side / 2 ∨ a = -(side / 2)) (hb : b = side / 2 ∨ b = -(side / 2))
    (hc : c = -0.5 * side ∨ c = -0.5 * side + side) :
    ![Real.cos yaw * a - Real.sin yaw * b, Real.sin yaw * a + Real.cos yaw * b, c] ∈ (caseS3 side yaw y).corners := by
  refine List.mem_map.2 ⟨((a, b), c), ?_, ?_⟩
  · show _ ∈ twoFaces (rectVertices side side) side
    simp only [twoFaces, rectVertices, List.map_cons, List.map_nil, List.cons_append, List.nil_append, List.mem_cons, List.not_mem_nil, or_false]
    rcases ha with rfl | rfl <;> rcases hb with rfl | rfl <;> rcases hc with rfl | rfl <;> simp
  · ext k
    fin_cases k <;> simp [caseS3, rot3, Matrix.mulVec, dotProduct, Fin.sum_univ_three] <;> ring

/-- **C180** In a room that is turned only the box around it counts: a room of side 2, turned by 45 degrees; all constraints are met by a plan that ends outside
the room. -/
theorem C180_turned_violated : ∃ (S : Setup3) (u : Upd3), Solves3 S u ∧ 0 < u.T ∧ 1 ≤ S.intervals ∧ 0 ≤ S.sd ∧ (∀ k, 0 < S.size k) ∧
    ∃ s ∈ S.shapes, ∃ p ∈ shifted !₂[planPos u.x u.T u.T 0, planPos u.x u.T u.T 1, planPos u.x u.T u.T 2] s.core,
      ¬ Spec.InCuboid S.size S.turn S.room p := by
  obtain ⟨T, hT, hsol⟩ := case3_solves
  have hs2 : (0 : ℝ) ≤ Real.sqrt 2 := Real.sqrt_nonneg 2
  have hsq : Real.sqrt 2 * Real.sqrt 2 = 2 := Real.mul_self_sqrt (by norm_num)
  have hs1 : (1 : ℝ) ≤ Real.sqrt 2 := by nlinarith
  have hcos : Real.cos (Real.pi / 4) = Real.sqrt 2 / 2 := Real.cos_pi_div_four
  have hsin : Real.sin (Real.pi / 4) = Real.sqrt 2 / 2 := Real.sin_pi_div_four
  have A := case3_corner 2 (Real.pi / 4) (-1) 1 (-1) (-1) (Or.inl (by norm_num)) (Or.inr (by norm_num)) (Or.inl (by norm_num))
  have B := case3_corner 2 (Real.pi / 4) (-1) (-1) (-1) 1 (Or.inr (by norm_num)) (Or.inr (by norm_num)) (Or.inr (by norm_num))
  have C := case3_corner 2 (Real.pi / 4) (-1) 1 1 1 (Or.inl (by norm_num)) (Or.inl (by norm_num)) (Or.inr (by norm_num))
  rw [hcos, hsin] at A B C
  have room0 : ∀ k, (caseS3 2 (Real.pi / 4) (-1)).room k = 0 := fun k => rfl
  have a0 := Setup3.reach _ A 0
  have a2 := Setup3.reach _ A 2
  have b0 := Setup3.reach _ B 0
  have b1 := Setup3.reach _ B 1
  have b2 := Setup3.reach _ B 2
  have c1 := Setup3.reach _ C 1
  rw [room0] at a0 a2 b0 b1 b2 c1
  simp only [Matrix.cons_val_zero, Matrix.cons_val_one, Matrix.cons_val] at a0 a2 b0 b1 b2 c1
  refine ⟨caseS3 2 (Real.pi / 4) (-1), caseU3 (-1) T, hsol 2 _ (-1) (by norm_num) (by linarith [b0.1]) (by linarith [a0.2]) (by linarith [b1.1]) (by linarith [c1.2])
    (by linarith [a2.1]) (by linarith [b2.2]) T le_rfl, hT, by simp [caseS3], by simp [caseS3], fun k => by simp [caseS3], sphere 1, by simp [caseS3], ?_⟩
  refine ⟨_, ⟨!₂[0, 0, 0], subset_convexHull ℝ _ (by simp [sphere]), rfl⟩, ?_⟩
  rintro ⟨w, hw, e⟩
  have g1 : planPos (caseU3 (-1) T).x T T 0 = 1 := by
    unfold planPos
    rw [div_self hT.ne']
    exact (GCode.RingGuess.veh_first (d := 3) (n := 5) (by norm_num) (c := [0, 0, 0, 0, 1, 1, 1, 1]) rfl).2
  have g2 : planPos (caseU3 (-1) T).x T T 1 = -1 := by
    unfold planPos
    rw [div_self hT.ne']
    exact level (d := 3) zero_le_one le_rfl
  have e0 := e 0
  have e1 := e 1
  simp only [PiLp.add_apply] at e0 e1
  have e0' : planPos (caseU3 (-1) T).x T T 0 + 0 = 0 + (rot3 0 0 (Real.pi / 4)).mulVec w 0 := e0
  have e1' : planPos (caseU3 (-1) T).x T T 1 + 0 = 0 + (rot3 0 0 (Real.pi / 4)).mulVec w 1 := e1
  rw [g1] at e0'
  rw [g2] at e1'
  simp [rot3, Matrix.mulVec, dotProduct, Fin.sum_univ_three, hcos, hsin] at e0' e1'
  have := abs_le.1 (hw 1)
  simp only [caseS3] at this
  nlinarith

-- two plans, updated after one of five intervals: the flight is safe and arrives
example : ∃ (T : ℝ) (s : Loop ℝ (Holo 3)), 0 < T ∧
    Loop.run ((1 : ℕ) * (T / 5)) (T / 5) ([caseU3 0 T, caseU3 0 T].map fun u => planCols (T / 5) u.x u.T) = some s ∧
    ∃ pos vel acc : ℝ → Fin 3 → ℝ, Spec.Safe3 (caseS3 20 0 0) [.space (sphere 1) fun _ => !₂[1 / 2, 3, 0], .upright ⟨circle 1, fun _ => !₂[1 / 2, 3], fun _ => 0⟩]
        (6 / 5 * T) pos vel acc ∧
      pos 0 = ![0, 0, 0] ∧ pos (6 / 5 * T) = ![1, 0, 0] ∧ s.log.length = 3 := by
  obtain ⟨T, hT, hsol'⟩ := case3_solves
  have A := case3_corner 20 0 0 10 10 10 (Or.inl (by norm_num)) (Or.inl (by norm_num)) (Or.inr (by norm_num))
  have B := case3_corner 20 0 0 (-10) (-10) (-10) (Or.inr (by norm_num)) (Or.inr (by norm_num)) (Or.inl (by norm_num))
  simp at A B
  have room0 : ∀ k, (caseS3 20 0 0).room k = 0 := fun k => rfl
  have up : ∀ k, 10 ≤ (caseS3 20 0 0).hi k := fun k => by
    have := (Setup3.reach _ A k).2
    rw [room0] at this
    fin_cases k <;> simpa using this
  have down : ∀ k, (caseS3 20 0 0).lo k ≤ -10 := fun k => by
    have := (Setup3.reach _ B k).1
    rw [room0] at this
    fin_cases k <;> simpa using this
  have hsol := hsol' 20 0 0 le_rfl (by linarith [down 0]) (by linarith [up 0]) (by linarith [down 1]) (by linarith [up 1]) (by linarith [down 2]) (by linarith [up 2])
    T le_rfl
  obtain ⟨c1, c2, c3, l1, l2, l3, g1, g2, g3, z1, f1, f2, f3⟩ := go_facts
  obtain ⟨k1, k2, k3, m1, m2, m3, h1, h2, h3, y1, y2, y3⟩ := lvl3_facts 0
  have hq : ((1 : ℕ) : ℝ) * (T / 5) ≤ (caseU3 0 T).T := by show ((1 : ℕ) : ℝ) * (T / 5) ≤ T; push_cast; linarith
  have tr := hsol.traj (by simp [caseS3])
  have rest : planPos (caseU3 0 T).x T (T / 5) = (fun _ => 0) ∧ planVel (caseU3 0 T).x T (T / 5) = fun _ => 0 := by
    have e : T / 5 / T = 1 / 5 := by field_simp
    have y1' : ∀ j, j ≤ 2 → k1.getD j 0 = 0 := fun j hj => y1 j (by omega)
    have lv : (lvl3 0).eval (1 / 5) = 0 := level (d := 3) (by norm_num) (by norm_num)
    have lv' : ((lvl3 0).derivative 1).eval (1 / 5) / T = 0 := by rw [h1, first_zero m1 y1', zero_div]
    refine ⟨funext fun i => ?_, funext fun i => ?_⟩
    · unfold planPos
      rw [e]
      fin_cases i
      · exact first_zero (d := 3) rfl fun j hj => by interval_cases j <;> rfl
      · exact lv
      · exact lv
    · unfold planVel
      rw [e]
      fin_cases i
      · show (go.derivative 1).eval _ / _ = _
        rw [g1, first_zero l1 z1, zero_div]
      · exact lv'
      · exact lv'
  obtain ⟨s, hrun, pos, vel, acc, hsafe, p0, -, p1, -, hl, -⟩ := C180_flight_partial (caseS3 20 0 0) (by simp [caseS3])
    (by funext k; fin_cases k <;> rfl) (fun k => by simp [caseS3])
    (by simp [caseS3]) (T / 5) (by linarith) 1 le_rfl (caseU3 0 T) [caseU3 0 T] (by simpa using hsol) (by simpa using hq)
    (fun s hrun k u a hk ha => by
      obtain ⟨s', hrun', -, -, -, hent, -, hseen⟩ := C127_follow (T / 5) (by linarith) 1 le_rfl ([caseU3 0 T, caseU3 0 T].map fun u => planCols (T / 5) u.x u.T)
        (fun p hp => by
          simp only [List.map_cons, List.map_nil, List.mem_cons, List.not_mem_nil, or_false, or_self] at hp
          subst hp
          exact (List.getElem?_eq_some_iff.1 (planCols_get tr (by linarith) hT hq (i := 1) le_rfl)).1)
      rw [hrun] at hrun'
      obtain rfl := Option.some.inj hrun'
      have hk0 : k = 0 := by
        by_contra h
        rw [List.getElem?_eq_none (by simp; omega)] at hk
        cases hk
      subst hk0
      simp at hk
      subst hk
      have e1 := hent 0 _ rfl 1 le_rfl le_rfl
      have pc : (planCols (T / 5) (caseU3 0 T).x (caseU3 0 T).T)[1]? = _ := planCols_get tr (Ts := T / 5) (by linarith) hT hq (i := 1) le_rfl
      simp only [pc, Option.map_some] at e1
      have e2 := hseen 0 (by simp)
      simp only [Nat.zero_mul, Nat.zero_add, Nat.one_mul] at e1 e2
      rw [e1, ha, Option.map_some, Option.some.injEq] at e2
      subst e2
      simp only [Nat.cast_one, one_mul]
      refine ⟨?_, rest.2.symm⟩
      rw [rest.1]
      funext i; fin_cases i <;> rfl)
    [.space (sphere 1) fun _ => !₂[1 / 2, 3, 0], .upright ⟨circle 1, fun _ => !₂[1 / 2, 3], fun _ => 0⟩]
    (fun k u hk => by
      have hu : u = caseU3 0 T := by
        have := List.mem_of_getElem? hk
        simpa using this
      subst hu
      have r1' : ∀ r, r ≤ (if k = [caseU3 0 T].length then (caseU3 0 T).T else ((1 : ℕ) : ℝ) * (T / 5)) → r ≤ T := fun r r1 => by
        refine r1.trans ?_
        split_ifs
        · exact le_rfl
        · push_cast; linarith
      have v1 : ∀ c r, 0 ≤ r → r ≤ T → (lvl c).eval (r / T) = c := fun c r r0 r1 => level (d := 1) (div_nonneg r0 hT.le) ((div_le_one hT).2 r1)
      refine ⟨rfl, fun l o w ho hw => ?_⟩
      have hl1 : l < 2 := by
        by_contra h
        rw [List.getElem?_eq_none (by simp; omega)] at hw
        cases hw
      interval_cases l
      · rw [← Option.some.inj ho, ← Option.some.inj hw]
        refine ⟨rfl, rfl, fun i => ?_, fun r r0 r1 => ?_⟩
        · fin_cases i <;> exact lvl_on _
        · have := r1' r r1
          show (!₂[(lvl (1 / 2)).eval (r / T), (lvl 3).eval (r / T), (lvl 0).eval (r / T)] : Pt 3) = _
          rw [v1 _ r r0 this, v1 _ r r0 this, v1 _ r r0 this]
      · rw [← Option.some.inj ho, ← Option.some.inj hw]
        refine ⟨rfl, rfl, fun _ => 0, ⟨lvl_on _, lvl_on _, trivial, trivial, trivial, by simp [Expr.val]⟩, fun r r0 r1 => ⟨?_, rfl⟩⟩
        have := r1' r r1
        show (!₂[(lvl (1 / 2)).eval (r / T), (lvl 3).eval (r / T)] : Pt 2) = _
        rw [v1 _ r r0 this, v1 _ r r0 this])
  refine ⟨T, s, hT, hrun, pos, vel, acc, ?_⟩
  have et : (([caseU3 0 T].length : ℕ) : ℝ) * (((1 : ℕ) : ℝ) * (T / 5)) + ([caseU3 0 T, caseU3 0 T].getLast (List.cons_ne_nil _ _)).T = 6 / 5 * T := by
    show (((1 : ℕ) : ℝ)) * (((1 : ℕ) : ℝ) * (T / 5)) + T = _
    push_cast; ring
  rw [et] at hsafe p1
  exact ⟨hsafe, p0, p1, by simpa using hl⟩

end Case3

end Verif.Problems
