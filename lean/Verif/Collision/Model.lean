import Verif.Spline.Expr
import Verif.Geometry.Model
import Mathlib.Analysis.InnerProductSpace.PiL2
import Mathlib.Analysis.Convex.Hull
import Mathlib.Analysis.SpecialFunctions.Trigonometric.Arctan

/-! # Collision-avoidance constraints: model

Mirrors the constraint expressions written in `omgtools/vehicles/vehicle.py`,
`omgtools/environment/obstacle.py` and `omgtools/environment/environment.py`.  Splines of the
optimisation problem are arbitrary: nothing is assumed about the solver. -/

namespace Verif.Collision

open Verif.Spline

/-- Points of the plane (`n = 2`) or of space (`n = 3`), with the Euclidean distance. -/
abbrev Pt (n : ℕ) := EuclideanSpace ℝ (Fin n)

/-- What `shape.get_checkpoints()` returns (shape.py:60-61, 146-150, 330-331, 350-354): the
checkpoints and their radius.  The code returns one radius per checkpoint, all equal, for every
shape class. -/
structure Shape (n : ℕ) where
  chk : List (Pt n)
  rad : ℝ

/-- `Circle(radius).get_checkpoints()`, shape.py:60-61. -/
def circle (r : ℝ) : Shape 2 := ⟨[!₂[0, 0]], r⟩

/-- `Sphere(radius).get_checkpoints()`, shape.py:330-331. -/
def sphere (r : ℝ) : Shape 3 := ⟨[!₂[0, 0, 0]], r⟩

/-- `Polyhedron(vertices, radius=1e-3).get_checkpoints()`, shape.py:132-150. -/
noncomputable def polyhedron (vs : List (ℝ × ℝ)) : Shape 2 := ⟨vs.map fun v => !₂[v.1, v.2], 1 / 1000⟩

/-- `Beam(width, height).get_checkpoints()`, shape.py:175-183 (orientation zero). -/
noncomputable def beam (w h : ℝ) : Shape 2 := ⟨[!₂[w / 2, 0], !₂[-(w / 2), 0]], h / 2⟩

section Exprs
open Expr

/-- `sum([a[p]*a[p] for p in range(n)]) - 1`, environment.py:132-133 and 168-169 (`a` has two or
three entries). -/
noncomputable def normCon (a : List (Expr ℝ)) : Expr ℝ :=
  sub (a.foldl (fun acc ap => add acc (mul ap ap)) (num 0)) (num 1)

/-- The constraint of one checkpoint in `Vehicle.define_collision_constraints_2d`,
vehicle.py:149-161.  `sl` is `1` because no code sets `hyperplane['slack']`. -/
noncomputable def vehCon2 (a0 a1 b tg p0 p1 eps : Expr ℝ) (offset sd : ℝ) (c : Pt 2) (rad : ℝ) : Expr ℝ :=
  let con := num 0
  let con := add con (mul (add (mul a0 (num (c 0))) (mul a1 (num (c 1)))) (sub (num 1) (sq tg)))
  let con := add con (mul (add (mul (neg a0) (num (c 1))) (mul a1 (num (c 0)))) (mul (num 2) tg))
  let pos0 := add (mul p0 (add (num 1) (sq tg))) (mul (num offset) (sub (num 1) (sq tg)))
  let pos1 := add (mul p1 (add (num 1) (sq tg))) (mul (num offset) (mul (num 2) tg))
  let con := add con (add (mul a0 pos0) (mul a1 pos1))
  add con (mul (sub (add (add (neg b) (num (1 * rad))) (num sd)) eps) (add (num 1) (sq tg)))

/-- The constraint of one checkpoint in `Obstacle2D.define_collision_constraints`,
obstacle.py:334-343; `w`, `co`, `si` are `gon_weight`, `cos`, `sin` (numbers when the obstacle does not
rotate). -/
noncomputable def obsCon2 (a0 a1 b q0 q1 w co si : Expr ℝ) (c : Pt 2) (rad : ℝ) : Expr ℝ :=
  let xpos := sub (add (mul q0 w) (mul (num (c 0)) co)) (mul (num (c 1)) si)
  let ypos := add (add (mul q1 w) (mul (num (c 0)) si)) (mul (num (c 1)) co)
  add (neg (add (mul a0 xpos) (mul a1 ypos))) (mul w (add b (num rad)))

/-- The constraint of one checkpoint in `Vehicle.define_collision_constraints_3d`,
vehicle.py:218-220. -/
noncomputable def vehCon3 (a0 a1 a2 b p0 p1 p2 eps : Expr ℝ) (sd : ℝ) (c : Pt 3) (rad : ℝ) : Expr ℝ :=
  sub (add (add (sub (add (add (add (num 0) (mul a0 (add (num (c 0)) p0))) (mul a1 (add (num (c 1)) p1)))
    (mul a2 (add (num (c 2)) p2))) b) (num rad)) (num sd)) eps

/-- The constraint of one checkpoint in `Obstacle3D.define_collision_constraints`,
obstacle.py:528-533. -/
noncomputable def obsCon3 (a0 a1 a2 b q0 q1 q2 : Expr ℝ) (c : Pt 3) (rad : ℝ) : Expr ℝ :=
  add (add (neg (add (add (add (num 0) (mul a0 (add (num (c 0)) q0))) (mul a1 (add (num (c 1)) q1)))
    (mul a2 (add (num (c 2)) q2)))) b) (num rad)

/-- The two constraints per checkpoint and direction for a rectangular room, vehicle.py:172-175 and
(without radius) vehicle.py:227-231. -/
noncomputable def roomLow (p : Expr ℝ) (lo c rad : ℝ) : Expr ℝ :=
  add (add (neg (add (num c) p)) (num lo)) (num rad)
noncomputable def roomHigh (p : Expr ℝ) (hi c rad : ℝ) : Expr ℝ :=
  add (sub (add (num c) p) (num hi)) (num rad)

/-- The constraint per checkpoint and side for a polyhedral room, vehicle.py:178-188. -/
noncomputable def roomHyp (h : (ℝ × ℝ) × ℝ) (tg p0 p1 : Expr ℝ) (offset : ℝ) (c : Pt 2) (rad : ℝ) : Expr ℝ :=
  let con := num 0
  let con := add con (mul (num (h.1.1 * c 0 + h.1.2 * c 1)) (sub (num 1) (sq tg)))
  let con := add con (mul (num (-h.1.1 * c 1 + h.1.2 * c 0)) (mul (num 2) tg))
  let pos0 := add (mul p0 (add (num 1) (sq tg))) (mul (num offset) (sub (num 1) (sq tg)))
  let pos1 := add (mul p1 (add (num 1) (sq tg))) (mul (num offset) (mul (num 2) tg))
  let con := add con (add (mul (num h.1.1) pos0) (mul (num h.1.2) pos1))
  add con (mul (num (-h.2 + rad)) (add (num 1) (sq tg)))

/-- All room constraints of one shape in the branch for an upright rectangular room and a disc or
upright rectangle that does not turn, vehicle.py:165-175; `lim` are the `room_limits`
`(xmin, xmax, ymin, ymax)`. -/
noncomputable def roomConsRect (s : Shape 2) (p0 p1 : Expr ℝ) (lim : ℝ × ℝ × ℝ × ℝ) : List (Expr ℝ) :=
  s.chk.flatMap fun c =>
    [roomLow p0 lim.1 (c 0) s.rad, roomHigh p0 lim.2.1 (c 0) s.rad,
     roomLow p1 lim.2.2.1 (c 1) s.rad, roomHigh p1 lim.2.2.2 (c 1) s.rad]

/-- All room constraints of one shape in the other branch, vehicle.py:176-190: `vs`, `pos` are the
vertices and position of the room. -/
noncomputable def roomConsHyp (s : Shape 2) (tg p0 p1 : Expr ℝ) (offset : ℝ) (vs : List (ℝ × ℝ))
    (pos : ℝ × ℝ) : List (Expr ℝ) :=
  s.chk.flatMap fun c => (Geometry.hyperplanes vs pos).map fun h => roomHyp h tg p0 p1 offset c s.rad

/-- All room constraints of one shape in space, vehicle.py:222-232: the radius of the checkpoints is
not used. -/
noncomputable def roomCons3 (s : Shape 3) (p : Fin 3 → Expr ℝ) (lo hi : Fin 3 → ℝ) : List (Expr ℝ) :=
  s.chk.flatMap fun c => [0, 1, 2].flatMap fun k => [roomLow (p k) (lo k) (c k) 0, roomHigh (p k) (hi k) (c k) 0]

end Exprs

/-! ## Specification -/

/-- The core of a shape: the convex hull of its checkpoints (for a polyhedron: the polyhedron). -/
def Shape.core {n : ℕ} (s : Shape n) : Set (Pt n) := convexHull ℝ {q | q ∈ s.chk}

/-- The region of a shape: all points within its radius of the core (disc, ball, rounded beam, ...). -/
def Shape.region {n : ℕ} (s : Shape n) : Set (Pt n) := {p | ∃ c ∈ s.core, dist p c ≤ s.rad}

/-- Rotation of the plane by the angle `θ`, shape.py:38-44. -/
noncomputable def rot (θ : ℝ) (p : Pt 2) : Pt 2 :=
  !₂[Real.cos θ * p 0 - Real.sin θ * p 1, Real.sin θ * p 0 + Real.cos θ * p 1]

/-- A planar set placed at `pos` with heading `θ`, shape.py:46-47. -/
noncomputable def placed (pos : Pt 2) (θ : ℝ) (s : Set (Pt 2)) : Set (Pt 2) := {p | ∃ q ∈ s, p = pos + rot θ q}

/-- A set of space placed at `pos`. -/
def shifted {n : ℕ} (pos : Pt n) (s : Set (Pt n)) : Set (Pt n) := {p | ∃ q ∈ s, p = pos + q}

/-- The heading that belongs to a tangent of the half angle. -/
noncomputable def heading (t : ℝ) : ℝ := 2 * Real.arctan t

end Verif.Collision
