import Mathlib.Algebra.Order.Field.Basic
import Mathlib.Algebra.Order.Floor.Ring
import Mathlib.Data.Rat.Floor
import Mathlib.Analysis.SpecialFunctions.Pow.NNReal
import Mathlib.Analysis.SpecialFunctions.Trigonometric.Basic
import Mathlib.Tactic.Ring
import Mathlib.Tactic.FieldSimp
import Mathlib.Tactic.Linarith
import Mathlib.Tactic.NormNum
import Mathlib.Tactic.LinearCombination
import Mathlib.Tactic.Positivity
import Mathlib.Tactic.IntervalCases

/-! # Planar geometry helpers: model

Mirrors `omgtools/basics/geometry.py` and the parts of `omgtools/basics/shape.py` it uses.  Points of
the plane are pairs; floats are elements of an ordered field (`ℝ` where a square root is taken). -/

set_option linter.unusedSectionVars false

namespace Verif.Geometry

section Field
variable {K : Type*} [Field K] [LinearOrder K]

/-- `order_is_ccw`, geometry.py:75-82. -/
def orderIsCcw (p1 p2 p3 : K × K) : Bool :=
  decide ((p2.2 - p1.2) * (p3.1 - p1.1) < (p3.2 - p1.2) * (p2.1 - p1.1))

/-- `intersect_line_segments`, geometry.py:84-95; the segments are `p1 p2` and `p3 p4`. -/
def intersectLineSegments (p1 p2 p3 p4 : K × K) : Bool :=
  (orderIsCcw p1 p3 p4 != orderIsCcw p2 p3 p4) && (orderIsCcw p1 p2 p3 != orderIsCcw p1 p2 p4)

/-- The denominator in `intersect_lines`, geometry.py:104. -/
def lineDet (p1 p2 p3 p4 : K × K) : K :=
  (p1.1 - p2.1) * (p3.2 - p4.2) - (p1.2 - p2.2) * (p3.1 - p4.1)

/-- `intersect_lines`, geometry.py:97-111; `none` stands for Python's `None`. -/
def intersectLines (p1 p2 p3 p4 : K × K) : Option (K × K) :=
  if lineDet p1 p2 p3 p4 = 0 then none else
    some (((p1.1 * p2.2 - p1.2 * p2.1) * (p3.1 - p4.1) - (p1.1 - p2.1) * (p3.1 * p4.2 - p3.2 * p4.1))
            / lineDet p1 p2 p3 p4,
          ((p1.1 * p2.2 - p1.2 * p2.1) * (p3.2 - p4.2) - (p1.2 - p2.2) * (p3.1 * p4.2 - p3.2 * p4.1))
            / lineDet p1 p2 p3 p4)

/-- The vertices of an axis-aligned `Rectangle(width, height)`, shape.py:222-236, as columns: the
solutions of the four 2x2 systems built there (`rectangle_vertices_solve` in `Props.lean` checks that
these are the solutions). -/
def rectVertices (w h : K) : List (K × K) :=
  [(w / 2, h / 2), (w / 2, -(h / 2)), (-(w / 2), -(h / 2)), (-(w / 2), h / 2)]

/-- `np.amax`/`np.amin` over a list; for the empty list (where numpy raises) `0`. -/
def amax (l : List K) : K := match l with | [] => 0 | x :: xs => xs.foldl max x
def amin (l : List K) : K := match l with | [] => 0 | x :: xs => xs.foldl min x

/-- `Polyhedron.get_canvas_limits`, shape.py:153-157: `(xmin, xmax, ymin, ymax)`. -/
def canvasLimits (vs : List (K × K)) : K × K × K × K :=
  (amin (vs.map Prod.fst), amax (vs.map Prod.fst), amin (vs.map Prod.snd), amax (vs.map Prod.snd))

/-- A placed axis-parallel shape as seen by the overlap functions: its vertices, the `orientation`
attribute, and the position it is placed at. -/
structure Placed (K : Type*) where
  vertices : List (K × K)
  orientation : K
  pos : K × K

/-- The limits of a placed shape: `get_canvas_limits()` plus position, geometry.py:212-221, 235-246. -/
def Placed.limits (s : Placed K) : K × K × K × K :=
  let l := canvasLimits s.vertices
  (l.1 + s.pos.1, l.2.1 + s.pos.1, l.2.2.1 + s.pos.2, l.2.2.2 + s.pos.2)

/-- The overlap condition, geometry.py:222-223 and 249-250. -/
def limitsOverlap (a b : K × K × K × K) : Bool :=
  decide (b.1 ≤ a.2.1) && decide (a.1 ≤ b.2.1) && decide (b.2.2.1 ≤ a.2.2.2) && decide (a.2.2.1 ≤ b.2.2.2)

/-- `rectangles_overlap`, geometry.py:209-229; `none` stands for the `RuntimeError` raised for rotated
rectangles. -/
def rectanglesOverlap (s1 s2 : Placed K) : Option Bool :=
  if s1.orientation = 0 ∧ s2.orientation = 0 then some (limitsOverlap s1.limits s2.limits) else none

/-- `compute_rectangle_overlap_center`, geometry.py:231-262; `none` stands for the `RuntimeError`. -/
def overlapCenter (s1 s2 : Placed K) : Option (K × K) :=
  let a := s1.limits
  let b := s2.limits
  if limitsOverlap a b then
    let xmin3 := max a.1 b.1
    let xmax3 := min a.2.1 b.2.1
    let ymin3 := max a.2.2.1 b.2.2.1
    let ymax3 := min a.2.2.2 b.2.2.2
    some (xmin3 + (xmax3 - xmin3) * (1/2), ymin3 + (ymax3 - ymin3) * (1/2))
  else none

/-- `point_in_rectangle` for a stationary point, geometry.py:173-188 (`xy_check=False`).
Limits are `(xmin, ymin, xmax, ymax)`. -/
def pointInRectangle (p : K × K) (lim : K × K × K × K) (distance : K) : Bool :=
  decide (lim.1 + distance ≤ p.1 ∧ p.1 ≤ lim.2.2.1 - distance) &&
  decide (lim.2.1 + distance ≤ p.2 ∧ p.2 ≤ lim.2.2.2 - distance)

/-- `point_in_rectangle(..., xy_check=True)`, geometry.py:175-183: one answer per direction. -/
def pointInRectangleXY (p : K × K) (lim : K × K × K × K) (distance : K) : Bool × Bool :=
  (decide (lim.1 + distance ≤ p.1 ∧ p.1 ≤ lim.2.2.1 - distance),
   decide (lim.2.1 + distance ≤ p.2 ∧ p.2 ≤ lim.2.2.2 - distance))

/-- `point_in_rectangle` for a moving point with `N` sample intervals, geometry.py:191-204: tested at
the `N+1` times `l*T/N`. -/
def pointInRectangleSampled (p v : K × K) (lim : K × K × K × K) (T : K) (N : ℕ) : Bool :=
  (List.range (N + 1)).any fun l =>
    decide (lim.1 ≤ p.1 + l * (T / N) * v.1 ∧ p.1 + l * (T / N) * v.1 ≤ lim.2.2.1) &&
    decide (lim.2.1 ≤ p.2 + l * (T / N) * v.2 ∧ p.2 + l * (T / N) * v.2 ≤ lim.2.2.2)

end Field

/-- Python 3 `round` to an integer: half to even. -/
def pyRound (q : ℚ) : ℤ :=
  if q - ⌊q⌋ < 1 / 2 then ⌊q⌋ else if 1 / 2 < q - ⌊q⌋ then ⌊q⌋ + 1 else
    if ⌊q⌋ % 2 = 0 then ⌊q⌋ else ⌊q⌋ + 1

/-- `point_in_rectangle` for a moving point, geometry.py:189-204: `N = int(round(T/0.5) + 1)`. -/
def pointInRectangleMoving (p v : ℚ × ℚ) (lim : ℚ × ℚ × ℚ × ℚ) (T : ℚ) : Bool :=
  pointInRectangleSampled p v lim T (pyRound (T / (1/2)) + 1).toNat

/-! Real-valued parts. -/

/-- `distance_between_points`, geometry.py:23-30, for points of any dimension; `none` stands for the
`ValueError` on different dimensions. -/
noncomputable def distanceBetweenPoints (p q : List ℝ) : Option ℝ :=
  if p.length ≠ q.length then none else
    some (Real.sqrt (((p.zip q).map fun c => (c.2 - c.1) ^ 2).sum))

/-- `distance_to_line`, geometry.py:69-73.  (For coinciding points Python divides by zero; Lean's
quotient is then `0`, and no theorem below uses that case.) -/
noncomputable def distanceToLine (p v1 v2 : ℝ × ℝ) : ℝ :=
  |(v2.2 - v1.2) * p.1 - (v2.1 - v1.1) * p.2 + v2.1 * v1.2 - v2.2 * v1.1|
    / Real.sqrt ((v2.2 - v1.2) ^ 2 + (v2.1 - v1.1) ^ 2)

/-- The pairs of consecutive vertices, the last one followed by the first: the loop over columns of
the extended vertex matrix, shape.py:163-168 and geometry.py:139-154. -/
def edges {α : Type*} (vs : List α) : List (α × α) :=
  vs.zip (vs.rotate 1)

/-- One hyperplane `(a, b)` of `Polyhedron.get_hyperplanes`, shape.py:166-171: the normalised left
normal of the edge from `v` to `w` and its offset at the placed end point. -/
noncomputable def hyperplane (pos : ℝ × ℝ) (e : (ℝ × ℝ) × (ℝ × ℝ)) : (ℝ × ℝ) × ℝ :=
  let v := (e.2.1 - e.1.1, e.2.2 - e.1.2)
  let n := Real.sqrt (v.1 ^ 2 + v.2 ^ 2)
  let a := (-v.2 / n, v.1 / n)
  (a, a.1 * (e.2.1 + pos.1) + a.2 * (e.2.2 + pos.2))

/-- `Polyhedron.get_hyperplanes`, shape.py:159-172. -/
noncomputable def hyperplanes (vs : List (ℝ × ℝ)) (pos : ℝ × ℝ) : List ((ℝ × ℝ) × ℝ) :=
  (edges vs).map (hyperplane pos)

/-- `point_in_polyhedron`, geometry.py:113-124. -/
noncomputable def pointInPolyhedron (p : ℝ × ℝ) (vs : List (ℝ × ℝ)) (pos : ℝ × ℝ) (margin : ℝ) : Bool :=
  (hyperplanes vs pos).all fun h => decide ¬ (h.1.1 * p.1 + h.1.2 * p.2 - h.2 - margin > 0)

/-- Planar distance: `distance_between_points` on two pairs. -/
noncomputable def dist2 (p q : ℝ × ℝ) : ℝ := Real.sqrt ((q.1 - p.1) ^ 2 + (q.2 - p.2) ^ 2)

/-- Foot of the perpendicular from `c` on the line through `v`, `w`, geometry.py:153-157. -/
noncomputable def foot (c v w : ℝ × ℝ) : ℝ × ℝ :=
  let k := ((w.2 - v.2) * (c.1 - v.1) - (w.1 - v.1) * (c.2 - v.2)) / ((w.2 - v.2) ^ 2 + (w.1 - v.1) ^ 2)
  (c.1 - k * (w.2 - v.2), c.2 + k * (w.1 - v.1))

/-- Test of one side in `circle_polyhedron_intersection`, geometry.py:153-164 (`eps = 1e-6`). -/
noncomputable def sideHit (eps : ℝ) (c : ℝ × ℝ) (r : ℝ) (e : (ℝ × ℝ) × (ℝ × ℝ)) : Bool :=
  let f := foot c e.1 e.2
  (decide (e.1.1 - eps ≤ f.1 ∧ f.1 ≤ e.2.1 + eps ∧ e.1.2 - eps ≤ f.2 ∧ f.2 ≤ e.2.2 + eps) ||
   decide (e.1.1 + eps ≥ f.1 ∧ f.1 ≥ e.2.1 - eps ∧ e.1.2 + eps ≥ f.2 ∧ f.2 ≥ e.2.2 - eps)) &&
  decide (dist2 c f ≤ r)

/-- `circle_polyhedron_intersection`, geometry.py:126-167.  The first loop runs over
`range(len(vertices))` where `vertices` is the `2 x (n+1)` array, so it looks at the first two
vertices only (`take 2`); kept as in the code. -/
noncomputable def circlePolyhedronIntersection (c : ℝ × ℝ) (r : ℝ) (vs : List (ℝ × ℝ)) (pos : ℝ × ℝ) : Bool :=
  let ws := vs.map fun v => (v.1 + pos.1, v.2 + pos.2)
  ((ws.take 2).any fun v => decide (dist2 c v ≤ r)) || ((edges ws).any (sideHit (1 / 10 ^ 6) c r))

/-- `distance_to_rectangle`, geometry.py:32-67, on the four limits of the placed rectangle: signed
shift in x and in y direction. -/
noncomputable def distanceToRectangleLim (p : ℝ × ℝ) (x1 x2 y1 y2 : ℝ) : ℝ × ℝ :=
  let v1 := (x1, y1)
  let v2 := (x1, y2)
  let v3 := (x2, y2)
  let v4 := (x2, y1)
  let d12 := -distanceToLine p v1 v2
  let d23 := distanceToLine p v2 v3
  let d34 := distanceToLine p v3 v4
  let d41 := -distanceToLine p v4 v1
  (if |d12| < |d34| then d12 else d34, if |d23| < |d41| then d23 else d41)

/-- `distance_to_rectangle`, geometry.py:32-67, including its effect on the rectangle object: the
in-place `+=` on `rectangle.vertices` moves the stored vertices.  Returns the answer and the vertices
left behind. -/
noncomputable def distanceToRectangle (p : ℝ × ℝ) (vs : List (ℝ × ℝ)) (pos : ℝ × ℝ) :
    (ℝ × ℝ) × List (ℝ × ℝ) :=
  let ws := vs.map fun v => (v.1 + pos.1, v.2 + pos.2)
  let l := canvasLimits ws
  (distanceToRectangleLim p l.1 l.2.1 l.2.2.2 l.2.2.1, ws)

end Verif.Geometry
