import Verif.Geometry.Model
import Verif.Timing.Sampling

/-! # Frames: borders, obstacles in a frame

Mirrors `omgtools/environment/frame.py:49-364`.  A frame is an axis-parallel rectangle given by `border['limits']`. -/

set_option linter.unusedSectionVars false

namespace Verif.Frames

open Verif.Geometry

variable {K : Type} [Field K] [LinearOrder K] [IsStrictOrderedRing K]

/-- `border['limits']`, frame.py:174.  The other entries of the border (`make_border`, frame.py:168-177) are computed from these. -/
structure Lim (K : Type) where
  xmin : K
  ymin : K
  xmax : K
  ymax : K
deriving DecidableEq

/-- A 2D shape, shape.py:49-242, after its constructor.  The vertices of a `Polyhedron` have been rotated by its orientation
(shape.py:137). -/
inductive Shp (K : Type) where
  | circle (r : K)
  | rect (w h ori : K)
  | poly (vs : List (K × K)) (ori : K)
deriving DecidableEq

/-- `Shape2D.rotate`, shape.py:38-44; `cs` gives cosine and sine. -/
def rotate (cs : K → K × K) (th : K) (p : K × K) : K × K :=
  ((cs th).1 * p.1 - (cs th).2 * p.2, (cs th).2 * p.1 + (cs th).1 * p.2)

/-- What the frame looks at in an obstacle: shape, the velocity values of its simulated trajectory (`none` if there is no entry
`trajectories` or no `velocity` in it), and the last columns of the signals `position` and `velocity`. -/
structure Obst (K : Type) where
  shape : Shp K
  traj : Option (List (K × K))
  pos : K × K
  vel : K × K
deriving DecidableEq

/-- The test for stationary obstacles, frame.py:63-64. -/
def Obst.stands (o : Obst K) : Bool :=
  match o.traj with
  | none => true
  | some vs => vs.all fun v => v = (0, 0)

/-- `get_canvas_limits()` for the shapes that are supported, shape.py:65-67, 152-156: `(xmin, xmax, ymin, ymax)`; `none` stands for
the `RuntimeError`, frame.py:99-100, 113-115. -/
def Shp.limits : Shp K → Option (K × K × K × K)
  | .circle r => some (-r, r, -r, r)
  | .rect w h ori => if ori = 0 then some (canvasLimits (rectVertices w h)) else none
  | .poly _ _ => none

/-- The overlap test, frame.py:103-110. -/
def boxHit (f : Lim K) (l : K × K × K × K) (pos : K × K) : Bool :=
  decide (f.xmin ≤ l.2.1 + pos.1) && decide (f.xmax ≥ l.1 + pos.1) && decide (f.ymin ≤ l.2.2.2 + pos.2) &&
    decide (f.ymax ≥ l.2.2.1 + pos.2)

/-- `get_stationary_obstacles`, frame.py:49-116; `none` stands for the `RuntimeError`. -/
def stationary (f : Lim K) : List (Obst K) → Option (List (Obst K))
  | [] => some []
  | o :: os =>
    if o.stands then do
      let l ← o.shape.limits
      let r ← stationary f os
      some (if boxHit f l o.pos then o :: r else r)
    else stationary f os

/-- The checkpoints of a moving obstacle, frame.py:129-149, in the order of the code: a circle is represented by its centre and the
corners of the square around it; the vertices of a polyhedron, which have been rotated by the constructor, are rotated once
more. -/
def Shp.checkpoints (cs : K → K × K) : Shp K → List (K × K)
  | .circle r => [(0, 0), (-r, -r), (-r, r), (r, r), (r, -r)]
  | .rect w h ori => ((rectVertices w h).map (rotate cs ori)).map (rotate cs ori)
  | .poly vs ori => vs.map (rotate cs ori)

/-- `point_in_frame` for a stationary point, frame.py:326-330. -/
def pointIn (f : Lim K) (p : K × K) (distance : K) : Bool :=
  decide (f.xmin + distance < p.1 ∧ p.1 < f.xmax - distance) && decide (f.ymin + distance < p.2 ∧ p.2 < f.ymax - distance)

/-- Is a moving point in the frame at the sample `l`?  frame.py:338. -/
def sampleIn (f : Lim K) (p v : K × K) (ts : K) (l : ℕ) : Bool :=
  decide (f.xmin ≤ p.1 + l * ts * v.1 ∧ p.1 + l * ts * v.1 ≤ f.xmax) &&
    decide (f.ymin ≤ p.2 + l * ts * v.2 ∧ p.2 + l * ts * v.2 ≤ f.ymax)

section Round
variable [FloorRing K]

/-- Python 3 `round` to an integer: half to even. -/
def roundEven (q : K) : ℤ :=
  if q - ⌊q⌋ < 1 / 2 then ⌊q⌋ else if 1 / 2 < q - ⌊q⌋ then ⌊q⌋ + 1 else if ⌊q⌋ % 2 = 0 then ⌊q⌋ else ⌊q⌋ + 1

/-- `point_in_frame` for a moving point, frame.py:332-340. -/
def pointInMoving (f : Lim K) (p v : K × K) (time ts : K) : Bool :=
  (List.range (roundEven (time / ts) + 1 + 1).toNat).any (sampleIn f p v ts)

/-- The test of one obstacle in `get_moving_obstacles`, frame.py:127, 144-160. -/
def Obst.moves (cs : K → K × K) (f : Lim K) (time ts : K) (o : Obst K) : Bool :=
  (o.vel ≠ (0, 0)) && (o.shape.checkpoints cs).any fun c => pointInMoving f (c.1 + o.pos.1, c.2 + o.pos.2) o.vel time ts

/-- `get_moving_obstacles`, frame.py:118-166. -/
def moving (cs : K → K × K) (f : Lim K) (time ts : K) (os : List (Obst K)) : List (Obst K) :=
  os.filter (Obst.moves cs f time ts)

end Round

end Verif.Frames
