import Verif.Gui.Clicks
import Mathlib.Algebra.Order.Group.Abs
import Mathlib.Tactic.Ring
import Mathlib.Tactic.FieldSimp
import Mathlib.Tactic.Linarith
import Mathlib.Tactic.LinearCombination
import Mathlib.Tactic.NormNum

/-! # Drawings (C100-C103)

Mirrors `omgtools/gui/svg_reader.py:84-258` (rectangles, circles, lines become obstacles), `326-530` (lines and curves become GCode)
and `omgtools/gui/gui.py:409-426` (`add_obstacle`).  Not modelled: reading of the XML file and of the numbers in it; the transform
found in the file (`compute_transform`, svg_reader.py:260-284) is an argument.  `cmp` is the sign function of Python 2; in Python 3
the name does not exist. -/

set_option linter.unusedSectionVars false

namespace Verif.Gui

variable {K : Type} [Field K] [LinearOrder K] [IsStrictOrderedRing K]

/-- A shape in the file, in pixels from the top left corner, the y-axis pointing down: `<rect>` with its top left corner, or
`<circle>` with its centre. -/
inductive Drawn (K : Type) where
  | rect (x y w h : K)
  | circle (cx cy r : K)

/-- An obstacle of the reader, in pixels.  `pos` is a Python list. -/
structure PxObs (K : Type) where
  pos : List K
  shape : Shape K

/-- `obstacle['pos'] += self.transform`, svg_reader.py:127, 138.  The transform is a numpy array if one was found: elementwise sum.
It is the list `[0, 0]` if not (svg_reader.py:284): `+=` of two lists appends. -/
def addTransform (pos : K × K) : Option (K × K) → List K
  | some t => [pos.1 + t.1, pos.2 + t.2]
  | none => [pos.1, pos.2] ++ [0, 0]

/-- `convert_basic_shapes` for one shape, svg_reader.py:121-143. -/
def basicShape (t : Option (K × K)) : Drawn K → PxObs K
  | .rect x y w h => ⟨addTransform (x + w * (1 / 2), y + h * (1 / 2)) t, .rect w h⟩
  | .circle cx cy r => ⟨addTransform (cx, cy) t, .circle r⟩

/-- `add_obstacle`, gui.py:409-426: position and shape in meter.  `none`: `u,v = pixel` (gui.py:605) fails if there are not two
values. -/
def Win.addPx (g : Win K) (o : PxObs K) : Option ((K × K) × Shape K) :=
  match o.pos with
  | [u, v] => some (g.pixelToWorld (u, v), match o.shape with
    | .rect w h => .rect (w / g.m) (h / g.m)
    | .circle r => .circle (r / g.m))
  | _ => none

/-- Python 2 `cmp(a, 0)`. -/
def sign (a : K) : K := if 0 < a then 1 else if a < 0 then -1 else 0

/-- A line becomes a rectangle: centre, width, height; svg_reader.py:196-222, 243-258.  `none` is the exception for a diagonal
line. -/
def lineRect (a b : K × K) (stroke : K) : Option ((K × K) × K × K) :=
  if a.1 = b.1 then
    some ((a.1 + sign (b.2 - a.2) * stroke * (1 / 2), a.2 + (b.2 - a.2) * (1 / 2)), stroke, |b.2 - a.2|)
  else if a.2 = b.2 then
    some ((a.1 + (b.1 - a.1) * (1 / 2), a.2 + sign (b.1 - a.1) * stroke * (1 / 2)), |b.1 - a.1|, stroke)
  else none

/-- A polyline: one rectangle per pair of successive vertices, svg_reader.py:190-222. -/
def polyRects (stroke : K) : List (K × K) → Option (List ((K × K) × K × K))
  | a :: b :: l => do
    let r ← lineRect a b stroke
    let rs ← polyRects stroke (b :: l)
    return r :: rs
  | _ => some []

/-- Python float division; `none` is a `ZeroDivisionError`. -/
def pdiv (a b : K) : Option K := if b = 0 then none else some (a / b)

/-- The centre of the circle through three points as computed in svg_reader.py:401-453.  `none` is an exception: a division by zero,
equal normals, or the unbound name `x` (svg_reader.py:419, 432). -/
def circleCenter (p1 p2 p3 : K × K) : Option (K × K) :=
  let mid1 := ((p2.1 + p1.1) * (1 / 2), (p2.2 + p1.2) * (1 / 2))
  let mid2 := ((p3.1 + p2.1) * (1 / 2), (p3.2 + p2.2) * (1 / 2))
  if p1.1 = p2.1 ∧ p2.2 = p3.2 then some (mid1.1, mid2.2)
  else if p1.2 = p2.2 ∧ p2.1 = p3.1 then some (mid2.1, mid1.2)
  else if p2.1 = p1.1 then none
  else if p2.2 = p1.2 then do
    let cy := mid1.2
    let rico2 ← pdiv (p3.2 - p2.2) (p3.1 - p2.1)
    let normal2 ← pdiv (-1) rico2
    let q ← pdiv (cy - mid2.2) normal2
    return (q + mid2.1, cy)
  else if p2.1 = p3.1 then none
  else if p2.2 = p3.2 then do
    let cy := mid2.2
    let rico1 ← pdiv (p2.2 - p1.2) (p2.1 - p1.1)
    let normal1 ← pdiv (-1) rico1
    let q ← pdiv (cy - mid1.2) normal1
    return (q + mid1.1, cy)
  else do
    let rico1 ← pdiv (p2.2 - p1.2) (p2.1 - p1.1)
    let normal1 ← pdiv (-1) rico1
    let rico2 ← pdiv (p3.2 - p2.2) (p3.1 - p2.1)
    let normal2 ← pdiv (-1) rico2
    if normal2 ≠ normal1 then do
      let cx ← pdiv (mid1.2 - mid2.2 - normal1 * mid1.1 + normal2 * mid2.1) (normal2 - normal1)
      return (cx, mid1.2 + normal1 * (cx - mid1.1))
    else none

/-- A GCode command without arcs. -/
inductive Cmd (K : Type) where
  | g00 (p : K × K)
  | g01 (p : K × K)
deriving DecidableEq

/-- `get_gcode_description` for a drawing of lines, svg_reader.py:333-353 (transform added, y-axis flipped). -/
def lineCmds (t : K × K) : List ((K × K) × (K × K)) → List (Cmd K) → List (Cmd K)
  | [], cs => cs
  | (a, b) :: ls, cs =>
    let cs1 := if cs = [] then cs ++ [.g00 (a.1 + t.1, -(a.2 + t.2))] else cs
    lineCmds t ls (cs1 ++ [.g01 (b.1 + t.1, -(b.2 + t.2))])

namespace Spec

/-- The pixel is in the drawn shape, shifted over the transform of the file. -/
def InDrawn (d : Drawn K) (t p : K × K) : Prop :=
  match d with
  | .rect x y w h => x ≤ p.1 - t.1 ∧ p.1 - t.1 ≤ x + w ∧ y ≤ p.2 - t.2 ∧ p.2 - t.2 ≤ y + h
  | .circle cx cy r => (p.1 - t.1 - cx) ^ 2 + (p.2 - t.2 - cy) ^ 2 ≤ r ^ 2

/-- The stroke of a vertical or horizontal line: half the stroke width on both sides of it. -/
def InStroke (a b : K × K) (stroke : K) (p : K × K) : Prop :=
  (a.1 = b.1 ∧ |p.1 - a.1| ≤ stroke / 2 ∧ min a.2 b.2 ≤ p.2 ∧ p.2 ≤ max a.2 b.2) ∨
    (a.2 = b.2 ∧ |p.2 - a.2| ≤ stroke / 2 ∧ min a.1 b.1 ≤ p.1 ∧ p.1 ≤ max a.1 b.1)

/-- The point is on the line itself. -/
def OnLine (a b p : K × K) : Prop :=
  (a.1 = b.1 ∧ p.1 = a.1 ∧ min a.2 b.2 ≤ p.2 ∧ p.2 ≤ max a.2 b.2) ∨
    (a.2 = b.2 ∧ p.2 = a.2 ∧ min a.1 b.1 ≤ p.1 ∧ p.1 ≤ max a.1 b.1)

/-- The point is in the rectangle. -/
def InRect (r : (K × K) × K × K) (p : K × K) : Prop := |p.1 - r.1.1| ≤ r.2.1 / 2 ∧ |p.2 - r.1.2| ≤ r.2.2 / 2

/-- The squared distance of two points. -/
def dist2 (a b : K × K) : K := (a.1 - b.1) ^ 2 + (a.2 - b.2) ^ 2

/-- The straight cuts of a program: a `G01` cuts from where the machine is to its point. -/
def cuts : Option (K × K) → List (Cmd K) → List ((K × K) × (K × K))
  | _, [] => []
  | _, .g00 p :: cs => cuts (some p) cs
  | none, .g01 p :: cs => cuts (some p) cs
  | some q, .g01 p :: cs => (q, p) :: cuts (some p) cs

/-- The world: the transform is added and the y-axis points up. -/
def flip (t p : K × K) : K × K := (p.1 + t.1, -(p.2 + t.2))

/-- Each line begins where the one before it ended. -/
def Chained : List ((K × K) × (K × K)) → Prop
  | l :: m :: ls => l.2 = m.1 ∧ Chained (m :: ls)
  | _ => True

end Spec

section Properties

/-- C100, what holds: if the file has a transform, a rectangle or circle of the drawing becomes an obstacle with the same points: a
pixel is in the drawn shape exactly if its place in the world is in the obstacle.
Missing: files without a transform (`C100_violated`). -/
theorem C100_partial (g : Win K) (hm : 0 < g.m) (d : Drawn K) (t : K × K) (p : K × K) :
    ∃ o, g.addPx (basicShape (some t) d) = some o ∧ (Spec.InDrawn d t p ↔ Spec.InObs ⟨o.1, o.2, 0⟩ (g.pixelToWorld p)) := by
  cases d with
  | rect x y w h =>
    refine ⟨_, rfl, ?_⟩
    simp only [Spec.InDrawn, Spec.InObs, Win.pixelToWorld, basicShape]
    have e1 : p.1 / g.m - (x + w * (1 / 2) + t.1) / g.m = (p.1 - (x + w * (1 / 2) + t.1)) / g.m := by ring
    have e2 : (g.position.2 + g.heightPx - p.2) / g.m + g.position.2 / g.m -
      ((g.position.2 + g.heightPx - (y + h * (1 / 2) + t.2)) / g.m + g.position.2 / g.m) =
        ((y + h * (1 / 2) + t.2) - p.2) / g.m := by ring
    have e3 : w / g.m / 2 = (w / 2) / g.m := by ring
    have e4 : h / g.m / 2 = (h / 2) / g.m := by ring
    rw [e1, e2, e3, e4, abs_div, abs_div, abs_of_pos hm, div_le_div_iff_of_pos_right hm, div_le_div_iff_of_pos_right hm,
      abs_le, abs_le]
    constructor
    · rintro ⟨h1, h2, h3, h4⟩
      refine ⟨⟨?_, ?_⟩, ?_, ?_⟩ <;> linarith
    · rintro ⟨⟨h1, h2⟩, h3, h4⟩
      refine ⟨?_, ?_, ?_, ?_⟩ <;> linarith
  | circle cx cy r =>
    refine ⟨_, rfl, ?_⟩
    simp only [Spec.InDrawn, Spec.InObs, Win.pixelToWorld, basicShape]
    have e : (p.1 / g.m - (cx + t.1) / g.m) ^ 2 + ((g.position.2 + g.heightPx - p.2) / g.m + g.position.2 / g.m -
      ((g.position.2 + g.heightPx - (cy + t.2)) / g.m + g.position.2 / g.m)) ^ 2 =
        ((p.1 - t.1 - cx) ^ 2 + (p.2 - t.2 - cy) ^ 2) / g.m ^ 2 := by ring
    rw [e, div_pow, div_le_div_iff_of_pos_right (by positivity)]

example : (start (8 : ℚ) 4 50 (0, 0) (4, 4)).addPx (basicShape (some (10, 20)) (.rect 40 30 100 50)) =
    some ((2, 5/2), .rect 2 1) := by decide +kernel

/-- C100 fails: a file without a transform with a rectangle or a circle cannot be loaded: `[x, y] += [0, 0]` has four entries. -/
theorem C100_violated (g : Win K) (d : Drawn K) : g.addPx (basicShape none d) = none := by
  cases d <;> rfl

theorem sign_cases (a : K) : (0 < a ∧ sign a = 1) ∨ (a < 0 ∧ sign a = -1) ∨ (a = 0 ∧ sign a = 0) := by
  unfold sign
  rcases lt_trichotomy a 0 with h | h | h
  · right; left; exact ⟨h, by rw [if_neg (not_lt.2 h.le), if_pos h]⟩
  · right; right; subst h; simp
  · left; exact ⟨h, by rw [if_pos h]⟩

theorem sign_abs_le (a : K) : |sign a| ≤ 1 := by
  rcases sign_cases a with ⟨_, h⟩ | ⟨_, h⟩ | ⟨_, h⟩ <;> rw [h] <;> norm_num

/-- C101, what holds: a vertical or horizontal line becomes a rectangle with the length of the line and the width of the stroke, and
the line is in it.
Missing: that the rectangle is the stroke (`C101_violated`). -/
theorem C101_partial (a b : K × K) (stroke : K) (hs : 0 ≤ stroke) (h : a.1 = b.1 ∨ a.2 = b.2) :
    ∃ r, lineRect a b stroke = some r ∧ (∀ p, Spec.OnLine a b p → Spec.InRect r p) ∧
      ((a.1 = b.1 ∧ r.2 = (stroke, |b.2 - a.2|)) ∨ (a.2 = b.2 ∧ r.2 = (|b.1 - a.1|, stroke))) := by
  have half : ∀ d : K, |sign d * stroke * (1 / 2)| ≤ stroke / 2 := by
    intro d
    rw [abs_mul, abs_mul, abs_of_nonneg hs]
    have := sign_abs_le d
    rw [abs_of_nonneg (by norm_num : (0 : K) ≤ 1 / 2)]
    nlinarith
  have mid : ∀ u v x : K, min u v ≤ x → x ≤ max u v → |x - (u + (v - u) * (1 / 2))| ≤ |v - u| / 2 := by
    intro u v x h1 h2
    rcases le_total u v with h | h
    · rw [min_eq_left h] at h1; rw [max_eq_right h] at h2
      rw [abs_of_nonneg (sub_nonneg.2 h), abs_le]; constructor <;> linarith
    · rw [min_eq_right h] at h1; rw [max_eq_left h] at h2
      rw [abs_of_nonpos (sub_nonpos.2 h), abs_le]; constructor <;> linarith
  unfold lineRect
  by_cases h1 : a.1 = b.1
  · rw [if_pos h1]
    refine ⟨_, rfl, fun p hp => ?_, .inl ⟨h1, rfl⟩⟩
    have hp' : p.1 = a.1 ∧ min a.2 b.2 ≤ p.2 ∧ p.2 ≤ max a.2 b.2 := by
      rcases hp with ⟨_, hp⟩ | ⟨h2, hp1, hp2, hp3⟩
      · exact hp
      · rw [← h1, min_self] at hp2; rw [← h1, max_self] at hp3
        refine ⟨le_antisymm hp3 hp2, ?_, ?_⟩
        · rw [hp1]; exact min_le_left _ _
        · rw [hp1]; exact le_max_left _ _
    obtain ⟨q1, q2, q3⟩ := hp'
    refine ⟨?_, mid _ _ _ q2 q3⟩
    simp only
    rw [q1]
    have := half (b.2 - a.2)
    rw [abs_sub_comm]
    simpa using this
  · have h2 : a.2 = b.2 := h.resolve_left h1
    rw [if_neg h1, if_pos h2]
    refine ⟨_, rfl, fun p hp => ?_, .inr ⟨h2, rfl⟩⟩
    rcases hp with ⟨h3, _⟩ | ⟨_, q1, q2, q3⟩
    · exact absurd h3 h1
    · refine ⟨mid _ _ _ q2 q3, ?_⟩
      simp only
      rw [q1]
      have := half (b.1 - a.1)
      rw [abs_sub_comm]
      simpa using this

example : lineRect ((1 : ℚ), 2) (1, 6) 2 = some ((2, 4), 2, 4) := by norm_num [lineRect, sign]

/-- C101, what holds, for a polyline of vertical and horizontal pieces: there is one rectangle per piece, and piece `i` is in rectangle
`i`. -/
theorem C101_polyline_partial (stroke : K) (hs : 0 ≤ stroke) (l : List (K × K))
    (h : l.IsChain fun a b => a.1 = b.1 ∨ a.2 = b.2) :
    ∃ rs, polyRects stroke l = some rs ∧ rs.length = l.length - 1 ∧
      ∀ i (h1 : i + 1 < l.length) (h2 : i < rs.length) (p : K × K), Spec.OnLine l[i] l[i + 1] p → Spec.InRect rs[i] p := by
  induction l with
  | nil => exact ⟨[], rfl, rfl, fun i h1 => absurd h1 (by simp)⟩
  | cons a l ih =>
    cases l with
    | nil => exact ⟨[], rfl, rfl, fun i h1 => absurd h1 (by simp)⟩
    | cons b l =>
      rw [List.isChain_cons_cons] at h
      obtain ⟨rs, e, hl, hR⟩ := ih h.2
      obtain ⟨r, e1, hr, -⟩ := C101_partial a b stroke hs h.1
      refine ⟨r :: rs, by rw [polyRects, e1]; simp [e], by simp [hl], ?_⟩
      intro i h1 h2 p hp
      cases i with
      | zero => exact hr p hp
      | succ i => exact hR i (by simpa using h1) (by simpa using h2) p hp

example : polyRects (2 : ℚ) [(1, 2), (1, 6), (5, 6)] = some [((2, 4), 2, 4), ((3, 7), 4, 2)] := by decide +kernel

/-- C101 fails for every line: the rectangle lies on one side of it, so half of the stroke is not in it; and the same line drawn in
the other direction becomes another rectangle. -/
theorem C101_violated (a b : K × K) (stroke : K) (hs : 0 < stroke) (h : a.1 = b.1 ∧ a.2 ≠ b.2) :
    (∃ r p, lineRect a b stroke = some r ∧ Spec.InStroke a b stroke p ∧ ¬ Spec.InRect r p) ∧
      lineRect a b stroke ≠ lineRect b a stroke := by
  obtain ⟨h1, h2⟩ := h
  have hd : b.2 - a.2 ≠ 0 := sub_ne_zero.2 (Ne.symm h2)
  have hsg : sign (b.2 - a.2) = 1 ∨ sign (b.2 - a.2) = -1 := by
    rcases sign_cases (b.2 - a.2) with ⟨_, h⟩ | ⟨_, h⟩ | ⟨h, _⟩
    · exact .inl h
    · exact .inr h
    · exact absurd h hd
  have hneg : sign (a.2 - b.2) = -sign (b.2 - a.2) := by
    rcases sign_cases (b.2 - a.2) with ⟨h3, h⟩ | ⟨h3, h⟩ | ⟨h3, h⟩ <;> rw [h] <;>
      rcases sign_cases (a.2 - b.2) with ⟨h5, h4⟩ | ⟨h5, h4⟩ | ⟨h5, h4⟩ <;> rw [h4] <;> first | (exfalso; linarith) | norm_num
  constructor
  · refine ⟨_, (a.1 - sign (b.2 - a.2) * stroke * (1 / 2), a.2), by unfold lineRect; rw [if_pos h1], ?_, ?_⟩
    · left
      refine ⟨h1, ?_, min_le_left _ _, le_max_left _ _⟩
      simp only
      rcases hsg with h | h <;> rw [h, abs_le] <;> constructor <;> linarith
    · rintro ⟨h3, _⟩
      simp only at h3
      rw [abs_le] at h3
      rcases hsg with h | h <;> rw [h] at h3 <;> linarith [h3.1, h3.2]
  · unfold lineRect
    rw [if_pos h1, if_pos h1.symm, hneg]
    intro e
    rw [Option.some.injEq, Prod.mk.injEq, Prod.mk.injEq] at e
    have e1 := e.1.1
    rw [← h1] at e1
    rcases hsg with h | h <;> rw [h] at e1 <;> linarith

example : lineRect ((1 : ℚ), 2) (1, 6) 2 = some ((2, 4), 2, 4) ∧ lineRect ((1 : ℚ), 6) (1, 2) 2 = some ((0, 4), 2, 4) := by
  norm_num [lineRect, sign]

/-- C102, what holds: if no two successive points of the three have a coordinate in common and they are not on a line, the centre
has the same distance to all three.
Missing: points with a coordinate in common (`C102_violated`). -/
theorem C102_partial (p1 p2 p3 : K × K) (h1 : p1.1 ≠ p2.1) (h2 : p1.2 ≠ p2.2) (h3 : p2.1 ≠ p3.1) (h4 : p2.2 ≠ p3.2)
    (h5 : (p2.2 - p1.2) * (p3.1 - p2.1) ≠ (p3.2 - p2.2) * (p2.1 - p1.1)) :
    ∃ c, circleCenter p1 p2 p3 = some c ∧ Spec.dist2 p1 c = Spec.dist2 p2 c ∧ Spec.dist2 p2 c = Spec.dist2 p3 c := by
  obtain ⟨a1, b1⟩ := p1
  obtain ⟨a2, b2⟩ := p2
  obtain ⟨a3, b3⟩ := p3
  simp only at h1 h2 h3 h4 h5
  have g1 : a2 - a1 ≠ 0 := sub_ne_zero.2 (Ne.symm h1)
  have g2 : b2 - b1 ≠ 0 := sub_ne_zero.2 (Ne.symm h2)
  have g3 : a3 - a2 ≠ 0 := sub_ne_zero.2 (Ne.symm h3)
  have g4 : b3 - b2 ≠ 0 := sub_ne_zero.2 (Ne.symm h4)
  have n1 : (-1 : K) / ((b2 - b1) / (a2 - a1)) = -(a2 - a1) / (b2 - b1) := by field_simp
  have n2 : (-1 : K) / ((b3 - b2) / (a3 - a2)) = -(a3 - a2) / (b3 - b2) := by field_simp
  have hne : -(a3 - a2) / (b3 - b2) ≠ -(a2 - a1) / (b2 - b1) := by
    intro e
    rw [div_eq_div_iff g4 g2] at e
    apply h5
    linear_combination -e
  have hne' : -(a3 - a2) / (b3 - b2) - -(a2 - a1) / (b2 - b1) ≠ 0 := sub_ne_zero.2 hne
  unfold circleCenter
  simp only [h1, h2, h3, h4, Ne.symm h1, Ne.symm h2, false_and, if_false]
  simp only [pdiv, g1, g3, div_eq_zero_iff, g2, g4, or_self, if_false, Option.bind_eq_bind, Option.bind_some, n1, n2, hne, ne_eq,
    not_false_eq_true, if_true, hne', Option.pure_def]
  have q1 : -(a2 - a1) / (b2 - b1) * (b2 - b1) = -(a2 - a1) := div_mul_cancel₀ _ g2
  have q2 : -(a3 - a2) / (b3 - b2) * (b3 - b2) = -(a3 - a2) := div_mul_cancel₀ _ g4
  generalize -(a2 - a1) / (b2 - b1) = m1 at *
  generalize -(a3 - a2) / (b3 - b2) = m2 at *
  have q3 := div_mul_cancel₀ ((b2 + b1) * (1 / 2) - (b3 + b2) * (1 / 2) - m1 * ((a2 + a1) * (1 / 2)) + m2 * ((a3 + a2) * (1 / 2))) hne'
  refine ⟨_, rfl, ?_, ?_⟩
  · simp only [Spec.dist2]
    generalize ((b2 + b1) * (1 / 2) - (b3 + b2) * (1 / 2) - m1 * ((a2 + a1) * (1 / 2)) + m2 * ((a3 + a2) * (1 / 2))) /
      (m2 - m1) = x at *
    linear_combination (2 * (x - (a2 + a1) * (1 / 2))) * q1
  · simp only [Spec.dist2]
    generalize ((b2 + b1) * (1 / 2) - (b3 + b2) * (1 / 2) - m1 * ((a2 + a1) * (1 / 2)) + m2 * ((a3 + a2) * (1 / 2))) /
      (m2 - m1) = x at *
    linear_combination (2 * (x - (a3 + a2) * (1 / 2))) * q2 - 2 * (b3 - b2) * q3

example : circleCenter ((5 : ℚ), 0) (4, 3) (0, 5) = some (0, 0) := by norm_num [circleCenter, pdiv]

/-- C102 fails: if the three points make a right angle with sides along the axes, the computed centre is the second point itself. -/
theorem C102_violated (p1 p2 p3 : K × K) (h : (p1.1 = p2.1 ∧ p2.2 = p3.2) ∨ (p1.2 = p2.2 ∧ p2.1 = p3.1)) (hne : p1 ≠ p2) :
    circleCenter p1 p2 p3 = some p2 ∧ Spec.dist2 p1 p2 ≠ Spec.dist2 p2 p2 := by
  obtain ⟨a1, b1⟩ := p1
  obtain ⟨a2, b2⟩ := p2
  obtain ⟨a3, b3⟩ := p3
  simp only at h
  constructor
  · unfold circleCenter
    simp only
    by_cases h1 : a1 = a2 ∧ b2 = b3
    · obtain ⟨rfl, rfl⟩ := h1
      simp only [and_self, if_true, Option.some.injEq, Prod.mk.injEq]
      constructor <;> ring
    · rw [if_neg h1]
      obtain ⟨rfl, rfl⟩ := h.resolve_left h1
      simp only [and_self, if_true, Option.some.injEq, Prod.mk.injEq]
      constructor <;> ring
  · simp only [Spec.dist2]
    intro e
    apply hne
    have e1 : (a1 - a2) ^ 2 + (b1 - b2) ^ 2 = 0 := by rw [e]; ring
    have e2 : (a1 - a2) ^ 2 = 0 := by nlinarith [sq_nonneg (a1 - a2), sq_nonneg (b1 - b2)]
    have e3 : (b1 - b2) ^ 2 = 0 := by nlinarith [sq_nonneg (a1 - a2), sq_nonneg (b1 - b2)]
    have e4 : a1 - a2 = 0 := by simpa using e2
    have e5 : b1 - b2 = 0 := by simpa using e3
    rw [sub_eq_zero.1 e4, sub_eq_zero.1 e5]

/-- Points on the unit circle. -/
example : circleCenter ((3/5 : ℚ), -4/5) (3/5, 4/5) (-3/5, 4/5) = some (3/5, 4/5) := by norm_num [circleCenter]

/-- C102 fails: three points on a circle around the origin, the first two on a horizontal line, give another centre; two on a
vertical line and a third one elsewhere give an exception. -/
theorem C102_axis_violated : circleCenter ((3 : ℚ), 4) (-3, 4) (-5, 0) ≠ some (0, 0) ∧
    Spec.dist2 ((3 : ℚ), 4) (0, 0) = 25 ∧ Spec.dist2 ((-3 : ℚ), 4) (0, 0) = 25 ∧ Spec.dist2 ((-5 : ℚ), 0) (0, 0) = 25 ∧
    circleCenter ((3 : ℚ), 4) (3, -4) (-5, 0) = none := by
  norm_num [circleCenter, Spec.dist2, pdiv]

theorem lineCmds_append (t : K × K) (ls : List ((K × K) × (K × K))) (cs : List (Cmd K)) (h : cs ≠ []) :
    lineCmds t ls cs = cs ++ ls.map (fun l => .g01 (Spec.flip t l.2)) := by
  induction ls generalizing cs with
  | nil => simp [lineCmds]
  | cons l ls ih =>
    obtain ⟨a, b⟩ := l
    unfold lineCmds
    simp only [h, if_false]
    rw [ih _ (by simp)]
    simp [Spec.flip]

theorem cuts_chain (t : K × K) (ls : List ((K × K) × (K × K))) (q : K × K) (h : Spec.Chained ((q, q) :: ls)) :
    Spec.cuts (some (Spec.flip t q)) (ls.map (fun l => Cmd.g01 (Spec.flip t l.2))) =
      ls.map (fun l => (Spec.flip t l.1, Spec.flip t l.2)) := by
  induction ls generalizing q with
  | nil => rfl
  | cons l ls ih =>
    obtain ⟨h1, h2⟩ := h
    simp only [List.map_cons, Spec.cuts]
    simp only at h1
    rw [← h1]
    congr 1
    apply ih
    cases ls with
    | nil => trivial
    | cons m ls => exact h2

/-- C103, what holds: if each line of the drawing begins where the one before it ended, the program cuts the lines of the drawing, in
order, and nothing else.
Missing: lines that are not connected (`C103_violated`). -/
theorem C103_partial (t : K × K) (ls : List ((K × K) × (K × K))) (h : Spec.Chained ls) :
    Spec.cuts none (lineCmds t ls []) = ls.map (fun l => (Spec.flip t l.1, Spec.flip t l.2)) := by
  cases ls with
  | nil => rfl
  | cons l ls =>
    obtain ⟨a, b⟩ := l
    unfold lineCmds
    simp only [if_true, List.nil_append, List.singleton_append]
    rw [lineCmds_append _ _ _ (by simp)]
    simp only [List.cons_append, List.nil_append, Spec.cuts, List.map_cons]
    change ((Spec.flip t a), (Spec.flip t b)) :: _ = _
    congr 1
    apply cuts_chain
    cases ls with
    | nil => trivial
    | cons m ls => exact h

example : lineCmds ((1 : ℚ), 0) [((0, 0), (2, 0)), ((2, 0), (2, 3))] [] = [.g00 (1, 0), .g01 (3, 0), .g01 (3, -3)] := by
  decide +kernel

/-- C103 fails: two parallel lines; the program cuts a diagonal instead of the second line. -/
theorem C103_violated : let ls := [(((0 : ℚ), 0), ((2 : ℚ), 0)), ((0, 1), (2, 1))]
    Spec.cuts none (lineCmds (0, 0) ls []) = [((0, 0), (2, 0)), ((2, 0), (2, -1))] ∧
      ((Spec.flip (0, 0) (0, 1), Spec.flip (0, 0) (2, 1)) : (ℚ × ℚ) × (ℚ × ℚ)) ∉ Spec.cuts none (lineCmds (0, 0) ls []) := by
  decide +kernel

end Properties

end Verif.Gui
