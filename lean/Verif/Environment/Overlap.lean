import Verif.Geometry.Props2
import Mathlib.Analysis.SpecialFunctions.Trigonometric.Basic

/-! # C145: the overlap and outside tests for obstacles

`Obstacle2D.overlaps_with` and `Obstacle2D.is_outside_of` decide whether a simulated obstacle bounces
(environment.py:189-323).  The helpers of `geometry.py` are those of `Verif/Geometry/Model.lean`.
Only the last column of the signal `position` is read, so an obstacle is its shape and that column;
the signal `orientation`, by which the obstacle is drawn and avoided, is a field here too. -/

set_option linter.unusedSectionVars false

namespace Verif.Environment.Overlap
open Verif.Geometry

/-! ## Model -/

/-- The shapes that the two functions distinguish, with the arguments they are constructed with
(shape.py:51-64, 130-142, 175-181, 213-222): circles, rectangles (also squares), beams and other
polygons. -/
inductive Shape where
  | circle (radius : ℝ)
  | rectangle (width height orientation : ℝ)
  | beam (width height orientation : ℝ)
  | polygon (vertices : List (ℝ × ℝ)) (orientation : ℝ)

/-- `Shape2D.rotate` on one column, shape.py:38-44. -/
noncomputable def rotate (th : ℝ) (p : ℝ × ℝ) : ℝ × ℝ :=
  (Real.cos th * p.1 - Real.sin th * p.2, Real.sin th * p.1 + Real.cos th * p.2)

/-- The attribute `vertices` of a polyhedron: the given ones, rotated (shape.py:132-139, 177-181,
215-219).  A beam keeps the two ends of its axis. -/
noncomputable def Shape.vertices : Shape → List (ℝ × ℝ)
  | .circle _ => []
  | .rectangle w h th => (rectVertices w h).map (rotate th)
  | .beam w _ th => [(1 / 2 * w, 0), (-(1 / 2) * w, 0)].map (rotate th)
  | .polygon vs th => vs.map (rotate th)

/-- The attribute `orientation` of a polyhedron, shape.py:138. -/
noncomputable def Shape.orientation : Shape → ℝ
  | .circle _ => 0
  | .rectangle _ _ th => th
  | .beam _ _ th => th
  | .polygon _ th => th

/-- An obstacle at the current time: shape and last columns of the signals `position` and
`orientation` (obstacle.py:340-386). -/
structure Obstacle where
  shape : Shape
  position : ℝ × ℝ
  orientation : ℝ

/-- Circle against polyhedron, obstacle.py:408-413 and 418-423. -/
noncomputable def circlePoly (r : ℝ) (c : ℝ × ℝ) (vs : List (ℝ × ℝ)) (pos : ℝ × ℝ) : Bool :=
  pointInPolyhedron c vs pos 0 || circlePolyhedronIntersection c r vs pos

/-- `Obstacle2D.overlaps_with`, obstacle.py:388-473; `none` stands for the `RuntimeError`s.  The only
checkpoint of a circle is its centre, with its radius (shape.py:64-65). -/
noncomputable def overlapsWith (self obst : Obstacle) : Option Bool :=
  match self.shape, obst.shape with
  | .circle r1, .circle r2 => some (decide (dist2 self.position obst.position < r1 + r2))
  | .circle r, s => some (circlePoly r self.position s.vertices obst.position)
  | s, .circle r => some (circlePoly r obst.position s.vertices self.position)
  | .rectangle w1 h1 th1, .rectangle w2 h2 th2 =>
      if th2 = 0 then
        rectanglesOverlap ⟨(Shape.rectangle w2 h2 th2).vertices, th2, obst.position⟩
          ⟨(Shape.rectangle w1 h1 th1).vertices, th1, self.position⟩
      else none
  | _, _ => none

/-- A value between two limits, `lo <= x <= hi`. -/
noncomputable def within (lo x hi : ℝ) : Bool := decide (lo ≤ x ∧ x ≤ hi)

/-- `Obstacle2D.is_outside_of`, obstacle.py:475-507, with the shape and position of the room; `none`
stands for the printed message (the call then returns `None`, which counts as not outside). -/
noncomputable def isOutsideOf (self : Obstacle) (room : Shape) (roomPos : ℝ × ℝ) : Option Bool :=
  match room with
  | .rectangle w h th =>
      let l := Placed.limits ⟨(Shape.rectangle w h th).vertices, th, roomPos⟩
      match self.shape with
      | .circle r => some (
          !within l.1 (self.position.1 + r) l.2.1 || !within l.2.2.1 (self.position.2 + r) l.2.2.2 ||
          !within l.1 (self.position.1 - r) l.2.1 || !within l.2.2.1 (self.position.2 - r) l.2.2.2)
      | s => some (s.vertices.any fun v =>
          !within l.1 (v.1 + self.position.1) l.2.1 || !within l.2.2.1 (v.2 + self.position.2) l.2.2.2)
  | _ => none

/-! ## Specification -/

namespace Spec

/-- The points of a shape placed at the origin without rotation.  A beam is the set of points within
half its height of its axis. -/
def Covers : Shape → ℝ × ℝ → Prop
  | .circle r, q => dist2 (0, 0) q ≤ r
  | .rectangle w h _, q => |q.1| ≤ w / 2 ∧ |q.2| ≤ h / 2
  | .beam w h _, q => ∃ x, |x| ≤ w / 2 ∧ dist2 (x, 0) q ≤ h / 2
  | .polygon vs _, q => q ∈ convexHull ℝ {v | v ∈ vs}

/-- The place where an obstacle is: its shape, turned by the orientation of the shape and that of the
obstacle, and moved to its position. -/
def At (o : Obstacle) (p : ℝ × ℝ) : Prop :=
  ∃ q, Covers o.shape q ∧
    p.1 = o.position.1 + (Real.cos (o.shape.orientation + o.orientation) * q.1
      - Real.sin (o.shape.orientation + o.orientation) * q.2) ∧
    p.2 = o.position.2 + (Real.sin (o.shape.orientation + o.orientation) * q.1
      + Real.cos (o.shape.orientation + o.orientation) * q.2)

/-- Some point belongs to both. -/
def Meet (a b : Obstacle) : Prop := ∃ p, At a p ∧ At b p

/-- A room (an obstacle that is not turned after construction) contains the obstacle. -/
def Inside (o : Obstacle) (room : Shape) (roomPos : ℝ × ℝ) : Prop :=
  ∀ p, At o p → At ⟨room, roomPos, 0⟩ p

end Spec

/-! ## Lemmas -/

theorem rotate_zero (p : ℝ × ℝ) : rotate 0 p = p := by
  simp [rotate]

theorem map_rotate_zero (vs : List (ℝ × ℝ)) : vs.map (rotate 0) = vs := by
  rw [show (rotate 0) = id from funext rotate_zero, List.map_id]

theorem dist2_comm (p q : ℝ × ℝ) : dist2 p q = dist2 q p := by
  unfold dist2; congr 1; ring

/-- Rotation as a linear map. -/
noncomputable def rotL (th : ℝ) : (ℝ × ℝ) →ₗ[ℝ] (ℝ × ℝ) where
  toFun := rotate th
  map_add' x y := by ext <;> simp [rotate] <;> ring
  map_smul' c x := by ext <;> simp [rotate] <;> ring

theorem hull_rotate (th : ℝ) (vs : List (ℝ × ℝ)) (p : ℝ × ℝ) :
    p ∈ convexHull ℝ {v | v ∈ vs.map (rotate th)} ↔ ∃ q ∈ convexHull ℝ {v | v ∈ vs}, p = rotate th q := by
  have e : {v | v ∈ vs.map (rotate th)} = (rotL th) '' {v | v ∈ vs} := by
    ext v; simp [rotL]
  rw [e, ← (rotL th).image_convexHull]
  constructor
  · rintro ⟨q, hq, rfl⟩; exact ⟨q, hq, rfl⟩
  · rintro ⟨q, hq, rfl⟩; exact ⟨q, hq, rfl⟩

theorem at_circle (r : ℝ) (pos : ℝ × ℝ) (o : ℝ) (p : ℝ × ℝ) :
    Spec.At ⟨.circle r, pos, o⟩ p ↔ dist2 pos p ≤ r := by
  set th := (Shape.circle r).orientation + o with hth
  have cs := Real.sin_sq_add_cos_sq th
  constructor
  · rintro ⟨q, hq, e1, e2⟩
    change dist2 (0, 0) q ≤ r at hq
    refine le_trans (le_of_eq ?_) hq
    unfold dist2
    rw [e1, e2]
    congr 1
    dsimp only
    linear_combination (q.1 ^ 2 + q.2 ^ 2) * cs
  · intro h
    refine ⟨(Real.cos th * (p.1 - pos.1) + Real.sin th * (p.2 - pos.2),
      - Real.sin th * (p.1 - pos.1) + Real.cos th * (p.2 - pos.2)), ?_, ?_, ?_⟩
    · change dist2 (0, 0) _ ≤ r
      refine le_trans (le_of_eq ?_) h
      unfold dist2
      congr 1
      dsimp only
      linear_combination ((p.1 - pos.1) ^ 2 + (p.2 - pos.2) ^ 2) * cs
    · dsimp only
      linear_combination (-(p.1 - pos.1)) * cs
    · dsimp only
      linear_combination (-(p.2 - pos.2)) * cs

theorem at_rect (w h : ℝ) (pos p : ℝ × ℝ) :
    Spec.At ⟨.rectangle w h 0, pos, 0⟩ p ↔ InRect w h pos p := by
  unfold Spec.At InRect
  simp only [Shape.orientation, add_zero, Real.cos_zero, Real.sin_zero, one_mul, zero_mul, sub_zero, zero_add]
  constructor
  · rintro ⟨q, ⟨h1, h2⟩, e1, e2⟩
    rw [e1, e2]; simpa using ⟨h1, h2⟩
  · rintro ⟨h1, h2⟩
    exact ⟨(p.1 - pos.1, p.2 - pos.2), ⟨h1, h2⟩, by simp, by simp⟩

theorem at_polygon (vs : List (ℝ × ℝ)) (th : ℝ) (pos p : ℝ × ℝ) :
    Spec.At ⟨.polygon vs th, pos, 0⟩ p ↔
      (p.1 - pos.1, p.2 - pos.2) ∈ convexHull ℝ {v | v ∈ (Shape.polygon vs th).vertices} := by
  rw [show (Shape.polygon vs th).vertices = vs.map (rotate th) from rfl, hull_rotate]
  unfold Spec.At
  simp only [Shape.orientation, add_zero]
  constructor
  · rintro ⟨q, hq, e1, e2⟩
    refine ⟨q, hq, ?_⟩
    rw [e1, e2]; simp [rotate]
  · rintro ⟨q, hq, e⟩
    refine ⟨q, hq, ?_, ?_⟩
    · have := congrArg Prod.fst e; simp only [rotate] at this; linarith
    · have := congrArg Prod.snd e; simp only [rotate] at this; linarith

theorem box_convex (x1 x2 y1 y2 : ℝ) : Convex ℝ {q : ℝ × ℝ | (x1 ≤ q.1 ∧ q.1 ≤ x2) ∧ (y1 ≤ q.2 ∧ q.2 ≤ y2)} := by
  have := (convex_Icc x1 x2).prod (convex_Icc y1 y2) (𝕜 := ℝ)
  exact this

theorem hull_rect (w h : ℝ) (hw : 0 < w) (hh : 0 < h) (q : ℝ × ℝ) :
    q ∈ convexHull ℝ {v | v ∈ rectVertices w h} ↔ |q.1| ≤ w / 2 ∧ |q.2| ≤ h / 2 := by
  constructor
  · intro hq
    rw [abs_le, abs_le]
    refine convexHull_min ?_ (box_convex (-(w / 2)) (w / 2) (-(h / 2)) (h / 2)) hq
    intro v hv
    change v ∈ rectVertices w h at hv
    simp only [rectVertices, List.mem_cons, List.not_mem_nil, or_false] at hv
    rcases hv with rfl | rfl | rfl | rfl <;>
      exact ⟨⟨by dsimp only; linarith, by dsimp only; linarith⟩, by dsimp only; linarith, by dsimp only; linarith⟩
  · rintro ⟨h1, h2⟩
    have := (C39_exact (rectVertices w h) (rect_convexCW w h hw hh) q (0, 0)).1 ?_
    · simpa using this
    · rw [pip_iff (rect_convexCW w h hw hh)]
      rw [abs_le] at h1 h2
      intro k hk
      have hk : k < 4 := hk
      interval_cases k <;> simp [rectVertices, area2] <;> nlinarith

theorem at_rect_rotated (w h th : ℝ) (hw : 0 < w) (hh : 0 < h) (pos p : ℝ × ℝ) :
    Spec.At ⟨.rectangle w h th, pos, 0⟩ p ↔
      (p.1 - pos.1, p.2 - pos.2) ∈ convexHull ℝ {v | v ∈ (Shape.rectangle w h th).vertices} := by
  have := at_polygon (rectVertices w h) th pos p
  refine Iff.trans ?_ this
  unfold Spec.At
  constructor
  · rintro ⟨q, hq, e⟩; exact ⟨q, (hull_rect w h hw hh q).2 hq, e⟩
  · rintro ⟨q, hq, e⟩; exact ⟨q, (hull_rect w h hw hh q).1 hq, e⟩

theorem boundary_hull (vs : List (ℝ × ℝ)) (pos q : ℝ × ℝ) (h : OnBoundary vs pos q) :
    (q.1 - pos.1, q.2 - pos.2) ∈ convexHull ℝ {v | v ∈ vs} := by
  obtain ⟨e, he, t, t0, t1, rfl⟩ := h
  obtain ⟨k, hk, rfl⟩ := (mem_edges (0, 0) _ e).1 he
  have hk' : k < vs.length := by simpa using hk
  have hk2 : (k + 1) % vs.length < vs.length := Nat.mod_lt _ (by omega)
  have hm : ∀ j, j < vs.length → (vs.map fun v : ℝ × ℝ => (v.1 + pos.1, v.2 + pos.2)).getD j (0, 0)
      = ((vs.getD j (0, 0)).1 + pos.1, (vs.getD j (0, 0)).2 + pos.2) := by
    intro j hj
    rw [List.getD_eq_getElem _ _ (by simpa using hj), List.getD_eq_getElem _ _ hj, List.getElem_map]
  have mem : ∀ j, j < vs.length → vs.getD j (0, 0) ∈ convexHull ℝ {v | v ∈ vs} := by
    intro j hj
    apply subset_convexHull
    show vs.getD j (0, 0) ∈ vs
    rw [List.getD_eq_getElem _ _ hj]; exact List.getElem_mem _
  rw [List.length_map, hm k hk', hm _ hk2]
  have := (convex_convexHull ℝ {v | v ∈ vs}) (mem k hk') (mem _ hk2) (sub_nonneg.2 t1) t0 (by ring)
  convert this using 1
  ext <;> simp [lineAt] <;> ring

theorem area2_rotate (th : ℝ) (a b c : ℝ × ℝ) :
    area2 (rotate th a) (rotate th b) (rotate th c) = area2 a b c := by
  have cs := Real.sin_sq_add_cos_sq th
  unfold area2 rotate
  dsimp only
  linear_combination ((b.1 - a.1) * (c.2 - a.2) - (b.2 - a.2) * (c.1 - a.1)) * cs

theorem convexCW_rotate (th : ℝ) {vs : List (ℝ × ℝ)} (h : ConvexCW vs) : ConvexCW (vs.map (rotate th)) := by
  have z : rotate th (0, 0) = (0, 0) := by simp [rotate]
  obtain ⟨h3, h⟩ := h
  refine ⟨by simpa using h3, ?_⟩
  intro k j hk hj h1 h2
  have gd : ∀ i, (vs.map (rotate th)).getD i (0, 0) = rotate th (vs.getD i (0, 0)) := by
    intro i
    rw [List.getD_eq_getElem?_getD, List.getD_eq_getElem?_getD, List.getElem?_map]
    cases vs[i]? <;> simp [z]
  rw [List.length_map] at *
  rw [gd, gd, gd, area2_rotate]
  exact h k j hk hj h1 h2

theorem edges_ne {vs : List (ℝ × ℝ)} (h : ConvexCW vs) : ∀ e ∈ edges vs, e.1 ≠ e.2 := by
  intro e he
  obtain ⟨k, hk, rfl⟩ := (mem_edges (0, 0) vs e).1 he
  exact convexCW_ne h hk

theorem circlePoly_sound {vs : List (ℝ × ℝ)} (h : ConvexCW vs) (r : ℝ) (hr : 0 ≤ r) (c pos : ℝ × ℝ)
    (hit : circlePoly r c vs pos = true) :
    ∃ p : ℝ × ℝ, (p.1 - pos.1, p.2 - pos.2) ∈ convexHull ℝ {v | v ∈ vs} ∧ dist2 c p ≤ r + 2 / 10 ^ 6 := by
  unfold circlePoly at hit
  rw [Bool.or_eq_true] at hit
  rcases hit with hit | hit
  · refine ⟨c, (C39_exact vs h c pos).1 hit, ?_⟩
    have : dist2 c c = 0 := by simp [dist2]
    rw [this]; positivity
  · obtain ⟨q, hq, hd⟩ := C40_sound c r vs pos (edges_ne h) hit
    exact ⟨q, boundary_hull vs pos q hq, hd⟩

theorem foot_vertical (c v w : ℝ × ℝ) (e : v.1 = w.1) (ne : v.2 ≠ w.2) : foot c v w = (v.1, c.2) := by
  have : w.2 - v.2 ≠ 0 := sub_ne_zero.2 ne.symm
  unfold foot
  rw [e]
  ext
  · simp; field_simp; ring
  · simp

theorem foot_horizontal (c v w : ℝ × ℝ) (e : v.2 = w.2) (ne : v.1 ≠ w.1) : foot c v w = (c.1, v.2) := by
  have : w.1 - v.1 ≠ 0 := sub_ne_zero.2 ne.symm
  unfold foot
  rw [e]
  ext
  · simp
  · simp; field_simp; ring

theorem dist2_mono (c x q : ℝ × ℝ) (h1 : |x.1 - c.1| ≤ |q.1 - c.1|) (h2 : |x.2 - c.2| ≤ |q.2 - c.2|) :
    dist2 c x ≤ dist2 c q := by
  unfold dist2
  exact Real.sqrt_le_sqrt (add_le_add (sq_le_sq.2 h1) (sq_le_sq.2 h2))

theorem rect_vertices_zero (w h : ℝ) : (Shape.rectangle w h 0).vertices = rectVertices w h :=
  map_rotate_zero _

theorem placed_limits_zero (w h : ℝ) (hw : 0 ≤ w) (hh : 0 ≤ h) (pos : ℝ × ℝ) :
    Placed.limits ⟨(Shape.rectangle w h 0).vertices, 0, pos⟩
      = (-(w / 2) + pos.1, w / 2 + pos.1, -(h / 2) + pos.2, h / 2 + pos.2) := by
  rw [rect_vertices_zero]
  exact placedRect_limits w h hw hh pos

theorem rect_edges (w h : ℝ) (pos : ℝ × ℝ) :
    edges ((rectVertices w h).map fun v => (v.1 + pos.1, v.2 + pos.2)) =
      [((w / 2 + pos.1, h / 2 + pos.2), (w / 2 + pos.1, -(h / 2) + pos.2)),
       ((w / 2 + pos.1, -(h / 2) + pos.2), (-(w / 2) + pos.1, -(h / 2) + pos.2)),
       ((-(w / 2) + pos.1, -(h / 2) + pos.2), (-(w / 2) + pos.1, h / 2 + pos.2)),
       ((-(w / 2) + pos.1, h / 2 + pos.2), (w / 2 + pos.1, h / 2 + pos.2))] := by
  simp [edges, rectVertices]

theorem circle_rect_iff (w h : ℝ) (hw : 0 < w) (hh : 0 < h) (c pos : ℝ × ℝ) (r : ℝ) :
    circlePolyhedronIntersection c r (rectVertices w h) pos = true ↔
      dist2 c (w / 2 + pos.1, h / 2 + pos.2) ≤ r ∨ dist2 c (w / 2 + pos.1, -(h / 2) + pos.2) ≤ r ∨
      (-(h / 2) + pos.2 - 1 / 10 ^ 6 ≤ c.2 ∧ c.2 ≤ h / 2 + pos.2 + 1 / 10 ^ 6 ∧
        (dist2 c (w / 2 + pos.1, c.2) ≤ r ∨ dist2 c (-(w / 2) + pos.1, c.2) ≤ r)) ∨
      (-(w / 2) + pos.1 - 1 / 10 ^ 6 ≤ c.1 ∧ c.1 ≤ w / 2 + pos.1 + 1 / 10 ^ 6 ∧
        (dist2 c (c.1, h / 2 + pos.2) ≤ r ∨ dist2 c (c.1, -(h / 2) + pos.2) ≤ r)) := by
  have eps : (0 : ℝ) < 1 / 10 ^ 6 := by norm_num
  have f1 := foot_vertical c (w / 2 + pos.1, h / 2 + pos.2) (w / 2 + pos.1, -(h / 2) + pos.2) rfl
    (by dsimp only; intro e; linarith)
  have f2 := foot_horizontal c (w / 2 + pos.1, -(h / 2) + pos.2) (-(w / 2) + pos.1, -(h / 2) + pos.2) rfl
    (by dsimp only; intro e; linarith)
  have f3 := foot_vertical c (-(w / 2) + pos.1, -(h / 2) + pos.2) (-(w / 2) + pos.1, h / 2 + pos.2) rfl
    (by dsimp only; intro e; linarith)
  have f4 := foot_horizontal c (-(w / 2) + pos.1, h / 2 + pos.2) (w / 2 + pos.1, h / 2 + pos.2) rfl
    (by dsimp only; intro e; linarith)
  have tk : ((rectVertices w h).map fun v : ℝ × ℝ => (v.1 + pos.1, v.2 + pos.2)).take 2
      = [(w / 2 + pos.1, h / 2 + pos.2), (w / 2 + pos.1, -(h / 2) + pos.2)] := rfl
  unfold circlePolyhedronIntersection
  dsimp only
  rw [tk, rect_edges]
  simp only [List.any_cons, List.any_nil, Bool.or_false, sideHit, f1, f2, f3, f4, Bool.or_eq_true,
    Bool.and_eq_true, decide_eq_true_eq]
  generalize 1 / (10 : ℝ) ^ 6 = ep at *
  constructor
  · rintro ((a | a) | ⟨a | a, d⟩ | ⟨a | a, d⟩ | ⟨a | a, d⟩ | ⟨a | a, d⟩)
    · exact Or.inl a
    · exact Or.inr (Or.inl a)
    · exact Or.inr (Or.inr (Or.inl ⟨by linarith [a.2.2.1, a.2.2.2], by linarith [a.2.2.1, a.2.2.2], Or.inl d⟩))
    · exact Or.inr (Or.inr (Or.inl ⟨by linarith [a.2.2.1, a.2.2.2], by linarith [a.2.2.1, a.2.2.2], Or.inl d⟩))
    · exact Or.inr (Or.inr (Or.inr ⟨by linarith [a.1, a.2.1], by linarith [a.1, a.2.1], Or.inr d⟩))
    · exact Or.inr (Or.inr (Or.inr ⟨by linarith [a.1, a.2.1], by linarith [a.1, a.2.1], Or.inr d⟩))
    · exact Or.inr (Or.inr (Or.inl ⟨by linarith [a.2.2.1, a.2.2.2], by linarith [a.2.2.1, a.2.2.2], Or.inr d⟩))
    · exact Or.inr (Or.inr (Or.inl ⟨by linarith [a.2.2.1, a.2.2.2], by linarith [a.2.2.1, a.2.2.2], Or.inr d⟩))
    · exact Or.inr (Or.inr (Or.inr ⟨by linarith [a.1, a.2.1], by linarith [a.1, a.2.1], Or.inl d⟩))
    · exact Or.inr (Or.inr (Or.inr ⟨by linarith [a.1, a.2.1], by linarith [a.1, a.2.1], Or.inl d⟩))
  · rintro (a | a | ⟨b1, b2, d | d⟩ | ⟨b1, b2, d | d⟩)
    · exact Or.inl (Or.inl a)
    · exact Or.inl (Or.inr a)
    · exact Or.inr (Or.inl ⟨Or.inr ⟨by linarith, by linarith, by linarith, by linarith⟩, d⟩)
    · exact Or.inr (Or.inr (Or.inr (Or.inl ⟨Or.inl ⟨by linarith, by linarith, by linarith, by linarith⟩, d⟩)))
    · exact Or.inr (Or.inr (Or.inr (Or.inr ⟨Or.inl ⟨by linarith, by linarith, by linarith, by linarith⟩, d⟩)))
    · exact Or.inr (Or.inr (Or.inl ⟨Or.inr ⟨by linarith, by linarith, by linarith, by linarith⟩, d⟩))

theorem pip_rect (w h : ℝ) (hw : 0 < w) (hh : 0 < h) (c pos : ℝ × ℝ) :
    pointInPolyhedron c (rectVertices w h) pos 0 = true ↔ InRect w h pos c := by
  rw [C39_exact _ (rect_convexCW w h hw hh), hull_rect w h hw hh]; rfl

/-- The polygons that are treated as such: rectangles with sides, and strictly convex polygons listed
clockwise, both possibly rotated on construction. -/
def Polygonal : Shape → Prop
  | .circle _ => False
  | .rectangle w h _ => 0 < w ∧ 0 < h
  | .beam _ _ _ => False
  | .polygon vs _ => ConvexCW vs

theorem polygonal_convex {s : Shape} (h : Polygonal s) : ConvexCW s.vertices := by
  cases s with
  | circle r => exact h.elim
  | beam w h' th => exact h.elim
  | rectangle w h' th => exact convexCW_rotate th (rect_convexCW w h' h.1 h.2)
  | polygon vs th => exact convexCW_rotate th h

theorem polygonal_at {s : Shape} (h : Polygonal s) (pos p : ℝ × ℝ) :
    Spec.At ⟨s, pos, 0⟩ p ↔ (p.1 - pos.1, p.2 - pos.2) ∈ convexHull ℝ {v | v ∈ s.vertices} := by
  cases s with
  | circle r => exact h.elim
  | beam w h' th => exact h.elim
  | rectangle w h' th => exact at_rect_rotated w h' th h.1 h.2 pos p
  | polygon vs th => exact at_polygon vs th pos p

theorem overlaps_circle_poly {s : Shape} (h : Polygonal s) (r : ℝ) (c pos : ℝ × ℝ) (o1 o2 : ℝ) :
    overlapsWith ⟨.circle r, c, o1⟩ ⟨s, pos, o2⟩ = some (circlePoly r c s.vertices pos) := by
  cases s with
  | circle r => exact h.elim
  | beam w h' th => exact h.elim
  | rectangle w h' th => rfl
  | polygon vs th => rfl

/-! ## C145 -/

/-- **C145** (circles) Two circles are reported as overlapping exactly when a point lies in the
interior of both; circles that only touch are not. -/
theorem C145_circles (r1 r2 : ℝ) (h1 : 0 < r1) (h2 : 0 < r2) (c1 c2 : ℝ × ℝ) (o1 o2 : ℝ) :
    overlapsWith ⟨.circle r1, c1, o1⟩ ⟨.circle r2, c2, o2⟩ = some true ↔
      ∃ p, dist2 c1 p < r1 ∧ dist2 c2 p < r2 := by
  have e : overlapsWith ⟨.circle r1, c1, o1⟩ ⟨.circle r2, c2, o2⟩ = some (decide (dist2 c1 c2 < r1 + r2)) := rfl
  rw [e, Option.some_inj, decide_eq_true_eq]
  constructor
  · intro h
    have hs : 0 < r1 + r2 := by linarith
    set s := r1 / (r1 + r2) with hsd
    have s0 : 0 < s := div_pos h1 hs
    have s1 : s < 1 := (div_lt_one hs).2 (by linarith)
    have key : ∀ u : ℝ, 0 ≤ u → ∀ a b : ℝ × ℝ, dist2 a (lineAt a b u) = u * dist2 a b := by
      intro u hu a b
      unfold dist2 lineAt
      dsimp only
      rw [show (a.1 + u * (b.1 - a.1) - a.1) ^ 2 + (a.2 + u * (b.2 - a.2) - a.2) ^ 2
        = u ^ 2 * ((b.1 - a.1) ^ 2 + (b.2 - a.2) ^ 2) by ring, Real.sqrt_mul (sq_nonneg u), Real.sqrt_sq hu]
    refine ⟨lineAt c1 c2 s, ?_, ?_⟩
    · rw [key s s0.le]
      calc s * dist2 c1 c2 < s * (r1 + r2) := mul_lt_mul_of_pos_left h s0
        _ = r1 := div_mul_cancel₀ _ hs.ne'
    · have e : lineAt c1 c2 s = lineAt c2 c1 (1 - s) := by
        unfold lineAt; ext <;> dsimp only <;> ring
      rw [e, key (1 - s) (by linarith), dist2_comm]
      calc (1 - s) * dist2 c1 c2 < (1 - s) * (r1 + r2) := mul_lt_mul_of_pos_left h (by linarith)
        _ = r2 := by rw [sub_mul, hsd, div_mul_cancel₀ _ hs.ne']; ring
  · rintro ⟨p, hp1, hp2⟩
    have := dist2_triangle c1 p c2
    rw [dist2_comm p c2] at this
    linarith

/-- **C145** (order) The answer does not depend on which of the two obstacles is asked. -/
theorem C145_symmetric (a b : Obstacle) : overlapsWith a b = overlapsWith b a := by
  obtain ⟨sa, pa, oa⟩ := a
  obtain ⟨sb, pb, ob⟩ := b
  cases sa <;> cases sb <;> try rfl
  · unfold overlapsWith
    dsimp only
    rw [dist2_comm, add_comm]
  · rename_i w1 h1 t1 w2 h2 t2
    unfold overlapsWith rectanglesOverlap limitsOverlap
    dsimp only
    by_cases e1 : t1 = 0 <;> by_cases e2 : t2 = 0 <;> simp [e1, e2]
    rw [Bool.eq_iff_iff]
    simp only [Bool.and_eq_true, decide_eq_true_eq]
    constructor <;> rintro ⟨⟨⟨x1, x2⟩, x3⟩, x4⟩ <;> exact ⟨⟨⟨x2, x1⟩, x4⟩, x3⟩

/-- **C145** (answered) The test gives an answer exactly when one of the two obstacles is a circle or
both are rectangles constructed without rotation; otherwise it raises an error. -/
theorem C145_answered (a b : Obstacle) :
    (overlapsWith a b).isSome = true ↔
      (∃ r, a.shape = .circle r) ∨ (∃ r, b.shape = .circle r) ∨
      ((∃ w h, a.shape = .rectangle w h 0) ∧ ∃ w h, b.shape = .rectangle w h 0) := by
  obtain ⟨sa, pa, oa⟩ := a
  obtain ⟨sb, pb, ob⟩ := b
  cases sa <;> cases sb <;> simp [overlapsWith, rectanglesOverlap]
  rename_i w1 h1 t1 w2 h2 t2
  by_cases e1 : t1 = 0 <;> by_cases e2 : t2 = 0 <;> simp [e1, e2]

/-- **C145** (rectangles) Two rectangles that are not turned are reported as overlapping exactly when
they have a point in common. -/
theorem C145_rectangles_partial (w1 h1 w2 h2 : ℝ) (hw1 : 0 ≤ w1) (hh1 : 0 ≤ h1) (hw2 : 0 ≤ w2) (hh2 : 0 ≤ h2)
    (p1 p2 : ℝ × ℝ) :
    overlapsWith ⟨.rectangle w1 h1 0, p1, 0⟩ ⟨.rectangle w2 h2 0, p2, 0⟩ = some true ↔
      Spec.Meet ⟨.rectangle w1 h1 0, p1, 0⟩ ⟨.rectangle w2 h2 0, p2, 0⟩ := by
  obtain ⟨ans, e, ha⟩ := C38_overlap w2 h2 w1 h1 hw2 hh2 hw1 hh1 p2 p1
  have e' : overlapsWith ⟨.rectangle w1 h1 0, p1, 0⟩ ⟨.rectangle w2 h2 0, p2, 0⟩ = some ans := by
    unfold overlapsWith
    dsimp only
    rw [if_pos rfl, rect_vertices_zero, rect_vertices_zero]
    exact e
  rw [e', Option.some_inj, ha]
  unfold Spec.Meet
  constructor
  · rintro ⟨p, a, b⟩; exact ⟨p, (at_rect _ _ _ _).2 b, (at_rect _ _ _ _).2 a⟩
  · rintro ⟨p, a, b⟩; exact ⟨p, (at_rect _ _ _ _).1 b, (at_rect _ _ _ _).1 a⟩

/-- **C145** (circle and polygon, no false alarm) When a circle and a convex polygon are reported as
overlapping, they have a point in common, up to two millionths. -/
theorem C145_sound_partial (s : Shape) (hs : Polygonal s) (r : ℝ) (hr : 0 ≤ r) (c pos : ℝ × ℝ) (o : ℝ)
    (h : overlapsWith ⟨.circle r, c, o⟩ ⟨s, pos, 0⟩ = some true) :
    Spec.Meet ⟨.circle (r + 2 / 10 ^ 6), c, o⟩ ⟨s, pos, 0⟩ := by
  rw [overlaps_circle_poly hs, Option.some_inj] at h
  obtain ⟨p, hp, hd⟩ := circlePoly_sound (polygonal_convex hs) r hr c pos h
  exact ⟨p, (at_circle _ _ _ _).2 hd, (polygonal_at hs pos p).2 hp⟩

/-- **C145** (circle and polygon) A circle with its centre in a convex polygon is always reported. -/
theorem C145_centre_partial (s : Shape) (hs : Polygonal s) (r : ℝ) (c pos : ℝ × ℝ) (o : ℝ)
    (h : Spec.At ⟨s, pos, 0⟩ c) :
    overlapsWith ⟨.circle r, c, o⟩ ⟨s, pos, 0⟩ = some true := by
  rw [overlaps_circle_poly hs, Option.some_inj, circlePoly, Bool.or_eq_true]
  exact Or.inl ((C39_exact _ (polygonal_convex hs) c pos).2 ((polygonal_at hs pos c).1 h))

/-- **C145** (circle and rectangle) When a circle and a rectangle that is not turned have a point in
common this is reported, unless the centre of the circle is to the left of the rectangle and above or
below it at the same time. -/
theorem C145_circle_rectangle_partial (w h : ℝ) (hw : 0 < w) (hh : 0 < h) (r : ℝ) (c pos : ℝ × ℝ) (o : ℝ)
    (hc : ¬ (c.1 < pos.1 - w / 2 ∧ (c.2 < pos.2 - h / 2 ∨ pos.2 + h / 2 < c.2)))
    (hm : Spec.Meet ⟨.circle r, c, o⟩ ⟨.rectangle w h 0, pos, 0⟩) :
    overlapsWith ⟨.circle r, c, o⟩ ⟨.rectangle w h 0, pos, 0⟩ = some true := by
  obtain ⟨q, hq, hq'⟩ := hm
  rw [at_circle] at hq
  rw [at_rect, inRect_iff] at hq'
  obtain ⟨⟨x1, x2⟩, y1, y2⟩ := hq'
  rw [overlaps_circle_poly (s := .rectangle w h 0) ⟨hw, hh⟩, Option.some_inj, rect_vertices_zero, circlePoly,
    Bool.or_eq_true, pip_rect w h hw hh, circle_rect_iff w h hw hh, inRect_iff]
  have eps : (0 : ℝ) < 1 / 10 ^ 6 := by norm_num
  generalize 1 / (10 : ℝ) ^ 6 = ep at *
  have mono : ∀ x : ℝ × ℝ, |x.1 - c.1| ≤ |q.1 - c.1| → |x.2 - c.2| ≤ |q.2 - c.2| → dist2 c x ≤ r :=
    fun x h1 h2 => (dist2_mono c x q h1 h2).trans hq
  have up : ∀ a b d : ℝ, d ≤ a → a ≤ b → |a - d| ≤ |b - d| := by
    intro a b d h1 h2
    rw [abs_of_nonneg (by linarith), abs_of_nonneg (by linarith)]; linarith
  have dn : ∀ a b d : ℝ, a ≤ d → b ≤ a → |a - d| ≤ |b - d| := by
    intro a b d h1 h2
    rw [abs_of_nonpos (by linarith), abs_of_nonpos (by linarith)]; linarith
  have zr : ∀ a b : ℝ, |a - a| ≤ |b - a| := by
    intro a b; rw [sub_self, abs_zero]; exact abs_nonneg _
  rcases lt_or_ge c.1 (-(w / 2) + pos.1) with l | l
  · have c1 : ¬ c.2 < pos.2 - h / 2 := fun e => hc ⟨by linarith, Or.inl e⟩
    have c2 : ¬ pos.2 + h / 2 < c.2 := fun e => hc ⟨by linarith, Or.inr e⟩
    exact Or.inr (Or.inr (Or.inr (Or.inl ⟨by linarith, by linarith, Or.inr (mono _ (up _ _ _ l.le x1) (zr _ _))⟩)))
  · rcases lt_or_ge (w / 2 + pos.1) c.1 with g | g
    · rcases lt_or_ge c.2 (-(h / 2) + pos.2) with a | a
      · exact Or.inr (Or.inr (Or.inl (mono _ (dn _ _ _ g.le x2) (up _ _ _ a.le y1))))
      · rcases lt_or_ge (h / 2 + pos.2) c.2 with b | b
        · exact Or.inr (Or.inl (mono _ (dn _ _ _ g.le x2) (dn _ _ _ b.le y2)))
        · exact Or.inr (Or.inr (Or.inr (Or.inl ⟨by linarith, by linarith, Or.inl (mono _ (dn _ _ _ g.le x2) (zr _ _))⟩)))
    · rcases lt_or_ge c.2 (-(h / 2) + pos.2) with a | a
      · exact Or.inr (Or.inr (Or.inr (Or.inr ⟨by linarith, by linarith, Or.inr (mono _ (zr _ _) (up _ _ _ a.le y1))⟩)))
      · rcases lt_or_ge (h / 2 + pos.2) c.2 with b | b
        · exact Or.inr (Or.inr (Or.inr (Or.inr ⟨by linarith, by linarith, Or.inl (mono _ (zr _ _) (dn _ _ _ b.le y2))⟩)))
        · exact Or.inl ⟨⟨l, g⟩, a, b⟩

/-- For every rectangle, a circle to the left of it and above or below it (by more than one millionth)
that does not reach the corners on the right is never reported, although it can cover the corner on
the left. -/
theorem C145_corner_violated (w h : ℝ) (hw : 0 < w) (hh : 0 < h) (r : ℝ) (c pos : ℝ × ℝ) (o : ℝ)
    (hx : c.1 < pos.1 - w / 2 - 1 / 10 ^ 6)
    (hy : c.2 < pos.2 - h / 2 - 1 / 10 ^ 6 ∨ pos.2 + h / 2 + 1 / 10 ^ 6 < c.2)
    (h1 : r < dist2 c (pos.1 + w / 2, pos.2 + h / 2)) (h2 : r < dist2 c (pos.1 + w / 2, pos.2 - h / 2)) :
    overlapsWith ⟨.circle r, c, o⟩ ⟨.rectangle w h 0, pos, 0⟩ = some false ∧
    ((dist2 c (pos.1 - w / 2, pos.2 + h / 2) ≤ r ∨ dist2 c (pos.1 - w / 2, pos.2 - h / 2) ≤ r) →
      Spec.Meet ⟨.circle r, c, o⟩ ⟨.rectangle w h 0, pos, 0⟩) := by
  constructor
  · rw [overlaps_circle_poly (s := .rectangle w h 0) ⟨hw, hh⟩, Option.some_inj, rect_vertices_zero,
      Bool.eq_false_iff, circlePoly, Ne, Bool.or_eq_true, pip_rect w h hw hh, circle_rect_iff w h hw hh, inRect_iff]
    have eps : (0 : ℝ) < 1 / 10 ^ 6 := by norm_num
    generalize 1 / (10 : ℝ) ^ 6 = ep at *
    rw [show pos.1 + w / 2 = w / 2 + pos.1 by ring, show pos.2 + h / 2 = h / 2 + pos.2 by ring] at h1
    rw [show pos.1 + w / 2 = w / 2 + pos.1 by ring, show pos.2 - h / 2 = -(h / 2) + pos.2 by ring] at h2
    rintro (a | a | a | a | a)
    · linarith [a.1.1]
    · linarith
    · linarith
    · rcases hy with hy | hy <;> linarith [a.1, a.2.1]
    · linarith [a.1]
  · rintro (d | d)
    · refine ⟨_, (at_circle _ _ _ _).2 d, (at_rect _ _ _ _).2 ?_⟩
      unfold InRect; constructor
      · rw [show pos.1 - w / 2 - pos.1 = -(w / 2) by ring, abs_neg, abs_of_pos (by linarith)]
      · rw [show pos.2 + h / 2 - pos.2 = h / 2 by ring, abs_of_pos (by linarith)]
    · refine ⟨_, (at_circle _ _ _ _).2 d, (at_rect _ _ _ _).2 ?_⟩
      unfold InRect; constructor
      · rw [show pos.1 - w / 2 - pos.1 = -(w / 2) by ring, abs_neg, abs_of_pos (by linarith)]
      · rw [show pos.2 - h / 2 - pos.2 = -(h / 2) by ring, abs_neg, abs_of_pos (by linarith)]

/-- Only the axis of a beam is looked at, and that without its ends: a circle whose centre is on the
line through the axis is reported at any distance (here `x` is arbitrary), and a circle that reaches
into the beam from the side but not up to its axis is not reported. -/
theorem C145_beam_violated (w h : ℝ) (hw : 0 < w) (r : ℝ) (hr : 0 ≤ r) (o : ℝ) :
    (∀ x, overlapsWith ⟨.circle r, (x, 0), o⟩ ⟨.beam w h 0, (0, 0), 0⟩ = some true) ∧
    (∀ x, w / 2 + h / 2 + r < x → ¬ Spec.Meet ⟨.circle r, (x, 0), o⟩ ⟨.beam w h 0, (0, 0), 0⟩) ∧
    (∀ y, r < y → y ≤ r + h / 2 →
      overlapsWith ⟨.circle r, (0, y), o⟩ ⟨.beam w h 0, (0, 0), 0⟩ = some false ∧
      Spec.Meet ⟨.circle r, (0, y), o⟩ ⟨.beam w h 0, (0, 0), 0⟩) := by
  have ev : (Shape.beam w h 0).vertices = [(1 / 2 * w, 0), (-(1 / 2) * w, 0)] := map_rotate_zero _
  have ee : ∀ c : ℝ × ℝ, overlapsWith ⟨.circle r, c, o⟩ ⟨.beam w h 0, (0, 0), 0⟩
      = some (circlePoly r c [(1 / 2 * w, 0), (-(1 / 2) * w, 0)] (0, 0)) := by
    intro c; rw [← ev]; rfl
  have ne : ((1 / 2 * w, 0) : ℝ × ℝ) ≠ (-(1 / 2) * w, 0) := by
    intro e; have := congrArg Prod.fst e; dsimp only at this; linarith
  have pip : ∀ c : ℝ × ℝ, pointInPolyhedron c [(1 / 2 * w, 0), (-(1 / 2) * w, 0)] (0, 0) 0 = true ↔ c.2 = 0 := by
    intro c
    unfold pointInPolyhedron hyperplanes
    rw [show edges [((1 / 2 * w, 0) : ℝ × ℝ), (-(1 / 2) * w, 0)]
      = [((1 / 2 * w, 0), (-(1 / 2) * w, 0)), ((-(1 / 2) * w, 0), (1 / 2 * w, 0))] from rfl]
    simp only [List.map_cons, List.map_nil, List.all_cons, List.all_nil, Bool.and_true, Bool.and_eq_true,
      decide_eq_true_eq]
    rw [test_iff _ _ _ _ ne, test_iff _ _ _ _ ne.symm]
    unfold area2
    dsimp only
    constructor
    · rintro ⟨a, b⟩; nlinarith
    · intro e; rw [e]; constructor <;> nlinarith
  have at_beam : ∀ p, Spec.At ⟨.beam w h 0, (0, 0), 0⟩ p ↔ ∃ x, |x| ≤ w / 2 ∧ dist2 (x, 0) p ≤ h / 2 := by
    intro p
    unfold Spec.At
    simp only [Shape.orientation, add_zero, Real.cos_zero, Real.sin_zero, one_mul, zero_mul, sub_zero, zero_add]
    constructor
    · rintro ⟨q, hq, e1, e2⟩
      have : p = q := Prod.ext e1 e2
      rw [this]; exact hq
    · intro hq; exact ⟨p, hq, rfl, rfl⟩
  refine ⟨?_, ?_, ?_⟩
  · intro x
    rw [ee, circlePoly, (pip (x, 0)).2 rfl]; rfl
  · rintro x hx ⟨p, a, b⟩
    rw [at_circle] at a
    rw [at_beam] at b
    obtain ⟨z, hz, hd⟩ := b
    have t := dist2_triangle (z, 0) p (x, 0)
    rw [dist2_comm p] at t
    have e : dist2 (z, 0) (x, 0) = |x - z| := by
      unfold dist2; dsimp only; rw [sub_self, show (0 : ℝ) ^ 2 = 0 by norm_num, add_zero, Real.sqrt_sq_eq_abs]
    rw [e] at t
    have := le_abs_self (x - z)
    have := (abs_le.1 hz).2
    linarith
  · intro y hy hy'
    have vd : ∀ a : ℝ, y ≤ dist2 (0, y) (a, 0) := by
      intro a
      unfold dist2
      apply Real.le_sqrt_of_sq_le
      dsimp only; nlinarith [sq_nonneg (a - 0)]
    have far : ∀ a : ℝ, ¬ dist2 (0, y) (a, 0) ≤ r := fun a e => by linarith [vd a]
    constructor
    · rw [ee, Option.some_inj, Bool.eq_false_iff, circlePoly, Ne, Bool.or_eq_true]
      rintro (a | a)
      · have := (pip (0, y)).1 a; dsimp only at this; linarith
      · unfold circlePolyhedronIntersection at a
        have f1 := foot_horizontal (0, y) (1 / 2 * w, 0) (-(1 / 2) * w, 0) rfl (by dsimp only; intro e; linarith)
        have f2 := foot_horizontal (0, y) (-(1 / 2) * w, 0) (1 / 2 * w, 0) rfl (by dsimp only; intro e; linarith)
        simp only [List.map_cons, List.map_nil, add_zero, edges, List.take, List.any_cons, List.any_nil,
          List.rotate_cons_succ, List.rotate_zero, List.nil_append, List.cons_append, List.zip_cons_cons, List.zip_nil_right, sideHit,
          f1, f2, far, decide_false, Bool.and_false, Bool.or_self, Bool.false_eq_true] at a
    · refine ⟨(0, y - r), (at_circle _ _ _ _).2 ?_, (at_beam _).2 ⟨0, ?_, ?_⟩⟩
      · unfold dist2; dsimp only
        rw [show ((0 : ℝ) - 0) ^ 2 + (y - r - y) ^ 2 = r ^ 2 by ring, Real.sqrt_sq hr]
      · rw [abs_zero]; linarith
      · unfold dist2; dsimp only
        rw [show ((0 : ℝ) - 0) ^ 2 + (y - r - 0) ^ 2 = (y - r) ^ 2 by ring, Real.sqrt_sq (by linarith)]
        linarith

/-- The orientation that an obstacle has during the simulation is not looked at. -/
theorem C145_turned_violated (a b : Obstacle) (u v : ℝ) :
    overlapsWith ⟨a.shape, a.position, u⟩ ⟨b.shape, b.position, v⟩ = overlapsWith a b ∧
    (∃ a b : Obstacle, overlapsWith a b = some false ∧ Spec.Meet a b) := by
  refine ⟨rfl, ⟨.rectangle 4 1 0, (0, 0), Real.pi / 2⟩, ⟨.rectangle 1 1 0, (0, 3 / 2), 0⟩, ?_, ?_⟩
  · unfold overlapsWith rectanglesOverlap
    dsimp only
    rw [if_pos rfl, if_pos ⟨rfl, rfl⟩, placed_limits_zero _ _ (by norm_num) (by norm_num),
      placed_limits_zero _ _ (by norm_num) (by norm_num)]
    norm_num [limitsOverlap]
  · refine ⟨(0, 3 / 2), ⟨(3 / 2, 0), ?_, ?_, ?_⟩, (at_rect _ _ _ _).2 ?_⟩
    · exact ⟨by rw [abs_of_pos] <;> norm_num, by norm_num⟩
    · simp [Shape.orientation]
    · simp [Shape.orientation]
    · norm_num [InRect]

/-- **C145** (rooms) A circle, or a polygon that is not turned during the simulation, is reported to be
outside of a rectangular room that is not turned exactly when some point of it is outside of the room. -/
theorem C145_room_partial (o : Obstacle) (w h : ℝ) (hw : 0 ≤ w) (hh : 0 ≤ h) (roomPos : ℝ × ℝ)
    (ho : (∃ r, 0 ≤ r ∧ o.shape = .circle r) ∨ (Polygonal o.shape ∧ o.orientation = 0)) :
    (isOutsideOf o (.rectangle w h 0) roomPos = some false ↔ Spec.Inside o (.rectangle w h 0) roomPos) ∧
    (isOutsideOf o (.rectangle w h 0) roomPos = some true ↔ ¬ Spec.Inside o (.rectangle w h 0) roomPos) := by
  suffices hs : ∃ ans, isOutsideOf o (.rectangle w h 0) roomPos = some ans ∧
      (ans = false ↔ Spec.Inside o (.rectangle w h 0) roomPos) by
    obtain ⟨ans, e, hi⟩ := hs
    rw [e, Option.some_inj, Option.some_inj, ← hi]
    exact ⟨Iff.rfl, by simp⟩
  obtain ⟨s, pos, th⟩ := o
  unfold Spec.Inside
  simp only [at_rect, inRect_iff]
  rcases ho with ⟨r, hr, e⟩ | ⟨hp, e⟩
  · dsimp only at e
    subst e
    refine ⟨_, rfl, ?_⟩
    rw [placed_limits_zero w h hw hh]
    simp only [at_circle, within, Bool.or_eq_false_iff, Bool.not_eq_false', decide_eq_true_eq]
    constructor
    · rintro ⟨⟨⟨a, b⟩, c⟩, d⟩ p hp
      have d2 : (p.1 - pos.1) ^ 2 + (p.2 - pos.2) ^ 2 ≤ r ^ 2 := by
        have := (Real.sqrt_le_left hr).1 hp
        exact this
      have x := abs_le_of_sq_le_sq' (a := p.1 - pos.1) (b := r) (by nlinarith [sq_nonneg (p.2 - pos.2)]) hr
      have y := abs_le_of_sq_le_sq' (a := p.2 - pos.2) (b := r) (by nlinarith [sq_nonneg (p.1 - pos.1)]) hr
      exact ⟨⟨by linarith [c.1, x.1], by linarith [a.2, x.2]⟩, by linarith [d.1, y.1], by linarith [b.2, y.2]⟩
    · intro hp
      have dd : ∀ u v : ℝ, u ^ 2 + v ^ 2 = r ^ 2 → dist2 pos (pos.1 + u, pos.2 + v) ≤ r := by
        intro u v huv
        unfold dist2; dsimp only
        rw [show (pos.1 + u - pos.1) ^ 2 + (pos.2 + v - pos.2) ^ 2 = u ^ 2 + v ^ 2 by ring, huv, Real.sqrt_sq hr]
      have a := hp _ (dd r 0 (by ring))
      have b := hp _ (dd 0 r (by ring))
      have c := hp _ (dd (-r) 0 (by ring))
      have d := hp _ (dd 0 (-r) (by ring))
      dsimp only at a b c d
      exact ⟨⟨⟨a.1, b.2⟩, by simpa [sub_eq_add_neg] using c.1⟩, by simpa [sub_eq_add_neg] using d.2⟩
  · dsimp only at e hp
    subst e
    have e : isOutsideOf ⟨s, pos, 0⟩ (.rectangle w h 0) roomPos = some (s.vertices.any fun v =>
        !within (-(w / 2) + roomPos.1) (v.1 + pos.1) (w / 2 + roomPos.1) ||
        !within (-(h / 2) + roomPos.2) (v.2 + pos.2) (h / 2 + roomPos.2)) := by
      have pl := placed_limits_zero w h hw hh roomPos
      cases s with
      | circle r => exact hp.elim
      | beam w h' th => exact hp.elim
      | rectangle w h' th => simp only [isOutsideOf, pl]
      | polygon vs th => simp only [isOutsideOf, pl]
    refine ⟨_, e, ?_⟩
    rw [List.any_eq_false]
    simp only [polygonal_at hp, within, Bool.or_eq_true, Bool.not_eq_true', not_or, Bool.not_eq_false,
      decide_eq_true_eq]
    constructor
    · intro hv p hm
      have := convexHull_min (t := {q : ℝ × ℝ | (-(w / 2) + roomPos.1 - pos.1 ≤ q.1 ∧ q.1 ≤ w / 2 + roomPos.1 - pos.1) ∧
        (-(h / 2) + roomPos.2 - pos.2 ≤ q.2 ∧ q.2 ≤ h / 2 + roomPos.2 - pos.2)}) ?_ (box_convex _ _ _ _) hm
      · obtain ⟨⟨a, b⟩, c, d⟩ := this
        dsimp only at a b c d
        exact ⟨⟨by linarith, by linarith⟩, by linarith, by linarith⟩
      · intro v hm
        obtain ⟨⟨a, b⟩, c, d⟩ := hv v hm
        exact ⟨⟨by linarith, by linarith⟩, by linarith, by linarith⟩
    · intro hp v hv
      have := hp (v.1 + pos.1, v.2 + pos.2) (by
        rw [add_sub_cancel_right, add_sub_cancel_right]
        exact subset_convexHull ℝ _ hv)
      exact this

/-- A room that is turned is replaced by the smallest room around it that is not turned, and a beam by
its axis: both obstacles here are partly outside of the room, which is not reported. -/
theorem C145_room_violated :
    (isOutsideOf ⟨.circle (1 / 10), (4 / 5, 4 / 5), 0⟩ (.rectangle (Real.sqrt 2) (Real.sqrt 2) (Real.pi / 4)) (0, 0)
        = some false ∧
      ¬ Spec.Inside ⟨.circle (1 / 10), (4 / 5, 4 / 5), 0⟩
        (.rectangle (Real.sqrt 2) (Real.sqrt 2) (Real.pi / 4)) (0, 0)) ∧
    (isOutsideOf ⟨.beam 2 2 0, (0, 0), 0⟩ (.rectangle 2 1 0) (0, 0) = some false ∧
      ¬ Spec.Inside ⟨.beam 2 2 0, (0, 0), 0⟩ (.rectangle 2 1 0) (0, 0)) := by
  have s2 : Real.sqrt 2 * Real.sqrt 2 = 2 := Real.mul_self_sqrt (by norm_num)
  have s0 : 0 < Real.sqrt 2 := Real.sqrt_pos.2 (by norm_num)
  refine ⟨⟨?_, ?_⟩, ?_, ?_⟩
  · have ev : (Shape.rectangle (Real.sqrt 2) (Real.sqrt 2) (Real.pi / 4)).vertices
        = [(0, 1), (1, 0), (0, -1), (-1, 0)] := by
      have q : Real.sqrt 2 / 2 * (Real.sqrt 2 / 2) = 1 / 2 := by nlinarith
      simp only [Shape.vertices, rectVertices, List.map_cons, List.map_nil, rotate, Real.cos_pi_div_four,
        Real.sin_pi_div_four, mul_neg, q]
      norm_num
    unfold isOutsideOf
    simp only [ev]
    norm_num [Placed.limits, canvasLimits, amin, amax, within]
  · intro hin
    obtain ⟨q, ⟨h1, h2⟩, e1, e2⟩ := hin (4 / 5, 4 / 5) ((at_circle _ _ _ _).2 (by simp [dist2]))
    simp only [Shape.orientation, add_zero, zero_add, Real.cos_pi_div_four, Real.sin_pi_div_four] at e1 e2
    have := (abs_le.1 h1).2
    nlinarith
  · unfold isOutsideOf
    simp only [placed_limits_zero 2 1 (by norm_num) (by norm_num)]
    simp only [Shape.vertices, map_rotate_zero]
    norm_num [within]
  · intro hin
    have := hin (0, 1) ⟨(0, 1), ⟨0, by norm_num, by norm_num [dist2]⟩, by simp [Shape.orientation], by simp [Shape.orientation]⟩
    rw [at_rect] at this
    have := this.2
    norm_num at this

/-- For rooms of any other shape nothing is reported, wherever the obstacle is. -/
theorem C145_round_room_violated (o : Obstacle) (r : ℝ) (roomPos : ℝ × ℝ) :
    isOutsideOf o (.circle r) roomPos = none ∧
    ¬ Spec.Inside ⟨.circle 1, (5, 0), 0⟩ (.circle 1) (0, 0) := by
  refine ⟨rfl, fun hin => ?_⟩
  have := hin (5, 0) ((at_circle _ _ _ _).2 (by norm_num [dist2]))
  rw [at_circle] at this
  have e : dist2 (0, 0) (5, 0) = 5 := by
    unfold dist2; dsimp only
    rw [show ((5 : ℝ) - 0) ^ 2 + (0 - 0) ^ 2 = 5 ^ 2 by norm_num, Real.sqrt_sq (by norm_num)]
  rw [e] at this
  norm_num at this

/-! ## Cases meeting the hypotheses -/

example : overlapsWith ⟨.circle 1, (0, 0), 0⟩ ⟨.circle 1, (1, 0), 0⟩ = some true :=
  (C145_circles 1 1 one_pos one_pos (0, 0) (1, 0) 0 0).2
    ⟨(1 / 2, 0), by unfold dist2; rw [Real.sqrt_lt' one_pos]; norm_num,
      by unfold dist2; rw [Real.sqrt_lt' one_pos]; norm_num⟩

/-- Touching circles. -/
example : overlapsWith ⟨.circle 1, (0, 0), 0⟩ ⟨.circle 1, (2, 0), 0⟩ = some false := by
  have : dist2 (0, 0) (2, 0) = 2 := by
    unfold dist2; dsimp only
    rw [show ((2 : ℝ) - 0) ^ 2 + (0 - 0) ^ 2 = 2 ^ 2 by norm_num, Real.sqrt_sq (by norm_num)]
  simp only [overlapsWith, this]
  norm_num

example : overlapsWith ⟨.rectangle 2 2 0, (0, 0), 0⟩ ⟨.rectangle 1 4 0, (1, 1), 0⟩ = some true :=
  (C145_rectangles_partial 2 2 1 4 (by norm_num) (by norm_num) (by norm_num) (by norm_num) _ _).2
    ⟨(1, 1), (at_rect _ _ _ _).2 (by norm_num [InRect]), (at_rect _ _ _ _).2 (by norm_num [InRect])⟩

/-- A circle at the corner on the right. -/
example : overlapsWith ⟨.circle (3 / 2), (2, 2), 0⟩ ⟨.rectangle 2 2 0, (0, 0), 0⟩ = some true :=
  C145_circle_rectangle_partial 2 2 (by norm_num) (by norm_num) _ _ _ _ (by norm_num)
    ⟨(1, 1), (at_circle _ _ _ _).2 (by unfold dist2; rw [Real.sqrt_le_left (by norm_num)]; norm_num),
      (at_rect _ _ _ _).2 (by norm_num [InRect])⟩

/-- The same circle at the corner on the left. -/
example : overlapsWith ⟨.circle (3 / 2), (-2, 2), 0⟩ ⟨.rectangle 2 2 0, (0, 0), 0⟩ = some false ∧
    Spec.Meet ⟨.circle (3 / 2), (-2, 2), 0⟩ ⟨.rectangle 2 2 0, (0, 0), 0⟩ := by
  have a := C145_corner_violated 2 2 (by norm_num) (by norm_num) (3 / 2) (-2, 2) (0, 0) 0 (by norm_num)
    (Or.inr (by norm_num)) (by unfold dist2; rw [Real.lt_sqrt (by norm_num)]; norm_num)
    (by unfold dist2; rw [Real.lt_sqrt (by norm_num)]; norm_num)
  exact ⟨a.1, a.2 (Or.inl (by unfold dist2; rw [Real.sqrt_le_left (by norm_num)]; norm_num))⟩

example : Polygonal (.rectangle 2 1 (Real.pi / 3)) ∧ Polygonal (.polygon [(1, 0), (0, -1), (-1, 0), (0, 1)] 0) :=
  ⟨⟨by norm_num, by norm_num⟩, C40_slope_violated.2.2.2⟩

example : isOutsideOf ⟨.circle 1, (1, 1), 3⟩ (.rectangle 4 4 0) (0, 0) = some false := by
  simp only [isOutsideOf, placed_limits_zero 4 4 (by norm_num) (by norm_num), within]
  norm_num

end Verif.Environment.Overlap
