import Verif.Environment.Overlap
import Mathlib.Analysis.Convex.Combination
import Mathlib.LinearAlgebra.Matrix.Determinant.Basic
import Mathlib.LinearAlgebra.Matrix.Notation

/-! # Dimensions of shapes (C151)

Mirrors `RegularPolyhedron`, `Beam`, `Polyhedron.get_canvas_limits`, `Shape3D.rotate`, `RegularPrisma`, `Cuboid`
and `Plate` of `omgtools/basics/shape.py`, over the real numbers. -/

set_option linter.unusedSectionVars false

namespace Verif.Geometry.Shapes

open Verif.Geometry Verif.Environment.Overlap

/-! ## Model -/

/-- `np.linalg.solve` of a 2x2 system with rows `a1`, `a2` and right-hand side `b1`, `b2`; `none` is the
`LinAlgError` of a singular matrix. -/
noncomputable def solve2 (a1 a2 : ℝ × ℝ) (b1 b2 : ℝ) : Option (ℝ × ℝ) :=
  let d := a1.1 * a2.2 - a1.2 * a2.1
  if d = 0 then none else some ((b1 * a2.2 - a1.2 * b2) / d, (a1.1 * b2 - b1 * a2.1) / d)

/-- Row `l` of the matrix `A`, shape.py:208-211 and 385-388: `[sin(l*dth), cos(l*dth)]`. -/
noncomputable def row (n l : ℕ) : ℝ × ℝ := (Real.sin (l * (2 * Real.pi / n)), Real.cos (l * (2 * Real.pi / n)))

/-- Vertex `l` of `RegularPolyhedron(radius, n)`, shape.py:204-218 (and of the two faces of a `RegularPrisma`,
shape.py:390-394). -/
noncomputable def regularVertex (r : ℝ) (n l : ℕ) : Option (ℝ × ℝ) :=
  solve2 (row n l) (row n ((l + 1) % n)) (r * Real.cos (Real.pi / n)) (r * Real.cos (Real.pi / n))

/-- `RegularPolyhedron.get_vertices`, shape.py:204-218. -/
noncomputable def regularVertices (r : ℝ) (n : ℕ) : Option (List (ℝ × ℝ)) :=
  (List.range n).mapM (regularVertex r n)

/-- Two faces at the heights `-height/2` and `-height/2 + height`, shape.py:394-397 and 430-434. -/
noncomputable def twoFaces (vs : List (ℝ × ℝ)) (height : ℝ) : List ((ℝ × ℝ) × ℝ) :=
  (vs.map fun v => (v, -0.5 * height)) ++ vs.map fun v => (v, -0.5 * height + height)

/-- `RegularPrisma.get_vertices`, shape.py:381-398. -/
noncomputable def prismVertices (r height : ℝ) (n : ℕ) : Option (List ((ℝ × ℝ) × ℝ)) :=
  (regularVertices r n).map fun vs => twoFaces vs height

/-- Vertex `l` of `Rectangle(width, height)`, shape.py:222-237, and of the faces of `Cuboid(width, height, _)`,
shape.py:419-431. -/
noncomputable def rectVertex (width height : ℝ) (l : ℕ) : Option (ℝ × ℝ) :=
  let radius : List ℝ := [0.5 * height, 0.5 * width, 0.5 * height, 0.5 * width]
  let A : ℕ → ℝ × ℝ := fun l => (Real.sin (l * (0.5 * Real.pi)), Real.cos (l * (0.5 * Real.pi)))
  solve2 (A l) (A ((l + 1) % 4)) (radius.getD l 0) (radius.getD ((l + 1) % 4) 0)

/-- `Rectangle.get_vertices`, shape.py:222-237. -/
noncomputable def rectangleVertices (width height : ℝ) : Option (List (ℝ × ℝ)) :=
  (List.range 4).mapM (rectVertex width height)

/-- `Cuboid.get_vertices`, shape.py:419-435: the corners of a `width` by `depth` rectangle on two heights. -/
noncomputable def cuboidVertices (width depth height : ℝ) : Option (List ((ℝ × ℝ) × ℝ)) :=
  (rectangleVertices width depth).map fun vs => twoFaces vs height

/-- The matrix of `Shape3D.rotate`, shape.py:269-278, for roll `φ`, pitch `θ` and yaw `ψ`. -/
noncomputable def rot3 (φ θ ψ : ℝ) : Matrix (Fin 3) (Fin 3) ℝ :=
  !![Real.cos θ * Real.cos ψ, Real.sin φ * Real.sin θ * Real.cos ψ - Real.cos φ * Real.sin ψ,
      Real.cos φ * Real.sin θ * Real.cos ψ + Real.sin φ * Real.sin ψ;
    Real.cos θ * Real.sin ψ, Real.sin φ * Real.sin θ * Real.sin ψ + Real.cos φ * Real.cos ψ,
      Real.cos φ * Real.sin θ * Real.sin ψ - Real.sin φ * Real.cos ψ;
    -Real.sin θ, Real.sin φ * Real.cos θ, Real.cos φ * Real.cos θ]

/-- What is used of a shape to avoid collisions: points and a radius (`get_checkpoints`). -/
structure Checked where
  points : List (ℝ × ℝ)
  radius : ℝ

/-- `Beam(width, height)` without rotation, shape.py:177-183. -/
noncomputable def beam (width height : ℝ) : Checked := ⟨[(0.5 * width, 0), (-0.5 * width, 0)], 0.5 * height⟩

/-- `Polyhedron.get_canvas_limits` of a checked shape, shape.py:152-156: from the vertices alone. -/
noncomputable def Checked.limits (s : Checked) : ℝ × ℝ × ℝ × ℝ := canvasLimits s.points

/-- `Plate(shape2d, height)`, shape.py:458-465: the points (height zero) and the radius, for a shape with the
points `vs`. -/
noncomputable def plate (vs : List (ℝ × ℝ)) (height : ℝ) : List ((ℝ × ℝ) × ℝ) × ℝ := (vs.map fun v => (v, 0), 0.5 * height)

/-! ## Specification -/

namespace Spec

/-- The points covered by a checked shape: all within the radius of the hull of the points. -/
def Covered (s : Checked) (p : ℝ × ℝ) : Prop := ∃ c ∈ convexHull ℝ {v | v ∈ s.points}, dist2 c p ≤ s.radius

/-- Limits are exact for a set: nothing of it is outside, and each limit is reached. -/
def ExactLimits (S : ℝ × ℝ → Prop) (l : ℝ × ℝ × ℝ × ℝ) : Prop :=
  (∀ p, S p → l.1 ≤ p.1 ∧ p.1 ≤ l.2.1 ∧ l.2.2.1 ≤ p.2 ∧ p.2 ≤ l.2.2.2) ∧
  (∃ p, S p ∧ p.1 = l.1) ∧ (∃ p, S p ∧ p.1 = l.2.1) ∧ (∃ p, S p ∧ p.2 = l.2.2.1) ∧ ∃ p, S p ∧ p.2 = l.2.2.2

/-- The regular polygon with `n` sides, one of them on top, around the origin: everything at most at distance
`a` in the directions perpendicular to the sides. -/
def Regular (n : ℕ) (a : ℝ) (p : ℝ × ℝ) : Prop :=
  ∀ l < n, p.1 * Real.sin (l * (2 * Real.pi / n)) + p.2 * Real.cos (l * (2 * Real.pi / n)) ≤ a

/-- Distance in space. -/
noncomputable def dist3 (p q : (ℝ × ℝ) × ℝ) : ℝ :=
  Real.sqrt ((p.1.1 - q.1.1) ^ 2 + (p.1.2 - q.1.2) ^ 2 + (p.2 - q.2) ^ 2)

end Spec

/-! ## Lemmas -/

/-- The vertex between the directions `l` and `l + 1`. -/
noncomputable def corner (r : ℝ) (n l : ℕ) : ℝ × ℝ :=
  (r * Real.sin ((2 * l + 1) * (Real.pi / n)), r * Real.cos ((2 * l + 1) * (Real.pi / n)))

theorem row_mod (n l : ℕ) (hn : n ≠ 0) : row n (l % n) = row n l := by
  have h : (l : ℝ) * (2 * Real.pi / n) = ((l % n : ℕ) : ℝ) * (2 * Real.pi / n) + ((l / n : ℕ) : ℝ) * (2 * Real.pi) := by
    have e : (l : ℝ) = (n : ℝ) * ((l / n : ℕ) : ℝ) + ((l % n : ℕ) : ℝ) := by exact_mod_cast (Nat.div_add_mod l n).symm
    have hn' : (n : ℝ) ≠ 0 := by exact_mod_cast hn
    rw [e]
    field_simp
    ring
  unfold row
  rw [h, Real.sin_add_nat_mul_two_pi, Real.cos_add_nat_mul_two_pi]

theorem corner_mod (r : ℝ) (n l : ℕ) (hn : n ≠ 0) : corner r n (l % n) = corner r n l := by
  have h : (2 * (l : ℝ) + 1) * (Real.pi / n) = (2 * ((l % n : ℕ) : ℝ) + 1) * (Real.pi / n) + ((l / n : ℕ) : ℝ) * (2 * Real.pi) := by
    have e : (l : ℝ) = (n : ℝ) * ((l / n : ℕ) : ℝ) + ((l % n : ℕ) : ℝ) := by exact_mod_cast (Nat.div_add_mod l n).symm
    have hn' : (n : ℝ) ≠ 0 := by exact_mod_cast hn
    rw [e]
    field_simp
    ring
  unfold corner
  rw [h, Real.sin_add_nat_mul_two_pi, Real.cos_add_nat_mul_two_pi]

theorem sin_pos_n {n : ℕ} (hn : 3 ≤ n) : 0 < Real.sin (Real.pi / n) ∧ 0 < Real.cos (Real.pi / n) ∧
    0 < Real.sin (2 * Real.pi / n) := by
  have h3 : (3 : ℝ) ≤ n := by exact_mod_cast hn
  have hp := Real.pi_pos
  have h0 : 0 < Real.pi / n := by positivity
  have h1 : Real.pi / n < Real.pi / 2 := by
    rw [div_lt_div_iff₀ (by linarith) (by norm_num)]; nlinarith
  refine ⟨Real.sin_pos_of_pos_of_lt_pi h0 (by linarith), Real.cos_pos_of_mem_Ioo ⟨by linarith, h1⟩, ?_⟩
  have e : 2 * Real.pi / n = 2 * (Real.pi / n) := by ring
  rw [e]
  exact Real.sin_pos_of_pos_of_lt_pi (by linarith) (by linarith)

theorem regularVertex_eq (r : ℝ) (n l : ℕ) (hn : 3 ≤ n) : regularVertex r n l = some (corner r n l) := by
  obtain ⟨-, -, hs⟩ := sin_pos_n hn
  unfold regularVertex
  rw [row_mod n (l + 1) (by omega)]
  set α := (l : ℝ) * (2 * Real.pi / n) with hα
  set β := Real.pi / n with hβ
  have e1 : ((l + 1 : ℕ) : ℝ) * (2 * Real.pi / n) = α + 2 * β := by rw [hα, hβ]; push_cast; ring
  have e2 : (2 * (l : ℝ) + 1) * (Real.pi / n) = α + β := by rw [hα, hβ]; ring
  have e3 : 2 * Real.pi / n = 2 * β := by rw [hβ]; ring
  unfold row corner solve2
  rw [e1, e2, ← hα]
  rw [e3] at hs
  have hd : Real.sin α * Real.cos (α + 2 * β) - Real.cos α * Real.sin (α + 2 * β) = - Real.sin (2 * β) := by
    rw [← Real.sin_sub]
    rw [show α - (α + 2 * β) = -(2 * β) by ring, Real.sin_neg]
  dsimp only
  rw [hd, if_neg (by linarith)]
  have hc2 : Real.cos (2 * β) = 1 - 2 * Real.sin β ^ 2 := by
    rw [Real.cos_two_mul]; nlinarith [Real.sin_sq_add_cos_sq β]
  have ht := Real.sin_sq_add_cos_sq β
  congr 2
  · rw [div_eq_iff (by linarith), Real.cos_add, Real.sin_add, Real.sin_two_mul, hc2]
    have hb : Real.cos β ^ 2 = 1 - Real.sin β ^ 2 := by linarith
    ring_nf
    try rw [hb]
    try ring
  · rw [div_eq_iff (by linarith), Real.sin_add, Real.cos_add, Real.sin_two_mul, hc2]
    have hb : Real.cos β ^ 2 = 1 - Real.sin β ^ 2 := by linarith
    ring_nf
    try rw [hb]
    try ring

theorem mapM_some {α β : Type} (f : α → Option β) (g : α → β) (l : List α) (h : ∀ a ∈ l, f a = some (g a)) :
    l.mapM f = some (l.map g) := by
  induction l with
  | nil => rfl
  | cons a l ih =>
    rw [List.mapM_cons, h a (by simp), ih fun b hb => h b (by simp [hb])]
    rfl

theorem regularVertices_eq (r : ℝ) (n : ℕ) (hn : 3 ≤ n) :
    regularVertices r n = some ((List.range n).map (corner r n)) :=
  mapM_some _ _ _ fun l _ => regularVertex_eq r n l hn

theorem corner_getD (r : ℝ) (n l : ℕ) (hl : l < n) : ((List.range n).map (corner r n)).getD l (0, 0) = corner r n l := by
  rw [List.getD_eq_getElem _ _ (by simpa using hl)]; simp

/-- Twice the area of the triangle of a side with a point. -/
theorem area_side (r : ℝ) (n k : ℕ) (q : ℝ × ℝ) : area2 (corner r n k) (corner r n (k + 1)) q =
    2 * r * Real.sin (Real.pi / n) * (q.1 * Real.sin ((k + 1 : ℕ) * (2 * Real.pi / n)) +
      q.2 * Real.cos ((k + 1 : ℕ) * (2 * Real.pi / n)) - r * Real.cos (Real.pi / n)) := by
  set α := ((k + 1 : ℕ) : ℝ) * (2 * Real.pi / n) with hα
  set β := Real.pi / n with hβ
  have e1 : (2 * (k : ℝ) + 1) * (Real.pi / n) = α - β := by rw [hα, hβ]; push_cast; ring
  have e2 : (2 * ((k + 1 : ℕ) : ℝ) + 1) * (Real.pi / n) = α + β := by rw [hα, hβ]; push_cast; ring
  unfold area2 corner
  rw [e1, e2]
  simp only [Real.sin_add, Real.cos_add, Real.sin_sub, Real.cos_sub]
  have h1 := Real.sin_sq_add_cos_sq α
  have hb : Real.cos α ^ 2 = 1 - Real.sin α ^ 2 := by linarith
  ring_nf
  rw [hb]
  ring

theorem regular_convexCW (r : ℝ) (hr : 0 < r) (n : ℕ) (hn : 3 ≤ n) : ConvexCW ((List.range n).map (corner r n)) := by
  obtain ⟨hs, hc, -⟩ := sin_pos_n hn
  have hlen : ((List.range n).map (corner r n)).length = n := by simp
  refine ⟨by rw [hlen]; exact hn, ?_⟩
  rw [hlen]
  intro k j hk hj hjk hjk'
  rw [corner_getD _ _ _ hk, corner_getD _ _ _ (Nat.mod_lt _ (by omega)), corner_getD _ _ _ hj, corner_mod _ _ _ (by omega),
    area_side]
  have e : (corner r n j).1 * Real.sin ((k + 1 : ℕ) * (2 * Real.pi / n)) +
      (corner r n j).2 * Real.cos ((k + 1 : ℕ) * (2 * Real.pi / n)) - r * Real.cos (Real.pi / n) =
      -(2 * r * (Real.sin (((j : ℝ) - k) * (Real.pi / n)) * Real.sin (((j : ℝ) - k - 1) * (Real.pi / n)))) := by
    unfold corner
    dsimp only
    have h1 : r * Real.sin ((2 * (j : ℝ) + 1) * (Real.pi / n)) * Real.sin ((k + 1 : ℕ) * (2 * Real.pi / n)) +
        r * Real.cos ((2 * (j : ℝ) + 1) * (Real.pi / n)) * Real.cos ((k + 1 : ℕ) * (2 * Real.pi / n)) =
        r * Real.cos ((2 * (j : ℝ) + 1) * (Real.pi / n) - (k + 1 : ℕ) * (2 * Real.pi / n)) := by
      rw [Real.cos_sub]; ring
    rw [h1]
    set x := ((j : ℝ) - k) * (Real.pi / n) with hx
    set y := ((j : ℝ) - k - 1) * (Real.pi / n) with hy
    have a1 : (2 * (j : ℝ) + 1) * (Real.pi / n) - (k + 1 : ℕ) * (2 * Real.pi / n) = x + y := by
      rw [hx, hy]; push_cast; ring
    have a2 : Real.pi / n = x - y := by rw [hx, hy]; ring
    rw [a1, a2, Real.cos_add, Real.cos_sub]
    ring
  rw [e]
  have hn0 : (0 : ℝ) < n := by exact_mod_cast (by omega : 0 < n)
  have hpi := Real.pi_pos
  have hb : 0 < Real.pi / n := by positivity
  have hpn : (n : ℝ) * (Real.pi / n) = Real.pi := by field_simp
  have key : 0 < Real.sin (((j : ℝ) - k) * (Real.pi / n)) * Real.sin (((j : ℝ) - k - 1) * (Real.pi / n)) := by
    rcases Nat.lt_or_ge k j with h | h
    · have hne : j ≠ k + 1 := by
        intro h'
        apply hjk'
        rw [h', Nat.mod_eq_of_lt (by omega)]
      have h2 : (k : ℝ) + 2 ≤ j := by exact_mod_cast (by omega : k + 2 ≤ j)
      have hjn : (j : ℝ) + 1 ≤ n := by exact_mod_cast hj
      have hk0 : (0 : ℝ) ≤ k := Nat.cast_nonneg k
      refine mul_pos (Real.sin_pos_of_pos_of_lt_pi (mul_pos (by linarith) hb) ?_)
        (Real.sin_pos_of_pos_of_lt_pi (mul_pos (by linarith) hb) ?_)
      · nlinarith
      · nlinarith
    · have h' : j + 1 ≤ k := by omega
      have hkj : ¬ (j = 0 ∧ k = n - 1) := by
        rintro ⟨rfl, rfl⟩
        apply hjk'
        rw [Nat.sub_add_cancel (by omega), Nat.mod_self]
      have h2 : (j : ℝ) + 1 ≤ k := by exact_mod_cast h'
      have h3 : (k : ℝ) + 2 ≤ n + j := by exact_mod_cast (by omega : k + 2 ≤ n + j)
      have s1 : Real.sin (((j : ℝ) - k) * (Real.pi / n)) < 0 :=
        Real.sin_neg_of_neg_of_neg_pi_lt (mul_neg_of_neg_of_pos (by linarith) hb) (by nlinarith)
      have s2 : Real.sin (((j : ℝ) - k - 1) * (Real.pi / n)) < 0 :=
        Real.sin_neg_of_neg_of_neg_pi_lt (mul_neg_of_neg_of_pos (by linarith) hb) (by nlinarith)
      exact mul_pos_of_neg_of_neg s1 s2
  have : 0 < 2 * r * Real.sin (Real.pi / n) := by positivity
  have h2 : 0 < 2 * r * (Real.sin (((j : ℝ) - k) * (Real.pi / n)) * Real.sin (((j : ℝ) - k - 1) * (Real.pi / n))) := by positivity
  nlinarith

theorem rectangle_eq (w h : ℝ) : rectangleVertices w h = some (rectVertices w h) := by
  have s0 : Real.sin (((0 : ℕ) : ℝ) * (0.5 * Real.pi)) = 0 := by norm_num
  have c0 : Real.cos (((0 : ℕ) : ℝ) * (0.5 * Real.pi)) = 1 := by norm_num
  have e1 : ((1 : ℕ) : ℝ) * (0.5 * Real.pi) = Real.pi / 2 := by push_cast; ring
  have e2 : ((2 : ℕ) : ℝ) * (0.5 * Real.pi) = Real.pi := by push_cast; ring
  have e3 : ((3 : ℕ) : ℝ) * (0.5 * Real.pi) = Real.pi / 2 + Real.pi := by push_cast; ring
  have h0 : rectVertex w h 0 = some (w / 2, h / 2) := by
    simp only [rectVertex, solve2, Nat.zero_add, s0, c0, e1, Real.sin_pi_div_two, Real.cos_pi_div_two,
      show 1 % 4 = 1 from rfl]
    norm_num
    constructor <;> ring
  have h1 : rectVertex w h 1 = some (w / 2, -(h / 2)) := by
    simp only [rectVertex, solve2, e1, e2, Real.sin_pi_div_two, Real.cos_pi_div_two, Real.sin_pi, Real.cos_pi,
      show (1 + 1) % 4 = 2 from rfl]
    norm_num
    constructor <;> ring
  have h2 : rectVertex w h 2 = some (-(w / 2), -(h / 2)) := by
    simp only [rectVertex, solve2, e2, e3, Real.sin_add_pi, Real.cos_add_pi, Real.sin_pi_div_two, Real.cos_pi_div_two,
      Real.sin_pi, Real.cos_pi, show (2 + 1) % 4 = 3 from rfl]
    norm_num
    constructor <;> ring
  have h3 : rectVertex w h 3 = some (-(w / 2), h / 2) := by
    simp only [rectVertex, solve2, s0, c0, e3, Real.sin_add_pi, Real.cos_add_pi, Real.sin_pi_div_two, Real.cos_pi_div_two,
      show (3 + 1) % 4 = 0 from rfl]
    norm_num
    constructor <;> ring
  unfold rectangleVertices
  rw [show List.range 4 = [0, 1, 2, 3] from rfl]
  simp only [List.mapM_cons, List.mapM_nil, h0, h1, h2, h3]
  rfl

/-! ## C151: polygons -/

/-- C151: `Rectangle(width, height)` is the rectangle of that width and height around the origin. -/
theorem C151_rectangle (w h : ℝ) (hw : 0 < w) (hh : 0 < h) (p : ℝ × ℝ) : ∃ vs, rectangleVertices w h = some vs ∧
    (p ∈ convexHull ℝ {v | v ∈ vs} ↔ |p.1| ≤ w / 2 ∧ |p.2| ≤ h / 2) :=
  ⟨_, rectangle_eq w h, hull_rect w h hw hh p⟩

/-- C151: `RegularPolyhedron(radius, n)` with `n ≥ 3` has `n` vertices, each at the distance `radius` from the
centre, and each obtained from the one before by turning clockwise over an `n`-th of a full turn. -/
theorem C151_regular_vertices (r : ℝ) (n : ℕ) (hn : 3 ≤ n) :
    ∃ vs, regularVertices r n = some vs ∧ vs.length = n ∧ (∀ v ∈ vs, v.1 ^ 2 + v.2 ^ 2 = r ^ 2) ∧
      ∀ (l : ℕ) (v w : ℝ × ℝ), vs[l]? = some v → vs[(l + 1) % n]? = some w → w = rotate (-(2 * Real.pi / n)) v := by
  refine ⟨_, regularVertices_eq r n hn, by simp, ?_, ?_⟩
  · intro v hv
    obtain ⟨l, -, rfl⟩ := List.mem_map.1 hv
    unfold corner
    nlinarith [Real.sin_sq_add_cos_sq ((2 * (l : ℝ) + 1) * (Real.pi / n))]
  · intro l v w hv hw
    have hl : l < n := by
      have := (List.getElem?_eq_some_iff.1 hv).1
      simpa using this
    have ev : v = corner r n l := by
      obtain ⟨_, h⟩ := List.getElem?_eq_some_iff.1 hv
      rw [← h]; simp
    have ew : w = corner r n (l + 1) := by
      obtain ⟨_, h⟩ := List.getElem?_eq_some_iff.1 hw
      rw [← h, ← corner_mod r n (l + 1) (by omega)]; simp
    subst ev ew
    set x := (2 * (l : ℝ) + 1) * (Real.pi / n) with hx
    have e : (2 * ((l + 1 : ℕ) : ℝ) + 1) * (Real.pi / n) = x + 2 * Real.pi / n := by rw [hx]; push_cast; ring
    unfold corner rotate
    rw [e, ← hx]
    simp only [Real.cos_neg, Real.sin_neg, Real.sin_add, Real.cos_add]
    ext <;> dsimp only <;> ring

/-- C151: its area is the regular polygon with circumradius `radius`: the points at most at distance
`radius * cos(pi/n)` in the directions perpendicular to the `n` sides. -/
theorem C151_regular (r : ℝ) (hr : 0 < r) (n : ℕ) (hn : 3 ≤ n) (p : ℝ × ℝ) :
    ∃ vs, regularVertices r n = some vs ∧
      (p ∈ convexHull ℝ {v | v ∈ vs} ↔ Spec.Regular n (r * Real.cos (Real.pi / n)) p) := by
  refine ⟨_, regularVertices_eq r n hn, ?_⟩
  have hcw := regular_convexCW r hr n hn
  obtain ⟨hs, -, -⟩ := sin_pos_n hn
  have h1 := C39_exact _ hcw p (0, 0)
  have h2 := pip_iff hcw p (0, 0)
  simp only [sub_zero] at h1 h2
  rw [← h1, h2, List.length_map, List.length_range]
  have hc : 0 < 2 * r * Real.sin (Real.pi / n) := by positivity
  have hside : ∀ k, k < n → (area2 (((List.range n).map (corner r n)).getD k (0, 0))
      (((List.range n).map (corner r n)).getD ((k + 1) % n) (0, 0)) (p.1, p.2) ≤ 0 ↔
      p.1 * Real.sin (((k + 1) % n : ℕ) * (2 * Real.pi / n)) + p.2 * Real.cos (((k + 1) % n : ℕ) * (2 * Real.pi / n)) ≤
        r * Real.cos (Real.pi / n)) := by
    intro k hk
    rw [corner_getD _ _ _ hk, corner_getD _ _ _ (Nat.mod_lt _ (by omega)), corner_mod _ _ _ (by omega), area_side]
    have hm := row_mod n (k + 1) (by omega)
    unfold row at hm
    rw [Prod.mk.injEq] at hm
    rw [hm.1, hm.2]
    constructor
    · intro h
      by_contra hcon
      push Not at hcon
      have := mul_pos hc (sub_pos.2 hcon)
      linarith
    · intro h
      exact mul_nonpos_of_nonneg_of_nonpos hc.le (by linarith)
  constructor
  · intro h l hl
    rcases Nat.eq_zero_or_pos l with rfl | h0
    · have := (hside (n - 1) (by omega)).1 (h (n - 1) (by omega))
      rwa [Nat.sub_add_cancel (by omega), Nat.mod_self] at this
    · have := (hside (l - 1) (by omega)).1 (h (l - 1) (by omega))
      rwa [Nat.sub_add_cancel h0, Nat.mod_eq_of_lt hl] at this
  · intro h k hk
    exact (hside k hk).2 (h _ (Nat.mod_lt _ (by omega)))

/-- A hexagon of radius 2 has its side on top at the height `√3`. -/
example : ∃ vs, regularVertices 2 6 = some vs ∧ ((0, Real.sqrt 3) ∈ convexHull ℝ {v | v ∈ vs} ↔
    Spec.Regular 6 (2 * Real.cos (Real.pi / (6 : ℕ))) (0, Real.sqrt 3)) :=
  C151_regular 2 (by norm_num) 6 (by norm_num) _

/-! ## C151: limits -/

theorem foldl_max_spec (x : ℝ) (l : List ℝ) : (∀ y ∈ x :: l, y ≤ l.foldl max x) ∧ l.foldl max x ∈ x :: l := by
  induction l generalizing x with
  | nil => simp
  | cons a l ih =>
    rw [List.foldl_cons]
    obtain ⟨h1, h2⟩ := ih (max x a)
    constructor
    · intro y hy
      rcases List.mem_cons.1 hy with rfl | hy
      · exact (le_max_left _ a).trans (h1 _ (List.mem_cons_self ..))
      · rcases List.mem_cons.1 hy with rfl | hy
        · exact (le_max_right x _).trans (h1 _ (List.mem_cons_self ..))
        · exact h1 y (by simp [hy])
    · rcases List.mem_cons.1 h2 with h | h
      · rw [h]
        rcases max_choice x a with e | e <;> rw [e] <;> simp
      · simp [h]

theorem foldl_min_spec (x : ℝ) (l : List ℝ) : (∀ y ∈ x :: l, l.foldl min x ≤ y) ∧ l.foldl min x ∈ x :: l := by
  induction l generalizing x with
  | nil => simp
  | cons a l ih =>
    rw [List.foldl_cons]
    obtain ⟨h1, h2⟩ := ih (min x a)
    constructor
    · intro y hy
      rcases List.mem_cons.1 hy with rfl | hy
      · exact (h1 _ (List.mem_cons_self ..)).trans (min_le_left _ a)
      · rcases List.mem_cons.1 hy with rfl | hy
        · exact (h1 _ (List.mem_cons_self ..)).trans (min_le_right x _)
        · exact h1 y (by simp [hy])
    · rcases List.mem_cons.1 h2 with h | h
      · rw [h]
        rcases min_choice x a with e | e <;> rw [e] <;> simp
      · simp [h]

theorem amax_spec (l : List ℝ) (h : l ≠ []) : (∀ y ∈ l, y ≤ amax l) ∧ amax l ∈ l := by
  obtain ⟨x, r, rfl⟩ := List.exists_cons_of_ne_nil h
  exact foldl_max_spec x r

theorem amin_spec (l : List ℝ) (h : l ≠ []) : (∀ y ∈ l, amin l ≤ y) ∧ amin l ∈ l := by
  obtain ⟨x, r, rfl⟩ := List.exists_cons_of_ne_nil h
  exact foldl_min_spec x r

/-- C151 (partial: shapes without rounding): for every polygon, however rotated, the canvas limits are the
exact limits of its area. -/
theorem C151_limits_partial (vs : List (ℝ × ℝ)) (hne : vs ≠ []) :
    Spec.ExactLimits (fun p => p ∈ convexHull ℝ {v | v ∈ vs}) (canvasLimits vs) := by
  have hx : vs.map Prod.fst ≠ [] := by simpa using hne
  have hy : vs.map Prod.snd ≠ [] := by simpa using hne
  obtain ⟨a1, a2⟩ := amin_spec _ hx
  obtain ⟨b1, b2⟩ := amax_spec _ hx
  obtain ⟨c1, c2⟩ := amin_spec _ hy
  obtain ⟨d1, d2⟩ := amax_spec _ hy
  have mem : ∀ v ∈ vs, v ∈ convexHull ℝ {v | v ∈ vs} := fun v hv => subset_convexHull ℝ _ hv
  have at1 : ∀ m, m ∈ vs.map Prod.fst → ∃ p, p ∈ convexHull ℝ {v | v ∈ vs} ∧ p.1 = m := by
    intro m hm
    obtain ⟨v, hv, rfl⟩ := List.mem_map.1 hm
    exact ⟨v, mem v hv, rfl⟩
  have at2 : ∀ m, m ∈ vs.map Prod.snd → ∃ p, p ∈ convexHull ℝ {v | v ∈ vs} ∧ p.2 = m := by
    intro m hm
    obtain ⟨v, hv, rfl⟩ := List.mem_map.1 hm
    exact ⟨v, mem v hv, rfl⟩
  refine ⟨?_, at1 _ a2, at1 _ b2, at2 _ c2, at2 _ d2⟩
  intro p hp
  have hsub : convexHull ℝ {v | v ∈ vs} ⊆
      Set.Icc (canvasLimits vs).1 (canvasLimits vs).2.1 ×ˢ Set.Icc (canvasLimits vs).2.2.1 (canvasLimits vs).2.2.2 := by
    refine convexHull_min ?_ ((convex_Icc _ _).prod (convex_Icc _ _))
    intro v hv
    have hv : v ∈ vs := hv
    have m1 := List.mem_map_of_mem (f := Prod.fst) hv
    have m2 := List.mem_map_of_mem (f := Prod.snd) hv
    exact ⟨⟨a1 _ m1, b1 _ m1⟩, ⟨c1 _ m2, d1 _ m2⟩⟩
  obtain ⟨⟨h1, h2⟩, h3, h4⟩ := hsub hp
  exact ⟨h1, h2, h3, h4⟩

/-- C151 (limits of a beam) violated: for every beam, the canvas limits have no extent across its axis, and
the ends are cut off as well. -/
theorem C151_beam_violated (w h : ℝ) (hw : 0 ≤ w) (hh : 0 < h) :
    (beam w h).limits = (-0.5 * w, 0.5 * w, 0, 0) ∧ Spec.Covered (beam w h) (0.5 * w + 0.5 * h, 0) ∧
      Spec.Covered (beam w h) (0, 0.5 * h) ∧ ¬ Spec.ExactLimits (Spec.Covered (beam w h)) (beam w h).limits := by
  have hl : (beam w h).limits = (-0.5 * w, 0.5 * w, 0, 0) := by
    have h1 : -0.5 * w ≤ 0.5 * w := by linarith
    simp only [Checked.limits, beam, canvasLimits, List.map_cons, List.map_nil, amin, amax, List.foldl_cons, List.foldl_nil,
      min_eq_right h1, max_eq_left h1, min_self, max_self]
  have he : Spec.Covered (beam w h) (0.5 * w + 0.5 * h, 0) := by
    refine ⟨(0.5 * w, 0), subset_convexHull ℝ _ (by simp [beam]), ?_⟩
    unfold dist2 beam
    dsimp only
    rw [show (0.5 * w + 0.5 * h - 0.5 * w) ^ 2 + (0 - 0 : ℝ) ^ 2 = (0.5 * h) ^ 2 by ring, Real.sqrt_sq (by linarith)]
  have hm : (0, 0) ∈ convexHull ℝ {v | v ∈ (beam w h).points} := by
    have := (convex_convexHull ℝ {v | v ∈ (beam w h).points})
      (subset_convexHull ℝ _ (show (0.5 * w, 0) ∈ {v | v ∈ (beam w h).points} by simp [beam]))
      (subset_convexHull ℝ _ (show (-0.5 * w, 0) ∈ {v | v ∈ (beam w h).points} by simp [beam]))
      (a := 1 / 2) (b := 1 / 2) (by norm_num) (by norm_num) (by norm_num)
    have e : ((1 / 2 : ℝ) • ((0.5 * w, 0) : ℝ × ℝ) + (1 / 2 : ℝ) • ((-0.5 * w, 0) : ℝ × ℝ)) = (0, 0) := by
      ext <;> simp
    rwa [e] at this
  have ht : Spec.Covered (beam w h) (0, 0.5 * h) := by
    refine ⟨(0, 0), hm, ?_⟩
    unfold dist2 beam
    dsimp only
    rw [show ((0 : ℝ) - 0) ^ 2 + (0.5 * h - 0) ^ 2 = (0.5 * h) ^ 2 by ring, Real.sqrt_sq (by linarith)]
  refine ⟨hl, he, ht, ?_⟩
  rintro ⟨h1, -⟩
  have := (h1 _ ht).2.2.2
  rw [hl] at this
  dsimp only at this
  linarith

/-! ## C151: solids -/

theorem twoFaces_hull (vs : List (ℝ × ℝ)) (hgt : ℝ) (hh : 0 ≤ hgt) (p : (ℝ × ℝ) × ℝ) :
    p ∈ convexHull ℝ {v | v ∈ twoFaces vs hgt} ↔ p.1 ∈ convexHull ℝ {v | v ∈ vs} ∧ |p.2| ≤ hgt / 2 := by
  have e : {v | v ∈ twoFaces vs hgt} = {v | v ∈ vs} ×ˢ ({-(hgt / 2), hgt / 2} : Set ℝ) := by
    ext v
    obtain ⟨v, z⟩ := v
    simp only [twoFaces, List.mem_append, List.mem_map, Prod.mk.injEq, Set.mem_ofPred_eq, Set.mem_prod, Set.mem_insert_iff,
      Set.mem_singleton_iff]
    constructor
    · rintro (⟨w, hw, rfl, rfl⟩ | ⟨w, hw, rfl, rfl⟩)
      · exact ⟨hw, Or.inl (by ring)⟩
      · exact ⟨hw, Or.inr (by ring)⟩
    · rintro ⟨hw, rfl | rfl⟩
      · exact Or.inl ⟨v, hw, rfl, by ring⟩
      · exact Or.inr ⟨v, hw, rfl, by ring⟩
  rw [e, convexHull_prod, convexHull_pair, segment_eq_Icc (by linarith), Set.mem_prod, Set.mem_Icc, abs_le]

/-- C151: `Cuboid(width, depth, height)` is the box of that width, depth and height around the origin. -/
theorem C151_cuboid (w d hgt : ℝ) (hw : 0 < w) (hd : 0 < d) (hh : 0 ≤ hgt) (p : (ℝ × ℝ) × ℝ) :
    ∃ vs, cuboidVertices w d hgt = some vs ∧
      (p ∈ convexHull ℝ {v | v ∈ vs} ↔ |p.1.1| ≤ w / 2 ∧ |p.1.2| ≤ d / 2 ∧ |p.2| ≤ hgt / 2) := by
  refine ⟨twoFaces (rectVertices w d) hgt, by unfold cuboidVertices; rw [rectangle_eq]; rfl, ?_⟩
  rw [twoFaces_hull _ _ hh, hull_rect w d hw hd, and_assoc]

/-- C151: `RegularPrisma(radius, height, n)` with `n ≥ 3` is the prism of that height on the regular polygon with
circumradius `radius`. -/
theorem C151_prism (r hgt : ℝ) (hr : 0 < r) (hh : 0 ≤ hgt) (n : ℕ) (hn : 3 ≤ n) (p : (ℝ × ℝ) × ℝ) :
    ∃ vs, prismVertices r hgt n = some vs ∧
      (p ∈ convexHull ℝ {v | v ∈ vs} ↔ Spec.Regular n (r * Real.cos (Real.pi / n)) p.1 ∧ |p.2| ≤ hgt / 2) := by
  obtain ⟨vs, hvs, h⟩ := C151_regular r hr n hn p.1
  refine ⟨twoFaces vs hgt, by unfold prismVertices; rw [hvs]; rfl, ?_⟩
  rw [twoFaces_hull _ _ hh, h]

/-- C151: what is kept free for `Plate(shape, height)` covers the plate: every point above or below the polygon
at a height of at most half of the given one is within the radius of the hull of its points. -/
theorem C151_plate (vs : List (ℝ × ℝ)) (hgt : ℝ) (p : (ℝ × ℝ) × ℝ) (hp : p.1 ∈ convexHull ℝ {v | v ∈ vs})
    (hz : |p.2| ≤ hgt / 2) :
    ∃ c ∈ convexHull ℝ {v | v ∈ (plate vs hgt).1}, Spec.dist3 c p ≤ (plate vs hgt).2 := by
  have e : {v | v ∈ (plate vs hgt).1} = {v | v ∈ vs} ×ˢ ({0} : Set ℝ) := by
    ext v
    obtain ⟨v, z⟩ := v
    simp only [plate, List.mem_map, Prod.mk.injEq, Set.mem_ofPred_eq, Set.mem_prod, Set.mem_singleton_iff]
    constructor
    · rintro ⟨w, hw, rfl, rfl⟩
      exact ⟨hw, rfl⟩
    · rintro ⟨hw, rfl⟩
      exact ⟨v, hw, rfl, rfl⟩
  refine ⟨(p.1, 0), ?_, ?_⟩
  · rw [e, convexHull_prod, convexHull_singleton]
    exact ⟨hp, rfl⟩
  · unfold Spec.dist3 plate
    dsimp only
    rw [show (p.1.1 - p.1.1) ^ 2 + (p.1.2 - p.1.2) ^ 2 + (0 - p.2) ^ 2 = p.2 ^ 2 by ring, Real.sqrt_sq_eq_abs]
    linarith

/-- C151 (plate of a beam) violated: the plate forgets the rounding of its shape.  For every plate that is
thinner than the beam is wide, the end of the beam is not covered. -/
theorem C151_plate_violated (w h hgt : ℝ) (hw : 0 ≤ w) (hh : 0 < h) (hgh : hgt < h) :
    Spec.Covered (beam w h) (0.5 * w + 0.5 * h, 0) ∧
      ¬ ∃ c ∈ convexHull ℝ {v | v ∈ (plate (beam w h).points hgt).1},
        Spec.dist3 c ((0.5 * w + 0.5 * h, 0), 0) ≤ (plate (beam w h).points hgt).2 := by
  refine ⟨(C151_beam_violated w h hw hh).2.1, ?_⟩
  rintro ⟨c, hc, hd⟩
  have hsub : convexHull ℝ {v | v ∈ (plate (beam w h).points hgt).1} ⊆
      (Set.Iic (0.5 * w) ×ˢ (Set.univ : Set ℝ)) ×ˢ (Set.univ : Set ℝ) := by
    refine convexHull_min ?_ (((convex_Iic _).prod convex_univ).prod convex_univ)
    intro v hv
    have hv : v ∈ (plate (beam w h).points hgt).1 := hv
    simp only [plate, beam, List.map_cons, List.map_nil, List.mem_cons, List.not_mem_nil, or_false] at hv
    rcases hv with rfl | rfl
    · exact ⟨⟨Set.mem_Iic.2 (le_refl (0.5 * w)), trivial⟩, trivial⟩
    · exact ⟨⟨Set.mem_Iic.2 (show -0.5 * w ≤ 0.5 * w by linarith), trivial⟩, trivial⟩
  have hx : c.1.1 ≤ 0.5 * w := (hsub hc).1.1
  have hd' : Spec.dist3 c ((0.5 * w + 0.5 * h, 0), 0) ≤ 0.5 * hgt := hd
  have : 0.5 * h ≤ Spec.dist3 c ((0.5 * w + 0.5 * h, 0), 0) := by
    unfold Spec.dist3
    apply Real.le_sqrt_of_sq_le
    dsimp only
    nlinarith [sq_nonneg (c.1.2 - 0), sq_nonneg (c.2 - 0)]
  linarith

/-- C151: in space, an orientation turns a shape without deforming or reflecting it. -/
theorem C151_turn (φ θ ψ : ℝ) : (rot3 φ θ ψ).transpose * rot3 φ θ ψ = 1 ∧ (rot3 φ θ ψ).det = 1 := by
  have h1 := Real.sin_sq_add_cos_sq φ
  have h2 := Real.sin_sq_add_cos_sq θ
  have h3 := Real.sin_sq_add_cos_sq ψ
  have c1 : Real.cos φ ^ 2 = 1 - Real.sin φ ^ 2 := by linarith
  have c2 : Real.cos θ ^ 2 = 1 - Real.sin θ ^ 2 := by linarith
  have c3 : Real.cos ψ ^ 2 = 1 - Real.sin ψ ^ 2 := by linarith
  constructor
  · unfold rot3
    ext i j
    fin_cases i <;> fin_cases j <;> simp [Matrix.mul_apply, Fin.sum_univ_succ] <;> ring_nf <;>
      simp only [c1, c2, c3] <;> ring
  · unfold rot3
    rw [Matrix.det_fin_three]
    simp
    ring_nf
    simp only [c1, c2, c3]
    ring

/-- C151: roll, pitch and yaw are turns about the first, second and third coordinate, carried out in that
order. -/
theorem C151_order (φ θ ψ : ℝ) : rot3 φ θ ψ = rot3 0 0 ψ * rot3 0 θ 0 * rot3 φ 0 0 ∧
    rot3 0 0 ψ = !![Real.cos ψ, -Real.sin ψ, 0; Real.sin ψ, Real.cos ψ, 0; 0, 0, 1] ∧
    rot3 0 θ 0 = !![Real.cos θ, 0, Real.sin θ; 0, 1, 0; -Real.sin θ, 0, Real.cos θ] ∧
    rot3 φ 0 0 = !![1, 0, 0; 0, Real.cos φ, -Real.sin φ; 0, Real.sin φ, Real.cos φ] := by
  refine ⟨?_, ?_, ?_, ?_⟩
  · unfold rot3
    ext i j
    fin_cases i <;> fin_cases j <;> simp [Matrix.mul_apply, Fin.sum_univ_succ] <;> ring
  all_goals unfold rot3; simp

example (p : (ℝ × ℝ) × ℝ) : ∃ vs, cuboidVertices 2 1 3 = some vs ∧ (p ∈ convexHull ℝ {v | v ∈ vs} ↔
    |p.1.1| ≤ 2 / 2 ∧ |p.1.2| ≤ 1 / 2 ∧ |p.2| ≤ 3 / 2) :=
  C151_cuboid 2 1 3 (by norm_num) (by norm_num) (by norm_num) p

example : ∃ vs, prismVertices 1 2 5 = some vs ∧ (((0, 0), 1) ∈ convexHull ℝ {v | v ∈ vs} ↔
    Spec.Regular 5 (1 * Real.cos (Real.pi / (5 : ℕ))) (0, 0) ∧ |(1 : ℝ)| ≤ 2 / 2) :=
  C151_prism 1 2 (by norm_num) (by norm_num) 5 (by norm_num) ((0, 0), 1)

example (p : ℝ × ℝ) : ∃ vs, rectangleVertices 3 1 = some vs ∧ (p ∈ convexHull ℝ {v | v ∈ vs} ↔ |p.1| ≤ 3 / 2 ∧ |p.2| ≤ 1 / 2) :=
  C151_rectangle 3 1 (by norm_num) (by norm_num) p

/-- A rotated triangle. -/
example : Spec.ExactLimits (fun p => p ∈ convexHull ℝ {v | v ∈ [(0, 0), (1, 2), (3, -1)].map (rotate 1)})
    (canvasLimits ([(0, 0), (1, 2), (3, -1)].map (rotate 1))) :=
  C151_limits_partial _ (by simp)

/-- A plate of height 0.2 on a square. -/
example : ∃ c ∈ convexHull ℝ {v | v ∈ (plate (rectVertices 1 1) 0.2).1},
    Spec.dist3 c ((0.25, 0.5), -0.1) ≤ (plate (rectVertices 1 1) 0.2).2 :=
  C151_plate (rectVertices 1 1) 0.2 ((0.25, 0.5), -0.1)
    ((hull_rect 1 1 (by norm_num) (by norm_num) _).2 ⟨by norm_num [abs_le], by norm_num [abs_le]⟩) (by norm_num [abs_le])

example : ¬ ∃ c ∈ convexHull ℝ {v | v ∈ (plate (beam 2 1).points 0.1).1},
    Spec.dist3 c ((0.5 * 2 + 0.5 * 1, 0), 0) ≤ (plate (beam 2 1).points 0.1).2 :=
  (C151_plate_violated 2 1 0.1 (by norm_num) (by norm_num) (by norm_num)).2

example : ¬ Spec.ExactLimits (Spec.Covered (beam 2 1)) (beam 2 1).limits :=
  (C151_beam_violated 2 1 (by norm_num) (by norm_num)).2.2.2

end Verif.Geometry.Shapes
