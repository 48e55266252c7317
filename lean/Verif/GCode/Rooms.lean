import Verif.GCode.Arcs

/-! # Rooms of a GCode program (C46, C87-C89)

Mirrors `get_environment` and `split_ring_segment`, `omgtools/problems/gcodeschedulerproblem.py:230-556`.  The rooms of straight blocks are
modelled completely; of the rooms of arcs the angles of the ring (`omgtools/basics/shape.py:80-105`) without splitting and without variable
tolerance. -/

set_option linter.unusedSectionVars false

namespace Verif.GCode

/-! ## Model: straight blocks -/

/-- `Rectangle (width, height, orientation)` at a position. -/
structure Rect where
  width : ℝ
  height : ℝ
  orientation : ℝ
  cx : ℝ
  cy : ℝ

/-- A room: shape with its position, height of the pose, start, end and number. -/
structure Room where
  shape : Rect
  z : ℝ
  start : ℝ × ℝ × ℝ
  stop : ℝ × ℝ × ℝ
  number : ℕ

/-- `distance_between_points (block.start, block.end)`, basics/geometry.py:23-30. -/
noncomputable def Block.length (b : Block ℝ) : ℝ :=
  √((b.stop.1 - b.start.1) ^ 2 + (b.stop.2.1 - b.start.2.1) ^ 2 + (b.stop.2.2 - b.start.2.2) ^ 2)

/-- `orientation`, gcodeschedulerproblem.py:250, 264. -/
noncomputable def Block.orientation (b : Block ℝ) : ℝ := arctan2 (b.stop.2.1 - b.start.2.1) (b.stop.1 - b.start.1)

/-- The room of a block that is not split, gcodeschedulerproblem.py:247-259. -/
noncomputable def singleRoom (tol : ℝ) (b : Block ℝ) (number : ℕ) : Room :=
  ⟨⟨b.length + 2 * tol, 2 * tol, b.orientation, b.start.1 + (b.stop.1 - b.start.1) * (1 / 2), b.start.2.1 + (b.stop.2.1 - b.start.2.1) * (1 / 2)⟩,
    b.start.2.2 + (b.stop.2.2 - b.start.2.2) * (1 / 2), b.start, b.stop, number⟩

/-- The three rooms of a block that is split, gcodeschedulerproblem.py:260-310. -/
noncomputable def splitRooms (splitSmall tol small : ℝ) (b : Block ℝ) (number : ℕ) : List Room :=
  let o := b.orientation
  let l1 := splitSmall * b.length
  let l2 := (1 - 2 * splitSmall) * b.length
  let zm := b.start.2.2 + (b.stop.2.2 - b.start.2.2) * (1 / 2)
  let ze := b.start.2.2 + (b.stop.2.2 - b.start.2.2)
  let end1 := (b.start.1 + l1 * Real.cos o, b.start.2.1 + l1 * Real.sin o, ze)
  let end2 := (b.start.1 + (l1 + l2) * Real.cos o, b.start.2.1 + (l1 + l2) * Real.sin o, ze)
  [⟨⟨l1 + 2 * tol, 2 * tol, o, b.start.1 + 1 / 2 * l1 * Real.cos o, b.start.2.1 + 1 / 2 * l1 * Real.sin o⟩, zm, b.start, end1, number⟩,
   ⟨⟨l2 + 2 * small, 2 * small, o, b.start.1 + (l1 + 1 / 2 * l2) * Real.cos o, b.start.2.1 + (l1 + 1 / 2 * l2) * Real.sin o⟩, zm, end1, end2,
     number + 1⟩,
   ⟨⟨l1 + 2 * tol, 2 * tol, o, b.stop.1 - 1 / 2 * l1 * Real.cos o, b.stop.2.1 - 1 / 2 * l1 * Real.sin o⟩, zm, end2, b.stop, number + 2⟩]

open Classical in
/-- The rooms of a straight block, gcodeschedulerproblem.py:243-310. -/
noncomputable def straightRooms (variableTol : Bool) (splitLength splitSmall tol small : ℝ) (b : Block ℝ) (number : ℕ) : List Room :=
  if variableTol = false ∨ b.length < splitLength then [singleRoom tol b number] else splitRooms splitSmall tol small b number

/-! ## Model: arcs -/

/-- Rotation of a point around the origin, `np.dot (R, p)`, gcodeschedulerproblem.py:323-335. -/
noncomputable def rotate (t : ℝ) (p : ℝ × ℝ) : ℝ × ℝ := (Real.cos t * p.1 - Real.sin t * p.2, Real.sin t * p.1 + Real.cos t * p.2)

/-- The angle for the tolerance, gcodeschedulerproblem.py:322, where the mean radius is the radius. -/
noncomputable def theta (tol r : ℝ) : ℝ := arctan2 tol (((r - tol) + (r + tol)) * (1 / 2))

/-- Start and end of the ring of a counter-clockwise arc around the origin, gcodeschedulerproblem.py:336-339. -/
noncomputable def ringEnds (tol r : ℝ) (start stop : ℝ × ℝ) : (ℝ × ℝ) × (ℝ × ℝ) := (rotate (-theta tol r) start, rotate (theta tol r) stop)

open Classical in
/-- `start_angle` and `end_angle` of a counter-clockwise ring, basics/shape.py:94-101. -/
noncomputable def ringAngles (ends : (ℝ × ℝ) × (ℝ × ℝ)) : ℝ × ℝ :=
  let a := arctan2 ends.1.2 ends.1.1
  let e := arctan2 ends.2.2 ends.2.1
  if e < a then (a, e + 2 * Real.pi) else (a, e)

/-! ## Specification -/

/-- The point is in the rectangle: seen along the sides, the distances to the centre are at most half of the width and the height. -/
def Rect.Inside (r : Rect) (q : ℝ × ℝ) : Prop :=
  |Real.cos r.orientation * (q.1 - r.cx) + Real.sin r.orientation * (q.2 - r.cy)| ≤ r.width / 2 ∧
  |-Real.sin r.orientation * (q.1 - r.cx) + Real.cos r.orientation * (q.2 - r.cy)| ≤ r.height / 2

/-- The point of the segment from `a` to `b` at the fraction `t`. -/
def Spec.at (a b : ℝ × ℝ × ℝ) (t : ℝ) : ℝ × ℝ × ℝ :=
  (a.1 + t * (b.1 - a.1), a.2.1 + t * (b.2.1 - a.2.1), a.2.2 + t * (b.2.2 - a.2.2))

/-- The room holds all points of the plane with distance at most `tol` to the segment from its start to its end. -/
def Spec.Holds (r : Room) (tol : ℝ) : Prop :=
  ∀ t : ℝ, 0 ≤ t → t ≤ 1 → ∀ q : ℝ × ℝ,
    (q.1 - (Spec.at r.start r.stop t).1) ^ 2 + (q.2 - (Spec.at r.start r.stop t).2.1) ^ 2 ≤ tol ^ 2 → r.shape.Inside q

/-- The point is in the ring with radii `r - tol` and `r + tol` between two angles, around the origin. -/
def Spec.InRing (tol r : ℝ) (angles : ℝ × ℝ) (p : ℝ × ℝ) : Prop :=
  ∃ rho s : ℝ, r - tol ≤ rho ∧ rho ≤ r + tol ∧ angles.1 ≤ s ∧ s ≤ angles.2 ∧ p = (rho * Real.cos s, rho * Real.sin s)

/-- The room of the counter-clockwise arc with radius `r` from the angle `a` over the angle `phi`, around the origin. -/
noncomputable def arcRing (tol r a phi : ℝ) : ℝ × ℝ :=
  ringAngles (ringEnds tol r (r * Real.cos a, r * Real.sin a) (r * Real.cos (a + phi), r * Real.sin (a + phi)))

/-- The rooms chain from `a` to `b`. -/
def Spec.Path (a b : ℝ × ℝ × ℝ) : List Room → Prop
  | [] => a = b
  | r :: rs => r.start = a ∧ Spec.Path r.stop b rs

/-! ## Lemmas -/

/-- The length in the plane. -/
noncomputable def Block.planar (b : Block ℝ) : ℝ := √((b.stop.1 - b.start.1) ^ 2 + (b.stop.2.1 - b.start.2.1) ^ 2)

theorem planar_dir (b : Block ℝ) :
    b.planar * Real.cos b.orientation = b.stop.1 - b.start.1 ∧ b.planar * Real.sin b.orientation = b.stop.2.1 - b.start.2.1 :=
  polar _ _ _ (Real.sq_sqrt (by positivity)).symm (Real.sqrt_nonneg _)

theorem planar_le (b : Block ℝ) : b.planar ≤ b.length := Real.sqrt_le_sqrt (by nlinarith [sq_nonneg (b.stop.2.2 - b.start.2.2)])

theorem planar_nonneg (b : Block ℝ) : 0 ≤ b.planar := Real.sqrt_nonneg _

theorem length_planar {b : Block ℝ} (h : b.start.2.2 = b.stop.2.2) : b.length = b.planar := by
  unfold Block.length Block.planar; rw [h]; congr 1; ring

/-- Two angles with the same sine and cosine differ by full turns. -/
theorem same_angle {a b : ℝ} (h1 : Real.cos a = Real.cos b) (h2 : Real.sin a = Real.sin b) : ∃ k : ℤ, a = b + 2 * Real.pi * k := by
  obtain ⟨k, hk⟩ := Real.Angle.angle_eq_iff_two_pi_dvd_sub.1 (Real.Angle.cos_sin_inj h1 h2)
  exact ⟨k, by linarith⟩

theorem arctan2_polar {r t : ℝ} (hr : 0 < r) : ∃ k : ℤ, arctan2 (r * Real.sin t) (r * Real.cos t) = t + 2 * Real.pi * k := by
  obtain ⟨h1, h2⟩ := polar (r * Real.cos t) (r * Real.sin t) r (by have := Real.sin_sq_add_cos_sq t; linear_combination r ^ 2 * this) hr.le
  exact same_angle (mul_left_cancel₀ hr.ne' h1) (mul_left_cancel₀ hr.ne' h2)

theorem rotate_polar (d r t : ℝ) : rotate d (r * Real.cos t, r * Real.sin t) = (r * Real.cos (t + d), r * Real.sin (t + d)) := by
  unfold rotate
  rw [Real.cos_add, Real.sin_add]
  refine Prod.ext ?_ ?_ <;> simp only <;> ring

/-- The angles of a ring from the angle `A` to the angle `E`. -/
theorem ringAngles_polar {r A E : ℝ} (hr : 0 < r) :
    ∃ k j : ℤ, (ringAngles ((r * Real.cos A, r * Real.sin A), (r * Real.cos E, r * Real.sin E))).1 = A + 2 * Real.pi * k ∧
      (ringAngles ((r * Real.cos A, r * Real.sin A), (r * Real.cos E, r * Real.sin E))).2 -
        (ringAngles ((r * Real.cos A, r * Real.sin A), (r * Real.cos E, r * Real.sin E))).1 = (E - A) + 2 * Real.pi * j ∧
      0 ≤ (E - A) + 2 * Real.pi * j ∧ (E - A) + 2 * Real.pi * j < 2 * Real.pi := by
  obtain ⟨k, hk⟩ := arctan2_polar (t := A) hr
  obtain ⟨m, hm⟩ := arctan2_polar (t := E) hr
  have b1 := arctan2_bounds (r * Real.sin A) (r * Real.cos A)
  have b2 := arctan2_bounds (r * Real.sin E) (r * Real.cos E)
  unfold ringAngles
  simp only
  split
  · rename_i hlt
    refine ⟨k, m + 1 - k, hk, ?_, ?_, ?_⟩
    · push_cast; rw [hk, hm]; ring
    · push_cast; rw [hk] at b1; rw [hm] at b2; nlinarith
    · push_cast; rw [hk, hm] at hlt; nlinarith
  · rename_i hlt
    refine ⟨k, m - k, hk, ?_, ?_, ?_⟩
    · push_cast; rw [hk, hm]; ring
    · push_cast; rw [hk, hm] at hlt; nlinarith
    · push_cast; rw [hk] at b1; rw [hm] at b2; nlinarith

theorem turns_unique {x : ℝ} {j : ℤ} (h0 : 0 ≤ x + 2 * Real.pi * j) (h1 : x + 2 * Real.pi * j < 2 * Real.pi) (n : ℤ)
    (hn0 : 2 * Real.pi * n ≤ x) (hn1 : x < 2 * Real.pi * (n + 1)) : j = -n := by
  have hp := Real.pi_pos
  have a1 : -1 < (j : ℝ) + n := by
    by_contra h; push Not at h; nlinarith
  have a2 : (j : ℝ) + n < 1 := by
    by_contra h; push Not at h; nlinarith
  have a1' : -1 < j + n := by exact_mod_cast a1
  have a2' : j + n < 1 := by exact_mod_cast a2
  omega

theorem theta_nonneg {tol r : ℝ} (h : 0 ≤ tol) : 0 ≤ theta tol r := by
  unfold theta arctan2; exact Complex.arg_nonneg_iff.2 h

theorem abs_le_of_unit {c s x y tol : ℝ} (hcs : s ^ 2 + c ^ 2 = 1) (ht : 0 ≤ tol) (h : x ^ 2 + y ^ 2 ≤ tol ^ 2) :
    |c * x + s * y| ≤ tol ∧ |-s * x + c * y| ≤ tol := by
  constructor
  · apply abs_le_of_sq_le_sq _ ht
    nlinarith [sq_nonneg (-s * x + c * y)]
  · apply abs_le_of_sq_le_sq _ ht
    nlinarith [sq_nonneg (c * x + s * y)]

theorem inside_of {r : Rect} {p0 : ℝ × ℝ} {m s tol : ℝ} {q : ℝ × ℝ} (ht : 0 ≤ tol)
    (hx : r.cx = p0.1 + m * Real.cos r.orientation) (hy : r.cy = p0.2 + m * Real.sin r.orientation)
    (hw : |s - m| + tol ≤ r.width / 2) (hh : tol ≤ r.height / 2)
    (hq : (q.1 - (p0.1 + s * Real.cos r.orientation)) ^ 2 + (q.2 - (p0.2 + s * Real.sin r.orientation)) ^ 2 ≤ tol ^ 2) : r.Inside q := by
  have hcs := Real.sin_sq_add_cos_sq r.orientation
  obtain ⟨h1, h2⟩ := abs_le_of_unit hcs ht hq
  constructor
  · have e : Real.cos r.orientation * (q.1 - r.cx) + Real.sin r.orientation * (q.2 - r.cy) =
        (s - m) + (Real.cos r.orientation * (q.1 - (p0.1 + s * Real.cos r.orientation)) +
          Real.sin r.orientation * (q.2 - (p0.2 + s * Real.sin r.orientation))) := by
      rw [hx, hy]; linear_combination (s - m) * hcs
    rw [e]
    exact (abs_add_le _ _).trans (by linarith)
  · have e : -Real.sin r.orientation * (q.1 - r.cx) + Real.cos r.orientation * (q.2 - r.cy) =
        -Real.sin r.orientation * (q.1 - (p0.1 + s * Real.cos r.orientation)) +
          Real.cos r.orientation * (q.2 - (p0.2 + s * Real.sin r.orientation)) := by
      rw [hx, hy]; ring
    rw [e]; exact h2.trans hh

/-! ## Properties: straight blocks -/

/-- C46: without splitting, a block has one room from its start to its end, which holds the segment with the tolerance as margin. -/
theorem C46_single (variableTol : Bool) (splitLength splitSmall tol small : ℝ) (b : Block ℝ) (number : ℕ) (ht : 0 ≤ tol)
    (hv : variableTol = false ∨ b.length < splitLength) :
    ∃ r, straightRooms variableTol splitLength splitSmall tol small b number = [r] ∧ r.start = b.start ∧ r.stop = b.stop ∧ r.number = number ∧
      Spec.Holds r tol := by
  refine ⟨singleRoom tol b number, by simp [straightRooms, hv], rfl, rfl, rfl, ?_⟩
  intro t h0 h1 q hq
  obtain ⟨d1, d2⟩ := planar_dir b
  have hle := planar_le b
  have hn := planar_nonneg b
  refine inside_of (p0 := (b.start.1, b.start.2.1)) (m := 1 / 2 * b.planar) (s := t * b.planar) ht ?_ ?_ ?_ ?_ ?_
  · simp only [singleRoom]; linear_combination (-1 / 2) * d1
  · simp only [singleRoom]; linear_combination (-1 / 2) * d2
  · have : |t * b.planar - 1 / 2 * b.planar| ≤ b.planar / 2 := by rw [abs_le]; constructor <;> nlinarith
    simp only [singleRoom]; linarith
  · simp only [singleRoom]; linarith
  · refine le_trans (le_of_eq ?_) hq
    simp only [singleRoom, Spec.at]
    have e1 : b.start.1 + t * b.planar * Real.cos b.orientation = b.start.1 + t * (b.stop.1 - b.start.1) := by linear_combination t * d1
    have e2 : b.start.2.1 + t * b.planar * Real.sin b.orientation = b.start.2.1 + t * (b.stop.2.1 - b.start.2.1) := by linear_combination t * d2
    rw [e1, e2]

/-- C46: with and without splitting, the rooms chain from the programmed start to the programmed end. -/
theorem C46_chain (variableTol : Bool) (splitLength splitSmall tol small : ℝ) (b : Block ℝ) (number : ℕ) :
    Spec.Path b.start b.stop (straightRooms variableTol splitLength splitSmall tol small b number) := by
  unfold straightRooms
  split
  · exact ⟨rfl, rfl⟩
  · exact ⟨rfl, rfl, rfl, rfl⟩

/-- C46: a split block without a change of height has three rooms; they are for the programmed fractions of the segment and hold these with
their tolerance as margin. -/
theorem C46_split_partial (splitLength splitSmall tol small : ℝ) (b : Block ℝ) (number : ℕ) (ht : 0 ≤ tol) (hs : 0 ≤ small)
    (h0 : 0 ≤ splitSmall) (h1 : splitSmall ≤ 1 / 2) (hl : splitLength ≤ b.length) (hz : b.start.2.2 = b.stop.2.2) :
    ∃ r1 r2 r3, straightRooms true splitLength splitSmall tol small b number = [r1, r2, r3] ∧
      r1.start = b.start ∧ r1.stop = Spec.at b.start b.stop splitSmall ∧ r2.start = r1.stop ∧
      r2.stop = Spec.at b.start b.stop (1 - splitSmall) ∧ r3.start = r2.stop ∧ r3.stop = b.stop ∧
      Spec.Holds r1 tol ∧ Spec.Holds r2 small ∧ Spec.Holds r3 tol := by
  obtain ⟨d1, d2⟩ := planar_dir b
  have hn := planar_nonneg b
  have hL := length_planar hz
  have hif : straightRooms true splitLength splitSmall tol small b number = splitRooms splitSmall tol small b number := by
    unfold straightRooms; rw [if_neg]; simp only [Bool.true_eq_false, false_or]; exact not_lt.2 hl
  have e1 : ∀ k : ℝ, b.start.1 + k * b.planar * Real.cos b.orientation = b.start.1 + k * (b.stop.1 - b.start.1) := by
    intro k; linear_combination k * d1
  have e2 : ∀ k : ℝ, b.start.2.1 + k * b.planar * Real.sin b.orientation = b.start.2.1 + k * (b.stop.2.1 - b.start.2.1) := by
    intro k; linear_combination k * d2
  rw [hif]
  unfold splitRooms
  refine ⟨_, _, _, rfl, rfl, ?_, rfl, ?_, rfl, rfl, ?_, ?_, ?_⟩
  · simp only [Spec.at, hL, ← e1, ← e2, hz]; simp
  · simp only [Spec.at, hL, ← e1, ← e2, hz]
    refine Prod.ext ?_ (Prod.ext ?_ ?_) <;> simp only <;> ring
  · intro t t0 t1 q hq
    refine inside_of (p0 := (b.start.1, b.start.2.1)) (m := 1 / 2 * (splitSmall * b.planar)) (s := t * splitSmall * b.planar) ht ?_ ?_ ?_ ?_ ?_
    · simp only [hL]
    · simp only [hL]
    · have hp : 0 ≤ splitSmall * b.planar := by positivity
      have : |t * splitSmall * b.planar - 1 / 2 * (splitSmall * b.planar)| ≤ splitSmall * b.planar / 2 := by
        rw [abs_le]; constructor <;> nlinarith
      simp only [hL]; linarith
    · simp only; linarith
    · refine le_trans (le_of_eq ?_) hq
      simp only [Spec.at, hL]
      ring
  · intro t t0 t1 q hq
    refine inside_of (p0 := (b.start.1, b.start.2.1)) (m := splitSmall * b.planar + 1 / 2 * ((1 - 2 * splitSmall) * b.planar))
      (s := splitSmall * b.planar + t * ((1 - 2 * splitSmall) * b.planar)) hs ?_ ?_ ?_ ?_ ?_
    · simp only [hL]
    · simp only [hL]
    · have hp : 0 ≤ (1 - 2 * splitSmall) * b.planar := mul_nonneg (by linarith) hn
      have : |splitSmall * b.planar + t * ((1 - 2 * splitSmall) * b.planar) - (splitSmall * b.planar + 1 / 2 * ((1 - 2 * splitSmall) * b.planar))| ≤
          (1 - 2 * splitSmall) * b.planar / 2 := by
        rw [abs_le]; constructor <;> nlinarith
      simp only [hL]; linarith
    · simp only; linarith
    · refine le_trans (le_of_eq ?_) hq
      simp only [Spec.at, hL]
      ring
  · intro t t0 t1 q hq
    refine inside_of (p0 := (b.start.1, b.start.2.1)) (m := (1 - splitSmall) * b.planar + 1 / 2 * (splitSmall * b.planar))
      (s := (1 - splitSmall) * b.planar + t * (splitSmall * b.planar)) ht ?_ ?_ ?_ ?_ ?_
    · simp only [hL]; linear_combination -d1
    · simp only [hL]; linear_combination -d2
    · have hp : 0 ≤ splitSmall * b.planar := by positivity
      have : |(1 - splitSmall) * b.planar + t * (splitSmall * b.planar) - ((1 - splitSmall) * b.planar + 1 / 2 * (splitSmall * b.planar))| ≤
          splitSmall * b.planar / 2 := by
        rw [abs_le]; constructor <;> nlinarith
      simp only [hL]; linarith
    · simp only; linarith
    · refine le_trans (le_of_eq ?_) hq
      simp only [Spec.at, hL]
      have g1 : b.stop.1 = b.start.1 + b.planar * Real.cos b.orientation := by linarith
      have g2 : b.stop.2.1 = b.start.2.1 + b.planar * Real.sin b.orientation := by linarith
      rw [g1, g2]
      ring

/-- A straight block in the plane that is split. -/
noncomputable def exLine : Block ℝ := ⟨.g01, (0, 0, 0), (3, 4, 0), none, none, none⟩

example : exLine.length = 5 ∧ exLine.start.2.2 = exLine.stop.2.2 := by
  refine ⟨?_, rfl⟩
  have : exLine.length = √(5 ^ 2) := by unfold Block.length exLine; norm_num
  rw [this, Real.sqrt_sq (by norm_num)]

theorem orientation_flat (b : Block ℝ) (hx : 0 ≤ b.stop.1 - b.start.1) (hy : b.stop.2.1 = b.start.2.1) : b.orientation = 0 := by
  unfold Block.orientation arctan2
  rw [hy, sub_self]
  exact Complex.arg_ofReal_of_nonneg hx

/-- C46 is violated: for a split block that also moves the z-axis, the end of the first room is not on the programmed segment. -/
theorem C46_split_violated : ∃ (b : Block ℝ) (r1 r2 r3 : Room), straightRooms true 0 (1 / 4) 1 (1 / 2) b 0 = [r1, r2, r3] ∧
    ∀ t : ℝ, r1.stop ≠ Spec.at b.start b.stop t := by
  have hl : (Block.mk (K := ℝ) .g01 (0, 0, 0) (3, 0, 4) none none none).length = 5 := by
    have : (Block.mk (K := ℝ) .g01 (0, 0, 0) (3, 0, 4) none none none).length = √(5 ^ 2) := by unfold Block.length; norm_num
    rw [this, Real.sqrt_sq (by norm_num)]
  have hr : straightRooms true 0 (1 / 4) 1 (1 / 2) (Block.mk (K := ℝ) .g01 (0, 0, 0) (3, 0, 4) none none none) 0 =
      splitRooms (1 / 4) 1 (1 / 2) (Block.mk (K := ℝ) .g01 (0, 0, 0) (3, 0, 4) none none none) 0 := by
    unfold straightRooms
    rw [if_neg (by rw [hl]; norm_num)]
  unfold splitRooms at hr
  refine ⟨_, _, _, _, hr, ?_⟩
  · intro t ht
    have ho : (Block.mk (K := ℝ) .g01 (0, 0, 0) (3, 0, 4) none none none).orientation = 0 := orientation_flat _ (by norm_num) rfl
    simp only [Spec.at, hl, ho, Real.cos_zero, Real.sin_zero, Prod.mk.injEq] at ht
    have h1 := ht.1
    have h2 := ht.2.2
    norm_num at h1 h2
    linarith

/-- C87: the room of a block without a change of height holds only points in the band around the segment: at most the tolerance away to the
side, and at most the tolerance before the start or behind the end. -/
theorem C87_partial (tol : ℝ) (b : Block ℝ) (number : ℕ) (hz : b.start.2.2 = b.stop.2.2) (hne : b.start ≠ b.stop) (q : ℝ × ℝ)
    (hq : (singleRoom tol b number).shape.Inside q) :
    ∃ u : ℝ × ℝ, u.1 ^ 2 + u.2 ^ 2 = 1 ∧ ∃ l s v : ℝ, 0 < l ∧ (b.stop.1, b.stop.2.1) = (b.start.1 + l * u.1, b.start.2.1 + l * u.2) ∧
      q = (b.start.1 + s * u.1 - v * u.2, b.start.2.1 + s * u.2 + v * u.1) ∧ -tol ≤ s ∧ s ≤ l + tol ∧ |v| ≤ tol := by
  obtain ⟨d1, d2⟩ := planar_dir b
  have hL := length_planar hz
  have hcs := Real.sin_sq_add_cos_sq b.orientation
  have hpos : 0 < b.planar := by
    refine lt_of_le_of_ne (planar_nonneg b) (fun h => hne ?_)
    rw [← h, zero_mul] at d1 d2
    exact Prod.ext (by linarith) (Prod.ext (by linarith) hz)
  obtain ⟨h1, h2⟩ := hq
  simp only [singleRoom, hL] at h1 h2
  generalize hc : Real.cos b.orientation = c at *
  generalize hs : Real.sin b.orientation = s at *
  refine ⟨(c, s), by simp only; linarith, b.planar, c * (q.1 - b.start.1) + s * (q.2 - b.start.2.1),
    -s * (q.1 - b.start.1) + c * (q.2 - b.start.2.1), hpos, ?_, ?_, ?_, ?_, ?_⟩
  · refine Prod.ext ?_ ?_ <;> simp only <;> linarith
  · refine Prod.ext ?_ ?_ <;> simp only
    · linear_combination -(q.1 - b.start.1) * hcs
    · linear_combination -(q.2 - b.start.2.1) * hcs
  · have e : c * (q.1 - (b.start.1 + (b.stop.1 - b.start.1) * (1 / 2))) + s * (q.2 - (b.start.2.1 + (b.stop.2.1 - b.start.2.1) * (1 / 2))) =
        c * (q.1 - b.start.1) + s * (q.2 - b.start.2.1) - b.planar / 2 := by
      rw [← d1, ← d2]; linear_combination (-b.planar / 2) * hcs
    rw [e, abs_le] at h1; linarith [h1.1]
  · have e : c * (q.1 - (b.start.1 + (b.stop.1 - b.start.1) * (1 / 2))) + s * (q.2 - (b.start.2.1 + (b.stop.2.1 - b.start.2.1) * (1 / 2))) =
        c * (q.1 - b.start.1) + s * (q.2 - b.start.2.1) - b.planar / 2 := by
      rw [← d1, ← d2]; linear_combination (-b.planar / 2) * hcs
    rw [e, abs_le] at h1; linarith [h1.2]
  · have e : -s * (q.1 - (b.start.1 + (b.stop.1 - b.start.1) * (1 / 2))) + c * (q.2 - (b.start.2.1 + (b.stop.2.1 - b.start.2.1) * (1 / 2))) =
        -s * (q.1 - b.start.1) + c * (q.2 - b.start.2.1) := by
      rw [← d1, ← d2]; ring
    rw [e] at h2; linarith

/-- C87 is violated: the room of a vertical movement by 8 with tolerance 1 lets the tool move 4 to the side. -/
theorem C87_violated : ∃ (b : Block ℝ) (q : ℝ × ℝ), (singleRoom 1 b 0).shape.Inside q ∧
    ∀ t : ℝ, (q.1 - (Spec.at b.start b.stop t).1) ^ 2 + (q.2 - (Spec.at b.start b.stop t).2.1) ^ 2 = 4 ^ 2 := by
  refine ⟨⟨.g01, (0, 0, 8), (0, 0, 0), none, none, none⟩, (4, 0), ?_, ?_⟩
  · have hl : (Block.mk (K := ℝ) .g01 (0, 0, 8) (0, 0, 0) none none none).length = 8 := by
      have : (Block.mk (K := ℝ) .g01 (0, 0, 8) (0, 0, 0) none none none).length = √(8 ^ 2) := by unfold Block.length; norm_num
      rw [this, Real.sqrt_sq (by norm_num)]
    have ho : (Block.mk (K := ℝ) .g01 (0, 0, 8) (0, 0, 0) none none none).orientation = 0 := orientation_flat _ (by norm_num) rfl
    unfold Rect.Inside
    simp only [singleRoom, hl, ho, Real.cos_zero, Real.sin_zero]
    norm_num
  · intro t; simp [Spec.at]

/-! ## Properties: arcs -/

theorem arcRing_spec (tol r a phi : ℝ) (hr : 0 < r) : ∃ k j : ℤ, (arcRing tol r a phi).1 = a - theta tol r + 2 * Real.pi * k ∧
    (arcRing tol r a phi).2 - (arcRing tol r a phi).1 = phi + 2 * theta tol r + 2 * Real.pi * j ∧
    0 ≤ phi + 2 * theta tol r + 2 * Real.pi * j ∧ phi + 2 * theta tol r + 2 * Real.pi * j < 2 * Real.pi := by
  obtain ⟨k, j, h1, h2, h3, h4⟩ := ringAngles_polar (r := r) (A := a + -theta tol r) (E := a + phi + theta tol r) hr
  have e : a + phi + theta tol r - (a + -theta tol r) = phi + 2 * theta tol r := by ring
  rw [e] at h2 h3 h4
  refine ⟨k, j, ?_, ?_, h3, h4⟩
  · unfold arcRing ringEnds
    rw [rotate_polar, rotate_polar, h1]; ring
  · unfold arcRing ringEnds
    rw [rotate_polar, rotate_polar, h2]

/-- C89: the room of an arc, if it closes no full circle, is the ring sector of the arc made longer by the angle `theta` at both ends, and it
holds the arc with the tolerance as margin to the inside and outside. -/
theorem C89_partial (tol r a phi : ℝ) (hr : 0 < r) (ht : 0 ≤ tol) (hp : 0 ≤ phi) (hfull : phi + 2 * theta tol r < 2 * Real.pi) :
    (arcRing tol r a phi).2 - (arcRing tol r a phi).1 = phi + 2 * theta tol r ∧
    ∀ psi rho : ℝ, -theta tol r ≤ psi → psi ≤ phi + theta tol r → r - tol ≤ rho → rho ≤ r + tol →
      Spec.InRing tol r (arcRing tol r a phi) (rho * Real.cos (a + psi), rho * Real.sin (a + psi)) := by
  obtain ⟨k, j, h1, h2, h3, h4⟩ := arcRing_spec tol r a phi hr
  have hth := theta_nonneg (r := r) ht
  have hj : j = -0 := turns_unique h3 h4 0 (by simp; linarith) (by simp; linarith)
  subst hj
  simp only [neg_zero, Int.cast_zero, mul_zero, add_zero] at h2
  refine ⟨h2, ?_⟩
  intro psi rho p1 p2 q1 q2
  refine ⟨rho, a + psi + 2 * Real.pi * k, q1, q2, by linarith, by linarith, ?_⟩
  have : a + psi + 2 * Real.pi * k = a + psi + k * (2 * Real.pi) := by ring
  rw [this, Real.cos_add_int_mul_two_pi, Real.sin_add_int_mul_two_pi]

/-- C89 is violated: if the arc with its margins closes the circle, the room is only the overlap of the two margins; for all such arcs. -/
theorem C89_full_violated (tol r a phi : ℝ) (hr : 0 < r) (hp : phi < 2 * Real.pi) (hfull : 2 * Real.pi ≤ phi + 2 * theta tol r) :
    (arcRing tol r a phi).2 - (arcRing tol r a phi).1 = phi + 2 * theta tol r - 2 * Real.pi := by
  obtain ⟨k, j, h1, h2, h3, h4⟩ := arcRing_spec tol r a phi hr
  have hb := (arctan2_bounds tol (((r - tol) + (r + tol)) * (1 / 2))).2
  have hj : j = -1 := turns_unique h3 h4 1 (by push_cast; linarith) (by push_cast; unfold theta; linarith)
  subst hj
  rw [h2]; push_cast; ring

theorem theta_one : theta 1 1 = Real.pi / 4 := by
  unfold theta arctan2
  have hp := Real.pi_pos
  have e : (⟨((1 : ℝ) - 1 + (1 + 1)) * (1 / 2), 1⟩ : ℂ) = ((√2 : ℝ) : ℂ) * (Complex.cos ((Real.pi / 4 : ℝ) : ℂ) + Complex.sin ((Real.pi / 4 : ℝ) : ℂ) * Complex.I) := by
    have h2 : √2 * (√2 / 2) = 1 := by
      have := Real.mul_self_sqrt (show (0 : ℝ) ≤ 2 by norm_num); linarith
    rw [← Complex.ofReal_cos, ← Complex.ofReal_sin, Real.cos_pi_div_four, Real.sin_pi_div_four]
    apply Complex.ext
    · simp [h2]; norm_num
    · simp [h2]
  rw [e]
  exact Complex.arg_mul_cos_add_sin_mul_I (by positivity) ⟨by linarith, by linarith⟩

example : ∃ tol r phi : ℝ, 0 < r ∧ 0 < tol ∧ phi < 2 * Real.pi ∧ 2 * Real.pi ≤ phi + 2 * theta tol r :=
  ⟨1, 1, 7 * Real.pi / 4, one_pos, one_pos, by linarith [Real.pi_pos], by rw [theta_one]; linarith [Real.pi_pos]⟩

example : ∃ tol r phi : ℝ, 0 < r ∧ 0 < tol ∧ 0 < phi ∧ phi + 2 * theta tol r < 2 * Real.pi :=
  ⟨1, 1, Real.pi / 2, one_pos, one_pos, by linarith [Real.pi_pos], by rw [theta_one]; linarith [Real.pi_pos]⟩

/-- C89 is violated: the margin at the ends is smaller than the tolerance; a point with distance 1 to the start is not in the room of the
quarter of the unit circle with tolerance 1. -/
theorem C89_margin_violated : ∃ q : ℝ × ℝ, (q.1 - 1) ^ 2 + q.2 ^ 2 = 1 ^ 2 ∧ q.1 ^ 2 + q.2 ^ 2 = 1 ∧
    ¬ Spec.InRing 1 1 (arcRing 1 1 0 (Real.pi / 2)) q := by
  refine ⟨(Real.cos (-(Real.pi / 3)), Real.sin (-(Real.pi / 3))), ?_, ?_, ?_⟩
  · have := Real.sin_sq_add_cos_sq (-(Real.pi / 3))
    have hc : Real.cos (-(Real.pi / 3)) = 1 / 2 := by rw [Real.cos_neg, Real.cos_pi_div_three]
    simp only
    nlinarith
  · have := Real.sin_sq_add_cos_sq (-(Real.pi / 3))
    simp only; linarith
  · rintro ⟨rho, s, r1, _, s1, s2, e⟩
    have hp := Real.pi_pos
    simp only [Prod.mk.injEq] at e
    have n1 := Real.sin_sq_add_cos_sq (-(Real.pi / 3))
    have n2 := Real.sin_sq_add_cos_sq s
    have hrho : rho = 1 := by
      have : rho ^ 2 = 1 := by rw [e.1, e.2] at n1; nlinarith
      have h0 : 0 ≤ rho := by linarith
      nlinarith
    rw [hrho, one_mul, one_mul] at e
    obtain ⟨m, hm⟩ := same_angle e.1.symm e.2.symm
    obtain ⟨k, j, h1, h2, h3, h4⟩ := arcRing_spec 1 1 0 (Real.pi / 2) one_pos
    rw [theta_one] at h1 h2 h3 h4
    have hj : j = -0 := turns_unique h3 h4 0 (by simp; linarith) (by simp; linarith)
    subst hj
    simp only [neg_zero, Int.cast_zero, mul_zero, add_zero] at h2
    have a1 : (0 : ℝ) < (m : ℝ) - k := by
      by_contra h; push Not at h; nlinarith
    have a2 : (m : ℝ) - k < 1 := by
      by_contra h; push Not at h; nlinarith
    have a1' : 0 < m - k := by exact_mod_cast a1
    have a2' : m - k < 1 := by exact_mod_cast a2
    omega

end Verif.GCode
