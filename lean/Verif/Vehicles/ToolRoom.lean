import Verif.Vehicles.Tool
import Verif.GCode.Rooms

/-! # The tool stays close to its path (C135)

`Tool.define_collision_constraints` (vehicles/tool.py:179-268): the splines are kept in the room of their segment. -/

set_option linter.unusedSectionVars false

namespace Verif.Vehicles

open Verif.Spline Verif.GCode Finset

/-! ## Model -/

/-- The shape of a room: a rectangle (with its position), or a ring with center and radii. -/
inductive SegShape where
  | rect (r : Rect)
  | ring (cx cy rin rout : ℝ)

/-- A room as seen by the tool. -/
structure Segment where
  shape : SegShape
  start : ℝ × ℝ × ℝ
  stop : ℝ × ℝ × ℝ

def roomSegment (r : Room) : Segment := ⟨.rect r.shape, r.start, r.stop⟩

/-- The vertices of a rectangle after its rotation, shape.py:132-141, 222-236. -/
noncomputable def corners (r : Rect) : List (ℝ × ℝ) :=
  [rotate r.orientation (r.width / 2, r.height / 2), rotate r.orientation (r.width / 2, -(r.height / 2)),
    rotate r.orientation (-(r.width / 2), -(r.height / 2)), rotate r.orientation (-(r.width / 2), r.height / 2)]

/-- `np.amax` and `np.amin` of four numbers. -/
noncomputable def amax (l : List ℝ) : ℝ := match l with | [] => 0 | a :: l => l.foldr max a
noncomputable def amin (l : List ℝ) : ℝ := match l with | [] => 0 | a :: l => l.foldr min a

open Classical in
/-- The constraints in the plane, tool.py:190-239, for the shape of the tool, `Circle(0)`: one checkpoint `[0, 0]` with radius `0`.
The test `orientation % (pi/2) == 0` is taken over the reals. -/
noncomputable def planeC (g : Segment) (s : Fin 3 → BSpline ℝ) : List (Expr ℝ) :=
  match g.shape with
  | .rect r =>
    if ∃ k : ℤ, r.orientation = k * (Real.pi / 2) then
      [geC (s 0) (amin ((corners r).map (·.1)) + r.cx), leC (s 0) (amax ((corners r).map (·.1)) + r.cx),
       geC (s 1) (amin ((corners r).map (·.2)) + r.cy), leC (s 1) (amax ((corners r).map (·.2)) + r.cy)]
    else
      let v : ℝ × ℝ := (g.stop.1 - g.start.1, g.stop.2.1 - g.start.2.1)
      let a : ℝ × ℝ := (-v.2 * (1 / √(v.1 ^ 2 + v.2 ^ 2)), v.1 * (1 / √(v.1 ^ 2 + v.2 ^ 2)))
      let b := a.1 * g.start.1 + a.2 * g.start.2.1
      let tol := r.height * (1 / 2)
      [.sub (.sub (.add (.mul (.num a.1) (.spl (s 0))) (.mul (.num a.2) (.spl (s 1)))) (.num b)) (.num tol),
       .sub (.add (.sub (.mul (.num (-a.1)) (.spl (s 0))) (.mul (.num a.2) (.spl (s 1)))) (.num b)) (.num tol)]
  | .ring cx cy rin rout =>
    [.add (.sub (.neg (.sq (.sub (.spl (s 0)) (.num cx)))) (.sq (.sub (.spl (s 1)) (.num cy)))) (.num (rin ^ 2)),
     .sub (.add (.sq (.sub (.spl (s 0)) (.num cx))) (.sq (.sub (.spl (s 1)) (.num cy)))) (.num (rout ^ 2))]

open Classical in
/-- The constraints on the height, tool.py:242-247. -/
noncomputable def heightC (g : Segment) (s : Fin 3 → BSpline ℝ) : List (Expr ℝ) :=
  if g.start.2.2 ≠ g.stop.2.2 then
    [geC (s 2) (min g.start.2.2 g.stop.2.2), leC (s 2) (max g.start.2.2 g.stop.2.2)]
  else []

/-- The solution satisfies the constraints of `define_collision_constraints`; the end of the segment is constrained with variable tolerances only,
tool.py:264-268. -/
def RoomOk (g : Segment) (s : Fin 3 → BSpline ℝ) (variableTol : Bool) (tol : ℝ) : Prop :=
  (∀ e ∈ planeC g s ++ heightC g s, e.Imposed 0) ∧
  (variableTol = true →
    (s 0).eval 1 - g.stop.1 - tol * (9 / 10) ≤ 0 ∧ -(s 0).eval 1 + g.stop.1 - tol * (9 / 10) ≤ 0 ∧
    (s 1).eval 1 - g.stop.2.1 - tol * (9 / 10) ≤ 0 ∧ -(s 1).eval 1 + g.stop.2.1 - tol * (9 / 10) ≤ 0)

/-! ## Specification -/

/-- The position in the plane at time `t` of a motion that takes the time `T`. -/
noncomputable def planePos (s : Fin 3 → BSpline ℝ) (T t : ℝ) : ℝ × ℝ := ((s 0).eval (t / T), (s 1).eval (t / T))

/-- The distance in the plane to the line through two points is at most `d`. -/
def Spec.NearLine (a b : ℝ × ℝ × ℝ) (d : ℝ) (q : ℝ × ℝ) : Prop :=
  ∃ u : ℝ, √((q.1 - (Spec.at a b u).1) ^ 2 + (q.2 - (Spec.at a b u).2.1) ^ 2) ≤ d

/-- The distance in the plane to a point of the segment is at most `d`. -/
def Spec.NearSegment (a b : ℝ × ℝ × ℝ) (d : ℝ) (q : ℝ × ℝ) : Prop :=
  ∃ u : ℝ, 0 ≤ u ∧ u ≤ 1 ∧ √((q.1 - (Spec.at a b u).1) ^ 2 + (q.2 - (Spec.at a b u).2.1) ^ 2) ≤ d

/-! ## Lemmas -/

theorem near_of_cross {a b : ℝ × ℝ × ℝ} {d l : ℝ} {q : ℝ × ℝ} (hl : 0 < l) (hsq : l ^ 2 = (b.1 - a.1) ^ 2 + (b.2.1 - a.2.1) ^ 2) (hd : 0 ≤ d)
    (h : |(b.1 - a.1) * (q.2 - a.2.1) - (b.2.1 - a.2.1) * (q.1 - a.1)| ≤ d * l) : Spec.NearLine a b d q := by
  refine ⟨((b.1 - a.1) * (q.1 - a.1) + (b.2.1 - a.2.1) * (q.2 - a.2.1)) / l ^ 2, Real.sqrt_le_iff.2 ⟨hd, ?_⟩⟩
  have h2 := sq_le_sq' (by linarith [(abs_le.1 h).1]) (abs_le.1 h).2
  have hl2 : 0 < l ^ 2 := by positivity
  have key : (q.1 - (Spec.at a b (((b.1 - a.1) * (q.1 - a.1) + (b.2.1 - a.2.1) * (q.2 - a.2.1)) / l ^ 2)).1) ^ 2 +
      (q.2 - (Spec.at a b (((b.1 - a.1) * (q.1 - a.1) + (b.2.1 - a.2.1) * (q.2 - a.2.1)) / l ^ 2)).2.1) ^ 2 =
      ((b.1 - a.1) * (q.2 - a.2.1) - (b.2.1 - a.2.1) * (q.1 - a.1)) ^ 2 / l ^ 2 := by
    simp only [Spec.at]
    rw [eq_div_iff hl2.ne']
    field_simp
    rw [hsq]
    ring
  rw [key, div_le_iff₀ hl2, ← mul_pow]
  exact h2

/-- Multiples of a right angle. -/
theorem right_angle (k : ℤ) : (Real.sin (k * (Real.pi / 2)) = 0 ∧ (Real.cos (k * (Real.pi / 2)) = 1 ∨ Real.cos (k * (Real.pi / 2)) = -1)) ∨
    (Real.cos (k * (Real.pi / 2)) = 0 ∧ (Real.sin (k * (Real.pi / 2)) = 1 ∨ Real.sin (k * (Real.pi / 2)) = -1)) := by
  have h2 := Real.sin_sq_add_cos_sq (k * (Real.pi / 2))
  have h1 : Real.sin (k * (Real.pi / 2)) * Real.cos (k * (Real.pi / 2)) = 0 := by
    have : Real.sin (2 * (k * (Real.pi / 2))) = 0 := by
      rw [show 2 * ((k : ℝ) * (Real.pi / 2)) = k * Real.pi by ring]; exact Real.sin_int_mul_pi k
    rw [Real.sin_two_mul] at this
    linarith
  rcases mul_eq_zero.1 h1 with h | h
  · left
    refine ⟨h, ?_⟩
    rw [h] at h2
    exact sq_eq_one_iff_of_side h2
  · right
    refine ⟨h, ?_⟩
    rw [h] at h2
    exact sq_eq_one_iff_of_side' h2
where
  sq_eq_one_iff_of_side {c : ℝ} (h : (0 : ℝ) ^ 2 + c ^ 2 = 1) : c = 1 ∨ c = -1 := by
    apply sq_eq_one_iff_of_ne_zero'; linarith
  sq_eq_one_iff_of_side' {c : ℝ} (h : c ^ 2 + (0 : ℝ) ^ 2 = 1) : c = 1 ∨ c = -1 := by
    apply sq_eq_one_iff_of_ne_zero'; linarith
  sq_eq_one_iff_of_ne_zero' {c : ℝ} (h : c ^ 2 = 1) : c = 1 ∨ c = -1 := by
    have : (c - 1) * (c + 1) = 0 := by linear_combination h
    rcases mul_eq_zero.1 this with h | h
    · left; linarith
    · right; linarith

/-- The limits of a rectangle that is parallel to the axes. -/
theorem limits_inside {r : Rect} (hw : 0 ≤ r.width) (hh : 0 ≤ r.height) {k : ℤ} (hk : r.orientation = k * (Real.pi / 2)) {q : ℝ × ℝ}
    (h1 : amin ((corners r).map (·.1)) + r.cx ≤ q.1) (h2 : q.1 ≤ amax ((corners r).map (·.1)) + r.cx)
    (h3 : amin ((corners r).map (·.2)) + r.cy ≤ q.2) (h4 : q.2 ≤ amax ((corners r).map (·.2)) + r.cy) : r.Inside q := by
  have hmin : ∀ a b c d x : ℝ, amin [a, b, c, d] ≤ x ↔ b ≤ x ∨ c ≤ x ∨ d ≤ x ∨ a ≤ x := by
    intro a b c d x; simp [amin]
  have hmax : ∀ a b c d x : ℝ, x ≤ amax [a, b, c, d] ↔ x ≤ b ∨ x ≤ c ∨ x ≤ d ∨ x ≤ a := by
    intro a b c d x; simp [amax]
  have e1 : amin ((corners r).map (·.1)) ≤ q.1 - r.cx := by linarith
  have e2 : q.1 - r.cx ≤ amax ((corners r).map (·.1)) := by linarith
  have e3 : amin ((corners r).map (·.2)) ≤ q.2 - r.cy := by linarith
  have e4 : q.2 - r.cy ≤ amax ((corners r).map (·.2)) := by linarith
  simp only [corners, List.map_cons, List.map_nil, rotate, hk, hmin, hmax] at e1 e2 e3 e4
  unfold Rect.Inside
  rw [hk, abs_le, abs_le]
  rcases right_angle k with ⟨hs, hc | hc⟩ | ⟨hc, hs | hs⟩ <;> simp only [hs, hc] at e1 e2 e3 e4 ⊢ <;>
    refine ⟨⟨?_, ?_⟩, ?_, ?_⟩ <;>
    first
      | (rcases e1 with e | e | e | e <;> linarith)
      | (rcases e2 with e | e | e | e <;> linarith)
      | (rcases e3 with e | e | e | e <;> linarith)
      | (rcases e4 with e | e | e | e <;> linarith)

section
variable {s : Fin 3 → BSpline ℝ} {T t : ℝ} {g : Segment} {vt : Bool} {tol : ℝ}

/-- The plane constraints of a rectangle that is parallel to the axes. -/
theorem box_inside {r : Rect} (hw : 0 ≤ r.width) (hh : 0 ≤ r.height) (hg : g.shape = .rect r) (hk : ∃ k : ℤ, r.orientation = k * (Real.pi / 2))
    {n : ℕ} (ht : ∀ i, Traj (s i) n) (hc : ∀ e ∈ planeC g s, e.Imposed 0) (hT : 0 < T) (h0 : 0 ≤ t) (h1 : t ≤ T) : r.Inside (planePos s T t) := by
  unfold planeC at hc
  rw [hg] at hc
  simp only [hk, if_true, List.forall_mem_cons] at hc
  obtain ⟨k, hk⟩ := hk
  exact limits_inside hw hh hk (geC_le (ht 0) hc.1 hT h0 h1) (leC_le (ht 0) hc.2.1 hT h0 h1) (geC_le (ht 1) hc.2.2.1 hT h0 h1)
    (leC_le (ht 1) hc.2.2.2.1 hT h0 h1)

/-- The plane constraints of another rectangle. -/
theorem diagonal_near {r : Rect} (hh : 0 ≤ r.height) (hg : g.shape = .rect r) (hk : ¬ ∃ k : ℤ, r.orientation = k * (Real.pi / 2))
    {n : ℕ} (ht : ∀ i, Traj (s i) n) (hne : (g.start.1, g.start.2.1) ≠ (g.stop.1, g.stop.2.1)) (hc : ∀ e ∈ planeC g s, e.Imposed 0) (hT : 0 < T)
    (h0 : 0 ≤ t) (h1 : t ≤ T) : Spec.NearLine g.start g.stop (r.height / 2) (planePos s T t) := by
  unfold planeC at hc
  rw [hg] at hc
  simp only [hk, if_false, List.forall_mem_cons] at hc
  have hpos : 0 < (g.stop.1 - g.start.1) ^ 2 + (g.stop.2.1 - g.start.2.1) ^ 2 := by
    refine lt_of_le_of_ne (by positivity) fun e => hne ?_
    have e1 : (g.stop.1 - g.start.1) ^ 2 = 0 := by nlinarith [sq_nonneg (g.stop.1 - g.start.1), sq_nonneg (g.stop.2.1 - g.start.2.1)]
    have e2 : (g.stop.2.1 - g.start.2.1) ^ 2 = 0 := by nlinarith [sq_nonneg (g.stop.1 - g.start.1), sq_nonneg (g.stop.2.1 - g.start.2.1)]
    have e1 := pow_eq_zero_iff (two_ne_zero) |>.1 e1
    have e2 := pow_eq_zero_iff (two_ne_zero) |>.1 e2
    exact Prod.ext (by simp only; linarith) (by simp only; linarith)
  have hl := Real.sqrt_pos.2 hpos
  have hsq := Real.sq_sqrt hpos.le
  set l := √((g.stop.1 - g.start.1) ^ 2 + (g.stop.2.1 - g.start.2.1) ^ 2) with hldef
  have o := fun i => (ht i).on
  have a1 := imposed_le hc.1 ⟨⟨⟨⟨trivial, o 0⟩, trivial, o 1⟩, trivial⟩, trivial⟩ (Or.inl (Or.inl (Or.inl (Or.inr trivial)))) hT h0 h1
  have a2 := imposed_le hc.2.1 ⟨⟨⟨⟨trivial, o 0⟩, trivial, o 1⟩, trivial⟩, trivial⟩ (Or.inl (Or.inl (Or.inl (Or.inr trivial)))) hT h0 h1
  simp only [Expr.val, Expr.sub] at a1 a2
  refine near_of_cross hl hsq (by linarith) ?_
  unfold planePos
  simp only
  have b1 := mul_le_mul_of_nonneg_left a1 hl.le
  have b2 := mul_le_mul_of_nonneg_left a2 hl.le
  have hinv : l * (1 / l) = 1 := by field_simp
  rw [mul_zero] at b1 b2
  rw [abs_le]
  constructor
  · have e : l * ((-(-(g.stop.2.1 - g.start.2.1) * (1 / l)) * (s 0).eval (t / T) + -((g.stop.1 - g.start.1) * (1 / l) * (s 1).eval (t / T)) +
        (-(g.stop.2.1 - g.start.2.1) * (1 / l) * g.start.1 + (g.stop.1 - g.start.1) * (1 / l) * g.start.2.1)) + -(r.height * (1 / 2))) =
        -((g.stop.1 - g.start.1) * ((s 1).eval (t / T) - g.start.2.1) - (g.stop.2.1 - g.start.2.1) * ((s 0).eval (t / T) - g.start.1)) * (l * (1 / l))
          - r.height / 2 * l := by ring
    rw [e, hinv] at b2
    linarith
  · have e : l * ((-(g.stop.2.1 - g.start.2.1) * (1 / l) * (s 0).eval (t / T) + (g.stop.1 - g.start.1) * (1 / l) * (s 1).eval (t / T) +
        -(-(g.stop.2.1 - g.start.2.1) * (1 / l) * g.start.1 + (g.stop.1 - g.start.1) * (1 / l) * g.start.2.1)) + -(r.height * (1 / 2))) =
        ((g.stop.1 - g.start.1) * ((s 1).eval (t / T) - g.start.2.1) - (g.stop.2.1 - g.start.2.1) * ((s 0).eval (t / T) - g.start.1)) * (l * (1 / l))
          - r.height / 2 * l := by ring
    rw [e, hinv] at b1
    linarith

end

/-- The rooms of a straight block lie along it. -/
theorem rooms_along {vt : Bool} {splitLength splitSmall tol small : ℝ} {b : Block ℝ} {number : ℕ} (ht : 0 ≤ tol) (hsm : 0 ≤ small)
    (hne : (b.start.1, b.start.2.1) ≠ (b.stop.1, b.stop.2.1)) (hs0 : 0 < splitSmall) (hs1 : splitSmall < 1 / 2)
    (hz : vt = true → b.start.2.2 = b.stop.2.2) {r : Room} (hr : r ∈ straightRooms vt splitLength splitSmall tol small b number) :
    0 < b.planar ∧ r.shape.orientation = b.orientation ∧ (r.shape.height = 2 * tol ∨ vt = true ∧ r.shape.height = 2 * small) ∧
    0 ≤ r.shape.width ∧
    (∃ μ : ℝ, r.shape.cx = b.start.1 + μ * Real.cos b.orientation ∧ r.shape.cy = b.start.2.1 + μ * Real.sin b.orientation) ∧
    ∃ α β : ℝ, α ≠ β ∧ (r.start.1 = b.start.1 + α * Real.cos b.orientation ∧ r.start.2.1 = b.start.2.1 + α * Real.sin b.orientation) ∧
      r.stop.1 = b.start.1 + β * Real.cos b.orientation ∧ r.stop.2.1 = b.start.2.1 + β * Real.sin b.orientation := by
  obtain ⟨d1, d2⟩ := planar_dir b
  have hpos : 0 < b.planar := by
    refine lt_of_le_of_ne (planar_nonneg b) fun e => hne ?_
    rw [← e, zero_mul] at d1 d2
    exact Prod.ext (by simp only; linarith) (by simp only; linarith)
  have hlen : 0 < b.length := hpos.trans_le (planar_le b)
  refine ⟨hpos, ?_⟩
  unfold straightRooms at hr
  split at hr
  · rw [List.mem_singleton] at hr
    subst hr
    refine ⟨rfl, Or.inl rfl, ?_, ⟨b.planar / 2, ?_, ?_⟩, 0, b.planar, hpos.ne, ⟨?_, ?_⟩, ?_, ?_⟩ <;> simp only [singleRoom] <;> linarith
  · rename_i hc
    push Not at hc
    have hvt : vt = true := by cases vt <;> simp_all
    have hL := length_planar (hz hvt)
    have l1 : 0 < splitSmall * b.planar := by positivity
    have l2 : 0 < (1 - 2 * splitSmall) * b.planar := mul_pos (by linarith) hpos
    simp only [splitRooms, List.mem_cons, List.not_mem_nil, or_false, hL] at hr
    rcases hr with rfl | rfl | rfl
    · refine ⟨rfl, Or.inl rfl, ?_, ⟨1 / 2 * (splitSmall * b.planar), ?_, ?_⟩, 0, splitSmall * b.planar, l1.ne, ⟨?_, ?_⟩, ?_, ?_⟩ <;>
        simp only <;> linarith
    · refine ⟨rfl, Or.inr ⟨hvt, rfl⟩, ?_, ⟨splitSmall * b.planar + 1 / 2 * ((1 - 2 * splitSmall) * b.planar), ?_, ?_⟩, splitSmall * b.planar,
        splitSmall * b.planar + (1 - 2 * splitSmall) * b.planar, by linarith, ⟨?_, ?_⟩, ?_, ?_⟩ <;> simp only <;> linarith
    · refine ⟨rfl, Or.inl rfl, ?_, ⟨b.planar - 1 / 2 * (splitSmall * b.planar), ?_, ?_⟩,
        splitSmall * b.planar + (1 - 2 * splitSmall) * b.planar, b.planar, by linarith, ⟨?_, ?_⟩, ?_, ?_⟩ <;> simp only <;> linarith

/-! ## Properties -/

/-- **C135** (partial: the line is not limited to the segment, see `C135_beyond_violated`; blocks that move in the plane, which are not split if they also
move the z-axis).  At every time of a plan that meets the constraints, the tool is within the tolerance of the room of the line through start and end of its block. -/
theorem C135_line_partial (vt : Bool) (splitLength splitSmall tol small : ℝ) (b : Block ℝ) (number : ℕ) (ht : 0 ≤ tol) (hsm : 0 ≤ small)
    (hne : (b.start.1, b.start.2.1) ≠ (b.stop.1, b.stop.2.1)) (hs0 : 0 < splitSmall) (hs1 : splitSmall < 1 / 2)
    (hz : vt = true → b.start.2.2 = b.stop.2.2) (r : Room) (hr : r ∈ straightRooms vt splitLength splitSmall tol small b number)
    (s : Fin 3 → BSpline ℝ) (hs : ∀ i, Traj (s i) 2) (hok : RoomOk (roomSegment r) s vt tol) (T t : ℝ) (hT : 0 < T) (h0 : 0 ≤ t) (h1 : t ≤ T) :
    Spec.NearLine b.start b.stop (if vt then max tol small else tol) (planePos s T t) := by
  obtain ⟨hpos, ho, hh, hw, ⟨μ, m1, m2⟩, α, β, hab, ⟨a1, a2⟩, b1, b2⟩ := rooms_along ht hsm hne hs0 hs1 hz hr
  obtain ⟨d1, d2⟩ := planar_dir b
  have hcs := Real.sin_sq_add_cos_sq b.orientation
  have hh0 : 0 ≤ r.shape.height := by rcases hh with h | h <;> linarith
  have hle : r.shape.height / 2 ≤ if vt then max tol small else tol := by
    rcases hh with h | ⟨rfl, h⟩
    · rw [h]; split
      · have := le_max_left tol small; linarith
      · linarith
    · rw [h, if_pos rfl]; have := le_max_right tol small; linarith
  suffices Spec.NearLine b.start b.stop (r.shape.height / 2) (planePos s T t) by
    obtain ⟨u, hu⟩ := this; exact ⟨u, hu.trans hle⟩
  have hc := hok.1
  rw [List.forall_mem_append] at hc
  by_cases hk : ∃ k : ℤ, r.shape.orientation = k * (Real.pi / 2)
  · have hin := (box_inside (g := roomSegment r) hw hh0 rfl hk hs hc.1 hT h0 h1).2
    refine near_of_cross hpos ?_ (by linarith) ?_
    · rw [← d1, ← d2]; linear_combination (-b.planar ^ 2) * hcs
    · rw [ho, m1, m2] at hin
      have e : (b.stop.1 - b.start.1) * ((planePos s T t).2 - b.start.2.1) - (b.stop.2.1 - b.start.2.1) * ((planePos s T t).1 - b.start.1) =
          b.planar * (-Real.sin b.orientation * ((planePos s T t).1 - (b.start.1 + μ * Real.cos b.orientation)) +
            Real.cos b.orientation * ((planePos s T t).2 - (b.start.2.1 + μ * Real.sin b.orientation))) := by
        rw [← d1, ← d2]; ring
      rw [e, abs_mul, abs_of_pos hpos, mul_comm]
      exact mul_le_mul_of_nonneg_right hin hpos.le
  · have hne' : ((roomSegment r).start.1, (roomSegment r).start.2.1) ≠ ((roomSegment r).stop.1, (roomSegment r).stop.2.1) := by
      intro e
      simp only [roomSegment, Prod.mk.injEq, a1, a2, b1, b2] at e
      apply hab
      have : (α - β) ^ 2 = 0 := by
        have e1 : (α - β) * Real.cos b.orientation = 0 := by linarith [e.1]
        have e2 : (α - β) * Real.sin b.orientation = 0 := by linarith [e.2]
        linear_combination (-(α - β) ^ 2) * hcs + (α - β) * Real.cos b.orientation * e1 + (α - β) * Real.sin b.orientation * e2
      have := pow_eq_zero_iff two_ne_zero |>.1 this
      linarith
    obtain ⟨v, hv⟩ := diagonal_near (g := roomSegment r) hh0 rfl hk hs hne' hc.1 hT h0 h1
    refine ⟨(α + v * (β - α)) / b.planar, ?_⟩
    have f1 : (Spec.at b.start b.stop ((α + v * (β - α)) / b.planar)).1 = (Spec.at (roomSegment r).start (roomSegment r).stop v).1 := by
      simp only [Spec.at, roomSegment, a1, b1, ← d1]
      field_simp
      ring
    have f2 : (Spec.at b.start b.stop ((α + v * (β - α)) / b.planar)).2.1 = (Spec.at (roomSegment r).start (roomSegment r).stop v).2.1 := by
      simp only [Spec.at, roomSegment, a2, b2, ← d2]
      field_simp
      ring
    rw [f1, f2]
    exact hv

/-- **C135** (partial: axis-parallel blocks in the plane that are not split, up to the corners of the room).  The tool is within the tolerance beside the segment and not
further than the tolerance beyond its ends. -/
theorem C135_box_partial (tol : ℝ) (b : Block ℝ) (number : ℕ) (ht : 0 ≤ tol) (hz : b.start.2.2 = b.stop.2.2) (hne : b.start ≠ b.stop)
    (hk : b.stop.1 = b.start.1 ∨ b.stop.2.1 = b.start.2.1) (vt : Bool)
    (s : Fin 3 → BSpline ℝ) (hs : ∀ i, Traj (s i) 2) (hok : RoomOk (roomSegment (singleRoom tol b number)) s vt tol) (T t : ℝ) (hT : 0 < T)
    (h0 : 0 ≤ t) (h1 : t ≤ T) : Spec.NearSegment b.start b.stop (√2 * tol) (planePos s T t) := by
  have hc := hok.1
  rw [List.forall_mem_append] at hc
  have hor : ∃ k : ℤ, (singleRoom tol b number).shape.orientation = k * (Real.pi / 2) := by
    show ∃ k : ℤ, b.orientation = k * (Real.pi / 2)
    unfold Block.orientation arctan2
    rcases hk with hk | hk
    · rw [hk, sub_self]
      rcases lt_trichotomy (b.stop.2.1 - b.start.2.1) 0 with h | h | h
      · refine ⟨-1, ?_⟩
        rw [Complex.arg_eq_neg_pi_div_two_iff.2 ⟨rfl, h⟩]; push_cast; ring
      · refine ⟨0, ?_⟩
        rw [h]; simp [show (⟨0, 0⟩ : ℂ) = 0 from rfl]
      · refine ⟨1, ?_⟩
        rw [Complex.arg_eq_pi_div_two_iff.2 ⟨rfl, h⟩]; push_cast; ring
    · rw [hk, sub_self]
      rcases lt_or_ge (b.stop.1 - b.start.1) 0 with h | h
      · refine ⟨2, ?_⟩
        rw [Complex.arg_eq_pi_iff.2 ⟨h, rfl⟩]; push_cast; ring
      · refine ⟨0, ?_⟩
        rw [Complex.arg_eq_zero_iff.2 ⟨h, rfl⟩]; simp
  have hin := box_inside (g := roomSegment (singleRoom tol b number)) (by simp only [singleRoom]; have := Real.sqrt_nonneg; unfold Block.length; have := this ((b.stop.1 - b.start.1) ^ 2 + (b.stop.2.1 - b.start.2.1) ^ 2 + (b.stop.2.2 - b.start.2.2) ^ 2); linarith)
    (by simp only [singleRoom]; linarith) rfl hor hs hc.1 hT h0 h1
  obtain ⟨u, hu, l, a, v, hl, e1, e2, a0, a1, hv⟩ := C87_partial tol b number hz hne _ hin
  simp only [Prod.mk.injEq] at e1
  have key : ∀ w : ℝ, |a - w| ≤ tol → 0 ≤ w → w ≤ l → Spec.NearSegment b.start b.stop (√2 * tol) (planePos s T t) := by
    intro w hw w0 w1
    refine ⟨w / l, by positivity, (div_le_one hl).2 w1, Real.sqrt_le_iff.2 ⟨by positivity, ?_⟩⟩
    rw [e2, mul_pow, Real.sq_sqrt (by norm_num)]
    simp only [Spec.at, e1.1, e1.2]
    have f1 : w / l * (b.start.1 + l * u.1 - b.start.1) = w * u.1 := by field_simp; ring
    have f2 : w / l * (b.start.2.1 + l * u.2 - b.start.2.1) = w * u.2 := by field_simp; ring
    rw [f1, f2]
    have h1 := sq_le_sq' (by linarith [(abs_le.1 hw).1]) (abs_le.1 hw).2
    have h2 := sq_le_sq' (by linarith [(abs_le.1 hv).1]) (abs_le.1 hv).2
    have : (b.start.1 + a * u.1 - v * u.2 - (b.start.1 + w * u.1)) ^ 2 + (b.start.2.1 + a * u.2 + v * u.1 - (b.start.2.1 + w * u.2)) ^ 2 =
        ((a - w) ^ 2 + v ^ 2) * (u.1 ^ 2 + u.2 ^ 2) := by ring
    rw [this, hu]
    linarith
  rcases lt_or_ge a 0 with h | h
  · exact key 0 (abs_le.2 ⟨by linarith, by linarith⟩) le_rfl hl.le
  · rcases le_or_gt a l with h' | h'
    · exact key a (by simpa using ht) h h'
    · exact key l (abs_le.2 ⟨by linarith, by linarith⟩) hl.le le_rfl

/-- **C135** (partial: the whole ring).  In the room of an arc the distance to the center is between the radii. -/
theorem C135_arc_partial (cx cy rin rout : ℝ) (hout : 0 ≤ rout) (start stop : ℝ × ℝ × ℝ) (vt : Bool) (tol : ℝ)
    (s : Fin 3 → BSpline ℝ) (hs : ∀ i, Traj (s i) 2) (hok : RoomOk ⟨.ring cx cy rin rout, start, stop⟩ s vt tol) (T t : ℝ) (hT : 0 < T)
    (h0 : 0 ≤ t) (h1 : t ≤ T) :
    rin ≤ √(((planePos s T t).1 - cx) ^ 2 + ((planePos s T t).2 - cy) ^ 2) ∧
    √(((planePos s T t).1 - cx) ^ 2 + ((planePos s T t).2 - cy) ^ 2) ≤ rout := by
  have hc := hok.1
  rw [List.forall_mem_append] at hc
  have hc := hc.1
  simp only [planeC, List.forall_mem_cons] at hc
  have o := fun i => (hs i).on
  have a1 := imposed_le hc.1 ⟨⟨⟨⟨o 0, trivial⟩, o 0, trivial⟩, ⟨o 1, trivial⟩, o 1, trivial⟩, trivial⟩ (Or.inl (Or.inl (Or.inl (Or.inl trivial)))) hT h0 h1
  have a2 := imposed_le hc.2.1 ⟨⟨⟨⟨o 0, trivial⟩, o 0, trivial⟩, ⟨o 1, trivial⟩, o 1, trivial⟩, trivial⟩ (Or.inl (Or.inl (Or.inl (Or.inl trivial)))) hT h0 h1
  simp only [Expr.val, Expr.sub, Expr.sq] at a1 a2
  unfold planePos
  simp only
  refine ⟨Real.le_sqrt_of_sq_le (by nlinarith), Real.sqrt_le_iff.2 ⟨hout, by nlinarith⟩⟩

/-- **C135** When start and end differ in height, the height stays between them. -/
theorem C135_height_partial (g : Segment) (hz : g.start.2.2 ≠ g.stop.2.2) (vt : Bool) (tol : ℝ) (s : Fin 3 → BSpline ℝ)
    (hs : ∀ i, Traj (s i) 2) (hok : RoomOk g s vt tol) (T t : ℝ) (hT : 0 < T) (h0 : 0 ≤ t) (h1 : t ≤ T) :
    min g.start.2.2 g.stop.2.2 ≤ pos (s 2) T t ∧ pos (s 2) T t ≤ max g.start.2.2 g.stop.2.2 := by
  have hc := hok.1
  rw [List.forall_mem_append] at hc
  have hc := hc.2
  simp only [heightC, hz, ne_eq, not_false_eq_true, if_true, List.forall_mem_cons] at hc
  exact ⟨geC_le (hs 2) hc.1 hT h0 h1, leC_le (hs 2) hc.2.1 hT h0 h1⟩

/-- **C135** With variable tolerances a segment ends, in each direction of the plane, within nine tenths of the tolerance of the end of the block. -/
theorem C135_end (g : Segment) (tol : ℝ) (s : Fin 3 → BSpline ℝ) (hok : RoomOk g s true tol) (T : ℝ) (hT : 0 < T) :
    |(planePos s T T).1 - g.stop.1| ≤ 9 / 10 * tol ∧ |(planePos s T T).2 - g.stop.2.1| ≤ 9 / 10 * tol := by
  obtain ⟨h1, h2, h3, h4⟩ := hok.2 rfl
  unfold planePos
  rw [div_self hT.ne', abs_le, abs_le]
  exact ⟨⟨by linarith, by linarith⟩, by linarith, by linarith⟩

/-! ### Violations -/

/-- An axis from `a` to `b` that is pulled to `m` on the way. -/
noncomputable def bump (a m b : ℝ) : BSpline ℝ := ⟨Bz 3, [a, m, m, b]⟩

theorem bump_traj (a m b : ℝ) : Traj (bump a m b) 2 := (Bz_traj rfl : Traj (bump a m b) 3).mono (by omega)

theorem bump_eval (a m b : ℝ) {x : ℝ} (h0 : 0 ≤ x) (h1 : x ≤ 1) :
    (bump a m b).eval x = a * (1 - x) ^ 3 + m * (3 * x * (1 - x) ^ 2) + m * (3 * x ^ 2 * (1 - x)) + b * x ^ 3 := by
  unfold bump
  rw [Bz_eval rfl h0 h1]
  simp only [Finset.sum_range_succ, Finset.range_zero, Finset.sum_empty, bern]
  norm_num [Nat.choose]

/-- A diagonal block that goes from height `0` to height `z`. -/
noncomputable def diagBlock (z : ℝ) : Block ℝ := ⟨.g01, (0, 0, 0), (1, 1, z), none, none, none⟩

theorem diag_orientation (z : ℝ) : ¬ ∃ k : ℤ, (diagBlock z).orientation = k * (Real.pi / 2) := by
  rintro ⟨k, hk⟩
  obtain ⟨d1, d2⟩ := planar_dir (diagBlock z)
  rw [hk] at d1 d2
  rcases right_angle k with ⟨h, -⟩ | ⟨h, -⟩
  · rw [h] at d2; norm_num [diagBlock] at d2
  · rw [h] at d1; norm_num [diagBlock] at d1

theorem diag_plane (m z : ℝ) (s2 : BSpline ℝ) : ∀ e ∈ planeC (roomSegment (singleRoom (1 / 10) (diagBlock z) 0)) ![bump 0 m 1, bump 0 m 1, s2], e.Imposed 0 := by
  intro e he
  have hk := diag_orientation z
  unfold planeC at he
  simp only [roomSegment, singleRoom, hk, if_false] at he
  simp only [diagBlock, List.mem_cons, List.not_mem_nil, or_false, Matrix.cons_val_zero, Matrix.cons_val_one] at he
  have ab : (Expr.spl (bump 0 m 1)).AllBz := ⟨rfl, rfl⟩
  rcases he with rfl | rfl
  · refine Expr.AllBz.imposed_pow (D := 3) (by simp only [Expr.AllBz, Expr.sub]; exact ⟨⟨⟨⟨trivial, ab⟩, trivial, ab⟩, trivial⟩, trivial⟩) rfl (by norm_num)
      (fun j => if j = 0 then -(1 / 10) else 0) (fun x h0 h1 => ?_) fun w w0 w1 w2 => ?_
    · simp only [Expr.val, Expr.sub]
      norm_num [Finset.sum_range_succ]
    · simp only [Finset.sum_range_succ, Finset.range_zero, Finset.sum_empty]
      norm_num [w0]
  · refine Expr.AllBz.imposed_pow (D := 3) (by simp only [Expr.AllBz, Expr.sub]; exact ⟨⟨⟨⟨trivial, ab⟩, trivial, ab⟩, trivial⟩, trivial⟩) rfl (by norm_num)
      (fun j => if j = 0 then -(1 / 10) else 0) (fun x h0 h1 => ?_) fun w w0 w1 w2 => ?_
    · simp only [Expr.val, Expr.sub]
      norm_num [Finset.sum_range_succ]
    · simp only [Finset.sum_range_succ, Finset.range_zero, Finset.sum_empty]
      norm_num [w0]

theorem diag_ok (m z : ℝ) (s2 : BSpline ℝ) (h : z ≠ 0 → ∀ a ∈ s2.coeffs, min 0 z ≤ a ∧ a ≤ max 0 z) :
    RoomOk (roomSegment (singleRoom (1 / 10) (diagBlock z) 0)) ![bump 0 m 1, bump 0 m 1, s2] true (1 / 10) := by
  constructor
  · intro e he
    rcases List.mem_append.1 he with he | he
    · exact diag_plane m z s2 e he
    · by_cases hz : z = 0
      · simp [heightC, roomSegment, singleRoom, diagBlock, hz] at he
      · simp only [heightC, roomSegment, singleRoom, diagBlock, ne_eq, Ne.symm hz, not_false_eq_true, if_true, List.mem_cons, List.not_mem_nil, or_false] at he
        rcases he with rfl | rfl
        · exact geC_imposed fun a ha => (h hz a ha).1
        · exact leC_imposed fun a ha => (h hz a ha).2
  · intro _
    simp only [Matrix.cons_val_zero, Matrix.cons_val_one, bump_eval _ _ _ zero_le_one le_rfl, roomSegment, singleRoom, diagBlock]
    norm_num

/-- **C135** is violated on a diagonal block: a plan that meets the constraints, starts at the start and ends at the end of the block can go arbitrarily far beyond its end in between. -/
theorem C135_beyond_violated (M : ℝ) : ∃ s : Fin 3 → BSpline ℝ, (∀ i, Traj (s i) 2) ∧
    RoomOk (roomSegment (singleRoom (1 / 10) ⟨.g01, (0, 0, 0), (1, 1, 0), none, none, none⟩ 0)) s true (1 / 10) ∧
    planePos s 1 0 = (0, 0) ∧ planePos s 1 1 = (1, 1) ∧ M < (planePos s 1 (1 / 2)).1 := by
  obtain ⟨m, hm⟩ : ∃ m : ℝ, 4 / 3 * |M| + 1 < m := ⟨4 / 3 * |M| + 2, by linarith⟩
  refine ⟨![bump 0 m 1, bump 0 m 1, bump 0 0 0], fun i => by fin_cases i <;> exact bump_traj _ _ _, diag_ok m 0 _ (by simp), ?_, ?_, ?_⟩
  · simp only [planePos, Matrix.cons_val_zero, Matrix.cons_val_one, zero_div, bump_eval _ _ _ le_rfl zero_le_one]
    norm_num
  · simp only [planePos, Matrix.cons_val_zero, Matrix.cons_val_one, div_one, bump_eval _ _ _ zero_le_one le_rfl]
    norm_num
  · simp only [planePos, Matrix.cons_val_zero, div_one, bump_eval 0 m 1 (show (0 : ℝ) ≤ 1 / 2 by norm_num) (by norm_num)]
    have := le_abs_self M
    norm_num
    linarith

/-- **C135** is violated in height: on a block in the plane the tool can leave the height of the block arbitrarily far. -/
theorem C135_height_violated (M : ℝ) : ∃ s : Fin 3 → BSpline ℝ, (∀ i, Traj (s i) 2) ∧
    RoomOk (roomSegment (singleRoom (1 / 10) ⟨.g01, (0, 0, 0), (1, 1, 0), none, none, none⟩ 0)) s true (1 / 10) ∧
    (pos (s 2) 1 0 = 0 ∧ pos (s 2) 1 1 = 0) ∧ M < pos (s 2) 1 (1 / 2) := by
  obtain ⟨s, hs, hok, -⟩ := C135_beyond_violated 0
  obtain ⟨m, hm⟩ : ∃ m : ℝ, 4 / 3 * |M| < m := ⟨4 / 3 * |M| + 2, by linarith⟩
  refine ⟨![s 0, s 1, bump 0 m 0], fun i => ?_, ⟨?_, ?_⟩, ⟨?_, ?_⟩, ?_⟩
  · fin_cases i
    · exact hs 0
    · exact hs 1
    · exact bump_traj _ _ _
  · intro e he
    refine hok.1 e ?_
    rcases List.mem_append.1 he with he | he
    · exact List.mem_append_left _ he
    · simp [heightC, roomSegment, singleRoom] at he
  · exact hok.2
  · simp only [pos, Matrix.cons_val_two, Matrix.tail_cons, Matrix.head_cons, zero_div]
    exact (bump_eval 0 m 0 le_rfl zero_le_one).trans (by norm_num)
  · simp only [pos, div_one]
    exact (bump_eval 0 m 0 zero_le_one le_rfl).trans (by norm_num)
  · simp only [pos, div_one]
    refine lt_of_lt_of_eq ?_ (bump_eval 0 m 0 (x := 1 / 2) (by norm_num) (by norm_num)).symm
    have := le_abs_self M
    norm_num
    linarith

/-- **C135** is violated on arcs: at every point of the ring, however far from the arc, a plan meets the constraints. -/
theorem C135_arc_violated (cx cy rin rout : ℝ) (hin : 0 ≤ rin) (start stop : ℝ × ℝ × ℝ) (q : ℝ × ℝ)
    (hq1 : rin ≤ √((q.1 - cx) ^ 2 + (q.2 - cy) ^ 2)) (hq2 : √((q.1 - cx) ^ 2 + (q.2 - cy) ^ 2) ≤ rout) (hz : start.2.2 = stop.2.2) (tol : ℝ) :
    ∃ s : Fin 3 → BSpline ℝ, (∀ i, Traj (s i) 2) ∧ RoomOk ⟨.ring cx cy rin rout, start, stop⟩ s false tol ∧
      ∀ t, 0 ≤ t → t ≤ 1 → planePos s 1 t = q := by
  have h1 : rin ^ 2 ≤ (q.1 - cx) ^ 2 + (q.2 - cy) ^ 2 := by
    have := pow_le_pow_left₀ hin hq1 2
    rwa [Real.sq_sqrt (by positivity)] at this
  have h2 : (q.1 - cx) ^ 2 + (q.2 - cy) ^ 2 ≤ rout ^ 2 := by
    have := pow_le_pow_left₀ (Real.sqrt_nonneg _) hq2 2
    rwa [Real.sq_sqrt (by positivity)] at this
  have ev : ∀ c x : ℝ, 0 ≤ x → x ≤ 1 → (bump c c c).eval x = c := by
    intro c x h0 h1
    rw [bump_eval _ _ _ h0 h1]; ring
  refine ⟨![bump q.1 q.1 q.1, bump q.2 q.2 q.2, bump 0 0 0], fun i => by fin_cases i <;> exact bump_traj _ _ _, ⟨?_, by simp⟩, ?_⟩
  · intro e he
    rcases List.mem_append.1 he with he | he
    · simp only [planeC, List.mem_cons, List.not_mem_nil, or_false, Matrix.cons_val_zero, Matrix.cons_val_one] at he
      have ab : ∀ c, (Expr.spl (bump c c c)).AllBz := fun c => ⟨rfl, rfl⟩
      rcases he with rfl | rfl
      · refine Expr.AllBz.imposed_pow (D := 6) (by simp only [Expr.AllBz, Expr.sub, Expr.sq]; exact ⟨⟨⟨⟨ab _, trivial⟩, ab _, trivial⟩, ⟨ab _, trivial⟩, ab _, trivial⟩, trivial⟩) rfl (by norm_num)
          (fun j => if j = 0 then -(q.1 - cx) ^ 2 - (q.2 - cy) ^ 2 + rin ^ 2 else 0) (fun x h0 h1 => ?_) fun w w0 w1 w2 => ?_
        · simp only [Expr.val, Expr.sub, Expr.sq, ev _ _ h0 h1]
          simp only [Finset.sum_range_succ, Finset.range_zero, Finset.sum_empty]
          norm_num
          ring
        · simp only [Finset.sum_range_succ, Finset.range_zero, Finset.sum_empty]
          norm_num [w0]
          linarith
      · refine Expr.AllBz.imposed_pow (D := 6) (by simp only [Expr.AllBz, Expr.sub, Expr.sq]; exact ⟨⟨⟨⟨ab _, trivial⟩, ab _, trivial⟩, ⟨ab _, trivial⟩, ab _, trivial⟩, trivial⟩) rfl (by norm_num)
          (fun j => if j = 0 then (q.1 - cx) ^ 2 + (q.2 - cy) ^ 2 - rout ^ 2 else 0) (fun x h0 h1 => ?_) fun w w0 w1 w2 => ?_
        · simp only [Expr.val, Expr.sub, Expr.sq, ev _ _ h0 h1]
          simp only [Finset.sum_range_succ, Finset.range_zero, Finset.sum_empty]
          norm_num
          ring
        · simp only [Finset.sum_range_succ, Finset.range_zero, Finset.sum_empty]
          norm_num [w0]
          linarith
    · simp [heightC, hz] at he
  · intro t h0 h1
    simp only [planePos, Matrix.cons_val_zero, Matrix.cons_val_one, div_one, ev _ _ h0 h1]

/-! ### Examples -/

/-- A plan along a diagonal block that is not split, with variable tolerances; it also meets the hypotheses of `C135_end`. -/
example : ∃ (b : Block ℝ) (r : Room) (s : Fin 3 → BSpline ℝ), (b.start.1, b.start.2.1) ≠ (b.stop.1, b.stop.2.1) ∧ b.start.2.2 = b.stop.2.2 ∧
    r ∈ straightRooms true 2 (1 / 10) (1 / 10) (1 / 100) b 0 ∧ (∀ i, Traj (s i) 2) ∧ RoomOk (roomSegment r) s true (1 / 10) ∧ planePos s 1 1 = (1, 1) := by
  refine ⟨diagBlock 0, singleRoom (1 / 10) (diagBlock 0) 0, ![bump 0 (1 / 2) 1, bump 0 (1 / 2) 1, bump 0 0 0], by simp [diagBlock], rfl, ?_, fun i => by fin_cases i <;> exact bump_traj _ _ _, diag_ok _ 0 _ (by simp), ?_⟩
  · have h : (diagBlock 0).length < 2 := by
      refine (Real.sqrt_lt' (by norm_num)).2 ?_
      norm_num [diagBlock]
    unfold straightRooms
    simp [h]
  · simp only [planePos, Matrix.cons_val_zero, Matrix.cons_val_one, div_one, bump_eval _ _ _ zero_le_one le_rfl]
    norm_num

/-- A plan that goes up along a diagonal block. -/
example : ∃ (g : Segment) (s : Fin 3 → BSpline ℝ), g.start.2.2 ≠ g.stop.2.2 ∧ (∀ i, Traj (s i) 2) ∧ RoomOk g s true (1 / 10) ∧ pos (s 2) 1 1 = 1 :=
  ⟨roomSegment (singleRoom (1 / 10) (diagBlock 1) 0), ![bump 0 (1 / 2) 1, bump 0 (1 / 2) 1, bump 0 (1 / 2) 1],
    by simp [roomSegment, singleRoom, diagBlock], fun i => by fin_cases i <;> exact bump_traj _ _ _, diag_ok _ 1 _ (by norm_num [bump]), by
      simp only [pos, div_one]
      exact (bump_eval 0 (1 / 2) 1 zero_le_one le_rfl).trans (by norm_num)⟩

/-- A plan along the x-axis. -/
example : ∃ (b : Block ℝ) (s : Fin 3 → BSpline ℝ), b.start ≠ b.stop ∧ b.start.2.2 = b.stop.2.2 ∧ b.stop.2.1 = b.start.2.1 ∧ (∀ i, Traj (s i) 2) ∧
    RoomOk (roomSegment (singleRoom (1 / 10) b 0)) s false (1 / 10) ∧ planePos s 1 0 = (0, 0) ∧ planePos s 1 1 = (1, 0) := by
  have ho : (⟨.g01, (0, 0, 0), (1, 0, 0), none, none, none⟩ : Block ℝ).orientation = 0 := by
    unfold Block.orientation arctan2
    rw [Complex.arg_eq_zero_iff]
    norm_num
  have hl : (⟨.g01, (0, 0, 0), (1, 0, 0), none, none, none⟩ : Block ℝ).length = 1 := by
    unfold Block.length; norm_num
  refine ⟨⟨.g01, (0, 0, 0), (1, 0, 0), none, none, none⟩, ![bump 0 (1 / 2) 1, bump 0 (1 / 20) 0, bump 0 7 0], by simp, rfl, rfl, fun i => by fin_cases i <;> exact bump_traj _ _ _,
    ⟨?_, by simp⟩, ?_, ?_⟩
  · intro e he
    rcases List.mem_append.1 he with he | he
    · have hk : ∃ k : ℤ, (0 : ℝ) = k * (Real.pi / 2) := ⟨0, by simp⟩
      simp only [planeC, roomSegment, singleRoom, ho, hl, hk, if_true, corners, rotate, Real.cos_zero, Real.sin_zero, List.map_cons, List.map_nil,
        List.mem_cons, List.not_mem_nil, or_false, Matrix.cons_val_zero, Matrix.cons_val_one] at he
      rcases he with rfl | rfl | rfl | rfl
      · apply geC_imposed; norm_num [amin, bump]
      · apply leC_imposed; norm_num [amax, bump]
      · apply geC_imposed; norm_num [amin, bump]
      · apply leC_imposed; norm_num [amax, bump]
    · simp [heightC, roomSegment, singleRoom] at he
  · simp only [planePos, Matrix.cons_val_zero, Matrix.cons_val_one, zero_div, bump_eval _ _ _ le_rfl zero_le_one]
    norm_num
  · simp only [planePos, Matrix.cons_val_zero, Matrix.cons_val_one, div_one, bump_eval _ _ _ zero_le_one le_rfl]
    norm_num

/-- A plan in a ring, opposite to the arc that it is made for. -/
example : ∃ s : Fin 3 → BSpline ℝ, (∀ i, Traj (s i) 2) ∧ RoomOk ⟨.ring 0 0 (9 / 10) (11 / 10), (1, 0, 0), (0, 1, 0)⟩ s false (1 / 10) ∧
    ∀ t, 0 ≤ t → t ≤ 1 → planePos s 1 t = (-1, 0) :=
  C135_arc_violated 0 0 (9 / 10) (11 / 10) (by norm_num) (1, 0, 0) (0, 1, 0) (-1, 0) (by norm_num) (by norm_num) rfl _

end Verif.Vehicles
