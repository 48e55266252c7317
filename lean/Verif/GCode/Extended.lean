import Verif.Environment.Overlap
import Verif.Timing.KnotClock

/-! # Moving on to the next segment (C153)

`GCodeSchedulerProblem.point_in_extended_shape` and `check_segments` (gcodeschedulerproblem.py:558-596, 666-737), over
the real numbers. -/

set_option linter.unusedSectionVars false

namespace Verif.GCode.Extended

open Verif.Geometry Verif.Environment.Overlap Verif.Timing

/-! ## Model -/

/-- The shapes of segments: `Rectangle(width, height, orientation)` and `Ring` with its radii. -/
inductive SegShape where
  | rectangle (width height orientation : ℝ)
  | ring (radiusIn radiusOut : ℝ)

/-- A segment: its shape, position, start and end (with height). -/
structure Seg where
  shape : SegShape
  position : ℝ × ℝ
  start : ℝ × ℝ × ℝ
  finish : ℝ × ℝ × ℝ

/-- The corners of a rectangle after its rotation (shape.py:38-44, 222-237), moved to the position. -/
noncomputable def corners (w h θ : ℝ) (pos : ℝ × ℝ) : List (ℝ × ℝ) :=
  (rectVertices w h).map fun v => ((rotate θ v).1 + pos.1, (rotate θ v).2 + pos.2)

/-- On which side of the line through two points, gcodeschedulerproblem.py:714-719. -/
noncomputable def side (p1 p2 p : ℝ × ℝ) : ℝ :=
  let v := (p2.1 - p1.1, p2.2 - p1.2)
  let s := 1 / Real.sqrt (v.1 ^ 2 + v.2 ^ 2)
  let a := (-v.2 * s, v.1 * s)
  a.1 * p.1 + a.2 * p.2 - (a.1 * p1.1 + a.2 * p1.2)

/-- The sides of a rectangle that are as long as its width, gcodeschedulerproblem.py:696-708. -/
noncomputable def couples (w : ℝ) (vs : List (ℝ × ℝ)) : List ((ℝ × ℝ) × (ℝ × ℝ)) :=
  let found := (vs.zip vs.tail).filter fun c => decide (|dist2 c.1 c.2 - w| < 1 / 1000)
  if found.length ≠ 2 then found ++ [(vs.getLastD (0, 0), vs.headD (0, 0))] else found

/-- `point_in_extended_shape`, gcodeschedulerproblem.py:666-737. -/
noncomputable def inExtended (s : SegShape) (pos p : ℝ × ℝ) (distance : ℝ) : Bool :=
  match s with
  | .rectangle w h θ =>
    let vs := corners w h θ pos
    if pyMod θ Real.pi = 0 then
      decide (p.2 < amax (vs.map Prod.snd) ∧ amin (vs.map Prod.snd) < p.2)
    else if pyMod θ (Real.pi / 2) = 0 then
      decide (p.1 < amax (vs.map Prod.fst) ∧ amin (vs.map Prod.fst) < p.1)
    else (couples w vs).all fun c => decide (side c.1 c.2 p < -distance)
  | .ring rin rout =>
    let r := Real.sqrt ((p.1 - pos.1) ^ 2 + (p.2 - pos.2) ^ 2)
    decide (rin + distance ≤ r ∧ r ≤ rout - distance)

/-- `check_segments`, gcodeschedulerproblem.py:558-590: whether the current segments are kept.  `next` is the attribute
`next_segment` (missing, or `None`, or a segment), `lastStart` the start of the last room; `none` is an exception. -/
noncomputable def checkSegments (segs : List Seg) (nSeg : ℕ) (next : Option (Option Seg)) (goal lastStart : ℝ × ℝ × ℝ)
    (state : ℝ × ℝ) (radius : ℝ) : Option Bool :=
  match segs with
  | [] => none
  | s0 :: rest =>
    if s0.finish = goal ∧ s0.start = lastStart then some true
    else match nSeg, next with
      | 1, some none => none
      | 1, some (some s) => some (!inExtended s.shape s.position state radius)
      | _, _ => match rest with
        | [] => none
        | s1 :: _ => some (!inExtended s1.shape s1.position state radius)

/-! ## Specification -/

namespace Spec

/-- Distance of a point across the axis of a segment with the given direction. -/
noncomputable def across (θ : ℝ) (pos p : ℝ × ℝ) : ℝ := |-Real.sin θ * (p.1 - pos.1) + Real.cos θ * (p.2 - pos.2)|

/-- Inside a segment, endless in its direction, with a margin to the border. -/
noncomputable def InBand : SegShape → ℝ × ℝ → ℝ × ℝ → ℝ → Prop
  | .rectangle _ h θ, pos, p, d => across θ pos p < h / 2 - d
  | .ring rin rout, pos, p, d => rin + d ≤ dist2 pos p ∧ dist2 pos p ≤ rout - d

end Spec

/-! ## Lemmas -/

theorem mod_pi (θ : ℝ) : pyMod θ Real.pi = 0 ↔ Real.sin θ = 0 := by
  rw [Real.sin_eq_zero_iff]
  unfold pyMod
  constructor
  · intro h; exact ⟨_, by linarith⟩
  · rintro ⟨k, rfl⟩
    rw [mul_div_cancel_right₀ _ Real.pi_ne_zero, Int.floor_intCast, sub_self]

theorem mod_half_pi (θ : ℝ) : pyMod θ (Real.pi / 2) = 0 ↔ Real.sin θ * Real.cos θ = 0 := by
  have e : Real.sin θ * Real.cos θ = 0 ↔ Real.sin (2 * θ) = 0 := by
    rw [Real.sin_two_mul]
    constructor <;> intro h <;> linarith
  rw [e, Real.sin_eq_zero_iff]
  unfold pyMod
  constructor
  · intro h; exact ⟨_, by linarith⟩
  · rintro ⟨k, hk⟩
    have : θ = k * (Real.pi / 2) := by linarith
    rw [this, mul_div_cancel_right₀ _ (by have := Real.pi_pos; positivity), Int.floor_intCast, sub_self]

theorem corners_eq (w h θ : ℝ) (pos : ℝ × ℝ) : corners w h θ pos =
    [(Real.cos θ * (w / 2) - Real.sin θ * (h / 2) + pos.1, Real.sin θ * (w / 2) + Real.cos θ * (h / 2) + pos.2),
     (Real.cos θ * (w / 2) - Real.sin θ * (-(h / 2)) + pos.1, Real.sin θ * (w / 2) + Real.cos θ * (-(h / 2)) + pos.2),
     (Real.cos θ * (-(w / 2)) - Real.sin θ * (-(h / 2)) + pos.1, Real.sin θ * (-(w / 2)) + Real.cos θ * (-(h / 2)) + pos.2),
     (Real.cos θ * (-(w / 2)) - Real.sin θ * (h / 2) + pos.1, Real.sin θ * (-(w / 2)) + Real.cos θ * (h / 2) + pos.2)] := by
  simp [corners, rectVertices, rotate]

theorem side_eq (p1 p2 p : ℝ × ℝ) (L e1 e2 : ℝ) (hL : 0 < L) (he : e1 ^ 2 + e2 ^ 2 = 1) (h1 : p2.1 - p1.1 = L * e1)
    (h2 : p2.2 - p1.2 = L * e2) : side p1 p2 p = -e2 * (p.1 - p1.1) + e1 * (p.2 - p1.2) := by
  unfold side
  dsimp only
  rw [h1, h2]
  have : (L * e1) ^ 2 + (L * e2) ^ 2 = L ^ 2 := by
    rw [mul_pow, mul_pow, ← mul_add, he, mul_one]
  rw [this, Real.sqrt_sq hL.le]
  field_simp
  ring

theorem dist2_eq (p1 p2 : ℝ × ℝ) (L e1 e2 : ℝ) (hL : 0 ≤ L) (he : e1 ^ 2 + e2 ^ 2 = 1) (h1 : p2.1 - p1.1 = L * e1)
    (h2 : p2.2 - p1.2 = L * e2) : dist2 p1 p2 = L := by
  unfold dist2
  rw [h1, h2]
  have : (L * e1) ^ 2 + (L * e2) ^ 2 = L ^ 2 := by
    rw [mul_pow, mul_pow, ← mul_add, he, mul_one]
  rw [this, Real.sqrt_sq hL]

theorem minmax4 (a b : ℝ) : amax [b + a, b - a, b - a, b + a] = b + |a| ∧ amin [b + a, b - a, b - a, b + a] = b - |a| := by
  simp only [amax, amin, List.foldl_cons, List.foldl_nil]
  rcases le_total 0 a with h | h
  · rw [abs_of_nonneg h]
    constructor
    · simp only [max_def]; split_ifs <;> linarith
    · simp only [min_def]; split_ifs <;> linarith
  · rw [abs_of_nonpos h]
    constructor
    · simp only [max_def]; split_ifs <;> linarith
    · simp only [min_def]; split_ifs <;> linarith

theorem band_iff (x a b : ℝ) : (x < b + a ∧ b - a < x) ↔ |x - b| < a := by
  rw [abs_lt]
  constructor <;> rintro ⟨h1, h2⟩ <;> constructor <;> linarith

/-- The two sides along the width, and the two others. -/
theorem sides (w h θ : ℝ) (hw : 0 < w) (hh : 0 < h) (pos p : ℝ × ℝ) :
    ∃ v0 v1 v2 v3, corners w h θ pos = [v0, v1, v2, v3] ∧ dist2 v0 v1 = h ∧ dist2 v1 v2 = w ∧ dist2 v2 v3 = h ∧
      side v1 v2 p = -(-Real.sin θ * (p.1 - pos.1) + Real.cos θ * (p.2 - pos.2)) - h / 2 ∧
      side v3 v0 p = (-Real.sin θ * (p.1 - pos.1) + Real.cos θ * (p.2 - pos.2)) - h / 2 ∧
      side v0 v1 p = (Real.cos θ * (p.1 - pos.1) + Real.sin θ * (p.2 - pos.2)) - w / 2 ∧
      side v2 v3 p = -(Real.cos θ * (p.1 - pos.1) + Real.sin θ * (p.2 - pos.2)) - w / 2 := by
  have ht := Real.sin_sq_add_cos_sq θ
  have hc : Real.cos θ ^ 2 = 1 - Real.sin θ ^ 2 := by linarith
  refine ⟨_, _, _, _, corners_eq w h θ pos, ?_, ?_, ?_, ?_, ?_, ?_, ?_⟩
  · exact dist2_eq _ _ h (Real.sin θ) (-Real.cos θ) hh.le (by linarith) (by dsimp only; ring) (by dsimp only; ring)
  · exact dist2_eq _ _ w (-Real.cos θ) (-Real.sin θ) hw.le (by linarith) (by dsimp only; ring) (by dsimp only; ring)
  · exact dist2_eq _ _ h (-Real.sin θ) (Real.cos θ) hh.le (by linarith) (by dsimp only; ring) (by dsimp only; ring)
  · rw [side_eq _ _ p w (-Real.cos θ) (-Real.sin θ) hw (by linarith) (by dsimp only; ring) (by dsimp only; ring)]
    dsimp only
    ring_nf
    rw [hc]
    ring
  · rw [side_eq _ _ p w (Real.cos θ) (Real.sin θ) hw (by linarith) (by dsimp only; ring) (by dsimp only; ring)]
    dsimp only
    ring_nf
    rw [hc]
    ring
  · rw [side_eq _ _ p h (Real.sin θ) (-Real.cos θ) hh (by linarith) (by dsimp only; ring) (by dsimp only; ring)]
    dsimp only
    ring_nf
    rw [hc]
    ring
  · rw [side_eq _ _ p h (-Real.sin θ) (Real.cos θ) hh (by linarith) (by dsimp only; ring) (by dsimp only; ring)]
    dsimp only
    ring_nf
    rw [hc]
    ring

/-! ## Properties -/

/-- **C153** (partial: sloped segments that are not square) The test accepts exactly the points in the endless segment that
keep the margin. -/
theorem C153_sloped_partial (w h θ d : ℝ) (hw : 0 < w) (hh : 0 < h) (hs : Real.sin θ ≠ 0) (hc : Real.cos θ ≠ 0)
    (hwh : 1 / 1000 ≤ |h - w|) (pos p : ℝ × ℝ) :
    inExtended (.rectangle w h θ) pos p d = true ↔ Spec.InBand (.rectangle w h θ) pos p d := by
  obtain ⟨v0, v1, v2, v3, ev, d01, d12, d23, s12, s30, -, -⟩ := sides w h θ hw hh pos p
  have m1 : ¬ pyMod θ Real.pi = 0 := by rw [mod_pi]; exact hs
  have m2 : ¬ pyMod θ (Real.pi / 2) = 0 := by rw [mod_half_pi]; exact mul_ne_zero hs hc
  have hcp : couples w [v0, v1, v2, v3] = [(v1, v2), (v3, v0)] := by
    have f1 : decide (|h - w| < 1 / 1000) = false := decide_eq_false (not_lt.2 hwh)
    have f2 : decide (|w - w| < 1 / 1000) = true := decide_eq_true (by norm_num)
    simp [couples, d01, d12, d23, f1, f2, -one_div, -decide_eq_false_iff_not, -decide_eq_true_eq, -sub_self]
  unfold inExtended Spec.InBand Spec.across
  simp only [if_neg m1, if_neg m2, ev, hcp, List.all_cons, List.all_nil, Bool.and_true, Bool.and_eq_true, decide_eq_true_eq, s12, s30]
  rw [abs_lt]
  constructor <;> rintro ⟨h1, h2⟩ <;> constructor <;> linarith

/-- **C153** (partial: no margin) For segments parallel to an axis the margin is not used. -/
theorem C153_parallel_partial (w h θ d : ℝ) (hh : 0 < h) (hp : Real.sin θ = 0 ∨ Real.cos θ = 0) (pos p : ℝ × ℝ) :
    inExtended (.rectangle w h θ) pos p d = true ↔ Spec.InBand (.rectangle w h θ) pos p 0 := by
  have ht := Real.sin_sq_add_cos_sq θ
  unfold inExtended Spec.InBand Spec.across
  simp only [sub_zero]
  by_cases hs : Real.sin θ = 0
  · have m1 : pyMod θ Real.pi = 0 := by rw [mod_pi]; exact hs
    have hcc : |Real.cos θ| = 1 := by
      rw [hs] at ht
      rw [← abs_one, ← sq_eq_sq_iff_abs_eq_abs]
      linarith
    simp only [if_pos m1, corners_eq, hs, List.map_cons, List.map_nil, decide_eq_true_eq, zero_mul, zero_add, neg_zero]
    have e : [Real.cos θ * (h / 2) + pos.2, Real.cos θ * -(h / 2) + pos.2, Real.cos θ * -(h / 2) + pos.2, Real.cos θ * (h / 2) + pos.2] =
        [pos.2 + Real.cos θ * (h / 2), pos.2 - Real.cos θ * (h / 2), pos.2 - Real.cos θ * (h / 2), pos.2 + Real.cos θ * (h / 2)] := by
      congr 1
      · ring
      · congr 1
        · ring
        · congr 1
          · ring
          · congr 1; ring
    rw [e, (minmax4 _ _).1, (minmax4 _ _).2, band_iff, abs_mul, abs_mul, hcc, abs_of_pos (by linarith : 0 < h / 2), one_mul, one_mul]
  · have hc : Real.cos θ = 0 := hp.resolve_left hs
    have m1 : ¬ pyMod θ Real.pi = 0 := by rw [mod_pi]; exact hs
    have m2 : pyMod θ (Real.pi / 2) = 0 := by rw [mod_half_pi, hc, mul_zero]
    have hss : |Real.sin θ| = 1 := by
      rw [hc] at ht
      rw [← abs_one, ← sq_eq_sq_iff_abs_eq_abs]
      linarith
    simp only [if_neg m1, if_pos m2, corners_eq, hc, List.map_cons, List.map_nil, decide_eq_true_eq, zero_mul, zero_sub, add_zero]
    have e : [-(Real.sin θ * (h / 2)) + pos.1, -(Real.sin θ * -(h / 2)) + pos.1, -(Real.sin θ * -(h / 2)) + pos.1, -(Real.sin θ * (h / 2)) + pos.1] =
        [pos.1 + -(Real.sin θ * (h / 2)), pos.1 - -(Real.sin θ * (h / 2)), pos.1 - -(Real.sin θ * (h / 2)), pos.1 + -(Real.sin θ * (h / 2))] := by
      congr 1
      · ring
      · congr 1
        · ring
        · congr 1
          · ring
          · congr 1; ring
    rw [e, (minmax4 _ _).1, (minmax4 _ _).2, band_iff, abs_neg, abs_mul, hss, abs_of_pos (by linarith : 0 < h / 2), one_mul, neg_mul, abs_neg,
      abs_mul, hss, one_mul]

/-- **C153** Rings: exactly the points between the radii that keep the margin. -/
theorem C153_ring (rin rout d : ℝ) (pos p : ℝ × ℝ) :
    inExtended (.ring rin rout) pos p d = true ↔ Spec.InBand (.ring rin rout) pos p d := by
  unfold inExtended Spec.InBand dist2
  simp only [decide_eq_true_eq]

/-- **C153** (margin) violated: in every segment parallel to an axis a point is accepted that is closer to the border than the
margin. -/
theorem C153_margin_violated (w h θ d : ℝ) (hd : 0 < d) (hdh : d < h) (hp : Real.sin θ = 0 ∨ Real.cos θ = 0) (pos : ℝ × ℝ) :
    ∃ p, inExtended (.rectangle w h θ) pos p d = true ∧ ¬ Spec.InBand (.rectangle w h θ) pos p d := by
  have ht := Real.sin_sq_add_cos_sq θ
  have e : Spec.across θ pos (pos.1 - Real.sin θ * (h / 2 - d / 2), pos.2 + Real.cos θ * (h / 2 - d / 2)) = h / 2 - d / 2 := by
    unfold Spec.across
    dsimp only
    rw [show -Real.sin θ * (pos.1 - Real.sin θ * (h / 2 - d / 2) - pos.1) + Real.cos θ * (pos.2 + Real.cos θ * (h / 2 - d / 2) - pos.2) =
      (Real.sin θ ^ 2 + Real.cos θ ^ 2) * (h / 2 - d / 2) by ring, ht, one_mul, abs_of_pos (by linarith)]
  refine ⟨(pos.1 - Real.sin θ * (h / 2 - d / 2), pos.2 + Real.cos θ * (h / 2 - d / 2)), ?_, ?_⟩
  · rw [C153_parallel_partial w h θ d (by linarith) hp]
    simp only [Spec.InBand, e]
    linarith
  · simp only [Spec.InBand, e]
    linarith

/-- **C153** (endless segment) violated: in a sloped segment about as long as wide, points on its axis beyond its end are refused. -/
theorem C153_square_violated (w h θ d : ℝ) (hw : 0 < w) (hh : 0 < h) (hs : Real.sin θ ≠ 0) (hc : Real.cos θ ≠ 0)
    (hwh : |h - w| < 1 / 1000) (hd : 0 ≤ d) (hdh : d < h / 2) (pos : ℝ × ℝ) :
    ∃ p, inExtended (.rectangle w h θ) pos p d = false ∧ Spec.InBand (.rectangle w h θ) pos p d := by
  have ht := Real.sin_sq_add_cos_sq θ
  set p : ℝ × ℝ := (pos.1 + Real.cos θ * w, pos.2 + Real.sin θ * w) with hpdef
  obtain ⟨v0, v1, v2, v3, ev, d01, d12, d23, -, -, s01, -⟩ := sides w h θ hw hh pos p
  have m1 : ¬ pyMod θ Real.pi = 0 := by rw [mod_pi]; exact hs
  have m2 : ¬ pyMod θ (Real.pi / 2) = 0 := by rw [mod_half_pi]; exact mul_ne_zero hs hc
  have hcp : couples w [v0, v1, v2, v3] = [(v0, v1), (v1, v2), (v2, v3), (v3, v0)] := by
    have f1 : decide (|h - w| < 1 / 1000) = true := decide_eq_true hwh
    have f2 : decide (|w - w| < 1 / 1000) = true := decide_eq_true (by norm_num)
    simp [couples, d01, d12, d23, f1, f2, -one_div, -decide_eq_true_eq, -sub_self]
  have e1 : Real.cos θ * (p.1 - pos.1) + Real.sin θ * (p.2 - pos.2) = w := by
    rw [hpdef]
    dsimp only
    rw [show Real.cos θ * (pos.1 + Real.cos θ * w - pos.1) + Real.sin θ * (pos.2 + Real.sin θ * w - pos.2) =
      (Real.sin θ ^ 2 + Real.cos θ ^ 2) * w by ring, ht, one_mul]
  refine ⟨p, ?_, ?_⟩
  · unfold inExtended
    simp only [if_neg m1, if_neg m2, ev, hcp, List.all_cons, s01, e1]
    rw [decide_eq_false (by linarith : ¬ w - w / 2 < -d), Bool.false_and]
  · unfold Spec.InBand Spec.across
    rw [hpdef]
    dsimp only
    rw [show -Real.sin θ * (pos.1 + Real.cos θ * w - pos.1) + Real.cos θ * (pos.2 + Real.sin θ * w - pos.2) = 0 by ring, abs_zero]
    linarith

/-- **C153** The scheduler moves on exactly if this is not the last segment and the tool passes the test for the next one
(two or more segments considered at once). -/
theorem C153_move (s0 s1 : Seg) (rest : List Seg) (n : ℕ) (next : Option (Option Seg)) (goal lastStart : ℝ × ℝ × ℝ) (state : ℝ × ℝ)
    (radius : ℝ) (hn : 2 ≤ n) :
    checkSegments (s0 :: s1 :: rest) n next goal lastStart state radius = some false ↔
      ¬ (s0.finish = goal ∧ s0.start = lastStart) ∧ inExtended s1.shape s1.position state radius = true := by
  obtain ⟨m, rfl⟩ : ∃ m, n = m + 2 := ⟨n - 2, by omega⟩
  unfold checkSegments
  by_cases h : s0.finish = goal ∧ s0.start = lastStart
  · simp [h]
  · simp only [if_neg h]
    simp [h]

/-- **C153** The same for one segment at a time, with the segment that is next. -/
theorem C153_move_one (s0 s : Seg) (rest : List Seg) (goal lastStart : ℝ × ℝ × ℝ) (state : ℝ × ℝ) (radius : ℝ) :
    checkSegments (s0 :: rest) 1 (some (some s)) goal lastStart state radius = some false ↔
      ¬ (s0.finish = goal ∧ s0.start = lastStart) ∧ inExtended s.shape s.position state radius = true := by
  unfold checkSegments
  by_cases h : s0.finish = goal ∧ s0.start = lastStart
  · simp [h]
  · simp only [if_neg h]
    simp [h]

/-- **C153** (a segment is left only when it has been passed) violated: if the next segment lies in line with this one and both
are parallel to an axis, the scheduler moves on wherever the tool is in this segment, also at its start. -/
theorem C153_skip_violated (s0 s1 : Seg) (rest : List Seg) (n : ℕ) (next : Option (Option Seg)) (goal lastStart : ℝ × ℝ × ℝ)
    (state : ℝ × ℝ) (radius w0 w1 h θ : ℝ) (hn : 2 ≤ n) (hh : 0 < h) (hp : Real.sin θ = 0 ∨ Real.cos θ = 0)
    (e0 : s0.shape = .rectangle w0 h θ) (e1 : s1.shape = .rectangle w1 h θ)
    (hline : Spec.across θ s1.position s0.position = 0) (hin : Spec.InBand s0.shape s0.position state 0)
    (hlast : ¬ (s0.finish = goal ∧ s0.start = lastStart)) :
    checkSegments (s0 :: s1 :: rest) n next goal lastStart state radius = some false := by
  rw [C153_move _ _ _ _ _ _ _ _ _ hn]
  refine ⟨hlast, ?_⟩
  rw [e1, C153_parallel_partial _ _ _ _ hh hp]
  rw [e0] at hin
  simp only [Spec.InBand, Spec.across] at *
  rw [abs_eq_zero] at hline
  have : -Real.sin θ * (state.1 - s1.position.1) + Real.cos θ * (state.2 - s1.position.2) =
      -Real.sin θ * (state.1 - s0.position.1) + Real.cos θ * (state.2 - s0.position.2) := by linarith
  rw [this]
  exact hin

/-! ## Cases -/

/-- Two blocks in line, from 0 to 1 and from 1 to 2: the first is left at its start. -/
example : checkSegments [⟨.rectangle 1.2 0.2 0, (0.5, 0), (0, 0, 0), (1, 0, 0)⟩, ⟨.rectangle 1.2 0.2 0, (1.5, 0), (1, 0, 0), (2, 0, 0)⟩] 2 none
    (2, 0, 0) (1, 0, 0) (0, 0) 0.01 = some false := by
  refine C153_skip_violated _ _ [] 2 none _ _ (0, 0) 0.01 1.2 1.2 0.2 0 (le_refl _) (by norm_num) (Or.inl Real.sin_zero) rfl rfl ?_ ?_ ?_
  · simp [Spec.across]
  · norm_num [Spec.InBand, Spec.across]
  · simp

example (p : ℝ × ℝ) : inExtended (.rectangle 2 0.2 (Real.pi / 4)) (0, 0) p 0.01 = true ↔ Spec.InBand (.rectangle 2 0.2 (Real.pi / 4)) (0, 0) p 0.01 := by
  refine C153_sloped_partial 2 0.2 _ _ (by norm_num) (by norm_num) ?_ ?_ ?_ _ p
  · rw [Real.sin_pi_div_four]; positivity
  · rw [Real.cos_pi_div_four]; positivity
  · norm_num [abs_of_neg]

example (p : ℝ × ℝ) : inExtended (.rectangle 2 0.2 (Real.pi / 2)) (1, 0) p 0.01 = true ↔ Spec.InBand (.rectangle 2 0.2 (Real.pi / 2)) (1, 0) p 0 :=
  C153_parallel_partial 2 0.2 _ _ (by norm_num) (Or.inr Real.cos_pi_div_two) _ p

example : ∃ p, inExtended (.rectangle 2 0.2 0) (1, 0) p 0.01 = true ∧ ¬ Spec.InBand (.rectangle 2 0.2 0) (1, 0) p 0.01 :=
  C153_margin_violated 2 0.2 0 0.01 (by norm_num) (by norm_num) (Or.inl Real.sin_zero) _

example : ∃ p, inExtended (.rectangle 0.2 0.2 (Real.pi / 4)) (1, 0) p 0.01 = false ∧ Spec.InBand (.rectangle 0.2 0.2 (Real.pi / 4)) (1, 0) p 0.01 := by
  refine C153_square_violated 0.2 0.2 _ 0.01 (by norm_num) (by norm_num) ?_ ?_ (by norm_num) (by norm_num) (by norm_num) _
  · rw [Real.sin_pi_div_four]; positivity
  · rw [Real.cos_pi_div_four]; positivity

end Verif.GCode.Extended
