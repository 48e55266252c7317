import Verif.Frames.Model

/-! # Obstacles in a frame (C41) -/

set_option linter.unusedSectionVars false

namespace Verif.Frames

open Verif.Geometry

variable {K : Type} [Field K] [LinearOrder K] [IsStrictOrderedRing K]

/-! ## Specification -/

/-- The point `p` belongs to the frame. -/
def Spec.Inside (f : Lim K) (p : K × K) : Prop := f.xmin ≤ p.1 ∧ p.1 ≤ f.xmax ∧ f.ymin ≤ p.2 ∧ p.2 ≤ f.ymax

/-- The point `p` belongs to a circle or to a (rotated) rectangle placed at `c`; not used for other shapes. -/
def Spec.Covers (cs : K → K × K) (s : Shp K) (c p : K × K) : Prop :=
  match s with
  | .circle r => (p.1 - c.1) ^ 2 + (p.2 - c.2) ^ 2 ≤ r ^ 2
  | .rect w h ori => ∃ a b, |a| ≤ w / 2 ∧ |b| ≤ h / 2 ∧
      p.1 = c.1 + ((cs ori).1 * a - (cs ori).2 * b) ∧ p.2 = c.2 + ((cs ori).2 * a + (cs ori).1 * b)
  | .poly _ _ => False

/-- After a time `t` with its present velocity the obstacle has a point in the frame. -/
def Spec.Overlaps (cs : K → K × K) (f : Lim K) (o : Obst K) (t : K) : Prop :=
  ∃ p, Spec.Covers cs o.shape (o.pos.1 + t * o.vel.1, o.pos.2 + t * o.vel.2) p ∧ Spec.Inside f p

/-- A circle, or a rectangle with sides parallel to the axes. -/
def Spec.Supported : Shp K → Prop
  | .circle r => 0 ≤ r
  | .rect w h ori => 0 ≤ w ∧ 0 ≤ h ∧ ori = 0
  | .poly _ _ => False

/-- The obstacle is not wider and not higher than the frame. -/
def Spec.Fits (f : Lim K) : Shp K → Prop
  | .circle r => 2 * r ≤ f.xmax - f.xmin ∧ 2 * r ≤ f.ymax - f.ymin
  | .rect w h _ => w ≤ f.xmax - f.xmin ∧ h ≤ f.ymax - f.ymin
  | .poly _ _ => False

/-- Half of the width and of the height of a supported shape. -/
def Spec.half : Shp K → K × K
  | .circle r => (r, r)
  | .rect w h _ => (w / 2, h / 2)
  | .poly _ _ => (0, 0)

/-! ## Lemmas -/

theorem rect_canvas {w h : K} (hw : 0 ≤ w) (hh : 0 ≤ h) :
    canvasLimits (rectVertices w h) = (-(w / 2), w / 2, -(h / 2), h / 2) := by
  have a : -(w / 2) ≤ w / 2 := by linarith
  have b : -(h / 2) ≤ h / 2 := by linarith
  have c : 0 ≤ h / 2 := by linarith
  simp [canvasLimits, rectVertices, amin, amax, min_eq_right a, max_eq_left a, min_eq_right b, max_eq_left b, c]

theorem limits_half {s : Shp K} (h : Spec.Supported s) :
    s.limits = some (-(Spec.half s).1, (Spec.half s).1, -(Spec.half s).2, (Spec.half s).2) := by
  cases s with
  | circle r => rfl
  | rect w hh ori =>
    obtain ⟨a, b, c⟩ := h
    simp only [Shp.limits, if_pos c, rect_canvas a b, Spec.half]
  | poly vs ori => exact absurd h id

theorem half_nonneg {s : Shp K} (h : Spec.Supported s) : 0 ≤ (Spec.half s).1 ∧ 0 ≤ (Spec.half s).2 := by
  cases s with
  | circle r => exact ⟨h, h⟩
  | rect w hh ori => exact ⟨div_nonneg h.1 (by norm_num), div_nonneg h.2.1 (by norm_num)⟩
  | poly vs ori => exact absurd h id

/-- A supported shape lies in the box around it. -/
theorem covers_box {cs : K → K × K} (hcs : cs 0 = (1, 0)) {s : Shp K} (h : Spec.Supported s) {c p : K × K} (hp : Spec.Covers cs s c p) :
    |p.1 - c.1| ≤ (Spec.half s).1 ∧ |p.2 - c.2| ≤ (Spec.half s).2 := by
  cases s with
  | circle r =>
    have h0 : (0 : K) ≤ r := h
    have hp : (p.1 - c.1) ^ 2 + (p.2 - c.2) ^ 2 ≤ r ^ 2 := hp
    simp only [Spec.half]
    exact ⟨abs_le_of_sq_le_sq (by linarith [sq_nonneg (p.2 - c.2)]) h0, abs_le_of_sq_le_sq (by linarith [sq_nonneg (p.1 - c.1)]) h0⟩
  | rect w hh ori =>
    obtain ⟨_, _, rfl⟩ := h
    obtain ⟨a, b, ha, hb, e1, e2⟩ := hp
    rw [hcs] at e1 e2
    simp only [Spec.half]
    constructor
    · rw [e1]; simpa using ha
    · rw [e2]; simpa using hb
  | poly vs ori => exact absurd h id

theorem stationary_mem {f : Lim K} {os r : List (Obst K)} (h : stationary f os = some r) (o : Obst K) :
    o ∈ r ↔ o ∈ os ∧ o.stands = true ∧ ∃ l, o.shape.limits = some l ∧ boxHit f l o.pos = true := by
  induction os generalizing r with
  | nil => simp [stationary] at h; subst h; simp
  | cons a os ih =>
    unfold stationary at h
    by_cases hs : a.stands
    · rw [if_pos hs] at h
      cases hl : a.shape.limits with
      | none => simp [hl] at h
      | some l =>
        cases hr : stationary f os with
        | none => simp [hl, hr] at h
        | some r0 =>
          simp [hl, hr] at h
          have := ih hr
          by_cases hb : boxHit f l a.pos
          · rw [if_pos hb] at h
            subst h
            rw [List.mem_cons, List.mem_cons, this]
            constructor
            · rintro (rfl | ⟨h1, h2⟩)
              · exact ⟨.inl rfl, hs, l, hl, hb⟩
              · exact ⟨.inr h1, h2⟩
            · rintro ⟨rfl | h1, h2⟩
              · exact .inl rfl
              · exact .inr ⟨h1, h2⟩
          · rw [if_neg hb] at h
            subst h
            rw [List.mem_cons, this]
            constructor
            · rintro ⟨h1, h2⟩; exact ⟨.inr h1, h2⟩
            · rintro ⟨rfl | h1, h2⟩
              · obtain ⟨_, l', hl', hb'⟩ := h2
                rw [hl] at hl'
                cases hl'
                exact absurd hb' hb
              · exact ⟨h1, h2⟩
    · rw [if_neg hs] at h
      rw [ih h, List.mem_cons]
      constructor
      · rintro ⟨h1, h2⟩; exact ⟨.inr h1, h2⟩
      · rintro ⟨rfl | h1, h2⟩
        · exact absurd h2.1 hs
        · exact ⟨h1, h2⟩

/-- Of an interval that meets a longer one, one end lies in the longer one. -/
theorem end_inside {lo hi c e p : K} (h1 : lo ≤ p) (h2 : p ≤ hi) (hp : |p - c| ≤ e) (hl : 2 * e ≤ hi - lo) :
    (lo ≤ c - e ∧ c - e ≤ hi) ∨ (lo ≤ c + e ∧ c + e ≤ hi) := by
  rw [abs_le] at hp
  by_cases h : lo ≤ c - e
  · left; constructor <;> linarith
  · right; push Not at h; constructor <;> linarith

theorem floor_le_roundEven [FloorRing K] (q : K) : ⌊q⌋ ≤ roundEven q := by
  unfold roundEven; split_ifs <;> omega

theorem lt_roundEven [FloorRing K] (q : K) : q < roundEven q + 1 :=
  lt_of_lt_of_le (Int.lt_floor_add_one q) (by exact_mod_cast add_le_add (floor_le_roundEven q) le_rfl)

/-- The corners of the box around a supported shape are among its checkpoints. -/
theorem corner_mem {cs : K → K × K} (hcs : cs 0 = (1, 0)) {s : Shp K} (h : Spec.Supported s) (a b : Bool) :
    ((if a then (Spec.half s).1 else -(Spec.half s).1), (if b then (Spec.half s).2 else -(Spec.half s).2)) ∈ s.checkpoints cs := by
  cases s with
  | circle r => cases a <;> cases b <;> simp [Shp.checkpoints, Spec.half]
  | rect w hh ori =>
    obtain ⟨_, _, rfl⟩ := h
    cases a <;> cases b <;> simp [Shp.checkpoints, Spec.half, rectVertices, rotate, hcs]
  | poly vs ori => exact absurd h id

/-! ## Properties -/

section
variable [FloorRing K] {cs : K → K × K}

omit [FloorRing K] in
/-- C41, for obstacles that stand: every one with a point in the frame is reported, and of those reported the box around the shape
meets the frame. -/
theorem C41_stationary (hcs : cs 0 = (1, 0)) {f : Lim K} {os r : List (Obst K)} (hr : stationary f os = some r) {o : Obst K}
    (hs : Spec.Supported o.shape) :
    (o ∈ os → o.stands = true → Spec.Overlaps cs f o 0 → o ∈ r) ∧
      (f.xmin ≤ f.xmax → f.ymin ≤ f.ymax → o ∈ r → o ∈ os ∧ o.stands = true ∧ ∃ p, Spec.Inside f p ∧
        |p.1 - o.pos.1| ≤ (Spec.half o.shape).1 ∧ |p.2 - o.pos.2| ≤ (Spec.half o.shape).2) := by
  have hn := half_nonneg hs
  constructor
  · rintro ho hst ⟨p, hp, hi⟩
    refine (stationary_mem hr o).2 ⟨ho, hst, _, limits_half hs, ?_⟩
    have hb := covers_box hcs hs hp
    simp only [zero_mul, add_zero, abs_le] at hb
    obtain ⟨i1, i2, i3, i4⟩ := hi
    simp only [boxHit, ge_iff_le, Bool.and_eq_true, decide_eq_true_eq]
    refine ⟨⟨⟨?_, ?_⟩, ?_⟩, ?_⟩ <;> linarith [hb.1.1, hb.1.2, hb.2.1, hb.2.2]
  · intro o1 o2 h
    obtain ⟨h1, h2, l, h3, h4⟩ := (stationary_mem hr o).1 h
    rw [limits_half hs] at h3
    cases h3
    simp only [boxHit, ge_iff_le, Bool.and_eq_true, decide_eq_true_eq] at h4
    obtain ⟨⟨⟨b1, b2⟩, b3⟩, b4⟩ := h4
    refine ⟨h1, h2, (max f.xmin (o.pos.1 - (Spec.half o.shape).1), max f.ymin (o.pos.2 - (Spec.half o.shape).2)), ?_, ?_, ?_⟩
    · exact ⟨le_max_left _ _, max_le o1 (by linarith), le_max_left _ _, max_le o2 (by linarith)⟩
    · rw [abs_le]
      constructor
      · linarith [le_max_right f.xmin (o.pos.1 - (Spec.half o.shape).1)]
      · linarith [max_le (show f.xmin ≤ o.pos.1 + (Spec.half o.shape).1 by linarith)
          (show o.pos.1 - (Spec.half o.shape).1 ≤ o.pos.1 + (Spec.half o.shape).1 by linarith)]
    · rw [abs_le]
      constructor
      · linarith [le_max_right f.ymin (o.pos.2 - (Spec.half o.shape).2)]
      · linarith [max_le (show f.ymin ≤ o.pos.2 + (Spec.half o.shape).2 by linarith)
          (show o.pos.2 - (Spec.half o.shape).2 ≤ o.pos.2 + (Spec.half o.shape).2 by linarith)]

/-- C41, for obstacles that move: a circle or axis-parallel rectangle that fits in the frame is reported if at one of the sampled
times within the motion time it has a point in the frame. -/
theorem C41_moving_partial (hcs : cs 0 = (1, 0)) {f : Lim K} {os : List (Obst K)} {o : Obst K} (ho : o ∈ os)
    (hs : Spec.Supported o.shape) (hfit : Spec.Fits f o.shape) (hv : o.vel ≠ (0, 0)) {time ts : K} (hts : 0 < ts) (l : ℕ)
    (hl : l * ts ≤ time) (hov : Spec.Overlaps cs f o (l * ts)) : o ∈ moving cs f time ts os := by
  obtain ⟨p, hp, i1, i2, i3, i4⟩ := hov
  have hb := covers_box hcs hs hp
  simp only at hb
  have hx : 2 * (Spec.half o.shape).1 ≤ f.xmax - f.xmin ∧ 2 * (Spec.half o.shape).2 ≤ f.ymax - f.ymin := by
    cases hsh : o.shape with
    | circle r => rw [hsh] at hfit; exact hfit
    | rect w h ori =>
      rw [hsh] at hfit
      simp only [Spec.half]
      exact ⟨by linarith [hfit.1], by linarith [hfit.2]⟩
    | poly vs ori => rw [hsh] at hfit; exact absurd hfit id
  unfold moving
  rw [List.mem_filter]
  refine ⟨ho, ?_⟩
  unfold Obst.moves
  simp only [ne_eq, Bool.and_eq_true, List.any_eq_true, decide_not, Bool.not_eq_true', decide_eq_false_iff_not]
  refine ⟨hv, ?_⟩
  have key : ∀ c ∈ o.shape.checkpoints cs,
      (f.xmin ≤ c.1 + o.pos.1 + l * ts * o.vel.1 ∧ c.1 + o.pos.1 + l * ts * o.vel.1 ≤ f.xmax) →
      (f.ymin ≤ c.2 + o.pos.2 + l * ts * o.vel.2 ∧ c.2 + o.pos.2 + l * ts * o.vel.2 ≤ f.ymax) →
      ∃ x ∈ o.shape.checkpoints cs, pointInMoving f (x.1 + o.pos.1, x.2 + o.pos.2) o.vel time ts = true := by
    intro c hc h1 h2
    refine ⟨c, hc, ?_⟩
    unfold pointInMoving
    rw [List.any_eq_true]
    refine ⟨l, ?_, ?_⟩
    · rw [List.mem_range, Int.lt_toNat]
      have h3 : (l : K) ≤ time / ts := by rwa [le_div_iff₀ hts]
      have h4 := lt_roundEven (time / ts)
      have : ((l : ℤ) : K) < ((roundEven (time / ts) + 1 : ℤ) : K) := by push_cast; linarith
      have := Int.cast_lt.1 this
      omega
    · simp only [sampleIn, Bool.and_eq_true, decide_eq_true_eq]
      exact ⟨h1, h2⟩
  have ex := end_inside i1 i2 hb.1 hx.1
  have ey := end_inside i3 i4 hb.2 hx.2
  rcases ex with ex | ex <;> rcases ey with ey | ey
  · refine key _ (corner_mem hcs hs false false) ?_ ?_ <;> simp only [Bool.false_eq_true, if_false, if_true] <;> constructor <;>
      linarith [ex.1, ex.2, ey.1, ey.2]
  · refine key _ (corner_mem hcs hs false true) ?_ ?_ <;> simp only [Bool.false_eq_true, if_false, if_true] <;> constructor <;>
      linarith [ex.1, ex.2, ey.1, ey.2]
  · refine key _ (corner_mem hcs hs true false) ?_ ?_ <;> simp only [Bool.false_eq_true, if_false, if_true] <;> constructor <;>
      linarith [ex.1, ex.2, ey.1, ey.2]
  · refine key _ (corner_mem hcs hs true true) ?_ ?_ <;> simp only [Bool.false_eq_true, if_false, if_true] <;> constructor <;>
      linarith [ex.1, ex.2, ey.1, ey.2]

/-- C41: an obstacle in the frame is reported as stationary or as moving, if it stands all the time or else is moving now and fits
in the frame. -/
theorem C41_partial (hcs : cs 0 = (1, 0)) {f : Lim K} {os r : List (Obst K)} (hr : stationary f os = some r) {o : Obst K} (ho : o ∈ os)
    (hs : Spec.Supported o.shape) (hg : o.stands = true ∨ o.vel ≠ (0, 0) ∧ Spec.Fits f o.shape) {time ts : K} (hts : 0 < ts)
    (ht : 0 ≤ time) (hov : Spec.Overlaps cs f o 0) : o ∈ r ∨ o ∈ moving cs f time ts os := by
  rcases hg with hg | ⟨hv, hfit⟩
  · exact .inl ((C41_stationary hcs hr hs).1 ho hg hov)
  · refine .inr (C41_moving_partial hcs ho hs hfit hv hts 0 (by simpa using ht) (by simpa using hov))

end

/-! ## Violations and examples -/

/-- Cosine and sine at the angles used below: a quarter turn for 1. -/
def exCs (th : ℚ) : ℚ × ℚ := if th = 1 then (0, 1) else (1, 0)

/-- An obstacle in the frame that has a trajectory but rests at the moment: in neither list. -/
theorem C41_rest_violated :
    let o : Obst ℚ := ⟨.rect 1 1 0, some [(0, 0), (1, 0)], (0, 0), (0, 0)⟩
    let f : Lim ℚ := ⟨-5, -5, 5, 5⟩
    Spec.Overlaps exCs f o 0 ∧ stationary f [o] = some [] ∧ moving exCs f 10 (1 / 2) [o] = [] := by
  refine ⟨⟨(0, 0), ⟨0, 0, ?_⟩, ?_⟩, by decide +kernel, by decide +kernel⟩
  · norm_num [exCs]
  · norm_num [Spec.Inside]

/-- A moving obstacle that is larger than the frame and covers it: in neither list. -/
theorem C41_large_violated :
    let o : Obst ℚ := ⟨.rect 100 1 0, some [(0, 1 / 100)], (0, 0), (0, 1 / 100)⟩
    let f : Lim ℚ := ⟨-5, -5, 5, 5⟩
    Spec.Overlaps exCs f o 0 ∧ stationary f [o] = some [] ∧ moving exCs f 10 (1 / 2) [o] = [] := by
  refine ⟨⟨(0, 0), ⟨0, 0, ?_⟩, ?_⟩, by decide +kernel, by decide +kernel⟩
  · norm_num [exCs]
  · norm_num [Spec.Inside]

/-- A moving obstacle that is turned by its orientation is looked for with twice this angle. -/
theorem C41_turned_violated :
    let o : Obst ℚ := ⟨.rect 4 1 1, some [(0, 1 / 100)], (0, 0), (0, 1 / 100)⟩
    let f : Lim ℚ := ⟨-5, 1, 5, 11⟩
    Spec.Overlaps exCs f o 0 ∧ stationary f [o] = some [] ∧ moving exCs f 10 (1 / 2) [o] = [] := by
  refine ⟨⟨(0, 2), ⟨2, 0, ?_⟩, ?_⟩, by decide +kernel, by decide +kernel⟩
  · norm_num [exCs]
  · norm_num [Spec.Inside]

/-- A standing circle and a moving rectangle in one frame, a third obstacle outside. -/
example :
    let a : Obst ℚ := ⟨.circle 1, none, (5, 0), (0, 0)⟩
    let b : Obst ℚ := ⟨.rect 2 1 0, some [(1, 0)], (-8, 0), (1, 0)⟩
    let c : Obst ℚ := ⟨.circle 1, none, (9, 9), (0, 0)⟩
    let f : Lim ℚ := ⟨-5, -5, 5, 5⟩
    stationary f [a, b, c] = some [a] ∧ moving exCs f 4 (1 / 2) [a, b, c] = [b] := by decide +kernel

end Verif.Frames
