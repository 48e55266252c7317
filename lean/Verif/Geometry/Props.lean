import Verif.Geometry.Model
import Mathlib.Analysis.Convex.Combination
import Mathlib.Analysis.Real.Pi.Bounds

/-! # Properties C37-C40, C52: planar geometry helpers -/

set_option linter.unusedSectionVars false

namespace Verif.Geometry

variable {K : Type*} [Field K] [LinearOrder K] [IsStrictOrderedRing K]

/-! ## Specification vocabulary -/

/-- The point at parameter `s` of the line through `p` and `q`. -/
def lineAt (p q : K × K) (s : K) : K × K := (p.1 + s * (q.1 - p.1), p.2 + s * (q.2 - p.2))

/-- `x` lies on the segment `p q`. -/
def OnSegment (p q x : K × K) : Prop := ∃ s, 0 ≤ s ∧ s ≤ 1 ∧ x = lineAt p q s

/-- `x` lies on the line through `p` and `q`. -/
def OnLine (p q x : K × K) : Prop := ∃ s, x = lineAt p q s

/-- Twice the signed area of the triangle `p q r`. -/
def area2 (p q r : K × K) : K := (q.1 - p.1) * (r.2 - p.2) - (q.2 - p.2) * (r.1 - p.1)

/-- `p`, `q`, `r` lie on one line. -/
def Collinear3 (p q r : K × K) : Prop := area2 p q r = 0

/-! ## C37 -/

theorem orderIsCcw_iff (p q r : K × K) : orderIsCcw p q r = true ↔ 0 < area2 p q r := by
  unfold orderIsCcw area2
  rw [decide_eq_true_eq]
  constructor <;> intro h <;> linarith

theorem ccw_ne {p q r p' q' r' : K × K} (h : area2 p q r ≠ 0) (h' : area2 p' q' r' ≠ 0) :
    (orderIsCcw p q r != orderIsCcw p' q' r') = true ↔ area2 p q r * area2 p' q' r' < 0 := by
  rw [bne_iff_ne, Ne, Bool.eq_iff_iff, orderIsCcw_iff, orderIsCcw_iff]
  rcases lt_or_gt_of_ne h with a | a <;> rcases lt_or_gt_of_ne h' with b | b
  · simp [not_lt.2 a.le, not_lt.2 b.le, not_lt.2 (mul_pos_of_neg_of_neg a b).le]
  · simp [not_lt.2 a.le, b, mul_neg_of_neg_of_pos a b]
  · simp [not_lt.2 b.le, a, mul_neg_of_pos_of_neg a b]
  · simp [a, b, not_lt.2 (mul_pos a b).le]

/-- **C37** If no three of the end points are collinear, `intersect_line_segments` answers `True`
exactly when the segments have a common point. -/
theorem C37_segments (p1 p2 p3 p4 : K × K) (h123 : ¬ Collinear3 p1 p2 p3) (h124 : ¬ Collinear3 p1 p2 p4)
    (h134 : ¬ Collinear3 p1 p3 p4) (h234 : ¬ Collinear3 p2 p3 p4) :
    intersectLineSegments p1 p2 p3 p4 = true ↔ ∃ x, OnSegment p1 p2 x ∧ OnSegment p3 p4 x := by
  unfold Collinear3 at *
  unfold intersectLineSegments
  rw [Bool.and_eq_true, ccw_ne h134 h234, ccw_ne h123 h124]
  constructor
  · rintro ⟨ha, hb⟩
    have da : area2 p1 p3 p4 - area2 p2 p3 p4 ≠ 0 := by
      intro e
      have : area2 p1 p3 p4 = area2 p2 p3 p4 := sub_eq_zero.1 e
      rw [this] at ha
      exact absurd ha (not_lt.2 (mul_self_nonneg _))
    have db : area2 p1 p2 p3 - area2 p1 p2 p4 ≠ 0 := by
      intro e
      have : area2 p1 p2 p3 = area2 p1 p2 p4 := sub_eq_zero.1 e
      rw [this] at hb
      exact absurd hb (not_lt.2 (mul_self_nonneg _))
    have key : ∀ a b : K, a * b < 0 → 0 ≤ a / (a - b) ∧ a / (a - b) ≤ 1 := by
      intro a b hab
      rcases mul_neg_iff.1 hab with ⟨h1, h2⟩ | ⟨h1, h2⟩
      · have : 0 < a - b := by linarith
        exact ⟨by positivity, (div_le_one this).2 (by linarith)⟩
      · have : a - b < 0 := by linarith
        exact ⟨(div_pos_of_neg_of_neg h1 this).le, (div_le_one_of_neg this).2 (by linarith)⟩
    refine ⟨lineAt p1 p2 (area2 p1 p3 p4 / (area2 p1 p3 p4 - area2 p2 p3 p4)),
      ⟨_, (key _ _ ha).1, (key _ _ ha).2, rfl⟩,
      ⟨area2 p1 p2 p3 / (area2 p1 p2 p3 - area2 p1 p2 p4), (key _ _ hb).1, (key _ _ hb).2, ?_⟩⟩
    have e : area2 p1 p3 p4 - area2 p2 p3 p4 = -(area2 p1 p2 p3 - area2 p1 p2 p4) := by
      unfold area2; ring
    rw [e] at da ⊢
    unfold lineAt
    apply Prod.ext
    · show p1.1 + _ = p3.1 + _
      field_simp
      unfold area2
      ring
    · show p1.2 + _ = p3.2 + _
      field_simp
      unfold area2
      ring
  · rintro ⟨x, ⟨s, s0, s1, hs⟩, ⟨t, t0, t1, ht⟩⟩
    have e1 : (1 - s) * area2 p1 p3 p4 + s * area2 p2 p3 p4 = 0 := by
      have ex := congrArg Prod.fst (hs.symm.trans ht)
      have ey := congrArg Prod.snd (hs.symm.trans ht)
      simp only [lineAt] at ex ey
      unfold area2
      linear_combination (p3.2 - p4.2) * ex - (p3.1 - p4.1) * ey
    have e2 : (1 - t) * area2 p1 p2 p3 + t * area2 p1 p2 p4 = 0 := by
      have ex := congrArg Prod.fst (hs.symm.trans ht)
      have ey := congrArg Prod.snd (hs.symm.trans ht)
      simp only [lineAt] at ex ey
      unfold area2
      linear_combination (p2.2 - p1.2) * ex - (p2.1 - p1.1) * ey
    have key : ∀ a b s : K, a ≠ 0 → b ≠ 0 → 0 ≤ s → s ≤ 1 → (1 - s) * a + s * b = 0 → a * b < 0 := by
      intro a b s ha hb s0 s1 h
      rcases lt_or_gt_of_ne ha with a' | a' <;> rcases lt_or_gt_of_ne hb with b' | b'
      · exfalso
        rcases s0.eq_or_lt with e | l
        · rw [← e] at h; simp at h; exact ha h
        · nlinarith
      · exact mul_neg_of_neg_of_pos a' b'
      · exact mul_neg_of_pos_of_neg a' b'
      · exfalso
        rcases s0.eq_or_lt with e | l
        · rw [← e] at h; simp at h; exact ha h
        · nlinarith
    exact ⟨key _ _ s h134 h234 s0 s1 e1, key _ _ t h123 h124 t0 t1 e2⟩

example : intersectLineSegments ((0, 0) : ℚ × ℚ) (2, 2) (0, 2) (2, 1) = true :=
  (C37_segments _ _ _ _ (by norm_num [Collinear3, area2]) (by norm_num [Collinear3, area2])
    (by norm_num [Collinear3, area2]) (by norm_num [Collinear3, area2])).2
    ⟨(4/3, 4/3), ⟨2/3, by norm_num, by norm_num, by norm_num [lineAt]⟩,
      ⟨2/3, by norm_num, by norm_num, by norm_num [lineAt]⟩⟩

/-- **C37** When `intersect_lines` returns a point, it is the only common point of the two lines. -/
theorem C37_lines_some (p1 p2 p3 p4 q : K × K) (h : intersectLines p1 p2 p3 p4 = some q) (r : K × K) :
    (OnLine p1 p2 r ∧ OnLine p3 p4 r) ↔ r = q := by
  unfold intersectLines at h
  split_ifs at h with hd
  have hq := (Option.some.inj h).symm
  unfold lineDet at *
  constructor
  · rintro ⟨⟨s, hs⟩, ⟨t, ht⟩⟩
    have ex := congrArg Prod.fst (hs.symm.trans ht)
    have ey := congrArg Prod.snd (hs.symm.trans ht)
    simp only [lineAt] at ex ey
    rw [hq, hs]
    unfold lineAt
    apply Prod.ext
    · show p1.1 + _ = _ / _
      rw [eq_div_iff hd]
      linear_combination (p1.1 - p2.1) * (p3.2 - p4.2) * ex - (p1.1 - p2.1) * (p3.1 - p4.1) * ey
    · show p1.2 + _ = _ / _
      rw [eq_div_iff hd]
      linear_combination (p1.2 - p2.2) * (p3.2 - p4.2) * ex - (p1.2 - p2.2) * (p3.1 - p4.1) * ey
  · intro hr
    subst hr
    refine ⟨⟨((p1.1 - p3.1) * (p3.2 - p4.2) - (p1.2 - p3.2) * (p3.1 - p4.1)) /
        ((p1.1 - p2.1) * (p3.2 - p4.2) - (p1.2 - p2.2) * (p3.1 - p4.1)), ?_⟩,
      ⟨((p1.1 - p3.1) * (p1.2 - p2.2) - (p1.2 - p3.2) * (p1.1 - p2.1)) /
        ((p1.1 - p2.1) * (p3.2 - p4.2) - (p1.2 - p2.2) * (p3.1 - p4.1)), ?_⟩⟩
    all_goals
      rw [hq]
      unfold lineAt
      apply Prod.ext <;> dsimp only <;> rw [div_eq_iff hd, add_mul, mul_right_comm, div_mul_cancel₀ _ hd] <;> ring

/-- **C37** For two genuine lines, `intersect_lines` returns `None` exactly when the lines do not
have exactly one common point (parallel or equal). -/
theorem C37_lines_none (p1 p2 p3 p4 : K × K) (h12 : p1 ≠ p2) (h34 : p3 ≠ p4) :
    intersectLines p1 p2 p3 p4 = none ↔ ¬ ∃! r, OnLine p1 p2 r ∧ OnLine p3 p4 r := by
  constructor
  · rintro h ⟨r, ⟨⟨s, hs⟩, ⟨t, ht⟩⟩, huniq⟩
    unfold intersectLines at h
    split_ifs at h with hd
    unfold lineDet at hd
    -- the lines are parallel and share `r`: moving along the line gives another common point
    have hne34 : p4.1 - p3.1 ≠ 0 ∨ p4.2 - p3.2 ≠ 0 := by
      by_contra hc
      push Not at hc
      exact h34 (Prod.ext (sub_eq_zero.1 hc.1).symm (sub_eq_zero.1 hc.2).symm)
    have hstep : ∃ u : K, p2.1 - p1.1 = u * (p4.1 - p3.1) ∧ p2.2 - p1.2 = u * (p4.2 - p3.2) := by
      rcases hne34 with hx | hy
      · refine ⟨(p2.1 - p1.1) / (p4.1 - p3.1), by field_simp, ?_⟩
        rw [div_mul_eq_mul_div, eq_div_iff hx]
        linear_combination -hd
      · refine ⟨(p2.2 - p1.2) / (p4.2 - p3.2), ?_, by field_simp⟩
        rw [div_mul_eq_mul_div, eq_div_iff hy]
        linear_combination hd
    obtain ⟨u, ux, uy⟩ := hstep
    have hr' := huniq (lineAt p1 p2 (s + 1)) ⟨⟨s + 1, rfl⟩, ⟨t + u, by
      have ex := congrArg Prod.fst (hs.symm.trans ht)
      have ey := congrArg Prod.snd (hs.symm.trans ht)
      simp only [lineAt] at ex ey
      unfold lineAt
      apply Prod.ext <;> dsimp only
      · linear_combination ex + ux
      · linear_combination ey + uy⟩⟩
    rw [hs] at hr'
    have ex := congrArg Prod.fst hr'
    have ey := congrArg Prod.snd hr'
    simp only [lineAt] at ex ey
    exact h12 (Prod.ext (by linear_combination -ex) (by linear_combination -ey))
  · intro h
    by_contra hn
    obtain ⟨q, hq⟩ := Option.ne_none_iff_exists'.1 hn
    exact h ⟨q, (C37_lines_some _ _ _ _ q hq q).2 rfl, fun r hr => (C37_lines_some _ _ _ _ q hq r).1 hr⟩

example : ((4/3, 4/3) : ℚ × ℚ) = (4/3, 4/3) :=
  (C37_lines_some ((0, 0) : ℚ × ℚ) (2, 2) (0, 2) (2, 1) (4/3, 4/3)
    (by norm_num [intersectLines, lineDet]) (4/3, 4/3)).1
    ⟨⟨2/3, by norm_num [lineAt]⟩, ⟨2/3, by norm_num [lineAt]⟩⟩

example : ¬ ∃! r, OnLine ((0, 0) : ℚ × ℚ) (1, 1) r ∧ OnLine ((0, 1) : ℚ × ℚ) (1, 2) r :=
  (C37_lines_none ((0, 0) : ℚ × ℚ) (1, 1) (0, 1) (1, 2) (by norm_num) (by norm_num)).1
    (by norm_num [intersectLines, lineDet])

/-! ## C38 -/

/-- The area covered by a rectangle of the given size placed at `pos`. -/
def InRect (w h : K) (pos p : K × K) : Prop := |p.1 - pos.1| ≤ w / 2 ∧ |p.2 - pos.2| ≤ h / 2

/-- `Rectangle(w, h)` placed at `pos` (no rotation). -/
def placedRect (w h : K) (pos : K × K) : Placed K := ⟨rectVertices w h, 0, pos⟩

/-- The modelled vertices solve the systems `np.linalg.solve(a, b)` of `Rectangle.get_vertices`. -/
theorem rectangle_vertices_solve (w h : ℝ) (l : ℕ) (hl : l < 4) (v : ℝ × ℝ)
    (hv : (rectVertices w h)[l]? = some v) :
    let radius : ℕ → ℝ := fun l => if l % 2 = 0 then 0.5 * h else 0.5 * w
    let A : ℕ → ℝ × ℝ := fun l => (Real.sin (l * (0.5 * Real.pi)), Real.cos (l * (0.5 * Real.pi)))
    (A l).1 * v.1 + (A l).2 * v.2 = radius l ∧
    (A ((l + 1) % 4)).1 * v.1 + (A ((l + 1) % 4)).2 * v.2 = radius ((l + 1) % 4) := by
  have e1 : (1 : ℝ) * (0.5 * Real.pi) = Real.pi / 2 := by ring
  have e2 : (2 : ℝ) * (0.5 * Real.pi) = Real.pi := by ring
  have e3 : (3 : ℝ) * (0.5 * Real.pi) = Real.pi + Real.pi / 2 := by ring
  have s3 : Real.sin (Real.pi + Real.pi / 2) = -1 := by
    rw [Real.sin_add_pi_div_two, Real.cos_pi]
  have c3 : Real.cos (Real.pi + Real.pi / 2) = 0 := by
    rw [Real.cos_add_pi_div_two, Real.sin_pi, neg_zero]
  interval_cases l <;> simp [rectVertices] at hv <;> subst hv <;>
    simp [e1, e2, e3, s3, c3] <;> (try constructor) <;> ring

theorem placedRect_limits (w h : K) (hw : 0 ≤ w) (hh : 0 ≤ h) (pos : K × K) :
    (placedRect w h pos).limits
      = (-(w / 2) + pos.1, w / 2 + pos.1, -(h / 2) + pos.2, h / 2 + pos.2) := by
  have a : -(w / 2) ≤ w / 2 := by linarith
  have b : -(h / 2) ≤ h / 2 := by linarith
  simp [placedRect, Placed.limits, canvasLimits, rectVertices, amin, amax, a, b]

theorem inRect_iff (w h : K) (pos p : K × K) : InRect w h pos p ↔
    (-(w / 2) + pos.1 ≤ p.1 ∧ p.1 ≤ w / 2 + pos.1) ∧ (-(h / 2) + pos.2 ≤ p.2 ∧ p.2 ≤ h / 2 + pos.2) := by
  unfold InRect
  rw [abs_le, abs_le]
  constructor
  · rintro ⟨⟨a, b⟩, c, d⟩
    exact ⟨⟨by linarith, by linarith⟩, by linarith, by linarith⟩
  · rintro ⟨⟨a, b⟩, c, d⟩
    exact ⟨⟨by linarith, by linarith⟩, by linarith, by linarith⟩

/-- **C38** `rectangles_overlap` is exact: it answers `True` when the two rectangles have a common
point and `False` otherwise. -/
theorem C38_overlap (w1 h1 w2 h2 : K) (hw1 : 0 ≤ w1) (hh1 : 0 ≤ h1) (hw2 : 0 ≤ w2) (hh2 : 0 ≤ h2)
    (pos1 pos2 : K × K) :
    ∃ ans, rectanglesOverlap (placedRect w1 h1 pos1) (placedRect w2 h2 pos2) = some ans ∧
      (ans = true ↔ ∃ p, InRect w1 h1 pos1 p ∧ InRect w2 h2 pos2 p) := by
  refine ⟨_, by rw [rectanglesOverlap, if_pos ⟨rfl, rfl⟩], ?_⟩
  rw [placedRect_limits _ _ hw1 hh1, placedRect_limits _ _ hw2 hh2]
  unfold limitsOverlap
  simp only [Bool.and_eq_true, decide_eq_true_eq, inRect_iff]
  constructor
  · rintro ⟨⟨⟨a, b⟩, c⟩, d⟩
    refine ⟨(max (-(w1 / 2) + pos1.1) (-(w2 / 2) + pos2.1), max (-(h1 / 2) + pos1.2) (-(h2 / 2) + pos2.2)),
      ⟨⟨le_max_left _ _, max_le (by linarith) a⟩, le_max_left _ _, max_le (by linarith) c⟩,
      ⟨le_max_right _ _, max_le b (by linarith)⟩, le_max_right _ _, max_le d (by linarith)⟩
  · rintro ⟨p, ⟨⟨a, b⟩, c, d⟩, ⟨e, f⟩, g, i⟩
    exact ⟨⟨⟨by linarith, by linarith⟩, by linarith⟩, by linarith⟩

/-- **C38** `compute_rectangle_overlap_center` returns a value exactly when the rectangles overlap,
and then the common area is a box symmetric around the returned point (in particular the point lies
in both rectangles). -/
theorem C38_center (w1 h1 w2 h2 : K) (hw1 : 0 ≤ w1) (hh1 : 0 ≤ h1) (hw2 : 0 ≤ w2) (hh2 : 0 ≤ h2)
    (pos1 pos2 : K × K) :
    ((overlapCenter (placedRect w1 h1 pos1) (placedRect w2 h2 pos2)).isSome = true ↔
      ∃ p, InRect w1 h1 pos1 p ∧ InRect w2 h2 pos2 p) ∧
    ∀ c, overlapCenter (placedRect w1 h1 pos1) (placedRect w2 h2 pos2) = some c →
      ∃ w3 h3, 0 ≤ w3 ∧ 0 ≤ h3 ∧ ∀ p, (InRect w1 h1 pos1 p ∧ InRect w2 h2 pos2 p) ↔ InRect w3 h3 c p := by
  obtain ⟨ans, e, hans⟩ := C38_overlap w1 h1 w2 h2 hw1 hh1 hw2 hh2 pos1 pos2
  rw [rectanglesOverlap, if_pos ⟨rfl, rfl⟩] at e
  have e := Option.some.inj e
  refine ⟨?_, ?_⟩
  · rw [← hans, ← e]
    unfold overlapCenter
    dsimp only
    split_ifs with h <;> simp [h]
  · intro c hc
    unfold overlapCenter at hc
    dsimp only at hc
    split_ifs at hc with h
    have hc := (Option.some.inj hc).symm
    rw [placedRect_limits _ _ hw1 hh1, placedRect_limits _ _ hw2 hh2] at h hc
    unfold limitsOverlap at h
    simp only [Bool.and_eq_true, decide_eq_true_eq] at h hc
    obtain ⟨⟨⟨a, b⟩, c'⟩, d⟩ := h
    have X : max (-(w1 / 2) + pos1.1) (-(w2 / 2) + pos2.1) ≤ min (w1 / 2 + pos1.1) (w2 / 2 + pos2.1) :=
      max_le (le_min (by linarith) b) (le_min a (by linarith))
    have Y : max (-(h1 / 2) + pos1.2) (-(h2 / 2) + pos2.2) ≤ min (h1 / 2 + pos1.2) (h2 / 2 + pos2.2) :=
      max_le (le_min (by linarith) d) (le_min c' (by linarith))
    refine ⟨min (w1 / 2 + pos1.1) (w2 / 2 + pos2.1) - max (-(w1 / 2) + pos1.1) (-(w2 / 2) + pos2.1),
      min (h1 / 2 + pos1.2) (h2 / 2 + pos2.2) - max (-(h1 / 2) + pos1.2) (-(h2 / 2) + pos2.2),
      sub_nonneg.2 X, sub_nonneg.2 Y, fun p => ?_⟩
    rw [inRect_iff, inRect_iff, inRect_iff, hc]
    have key : ∀ (l1 u1 l2 u2 z : K), ((l1 ≤ z ∧ z ≤ u1) ∧ (l2 ≤ z ∧ z ≤ u2)) ↔
        (-((min u1 u2 - max l1 l2) / 2) + (max l1 l2 + (min u1 u2 - max l1 l2) * (1/2)) ≤ z ∧
          z ≤ (min u1 u2 - max l1 l2) / 2 + (max l1 l2 + (min u1 u2 - max l1 l2) * (1/2))) := by
      intro l1 u1 l2 u2 z
      rw [show -((min u1 u2 - max l1 l2) / 2) + (max l1 l2 + (min u1 u2 - max l1 l2) * (1/2)) = max l1 l2 by ring,
        show (min u1 u2 - max l1 l2) / 2 + (max l1 l2 + (min u1 u2 - max l1 l2) * (1/2)) = min u1 u2 by ring,
        max_le_iff, le_min_iff]
      exact ⟨fun h => ⟨⟨h.1.1, h.2.1⟩, h.1.2, h.2.2⟩, fun h => ⟨⟨h.1.1, h.2.1⟩, h.1.2, h.2.2⟩⟩
    have k1 := key (-(w1 / 2) + pos1.1) (w1 / 2 + pos1.1) (-(w2 / 2) + pos2.1) (w2 / 2 + pos2.1) p.1
    have k2 := key (-(h1 / 2) + pos1.2) (h1 / 2 + pos1.2) (-(h2 / 2) + pos2.2) (h2 / 2 + pos2.2) p.2
    rw [← k1, ← k2]
    exact ⟨fun h => ⟨⟨h.1.1, h.2.1⟩, h.1.2, h.2.2⟩, fun h => ⟨⟨h.1.1, h.2.1⟩, h.1.2, h.2.2⟩⟩

example : ∃ p, InRect (2 : ℚ) 2 (0, 0) p ∧ InRect (1 : ℚ) 4 (1, 2) p :=
  (C38_center (2 : ℚ) 2 1 4 (by norm_num) (by norm_num) (by norm_num) (by norm_num) (0, 0) (1, 2)).1.1 (by
    unfold overlapCenter
    rw [placedRect_limits _ _ (by norm_num) (by norm_num), placedRect_limits _ _ (by norm_num) (by norm_num)]
    norm_num [limitsOverlap])

/-- **C38** `point_in_rectangle` for a stationary point: `True` exactly when the whole square of
half-size `distance` around the point lies inside the rectangle; the per-direction version agrees. -/
theorem C38_point (p : K × K) (xmin ymin xmax ymax d : K) (hd : 0 ≤ d) :
    (pointInRectangle p (xmin, ymin, xmax, ymax) d = true ↔
      ∀ q : K × K, |q.1 - p.1| ≤ d → |q.2 - p.2| ≤ d → (xmin ≤ q.1 ∧ q.1 ≤ xmax) ∧ (ymin ≤ q.2 ∧ q.2 ≤ ymax)) ∧
    pointInRectangle p (xmin, ymin, xmax, ymax) d
      = ((pointInRectangleXY p (xmin, ymin, xmax, ymax) d).1 && (pointInRectangleXY p (xmin, ymin, xmax, ymax) d).2) := by
  refine ⟨?_, rfl⟩
  unfold pointInRectangle
  rw [Bool.and_eq_true, decide_eq_true_eq, decide_eq_true_eq]
  dsimp only
  constructor
  · rintro ⟨⟨a, b⟩, c, e⟩ q hx hy
    rw [abs_le] at hx hy
    exact ⟨⟨by linarith, by linarith⟩, by linarith, by linarith⟩
  · intro h
    have h1 := h (p.1 - d, p.2 - d) (by simp [abs_of_nonneg hd]) (by simp [abs_of_nonneg hd])
    have h2 := h (p.1 + d, p.2 + d) (by simp [abs_of_nonneg hd]) (by simp [abs_of_nonneg hd])
    dsimp only at h1 h2
    exact ⟨⟨by linarith, by linarith⟩, by linarith, by linarith⟩

example : pointInRectangle ((1, 1) : ℚ × ℚ) (0, 0, 2, 3) (1/2) = true := by norm_num [pointInRectangle]

/-- **C38** (moving points, soundness only) If `point_in_rectangle` answers `True` for a moving point,
the point is inside the rectangle at some time of the horizon.  The converse is false, see
`C38_moving_violated`. -/
theorem C38_moving_partial (p v : ℚ × ℚ) (xmin ymin xmax ymax T : ℚ) (hT : 0 ≤ T)
    (h : pointInRectangleMoving p v (xmin, ymin, xmax, ymax) T = true) :
    ∃ t, 0 ≤ t ∧ t ≤ T ∧ (xmin ≤ p.1 + t * v.1 ∧ p.1 + t * v.1 ≤ xmax) ∧
      (ymin ≤ p.2 + t * v.2 ∧ p.2 + t * v.2 ≤ ymax) := by
  unfold pointInRectangleMoving pointInRectangleSampled at h
  generalize (pyRound (T / (1/2)) + 1).toNat = N at h
  obtain ⟨l, hl, hc⟩ := List.any_eq_true.1 h
  rw [Bool.and_eq_true, decide_eq_true_eq, decide_eq_true_eq] at hc
  have hl : l ≤ N := by have := List.mem_range.1 hl; omega
  refine ⟨l * (T / N), by positivity, ?_, hc.1, hc.2⟩
  rcases Nat.eq_zero_or_pos N with e | e
  · rw [e]; simpa using hT
  · have hN : (0 : ℚ) < N := by exact_mod_cast e
    have hl' : (l : ℚ) ≤ N := by exact_mod_cast hl
    rw [← mul_div_assoc, div_le_iff₀ hN]
    nlinarith

/-- The sampled test misses a point that crosses the rectangle between two samples. -/
theorem C38_moving_violated :
    pointInRectangleMoving (-10, 0) (10, 0) (-1, -1, 1, 1) 2 = false ∧
    (∃ t : ℚ, 0 ≤ t ∧ t ≤ 2 ∧ ((-1 : ℚ) ≤ -10 + t * 10 ∧ -10 + t * 10 ≤ 1) ∧ ((-1 : ℚ) ≤ 0 + t * 0 ∧ 0 + t * 0 ≤ 1)) := by
  constructor
  · have h4 : (2 : ℚ) / (1/2) = 4 := by norm_num
    have hf : ⌊(4 : ℚ)⌋ = 4 := by norm_num
    have hr : pyRound (2 / (1/2)) = 4 := by
      rw [h4]; unfold pyRound; rw [hf]; norm_num
    unfold pointInRectangleMoving
    rw [hr, show (4 + 1 : ℤ).toNat = 5 from rfl]
    norm_num [pointInRectangleSampled, List.range_succ]
  · exact ⟨1, by norm_num⟩

/-! ## C52 -/

/-- **C52** `distance_to_line` is the distance to the line: no point of the line is closer, and some
point of the line is exactly that far. -/
theorem C52_distance_to_line (p v1 v2 : ℝ × ℝ) (h : v1 ≠ v2) :
    (∀ q, OnLine v1 v2 q → distanceToLine p v1 v2 ≤ dist2 p q) ∧
    ∃ q, OnLine v1 v2 q ∧ dist2 p q = distanceToLine p v1 v2 := by
  have hpos : 0 < (v2.2 - v1.2) ^ 2 + (v2.1 - v1.1) ^ 2 := by
    by_contra hc
    have h1 := sq_nonneg (v2.2 - v1.2)
    have h2 := sq_nonneg (v2.1 - v1.1)
    have e1 : (v2.2 - v1.2) ^ 2 = 0 := by linarith
    have e2 : (v2.1 - v1.1) ^ 2 = 0 := by linarith
    rw [sq_eq_zero_iff, sub_eq_zero] at e1 e2
    exact h (Prod.ext e2.symm e1.symm)
  have hd2 : ∀ q, distanceToLine p v1 v2 ≤ dist2 p q ↔
      ((v2.2 - v1.2) * p.1 - (v2.1 - v1.1) * p.2 + v2.1 * v1.2 - v2.2 * v1.1) ^ 2 ≤
      ((q.1 - p.1) ^ 2 + (q.2 - p.2) ^ 2) * ((v2.2 - v1.2) ^ 2 + (v2.1 - v1.1) ^ 2) := by
    intro q
    unfold distanceToLine dist2
    rw [div_le_iff₀ (Real.sqrt_pos.2 hpos), ← Real.sqrt_mul (by positivity)]
    exact ⟨fun hh => by
      have := (Real.le_sqrt (abs_nonneg _) (by positivity)).1 hh
      rwa [sq_abs] at this, fun hh => (Real.le_sqrt (abs_nonneg _) (by positivity)).2 (by rwa [sq_abs])⟩
  constructor
  · rintro q ⟨s, rfl⟩
    rw [hd2]
    unfold lineAt
    dsimp only
    have : ((v1.1 + s * (v2.1 - v1.1) - p.1) ^ 2 + (v1.2 + s * (v2.2 - v1.2) - p.2) ^ 2)
        * ((v2.2 - v1.2) ^ 2 + (v2.1 - v1.1) ^ 2)
        - ((v2.2 - v1.2) * p.1 - (v2.1 - v1.1) * p.2 + v2.1 * v1.2 - v2.2 * v1.1) ^ 2
        = ((v1.1 + s * (v2.1 - v1.1) - p.1) * (v2.1 - v1.1) + (v1.2 + s * (v2.2 - v1.2) - p.2) * (v2.2 - v1.2)) ^ 2 := by
      ring
    nlinarith [sq_nonneg ((v1.1 + s * (v2.1 - v1.1) - p.1) * (v2.1 - v1.1) + (v1.2 + s * (v2.2 - v1.2) - p.2) * (v2.2 - v1.2))]
  · set s := ((p.1 - v1.1) * (v2.1 - v1.1) + (p.2 - v1.2) * (v2.2 - v1.2)) /
      ((v2.2 - v1.2) ^ 2 + (v2.1 - v1.1) ^ 2) with hs
    refine ⟨lineAt v1 v2 s, ⟨s, rfl⟩, ?_⟩
    unfold distanceToLine dist2 lineAt
    dsimp only
    rw [eq_div_iff (Real.sqrt_pos.2 hpos).ne', ← Real.sqrt_mul (by positivity), ← Real.sqrt_sq_eq_abs]
    congr 1
    have hs' : s * ((v2.2 - v1.2) ^ 2 + (v2.1 - v1.1) ^ 2)
        = (p.1 - v1.1) * (v2.1 - v1.1) + (p.2 - v1.2) * (v2.2 - v1.2) := by
      rw [hs, div_mul_cancel₀ _ hpos.ne']
    have hz : (v1.1 + s * (v2.1 - v1.1) - p.1) * (v2.1 - v1.1) + (v1.2 + s * (v2.2 - v1.2) - p.2) * (v2.2 - v1.2) = 0 := by
      linear_combination hs'
    have : ((v1.1 + s * (v2.1 - v1.1) - p.1) ^ 2 + (v1.2 + s * (v2.2 - v1.2) - p.2) ^ 2)
        * ((v2.2 - v1.2) ^ 2 + (v2.1 - v1.1) ^ 2)
        = ((v2.2 - v1.2) * p.1 - (v2.1 - v1.1) * p.2 + v2.1 * v1.2 - v2.2 * v1.1) ^ 2 +
        ((v1.1 + s * (v2.1 - v1.1) - p.1) * (v2.1 - v1.1) + (v1.2 + s * (v2.2 - v1.2) - p.2) * (v2.2 - v1.2)) ^ 2 := by
      ring
    rw [this, hz]; ring

example : ∃ q, OnLine ((0, 0) : ℝ × ℝ) (3, 4) q ∧ dist2 (5, 0) q = distanceToLine (5, 0) (0, 0) (3, 4) :=
  (C52_distance_to_line _ _ _ (by norm_num)).2

/-- **C52** `distance_between_points` refuses points of different dimension and is otherwise the
Euclidean distance: symmetric, zero only for equal points, and its square is the sum of squares. -/
theorem C52_distance_between_points (p q : List ℝ) :
    (distanceBetweenPoints p q = none ↔ p.length ≠ q.length) ∧
    ∀ d, distanceBetweenPoints p q = some d →
      0 ≤ d ∧ d ^ 2 = ((List.range p.length).map fun k => (q.getD k 0 - p.getD k 0) ^ 2).sum ∧
      distanceBetweenPoints q p = some d ∧ (d = 0 ↔ p = q) := by
  unfold distanceBetweenPoints
  refine ⟨by split_ifs with h <;> simp [h], fun d hd => ?_⟩
  split_ifs at hd with h
  have h : p.length = q.length := not_ne_iff.1 h
  have hd := (Option.some.inj hd).symm
  have nonneg : ∀ p q : List ℝ, 0 ≤ (((p.zip q).map fun c => (c.2 - c.1) ^ 2).sum) := by
    intro p q
    exact List.sum_nonneg (by
      intro x hx; obtain ⟨c, -, rfl⟩ := List.mem_map.1 hx; positivity)
  have hsum : ∀ p q : List ℝ, p.length = q.length → (((p.zip q).map fun c => (c.2 - c.1) ^ 2))
      = ((List.range p.length).map fun k => (q.getD k 0 - p.getD k 0) ^ 2) := by
    intro p q h
    apply List.ext_getElem (by simp [h])
    intro i i1 i2
    have a1 : i < p.length := by simpa using i2
    have a2 : i < q.length := by omega
    simp [a1, a2]
  have hsymm : ∀ p q : List ℝ, ((p.zip q).map fun c => (c.2 - c.1) ^ 2) = ((q.zip p).map fun c => (c.2 - c.1) ^ 2) := by
    intro p
    induction p with
    | nil => intro q; simp
    | cons a p ih =>
      intro q
      cases q with
      | nil => simp
      | cons b q =>
        simp only [List.zip_cons_cons, List.map_cons, ih q]
        congr 1
        ring
  have hzero : ∀ p q : List ℝ, p.length = q.length → ((((p.zip q).map fun c => (c.2 - c.1) ^ 2).sum) = 0 ↔ p = q) := by
    intro p
    induction p with
    | nil => intro q hq; cases q with
      | nil => simp
      | cons => simp at hq
    | cons a p ih =>
      intro q hq
      cases q with
      | nil => simp at hq
      | cons b q =>
        have hq : p.length = q.length := by simpa using hq
        simp only [List.zip_cons_cons, List.map_cons, List.sum_cons]
        rw [add_eq_zero_iff_of_nonneg (sq_nonneg _) (nonneg p q), ih q hq, sq_eq_zero_iff, sub_eq_zero, List.cons_eq_cons, eq_comm]
  refine ⟨hd ▸ Real.sqrt_nonneg _, ?_, ?_, ?_⟩
  · rw [hd, Real.sq_sqrt (nonneg p q), hsum p q h]
  · rw [if_neg (by rw [not_ne_iff]; exact h.symm), hsymm q p, hd]
  · rw [hd, Real.sqrt_eq_zero (nonneg p q), hzero p q h]

example : ∃ d, distanceBetweenPoints [1, 2, 3] [1, 2, 4] = some d ∧ (d = 0 ↔ ([1, 2, 3] : List ℝ) = [1, 2, 4]) :=
  ⟨_, rfl, ((C52_distance_between_points _ _).2 _ rfl).2.2.2⟩

end Verif.Geometry
