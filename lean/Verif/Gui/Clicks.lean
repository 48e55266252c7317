import Verif.Gui.Model
import Verif.Frames.Obstacles
import Mathlib.Tactic.Ring
import Mathlib.Tactic.FieldSimp
import Mathlib.Tactic.Linarith
import Mathlib.Tactic.NormNum
import Mathlib.Tactic.Positivity
import Mathlib.Tactic.Push

/-! # Clicking in the window (C91, C92, C94-C99) -/

set_option linter.unusedSectionVars false

namespace Verif.Gui

open Verif.Geometry Verif.Frames

variable {K : Type} [Field K] [LinearOrder K] [IsStrictOrderedRing K]

namespace Spec

/-- The point is in the room of the environment that is built: a rectangle with the given centre, width and height. -/
def InRoom (r : (K × K) × K × K) (p : K × K) : Prop :=
  |p.1 - r.1.1| ≤ r.2.1 / 2 ∧ |p.2 - r.1.2| ≤ r.2.2 / 2

/-- The point of the canvas is in the frame. -/
def InFrame (g : Win K) (p : K × K) : Prop :=
  0 ≤ p.1 ∧ p.1 ≤ g.widthPx ∧ 0 ≤ p.2 ∧ p.2 ≤ g.heightPx

/-- The point is in the obstacle. -/
def InObs (o : Obs K) (p : K × K) : Prop :=
  match o.shape with
  | .circle r => (p.1 - o.pos.1) ^ 2 + (p.2 - o.pos.2) ^ 2 ≤ r ^ 2
  | .rect w h => |p.1 - o.pos.1| ≤ w / 2 ∧ |p.2 - o.pos.2| ≤ h / 2

/-- The point is in the box. -/
def InBox (b : Box K) (p : K × K) : Prop := b.x1 ≤ p.1 ∧ p.1 ≤ b.x2 ∧ b.y1 ≤ p.2 ∧ p.2 ≤ b.y2

/-- Width and height of a shape. -/
def extent : Shape K → K × K
  | .rect w h => (w, h)
  | .circle r => (2 * r, 2 * r)

/-- All distances from a point in `[0, size]` to its ends are at least the margin. -/
def Clear (margin size c : K) : Prop := margin ≤ c ∧ c ≤ size - margin

/-- The world points of the right clicks of a session in which nothing is read from a file. -/
def rightClicks (g : Win K) (as : List (Action K)) : List (K × K) :=
  as.filterMap fun a => match a with
    | .rightClick p => some (g.pixelToWorld p)
    | _ => none

/-- The last two of a list. -/
def lastTwo (l : List (K × K)) : List (K × K) := l.drop (l.length - 2)

end Spec

section Round
variable [FloorRing K]

theorem abs_sub_roundEven (q : K) : |q - roundEven q| ≤ 1 / 2 := by
  have h1 := Int.floor_le q
  have h2 := Int.lt_floor_add_one q
  unfold roundEven
  rw [abs_le]
  split_ifs <;> push_cast <;> constructor <;> linarith

theorem roundEven_le {q : K} {n : ℤ} (h : q ≤ n) : roundEven q ≤ n := by
  have := (abs_le.1 (abs_sub_roundEven q)).1
  have h2 : ((roundEven q : ℤ) : K) < ((n + 1 : ℤ) : K) := by push_cast; linarith
  have := Int.cast_lt.1 h2
  omega

theorem le_roundEven {q : K} {n : ℤ} (h : (n : K) ≤ q) : n ≤ roundEven q := by
  have := (abs_le.1 (abs_sub_roundEven q)).2
  have h2 : ((n - 1 : ℤ) : K) < ((roundEven q : ℤ) : K) := by push_cast; linarith
  have := Int.cast_lt.1 h2
  omega

/-- Snapping one coordinate gives the nearest multiple. -/
theorem snap_nearest (c : ℤ) (hc : 0 < c) (p : K) (k : ℤ) :
    |p - (c * roundEven (p / c) : ℤ)| ≤ |p - (c * k : ℤ)| := by
  have hcK : (0 : K) < c := by exact_mod_cast hc
  have e : ∀ j : ℤ, |p - (c * j : ℤ)| = c * |p / c - j| := by
    intro j
    rw [← abs_of_pos hcK, ← abs_mul, abs_of_pos hcK]
    congr 1
    push_cast
    field_simp
  rw [e, e]
  apply mul_le_mul_of_nonneg_left _ hcK.le
  by_cases hk : k = roundEven (p / c)
  · rw [hk]
  have h1 := abs_sub_roundEven (p / (c : K))
  have h2 : (1 : K) ≤ |((roundEven (p / (c : K)) : ℤ) : K) - k| := by
    rw [← Int.cast_sub, ← Int.cast_abs]
    have : 1 ≤ |roundEven (p / (c : K)) - k| := Int.one_le_abs (sub_ne_zero.2 (Ne.symm hk))
    exact_mod_cast this
  have h3 := abs_sub_abs_le_abs_sub (p / (c : K) - k) (p / c - roundEven (p / (c : K)))
  have h4 : |(((roundEven (p / (c : K)) : ℤ) : K) - k)| ≤ |p / (c : K) - k| + |p / c - roundEven (p / (c : K))| := by
    have := abs_sub (p / (c : K) - k) (p / c - roundEven (p / (c : K)))
    calc _ = |(p / (c : K) - k) - (p / c - roundEven (p / (c : K)))| := by congr 1; ring
      _ ≤ _ := this
  linarith

end Round

section Cover

theorem cover (n : ℕ) (hn : 0 < n) (c x : K) (h0 : 0 ≤ x) (h1 : x ≤ n * c) : ∃ k : ℕ, k < n ∧ k * c ≤ x ∧ x ≤ k * c + c := by
  induction n with
  | zero => omega
  | succ n ih =>
    by_cases h : (n : K) * c ≤ x
    · exact ⟨n, by omega, h, by push_cast at h1; linarith⟩
    · rcases Nat.eq_zero_or_pos n with rfl | hp
      · simp at h; linarith
      · obtain ⟨k, hk, h2⟩ := ih hp (not_le.1 h).le
        exact ⟨k, by omega, h2⟩

variable [FloorRing K]

theorem ceil_cover (w : ℤ) (n : ℕ) (hn : 0 < n) : (w : K) ≤ n * (⌈(w : K) / n⌉ : ℤ) := by
  have hnK : (0 : K) < n := by exact_mod_cast hn
  have := Int.le_ceil ((w : K) / n)
  rw [div_le_iff₀ hnK] at this
  linarith

end Cover

/-! ## Properties -/

section Properties
variable [FloorRing K]

/-- The obstacle made by a click with a shape that is accepted is the last of the list and has the position `clickWorld`. -/
theorem make_pos (g : Win K) (p : K × K) (s : Shape K) (h : g.sizeOk s = true) :
    ∃ v, (g.make p s).obstacles = g.obstacles ++ [⟨g.clickWorld p, s, v⟩] := by
  refine ⟨g.next, ?_⟩
  unfold Win.make
  rw [if_pos h]

/-- C91, what holds: if the cells fit exactly in the frame, a click in the frame makes an obstacle with its centre in the room.
Missing: frames that are not a whole number of cells (`C91_violated`). -/
theorem C91_partial (g : Win K) (hm : 0 < g.m) (hw : (g.widthPx : K) ≤ g.widthM * g.m) (hh : (g.heightPx : K) ≤ g.heightM * g.m)
    (a b : ℤ) (hcw : 0 < g.cellW) (hch : 0 < g.cellH) (ha : g.cellW * a = g.widthPx) (hb : g.cellH * b = g.heightPx)
    (r : (K × K) × K × K) (hr : g.room = some r) (p : K × K) (hp : Spec.InFrame g p) (s : Shape K) (hs : g.sizeOk s = true) :
    ∃ o, (g.make p s).obstacles = g.obstacles ++ [o] ∧ o.shape = s ∧ Spec.InRoom r o.pos := by
  obtain ⟨v, hv⟩ := make_pos g p s hs
  refine ⟨_, hv, rfl, ?_⟩
  obtain ⟨p1, p2, p3, p4⟩ := hp
  have hcwK : (0 : K) < g.cellW := by exact_mod_cast hcw
  have hchK : (0 : K) < g.cellH := by exact_mod_cast hch
  have s1 : 0 ≤ (g.snap p).1 := mul_nonneg hcw.le (le_roundEven (by push_cast; positivity))
  have s2 : (g.snap p).1 ≤ g.widthPx := by
    rw [← ha]
    refine mul_le_mul_of_nonneg_left (roundEven_le ?_) hcw.le
    rw [div_le_iff₀ hcwK]; rw [← ha] at p2; push_cast at p2; linarith
  have s3 : 0 ≤ (g.snap p).2 := mul_nonneg hch.le (le_roundEven (by push_cast; positivity))
  have s4 : (g.snap p).2 ≤ g.heightPx := by
    rw [← hb]
    refine mul_le_mul_of_nonneg_left (roundEven_le ?_) hch.le
    rw [div_le_iff₀ hchK]; rw [← hb] at p4; push_cast at p4; linarith
  have s1' : (0 : K) ≤ (g.snap p).1 := by exact_mod_cast s1
  have s2' : ((g.snap p).1 : K) ≤ g.widthPx := by exact_mod_cast s2
  have s3' : (0 : K) ≤ (g.snap p).2 := by exact_mod_cast s3
  have s4' : ((g.snap p).2 : K) ≤ g.heightPx := by exact_mod_cast s4
  unfold Win.room at hr
  split_ifs at hr
  rw [Option.some.injEq] at hr
  subst hr
  simp only [Spec.InRoom, Win.clickWorld, Win.pixelToWorld]
  generalize ((g.snap p).1 : K) = u at *
  generalize ((g.snap p).2 : K) = w at *
  generalize (g.heightPx : K) = H at *
  generalize (g.widthPx : K) = W at *
  have e1 : (u + g.position.1) / g.m - (g.position.1 / g.m + g.widthM * (1 / 2)) = u / g.m - g.widthM / 2 := by ring
  have e2 : (g.position.2 + H - (w + g.position.2)) / g.m + g.position.2 / g.m -
      (g.position.2 / g.m + g.heightM * (1 / 2)) = (H - w) / g.m - g.heightM / 2 := by ring
  rw [e1, e2, abs_le, abs_le]
  have q1 : 0 ≤ u / g.m := div_nonneg s1' hm.le
  have q2 : u / g.m ≤ g.widthM := by rw [div_le_iff₀ hm]; linarith
  have q3 : 0 ≤ (H - w) / g.m := div_nonneg (by linarith) hm.le
  have q4 : (H - w) / g.m ≤ g.heightM := by rw [div_le_iff₀ hm]; linarith
  refine ⟨⟨?_, ?_⟩, ?_, ?_⟩ <;> linarith

example : let g := (start (8 : ℚ) 4 50 (1, 2) (20, 10)).run [.rightClick (0, 0), .rightClick (1, 1)]
    g.cellW * 20 = g.widthPx ∧ g.cellH * 10 = g.heightPx ∧ g.room = some ((5, 4), 8, 4) ∧
      (g.make (397, 3) (.circle 1)).obstacles.map Obs.pos = [(9, 6)] := by decide +kernel

/-- C91 fails: 100 pixels in 3 cells give cells of 34 pixels; a click at 99 is snapped to 102 and the centre of the obstacle is
outside the room. -/
theorem C91_violated :
    let g := (start (1 : ℚ) 1 100 (0, 0) (3, 3)).run [.rightClick (0, 0), .rightClick (1, 1)]
    Spec.InFrame g (99, 50) ∧ g.room = some ((1/2, 1/2), 1, 1) ∧
      ∃ o, (g.make (99, 50) (.rect (1/10) (1/10))).obstacles = [o] ∧ ¬ Spec.InRoom ((1/2, 1/2), 1, 1) o.pos := by
  refine ⟨by unfold Spec.InFrame; decide +kernel, by decide +kernel, ⟨(51/50, 33/50), .rect (1/10) (1/10), 10⟩, by decide +kernel, ?_⟩
  unfold Spec.InRoom
  rw [not_and_or]
  left
  norm_num [abs_le]

theorem rightClick_clicked (g : Win K) (h : g.clicked.length ≤ 2) (p : K × K) :
    (g.rightClick p).clicked = Spec.lastTwo (g.clicked ++ [g.pixelToWorld p]) := by
  unfold Win.rightClick Spec.lastTwo
  match hc : g.clicked, h with
  | [], _ => simp
  | [a], _ => simp
  | [a, b], _ => simp

theorem rightClick_keeps (g : Win K) (p : K × K) :
    (g.rightClick p).m = g.m ∧ (g.rightClick p).position = g.position ∧ (g.rightClick p).heightPx = g.heightPx ∧
      (g.rightClick p).widthM = g.widthM ∧ (g.rightClick p).heightM = g.heightM := by
  unfold Win.rightClick
  split <;> exact ⟨rfl, rfl, rfl, rfl, rfl⟩

/-- C92, what holds: if the top left corner of the window is the origin, a start or goal clicked in the frame lies in the room.
Missing: other windows (`C92_violated`). -/
theorem C92_room_partial (g : Win K) (hm : 0 < g.m) (hpos : g.position = (0, 0)) (hw : (g.widthPx : K) ≤ g.widthM * g.m)
    (hh : (g.heightPx : K) ≤ g.heightM * g.m) (hc : g.clicked.length ≤ 2) (p : K × K) (hp : Spec.InFrame g p)
    (r : (K × K) × K × K) (hr : (g.rightClick p).room = some r) :
    ∃ c, (g.rightClick p).clicked.getLast? = some c ∧ Spec.InRoom r c := by
  refine ⟨g.pixelToWorld p, ?_, ?_⟩
  · rw [rightClick_clicked g hc]
    unfold Spec.lastTwo
    match g.clicked, hc with
    | [], _ => simp
    | [a], _ => simp
    | [a, b], _ => simp
  · obtain ⟨k1, k2, k3, k4, k5⟩ := rightClick_keeps g p
    unfold Win.room at hr
    split_ifs at hr
    rw [Option.some.injEq] at hr
    subst hr
    obtain ⟨p1, p2, p3, p4⟩ := hp
    simp only [Spec.InRoom, Win.pixelToWorld, k1, k2, k4, k5, hpos]
    have q1 : 0 ≤ p.1 / g.m := div_nonneg p1 hm.le
    have q2 : p.1 / g.m ≤ g.widthM := by rw [div_le_iff₀ hm]; linarith
    have q3 : 0 ≤ ((g.heightPx : K) - p.2) / g.m := div_nonneg (by linarith) hm.le
    have q4 : ((g.heightPx : K) - p.2) / g.m ≤ g.heightM := by rw [div_le_iff₀ hm]; linarith
    simp only [zero_div, zero_add, add_zero]
    rw [abs_le, abs_le]
    refine ⟨⟨?_, ?_⟩, ?_, ?_⟩ <;> linarith

example : let g := (start (8 : ℚ) 4 50 (0, 0) (20, 10)).run [.rightClick (3, 7)]
    g.position = (0, 0) ∧ g.clicked.length ≤ 2 ∧ (g.rightClick (390, 10)).room = some ((4, 2), 8, 4) ∧
      (g.rightClick (390, 10)).clicked = [(3/50, 193/50), (39/5, 19/5)] := by decide +kernel

/-- C92, what holds: then a right click on a grid point gives the position of an obstacle made there. -/
theorem C92_same_partial (g : Win K) (hpos : g.position = (0, 0)) (p : K × K) (hp : (((g.snap p).1 : K), ((g.snap p).2 : K)) = p) :
    g.clickWorld p = g.pixelToWorld p := by
  unfold Win.clickWorld
  rw [hpos]
  simp only [add_zero, hp]

example : let g := start (8 : ℚ) 4 50 (0, 0) (20, 10)
    g.snap (100, 60) = (100, 60) ∧ g.pixelToWorld (100, 60) = (2, 14/5) := by decide +kernel

/-- C92 fails for every other window: the start or goal clicked on a grid point is not the position of an obstacle made there; it is
off by the position of the window. -/
theorem C92_violated (g : Win K) (hm : g.m ≠ 0) (hpos : g.position ≠ (0, 0)) (p : K × K)
    (hp : (((g.snap p).1 : K), ((g.snap p).2 : K)) = p) :
    g.clickWorld p ≠ g.pixelToWorld p ∧
      (g.clickWorld p).1 = (g.pixelToWorld p).1 + g.position.1 / g.m ∧
      (g.clickWorld p).2 = (g.pixelToWorld p).2 - g.position.2 / g.m := by
  have h1 : ((g.snap p).1 : K) = p.1 := congrArg Prod.fst hp
  have h2 : ((g.snap p).2 : K) = p.2 := congrArg Prod.snd hp
  have e1 : (g.clickWorld p).1 = (g.pixelToWorld p).1 + g.position.1 / g.m := by
    unfold Win.clickWorld Win.pixelToWorld
    simp only [h1]; ring
  have e2 : (g.clickWorld p).2 = (g.pixelToWorld p).2 - g.position.2 / g.m := by
    unfold Win.clickWorld Win.pixelToWorld
    simp only [h2]; ring
  refine ⟨fun h => hpos ?_, e1, e2⟩
  rw [h] at e1 e2
  have z1 : g.position.1 / g.m = 0 := by linarith
  have z2 : g.position.2 / g.m = 0 := by linarith
  rw [div_eq_zero_iff] at z1 z2
  exact Prod.ext (z1.resolve_right hm) (z2.resolve_right hm)

/-- A window of 8 by 8 meter at (10, 10): a click in the middle of the frame gives a goal far outside the room. -/
example : let g := (start (8 : ℚ) 8 50 (10, 10) (20, 20)).run [.rightClick (10, 10), .rightClick (200, 200)]
    g.room = some ((14, 14), 8, 8) ∧ g.clicked.getLast? = some (4, 24) ∧ g.snap (200, 200) = (200, 200) ∧
      g.clickWorld (200, 200) = (14, 14) := by decide +kernel

theorem hit_of_inObs (o : Obs K) (p : K × K) (hs : ∀ r, o.shape = .circle r → 0 ≤ r) (hw : ∀ w h, o.shape = .rect w h → 0 ≤ w ∧ 0 ≤ h)
    (h : Spec.InObs o p) : o.hit p = true := by
  unfold Spec.InObs at h
  unfold Obs.hit
  cases e : o.shape with
  | circle r =>
    rw [e] at h
    simp only at h
    simp only [Bool.and_eq_true, decide_eq_true_eq]
    refine ⟨hs r e, ?_⟩
    nlinarith
  | rect w h' =>
    rw [e] at h
    simp only at h
    obtain ⟨k1, k2⟩ := hw w h' e
    obtain ⟨⟨a1, a2⟩, b1, b2⟩ := And.imp abs_le.1 abs_le.1 h
    unfold pointInRectangle
    simp only [add_zero, sub_zero, Bool.and_eq_true, decide_eq_true_eq]
    refine ⟨⟨?_, ?_⟩, ?_, ?_⟩ <;> linarith

/-- C94, what holds: a click in an obstacle always selects an obstacle.
Missing: that it is the one clicked on, and that a click beside all obstacles selects none (`C94_violated`). -/
theorem C94_some_partial (g : Win K) (p : K × K) (hs : ∀ o ∈ g.obstacles, g.sizeOk o.shape = true)
    (h : ∃ o ∈ g.obstacles, Spec.InObs o (g.clickWorld p)) : ∃ o ∈ g.obstacles, (g.select p).selected = some o.var := by
  have hpos : ∀ o ∈ g.obstacles, (∀ r, o.shape = .circle r → 0 ≤ r) ∧ (∀ w h, o.shape = .rect w h → 0 ≤ w ∧ 0 ≤ h) := by
    intro o ho
    have := hs o ho
    constructor
    · intro r e
      rw [e] at this
      simp only [Win.sizeOk, Bool.and_eq_true, Bool.not_eq_eq_eq_not, Bool.not_true, decide_eq_false_iff_not, not_le] at this
      exact this.1.le
    · intro w h' e
      rw [e] at this
      simp only [Win.sizeOk, Bool.and_eq_true, Bool.not_eq_eq_eq_not, Bool.not_true, decide_eq_false_iff_not, not_le,
        Bool.or_eq_false_iff] at this
      exact ⟨this.1.1.1.le, this.1.1.2.le⟩
  obtain ⟨o, ho, hin⟩ := h
  have hh := hit_of_inObs o _ (hpos o ho).1 (hpos o ho).2 hin
  unfold Win.select
  simp only
  clear hs hpos
  generalize g.selected = s
  revert ho
  generalize g.obstacles = l
  intro ho
  induction l generalizing s with
  | nil => simp at ho
  | cons a l ih =>
    unfold selectLoop
    split_ifs with e
    · exact ⟨a, by simp, rfl⟩
    · simp only [List.mem_cons] at ho
      rcases ho with rfl | ho
      · exact absurd hh e
      · obtain ⟨o', ho', e'⟩ := ih none ho
        exact ⟨o', by simp [ho'], e'⟩

example : let g := (start (8 : ℚ) 4 50 (1, 2) (20, 10)).run [.make (40, 60) (.circle 1), .make (300, 100) (.rect 1 2)]
    (g.select (308, 99)).selected = g.obstacles.getLast?.map Obs.var := by decide +kernel

theorem selectLoop_spec (p : K × K) (l : List (Obs K)) (hl : l ≠ []) (s : Option ℕ) :
    selectLoop p l s = (l.find? fun o => o.hit p).map Obs.var := by
  induction l generalizing s with
  | nil => exact absurd rfl hl
  | cons a l ih =>
    unfold selectLoop
    by_cases e : a.hit p = true
    · rw [if_pos e, List.find?_cons, e]; rfl
    · rw [if_neg e, List.find?_cons, Bool.eq_false_iff.2 e]
      simp only
      by_cases hl' : l = []
      · subst hl'; rfl
      · exact ih hl' none

/-- C94, what holds: with only circles, a click selects the first circle that holds the point, and none if there is none. -/
theorem C94_circles_partial (g : Win K) (p : K × K) (hne : g.obstacles ≠ [])
    (hc : ∀ o ∈ g.obstacles, ∃ r, 0 < r ∧ o.shape = .circle r) :
    (∀ v, (g.select p).selected = some v ↔ ∃ l₁ o l₂, g.obstacles = l₁ ++ o :: l₂ ∧ o.var = v ∧ Spec.InObs o (g.clickWorld p) ∧
      ∀ o' ∈ l₁, ¬ Spec.InObs o' (g.clickWorld p)) := by
  have key : ∀ o ∈ g.obstacles, o.hit (g.clickWorld p) = true ↔ Spec.InObs o (g.clickWorld p) := by
    intro o ho
    obtain ⟨r, hr, e⟩ := hc o ho
    unfold Obs.hit Spec.InObs
    rw [e]
    simp only [Bool.and_eq_true, decide_eq_true_eq]
    constructor
    · rintro ⟨_, h⟩; nlinarith
    · intro h; exact ⟨hr.le, by nlinarith⟩
  intro v
  unfold Win.select
  simp only
  rw [selectLoop_spec _ _ hne, Option.map_eq_some_iff]
  constructor
  · rintro ⟨o, h, rfl⟩
    rw [List.find?_eq_some_iff_append] at h
    obtain ⟨h1, l₁, l₂, h2, h3⟩ := h
    refine ⟨l₁, o, l₂, h2, rfl, (key o (by rw [h2]; simp)).1 h1, fun o' ho' hin => ?_⟩
    have := (key o' (by rw [h2]; simp [ho'])).2 hin
    simpa [this] using h3 o' ho'
  · rintro ⟨l₁, o, l₂, h2, e, h1, h3⟩
    refine ⟨o, ?_, e⟩
    rw [List.find?_eq_some_iff_append]
    refine ⟨(key o (by rw [h2]; simp)).2 h1, l₁, l₂, h2, fun o' ho' => ?_⟩
    have := mt (key o' (by rw [h2]; simp [ho'])).1 (h3 o' ho')
    simpa using this

example : let g := (start (8 : ℚ) 4 50 (1, 2) (20, 10)).run [.make (40, 60) (.circle 1), .make (300, 100) (.circle (1/2))]
    (g.select (308, 99)).selected = g.obstacles.getLast?.map Obs.var ∧ (g.select (200, 99)).selected = none := by decide +kernel

/-- C94 fails: the limits of a rectangle are taken at its full instead of half its size.  A click beside the only rectangle selects
it; and a click in a circle selects a rectangle beside it, so that "Remove" takes away the wrong obstacle. -/
theorem C94_violated :
    (let g := (start (8 : ℚ) 8 50 (0, 0) (20, 20)).run [.make (200, 200) (.rect 2 2)]
     (∀ o ∈ g.obstacles, ¬ Spec.InObs o (g.clickWorld (280, 200))) ∧ (g.select (280, 200)).selected ≠ none) ∧
    (let g := (start (8 : ℚ) 8 50 (0, 0) (20, 20)).run [.make (200, 200) (.rect 2 2), .make (280, 200) (.circle (1/2))]
     ∃ r c, g.obstacles = [r, c] ∧ Spec.InObs c (g.clickWorld (280, 200)) ∧ ¬ Spec.InObs r (g.clickWorld (280, 200)) ∧
       ((g.select (280, 200)).remove).obstacles = [c]) := by
  constructor
  · refine ⟨?_, by decide +kernel⟩
    have e1 : ((start (8 : ℚ) 8 50 (0, 0) (20, 20)).run [.make (200, 200) (.rect 2 2)]).obstacles = [⟨(4, 4), .rect 2 2, 401⟩] := by
      decide +kernel
    have e2 : ((start (8 : ℚ) 8 50 (0, 0) (20, 20)).run [.make (200, 200) (.rect 2 2)]).clickWorld (280, 200) = (28/5, 4) := by
      decide +kernel
    rw [e1, e2]
    intro o ho
    simp only [List.mem_cons, List.not_mem_nil, or_false] at ho
    subst ho
    norm_num [Spec.InObs, abs_le]
  · refine ⟨⟨(4, 4), .rect 2 2, 401⟩, ⟨(28/5, 4), .circle (1/2), 402⟩, by decide +kernel, ?_, ?_, by decide +kernel⟩
    · have e2 : ((start (8 : ℚ) 8 50 (0, 0) (20, 20)).run [.make (200, 200) (.rect 2 2),
        .make (280, 200) (.circle (1/2))]).clickWorld (280, 200) = (28/5, 4) := by decide +kernel
      rw [e2]; norm_num [Spec.InObs]
    · have e2 : ((start (8 : ℚ) 8 50 (0, 0) (20, 20)).run [.make (200, 200) (.rect 2 2),
        .make (280, 200) (.circle (1/2))]).clickWorld (280, 200) = (28/5, 4) := by decide +kernel
      rw [e2]; norm_num [Spec.InObs, abs_le]

/-- Nothing is read from a file. -/
def Action.notLoad : Action K → Prop
  | .load _ => False
  | _ => True

theorem step_keeps (g : Win K) (a : Action K) (ha : a.notLoad) :
    (g.step a).pixelToWorld = g.pixelToWorld ∧
      (g.step a).clicked = match a with
        | .rightClick p => (g.rightClick p).clicked
        | _ => g.clicked := by
  cases a with
  | make p s =>
    change (g.make p s).pixelToWorld = _ ∧ (g.make p s).clicked = _
    unfold Win.make; split_ifs <;> exact ⟨rfl, rfl⟩
  | select p => exact ⟨rfl, rfl⟩
  | remove =>
    change g.remove.pixelToWorld = _ ∧ g.remove.clicked = _
    unfold Win.remove
    cases g.selected with
    | some v => exact ⟨rfl, rfl⟩
    | none =>
      simp only
      split_ifs
      · exact ⟨rfl, rfl⟩
      · cases g.canvas.getLast? <;> exact ⟨rfl, rfl⟩
  | move d =>
    change ((g.move d).getD g).pixelToWorld = _ ∧ ((g.move d).getD g).clicked = _
    unfold Win.move
    cases g.toMove with
    | none => exact ⟨rfl, rfl⟩
    | some v => simp only; split_ifs <;> exact ⟨rfl, rfl⟩
  | rightClick p =>
    change (g.rightClick p).pixelToWorld = _ ∧ (g.rightClick p).clicked = _
    obtain ⟨k1, k2, k3, _⟩ := rightClick_keeps g p
    refine ⟨?_, rfl⟩
    unfold Win.pixelToWorld; rw [k1, k2, k3]
  | load e => exact absurd ha id

theorem lastTwo_lastTwo (l : List (K × K)) (x : K × K) : Spec.lastTwo (Spec.lastTwo l ++ [x]) = Spec.lastTwo (l ++ [x]) := by
  unfold Spec.lastTwo
  rcases Nat.lt_or_ge l.length 2 with h | h
  · rw [show l.length - 2 = 0 by omega]; simp
  · rw [List.length_append, List.length_drop, List.length_append]
    simp only [List.length_cons, List.length_nil]
    rw [show l.length - (l.length - 2) + (0 + 1) - 2 = 1 by omega, show l.length + (0 + 1) - 2 = (l.length - 2) + 1 by omega]
    rw [List.drop_append_of_le_length (by rw [List.length_drop]; omega), List.drop_append_of_le_length (by omega), List.drop_drop]

/-- C95: whatever is done in between, the start and the goal are the points of the last two right clicks. -/
theorem C95 (w h m : K) (p : K × K) (n : ℕ × ℕ) (as : List (Action K)) (ha : ∀ a ∈ as, a.notLoad) :
    ((start w h m p n).run as).clicked = Spec.lastTwo (Spec.rightClicks (start w h m p n) as) := by
  have gen : ∀ (as : List (Action K)) (g : Win K) (l : List (K × K)), (∀ a ∈ as, a.notLoad) → g.clicked = Spec.lastTwo l →
      (g.run as).clicked = Spec.lastTwo (l ++ Spec.rightClicks g as) := by
    intro as
    induction as with
    | nil => intro g l _ hg; simpa [Win.run, Spec.rightClicks] using hg
    | cons a as ih =>
      intro g l ha hg
      obtain ⟨k1, k2⟩ := step_keeps g a (ha a (by simp))
      have hrc : Spec.rightClicks (g.step a) as = Spec.rightClicks g as := by unfold Spec.rightClicks; rw [k1]
      have hrun : g.run (a :: as) = (g.step a).run as := rfl
      have ha' : ∀ b ∈ as, b.notLoad := fun b hb => ha b (by simp [hb])
      have hlen : g.clicked.length ≤ 2 := by rw [hg]; unfold Spec.lastTwo; rw [List.length_drop]; omega
      rw [hrun]
      cases a with
      | rightClick p =>
        rw [ih _ (l ++ [g.pixelToWorld p]) ha' (by rw [k2]; simp only; rw [rightClick_clicked g hlen, hg, lastTwo_lastTwo]), hrc]
        unfold Spec.rightClicks
        simp
      | make p s => rw [ih _ l ha' (by rw [k2]; exact hg), hrc]; unfold Spec.rightClicks; simp
      | select p => rw [ih _ l ha' (by rw [k2]; exact hg), hrc]; unfold Spec.rightClicks; simp
      | remove => rw [ih _ l ha' (by rw [k2]; exact hg), hrc]; unfold Spec.rightClicks; simp
      | move d => rw [ih _ l ha' (by rw [k2]; exact hg), hrc]; unfold Spec.rightClicks; simp
      | load e => exact absurd (ha (.load e) (by simp)) id
  have := gen as (start w h m p n) [] ha (by simp [start, Win.drawGrid, Spec.lastTwo])
  simpa using this

example : ((start (8 : ℚ) 8 50 (0, 0) (20, 20)).run [.rightClick (50, 50), .make (200, 200) (.rect 2 2), .rightClick (100, 50),
    .rightClick (150, 100)]).clicked = [(2, 7), (3, 6)] := by decide +kernel

/-- C96: a click is snapped to a grid point, in each direction the nearest one. -/
theorem C96 (g : Win K) (hw : 0 < g.cellW) (hh : 0 < g.cellH) (p : K × K) :
    (∃ i j : ℤ, g.snap p = (g.cellW * i, g.cellH * j)) ∧
      ∀ i j : ℤ, |p.1 - (g.snap p).1| ≤ |p.1 - (g.cellW * i : ℤ)| ∧ |p.2 - (g.snap p).2| ≤ |p.2 - (g.cellH * j : ℤ)| :=
  ⟨⟨_, _, rfl⟩, fun i j => ⟨snap_nearest _ hw _ i, snap_nearest _ hh _ j⟩⟩

example : let g := start (8 : ℚ) 4 50 (1, 2) (20, 10)
    g.cellW = 20 ∧ g.cellH = 20 ∧ g.snap (31, 69) = (40, 60) := by decide +kernel

theorem mem_cells (g : Win K) (hc : 0 < g.columns) (hr : 0 < g.rows) (h1 : (g.widthPx : K) ≤ g.columns * g.cellW)
    (h2 : (g.heightPx : K) ≤ g.rows * g.cellH) (p : K × K) (hp : Spec.InFrame g p) : ∃ b ∈ g.cells, Spec.InBox b p := by
  obtain ⟨p1, p2, p3, p4⟩ := hp
  obtain ⟨c, hc1, hc2, hc3⟩ := cover g.columns hc (g.cellW : K) p.1 p1 (p2.trans h1)
  obtain ⟨r, hr1, hr2, hr3⟩ := cover g.rows hr (g.cellH : K) p.2 p3 (p4.trans h2)
  refine ⟨⟨c * g.cellW, r * g.cellH, c * g.cellW + g.cellW, r * g.cellH + g.cellH⟩, ?_, hc2, hc3, hr2, hr3⟩
  unfold Win.cells
  simp only [List.mem_flatMap, List.mem_range, List.mem_map]
  exact ⟨c, hc1, r, hr1, rfl⟩

/-- C97, what holds: after `reinitialize` (a file was read) the cells of the grid cover the frame; for a new window they do if there
are as many cells in both directions.
Missing: new windows with different numbers of cells (`C97_violated`). -/
theorem C97_partial (g : Win K) (w h m : K) (q : K × K) (n : ℕ × ℕ) (h1 : 0 < n.1) (h2 : 0 < n.2) (p : K × K) :
    (Spec.InFrame (g.reinitialize w h m q n) p → ∃ b ∈ (g.reinitialize w h m q n).cells, Spec.InBox b p) ∧
      (n.1 = n.2 → Spec.InFrame (start w h m q n) p → ∃ b ∈ (start w h m q n).cells, Spec.InBox b p) := by
  constructor
  · exact mem_cells _ h1 h2 (ceil_cover _ _ h1) (ceil_cover _ _ h2) p
  · intro e
    refine mem_cells _ h2 h1 ?_ ?_ p
    · change ((trunc (w * m) : ℤ) : K) ≤ n.2 * _
      rw [← e]; exact ceil_cover _ _ h1
    · change ((trunc (h * m) : ℤ) : K) ≤ n.1 * _
      rw [e]; exact ceil_cover _ _ h2

example : ((start (8 : ℚ) 4 50 (0, 0) (3, 3)).reinitialize 2 1 50 (0, 0) (3, 2)).cells =
    [⟨0, 0, 34, 25⟩, ⟨0, 25, 34, 50⟩, ⟨34, 0, 68, 25⟩, ⟨34, 25, 68, 50⟩, ⟨68, 0, 102, 25⟩, ⟨68, 25, 102, 50⟩] := by decide +kernel

/-- C97 fails: a new window with 4 by 2 cells has the numbers of rows and columns exchanged and covers half of the frame. -/
theorem C97_violated : let g := start (8 : ℚ) 4 50 (0, 0) (4, 2)
    Spec.InFrame g (300, 100) ∧ ∀ b ∈ g.cells, ¬ Spec.InBox b (300, 100) := by
  unfold Spec.InFrame Spec.InBox
  decide +kernel

/-- C98, what holds: a rectangle is accepted only if it is smaller than the frame in both directions; a circle only if its radius is
smaller than the width.
Missing: the height and the diameter of a circle (`C98_violated`). -/
theorem C98_partial (g : Win K) (s : Shape K) (h : g.sizeOk s = true) :
    (∀ a b, s = .rect a b → (Spec.extent s).1 * g.m < g.widthPx ∧ (Spec.extent s).2 * g.m < g.heightPx ∧ 0 < a ∧ 0 < b) ∧
      (∀ r, s = .circle r → g.widthPx ≠ 0 → (Spec.extent s).1 * g.m < 2 * g.widthPx ∧ 0 < r) := by
  constructor
  · rintro a b rfl
    simp only [Win.sizeOk, Bool.and_eq_true, Bool.not_eq_eq_eq_not, Bool.not_true, decide_eq_false_iff_not, not_le,
      Bool.or_eq_false_iff] at h
    exact ⟨h.1.2, h.2, h.1.1.1, h.1.1.2⟩
  · rintro r rfl hw
    simp only [Win.sizeOk, Bool.and_eq_true, Bool.not_eq_eq_eq_not, Bool.not_true, decide_eq_false_iff_not, not_le,
      ne_eq, hw, not_false_eq_true, if_true] at h
    refine ⟨?_, h.1⟩
    simp only [Spec.extent]
    linarith [h.2]

example : (start (8 : ℚ) 4 50 (0, 0) (4, 2)).sizeOk (.rect 7 3) = true ∧ (start (8 : ℚ) 4 50 (0, 0) (4, 2)).sizeOk (.rect 7 4) = false ∧
    (start (8 : ℚ) 4 50 (0, 0) (4, 2)).sizeOk (.circle 9) = false := by decide +kernel

/-- C98 fails: in a frame of 20 by 2 meter a circle with radius 5 is accepted, though it is five times as high as the frame
(`frame_width_px or frame_height_px` is the width). -/
theorem C98_violated : let g := start (20 : ℚ) 2 50 (0, 0) (20, 20)
    g.sizeOk (.circle 5) = true ∧ (g.make (100, 50) (.circle 5)).obstacles.length = 1 ∧
      ¬ (Spec.extent (.circle (5 : ℚ))).2 * g.m < g.heightPx := by
  unfold Spec.extent
  decide +kernel

/-- C99, what holds: with a margin that fits in the frame, points on or outside the border come back with the margin between them and
the border; points that had it stay where they are; and no point is on or outside the border.
Missing: points inside the border but closer than the margin (`C99_violated`). -/
theorem C99_partial (margin size c : K) (hm : 0 < margin) (hs : 101 / 100 * margin + margin ≤ size) :
    ((c ≤ 0 ∨ size ≤ c) → Spec.Clear margin size (clampCoord margin size c)) ∧
      (Spec.Clear margin size c → clampCoord margin size c = c) ∧
      0 < clampCoord margin size c ∧ clampCoord margin size c < size := by
  unfold Spec.Clear clampCoord
  refine ⟨fun h => ?_, fun h => ?_, ?_, ?_⟩
  · rcases h with h | h
    · rw [if_pos h]; constructor <;> linarith
    · rw [if_neg (by linarith), if_pos h]; constructor <;> linarith
  · rw [if_neg (by linarith), if_neg (by linarith)]
  · split_ifs <;> linarith
  · split_ifs <;> linarith

example : clampCoord (1/2 : ℚ) 8 9 = 1499/200 ∧ clampCoord (1/2 : ℚ) 8 3 = 3 := by norm_num [clampCoord]

/-- C99, what holds, for the positions that are handed out: with a margin that fits in the frame in both directions, none of them is on or
outside the border, and each one that was clear of the border is handed out unchanged. -/
theorem C99_clicked_partial (g : Win K) (margin : K) (hm : 0 < margin) (hw : 101 / 100 * margin + margin ≤ g.widthM)
    (hh : 101 / 100 * margin + margin ≤ g.heightM) :
    (g.getClicked (some margin)).length = g.clicked.length ∧ g.getClicked none = g.clicked ∧
      (∀ p ∈ g.getClicked (some margin), 0 < p.1 ∧ p.1 < g.widthM ∧ 0 < p.2 ∧ p.2 < g.heightM) ∧
      ∀ i (h : i < g.clicked.length), Spec.Clear margin g.widthM g.clicked[i].1 → Spec.Clear margin g.heightM g.clicked[i].2 →
        (g.getClicked (some margin))[i]? = some g.clicked[i] := by
  refine ⟨by simp [Win.getClicked], rfl, ?_, ?_⟩
  · intro p hp
    obtain ⟨c, -, rfl⟩ := List.mem_map.1 hp
    have h1 := (C99_partial margin g.widthM c.1 hm hw).2.2
    have h2 := (C99_partial margin g.heightM c.2 hm hh).2.2
    exact ⟨h1.1, h1.2, h2.1, h2.2⟩
  · intro i h c1 c2
    have h1 := (C99_partial margin g.widthM g.clicked[i].1 hm hw).2.1 c1
    have h2 := (C99_partial margin g.heightM g.clicked[i].2 hm hh).2.1 c2
    simp only [Win.getClicked, List.getElem?_map, List.getElem?_eq_getElem h, Option.map_some, h1, h2]

example : ((start (8 : ℚ) 4 100 (0, 0) (20, 20)).run [.rightClick (600, 300), .rightClick (400, 500)]).getClicked (some (1/2))
    = [(6, 1), (4, 101/200)] := by decide +kernel

/-- C99 fails: a start clicked at a tenth of the margin from the border is not moved. -/
theorem C99_violated : let g := (start (8 : ℚ) 8 100 (0, 0) (20, 20)).run [.rightClick (5, 400), .rightClick (400, 400)]
    g.getClicked (some (1/2)) = [(1/20, 4), (4, 4)] ∧ ¬ Spec.Clear (1/2) g.widthM (1/20) := by
  unfold Spec.Clear
  decide +kernel

end Properties

end Verif.Gui
