import Verif.Frames.Corridor
import Mathlib.Tactic.FieldSimp
import Mathlib.Tactic.Ring

/-! # Reachable waypoints, shifted frames and the closest waypoint (C73, C75-C77)

Mirrors `omgtools/environment/frame.py:179-517`.  Distances between points are compared by their squares. -/

set_option linter.unusedSectionVars false

namespace Verif.Frames

variable {K : Type} [Field K] [LinearOrder K] [IsStrictOrderedRing K]

/-! ## Model -/

/-- The distance from a point to the line through `v` and `w` as computed in frame.py:197-204, for a line parallel to an axis (the
square root of the sum of a square and of zero is the absolute value). -/
def lineDist (p v w : K × K) : K :=
  |(w.2 - v.2) * p.1 - (w.1 - v.1) * p.2 + w.1 * v.2 - w.2 * v.1| / (|w.2 - v.2| + |w.1 - v.1|)

/-- `distance_to_border`, frame.py:179-210. -/
def distToBorder (f : Lim K) (p : K × K) : K × K :=
  let v1 := (f.xmin, f.ymin)
  let v2 := (f.xmin, f.ymax)
  let v3 := (f.xmax, f.ymax)
  let v4 := (f.xmax, f.ymin)
  let dist12 := -lineDist p v1 v2
  let dist23 := lineDist p v2 v3
  let dist34 := lineDist p v3 v4
  let dist41 := -lineDist p v4 v1
  (if |dist12| < |dist34| then dist12 else dist34, if |dist23| < |dist41| then dist23 else dist41)

/-- `point_in_rectangle(..., xy_check=True)`, geometry.py:169-186. -/
def inRectXY (f : Lim K) (p : K × K) : Bool × Bool :=
  (decide (f.xmin ≤ p.1 ∧ p.1 ≤ f.xmax), decide (f.ymin ≤ p.2 ∧ p.2 ≤ f.ymax))

/-- `point_in_rectangle`, geometry.py:187-191. -/
def inRect (f : Lim K) (p : K × K) : Bool := (inRectXY f p).1 && (inRectXY f p).2

/-- `make_last_waypoint_reachable(method='move_frame')`, frame.py:220-251, for the last waypoint `w`. -/
def moveBorder (veh margin : K) (f : Lim K) (w : K × K) : Lim K :=
  let ins := inRect f w
  let d := distToBorder f w
  let f := if |d.1| ≤ veh then
      let m := if !ins then |d.1| + veh * margin else -|d.1| + veh * margin
      if d.1 ≤ 0 then { f with xmin := f.xmin - m } else { f with xmax := f.xmax + m }
    else f
  if |d.2| ≤ veh then
    let m := if !ins then |d.2| + veh * margin else -|d.2| + veh * margin
    if d.2 ≤ 0 then { f with ymin := f.ymin - m } else { f with ymax := f.ymax + m }
  else f

/-- The test of the `while` loop, frame.py:259-264. -/
def farEnough (veh : K) (f : Lim K) (p : K × K) : Bool :=
  inRect f p && !(decide (|(distToBorder f p).1| ≤ veh) || decide (|(distToBorder f p).2| ≤ veh))

/-- The `while` loop, frame.py:257-264, over the waypoints before the last one, last one first: the waypoint found and those before
it; `none` stands for the `IndexError`. -/
def findReachable (veh : K) (f : Lim K) : List (K × K) → Option ((K × K) × List (K × K))
  | [] => none
  | p :: rest => if farEnough veh f p then some (p, rest) else findReachable veh f rest

/-- frame.py:275-292: the problem lies in the x-direction.  The new point with the test and the distance for the y-direction. -/
def fixX (veh margin : K) (f : Lim K) (r w : K × K) : Option (K × K) × Bool × K :=
  let ins := inRectXY f w
  let d := distToBorder f w
  if !ins.1 || decide (|d.1| < veh) then
    let x := if d.1 ≤ 0 then f.xmin + veh * margin else f.xmax - veh * margin
    let y := if r.2 = w.2 then r.2 else (x - r.1) * ((w.2 - r.2) / (w.1 - r.1)) + r.2
    (some (x, y), (inRectXY f (x, y)).2, (distToBorder f (x, y)).2)
  else (none, ins.2, d.2)

/-- frame.py:293-309: the problem lies in the y-direction. -/
def fixY (veh margin : K) (f : Lim K) (r w : K × K) (q : Option (K × K) × Bool × K) : K × K :=
  if !q.2.1 || decide (|q.2.2| < veh) then
    let y := if q.2.2 ≤ 0 then f.ymin + veh * margin else f.ymax - veh * margin
    let x := if r.1 = w.1 then r.1 else (y - r.2) * ((w.1 - r.1) / (w.2 - r.2)) + r.1
    (x, y)
  else q.1.getD w

/-- `make_last_waypoint_reachable(method='move_point')`, frame.py:252-314, for the waypoints in reverse order; `none` stands for the
`IndexError`. -/
def movePoint (veh margin : K) (f : Lim K) : List (K × K) → Option (List (K × K))
  | [] => none
  | w :: before =>
    let d := distToBorder f w
    if !inRect f w || (decide (|d.1| ≤ veh * margin) || decide (|d.2| ≤ veh * margin)) then do
      let (r, rest) ← findReachable veh f before
      some (fixY veh margin f r w (fixX veh margin f r w) :: r :: rest)
    else some (w :: before)

/-- `distance_between_points`, geometry.py:23-30, squared. -/
def distSq (p q : K × K) : K := (q.1 - p.1) ^ 2 + (q.2 - p.2) ^ 2

/-- The loop of `find_closest_waypoint`, frame.py:358-363: `k` is the index of the next point, `dist` the squared distance and `i` the
index so far. -/
def closestLoop (pos : K × K) : List (K × K) → ℕ → K → ℕ → ℕ
  | [], _, _, i => i
  | p :: rest, k, dist, i => if distSq p pos < dist then closestLoop pos rest (k + 1) (distSq p pos) k else closestLoop pos rest (k + 1) dist i

/-- `find_closest_waypoint`, frame.py:346-364, for a room of the given width and height: the index; `none` stands for the
`IndexError`. -/
def findClosest (width height : K) (pos : K × K) (ws : List (K × K)) : Option ℕ :=
  if ws = [] then none else some (closestLoop pos ws 0 (max width height ^ 2) 0)

/-! ## Model: shifted frames -/

/-- The options of a shifted frame. -/
structure ShiftOpt (K : Type) where
  size : K
  limit : K
  veh : K
  margin : K

/-- One direction of `move_frame`, frame.py:472-485: how far the frame reaches below and above the start position. -/
def ShiftOpt.reach (o : ShiftOpt K) (delta : K) : K × K :=
  if |delta| > o.size * (1 / 2) then
    let move := min o.limit (|delta| - o.size * (1 / 2) + o.veh * o.margin)
    if delta > 0 then (o.size * (1 / 2) - move, o.size * (1 / 2) + move) else (o.size * (1 / 2) + move, o.size * (1 / 2) - move)
  else (o.size * (1 / 2), o.size * (1 / 2))

/-- `move_frame`, frame.py:466-517. -/
def ShiftOpt.moveFrame (o : ShiftOpt K) (room : Lim K) (start delta : K × K) : Lim K :=
  let x := o.reach delta.1
  let y := o.reach delta.2
  { xmin := if start.1 - x.1 < room.xmin then room.xmin else start.1 - x.1
    ymin := if start.2 - y.1 < room.ymin then room.ymin else start.2 - y.1
    xmax := if start.1 + x.2 > room.xmax then room.xmax else start.1 + x.2
    ymax := if start.2 + y.2 > room.ymax then room.ymax else start.2 + y.2 }

/-- The variables of the constructor after the loop over the path. -/
structure Scan (K : Type) where
  /-- a waypoint outside the frame even after shifting -/
  waypoint : Option (K × K)
  endpoint : Option (K × K)
  inFrame : List (K × K)
  /-- `delta_x`, `delta_y`; `none`: not assigned -/
  delta : Option (K × K)

/-- The loop over the path, frame.py:390-412. -/
def scan (o : ShiftOpt K) (start goal : K × K) : List (K × K) → Scan K → Scan K
  | [], s => s
  | p :: rest, s =>
    if !pointIn (around start (o.size * (1 / 2))) p 0 then
      let delta := (p.1 - start.1, p.2 - start.2)
      if |delta.1| > o.limit + o.size * (1 / 2) ∨ |delta.2| > o.limit + o.size * (1 / 2) then
        { s with waypoint := some p, delta := some delta }
      else if p = goal then scan o start goal rest { s with endpoint := some p, delta := some delta }
      else scan o start goal rest { s with inFrame := s.inFrame ++ [p], delta := some delta }
    else scan o start goal rest { s with inFrame := s.inFrame ++ [p] }

/-- The attributes of a shifted frame; a waypoint can be Python's `None`, the endpoint `[]` (here `none`). -/
structure Shifted (K : Type) where
  border : Lim K
  waypoints : List (Option (K × K))
  endpoint : Option (K × K)
  deriving DecidableEq

/-- The constructor of `ShiftFrame`, frame.py:366-464, without the obstacles; `none` stands for the exceptions.  The branch for
"`self.endpoint is not None`" is always taken, because `self.endpoint` is `[]`. -/
def shiftFrame (o : ShiftOpt K) (room : Lim K) (start : K × K) (path : List (K × K)) : Option (Shifted K) := do
  let goal ← path.getLast?
  let i ← findClosest (room.xmax - room.xmin) (room.ymax - room.ymin) start path
  let s := scan o start goal (path.drop i) ⟨none, none, [], none⟩
  let delta ← s.delta
  let border := o.moveFrame room start delta
  match s.waypoint with
  | some w =>
    let ws ← movePoint o.veh o.margin border (w :: s.inFrame.reverse)
    some { border := border, waypoints := (ws.reverse.map some) ++ [s.endpoint], endpoint := ws.head? }
  | none =>
    let e ← s.endpoint
    some { border := moveBorder o.veh o.margin border e, waypoints := (s.inFrame.map some) ++ [some e, some e], endpoint := none }

/-! ## Specification -/

/-- A point in the rectangle at a distance of at least `d` from every side. -/
def Spec.Deep (f : Lim K) (d : K) (p : K × K) : Prop := f.xmin + d ≤ p.1 ∧ p.1 ≤ f.xmax - d ∧ f.ymin + d ≤ p.2 ∧ p.2 ≤ f.ymax - d

/-- A rectangle with an interior. -/
def Spec.Proper (f : Lim K) : Prop := f.xmin < f.xmax ∧ f.ymin < f.ymax

/-! ## Lemmas -/

theorem lineDist_vertical {x a b : K} (h : a ≠ b) (p : K × K) : lineDist p (x, a) (x, b) = |p.1 - x| := by
  have hne : |b - a| ≠ 0 := by simpa [sub_eq_zero] using fun e => h e.symm
  simp only [lineDist, sub_self, abs_zero, add_zero, zero_mul, sub_zero]
  rw [show (b - a) * p.1 + x * a - b * x = (b - a) * (p.1 - x) by ring, abs_mul, mul_div_assoc, mul_comm, div_mul_cancel₀ _ hne]

theorem lineDist_horizontal {y a b : K} (h : a ≠ b) (p : K × K) : lineDist p (a, y) (b, y) = |p.2 - y| := by
  have hne : |b - a| ≠ 0 := by simpa [sub_eq_zero] using fun e => h e.symm
  simp only [lineDist, sub_self, abs_zero, zero_add, zero_mul, zero_sub]
  rw [show -((b - a) * p.2) + b * y - y * a = -((b - a) * (p.2 - y)) by ring, abs_neg, abs_mul, mul_div_assoc, mul_comm,
    div_mul_cancel₀ _ hne]

/-- The distance in one direction: to the lower side, negative, if this is nearer (`strict`: than the other one), else to the upper. -/
theorem distToBorder_eq {f : Lim K} (h : Spec.Proper f) (p : K × K) :
    distToBorder f p = (if |p.1 - f.xmin| < |p.1 - f.xmax| then -|p.1 - f.xmin| else |p.1 - f.xmax|,
      if |p.2 - f.ymax| < |p.2 - f.ymin| then |p.2 - f.ymax| else -|p.2 - f.ymin|) := by
  simp only [distToBorder, lineDist_vertical h.2.ne, lineDist_vertical h.2.ne', lineDist_horizontal h.1.ne, lineDist_horizontal h.1.ne',
    abs_neg, abs_abs]

theorem closestLoop_spec (pos : K × K) (ws : List (K × K)) (k : ℕ) (dist : K) (i : ℕ) :
    (closestLoop pos ws k dist i = i ∧ ∀ p ∈ ws, dist ≤ distSq p pos) ∨
    (∃ j p, closestLoop pos ws k dist i = k + j ∧ ws[j]? = some p ∧ distSq p pos < dist ∧ (∀ q ∈ ws, distSq p pos ≤ distSq q pos) ∧
      ∀ q ∈ ws.take j, distSq p pos < distSq q pos) := by
  induction ws generalizing k dist i with
  | nil => left; simp [closestLoop]
  | cons w rest ih =>
    unfold closestLoop
    by_cases h : distSq w pos < dist
    · rw [if_pos h]
      right
      rcases ih (k + 1) (distSq w pos) k with ⟨a, b⟩ | ⟨j, p, a, b, c, d, e⟩
      · exact ⟨0, w, by simpa using a, by simp, h, by simpa using b, by simp⟩
      · refine ⟨j + 1, p, by rw [a]; omega, by simpa using b, c.trans h, ?_, ?_⟩
        · intro q hq
          rcases List.mem_cons.1 hq with rfl | hq
          · exact c.le
          · exact d q hq
        · intro q hq
          rw [List.take_succ_cons] at hq
          rcases List.mem_cons.1 hq with rfl | hq
          · exact c
          · exact e q hq
    · rw [if_neg h]
      rcases ih (k + 1) dist i with ⟨a, b⟩ | ⟨j, p, a, b, c, d, e⟩
      · left
        refine ⟨a, ?_⟩
        intro q hq
        rcases List.mem_cons.1 hq with rfl | hq
        · exact not_lt.1 h
        · exact b q hq
      · right
        refine ⟨j + 1, p, by rw [a]; omega, by simpa using b, c, ?_, ?_⟩
        · intro q hq
          rcases List.mem_cons.1 hq with rfl | hq
          · exact (c.trans_le (not_lt.1 h)).le
          · exact d q hq
        · intro q hq
          rw [List.take_succ_cons] at hq
          rcases List.mem_cons.1 hq with rfl | hq
          · exact c.trans_le (not_lt.1 h)
          · exact e q hq

/-- One direction of the move of a waypoint: the new coordinate is between the reachable and the unreachable one.  `low` tells
which side is nearer. -/
theorem side_between {lo hi v D r w : K} (hv : 0 < v) (hvD : v ≤ D) (hr : lo + D ≤ r ∧ r ≤ hi - D) (hne : w ≠ hi)
    (hprob : ¬(lo ≤ w ∧ w ≤ hi) ∨ min |w - lo| |w - hi| < v) {d : K}
    (hd : d = -|w - lo| ∧ |w - lo| ≤ |w - hi| ∨ d = |w - hi| ∧ |w - hi| ≤ |w - lo|) :
    w ≠ r ∧ ∃ t, 0 ≤ t ∧ t ≤ 1 ∧ (if d ≤ 0 then lo + D else hi - D) = r + t * (w - r) := by
  have mk : ∀ x, (w < x ∧ x ≤ r ∨ x < w ∧ r ≤ x) → w ≠ r ∧ ∃ t, 0 ≤ t ∧ t ≤ 1 ∧ x = r + t * (w - r) := by
    intro x hx
    have hwr : w ≠ r := by
      rcases hx with h | h
      · exact (h.1.trans_le h.2).ne
      · exact (h.2.trans_lt h.1).ne'
    have h0 : w - r ≠ 0 := sub_ne_zero.2 hwr
    refine ⟨hwr, (x - r) / (w - r), ?_, ?_, by field_simp; ring⟩
    · rcases hx with h | h
      · exact div_nonneg_of_nonpos (by linarith) (by linarith)
      · exact div_nonneg (by linarith) (by linarith)
    · rcases hx with h | h
      · rw [div_le_one_of_neg (by linarith)]; linarith
      · rw [div_le_one (by linarith)]; linarith
  have hcase : (|w - lo| ≤ |w - hi| → w < lo + D) ∧ (|w - hi| ≤ |w - lo| → hi - D < w) := by
    constructor
    · intro h
      rcases hprob with hp | hp
      · by_contra hc
        push Not at hc
        have : hi < w := by
          by_contra h'; exact hp ⟨by linarith, not_lt.1 h'⟩
        rw [abs_of_nonneg (by linarith), abs_of_nonneg (by linarith)] at h
        linarith
      · rw [min_eq_left h, abs_lt] at hp
        linarith
    · intro h
      rcases hprob with hp | hp
      · by_contra hc
        push Not at hc
        have : w < lo := by
          by_contra h'; exact hp ⟨not_lt.1 h', by linarith⟩
        rw [abs_of_nonpos (by linarith), abs_of_nonpos (by linarith)] at h
        linarith
      · rw [min_eq_right h, abs_lt] at hp
        linarith
  rcases hd with ⟨rfl, h⟩ | ⟨rfl, h⟩
  · rw [if_pos (by simp)]
    exact mk _ (.inl ⟨hcase.1 h, hr.1⟩)
  · rw [if_neg (by simpa [sub_eq_zero] using hne)]
    exact mk _ (.inr ⟨hcase.2 h, hr.2⟩)

theorem deep_of_dist {f : Lim K} (h : Spec.Proper f) {p : K × K} {v : K} (hin : inRect f p = true) (h1 : v ≤ |(distToBorder f p).1|)
    (h2 : v ≤ |(distToBorder f p).2|) : Spec.Deep f v p := by
  have hd := distToBorder_eq h p
  simp only [inRect, inRectXY, Bool.and_eq_true, decide_eq_true_eq] at hin
  have e1 : |(distToBorder f p).1| ≤ |p.1 - f.xmin| ∧ |(distToBorder f p).1| ≤ |p.1 - f.xmax| := by
    rw [hd]; simp only; split
    · rename_i hh; rw [abs_neg, abs_abs]; exact ⟨le_rfl, hh.le⟩
    · rename_i hh; rw [abs_abs]; exact ⟨not_lt.1 hh, le_rfl⟩
  have e2 : |(distToBorder f p).2| ≤ |p.2 - f.ymin| ∧ |(distToBorder f p).2| ≤ |p.2 - f.ymax| := by
    rw [hd]; simp only; split
    · rename_i hh; rw [abs_abs]; exact ⟨hh.le, le_rfl⟩
    · rename_i hh; rw [abs_neg, abs_abs]; exact ⟨le_rfl, not_lt.1 hh⟩
  rw [abs_of_nonneg (by linarith [hin.1.1] : (0 : K) ≤ p.1 - f.xmin), abs_of_nonpos (by linarith [hin.1.2] : p.1 - f.xmax ≤ 0)] at e1
  rw [abs_of_nonneg (by linarith [hin.2.1] : (0 : K) ≤ p.2 - f.ymin), abs_of_nonpos (by linarith [hin.2.2] : p.2 - f.ymax ≤ 0)] at e2
  exact ⟨by linarith, by linarith, by linarith, by linarith⟩

theorem findReachable_spec {veh : K} {f : Lim K} {l : List (K × K)} {r : K × K} {rest : List (K × K)}
    (h : findReachable veh f l = some (r, rest)) : farEnough veh f r = true ∧ (r :: rest) <:+ l := by
  induction l with
  | nil => simp [findReachable] at h
  | cons p l ih =>
    unfold findReachable at h
    split at h
    · rename_i hh
      simp only [Option.some.injEq, Prod.mk.injEq] at h
      obtain ⟨rfl, rfl⟩ := h
      exact ⟨hh, List.suffix_rfl⟩
    · exact ⟨(ih h).1, (ih h).2.trans (List.suffix_cons _ _)⟩

theorem between_bounds {a b lo hi t : K} (h0 : 0 ≤ t) (h1 : t ≤ 1) (ha : lo ≤ a ∧ a ≤ hi) (hb : lo ≤ b ∧ b ≤ hi) :
    lo ≤ a + t * (b - a) ∧ a + t * (b - a) ≤ hi := by
  have e : a + t * (b - a) = (1 - t) * a + t * b := by ring
  rw [e]
  constructor
  · nlinarith [mul_nonneg (sub_nonneg.2 h1) (sub_nonneg.2 ha.1), mul_nonneg h0 (sub_nonneg.2 hb.1)]
  · nlinarith [mul_nonneg (sub_nonneg.2 h1) (sub_nonneg.2 ha.2), mul_nonneg h0 (sub_nonneg.2 hb.2)]

/-- The point at the fraction `t` of the way from `r` to `w`. -/
def Spec.along (r w : K × K) (t : K) : K × K := (r.1 + t * (w.1 - r.1), r.2 + t * (w.2 - r.2))

/-- The unreachable waypoint is not exactly on the right or the upper side, nor does the way to it cross the upper side exactly at
the distance `D` from the left or the right side. -/
def Spec.Clean (f : Lim K) (D : K) (r w : K × K) : Prop :=
  w.1 ≠ f.xmax ∧ w.2 ≠ f.ymax ∧ ∀ t, 0 ≤ t → t ≤ 1 → ((Spec.along r w t).1 = f.xmin + D ∨ (Spec.along r w t).1 = f.xmax - D) →
    (Spec.along r w t).2 ≠ f.ymax

theorem fix_spec {veh margin : K} {f : Lim K} {r w : K × K} (hf : Spec.Proper f) (hv : 0 < veh) (hm : 1 ≤ margin)
    (hr : Spec.Deep f (veh * margin) r) (hc : Spec.Clean f (veh * margin) r w) :
    ∃ t, 0 ≤ t ∧ t ≤ 1 ∧ fixY veh margin f r w (fixX veh margin f r w) = Spec.along r w t ∧ Spec.Deep f veh (Spec.along r w t) := by
  have hvD : veh ≤ veh * margin := by nlinarith
  obtain ⟨c1, c2, c3⟩ := hc
  obtain ⟨r1, r2, r3, r4⟩ := hr
  generalize hD : veh * margin = D at *
  have dx : ∀ p : K × K, (distToBorder f p).1 = -|p.1 - f.xmin| ∧ |p.1 - f.xmin| ≤ |p.1 - f.xmax| ∨
      (distToBorder f p).1 = |p.1 - f.xmax| ∧ |p.1 - f.xmax| ≤ |p.1 - f.xmin| := by
    intro p
    rw [distToBorder_eq hf]
    simp only
    split
    · rename_i hh; exact .inl ⟨rfl, hh.le⟩
    · rename_i hh; exact .inr ⟨rfl, not_lt.1 hh⟩
  have dy : ∀ p : K × K, (distToBorder f p).2 = -|p.2 - f.ymin| ∧ |p.2 - f.ymin| ≤ |p.2 - f.ymax| ∨
      (distToBorder f p).2 = |p.2 - f.ymax| ∧ |p.2 - f.ymax| ≤ |p.2 - f.ymin| := by
    intro p
    rw [distToBorder_eq hf]
    simp only
    split
    · rename_i hh; exact .inr ⟨rfl, hh.le⟩
    · rename_i hh; exact .inl ⟨rfl, not_lt.1 hh⟩
  have ax : ∀ p : K × K, |(distToBorder f p).1| = min |p.1 - f.xmin| |p.1 - f.xmax| := by
    intro p
    rcases dx p with ⟨h, h'⟩ | ⟨h, h'⟩
    · rw [h, abs_neg, abs_abs, min_eq_left h']
    · rw [h, abs_abs, min_eq_right h']
  have ay : ∀ p : K × K, |(distToBorder f p).2| = min |p.2 - f.ymin| |p.2 - f.ymax| := by
    intro p
    rcases dy p with ⟨h, h'⟩ | ⟨h, h'⟩
    · rw [h, abs_neg, abs_abs, min_eq_left h']
    · rw [h, abs_abs, min_eq_right h']
  -- the second fix, for a point on the way
  have second : ∀ s, 0 ≤ s → s ≤ 1 → (Spec.along r w s).2 ≠ f.ymax →
      (f.xmin + veh ≤ (Spec.along r w s).1 ∧ (Spec.along r w s).1 ≤ f.xmax - veh) → ∀ o : Option (K × K),
      o.getD w = Spec.along r w s →
      ∃ t, 0 ≤ t ∧ t ≤ 1 ∧ fixY veh margin f r w (o, (inRectXY f (Spec.along r w s)).2, (distToBorder f (Spec.along r w s)).2) =
        Spec.along r w t ∧ Spec.Deep f veh (Spec.along r w t) := by
    intro s s0 s1 hne hx o ho
    unfold fixY
    simp only
    by_cases hp : (!(inRectXY f (Spec.along r w s)).2 || decide (|(distToBorder f (Spec.along r w s)).2| < veh)) = true
    · rw [if_pos hp]
      have hp' : ¬(f.ymin ≤ (Spec.along r w s).2 ∧ (Spec.along r w s).2 ≤ f.ymax) ∨
          min |(Spec.along r w s).2 - f.ymin| |(Spec.along r w s).2 - f.ymax| < veh := by
        rw [Bool.or_eq_true] at hp
        rcases hp with hp | hp
        · left; simpa only [inRectXY, Bool.not_eq_true', decide_eq_false_iff_not] using hp
        · right; rw [← ay]; simpa using hp
      obtain ⟨e1, u, u0, u1, eu⟩ := side_between hv hvD ⟨r3, r4⟩ hne hp' (dy _)
      rw [hD, eu]
      have e2 : (Spec.along r w s).2 - r.2 = s * (w.2 - r.2) := by simp [Spec.along]
      have e3 : w.2 - r.2 ≠ 0 := by
        intro h; rw [h, mul_zero, sub_eq_zero] at e2; exact e1 e2
      have hux : (if r.1 = w.1 then r.1 else (r.2 + u * ((Spec.along r w s).2 - r.2) - r.2) * ((w.1 - r.1) / (w.2 - r.2)) + r.1) =
          r.1 + (u * s) * (w.1 - r.1) := by
        split
        · rename_i h; rw [h]; ring
        · rw [e2]; field_simp; ring
      rw [hux]
      refine ⟨u * s, mul_nonneg u0 s0, by nlinarith, ?_, ?_⟩
      · simp only [Spec.along, Prod.mk.injEq]; exact ⟨trivial, by ring⟩
      · have bx := between_bounds (a := r.1) (lo := f.xmin + veh) (hi := f.xmax - veh) u0 u1 ⟨by linarith, by linarith⟩ hx
        have ex : (Spec.along r w (u * s)).1 = r.1 + u * ((Spec.along r w s).1 - r.1) := by simp only [Spec.along]; ring
        have ey : (Spec.along r w (u * s)).2 = r.2 + u * ((Spec.along r w s).2 - r.2) := by simp only [Spec.along]; ring
        refine ⟨by rw [ex]; exact bx.1, by rw [ex]; exact bx.2, ?_⟩
        rw [ey, ← eu]
        split <;> constructor <;> linarith
    · rw [if_neg hp]
      refine ⟨s, s0, s1, ho, ?_⟩
      simp only [Bool.or_eq_true, not_or, Bool.not_eq_true', Bool.not_eq_false, decide_eq_true_eq, not_lt, inRectXY] at hp
      have hp2 := hp.2
      rw [ay, le_min_iff, abs_of_nonneg (by linarith [hp.1.1]), abs_of_nonpos (by linarith [hp.1.2])] at hp2
      exact ⟨hx.1, hx.2, by linarith [hp2.1], by linarith [hp2.2]⟩
  by_cases hp : (!(inRectXY f w).1 || decide (|(distToBorder f w).1| < veh)) = true
  · have hp' : ¬(f.xmin ≤ w.1 ∧ w.1 ≤ f.xmax) ∨ min |w.1 - f.xmin| |w.1 - f.xmax| < veh := by
      rw [Bool.or_eq_true] at hp
      rcases hp with hp | hp
      · left; simpa only [inRectXY, Bool.not_eq_true', decide_eq_false_iff_not] using hp
      · right; rw [← ax]; simpa using hp
    obtain ⟨e1, t, t0, t1, et⟩ := side_between hv hvD ⟨r1, r2⟩ c1 hp' (dx _)
    have e3 : w.1 - r.1 ≠ 0 := sub_ne_zero.2 e1
    have hfx : fixX veh margin f r w = (some (Spec.along r w t), (inRectXY f (Spec.along r w t)).2, (distToBorder f (Spec.along r w t)).2) := by
      unfold fixX
      simp only
      rw [if_pos hp, hD, et]
      have hy : (if r.2 = w.2 then r.2 else (r.1 + t * (w.1 - r.1) - r.1) * ((w.2 - r.2) / (w.1 - r.1)) + r.2) = r.2 + t * (w.2 - r.2) := by
        split
        · rename_i h; rw [h]; ring
        · field_simp; ring
      rw [hy]
      rfl
    rw [hfx]
    have hxt : (Spec.along r w t).1 = f.xmin + D ∨ (Spec.along r w t).1 = f.xmax - D := by
      simp only [Spec.along]
      rw [← et]
      split
      · exact .inl rfl
      · exact .inr rfl
    refine second t t0 t1 (c3 t t0 t1 hxt) ?_ _ rfl
    rcases hxt with h | h <;> rw [h] <;> constructor <;> linarith
  · have hw : w = Spec.along r w 1 := by simp [Spec.along]
    have hfx : fixX veh margin f r w = (none, (inRectXY f (Spec.along r w 1)).2, (distToBorder f (Spec.along r w 1)).2) := by
      unfold fixX
      simp only
      rw [if_neg hp, ← hw]
    rw [hfx]
    refine second 1 zero_le_one le_rfl (by rw [← hw]; exact c2) ?_ none (by rw [← hw]; rfl)
    rw [← hw]
    simp only [Bool.or_eq_true, not_or, Bool.not_eq_true', Bool.not_eq_false, decide_eq_true_eq, not_lt, inRectXY] at hp
    have hp2 := hp.2
    rw [ax, le_min_iff, abs_of_nonneg (by linarith [hp.1.1]), abs_of_nonpos (by linarith [hp.1.2])] at hp2
    exact ⟨by linarith [hp2.1], by linarith [hp2.2]⟩

/-! ## Properties -/

/-- C75: after the last waypoint has been made reachable by moving it, it is in the frame, at least the size of the vehicle away from
every side, and on the way from a waypoint to the old last one; the other waypoints are among the old ones.  Under the guard that
the waypoints farther than the size of the vehicle from the border are farther than this size with the margin, and that no point
lies exactly on the right or the upper side. -/
theorem C75_point_partial {veh margin : K} {f : Lim K} {w : K × K} {before ws : List (K × K)} (hf : Spec.Proper f) (hv : 0 < veh)
    (hm : 1 ≤ margin) (h : movePoint veh margin f (w :: before) = some ws)
    (hdeep : ∀ p ∈ before, Spec.Deep f veh p → Spec.Deep f (veh * margin) p) (hc : ∀ p ∈ before, Spec.Clean f (veh * margin) p w) :
    ∃ q rest, ws = q :: rest ∧ Spec.Deep f veh q ∧ rest <:+ before ∧
      (q = w ∨ ∃ r ∈ rest.head?, Spec.Deep f veh r ∧ ∃ t, 0 ≤ t ∧ t ≤ 1 ∧ q = Spec.along r w t) := by
  unfold movePoint at h
  simp only at h
  split at h
  · rename_i hh
    rw [Option.bind_eq_bind, Option.bind_eq_some_iff] at h
    obtain ⟨⟨r, rest⟩, e1, e2⟩ := h
    simp only [Option.some.injEq] at e2
    obtain ⟨h1, h2⟩ := findReachable_spec e1
    have hr : r ∈ before := h2.subset List.mem_cons_self
    have hrd : Spec.Deep f veh r := by
      simp only [farEnough, Bool.and_eq_true, Bool.not_eq_true', Bool.or_eq_false_iff, decide_eq_false_iff_not, not_le] at h1
      exact deep_of_dist hf h1.1 h1.2.1.le h1.2.2.le
    obtain ⟨t, t0, t1, e3, e4⟩ := fix_spec (w := w) hf hv hm (hdeep r hr hrd) (hc r hr)
    rw [e3] at e2
    exact ⟨_, _, e2.symm, e4, h2, .inr ⟨r, by simp, hrd, t, t0, t1, rfl⟩⟩
  · rename_i hh
    simp only [Option.some.injEq] at h
    simp only [Bool.or_eq_true, not_or, Bool.not_eq_true', Bool.not_eq_false, decide_eq_true_eq, not_le] at hh
    have hvD : veh ≤ veh * margin := by nlinarith
    exact ⟨w, before, h.symm, deep_of_dist hf hh.1 (by linarith [hh.2.1]) (by linarith [hh.2.2]), List.suffix_rfl, .inl rfl⟩

/-- C75: the move succeeds if there is a waypoint far enough from the border; otherwise, if one is needed, an exception is raised. -/
theorem C75_point_total {veh margin : K} {f : Lim K} {w : K × K} {before : List (K × K)}
    (h : ∃ p ∈ before, farEnough veh f p = true) : ∃ ws, movePoint veh margin f (w :: before) = some ws := by
  obtain ⟨p, hp, hfar⟩ := h
  have : ∃ x, findReachable veh f before = some x := by
    induction before with
    | nil => simp at hp
    | cons a l ih =>
      unfold findReachable
      by_cases ha : farEnough veh f a = true
      · rw [if_pos ha]; exact ⟨_, rfl⟩
      · rw [if_neg ha]
        rcases List.mem_cons.1 hp with rfl | hp
        · exact absurd hfar ha
        · exact ih hp
  obtain ⟨x, hx⟩ := this
  unfold movePoint
  simp only
  split
  · rw [hx]; exact ⟨_, rfl⟩
  · exact ⟨_, rfl⟩

/-- C75: after the border has been moved, the frame contains the old one, and the last waypoint is at least the size of the vehicle
away from every side.  Under the guard that it was in the frame, not exactly on the right or the upper side, and the frame is not
narrower than twice this size. -/
theorem C75_frame_partial {veh margin : K} {f : Lim K} {w : K × K} (hv : 0 < veh) (hm : 1 ≤ margin) (hw : Spec.Inside f w)
    (h1 : w.1 ≠ f.xmax) (h2 : w.2 ≠ f.ymax) (hx : 2 * veh ≤ f.xmax - f.xmin) (hy : 2 * veh ≤ f.ymax - f.ymin) :
    Spec.Within f (moveBorder veh margin f w) ∧ Spec.Deep (moveBorder veh margin f w) veh w := by
  have hf : Spec.Proper f := ⟨by linarith, by linarith⟩
  have hvD : veh ≤ veh * margin := by nlinarith
  obtain ⟨i1, i2, i3, i4⟩ := hw
  have hin : inRect f w = true := by simp [inRect, inRectXY, i1, i2, i3, i4]
  have ux : |w.1 - f.xmin| = w.1 - f.xmin := abs_of_nonneg (by linarith)
  have vx : |w.1 - f.xmax| = f.xmax - w.1 := by rw [abs_of_nonpos (by linarith)]; ring
  have uy : |w.2 - f.ymin| = w.2 - f.ymin := abs_of_nonneg (by linarith)
  have vy : |w.2 - f.ymax| = f.ymax - w.2 := by rw [abs_of_nonpos (by linarith)]; ring
  have k1 : 0 < f.xmax - w.1 := by linarith [lt_of_le_of_ne i2 h1]
  have k2 : 0 < f.ymax - w.2 := by linarith [lt_of_le_of_ne i4 h2]
  unfold moveBorder
  simp only [hin, distToBorder_eq hf, ux, vx, uy, vy, Bool.not_true, Bool.false_eq_true, if_false]
  have a1 : |w.1 - f.xmin| = w.1 - f.xmin := ux
  generalize veh * margin = D at hvD ⊢
  have b1 : |-(w.1 - f.xmin)| = w.1 - f.xmin := by rw [abs_neg, ux]
  have b2 : |f.xmax - w.1| = f.xmax - w.1 := abs_of_pos k1
  have b3 : |-(w.2 - f.ymin)| = w.2 - f.ymin := by rw [abs_neg, uy]
  have b4 : |f.ymax - w.2| = f.ymax - w.2 := abs_of_pos k2
  by_cases c1 : w.1 - f.xmin < f.xmax - w.1 <;> by_cases c2 : f.ymax - w.2 < w.2 - f.ymin <;>
    simp only [c1, c2, if_true, if_false, b1, b2, b3, b4] <;>
    split <;> split <;> (try split) <;> (try split) <;>
    refine ⟨⟨?_, ?_, ?_, ?_⟩, ?_, ?_, ?_, ?_⟩ <;> linarith


/-- C75: `distance_to_border` has the distances to the nearest vertical and to the nearest horizontal side. -/
theorem C75_distance {f : Lim K} (h : Spec.Proper f) (p : K × K) :
    |(distToBorder f p).1| = min |p.1 - f.xmin| |p.1 - f.xmax| ∧ |(distToBorder f p).2| = min |p.2 - f.ymin| |p.2 - f.ymax| := by
  rw [distToBorder_eq h]
  constructor
  · simp only
    split
    · rename_i hh; rw [abs_neg, abs_abs, min_eq_left hh.le]
    · rename_i hh; rw [abs_abs, min_eq_right (not_lt.1 hh)]
  · simp only
    split
    · rename_i hh; rw [abs_abs, min_eq_right hh.le]
    · rename_i hh; rw [abs_neg, abs_abs, min_eq_left (not_lt.1 hh)]

/-- C73: no shifted frame ends at its endpoint: the endpoint is missing or the last waypoint is `None`, whatever the path, the room and
the options (for a path that does not visit its goal twice). -/
theorem C73_shift_violated {o : ShiftOpt K} {room : Lim K} {start : K × K} {path : List (K × K)} {s : Shifted K}
    (hnd : path.Nodup) (h : shiftFrame o room start path = some s) : s.endpoint = none ∨ s.waypoints.getLast? = some none := by
  simp only [shiftFrame, Option.bind_eq_bind] at h
  obtain ⟨goal, hg, h⟩ := Option.bind_eq_some_iff.1 h
  obtain ⟨i, hi, h⟩ := Option.bind_eq_some_iff.1 h
  obtain ⟨delta, hdl, h⟩ := Option.bind_eq_some_iff.1 h
  generalize hsc : scan o start goal (path.drop i) ⟨none, none, [], none⟩ = sc at h hdl
  cases hw : sc.waypoint with
  | none =>
    rw [hw] at h
    simp only at h
    obtain ⟨e, he, h⟩ := Option.bind_eq_some_iff.1 h
    simp only [Option.some.injEq] at h
    left; rw [← h]
  | some w =>
    rw [hw] at h
    simp only at h
    obtain ⟨ws, hws, h⟩ := Option.bind_eq_some_iff.1 h
    simp only [Option.some.injEq] at h
    right
    have hend : sc.endpoint = none := by
      have key : ∀ (l : List (K × K)) (s0 : Scan K), s0.endpoint = none → s0.waypoint = none → l.Nodup → l.getLast? = some goal ∨ l = [] →
          (scan o start goal l s0).waypoint ≠ none → (scan o start goal l s0).endpoint = none := by
        intro l
        induction l with
        | nil => intro s0 h1 h2 _ _ h3; exact absurd h2 h3
        | cons p rest ih =>
          intro s0 h1 h2 hn hl h3
          rw [List.nodup_cons] at hn
          have hl' : rest.getLast? = some goal ∨ rest = [] := by
            rcases hl with hl | hl
            · cases rest with
              | nil => exact .inr rfl
              | cons a b => left; simpa using hl
            · simp at hl
          have hpg : p = goal → rest = [] := by
            intro e
            rcases hl' with h | h
            · exact absurd (e ▸ List.mem_of_getLast? h) hn.1
            · exact h
          unfold scan at h3 ⊢
          split at h3
          · rename_i c1
            rw [if_pos c1]
            simp only at h3 ⊢
            split at h3
            · rename_i c2
              rw [if_pos c2]; exact h1
            · rename_i c2
              rw [if_neg c2]
              split at h3
              · rename_i c3
                rw [hpg c3] at h3
                exact absurd h2 h3
              · rename_i c3
                rw [if_neg c3]
                exact ih _ h1 h2 hn.2 hl' h3
          · rename_i c1
            rw [if_neg c1]
            exact ih _ h1 h2 hn.2 hl' h3
      have hlast : (path.drop i).getLast? = some goal ∨ path.drop i = [] := by
        by_cases hd : path.drop i = []
        · exact .inr hd
        · left
          rw [List.getLast?_drop, if_neg]
          · exact hg
          · intro hle; exact hd (List.drop_eq_nil_of_le hle)
      have := key (path.drop i) ⟨none, none, [], none⟩ rfl rfl ((List.drop_sublist i path).nodup hnd) hlast
      rw [hsc] at this
      exact this (by rw [hw]; simp)
    rw [← h, hend]
    simp

/-- C73: if a shifted frame has an endpoint, then this is its last waypoint but one, and all waypoints but the last one are points. -/
theorem C73_shift_partial {o : ShiftOpt K} {room : Lim K} {start q : K × K} {path : List (K × K)} {s : Shifted K}
    (h : shiftFrame o room start path = some s) (hq : s.endpoint = some q) :
    s.waypoints.dropLast.getLast? = some (some q) ∧ ∀ w ∈ s.waypoints.dropLast, w ≠ none := by
  simp only [shiftFrame, Option.bind_eq_bind] at h
  obtain ⟨goal, hg, h⟩ := Option.bind_eq_some_iff.1 h
  obtain ⟨i, hi, h⟩ := Option.bind_eq_some_iff.1 h
  obtain ⟨delta, hdl, h⟩ := Option.bind_eq_some_iff.1 h
  generalize scan o start goal (path.drop i) ⟨none, none, [], none⟩ = sc at h hdl
  cases hw : sc.waypoint with
  | none =>
    rw [hw] at h
    simp only at h
    obtain ⟨e, he, h⟩ := Option.bind_eq_some_iff.1 h
    simp only [Option.some.injEq] at h
    rw [← h] at hq
    simp at hq
  | some w =>
    rw [hw] at h
    simp only at h
    obtain ⟨ws, hws, h⟩ := Option.bind_eq_some_iff.1 h
    simp only [Option.some.injEq] at h
    rw [← h] at hq ⊢
    simp only at hq ⊢
    rw [List.dropLast_concat]
    constructor
    · rw [List.getLast?_map, List.getLast?_reverse, hq]; rfl
    · intro x hx
      rw [List.mem_map] at hx
      obtain ⟨y, _, rfl⟩ := hx
      simp

/-- C73: the constructor fails whenever the rest of the path, from the closest waypoint on, is in the frame already. -/
theorem C73_inside_violated {o : ShiftOpt K} {room : Lim K} {start : K × K} {path : List (K × K)}
    (h : ∀ p ∈ path, pointIn (around start (o.size * (1 / 2))) p 0 = true) : shiftFrame o room start path = none := by
  have key : ∀ (l : List (K × K)) (goal : K × K) (s0 : Scan K), s0.delta = none →
      (∀ p ∈ l, pointIn (around start (o.size * (1 / 2))) p 0 = true) → (scan o start goal l s0).delta = none := by
    intro l goal
    induction l with
    | nil => intro s0 h1 _; exact h1
    | cons p rest ih =>
      intro s0 h1 h2
      unfold scan
      rw [h2 p List.mem_cons_self, if_neg (by simp)]
      exact ih _ h1 fun q hq => h2 q (List.mem_cons_of_mem _ hq)
  simp only [shiftFrame, Option.bind_eq_bind]
  cases path.getLast? with
  | none => rfl
  | some goal =>
    cases hc : findClosest (room.xmax - room.xmin) (room.ymax - room.ymin) start path with
    | none => rfl
    | some i =>
      simp only [Option.bind_some]
      rw [key _ goal ⟨none, none, [], none⟩ rfl fun p hp => h p (List.mem_of_mem_drop hp)]
      rfl

/-- C77: a shifted frame stays in the room and contains the start position, if this is in the room. -/
theorem C77_stays {o : ShiftOpt K} {room : Lim K} {start delta : K × K} (hs : 0 ≤ o.size) (hl : 0 ≤ o.limit)
    (hl2 : 2 * o.limit ≤ o.size) (hv : 0 ≤ o.veh * o.margin) (hin : Spec.Inside room start) :
    Spec.Within (o.moveFrame room start delta) room ∧ Spec.Inside (o.moveFrame room start delta) start := by
  have hr : ∀ d : K, 0 ≤ (o.reach d).1 ∧ 0 ≤ (o.reach d).2 := by
    intro d
    unfold ShiftOpt.reach
    split
    · simp only
      have h1 : min o.limit (|d| - o.size * (1 / 2) + o.veh * o.margin) ≤ o.limit := min_le_left _ _
      have h2 : 0 ≤ min o.limit (|d| - o.size * (1 / 2) + o.veh * o.margin) := le_min hl (by linarith)
      split <;> constructor <;> dsimp only <;> linarith
    · exact ⟨by dsimp only; linarith, by dsimp only; linarith⟩
  obtain ⟨x1, x2⟩ := hr delta.1
  obtain ⟨y1, y2⟩ := hr delta.2
  obtain ⟨i1, i2, i3, i4⟩ := hin
  unfold ShiftOpt.moveFrame
  refine ⟨⟨?_, ?_, ?_, ?_⟩, ?_, ?_, ?_, ?_⟩ <;> dsimp only <;> split <;> linarith

/-- C77: the waypoint the frame is shifted to is in the frame, at the distance of the size of the vehicle with the margin, if the limit
of the shift and the room allow this. -/
theorem C77_target {o : ShiftOpt K} {room : Lim K} {start delta : K × K} (hv : 0 ≤ o.veh * o.margin)
    (hv2 : 2 * (o.veh * o.margin) ≤ o.size) (hx : |delta.1| - o.size * (1 / 2) + o.veh * o.margin ≤ o.limit)
    (hy : |delta.2| - o.size * (1 / 2) + o.veh * o.margin ≤ o.limit)
    (hin : Spec.Deep room (o.veh * o.margin) (start.1 + delta.1, start.2 + delta.2)) :
    Spec.Inside (o.moveFrame room start delta) (start.1 + delta.1, start.2 + delta.2) ∧
      (o.size * (1 / 2) < |delta.1| → o.size * (1 / 2) < |delta.2| →
        Spec.Deep (o.moveFrame room start delta) (o.veh * o.margin) (start.1 + delta.1, start.2 + delta.2)) := by
  have hr : ∀ d : K, |d| - o.size * (1 / 2) + o.veh * o.margin ≤ o.limit →
      (-(o.reach d).1 ≤ d ∧ d ≤ (o.reach d).2) ∧
        (o.size * (1 / 2) < |d| → -(o.reach d).1 + o.veh * o.margin ≤ d ∧ d ≤ (o.reach d).2 - o.veh * o.margin) := by
    intro d hd
    unfold ShiftOpt.reach
    rw [min_eq_right hd]
    split
    · rename_i h
      simp only
      split
      · rename_i h'
        rw [abs_of_pos h'] at h ⊢
        dsimp only
        exact ⟨⟨by linarith, by linarith⟩, fun _ => ⟨by linarith, by linarith⟩⟩
      · rename_i h'
        rw [abs_of_nonpos (not_lt.1 h')] at h ⊢
        dsimp only
        exact ⟨⟨by linarith, by linarith⟩, fun _ => ⟨by linarith, by linarith⟩⟩
    · rename_i h
      have := abs_le.1 (not_lt.1 h)
      exact ⟨⟨this.1, this.2⟩, fun h' => absurd h' h⟩
  obtain ⟨⟨x1, x2⟩, x3⟩ := hr delta.1 hx
  obtain ⟨⟨y1, y2⟩, y3⟩ := hr delta.2 hy
  obtain ⟨i1, i2, i3, i4⟩ := hin
  dsimp only at i1 i2 i3 i4
  unfold ShiftOpt.moveFrame
  constructor
  · refine ⟨?_, ?_, ?_, ?_⟩ <;> dsimp only <;> split <;> linarith
  · intro g1 g2
    obtain ⟨x3, x4⟩ := x3 g1
    obtain ⟨y3, y4⟩ := y3 g2
    refine ⟨?_, ?_, ?_, ?_⟩ <;> dsimp only <;> split <;> linarith

/-- C76: the closest waypoint is chosen, the first one of several, if some waypoint is nearer than the longer side of the room. -/
theorem C76_partial {width height : K} {pos : K × K} {ws : List (K × K)} {i : ℕ} (h : findClosest width height pos ws = some i) :
    (∃ p, ws[i]? = some p) ∧ ((∃ q ∈ ws, distSq q pos < max width height ^ 2) →
      ∃ p, ws[i]? = some p ∧ (∀ q ∈ ws, distSq p pos ≤ distSq q pos) ∧ ∀ q ∈ ws.take i, distSq p pos < distSq q pos) := by
  unfold findClosest at h
  split at h
  · simp at h
  · rename_i hne
    simp only [Option.some.injEq] at h
    rcases closestLoop_spec pos ws 0 (max width height ^ 2) 0 with ⟨a, b⟩ | ⟨j, p, a, b, c, d, e⟩
    · rw [a] at h
      subst h
      refine ⟨⟨ws.head hne, by cases ws with | nil => exact absurd rfl hne | cons x l => rfl⟩, ?_⟩
      rintro ⟨q, hq, hlt⟩
      exact absurd (b q hq) (not_le.2 hlt)
    · rw [a, zero_add] at h
      subst h
      exact ⟨⟨p, b⟩, fun _ => ⟨p, b, d, e⟩⟩

/-- In a corner of a square room, with the path at the other end: the first waypoint is chosen, not the closest one. -/
theorem C76_violated :
    findClosest (10 : ℚ) 10 (-5, -5) [(5, 5), (4, 4)] = some 0 ∧ distSq ((4, 4) : ℚ × ℚ) (-5, -5) < distSq (5, 5) (-5, -5) := by
  decide +kernel

/-! ## Violations and examples -/

/-- The last reachable waypoint is between the size of the vehicle and this size with the margin away from the upper side: the last
waypoint is moved out of the frame. -/
theorem C75_outside_violated :
    let f : Lim ℚ := ⟨0, 0, 10, 10⟩
    ∃ q, movePoint 1 (11 / 10) f [(2, 9001 / 1000), (8, 895 / 100)] = some [q, (8, 895 / 100)] ∧ ¬Spec.Inside f q := by
  refine ⟨(236 / 17, 89 / 10), by decide +kernel, ?_⟩
  norm_num [Spec.Inside]

/-- The last waypoint is on the right side: it is moved to the left side, away from where the path goes. -/
theorem C75_border_violated :
    movePoint (1 : ℚ) (11 / 10) ⟨0, 0, 10, 10⟩ [(10, 5), (8, 5)] = some [(11 / 10, 5), (8, 5)] ∧
      moveBorder (1 : ℚ) (11 / 10) ⟨0, 0, 10, 10⟩ (10, 5) = ⟨-11 / 10, 0, 10, 10⟩ := by decide +kernel

/-- No waypoint is far enough from the border: an exception is raised. -/
theorem C75_none_violated : movePoint (1 : ℚ) (11 / 10) ⟨0, 0, 10, 10⟩ [(19 / 2, 5)] = none := by decide +kernel

/-- A waypoint too close to the right and the lower side. -/
example :
    let f : Lim ℚ := ⟨0, 0, 10, 10⟩
    movePoint 1 (11 / 10) f [(12, -28), (19 / 2, 5), (8, 4), (2, 5)] = some [(8 + 29 / 80, 11 / 10), (8, 4), (2, 5)] ∧ Spec.Proper f ∧
      Spec.Deep f (11 / 10) (8, 4) := by
  refine ⟨?_, ?_, ?_⟩
  · decide +kernel
  · norm_num [Spec.Proper]
  · norm_num [Spec.Deep]

/-- A shifted frame towards a waypoint far away: the endpoint is right, but the last waypoint is missing. -/
example :
    let o : ShiftOpt ℚ := ⟨4, 1, 1 / 2, 11 / 10⟩
    shiftFrame o ⟨-10, -10, 10, 10⟩ (0, 0) [(0, 0), (1, 0), (2, 0), (8, 0)] =
      some ⟨⟨-1, -2, 3, 2⟩, [some (0, 0), some (1, 0), some (2, 0), some (49 / 20, 0), none], some (49 / 20, 0)⟩ := by decide +kernel

example : findClosest (10 : ℚ) 10 (1, 1) [(-3, 0), (0, 1), (1, 2), (4, 4)] = some 1 := by decide +kernel

end Verif.Frames
