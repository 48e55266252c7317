import Verif.Frames.Obstacles
import Mathlib.Algebra.Order.Archimedean.Basic
import Mathlib.Data.Rat.Floor

/-! # Corridor frames (C71, C72, C74)

Mirrors `omgtools/environment/frame.py:520-917`.  `hit f` stands for "`get_stationary_obstacles()` for a frame with limits `f` is not
empty"; `hitBy` below is this test for given obstacles. -/

set_option linter.unusedSectionVars false

namespace Verif.Frames

open Verif.Geometry

variable {K : Type} [Field K] [LinearOrder K] [IsStrictOrderedRing K]

/-! ## Model: the base frame -/

/-- `if self.get_stationary_obstacles():`; it raises for unsupported shapes, which is not modelled here (`hitBy` then gives
`true`). -/
def hitBy (os : List (Obst K)) (f : Lim K) : Bool :=
  match stationary f os with
  | none => true
  | some r => !r.isEmpty

/-- The limits around the start position, frame.py:559-563; `d` is `veh_size*margin`. -/
def around (p : K × K) (d : K) : Lim K := ⟨p.1 - d, p.2 - d, p.1 + d, p.2 + d⟩

/-- `update_frame_with_waypoint`, frame.py:636-653. -/
def extend (d : K) (f : Lim K) (prev p : K × K) : Lim K :=
  { xmin := if p.1 > prev.1 then f.xmin else if p.1 < prev.1 then p.1 - d else f.xmin
    xmax := if p.1 > prev.1 then p.1 + d else f.xmax
    ymin := if p.2 > prev.2 then f.ymin else if p.2 < prev.2 then p.2 - d else f.ymin
    ymax := if p.2 > prev.2 then p.2 + d else f.ymax }

/-- The loop over the waypoints, frame.py:588-618: `f` is the border, `pts` the points in the frame, `start` the start position. -/
def baseLoop (hit : Lim K → Bool) (d : K) (start : K × K) : List (K × K) → Lim K → List (K × K) → Lim K × List (K × K)
  | [], f, pts => (f, pts)
  | p :: rest, f, pts =>
    if pointIn f p 0 then baseLoop hit d start rest f (pts ++ [p])
    else
      let f' := extend d f ((pts.getLast?).getD start) p
      if hit f' then (f, pts) else baseLoop hit d start rest f' (pts ++ [p])

/-- `create_corridor_base_frame`, frame.py:548-631, for the waypoints `global_path[index:]`; `none` stands for the exceptions (no
waypoints at all, no waypoint in the frame). -/
def baseFrame (hit : Lim K → Bool) (d : K) (start : K × K) (path : List (K × K)) : Option (Lim K × List (K × K)) := do
  let goal ← path.getLast?
  let f := around start d
  let r :=
    if pointIn f goal 0 then (f, path)
    else
      let f' := extend d f start goal
      if hit f' then baseLoop hit d start path f [] else (f', path)
  if r.2 = [] then none else some r

/-! ## Model: scaling up -/

/-- The four directions, in the order of the code. -/
inductive Dir where
  | right | left | up | down

/-- The side of a rectangle in a direction. -/
def Lim.side (f : Lim K) : Dir → K
  | .right => f.xmax
  | .left => f.xmin
  | .up => f.ymax
  | .down => f.ymin

/-- Moves one side. -/
def Lim.withSide (f : Lim K) (x : K) : Dir → Lim K
  | .right => { f with xmax := x }
  | .left => { f with xmin := x }
  | .up => { f with ymax := x }
  | .down => { f with ymin := x }

/-- `x` moved outwards by `step`. -/
def outwards (x step : K) : Dir → K
  | .right | .up => x + step
  | .left | .down => x - step

/-- Is `x` strictly outside of the room limit `r`? -/
def beyond (x r : K) : Dir → Bool
  | .right | .up => decide (x > r)
  | .left | .down => decide (x < r)

/-- The `while` loop of one direction, frame.py:676-691 (700-713, 722-735, 744-757): `cur` are the local variables `xmin`, ...; the
result has the local variables and the border afterwards.  `none`: the fuel is used up. -/
def growLoop (hit : Lim K → Bool) (room : Lim K) (step : K) (dir : Dir) : ℕ → Lim K → Option (Lim K × Lim K)
  | 0, _ => none
  | k + 1, cur =>
    let new := outwards (cur.side dir) step dir
    let border := cur.withSide new dir
    if beyond new (room.side dir) dir then some (cur, border)
    else if !hit border then growLoop hit room step dir k border
    else some (cur, cur)

/-- One direction, frame.py:669-691: first up to the wall, otherwise in steps. -/
def grow (hit : Lim K → Bool) (room : Lim K) (step : K) (fuel : ℕ) (dir : Dir) (cur : Lim K) : Option (Lim K × Lim K) :=
  let border := cur.withSide (room.side dir) dir
  if !hit border then some (border, border) else growLoop hit room step dir fuel cur

/-- `scale_up_frame` without the waypoints, frame.py:655-757: the border afterwards. -/
def scaleUp (hit : Lim K → Bool) (room : Lim K) (step : K) (fuel : ℕ) (f : Lim K) : Option (Lim K) := do
  let r ← grow hit room step fuel .right f
  let r ← grow hit room step fuel .left r.1
  let r ← grow hit room step fuel .up r.1
  let r ← grow hit room step fuel .down r.1
  some r.2

/-- The update of the waypoints, frame.py:762-771: `rest` is `global_path[index:]`. -/
def moreWaypoints (f : Lim K) : List (K × K) → List (K × K) → List (K × K)
  | [], w => w
  | p :: rest, w => if pointIn f p 0 then moreWaypoints f rest (if p ∈ w then w else w ++ [p]) else w

/-! ## Model: L-shapes -/

/-- `find_intersection_line_segment_frame`, frame.py:877-917. -/
def frameIntersection (f : Lim K) (a b : K × K) : Option (K × K) :=
  if intersectLineSegments a b (f.xmin, f.ymax) (f.xmax, f.ymax) then intersectLines a b (f.xmin, f.ymax) (f.xmax, f.ymax)
  else if intersectLineSegments a b (f.xmax, f.ymax) (f.xmax, f.ymin) then intersectLines a b (f.xmax, f.ymax) (f.xmax, f.ymin)
  else if intersectLineSegments a b (f.xmax, f.ymin) (f.xmin, f.ymin) then intersectLines a b (f.xmax, f.ymin) (f.xmin, f.ymin)
  else if intersectLineSegments a b (f.xmin, f.ymin) (f.xmin, f.ymax) then intersectLines a b (f.xmin, f.ymin) (f.xmin, f.ymax)
  else none

/-- `abs(a - b) <= 1e-4`. -/
def near (a b : K) : Bool := decide (|a - b| ≤ 1 / 10000)

/-- One attempt to move a side, frame.py:795-805: the frame becomes `new` unless the point `keep` is then outside or an obstacle
inside; in this case it becomes `old`. -/
def attempt (hit : Lim K → Bool) (keep : K × K) (new old : Lim K) : Lim K :=
  if !pointIn new keep 0 || hit new then old else new

/-- The first half of `create_l_shape`, frame.py:787-832: the current frame is changed, its limits are reread after every
success. -/
def reshape1 (hit : Lim K → Bool) (start : K × K) (f1 f2 : Lim K) (q : K × K) : Lim K :=
  let f1 := if near q.1 f2.xmin then attempt hit start { f1 with xmax := f2.xmax } f1 else f1
  let f1 := if near q.1 f2.xmax then attempt hit start { f1 with xmin := f2.xmin } f1 else f1
  let f1 := if near q.2 f2.ymax then attempt hit start { f1 with ymin := f2.ymin } f1 else f1
  if near q.2 f2.ymin then attempt hit start { f1 with ymax := f2.ymax } f1 else f1

/-- The second half, frame.py:840-873: the next frame is changed; every attempt starts from its old limits `f2`. -/
def reshape2 (hit : Lim K → Bool) (last : K × K) (f1 f2 : Lim K) (q : K × K) : Lim K :=
  let g := f2
  let g := if near q.1 f1.xmin then attempt hit last { f2 with xmax := f1.xmax } f2 else g
  let g := if near q.1 f1.xmax then attempt hit last { f2 with xmin := f1.xmin } f2 else g
  let g := if near q.2 f1.ymax then attempt hit last { f2 with ymin := f1.ymin } f2 else g
  if near q.2 f1.ymin then attempt hit last { f2 with ymax := f1.ymax } f2 else g

/-- `create_l_shape`, frame.py:777-875: `start` is the start position of the current frame, `a` its first waypoint, `b` and `c` the
first and the last waypoint of the next frame. -/
def lShape (hit : Lim K → Bool) (start a b c : K × K) (f1 f2 : Lim K) : Lim K × Lim K :=
  let f1 := match frameIntersection f2 a b with
    | none => f1
    | some q => reshape1 hit start f1 f2 q
  let f2 := match frameIntersection f1 b c with
    | none => f2
    | some q => reshape2 hit c f1 f2 q
  (f1, f2)

/-! ## Specification -/

/-- One rectangle is part of another one. -/
def Spec.Within (f g : Lim K) : Prop := g.xmin ≤ f.xmin ∧ g.ymin ≤ f.ymin ∧ f.xmax ≤ g.xmax ∧ f.ymax ≤ g.ymax

/-- A way that never turns back in the direction of either axis. -/
def Spec.Monotone (l : List (K × K)) : Prop :=
  (l.Pairwise (fun a b => a.1 ≤ b.1) ∨ l.Pairwise (fun a b => b.1 ≤ a.1)) ∧
    (l.Pairwise (fun a b => a.2 ≤ b.2) ∨ l.Pairwise (fun a b => b.2 ≤ a.2))

/-! ## Lemmas -/

theorem within_refl (f : Lim K) : Spec.Within f f := ⟨le_rfl, le_rfl, le_rfl, le_rfl⟩

theorem within_trans {f g h : Lim K} (a : Spec.Within f g) (b : Spec.Within g h) : Spec.Within f h :=
  ⟨b.1.trans a.1, b.2.1.trans a.2.1, a.2.2.1.trans b.2.2.1, a.2.2.2.trans b.2.2.2⟩

theorem beyond_right (x r : K) : beyond x r .right = true ↔ r < x := by simp [beyond]
theorem beyond_up (x r : K) : beyond x r .up = true ↔ r < x := by simp [beyond]
theorem beyond_left (x r : K) : beyond x r .left = true ↔ x < r := by simp [beyond]
theorem beyond_down (x r : K) : beyond x r .down = true ↔ x < r := by simp [beyond]

theorem growLoop_spec {hit : Lim K → Bool} {room : Lim K} {step : K} (hs : 0 ≤ step) {dir : Dir} {fuel : ℕ} {cur : Lim K} {r : Lim K × Lim K}
    (h : growLoop hit room step dir fuel cur = some r) (hroom : Spec.Within cur room) (hfree : hit cur = false) :
    Spec.Within cur r.1 ∧ Spec.Within r.1 room ∧ hit r.1 = false ∧
      (r.2 = r.1 ∨ beyond (r.2.side dir) (room.side dir) dir = true ∧ Spec.Within r.1 r.2 ∧
        ∀ d, d ≠ dir → r.2.side d = r.1.side d) := by
  induction fuel generalizing cur with
  | zero => simp [growLoop] at h
  | succ k ih =>
    simp only [growLoop] at h
    have hgrow : Spec.Within cur (cur.withSide (outwards (cur.side dir) step dir) dir) := by
      cases dir <;> simp [Spec.Within, Lim.withSide, outwards, Lim.side, hs]
    by_cases hb : beyond (outwards (cur.side dir) step dir) (room.side dir) dir = true
    · rw [if_pos hb, Option.some.injEq] at h
      subst h
      refine ⟨within_refl _, hroom, hfree, .inr ⟨?_, hgrow, ?_⟩⟩
      · cases dir <;> exact hb
      · intro d hd
        cases dir <;> cases d <;> first | exact absurd rfl hd | rfl
    · rw [if_neg hb] at h
      by_cases hh : (!hit (cur.withSide (outwards (cur.side dir) step dir) dir)) = true
      · rw [if_pos hh] at h
        have hin : Spec.Within (cur.withSide (outwards (cur.side dir) step dir) dir) room := by
          obtain ⟨a, b, c, d⟩ := hroom
          cases dir <;> simp only [beyond_right, beyond_up, beyond_left, beyond_down, Lim.side, outwards, not_lt] at hb <;> simp only [Spec.Within, Lim.withSide, outwards, Lim.side] <;>
            refine ⟨?_, ?_, ?_, ?_⟩ <;> linarith
        obtain ⟨i1, i2⟩ := ih h hin (by simpa using hh)
        exact ⟨within_trans hgrow i1, i2⟩
      · rw [if_neg hh, Option.some.injEq] at h
        subst h
        exact ⟨within_refl _, hroom, hfree, .inl rfl⟩

theorem grow_spec {hit : Lim K → Bool} {room : Lim K} {step : K} (hs : 0 ≤ step) {dir : Dir} {fuel : ℕ} {cur : Lim K} {r : Lim K × Lim K}
    (h : grow hit room step fuel dir cur = some r) (hroom : Spec.Within cur room) (hfree : hit cur = false) :
    Spec.Within cur r.1 ∧ Spec.Within r.1 room ∧ hit r.1 = false ∧
      (r.2 = r.1 ∨ beyond (r.2.side dir) (room.side dir) dir = true ∧ Spec.Within r.1 r.2 ∧
        ∀ d, d ≠ dir → r.2.side d = r.1.side d) := by
  simp only [grow] at h
  by_cases hh : (!hit (cur.withSide (room.side dir) dir)) = true
  · rw [if_pos hh, Option.some.injEq] at h
    subst h
    obtain ⟨a, b, c, d⟩ := hroom
    refine ⟨?_, ?_, by simpa using hh, .inl rfl⟩ <;> cases dir <;> simp [Spec.Within, Lim.withSide, Lim.side, a, b, c, d]
  · rw [if_neg hh] at h
    exact growLoop_spec hs h hroom hfree

theorem growLoop_total {hit : Lim K → Bool} {room : Lim K} {step : K} (hs : 0 < step) (dir : Dir) (fuel : ℕ) (cur : Lim K)
    (hf : beyond (outwards (cur.side dir) (fuel * step) dir) (room.side dir) dir = true) :
    ∃ r, growLoop hit room step dir (fuel + 1) cur = some r := by
  induction fuel generalizing cur with
  | zero =>
    have hb : beyond (outwards (cur.side dir) step dir) (room.side dir) dir = true := by
      cases dir <;> simp only [beyond_right, beyond_up, beyond_left, beyond_down, outwards, Lim.side, Nat.cast_zero, zero_mul] at hf ⊢ <;> linarith
    exact ⟨_, if_pos hb⟩
  | succ k ih =>
    rw [growLoop]
    by_cases hb : beyond (outwards (cur.side dir) step dir) (room.side dir) dir = true
    · exact ⟨_, if_pos hb⟩
    · rw [if_neg hb]
      by_cases hh : (!hit (cur.withSide (outwards (cur.side dir) step dir) dir)) = true
      · rw [if_pos hh]
        apply ih
        push_cast at hf
        cases dir <;> simp only [beyond_right, beyond_up, beyond_left, beyond_down, outwards, Lim.side, Lim.withSide] at hf ⊢ <;> linarith
      · exact ⟨_, if_neg hh⟩

theorem grow_total {hit : Lim K → Bool} {room : Lim K} {step : K} (hs : 0 < step) (dir : Dir) (fuel : ℕ) (cur : Lim K)
    (hf : beyond (outwards (cur.side dir) (fuel * step) dir) (room.side dir) dir = true) :
    ∃ r, grow hit room step (fuel + 1) dir cur = some r := by
  simp only [grow]
  split
  · exact ⟨_, rfl⟩
  · exact growLoop_total hs dir fuel cur hf

theorem beyond_within {f g room : Lim K} (h : Spec.Within f g) (x : K) (dir : Dir)
    (hf : beyond (outwards (f.side dir) x dir) (room.side dir) dir = true) :
    beyond (outwards (g.side dir) x dir) (room.side dir) dir = true := by
  obtain ⟨a, b, c, d⟩ := h
  cases dir <;> simp only [beyond_right, beyond_up, beyond_left, beyond_down, outwards, Lim.side] at hf ⊢ <;> linarith

/-- Both frames keep whatever they have in common. -/
theorem attempt_inside {hit : Lim K → Bool} {keep p : K × K} {new old : Lim K} (h1 : Spec.Inside new p) (h2 : Spec.Inside old p) :
    Spec.Inside (attempt hit keep new old) p := by
  unfold attempt; split
  · exact h2
  · exact h1

theorem attempt_good {hit : Lim K → Bool} {keep : K × K} {new old : Lim K} (h : pointIn old keep 0 = true ∧ hit old = false) :
    pointIn (attempt hit keep new old) keep 0 = true ∧ hit (attempt hit keep new old) = false := by
  unfold attempt
  by_cases hc : (!pointIn new keep 0 || hit new) = true
  · rw [if_pos hc]; exact h
  · rw [if_neg hc]
    simpa using hc

theorem reshape1_spec (hit : Lim K → Bool) (start : K × K) (f1 f2 : Lim K) (q : K × K) :
    (pointIn f1 start 0 = true ∧ hit f1 = false →
      pointIn (reshape1 hit start f1 f2 q) start 0 = true ∧ hit (reshape1 hit start f1 f2 q) = false) ∧
    (∀ p, Spec.Inside f1 p → Spec.Inside f2 p → Spec.Inside (reshape1 hit start f1 f2 q) p) := by
  constructor
  · intro h
    have key : ∀ (c : Bool) (f : Lim K) (new : Lim K), (pointIn f start 0 = true ∧ hit f = false) →
        (pointIn (if c then attempt hit start new f else f) start 0 = true ∧ hit (if c then attempt hit start new f else f) = false) := by
      intro c f new hf
      cases c
      · exact hf
      · exact attempt_good hf
    exact key _ _ _ (key _ _ _ (key _ _ _ (key _ _ _ h)))
  · intro p h1 h2
    have s1 : ∀ (c : Bool) (f : Lim K), Spec.Inside f p → Spec.Inside (if c then attempt hit start { f with xmax := f2.xmax } f else f) p := by
      intro c f hf; cases c
      · exact hf
      · exact attempt_inside ⟨hf.1, h2.2.1, hf.2.2⟩ hf
    have s2 : ∀ (c : Bool) (f : Lim K), Spec.Inside f p → Spec.Inside (if c then attempt hit start { f with xmin := f2.xmin } f else f) p := by
      intro c f hf; cases c
      · exact hf
      · exact attempt_inside ⟨h2.1, hf.2⟩ hf
    have s3 : ∀ (c : Bool) (f : Lim K), Spec.Inside f p → Spec.Inside (if c then attempt hit start { f with ymin := f2.ymin } f else f) p := by
      intro c f hf; cases c
      · exact hf
      · exact attempt_inside ⟨hf.1, hf.2.1, h2.2.2.1, hf.2.2.2⟩ hf
    have s4 : ∀ (c : Bool) (f : Lim K), Spec.Inside f p → Spec.Inside (if c then attempt hit start { f with ymax := f2.ymax } f else f) p := by
      intro c f hf; cases c
      · exact hf
      · exact attempt_inside ⟨hf.1, hf.2.1, hf.2.2.1, h2.2.2.2⟩ hf
    exact s4 _ _ (s3 _ _ (s2 _ _ (s1 _ _ h1)))

theorem reshape2_spec (hit : Lim K → Bool) (last : K × K) (f1 f2 : Lim K) (q : K × K) :
    (pointIn f2 last 0 = true ∧ hit f2 = false →
      pointIn (reshape2 hit last f1 f2 q) last 0 = true ∧ hit (reshape2 hit last f1 f2 q) = false) ∧
    (∀ p, Spec.Inside f1 p → Spec.Inside f2 p → Spec.Inside (reshape2 hit last f1 f2 q) p) := by
  constructor
  · intro h
    have key : ∀ (c : Bool) (g : Lim K) (new : Lim K), (pointIn g last 0 = true ∧ hit g = false) →
        (pointIn (if c then attempt hit last new f2 else g) last 0 = true ∧ hit (if c then attempt hit last new f2 else g) = false) := by
      intro c g new hg
      cases c
      · exact hg
      · exact attempt_good h
    exact key _ _ _ (key _ _ _ (key _ _ _ (key _ _ _ h)))
  · intro p h1 h2
    have key : ∀ (c : Bool) (g : Lim K) (new : Lim K), Spec.Inside g p → Spec.Inside new p →
        Spec.Inside (if c then attempt hit last new f2 else g) p := by
      intro c g new hg hn
      cases c
      · exact hg
      · exact attempt_inside hn h2
    exact key _ _ _ (key _ _ _ (key _ _ _ (key _ _ _ h2 ⟨h2.1, h1.2.1, h2.2.2⟩) ⟨h1.1, h2.2⟩) ⟨h2.1, h2.2.1, h1.2.2.1, h2.2.2.2⟩)
      ⟨h2.1, h2.2.1, h2.2.2.1, h1.2.2.2⟩

theorem hitBy_free {cs : K → K × K} (hcs : cs 0 = (1, 0)) {os : List (Obst K)} {f : Lim K} (h : hitBy os f = false) {o : Obst K} (ho : o ∈ os)
    (hs : Spec.Supported o.shape) (hst : o.stands = true) : ¬Spec.Overlaps cs f o 0 := by
  intro hov
  unfold hitBy at h
  cases hr : stationary f os with
  | none => rw [hr] at h; exact absurd h (by simp)
  | some r =>
    rw [hr] at h
    have := (C41_stationary hcs hr hs).1 ho hst hov
    simp only [Bool.not_eq_false', List.isEmpty_iff] at h
    rw [h] at this
    exact absurd this (by simp)

/-- One axis of the base frame on a way that does not turn back: `lo`, `hi` the sides, `prev` the last point, `qs` all points. -/
def Axis (up : Bool) (lo hi d start prev : K) (qs : List K) : Prop :=
  if up then lo ≤ start ∧ prev ≤ hi ∧ hi ≤ prev + d ∧ start ≤ prev ∧ ∀ q ∈ qs, start ≤ q ∧ q ≤ prev
  else start ≤ hi ∧ lo ≤ prev ∧ prev - d ≤ lo ∧ prev ≤ start ∧ ∀ q ∈ qs, q ≤ start ∧ prev ≤ q

/-- `b` is not before `a`. -/
def Dirn (up : Bool) (a b : K) : Prop := if up then a ≤ b else b ≤ a

theorem axis_start (up : Bool) {d : K} (hd : 0 ≤ d) (s : K) : Axis up (s - d) (s + d) d s s [] := by
  cases up <;> simp [Axis, hd]

theorem axis_inside {up : Bool} {lo hi d s prev : K} {qs : List K} (h : Axis up lo hi d s prev qs) : ∀ q ∈ qs, lo ≤ q ∧ q ≤ hi := by
  intro q hq
  cases up
  · obtain ⟨a, b, _, _, e⟩ := h; exact ⟨b.trans (e q hq).2, (e q hq).1.trans a⟩
  · obtain ⟨a, b, _, _, e⟩ := h; exact ⟨a.trans (e q hq).1, (e q hq).2.trans b⟩

theorem Dirn.mid {up : Bool} {a b c lo hi : K} (h1 : Dirn up a b) (h2 : Dirn up b c) (h3 : lo ≤ a) (h4 : a ≤ hi) (h5 : lo ≤ c)
    (h6 : c ≤ hi) : lo ≤ b ∧ b ≤ hi := by
  cases up
  · exact ⟨h5.trans h2, le_trans h1 h4⟩
  · exact ⟨h3.trans h1, le_trans h2 h6⟩

theorem start_inside {up : Bool} {lo hi d s prev : K} {qs : List K} (_hd : 0 ≤ d) (h : Axis up lo hi d s prev qs) : lo ≤ s ∧ s ≤ hi := by
  cases up
  · obtain ⟨a, b, c, e, f⟩ := h; exact ⟨b.trans e, a⟩
  · obtain ⟨a, b, c, e, f⟩ := h; exact ⟨a, e.trans b⟩

/-- On a way that does not turn back every point is between the start and the goal. -/
theorem between {up : Bool} {start goal : K × K} {path : List (K × K)} {g : K × K → K}
    (h : (start :: path).Pairwise fun a b => Dirn up (g a) (g b)) (hg : path.getLast? = some goal) :
    ∀ p ∈ path, Dirn up (g start) (g p) ∧ Dirn up (g p) (g goal) := by
  intro p hp
  refine ⟨(List.pairwise_cons.1 h).1 p hp, ?_⟩
  obtain ⟨l, rfl⟩ : ∃ l, path = l ++ [goal] := by
    rw [List.getLast?_eq_some_iff] at hg; exact hg
  rcases List.mem_append.1 hp with hp | hp
  · exact (List.pairwise_append.1 (List.pairwise_cons.1 h).2).2.2 p hp goal (by simp)
  · rw [List.mem_singleton] at hp; subst hp
    cases up <;> exact le_refl _

theorem axis_add {up : Bool} {lo hi d s prev p : K} {qs : List K} (h : Axis up lo hi d s prev qs) (hp : Dirn up prev p) (h1 : lo ≤ p)
    (h2 : p ≤ hi) : Axis up lo hi d s p (qs ++ [p]) := by
  cases up
  · obtain ⟨a, b, c, e, f⟩ := h
    have hp : p ≤ prev := hp
    refine ⟨a, h1, by linarith, by linarith, ?_⟩
    intro q hq
    rcases List.mem_append.1 hq with hq | hq
    · exact ⟨(f q hq).1, hp.trans (f q hq).2⟩
    · rw [List.mem_singleton] at hq; subst hq; exact ⟨by linarith, le_rfl⟩
  · obtain ⟨a, b, c, e, f⟩ := h
    have hp : prev ≤ p := hp
    refine ⟨a, h2, by linarith, by linarith, ?_⟩
    intro q hq
    rcases List.mem_append.1 hq with hq | hq
    · exact ⟨(f q hq).1, (f q hq).2.trans hp⟩
    · rw [List.mem_singleton] at hq; subst hq; exact ⟨by linarith, le_rfl⟩

theorem axis_extend {up : Bool} {lo hi d s prev p : K} {qs : List K} (hd : 0 ≤ d) (h : Axis up lo hi d s prev qs) (hp : Dirn up prev p) :
    Axis up (if p > prev then lo else if p < prev then p - d else lo) (if p > prev then p + d else hi) d s p (qs ++ [p]) := by
  cases up
  · have hp : p ≤ prev := hp
    rw [if_neg (not_lt.2 hp), if_neg (not_lt.2 hp)]
    obtain ⟨a, b, c, e, f⟩ := h
    by_cases hlt : p < prev
    · rw [if_pos hlt]
      refine ⟨a, by linarith, le_rfl, by linarith, ?_⟩
      intro q hq
      rcases List.mem_append.1 hq with hq | hq
      · exact ⟨(f q hq).1, hp.trans (f q hq).2⟩
      · rw [List.mem_singleton] at hq; subst hq; exact ⟨by linarith, le_rfl⟩
    · rw [if_neg hlt]
      exact axis_add (up := false) ⟨a, b, c, e, f⟩ hp (by linarith) (by linarith)
  · have hp : prev ≤ p := hp
    obtain ⟨a, b, c, e, f⟩ := h
    by_cases hlt : p > prev
    · rw [if_pos hlt, if_pos hlt]
      refine ⟨a, by linarith, le_rfl, by linarith, ?_⟩
      intro q hq
      rcases List.mem_append.1 hq with hq | hq
      · exact ⟨(f q hq).1, (f q hq).2.trans hp⟩
      · rw [List.mem_singleton] at hq; subst hq; exact ⟨by linarith, le_rfl⟩
    · rw [if_neg hlt, if_neg hlt, if_neg (not_lt.2 hp)]
      have : p = prev := le_antisymm (not_lt.1 hlt) hp
      exact axis_add (up := true) ⟨a, b, c, e, f⟩ hp (by linarith) (by linarith)

theorem baseLoop_inside (hit : Lim K → Bool) {d : K} (hd : 0 ≤ d) (start : K × K) (ux uy : Bool) (path : List (K × K)) (f : Lim K)
    (pts : List (K × K)) (hx : Axis ux f.xmin f.xmax d start.1 ((pts.getLast?).getD start).1 (pts.map Prod.fst))
    (hy : Axis uy f.ymin f.ymax d start.2 ((pts.getLast?).getD start).2 (pts.map Prod.snd))
    (hmx : (((pts.getLast?).getD start) :: path).Pairwise fun a b => Dirn ux a.1 b.1)
    (hmy : (((pts.getLast?).getD start) :: path).Pairwise fun a b => Dirn uy a.2 b.2) :
    ∀ p ∈ (baseLoop hit d start path f pts).2, Spec.Inside (baseLoop hit d start path f pts).1 p := by
  induction path generalizing f pts with
  | nil =>
    intro p hp
    have h1 := axis_inside hx p.1 (List.mem_map_of_mem hp)
    have h2 := axis_inside hy p.2 (List.mem_map_of_mem hp)
    exact ⟨h1.1, h1.2, h2.1, h2.2⟩
  | cons p rest ih =>
    have px := (List.pairwise_cons.1 hmx)
    have py := (List.pairwise_cons.1 hmy)
    have dx := px.1 p List.mem_cons_self
    have dy := py.1 p List.mem_cons_self
    unfold baseLoop
    by_cases hin : pointIn f p 0 = true
    · rw [if_pos hin]
      simp only [pointIn, add_zero, sub_zero, Bool.and_eq_true, decide_eq_true_eq] at hin
      refine ih f (pts ++ [p]) ?_ ?_ ?_ ?_
      · simp only [List.getLast?_concat, Option.getD_some, List.map_append, List.map_cons, List.map_nil]
        exact axis_add hx dx hin.1.1.le hin.1.2.le
      · simp only [List.getLast?_concat, Option.getD_some, List.map_append, List.map_cons, List.map_nil]
        exact axis_add hy dy hin.2.1.le hin.2.2.le
      · simpa using px.2
      · simpa using py.2
    · rw [if_neg hin]
      simp only
      split
      · intro q hp
        have h1 := axis_inside hx q.1 (List.mem_map_of_mem hp)
        have h2 := axis_inside hy q.2 (List.mem_map_of_mem hp)
        exact ⟨h1.1, h1.2, h2.1, h2.2⟩
      · refine ih _ (pts ++ [p]) ?_ ?_ ?_ ?_
        · simp only [List.getLast?_concat, Option.getD_some, List.map_append, List.map_cons, List.map_nil]
          exact axis_extend hd hx dx
        · simp only [List.getLast?_concat, Option.getD_some, List.map_append, List.map_cons, List.map_nil]
          exact axis_extend hd hy dy
        · simpa using px.2
        · simpa using py.2

theorem baseLoop_free (hit : Lim K → Bool) (d : K) (start : K × K) (path : List (K × K)) (f : Lim K) (pts : List (K × K))
    (h : hit f = false) : hit (baseLoop hit d start path f pts).1 = false := by
  induction path generalizing f pts with
  | nil => exact h
  | cons p rest ih =>
    unfold baseLoop
    split
    · exact ih _ _ h
    · simp only
      split
      · exact h
      · rename_i hh; exact ih _ _ (by simpa using hh)

theorem baseLoop_prefix (hit : Lim K → Bool) (d : K) (start : K × K) (path : List (K × K)) (f : Lim K) (pts : List (K × K)) :
    ∃ t, t <+: path ∧ (baseLoop hit d start path f pts).2 = pts ++ t := by
  induction path generalizing f pts with
  | nil => exact ⟨[], List.prefix_rfl, by simp [baseLoop]⟩
  | cons p rest ih =>
    unfold baseLoop
    split
    · obtain ⟨t, h1, h2⟩ := ih f (pts ++ [p])
      exact ⟨p :: t, (List.cons_prefix_cons.2 ⟨rfl, h1⟩), by rw [h2]; simp⟩
    · simp only
      split
      · exact ⟨[], List.nil_prefix, by simp⟩
      · obtain ⟨t, h1, h2⟩ := ih (extend d f ((pts.getLast?).getD start) p) (pts ++ [p])
        exact ⟨p :: t, (List.cons_prefix_cons.2 ⟨rfl, h1⟩), by rw [h2]; simp⟩

/-! ## Properties -/

/-- C71: the base frame of a corridor contains no stationary obstacle if the surroundings of the start position are free. -/
theorem C71_base_partial (hit : Lim K → Bool) (d : K) (start : K × K) (path : List (K × K)) (f : Lim K) (pts : List (K × K))
    (h : baseFrame hit d start path = some (f, pts)) (hfree : hit (around start d) = false) : hit f = false := by
  simp only [baseFrame] at h
  cases hg : path.getLast? with
  | none => simp [hg] at h
  | some goal =>
    simp only [hg, Option.bind_eq_bind, Option.bind_some] at h
    by_cases h1 : pointIn (around start d) goal 0 = true
    · simp only [h1, if_true] at h
      split at h
      · simp at h
      · simp only [Option.some.injEq, Prod.mk.injEq] at h
        rw [← h.1]; exact hfree
    · simp only [h1, if_false, Bool.false_eq_true] at h
      by_cases h2 : hit (extend d (around start d) start goal) = true
      · simp only [h2, if_true] at h
        have h3 := baseLoop_free hit d start path (around start d) [] hfree
        split at h
        · simp at h
        · simp only [Option.some.injEq] at h
          rw [h] at h3; exact h3
      · simp only [h2, if_false, Bool.false_eq_true] at h
        split at h
        · simp at h
        · simp only [Option.some.injEq, Prod.mk.injEq] at h
          rw [← h.1]; simpa using h2

/-- C71: scaling up a free frame in the room gives a larger frame.  It stays in the room on three sides; if it does on the lower side
too, it is free of stationary obstacles. -/
theorem C71_partial {hit : Lim K → Bool} {room : Lim K} {step : K} (hs : 0 ≤ step) {fuel : ℕ} {f b : Lim K}
    (h : scaleUp hit room step fuel f = some b) (hroom : Spec.Within f room) (hfree : hit f = false) :
    Spec.Within f b ∧ room.xmin ≤ b.xmin ∧ b.xmax ≤ room.xmax ∧ b.ymax ≤ room.ymax ∧
      (room.ymin ≤ b.ymin → hit b = false ∧ Spec.Within b room) := by
  simp only [scaleUp, Option.bind_eq_bind] at h
  obtain ⟨r1, e1, h⟩ := Option.bind_eq_some_iff.1 h
  obtain ⟨r2, e2, h⟩ := Option.bind_eq_some_iff.1 h
  obtain ⟨r3, e3, h⟩ := Option.bind_eq_some_iff.1 h
  obtain ⟨r4, e4, h⟩ := Option.bind_eq_some_iff.1 h
  simp only [Option.some.injEq] at h
  subst h
  obtain ⟨a1, b1, c1, _⟩ := grow_spec hs e1 hroom hfree
  obtain ⟨a2, b2, c2, _⟩ := grow_spec hs e2 b1 c1
  obtain ⟨a3, b3, c3, _⟩ := grow_spec hs e3 b2 c2
  obtain ⟨a4, b4, c4, d4⟩ := grow_spec hs e4 b3 c3
  have hw := within_trans a1 (within_trans a2 (within_trans a3 a4))
  rcases d4 with d4 | ⟨d4, d5, d6⟩
  · rw [d4]; exact ⟨hw, b4.1, b4.2.2.1, b4.2.2.2, fun _ => ⟨c4, b4⟩⟩
  · have s1 : r4.2.xmin = r4.1.xmin := d6 .left (by simp)
    have s2 : r4.2.xmax = r4.1.xmax := d6 .right (by simp)
    have s3 : r4.2.ymax = r4.1.ymax := d6 .up (by simp)
    refine ⟨within_trans hw d5, by rw [s1]; exact b4.1, by rw [s2]; exact b4.2.2.1, by rw [s3]; exact b4.2.2.2, fun h => ?_⟩
    rw [beyond_down] at d4
    exact absurd h (not_le.2 d4)

/-- C71: scaling up ends, for every size of the steps. -/
theorem C71_terminates [Archimedean K] (hit : Lim K → Bool) (room : Lim K) {step : K} (hs : 0 < step) (f : Lim K)
    (hroom : Spec.Within f room) (hfree : hit f = false) : ∃ fuel b, scaleUp hit room step fuel f = some b := by
  have hn : ∀ dir, ∃ n : ℕ, ∀ m, n ≤ m → beyond (outwards (f.side dir) (m * step) dir) (room.side dir) dir = true := by
    intro dir
    obtain ⟨n, hn⟩ := exists_nat_gt (|room.side dir - f.side dir| / step)
    refine ⟨n, fun m hm => ?_⟩
    rw [div_lt_iff₀ hs] at hn
    have hm' : (n : K) * step ≤ m * step := mul_le_mul_of_nonneg_right (by exact_mod_cast hm) hs.le
    have := abs_le.1 (le_refl |room.side dir - f.side dir|)
    cases dir <;> simp only [beyond_right, beyond_up, beyond_left, beyond_down, outwards] <;> linarith [this.1, this.2]
  obtain ⟨n1, h1⟩ := hn .right
  obtain ⟨n2, h2⟩ := hn .left
  obtain ⟨n3, h3⟩ := hn .up
  obtain ⟨n4, h4⟩ := hn .down
  obtain ⟨N, hN1, hN2, hN3, hN4⟩ : ∃ N, n1 ≤ N ∧ n2 ≤ N ∧ n3 ≤ N ∧ n4 ≤ N := ⟨n1 + n2 + n3 + n4, by omega, by omega, by omega, by omega⟩
  obtain ⟨r1, e1⟩ := grow_total (hit := hit) hs .right N f (h1 N hN1)
  obtain ⟨a1, b1, c1, _⟩ := grow_spec hs.le e1 hroom hfree
  obtain ⟨r2, e2⟩ := grow_total (hit := hit) hs .left N r1.1 (beyond_within a1 _ _ (h2 N hN2))
  obtain ⟨a2, b2, c2, _⟩ := grow_spec hs.le e2 b1 c1
  obtain ⟨r3, e3⟩ := grow_total (hit := hit) hs .up N r2.1 (beyond_within (within_trans a1 a2) _ _ (h3 N hN3))
  obtain ⟨a3, b3, c3, _⟩ := grow_spec hs.le e3 b2 c2
  obtain ⟨r4, e4⟩ := grow_total (hit := hit) hs .down N r3.1 (beyond_within (within_trans a1 (within_trans a2 a3)) _ _ (h4 N hN4))
  exact ⟨N + 1, r4.2, by simp [scaleUp, e1, e2, e3, e4]⟩

/-- C71, in terms of the obstacles: a corridor frame that stays in the room has no point in common with any standing obstacle. -/
theorem C71_obstacles_partial {cs : K → K × K} (hcs : cs 0 = (1, 0)) {os : List (Obst K)} {room : Lim K} {d step : K} (hs : 0 ≤ step)
    {fuel : ℕ} {start : K × K} {path pts : List (K × K)} {f b : Lim K} (hb : baseFrame (hitBy os) d start path = some (f, pts))
    (h : scaleUp (hitBy os) room step fuel f = some b) (hroom : Spec.Within f room) (hstart : hitBy os (around start d) = false)
    (hdown : room.ymin ≤ b.ymin) {o : Obst K} (ho : o ∈ os) (hsup : Spec.Supported o.shape) (hst : o.stands = true) :
    ¬Spec.Overlaps cs b o 0 :=
  hitBy_free hcs ((C71_partial hs h hroom (C71_base_partial _ _ _ _ _ _ hb hstart)).2.2.2.2 hdown).1 ho hsup hst

/-- A small obstacle at the lower wall, just below the last step: the frame ends up outside the room and over the obstacle. -/
theorem C71_violated :
    let os : List (Obst ℚ) := [⟨.rect 2 (1 / 10) 0, none, (0, -5), (0, 0)⟩]
    let room : Lim ℚ := ⟨-5, -5, 5, 5⟩
    ∃ f b, baseFrame (hitBy os) 1 (0, 1 / 5) [(0, 1 / 5), (2, 1 / 5)] = some (f, [(0, 1 / 5), (2, 1 / 5)]) ∧ hitBy os (around (0, 1 / 5) 1) = false ∧
      Spec.Within f room ∧ scaleUp (hitBy os) room 1 20 f = some b ∧ b.ymin < room.ymin ∧ hitBy os b = true ∧
      Spec.Overlaps (fun _ => (1, 0)) b ⟨.rect 2 (1 / 10) 0, none, (0, -5), (0, 0)⟩ 0 := by
  refine ⟨⟨-1, -(4 / 5), 3, 6 / 5⟩, ⟨-5, -(29 / 5), 5, 5⟩, by decide +kernel, by decide +kernel, ?_, by decide +kernel, by decide +kernel,
    by decide +kernel, (0, -5), ?_, ?_⟩
  · norm_num [Spec.Within]
  · exact ⟨0, 0, by norm_num⟩
  · norm_num [Spec.Inside]

/-- C72: the waypoints of the base frame are the first ones of the path and lie in the frame, if the way from the start position
does not turn back along either axis. -/
theorem C72_base_partial (hit : Lim K → Bool) {d : K} (hd : 0 ≤ d) (start : K × K) (path : List (K × K)) (f : Lim K) (pts : List (K × K))
    (h : baseFrame hit d start path = some (f, pts)) (hm : Spec.Monotone (start :: path)) :
    pts <+: path ∧ pts ≠ [] ∧ ∀ p ∈ pts, Spec.Inside f p := by
  obtain ⟨ux, hux⟩ : ∃ ux : Bool, (start :: path).Pairwise fun a b => Dirn ux a.1 b.1 := by
    rcases hm.1 with h | h
    · exact ⟨true, h⟩
    · exact ⟨false, h⟩
  obtain ⟨uy, huy⟩ : ∃ uy : Bool, (start :: path).Pairwise fun a b => Dirn uy a.2 b.2 := by
    rcases hm.2 with h | h
    · exact ⟨true, h⟩
    · exact ⟨false, h⟩
  have hbx := axis_start ux hd start.1
  have hby := axis_start uy hd start.2
  simp only [baseFrame] at h
  cases hg : path.getLast? with
  | none => simp [hg] at h
  | some goal =>
    have hgoal : goal ∈ path := List.mem_of_getLast? hg
    have bx := between hux hg
    have by' := between huy hg
    simp only [hg, Option.bind_eq_bind, Option.bind_some] at h
    by_cases h1 : pointIn (around start d) goal 0 = true
    · simp only [h1, if_true] at h
      split at h
      · simp at h
      · rename_i hne
        simp only [Option.some.injEq, Prod.mk.injEq] at h
        obtain ⟨rfl, rfl⟩ := h
        refine ⟨List.prefix_rfl, hne, fun p hp => ?_⟩
        simp only [pointIn, add_zero, sub_zero, Bool.and_eq_true, decide_eq_true_eq, around] at h1
        have a1 := Dirn.mid (bx p hp).1 (bx p hp).2 (by linarith : start.1 - d ≤ start.1) (by linarith : start.1 ≤ start.1 + d) h1.1.1.le h1.1.2.le
        have a2 := Dirn.mid (by' p hp).1 (by' p hp).2 (by linarith : start.2 - d ≤ start.2) (by linarith : start.2 ≤ start.2 + d) h1.2.1.le h1.2.2.le
        exact ⟨a1.1, a1.2, a2.1, a2.2⟩
    · simp only [h1, if_false, Bool.false_eq_true] at h
      by_cases h2 : hit (extend d (around start d) start goal) = true
      · simp only [h2, if_true] at h
        have h3 := baseLoop_inside hit hd start ux uy path (around start d) [] hbx hby hux huy
        obtain ⟨t, h4, h5⟩ := baseLoop_prefix hit d start path (around start d) []
        split at h
        · simp at h
        · rename_i hne
          simp only [Option.some.injEq] at h
          rw [h] at h3 h5 hne
          simp only [List.nil_append] at h5
          exact ⟨h5 ▸ h4, hne, h3⟩
      · simp only [h2, if_false, Bool.false_eq_true] at h
        split at h
        · simp at h
        · rename_i hne
          simp only [Option.some.injEq, Prod.mk.injEq] at h
          obtain ⟨rfl, rfl⟩ := h
          refine ⟨List.prefix_rfl, hne, fun p hp => ?_⟩
          have ex := axis_inside (axis_extend hd hbx ((List.pairwise_cons.1 hux).1 goal hgoal)) goal.1 (by simp)
          have ey := axis_inside (axis_extend hd hby ((List.pairwise_cons.1 huy).1 goal hgoal)) goal.2 (by simp)
          have sx := start_inside hd (axis_extend hd hbx ((List.pairwise_cons.1 hux).1 goal hgoal))
          have sy := start_inside hd (axis_extend hd hby ((List.pairwise_cons.1 huy).1 goal hgoal))
          have a1 := Dirn.mid (bx p hp).1 (bx p hp).2 sx.1 sx.2 ex.1 ex.2
          have a2 := Dirn.mid (by' p hp).1 (by' p hp).2 sy.1 sy.2 ey.1 ey.2
          exact ⟨a1.1, a1.2, a2.1, a2.2⟩

/-- C72: scaling up only adds waypoints that lie in the frame, and drops none. -/
theorem C72_scaled (f : Lim K) (rest w : List (K × K)) (h : ∀ p ∈ w, Spec.Inside f p) :
    w <+: moreWaypoints f rest w ∧ ∀ p ∈ moreWaypoints f rest w, Spec.Inside f p := by
  induction rest generalizing w with
  | nil => exact ⟨List.prefix_rfl, h⟩
  | cons p rest ih =>
    unfold moreWaypoints
    by_cases hp : pointIn f p 0 = true
    · rw [if_pos hp]
      split
      · exact ih w h
      · obtain ⟨a, b⟩ := ih (w ++ [p]) (by
          intro q hq
          rcases List.mem_append.1 hq with hq | hq
          · exact h q hq
          · rw [List.mem_singleton] at hq
            subst hq
            simp only [pointIn, add_zero, sub_zero, Bool.and_eq_true, decide_eq_true_eq] at hp
            exact ⟨hp.1.1.le, hp.1.2.le, hp.2.1.le, hp.2.2.le⟩)
        exact ⟨(List.prefix_append _ _).trans a, b⟩
    · rw [if_neg hp]
      exact ⟨List.prefix_rfl, h⟩

/-- C72: the waypoints of a finished corridor frame lie in it, if the way does not turn back. -/
theorem C72_partial {hit : Lim K → Bool} {d step : K} (hd : 0 ≤ d) (hs : 0 ≤ step) {start : K × K} {path rest pts : List (K × K)}
    {f b room : Lim K} {fuel : ℕ} (hm : Spec.Monotone (start :: path)) (hb : baseFrame hit d start path = some (f, pts))
    (hstart : hit (around start d) = false) (hroom : Spec.Within f room) (h : scaleUp hit room step fuel f = some b) :
    pts <+: moreWaypoints b rest pts ∧ ∀ p ∈ moreWaypoints b rest pts, Spec.Inside b p := by
  refine C72_scaled b rest pts fun p hp => ?_
  obtain ⟨h1, h2, h3, h4⟩ := (C72_base_partial hit hd start path f pts hb hm).2.2 p hp
  obtain ⟨w1, w2, w3, w4⟩ := (C71_partial hs h hroom (C71_base_partial hit d start path f pts hb hstart)).1
  exact ⟨w1.trans h1, h2.trans w3, w2.trans h3, h4.trans w4⟩

/-- C74: reshaping keeps the start position in the current frame and the end of the next frame in that one, keeps both free of
stationary obstacles, and keeps every point that the frames have in common. -/
theorem C74_lshape (hit : Lim K → Bool) (start a b c : K × K) (f1 f2 : Lim K) :
    let r := lShape hit start a b c f1 f2
    (pointIn f1 start 0 = true → hit f1 = false → pointIn r.1 start 0 = true ∧ hit r.1 = false) ∧
    (pointIn f2 c 0 = true → hit f2 = false → pointIn r.2 c 0 = true ∧ hit r.2 = false) ∧
    (∀ p, Spec.Inside f1 p → Spec.Inside f2 p → Spec.Inside r.1 p ∧ Spec.Inside r.2 p) := by
  intro r
  have h1 : (pointIn f1 start 0 = true → hit f1 = false → pointIn r.1 start 0 = true ∧ hit r.1 = false) ∧
      (∀ p, Spec.Inside f1 p → Spec.Inside f2 p → Spec.Inside r.1 p) := by
    show (_ → _ → pointIn (match frameIntersection f2 a b with | none => f1 | some q => reshape1 hit start f1 f2 q) start 0 = true ∧
      hit (match frameIntersection f2 a b with | none => f1 | some q => reshape1 hit start f1 f2 q) = false) ∧
      (∀ p, _ → _ → Spec.Inside (match frameIntersection f2 a b with | none => f1 | some q => reshape1 hit start f1 f2 q) p)
    cases frameIntersection f2 a b with
    | none => exact ⟨fun x y => ⟨x, y⟩, fun p x _ => x⟩
    | some q => exact ⟨fun x y => (reshape1_spec hit start f1 f2 q).1 ⟨x, y⟩, (reshape1_spec hit start f1 f2 q).2⟩
  have hr2 : r.2 = match frameIntersection r.1 b c with | none => f2 | some q => reshape2 hit c r.1 f2 q := rfl
  refine ⟨h1.1, ?_, fun p x y => ⟨h1.2 p x y, ?_⟩⟩
  · intro x y
    rw [hr2]
    cases frameIntersection r.1 b c with
    | none => exact ⟨x, y⟩
    | some q => exact (reshape2_spec hit c r.1 f2 q).1 ⟨x, y⟩
  · rw [hr2]
    cases frameIntersection r.1 b c with
    | none => exact y
    | some q => exact (reshape2_spec hit c r.1 f2 q).2 p (h1.2 p x y) y

/-! ## Violations and examples -/

/-- A way that turns back: the frame around the second and the third waypoint has lost the first one, also after scaling up, because
of an obstacle beside the way. -/
theorem C72_violated :
    let os : List (Obst ℚ) := [⟨.rect 100 1 0, none, (0, 40), (0, 0)⟩, ⟨.rect 1 1 0, none, (9, 5), (0, 0)⟩]
    let path : List (ℚ × ℚ) := [(10, 0), (5, 0), (6, 5), (6, 50)]
    ∃ f b, baseFrame (hitBy os) 1 (0, 0) path = some (f, [(10, 0), (5, 0), (6, 5)]) ∧
      scaleUp (hitBy os) ⟨-60, -60, 60, 60⟩ 1 60 f = some b ∧
      moreWaypoints b [(6, 5), (6, 50)] [(10, 0), (5, 0), (6, 5)] = [(10, 0), (5, 0), (6, 5)] ∧ ¬Spec.Inside b (10, 0) := by
  refine ⟨⟨-1, -1, 7, 6⟩, ⟨-60, -60, 8, 39⟩, by decide +kernel, by decide +kernel, by decide +kernel, ?_⟩
  norm_num [Spec.Inside]

/-- A corridor between two obstacles: the frame, before and after scaling up. -/
example :
    let os : List (Obst ℚ) := [⟨.rect 10 1 0, none, (0, 4), (0, 0)⟩, ⟨.circle 1, none, (8, 0), (0, 0)⟩]
    let path : List (ℚ × ℚ) := [(0, 0), (2, 0), (4, -1), (9, -2)]
    let f : Lim ℚ := ⟨-1, -2, 5, 1⟩
    let b : Lim ℚ := ⟨-10, -10, 6, 3⟩
    hitBy os (around (0, 0) 1) = false ∧ baseFrame (hitBy os) 1 (0, 0) path = some (f, [(0, 0), (2, 0), (4, -1)]) ∧
      scaleUp (hitBy os) ⟨-10, -10, 10, 10⟩ 1 40 f = some b ∧ moreWaypoints b [(4, -1), (9, -2)] [(0, 0), (2, 0), (4, -1)] =
        [(0, 0), (2, 0), (4, -1)] ∧ Spec.Within f ⟨-10, -10, 10, 10⟩ ∧ (-10 : ℚ) ≤ b.ymin ∧ Spec.Monotone ((0, 0) :: path) := by
  refine ⟨by decide +kernel, by decide +kernel, by decide +kernel, by decide +kernel, ?_, le_refl _, ?_, ?_⟩
  · norm_num [Spec.Within]
  · left; decide +kernel
  · right; decide +kernel

/-- The current frame is cut to the width of the next one; the next one is extended to the lower side of the current one. -/
example :
    let f1 : Lim ℚ := ⟨0, 0, 10, 2⟩
    let f2 : Lim ℚ := ⟨4, 1, 6, 9⟩
    lShape (fun _ => false) (1, 1) (1, 1) (5, 3 / 2) (5, 8) f1 f2 = (⟨0, 0, 6, 2⟩, ⟨4, 0, 6, 9⟩) := by decide +kernel

end Verif.Frames
