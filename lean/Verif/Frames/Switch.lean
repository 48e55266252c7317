import Verif.Frames.Reach

/-! # Changing from one frame to the next (C183)

Mirrors `omgtools/problems/schedulerproblem.py:138-170, 241-248, 309-473` for one frame at a time (`n_frames = 1`, the default), with the
constructor of corridor frames, `omgtools/environment/frame.py:522-546`. -/

set_option linter.unusedSectionVars false

namespace Verif.Frames

variable {K : Type} [Field K] [LinearOrder K] [IsStrictOrderedRing K]

/-! ## Model -/

/-- A corridor frame: `start_pos`, `border['limits']`, `waypoints` and `endpoint`. -/
structure Corr (K : Type) where
  start : K × K
  border : Lim K
  waypoints : List (K × K)
  endpoint : K × K
  deriving DecidableEq

/-- What the scheduler knows for the whole run: whether a rectangle meets a stationary obstacle, the room, the step with which frames
are enlarged (and how many steps are tried at most), `veh_size`, `margin` and the goal position. -/
structure Plan (K : Type) where
  hit : Lim K → Bool
  room : Lim K
  step : K
  fuel : ℕ
  veh : K
  margin : K
  goal : K × K

/-- The constructor of `CorridorFrame`, frame.py:522-546 with 565 and 762: `none` stands for the exceptions and for more than `fuel`
steps.  The lists of obstacles are left out. -/
def Plan.corridor (c : Plan K) (start : K × K) (path : List (K × K)) : Option (Corr K) := do
  let i ← findClosest (c.room.xmax - c.room.xmin) (c.room.ymax - c.room.ymin) start path
  let (f, pts) ← baseFrame c.hit (c.veh * c.margin) start (path.drop i)
  let b ← scaleUp c.hit c.room c.step c.fuel f
  let last ← pts.getLast?
  let ws := moreWaypoints b (path.drop (path.idxOf last)) pts
  let rs ← movePoint c.veh c.margin b ws.reverse
  let e ← rs.head?
  some ⟨start, b, rs.reverse, e⟩

/-- `frames[0]`, `next_frame` and `cnt` of the scheduler. -/
structure One (K : Type) where
  frame : Corr K
  next : Option (Corr K)
  cnt : ℕ
  deriving DecidableEq

/-- `create_next_frame` for corridor frames, schedulerproblem.py:385-407: `some none` is the result `None`, `none` an exception. -/
def Plan.createNext (c : Plan K) (path : List (K × K)) (f : Corr K) : Option (Option (Corr K)) :=
  if f.endpoint ≠ c.goal then (c.corridor f.endpoint path).map some else some none

/-- `reinitialize` with `create_frames`, schedulerproblem.py:112-121, 326-361, for corridor frames without L-shapes: `curr` is the
position of the vehicle. -/
def Plan.start (c : Plan K) (curr : K × K) (path : List (K × K)) : Option (One K) := do
  let f ← c.corridor curr path
  let n ← c.createNext path f
  some ⟨f, n, 1⟩

/-- `check_frames`, schedulerproblem.py:409-431, for one frame: is the frame still valid?  `none` stands for the `AttributeError` when
`next_frame` is `None`. -/
def Plan.valid (c : Plan K) (s : One K) (curr : K × K) : Option Bool :=
  if !pointIn s.frame.border c.goal 0 then
    match s.next with
    | none => none
    | some g => some (!pointIn g.border curr c.veh)
  else some true

/-- What `solve` does with the frames, schedulerproblem.py:138-163 with 433-461: `curr` is the position of the vehicle, `path` the path the
global planner finds from there, with the goal appended. -/
def Plan.solve (c : Plan K) (s : One K) (curr : K × K) (path : List (K × K)) : Option (One K) := do
  let v ← c.valid s curr
  if !v then
    let g ← s.next
    let n ← c.createNext path g
    some ⟨g, n, s.cnt + 1⟩
  else some s

/-- A sequence of calls of `solve`. -/
def Plan.run (c : Plan K) : List ((K × K) × List (K × K)) → One K → Option (One K)
  | [], s => some s
  | (curr, path) :: rest, s => (c.solve s curr path).bind (c.run rest)

/-- `stop_criterium`, schedulerproblem.py:241-248: `arrived` is the answer of the local problem. -/
def Plan.stops (c : Plan K) (s : One K) (arrived : Bool) : Bool := decide (s.frame.endpoint = c.goal) && arrived

/-- `create_next_frame` for shifted frames, schedulerproblem.py:385-396: the constructor is called without `veh_size` and `margin`, which
raises a `TypeError`. -/
def nextShift (goal : K × K) (f : Shifted K) : Option (Option (Shifted K)) :=
  if f.endpoint ≠ some goal then none else some none

/-- `create_frames` at the start, schedulerproblem.py:326-361, for one shifted frame. -/
def startShift (o : ShiftOpt K) (room : Lim K) (goal curr : K × K) (path : List (K × K)) : Option (Shifted K × Option (Shifted K)) := do
  let f ← shiftFrame o room curr path
  let n ← nextShift goal f
  some (f, n)

/-- `create_frames` at the start with the option `l_shape`, schedulerproblem.py:326-370: `next_frame` is always an attribute, so
`create_l_shape` is called with it even when it is `None`. -/
def Plan.startL (c : Plan K) (curr : K × K) (path : List (K × K)) : Option (One K) := do
  let s ← c.start curr path
  let g ← s.next
  let a ← s.frame.waypoints.head?
  let b ← g.waypoints.head?
  let d ← g.waypoints.getLast?
  let r := lShape c.hit s.frame.start a b d s.frame.border g.border
  some ⟨{ s.frame with border := r.1 }, some { g with border := r.2 }, s.cnt⟩

/-! ## Specification -/

/-- A point is inside a rectangle, farther than `d` from every side. -/
def Spec.Well (f : Lim K) (d : K) (p : K × K) : Prop := (f.xmin + d < p.1 ∧ p.1 < f.xmax - d) ∧ f.ymin + d < p.2 ∧ p.2 < f.ymax - d

/-- The vehicle at `curr` is handed over from one frame to the next: the goal is not in the old frame, the new one starts where the old
one ends, and the vehicle is in it with its whole size. -/
structure Spec.Handover (c : Plan K) (curr : K × K) (f g : Corr K) : Prop where
  notyet : ¬Spec.Well f.border 0 c.goal
  onward : f.endpoint ≠ c.goal
  linked : g.start = f.endpoint
  fits : Spec.Well g.border c.veh curr

/-! ## Lemmas -/

theorem pointIn_iff (f : Lim K) (p : K × K) (d : K) : pointIn f p d = true ↔ Spec.Well f d p := by
  simp only [pointIn, Bool.and_eq_true, decide_eq_true_eq, Spec.Well]

theorem corridor_start {c : Plan K} {start : K × K} {path : List (K × K)} {f : Corr K} (h : c.corridor start path = some f) :
    f.start = start := by
  simp only [Plan.corridor, Option.bind_eq_bind] at h
  obtain ⟨i, _, h⟩ := Option.bind_eq_some_iff.1 h
  obtain ⟨⟨f', pts⟩, _, h⟩ := Option.bind_eq_some_iff.1 h
  simp only at h
  obtain ⟨b, _, h⟩ := Option.bind_eq_some_iff.1 h
  obtain ⟨l, _, h⟩ := Option.bind_eq_some_iff.1 h
  obtain ⟨rs, _, h⟩ := Option.bind_eq_some_iff.1 h
  obtain ⟨e, _, h⟩ := Option.bind_eq_some_iff.1 h
  simp only [Option.some.injEq] at h
  rw [← h]

/-- What holds between the calls. -/
structure Sound (c : Plan K) (s : One K) : Prop where
  none : s.next = none ↔ s.frame.endpoint = c.goal
  some : ∀ g, s.next = some g → g.start = s.frame.endpoint

theorem createNext_sound {c : Plan K} {path : List (K × K)} {f : Corr K} {n : Option (Corr K)} (k : ℕ) (h : c.createNext path f = some n) :
    Sound c ⟨f, n, k⟩ := by
  unfold Plan.createNext at h
  split at h
  · rename_i hne
    rw [Option.map_eq_some_iff] at h
    obtain ⟨g, hg, rfl⟩ := h
    refine ⟨⟨fun e => by simp at e, fun e => absurd e hne⟩, fun g' e => ?_⟩
    simp only [Option.some.injEq] at e
    subst e
    exact corridor_start hg
  · rename_i he
    simp only [ne_eq, not_not] at he
    simp only [Option.some.injEq] at h
    subst h
    exact ⟨⟨fun _ => he, fun _ => rfl⟩, fun g' e => by simp at e⟩

theorem start_sound {c : Plan K} {curr : K × K} {path : List (K × K)} {s : One K} (h : c.start curr path = some s) :
    Sound c s ∧ s.frame.start = curr ∧ s.cnt = 1 := by
  simp only [Plan.start, Option.bind_eq_bind] at h
  obtain ⟨f, hf, h⟩ := Option.bind_eq_some_iff.1 h
  obtain ⟨n, hn, h⟩ := Option.bind_eq_some_iff.1 h
  simp only [Option.some.injEq] at h
  subst h
  exact ⟨createNext_sound 1 hn, corridor_start hf, rfl⟩

theorem solve_cases {c : Plan K} {s s' : One K} {curr : K × K} {path : List (K × K)} (hs : Sound c s) (h : c.solve s curr path = some s') :
    s' = s ∨ (Spec.Handover c curr s.frame s'.frame ∧ s'.cnt = s.cnt + 1 ∧ Sound c s') := by
  simp only [Plan.solve, Option.bind_eq_bind] at h
  obtain ⟨v, hv, h⟩ := Option.bind_eq_some_iff.1 h
  cases v with
  | true => simp only [Bool.not_true, Bool.false_eq_true, if_false, Option.some.injEq] at h; exact .inl h.symm
  | false =>
    simp only [Bool.not_false, if_true] at h
    obtain ⟨g, hg, h⟩ := Option.bind_eq_some_iff.1 h
    obtain ⟨n, hn, h⟩ := Option.bind_eq_some_iff.1 h
    simp only [Option.some.injEq] at h
    subst h
    unfold Plan.valid at hv
    split at hv
    · rename_i hgoal
      rw [hg] at hv
      simp only [Option.some.injEq, Bool.not_eq_false'] at hv
      refine .inr ⟨⟨?_, ?_, hs.some g hg, (pointIn_iff _ _ _).1 hv⟩, rfl, createNext_sound _ hn⟩
      · rw [← pointIn_iff]; simpa using hgoal
      · intro e
        rw [hs.none.2 e] at hg
        simp at hg
    · simp at hv

theorem run_sound {c : Plan K} {hist : List ((K × K) × List (K × K))} {s s' : One K} (hs : Sound c s) (h : c.run hist s = some s') :
    Sound c s' := by
  induction hist generalizing s with
  | nil => simp only [Plan.run, Option.some.injEq] at h; rwa [← h]
  | cons p hist ih =>
    obtain ⟨curr, path⟩ := p
    simp only [Plan.run] at h
    obtain ⟨s1, h1, h2⟩ := Option.bind_eq_some_iff.1 h
    rcases solve_cases hs h1 with e | ⟨_, _, e⟩
    · exact ih (by rwa [e]) h2
    · exact ih e h2

/-- The base frame on a way that does not turn back contains the surroundings of the start position. -/
theorem extend_around {d : K} {f : Lim K} {start prev p : K × K} (h : Spec.Within (around start d) f)
    (hx : (start.1 ≤ prev.1 ∧ prev.1 ≤ p.1) ∨ (p.1 ≤ prev.1 ∧ prev.1 ≤ start.1))
    (hy : (start.2 ≤ prev.2 ∧ prev.2 ≤ p.2) ∨ (p.2 ≤ prev.2 ∧ prev.2 ≤ start.2)) : Spec.Within (around start d) (extend d f prev p) := by
  obtain ⟨h1, h2, h3, h4⟩ := h
  simp only [around] at h1 h2 h3 h4
  unfold extend Spec.Within around
  simp only
  refine ⟨?_, ?_, ?_, ?_⟩ <;> (repeat' split) <;> rcases hx with hx | hx <;> rcases hy with hy | hy <;> linarith [hx.1, hx.2, hy.1, hy.2]

/-- Every step of the way leads on from the start position. -/
def Onward (start : K × K) (l : List (K × K)) : Prop :=
  ((l.Pairwise (fun a b => a.1 ≤ b.1) ∧ ∀ p ∈ l, start.1 ≤ p.1) ∨ (l.Pairwise (fun a b => b.1 ≤ a.1) ∧ ∀ p ∈ l, p.1 ≤ start.1)) ∧
    ((l.Pairwise (fun a b => a.2 ≤ b.2) ∧ ∀ p ∈ l, start.2 ≤ p.2) ∨ (l.Pairwise (fun a b => b.2 ≤ a.2) ∧ ∀ p ∈ l, p.2 ≤ start.2))

theorem onward_of {start : K × K} {l : List (K × K)} (h : Spec.Monotone (start :: l)) : Onward start l := by
  obtain ⟨hx, hy⟩ := h
  constructor
  · rcases hx with hx | hx
    · exact .inl ⟨(List.pairwise_cons.1 hx).2, (List.pairwise_cons.1 hx).1⟩
    · exact .inr ⟨(List.pairwise_cons.1 hx).2, (List.pairwise_cons.1 hx).1⟩
  · rcases hy with hy | hy
    · exact .inl ⟨(List.pairwise_cons.1 hy).2, (List.pairwise_cons.1 hy).1⟩
    · exact .inr ⟨(List.pairwise_cons.1 hy).2, (List.pairwise_cons.1 hy).1⟩

theorem onward_step {start p : K × K} {pts rest : List (K × K)} (h : Onward start (pts ++ p :: rest)) :
    ((start.1 ≤ ((pts.getLast?).getD start).1 ∧ ((pts.getLast?).getD start).1 ≤ p.1) ∨
      (p.1 ≤ ((pts.getLast?).getD start).1 ∧ ((pts.getLast?).getD start).1 ≤ start.1)) ∧
    ((start.2 ≤ ((pts.getLast?).getD start).2 ∧ ((pts.getLast?).getD start).2 ≤ p.2) ∨
      (p.2 ≤ ((pts.getLast?).getD start).2 ∧ ((pts.getLast?).getD start).2 ≤ start.2)) := by
  have hp : p ∈ pts ++ p :: rest := by simp
  rcases List.eq_nil_or_concat pts with rfl | ⟨l, q, rfl⟩
  · simp only [List.getLast?_nil, Option.getD_none, le_refl, true_and, and_true]
    exact ⟨h.1.imp (fun a => a.2 p hp) (fun a => a.2 p hp), h.2.imp (fun a => a.2 p hp) (fun a => a.2 p hp)⟩
  · have hq : q ∈ (l ++ [q]) ++ p :: rest := by simp
    simp only [List.concat_eq_append, List.getLast?_append, List.getLast?_singleton, Option.some_or, Option.getD_some] at h hp ⊢
    have hqp : ∀ {r : K × K → K × K → Prop}, ((l ++ [q]) ++ p :: rest).Pairwise r → r q p := by
      intro r hr
      exact (List.pairwise_append.1 hr).2.2 q (by simp) p (by simp)
    exact ⟨h.1.imp (fun a => ⟨a.2 q hq, hqp a.1⟩) (fun a => ⟨hqp a.1, a.2 q hq⟩),
      h.2.imp (fun a => ⟨a.2 q hq, hqp a.1⟩) (fun a => ⟨hqp a.1, a.2 q hq⟩)⟩

theorem baseLoop_around (hit : Lim K → Bool) {d : K} {start : K × K} (path : List (K × K)) (f : Lim K) (pts : List (K × K))
    (ho : Onward start (pts ++ path)) (h : Spec.Within (around start d) f) : Spec.Within (around start d) (baseLoop hit d start path f pts).1 := by
  induction path generalizing f pts with
  | nil => exact h
  | cons p rest ih =>
    have ho' : Onward start ((pts ++ [p]) ++ rest) := by simpa using ho
    simp only [baseLoop]
    split
    · exact ih _ _ ho' h
    · split
      · exact h
      · exact ih _ _ ho' (extend_around h (onward_step ho).1 (onward_step ho).2)

theorem baseFrame_around {hit : Lim K → Bool} {d : K} {start : K × K} {path : List (K × K)} {r : Lim K × List (K × K)}
    (h : baseFrame hit d start path = some r) (ho : Onward start path) : Spec.Within (around start d) r.1 := by
  simp only [baseFrame] at h
  cases hg : path.getLast? with
  | none => simp [hg] at h
  | some goal =>
    have hgm : goal ∈ path := List.mem_of_getLast? hg
    simp only [hg, Option.bind_eq_bind, Option.bind_some] at h
    have h : (if pointIn (around start d) goal 0 = true then (around start d, path)
        else if hit (extend d (around start d) start goal) = true then baseLoop hit d start path (around start d) []
        else (extend d (around start d) start goal, path)) = r := by
      generalize (if pointIn (around start d) goal 0 = true then (around start d, path)
        else if hit (extend d (around start d) start goal) = true then baseLoop hit d start path (around start d) []
        else (extend d (around start d) start goal, path)) = q at h
      split at h
      · simp at h
      · simpa using h
    rw [← h]
    · split
      · exact within_refl _
      · split
        · exact baseLoop_around hit path _ [] (by simpa using ho) (within_refl _)
        · refine extend_around (within_refl _) ?_ ?_
          · exact ho.1.imp (fun a => ⟨le_rfl, a.2 goal hgm⟩) (fun a => ⟨a.2 goal hgm, le_rfl⟩)
          · exact ho.2.imp (fun a => ⟨le_rfl, a.2 goal hgm⟩) (fun a => ⟨a.2 goal hgm, le_rfl⟩)

theorem withSide_keeps {a f : Lim K} (h : Spec.Within a f) (x : K) (dir : Dir)
    (hx : match dir with | .right => a.xmax ≤ x | .up => a.ymax ≤ x | .left => x ≤ a.xmin | .down => x ≤ a.ymin) :
    Spec.Within a (f.withSide x dir) := by
  obtain ⟨h1, h2, h3, h4⟩ := h
  cases dir <;> simp only [Lim.withSide, Spec.Within] <;> simp only at hx <;> exact ⟨by assumption, by assumption, by assumption, by assumption⟩

theorem growLoop_keeps {hit : Lim K → Bool} {room a : Lim K} {step : K} (hs : 0 ≤ step) {dir : Dir} {k : ℕ} {cur : Lim K}
    {r : Lim K × Lim K} (h : growLoop hit room step dir k cur = some r) (ha : Spec.Within a cur) : Spec.Within a r.1 ∧ Spec.Within a r.2 := by
  induction k generalizing cur with
  | zero => simp [growLoop] at h
  | succ k ih =>
    have hn : Spec.Within a (cur.withSide (outwards (cur.side dir) step dir) dir) := by
      refine withSide_keeps ha _ _ ?_
      obtain ⟨h1, h2, h3, h4⟩ := ha
      cases dir <;> simp only [outwards, Lim.side] <;> linarith
    simp only [growLoop] at h
    split at h
    · simp only [Option.some.injEq] at h; rw [← h]; exact ⟨ha, hn⟩
    · split at h
      · exact ih h hn
      · simp only [Option.some.injEq] at h; rw [← h]; exact ⟨ha, ha⟩

theorem grow_keeps {hit : Lim K → Bool} {room a : Lim K} {step : K} (hs : 0 ≤ step) {dir : Dir} {k : ℕ} {cur : Lim K}
    {r : Lim K × Lim K} (h : grow hit room step k dir cur = some r) (ha : Spec.Within a cur) (hr : Spec.Within a room) :
    Spec.Within a r.1 ∧ Spec.Within a r.2 := by
  simp only [grow] at h
  split at h
  · have : Spec.Within a (cur.withSide (room.side dir) dir) := by
      refine withSide_keeps ha _ _ ?_
      obtain ⟨h1, h2, h3, h4⟩ := hr
      cases dir <;> simp only [Lim.side] <;> assumption
    simp only [Option.some.injEq] at h; rw [← h]; exact ⟨this, this⟩
  · exact growLoop_keeps hs h ha

theorem scaleUp_keeps {hit : Lim K → Bool} {room a : Lim K} {step : K} (hs : 0 ≤ step) {k : ℕ} {f b : Lim K}
    (h : scaleUp hit room step k f = some b) (ha : Spec.Within a f) (hr : Spec.Within a room) : Spec.Within a b := by
  simp only [scaleUp, Option.bind_eq_bind] at h
  obtain ⟨r1, e1, h⟩ := Option.bind_eq_some_iff.1 h
  obtain ⟨r2, e2, h⟩ := Option.bind_eq_some_iff.1 h
  obtain ⟨r3, e3, h⟩ := Option.bind_eq_some_iff.1 h
  obtain ⟨r4, e4, h⟩ := Option.bind_eq_some_iff.1 h
  simp only [Option.some.injEq] at h
  rw [← h]
  exact (grow_keeps hs e4 (grow_keeps hs e3 (grow_keeps hs e2 (grow_keeps hs e1 ha hr).1 hr).1 hr).1 hr).2

/-- A corridor frame contains the surroundings of its start position, if these are in the room and the way does not turn back. -/
theorem corridor_around {c : Plan K} {start : K × K} {path : List (K × K)} {f : Corr K} (hs : 0 ≤ c.step)
    (h : c.corridor start path = some f)
    (hm : ∀ i, findClosest (c.room.xmax - c.room.xmin) (c.room.ymax - c.room.ymin) start path = some i → Spec.Monotone (start :: path.drop i))
    (hr : Spec.Within (around start (c.veh * c.margin)) c.room) :
    Spec.Within (around start (c.veh * c.margin)) f.border := by
  simp only [Plan.corridor, Option.bind_eq_bind] at h
  obtain ⟨i, hi, h⟩ := Option.bind_eq_some_iff.1 h
  obtain ⟨⟨f', pts⟩, hb, h⟩ := Option.bind_eq_some_iff.1 h
  simp only at h
  obtain ⟨b, hsc, h⟩ := Option.bind_eq_some_iff.1 h
  obtain ⟨l, _, h⟩ := Option.bind_eq_some_iff.1 h
  obtain ⟨rs, _, h⟩ := Option.bind_eq_some_iff.1 h
  obtain ⟨e, _, h⟩ := Option.bind_eq_some_iff.1 h
  simp only [Option.some.injEq] at h
  rw [← h]
  exact scaleUp_keeps hs hsc (baseFrame_around hb (onward_of (hm i hi))) hr

/-! ## Properties -/

/-- C183: whatever the vehicle does and whatever paths the global planner finds, from the start on every call of `solve` that does not
fail keeps the frame or hands the vehicle over to the next one; the run only stops in a frame that ends at the goal. -/
theorem C183_handover {c : Plan K} {curr0 : K × K} {path0 : List (K × K)} {s0 s : One K} {hist : List ((K × K) × List (K × K))}
    (h0 : c.start curr0 path0 = some s0) (hr : c.run hist s0 = some s) :
    s0.frame.start = curr0 ∧ s0.cnt = 1 ∧
      (∀ curr path s', c.solve s curr path = some s' →
        s' = s ∨ (Spec.Handover c curr s.frame s'.frame ∧ s'.cnt = s.cnt + 1)) ∧
      (∀ arrived, c.stops s arrived = true ↔ s.frame.endpoint = c.goal ∧ arrived = true) := by
  obtain ⟨h1, h2, h3⟩ := start_sound h0
  refine ⟨h2, h3, fun curr path s' h => ?_, fun arrived => by simp [Plan.stops]⟩
  exact (solve_cases (run_sound h1 hr) h).imp id fun a => ⟨a.1, a.2.1⟩

/-- C183: when `solve` fails: the frame does not contain the goal, and ends at it all the same (then there is no next frame), or the frame
after the next one is needed and cannot be made. -/
theorem C183_failure {c : Plan K} {curr0 : K × K} {path0 : List (K × K)} {s0 s : One K} {hist : List ((K × K) × List (K × K))}
    (h0 : c.start curr0 path0 = some s0) (hr : c.run hist s0 = some s) (curr : K × K) (path : List (K × K)) :
    c.solve s curr path = none ↔ ¬Spec.Well s.frame.border 0 c.goal ∧
      (s.frame.endpoint = c.goal ∨ ∃ g, s.next = some g ∧ Spec.Well g.border c.veh curr ∧ g.endpoint ≠ c.goal ∧
        c.corridor g.endpoint path = none) := by
  have hs := run_sound (start_sound h0).1 hr
  rw [← pointIn_iff, ← hs.none]
  unfold Plan.solve Plan.valid
  by_cases hg : pointIn s.frame.border c.goal 0 = true
  · simp [hg]
  · cases hn : s.next with
    | none => simp [hg]
    | some g =>
      by_cases hv : pointIn g.border curr c.veh = true
      · have hw := (pointIn_iff _ _ _).1 hv
        by_cases he : g.endpoint = c.goal
        · simp [hg, hv, Plan.createNext, he]
        · simp [hg, hv, Plan.createNext, he, hw]
          cases c.corridor g.endpoint path <;> simp
      · have hw := fun h => hv ((pointIn_iff _ _ _).2 h)
        simp [hg, hv]
        exact fun h => absurd h hw

/-- C183: coming to the end of a frame is enough: as soon as the vehicle is nearer to the endpoint of its frame than the margin, in both
directions, the frame is changed, if the rest of the path, from
the waypoint closest to the endpoint on, does not turn back and the surroundings of the endpoint are in the room. -/
theorem C183_progress_partial {c : Plan K} {f g : Corr K} {cnt : ℕ} {curr : K × K} {old path : List (K × K)} (hs : 0 ≤ c.step)
    (hg : c.createNext old f = some (some g)) (hgoal : ¬Spec.Well f.border 0 c.goal)
    (hm : ∀ i, findClosest (c.room.xmax - c.room.xmin) (c.room.ymax - c.room.ymin) f.endpoint old = some i →
      Spec.Monotone (f.endpoint :: old.drop i))
    (hroom : Spec.Within (around f.endpoint (c.veh * c.margin)) c.room) (hx : |curr.1 - f.endpoint.1| < c.veh * c.margin - c.veh)
    (hy : |curr.2 - f.endpoint.2| < c.veh * c.margin - c.veh) (n : Option (Corr K)) (hn : c.createNext path g = some n) :
    c.solve ⟨f, some g, cnt⟩ curr path = some ⟨g, n, cnt + 1⟩ := by
  have hc : c.corridor f.endpoint old = some g := by
    unfold Plan.createNext at hg
    split at hg
    · simpa using hg
    · simp at hg
  obtain ⟨h1, h2, h3, h4⟩ := corridor_around hs hc hm hroom
  simp only [around] at h1 h2 h3 h4
  have hv : pointIn g.border curr c.veh = true := by
    rw [pointIn_iff]
    rw [abs_lt] at hx hy
    exact ⟨⟨by linarith [hx.1], by linarith [hx.2]⟩, by linarith [hy.1], by linarith [hy.2]⟩
  have hg' : ¬pointIn f.border c.goal 0 = true := by rwa [pointIn_iff]
  simp [Plan.solve, Plan.valid, hv, hg', hn]

/-- C183 fails: if the goal is in the frame but the frame does not end at it, the frame is kept for ever and the run never stops, wherever
the vehicle goes and even if it reaches the end of the frame.  So it happens for a goal closer to the wall than the size of the
vehicle: a square vehicle of size 1, half of it on either side, in a room of size 10 whose goal is 7/10 from the wall is sent to a
point 2/5 before it. -/
theorem C183_stuck_violated :
    (∀ (c : Plan K) (s : One K), Spec.Well s.frame.border 0 c.goal → s.frame.endpoint ≠ c.goal →
      ∀ hist, c.run hist s = some s ∧ ∀ arrived, c.stops s arrived = false) ∧
    ∃ (c : Plan ℚ) (s : One ℚ), c.hit = (fun _ => false) ∧ c.room = ⟨0, 0, 10, 10⟩ ∧ c.veh = 1 ∧ c.margin = 11 / 10 ∧ c.goal = (93 / 10, 5) ∧
      c.start (2, 5) [(2, 5), (35 / 4, 5), (93 / 10, 5)] = some s ∧ Spec.Well s.frame.border 0 c.goal ∧ s.frame.endpoint = (89 / 10, 5) := by
  constructor
  · intro c s h1 h2 hist
    refine ⟨?_, fun arrived => by simp [Plan.stops, h2]⟩
    induction hist with
    | nil => rfl
    | cons p hist ih =>
      obtain ⟨curr, path⟩ := p
      have : c.solve s curr path = some s := by simp [Plan.solve, Plan.valid, (pointIn_iff _ _ _).2 h1]
      simp only [Plan.run, this, Option.bind_some]
      exact ih
  · refine ⟨⟨fun _ => false, ⟨0, 0, 10, 10⟩, 1 / 10, 100, 1, 11 / 10, (93 / 10, 5)⟩,
      ⟨⟨(2, 5), ⟨0, 0, 10, 10⟩, [(2, 5), (35 / 4, 5), (89 / 10, 5)], (89 / 10, 5)⟩,
       some ⟨(89 / 10, 5), ⟨0, 0, 10, 10⟩, [(35 / 4, 5), (89 / 10, 5)], (89 / 10, 5)⟩, 1⟩,
      rfl, rfl, rfl, rfl, rfl, ?_, ?_, rfl⟩
    · decide +kernel
    · norm_num [Spec.Well]

/-- C183 fails for shifted frames, the default: a run can only start if the first frame ends at the goal; in every other case an exception
is raised. -/
theorem C183_shift_violated {o : ShiftOpt K} {room : Lim K} {goal curr : K × K} {path : List (K × K)} {r : Shifted K × Option (Shifted K)}
    (h : startShift o room goal curr path = some r) : r.1.endpoint = some goal ∧ r.2 = none := by
  simp only [startShift, Option.bind_eq_bind] at h
  obtain ⟨f, hf, h⟩ := Option.bind_eq_some_iff.1 h
  obtain ⟨n, hn, h⟩ := Option.bind_eq_some_iff.1 h
  simp only [Option.some.injEq] at h
  subst h
  unfold nextShift at hn
  split at hn
  · simp at hn
  · rename_i he
    simp only [ne_eq, not_not] at he
    simp only [Option.some.injEq] at hn
    exact ⟨he, hn.symm⟩

/-- C183 fails with the option `l_shape`: a run whose first frame ends at the goal raises an exception. -/
theorem C183_lshape_violated {c : Plan K} {curr : K × K} {path : List (K × K)} {f : Corr K} (h : c.corridor curr path = some f)
    (he : f.endpoint = c.goal) : c.start curr path = some ⟨f, none, 1⟩ ∧ c.startL curr path = none := by
  have h1 : c.start curr path = some ⟨f, none, 1⟩ := by simp [Plan.start, h, Plan.createNext, he]
  exact ⟨h1, by simp [Plan.startL, h1]⟩

/-- C183 fails: for a goal that close to the wall the run does not even start if the waypoint before the goal is farther from the end of
the first frame than the goal. -/
theorem C183_wall_violated :
    (⟨fun _ => false, ⟨0, 0, 10, 10⟩, 1 / 10, 100, 1, 11 / 10, (93 / 10, 5)⟩ : Plan ℚ).start (2, 5) [(2, 5), (5, 5), (93 / 10, 5)] = none := by
  decide +kernel

/-- A run around a corner: an obstacle in the upper left part of the room, a vehicle of size 1/2 from (1, 2) to (8, 8). -/
def cornerPlan : Plan ℚ where
  hit f := decide (f.xmin ≤ 6) && decide (4 ≤ f.ymax)
  room := ⟨0, 0, 10, 10⟩
  step := 1 / 10
  fuel := 100
  veh := 1 / 2
  margin := 11 / 10
  goal := (8, 8)

/-- The frame along the lower wall. -/
def cornerFirst : Corr ℚ := ⟨(1, 2), ⟨0, 0, 10, 79 / 20⟩, [(1, 2), (8, 2)], (8, 2)⟩

/-- The frame along the right wall. -/
def cornerSecond : Corr ℚ := ⟨(8, 2), ⟨121 / 20, 0, 10, 10⟩, [(8, 2), (8, 8)], (8, 8)⟩

/-- The frame is kept in the lower corridor and changed in the corner; then nothing fails and the run stops in the second frame. -/
example : cornerPlan.start (1, 2) [(1, 2), (8, 2), (8, 8)] = some ⟨cornerFirst, some cornerSecond, 1⟩ ∧
    cornerPlan.run [((5, 2), [(5, 2), (8, 2), (8, 8)])] ⟨cornerFirst, some cornerSecond, 1⟩ = some ⟨cornerFirst, some cornerSecond, 1⟩ ∧
    cornerPlan.run [((5, 2), [(5, 2), (8, 2), (8, 8)]), ((7, 2), [(7, 2), (8, 2), (8, 8)])] ⟨cornerFirst, some cornerSecond, 1⟩ =
      some ⟨cornerSecond, none, 2⟩ ∧ cornerPlan.stops ⟨cornerSecond, none, 2⟩ true = true := by
  decide +kernel

/-- The hypotheses of `C183_progress_partial` in this run. -/
example : cornerPlan.createNext [(1, 2), (8, 2), (8, 8)] cornerFirst = some (some cornerSecond) ∧
    ¬Spec.Well cornerFirst.border 0 cornerPlan.goal ∧ Spec.Within (around cornerFirst.endpoint (cornerPlan.veh * cornerPlan.margin)) cornerPlan.room ∧
    findClosest (10 : ℚ) 10 cornerFirst.endpoint [(1, 2), (8, 2), (8, 8)] = some 1 ∧ Spec.Monotone [((8 : ℚ), (2 : ℚ)), (8, 2), (8, 8)] ∧
    cornerPlan.createNext [(5, 2), (8, 2), (8, 8)] cornerSecond = some none := by
  refine ⟨by decide +kernel, ?_, ?_, by decide +kernel, ?_, by decide +kernel⟩
  · norm_num [Spec.Well, cornerFirst, cornerPlan]
  · norm_num [Spec.Within, around, cornerFirst, cornerPlan]
  · exact ⟨.inl (by norm_num), .inl (by norm_num)⟩

/-- With shifted frames the same way cannot be started, although the first frame can be made. -/
example : let o : ShiftOpt ℚ := ⟨4, 1, 1 / 2, 11 / 10⟩
    (shiftFrame o ⟨0, 0, 10, 10⟩ (1, 2) [(1, 2), (2, 2), (8, 2), (8, 8)]).isSome = true ∧
      startShift o ⟨0, 0, 10, 10⟩ (8, 8) (1, 2) [(1, 2), (2, 2), (8, 2), (8, 8)] = none := by decide +kernel

/-- With L-shapes a run in an empty room fails at once. -/
example : let c : Plan ℚ := ⟨fun _ => false, ⟨0, 0, 10, 10⟩, 1 / 10, 100, 1 / 2, 11 / 10, (8, 8)⟩
    (c.start (2, 2) [(2, 2), (8, 8)]).isSome = true ∧ c.startL (2, 2) [(2, 2), (8, 8)] = none := by decide +kernel

end Verif.Frames
