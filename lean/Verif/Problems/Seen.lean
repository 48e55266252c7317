import Verif.Timing.KnotClock

/-! # The vehicles of a distributed problem see the obstacles where they are shown (C193) -/

set_option linter.unusedSectionVars false
set_option linter.dupNamespace false

namespace Verif.Seen

open Verif.Timing

variable {K : Type} [Field K] [LinearOrder K] [IsStrictOrderedRing K] [FloorRing K] {Ω : Type}

/-! ## Model -/

/-- The problem of one vehicle: its knot time, the time set with `set_init_time`, its start time, and the obstacles of its environment. -/
structure Local (K Ω : Type) where
  knotTime : K
  initTime : Option K
  start : K
  obstacles : List Ω

/-- A distributed problem: the horizon, the problems of the vehicles, and the obstacles of the environment of the user, which is the one
that is plotted. -/
structure Fleet (K Ω : Type) where
  horizon : K
  problems : List (Local K Ω)
  shown : List Ω

/-- `FormationPoint2point.__init__` and the like, formation.py:28-31, formation_dualdec.py:27-30, rendezvous.py:28-34, for vehicles with the
given knot times. `environment.copy()`, environment.py:67-70, makes new obstacles from their initial values (`fresh`). -/
def create (fresh : Ω → Ω) (horizon : K) (knotTimes : List K) (env : List Ω) : Fleet K Ω :=
  ⟨horizon, knotTimes.map fun kt => ⟨kt, none, 0, env.map fresh⟩, env⟩

/-- `DistributedProblem.initialize`, distributedproblem.py:188-190 and point2point.py:95-96. -/
def start (t : K) (w : Fleet K Ω) : Fleet K Ω := { w with problems := w.problems.map fun p => { p with start := t } }

/-- `rel_current_time`, point2point.py:236-240. -/
def Local.rel (p : Local K Ω) (t : K) : K :=
  match p.initTime with
  | none => pyMod (round6 (t - p.start)) p.knotTime
  | some s => s

/-- `FixedTPoint2point.simulate`, point2point.py:235-244, and `Problem.simulate`, problem.py:187-192. `sim` is `Environment.simulate`. -/
def Local.simulate (sim : K → K → List Ω → List Ω) (H t u ts : K) (p : Local K Ω) : Local K Ω :=
  { p with obstacles := sim (if H - p.rel t < u then H - p.rel t else u) ts p.obstacles }

/-- `DistributedProblem.simulate`, distributedproblem.py:206-214. -/
def simulate (sim : K → K → List Ω → List Ω) (t u ts : K) (w : Fleet K Ω) : Fleet K Ω :=
  { w with
    problems := w.problems.map (Local.simulate sim w.horizon t u ts)
    shown := sim (if w.horizon < u then w.horizon else u) ts w.shown }

/-- `DistributedProblem.sleep`, distributedproblem.py:216-219, and `Problem.sleep`, problem.py:194-207. -/
def sleep (sim : K → K → List Ω → List Ω) (u ts : K) (w : Fleet K Ω) : Fleet K Ω :=
  { w with
    problems := w.problems.map fun p => { p with obstacles := sim u ts p.obstacles }
    shown := sim u ts w.shown }

/-- `environment.add_obstacle(o)` by the user, environment.py:76-88. -/
def add (o : Ω) (w : Fleet K Ω) : Fleet K Ω := { w with shown := w.shown ++ [o] }

/-- `obstacle.set_state(...)` of obstacle `k` of the user's environment, obstacle.py:161-166, as in examples/deployer_example.py:66. -/
def measure (k : ℕ) (o : Ω) (w : Fleet K Ω) : Fleet K Ω := { w with shown := w.shown.set k o }

/-- `problem.problems[n].environment.obstacles[k].set_state(...)` for all `n`, as in the ROS example, motionplanner.py:113. -/
def measureEach (k : ℕ) (o : Ω) (w : Fleet K Ω) : Fleet K Ω :=
  { w with problems := w.problems.map fun p => { p with obstacles := p.obstacles.set k o } }

inductive Op (K Ω : Type) where
  | start (t : K)
  | simulate (t u ts : K)
  | sleep (u ts : K)
  | add (o : Ω)
  | measure (k : ℕ) (o : Ω)
  | measureEach (k : ℕ) (o : Ω)

def Op.run (sim : K → K → List Ω → List Ω) (w : Fleet K Ω) : Op K Ω → Fleet K Ω
  | .start t => Seen.start t w
  | .simulate t u ts => Seen.simulate sim t u ts w
  | .sleep u ts => Seen.sleep sim u ts w
  | .add o => Seen.add o w
  | .measure k o => Seen.measure k o w
  | .measureEach k o => Seen.measureEach k o w

/-! ## Specification -/

/-- Every vehicle plans with the obstacles that are shown. -/
def Spec.Seen (w : Fleet K Ω) : Prop := ∀ p ∈ w.problems, p.obstacles = w.shown

/-- All vehicles plan with the same obstacles. -/
def Spec.Same (w : Fleet K Ω) : Prop := ∀ p ∈ w.problems, ∀ q ∈ w.problems, p.obstacles = q.obstacles

/-- A simulator's call: starts, pauses, and steps that are either not longer than the horizon less a knot interval, or taken at a start
(whatever their length; `run_once` asks for infinity). -/
def Spec.Short (H L : K) : K → Op K Ω → Prop
  | _, .start _ => True
  | s, .simulate t u _ => u ≤ H - L ∨ t = s
  | _, .sleep _ _ => True
  | _, .measureEach _ _ => True
  | _, _ => False

/-- The same for a list of calls, with the time of the last start. -/
def Spec.Calls (H L : K) : K → List (Op K Ω) → Prop
  | _, [] => True
  | s, op :: l => Spec.Short H L s op ∧ Spec.Calls H L (match op with | .start t => t | _ => s) l

/-! ## Lemmas -/

theorem pyMod_lt (a : K) {b : K} (hb : 0 < b) : 0 ≤ pyMod a b ∧ pyMod a b < b := by
  unfold pyMod
  have h1 := Int.floor_le (a / b)
  have h2 := Int.lt_floor_add_one (a / b)
  rw [le_div_iff₀ hb] at h1
  rw [div_lt_iff₀ hb] at h2
  constructor
  · linarith
  · have : (⌊a / b⌋ + 1 : K) * b = ⌊a / b⌋ * b + b := by ring
    linarith

theorem rel_start (kt s : K) (obs : List Ω) : Local.rel ⟨kt, none, s, obs⟩ s = 0 := by
  simp [Local.rel, pyMod, round6]

/-- What holds of all problems during a run. -/
def Running (L s : K) (w : Fleet K Ω) : Prop := ∀ p ∈ w.problems, p.initTime = none ∧ p.start = s ∧ 0 < p.knotTime ∧ p.knotTime ≤ L

theorem clip {L s t u H : K} {p : Local K Ω} (hp : p.initTime = none ∧ p.start = s ∧ 0 < p.knotTime ∧ p.knotTime ≤ L) (h : u ≤ H - L ∨ t = s) :
    (if H - p.rel t < u then H - p.rel t else u) = if H < u then H else u := by
  obtain ⟨kt, it, st, obs⟩ := p
  obtain ⟨h1, h2, h3, h4⟩ := hp
  simp only at h1 h2 h3 h4
  subst h1 h2
  rcases h with h | h
  · have := pyMod_lt (round6 (t - st)) h3
    have e : Local.rel ⟨kt, none, st, obs⟩ t = pyMod (round6 (t - st)) kt := rfl
    rw [e, if_neg (not_lt.2 (by linarith)), if_neg (not_lt.2 (by linarith))]
  · subst h
    rw [rel_start, sub_zero]

theorem run_running (sim : K → K → List Ω → List Ω) {L s : K} {w : Fleet K Ω} (hw : Running L s w) (op : Op K Ω) :
    Running L (match op with | .start t => t | _ => s) (op.run sim w) := by
  cases op with
  | start t =>
    intro p hp
    obtain ⟨q, hq, rfl⟩ := List.mem_map.1 hp
    have := hw q hq
    exact ⟨this.1, rfl, this.2.2⟩
  | simulate t u ts =>
    intro p hp
    obtain ⟨q, hq, rfl⟩ := List.mem_map.1 hp
    exact hw q hq
  | sleep u ts =>
    intro p hp
    obtain ⟨q, hq, rfl⟩ := List.mem_map.1 hp
    exact hw q hq
  | add o => exact hw
  | measure k o => exact hw
  | measureEach k o =>
    intro p hp
    obtain ⟨q, hq, rfl⟩ := List.mem_map.1 hp
    exact hw q hq

theorem run_horizon (sim : K → K → List Ω → List Ω) (w : Fleet K Ω) (op : Op K Ω) : (op.run sim w).horizon = w.horizon := by cases op <;> rfl

/-! ## C193 -/

/-- **C193**: when the environment has not been simulated before, and the steps of the simulation are not longer than the horizon less a
knot interval, then after any calls of the simulator all vehicles plan with the obstacles that are shown. -/
theorem C193_seen (fresh : Ω → Ω) (sim : K → K → List Ω → List Ω) (H L : K) (kts : List K) (hk : ∀ kt ∈ kts, 0 < kt ∧ kt ≤ L) (env : List Ω)
    (hnew : ∀ o ∈ env, fresh o = o) (calls : List (Op K Ω)) (hc : Spec.Calls H L 0 calls) (hm : ∀ k o, Op.measureEach k o ∉ calls) :
    Spec.Seen (calls.foldl (Op.run sim) (create fresh H kts env)) := by
  have gen : ∀ (calls : List (Op K Ω)) (s : K) (w : Fleet K Ω), w.horizon = H → Running L s w → Spec.Seen w → Spec.Calls H L s calls →
      (∀ k o, Op.measureEach k o ∉ calls) → Spec.Seen (calls.foldl (Op.run sim) w) := by
    intro calls
    induction calls with
    | nil => exact fun s w _ _ h _ _ => h
    | cons op l ih =>
      intro s w hH hw hs hc hm
      refine ih _ _ (by rw [run_horizon, hH]) (run_running sim hw op) ?_ hc.2 fun k o h => hm k o (List.mem_cons_of_mem _ h)
      cases op with
      | start t =>
        intro p hp
        obtain ⟨q, hq, rfl⟩ := List.mem_map.1 hp
        exact hs q hq
      | simulate t u ts =>
        intro p hp
        obtain ⟨q, hq, rfl⟩ := List.mem_map.1 hp
        have := clip (t := t) (u := u) (H := H) (hw q hq) hc.1
        simp only [Op.run, simulate, Local.simulate]
        rw [hH, this, hs q hq]
      | sleep u ts =>
        intro p hp
        obtain ⟨q, hq, rfl⟩ := List.mem_map.1 hp
        simp only [Op.run, sleep]
        rw [hs q hq]
      | add o => exact hc.1.elim
      | measure k o => exact hc.1.elim
      | measureEach k o => exact absurd List.mem_cons_self (hm k o)
  refine gen calls 0 _ rfl ?_ ?_ hc hm
  · intro p hp
    obtain ⟨kt, hkt, rfl⟩ := List.mem_map.1 hp
    exact ⟨rfl, rfl, hk kt hkt⟩
  · intro p hp
    obtain ⟨kt, hkt, rfl⟩ := List.mem_map.1 hp
    show env.map fresh = env
    exact List.map_congr_left hnew |>.trans (List.map_id _)

/-- **C193**: measured states that are passed to each of the problems keep all vehicles planning with the same obstacles. -/
theorem C193_same (fresh : Ω → Ω) (sim : K → K → List Ω → List Ω) (H L : K) (kts : List K) (hk : ∀ kt ∈ kts, 0 < kt ∧ kt ≤ L) (env : List Ω)
    (calls : List (Op K Ω)) (hc : Spec.Calls H L 0 calls) : Spec.Same (calls.foldl (Op.run sim) (create fresh H kts env)) := by
  have gen : ∀ (calls : List (Op K Ω)) (s : K) (w : Fleet K Ω), w.horizon = H → Running L s w → Spec.Same w → Spec.Calls H L s calls →
      Spec.Same (calls.foldl (Op.run sim) w) := by
    intro calls
    induction calls with
    | nil => exact fun s w _ _ h _ => h
    | cons op l ih =>
      intro s w hH hw hs hc
      refine ih _ _ (by rw [run_horizon, hH]) (run_running sim hw op) ?_ hc.2
      cases op with
      | start t =>
        intro p hp q hq
        obtain ⟨p, hp', rfl⟩ := List.mem_map.1 hp
        obtain ⟨q, hq', rfl⟩ := List.mem_map.1 hq
        exact hs p hp' q hq'
      | simulate t u ts =>
        intro p hp q hq
        obtain ⟨p, hp', rfl⟩ := List.mem_map.1 hp
        obtain ⟨q, hq', rfl⟩ := List.mem_map.1 hq
        have h1 := clip (t := t) (u := u) (H := H) (hw p hp') hc.1
        have h2 := clip (t := t) (u := u) (H := H) (hw q hq') hc.1
        simp only [Local.simulate]
        rw [hH, h1, h2, hs p hp' q hq']
      | sleep u ts =>
        intro p hp q hq
        obtain ⟨p, hp', rfl⟩ := List.mem_map.1 hp
        obtain ⟨q, hq', rfl⟩ := List.mem_map.1 hq
        simp only
        rw [hs p hp' q hq']
      | add o => exact hs
      | measure k o => exact hs
      | measureEach k o =>
        intro p hp q hq
        obtain ⟨p, hp', rfl⟩ := List.mem_map.1 hp
        obtain ⟨q, hq', rfl⟩ := List.mem_map.1 hq
        simp only
        rw [hs p hp' q hq']
  refine gen calls 0 _ rfl ?_ ?_ hc
  · intro p hp
    obtain ⟨kt, hkt, rfl⟩ := List.mem_map.1 hp
    exact ⟨rfl, rfl, hk kt hkt⟩
  · intro p hp q hq
    obtain ⟨kt, hkt, rfl⟩ := List.mem_map.1 hp
    obtain ⟨kt', hkt', rfl⟩ := List.mem_map.1 hq
    rfl

/-- **C193** (added obstacles, refuted): an obstacle that is added to the environment after the problem has been made is not seen by any vehicle. -/
theorem C193_added_violated (w : Fleet K Ω) (hw : Spec.Seen w) (o : Ω) : ∀ p ∈ (add o w).problems, p.obstacles ≠ (add o w).shown := by
  intro p hp h
  have h1 := hw p hp
  rw [h1] at h
  simpa [add] using congrArg List.length h

/-- **C193** (measurements, refuted): a measured state of an obstacle of the environment is not seen by any vehicle. -/
theorem C193_measured_violated (w : Fleet K Ω) (hw : Spec.Seen w) (k : ℕ) (o : Ω) (hk : k < w.shown.length) (ho : w.shown[k] ≠ o) :
    ∀ p ∈ (measure k o w).problems, p.obstacles ≠ (measure k o w).shown := by
  intro p hp h
  have h1 := hw p hp
  rw [h1] at h
  refine ho ?_
  have : (w.shown.set k o)[k]'(by simpa using hk) = o := List.getElem_set_self _
  rw [← this]
  exact List.getElem_of_eq h hk

/-! ### An obstacle on a line -/

/-- An obstacle with constant velocity: initial position, position, velocity. -/
structure Ball where
  initial : ℚ
  pos : ℚ
  vel : ℚ
deriving DecidableEq

def Ball.fresh (b : Ball) : Ball := { b with pos := b.initial }

/-- Its simulation, obstacle.py:246-262. -/
def roll (u ts : ℚ) (l : List Ball) : List Ball := l.map fun b => { b with pos := b.pos + samples u ts * ts * b.vel }

/-- Three updates of 0.5 after a start: both vehicles and the user see the obstacle at 1.5. -/
example : Spec.Seen ([Op.start 0, .simulate 0 (1/2) (1/10), .simulate (1/2) (1/2) (1/10), .sleep (1/2) (1/10)].foldl (Op.run roll)
      (create Ball.fresh 10 [1, 1/2] [⟨0, 0, 1⟩])) ∧
    ([Op.start 0, .simulate 0 (1/2) (1/10), .simulate (1/2) (1/2) (1/10), .sleep (1/2) (1/10)].foldl (Op.run roll)
      (create Ball.fresh 10 [1, 1/2] [⟨0, 0, 1⟩])).shown = [⟨0, 3/2, 1⟩] := by
  refine ⟨C193_seen Ball.fresh roll 10 1 _ (by simp; norm_num) _ (by simp [Ball.fresh]) _ ⟨trivial, .inl (by norm_num), .inl (by norm_num), trivial, trivial⟩ (by simp), ?_⟩
  have h : samples (1 / 2 : ℚ) (1 / 10) = 5 := by
    have : (1 / 2 : ℚ) / (1 / 10) = ((5 : ℤ) : ℚ) := by norm_num
    rw [samples, this, round6_intCast, pyInt_intCast]
  simp [Op.run, simulate, sleep, start, create, roll]
  norm_num at h ⊢
  rw [h]
  norm_num

/-- **C193** (environments in use, refuted): when the environment has been simulated before the problem is made, the vehicles plan with the
obstacle where it once began. -/
theorem C193_used_violated : ¬ Spec.Seen (create Ball.fresh (10 : ℚ) [1] (roll 1 1 [⟨0, 0, 1⟩])) := by
  have h : samples (1 : ℚ) 1 = 1 := by
    have : (1 : ℚ) / 1 = ((1 : ℤ) : ℚ) := by norm_num
    rw [samples, this, round6_intCast, pyInt_intCast]
  simp [Spec.Seen, create, roll, Ball.fresh, h]

/-- **C193** (long steps, refuted): with steps of 3 and a horizon of 3 with two knot intervals, the obstacle is shown at 6 after two steps
of the simulation, where the vehicle sees it at 3 + 3/2. -/
theorem C193_long_violated : ¬ Spec.Seen ([Op.simulate 0 3 (1/2), .simulate (3/2) 3 (1/2)].foldl (Op.run roll)
    (create Ball.fresh 3 [2] [⟨0, 0, 1⟩])) := by
  have hs : ∀ (a : ℚ) (n : ℤ), a / (1 / 2) = n → samples a (1 / 2) = n := fun a n h => by
    rw [samples, h, round6_intCast, pyInt_intCast]
  have h6 := hs 3 6 (by norm_num)
  have h3 := hs (3 / 2) 3 (by norm_num)
  have r0 : Local.rel ⟨(2 : ℚ), none, 0, ([⟨0, 0, 1⟩] : List Ball)⟩ 0 = 0 := rel_start _ _ _
  have r1 : ∀ obs : List Ball, Local.rel ⟨(2 : ℚ), none, 0, obs⟩ (3 / 2) = 3 / 2 := fun obs => by
    have e1 : round6 ((3 / 2 : ℚ) - 0) = 3 / 2 := by
      have : ((3 / 2 : ℚ) - 0) * 10 ^ 6 = ((1500000 : ℤ) : ℚ) := by norm_num
      rw [round6, this, round_intCast]
      norm_num
    have e2 : ⌊(3 / 2 : ℚ) / 2⌋ = 0 := by rw [Int.floor_eq_iff]; norm_num
    simp only [Local.rel, e1, pyMod, e2]
    norm_num
  intro h
  have := h _ (List.mem_cons_self ..)
  simp only [create, Op.run, simulate, Local.simulate, List.foldl, List.map, Ball.fresh, r0, r1] at this
  norm_num [roll] at this
  norm_num at h6 h3
  rw [h6, h3] at this
  norm_num at this

end Verif.Seen
