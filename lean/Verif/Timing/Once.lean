import Verif.Timing.Simulator
import Verif.Timing.Arrival

/-! # Plans that are carried out completely, one after the other (C187)

Mirrors `run_once` and `hard_stop` of `omgtools/execution/simulator.py:113-143` for free-time problems (`store` and `simulate`,
`omgtools/problems/point2point.py:313-348`) and vehicles with the options `ideal_update` (`omgtools/vehicles/vehicle.py:253-276, 344-369`). -/

set_option linter.unusedSectionVars false

namespace Verif.Timing.Once

variable {K : Type} [Field K] [LinearOrder K] [IsStrictOrderedRing K] [FloorRing K] {S : Type}

/-! ## Model -/

/-- A solution: motion time and state over time. -/
structure Motion (K S : Type) where
  T : K
  state : K → S

/-- Simulator and vehicle: the clock, and the columns of `signals` (time and state), missing at first. -/
structure World (K S : Type) where
  sim : Sim K
  sig : Option (List (K × S))

/-- The columns of `trajectories` after `store`, point2point.py:322-327 and vehicle.py:271-275. -/
def columns (Ts now : K) (p : Motion K S) : List (K × S) :=
  (List.range (samples p.T Ts + 1).toNat).map fun k : ℕ => (now + k * Ts, p.state (k * Ts))

/-- The state from which the plan is made, problem.py:160-163 and vehicle.py:315-321: the last one of the log, or the one that was set. -/
def begin' (init : S) (w : World K S) : S := ((w.sig.bind List.getLast?).map Prod.snd).getD init

/-- `simulate` over `dur` with the cut to the motion time, point2point.py:333-348 and vehicle.py:359-369; `none` stands for infinity. -/
def simulate (Ts : K) (dur : Option K) (p : Motion K S) (now : K) (sig : Option (List (K × S))) : List (K × S) :=
  let d := match dur with
    | none => p.T
    | some d => if p.T < d then p.T else d
  let traj := columns Ts now p
  sig.getD (traj.take 1) ++ slice traj 1 (samples d Ts + 1)

/-- `overrule_state` in `hard_stop`, simulator.py:141-142: the last state of the log is replaced. -/
def overrule (f : S → S) (sig : List (K × S)) : List (K × S) :=
  match sig.getLast? with
  | none => sig
  | some c => sig.dropLast ++ [(c.1, f c.2)]

/-- `run_once`, simulator.py:113-137: `solver` is what is planned from a state, `stop` the option `hard_stop` (time and perturbation); `none` is
an exception: without signals (motion times below a sample are neither stored nor simulated) their last time is asked for. -/
def runOnce (upd Ts : K) (init : S) (solver : S → Motion K S) (stop : Option (K × (S → S))) (w : World K S) : Option (World K S) :=
  let p := solver (begin' init w)
  let sig' : Option (List (K × S)) :=
    if p.T < Ts then w.sig.map fun s => match stop with
      | none => s
      | some (_, f) => overrule f s
    else some (match stop with
      | none => simulate Ts none p w.sim.current w.sig
      | some (t, f) => overrule f (simulate Ts (some t) p w.sim.current w.sig))
  (sig'.bind fun s => s.getLast?.map fun c => (s, c)).bind fun sc =>
    (updateTiming upd Ts (some (sc.2.1 - w.sim.current)) w.sim).map fun sim => ⟨sim, some sc.1⟩

/-- What is run: the solver and the option. -/
abbrev Cmd (K S : Type) := (S → Motion K S) × Option (K × (S → S))

/-- Several runs. -/
def runs (upd Ts : K) (init : S) (w : World K S) (cmds : List (Cmd K S)) : Option (World K S) :=
  cmds.foldlM (fun w c => runOnce upd Ts init c.1 c.2 w) w

/-- A new simulator and a new vehicle. -/
def World.new : World K S := ⟨Sim.init, none⟩

/-! ## Specification -/

/-- The whole duration of a run: of the plan, or until the hard stop. -/
def Spec.length (p : Motion K S) : Option (K × (S → S)) → K
  | none => p.T
  | some (t, _) => min p.T t

/-- What is done to the last state. -/
def Spec.push : Option (K × (S → S)) → S → S
  | none, x => x
  | some (_, f), x => f x

/-- The log that a run adds to, as states from the time `0` on in steps of a sample: the states of the plan after `1`, ..., `n` samples, the
last one perturbed if asked for. -/
def Spec.added (Ts : K) (p : Motion K S) (stop : Option (K × (S → S))) (n : ℕ) : List S :=
  (List.range n).map fun k => (if k + 1 = n then Spec.push stop else id) (p.state ((k + 1 : ℕ) * Ts))

/-- Clock, time axis of the simulator and log agree: samples at `0`, `Ts`, ... with these states. -/
structure Spec.InStep (Ts : K) (states : List S) (w : World K S) : Prop where
  log : w.sig = some ((List.range states.length).zipWith (fun k s => ((k : ℕ) * Ts, s)) states)
  axis : w.sim.time = (List.range states.length).map fun k : ℕ => k * Ts
  clock : w.sim.current = ((states.length : K) - 1) * Ts

/-- Every run takes a sample at least, and plans from the state it starts in.  `states` are those of the log so far, without the one of the
start before the first run. -/
def Spec.Proper (Ts : K) (init : S) : List S → List (Cmd K S) → Prop
  | _, [] => True
  | states, c :: cs =>
    let a := states.getLastD init
    let p := c.1 a
    let n := (samples (Spec.length p c.2) Ts).toNat
    p.state 0 = a ∧ Ts ≤ Spec.length p c.2 ∧ Spec.Proper Ts init (states ++ Spec.added Ts p c.2 n) cs

/-- The states of the log after all runs. -/
def Spec.states (Ts : K) (init : S) : List S → List (Cmd K S) → List S
  | states, [] => states
  | states, c :: cs =>
    let p := c.1 (states.getLastD init)
    Spec.states Ts init (states ++ Spec.added Ts p c.2 (samples (Spec.length p c.2) Ts).toNat) cs

/-! ## Lemmas -/

theorem zipWith_append_range (Ts : K) (a b : List S) :
    (List.range (a ++ b).length).zipWith (fun k s => ((k : ℕ) * Ts, s)) (a ++ b) =
      (List.range a.length).zipWith (fun k s => ((k : ℕ) * Ts, s)) a ++
        (List.range b.length).zipWith (fun k s => (((a.length : K) + (k : ℕ)) * Ts, s)) b := by
  rw [List.length_append, List.range_add, List.zipWith_append (by simp)]
  congr 1
  rw [List.zipWith_map_left]
  simp

theorem overrule_append (f : S → S) (l r : List (K × S)) (c : K × S) :
    overrule f (l ++ (r ++ [c])) = l ++ (r ++ [(c.1, f c.2)]) := by
  unfold overrule
  rw [← List.append_assoc, List.getLast?_concat]
  simp

/-- The columns that are added by a run. -/
def chunk (Ts now : K) (p : Motion K S) (n : ℕ) : List (K × S) :=
  (List.range n).map fun k : ℕ => (now + (k + 1 : ℕ) * Ts, p.state ((k + 1 : ℕ) * Ts))

theorem columns_slice (Ts : K) (hTs : 0 < Ts) (now : K) (p : Motion K S) (d : K) (h0 : 0 ≤ d) (hd : d ≤ p.T) :
    slice (columns Ts now p) 1 (samples d Ts + 1) = chunk Ts now p (samples d Ts).toNat := by
  have h1 := samples_nonneg h0 hTs
  have h2 := samples_mono hd hTs
  rw [slice_tail _ _ h1]
  unfold columns chunk
  rw [show (samples p.T Ts + 1).toNat = (samples p.T Ts).toNat + 1 by omega, List.range_succ_eq_map, List.map_cons, List.tail_cons,
    List.map_map, ← List.map_take, List.take_range, show min (samples d Ts).toNat (samples p.T Ts).toNat = (samples d Ts).toNat by omega]
  rfl

theorem columns_take (Ts : K) (hTs : 0 < Ts) (now : K) (p : Motion K S) (hT : 0 ≤ p.T) :
    (columns Ts now p).take 1 = [(now, p.state 0)] := by
  have h1 := samples_nonneg hT hTs
  unfold columns
  rw [show (samples p.T Ts + 1).toNat = (samples p.T Ts).toNat + 1 by omega, List.range_succ_eq_map]
  simp

theorem chunk_push (Ts now : K) (p : Motion K S) (stop : Option (K × (S → S))) (n : ℕ) (hn : 1 ≤ n) (l : List (K × S)) :
    (match stop with
      | none => l ++ chunk Ts now p n
      | some (_, f) => overrule f (l ++ chunk Ts now p n)) =
    l ++ (List.range n).zipWith (fun k s => (now + ((k + 1 : ℕ) : K) * Ts, s)) (Spec.added Ts p stop n) := by
  obtain ⟨m, rfl⟩ : ∃ m, n = m + 1 := ⟨n - 1, by omega⟩
  have e : ∀ stop : Option (K × (S → S)), (List.range (m + 1)).zipWith (fun k s => (now + ((k + 1 : ℕ) : K) * Ts, s)) (Spec.added Ts p stop (m + 1)) =
      chunk Ts now p m ++ [(now + ((m + 1 : ℕ) : K) * Ts, Spec.push stop (p.state (((m + 1 : ℕ) : K) * Ts)))] := by
    intro stop
    unfold Spec.added chunk
    rw [List.zipWith_map_right, List.zipWith_self, List.range_succ, List.map_append]
    congr 1
    · refine List.map_congr_left fun k hk => ?_
      have := List.mem_range.1 hk
      rw [if_neg (by omega)]
      rfl
    · simp
  have c : chunk Ts now p (m + 1) = chunk Ts now p m ++ [(now + ((m + 1 : ℕ) : K) * Ts, p.state (((m + 1 : ℕ) : K) * Ts))] := by
    unfold chunk
    rw [List.range_succ, List.map_append]
    rfl
  cases stop with
  | none => simp only; rw [e, c]; rfl
  | some s => obtain ⟨t, f⟩ := s; simp only; rw [e, c, overrule_append]; rfl

theorem added_length (Ts : K) (p : Motion K S) (stop : Option (K × (S → S))) (n : ℕ) : (Spec.added Ts p stop n).length = n := by
  simp [Spec.added]

/-- One run, for the log so far (`none` before the first one). -/
theorem runOnce_eq (upd Ts : K) (hTs : 0 < Ts) (init : S) (solver : S → Motion K S) (stop : Option (K × (S → S))) (w : World K S)
    (old : List S) (hne : old ≠ [])
    (hw : Spec.InStep Ts old w ∨ w = World.new ∧ old = [init])
    (h0 : (solver (old.getLastD init)).state 0 = old.getLastD init)
    (hlen : Ts ≤ Spec.length (solver (old.getLastD init)) stop) :
    ∃ w', runOnce upd Ts init solver stop w = some w' ∧ Spec.InStep Ts
      (old ++ Spec.added Ts (solver (old.getLastD init)) stop (samples (Spec.length (solver (old.getLastD init)) stop) Ts).toNat) w' := by
  have hb : begin' init w = old.getLastD init := by
    rcases hw with hw | ⟨rfl, rfl⟩
    · unfold begin'
      rw [hw.log, Option.bind_some]
      obtain ⟨l, x, rfl⟩ := (List.eq_nil_or_concat' old).resolve_left hne
      rw [zipWith_append_range]
      simp
    · rfl
  unfold runOnce
  rw [hb]
  generalize hp : solver (old.getLastD init) = p at h0 hlen ⊢
  have hTle : Spec.length p stop ≤ p.T := by
    cases stop with
    | none => exact le_rfl
    | some s => exact min_le_left _ _
  have hcur : w.sim.current = ((old.length : K) - 1) * Ts := by
    rcases hw with hw | ⟨rfl, rfl⟩
    · exact hw.clock
    · simp [World.new, Sim.init]
  have hgrid : w.sim.time = Spec.grid 0 Ts (old.length - 1 + 1) := by
    have hpos : 1 ≤ old.length := List.length_pos_of_ne_nil hne
    rcases hw with hw | ⟨rfl, rfl⟩
    · rw [hw.axis, Spec.grid, show old.length - 1 + 1 = old.length by omega]
      exact List.map_congr_left fun k _ => by rw [zero_add]
    · simp [World.new, Sim.init, Spec.grid]
  have hbase : w.sig.getD ((columns Ts w.sim.current p).take 1) = (List.range old.length).zipWith (fun k s => ((k : ℕ) * Ts, s)) old := by
    rcases hw with hw | ⟨rfl, rfl⟩
    · rw [hw.log]; rfl
    · rw [columns_take Ts hTs _ p (hTs.le.trans (hlen.trans hTle)), h0]
      simp [World.new, Sim.init]
  set n := (samples (Spec.length p stop) Ts).toNat with hn
  have hs1 : 1 ≤ samples (Spec.length p stop) Ts := (Arrival.samples_bounds hTs hlen).1
  have hn1 : 1 ≤ n := by omega
  have hsig : (match (generalizing := false) stop with
      | none => simulate Ts none p w.sim.current w.sig
      | some (t, f) => overrule f (simulate Ts (some t) p w.sim.current w.sig)) =
      (List.range (old ++ Spec.added Ts p stop n).length).zipWith (fun k s => ((k : ℕ) * Ts, s)) (old ++ Spec.added Ts p stop n) := by
    have e1 : ∀ d, 0 ≤ d → d ≤ p.T → w.sig.getD ((columns Ts w.sim.current p).take 1) ++ slice (columns Ts w.sim.current p) 1 (samples d Ts + 1) =
        (List.range old.length).zipWith (fun k s => ((k : ℕ) * Ts, s)) old ++ chunk Ts w.sim.current p (samples d Ts).toNat := by
      intro d d0 d1
      rw [hbase, columns_slice Ts hTs _ p d d0 d1]
    have e2 := chunk_push Ts w.sim.current p stop n hn1 ((List.range old.length).zipWith (fun k s => ((k : ℕ) * Ts, s)) old)
    have e3 : (List.range n).zipWith (fun k s => (w.sim.current + ((k + 1 : ℕ) : K) * Ts, s)) (Spec.added Ts p stop n) =
        (List.range (Spec.added Ts p stop n).length).zipWith (fun k s => (((old.length : K) + (k : ℕ)) * Ts, s)) (Spec.added Ts p stop n) := by
      rw [added_length, hcur]
      congr 1
      funext k s
      congr 1
      push_cast
      ring
    rw [zipWith_append_range, ← e3, ← e2]
    cases stop with
    | none =>
      simp only [simulate]
      exact e1 p.T (hTs.le.trans (hlen.trans hTle)) le_rfl
    | some s =>
      obtain ⟨t, f⟩ := s
      have hd : (if p.T < t then p.T else t) = min p.T t := by
        by_cases c : p.T < t
        · rw [if_pos c, min_eq_left c.le]
        · rw [if_neg c, min_eq_right (not_lt.1 c)]
      simp only [simulate, hd]
      congr 1
      exact e1 (min p.T t) (hTs.le.trans hlen) hTle
  simp only
  rw [if_neg (not_lt.2 (hlen.trans hTle)), hsig]
  have hadd : Spec.added Ts p stop n ≠ [] := by
    intro e
    have := added_length Ts p stop n
    rw [e] at this
    simp at this
    omega
  have hall : old ++ Spec.added Ts p stop n ≠ [] := by simp [hne]
  obtain ⟨l, x, hlx⟩ := (List.eq_nil_or_concat' (old ++ Spec.added Ts p stop n)).resolve_left hall
  have hll : l.length + 1 = old.length + n := by
    have := congrArg List.length hlx
    simp only [List.length_append, List.length_cons, List.length_nil, added_length] at this
    omega
  have hlast : ((List.range (old ++ Spec.added Ts p stop n).length).zipWith (fun k s => ((k : ℕ) * Ts, s)) (old ++ Spec.added Ts p stop n)).getLast? =
      some ((l.length : K) * Ts, x) := by
    rw [hlx, zipWith_append_range]
    simp
  have hleft : (l.length : K) * Ts - w.sim.current = (n : K) * Ts := by
    have : (l.length : K) + 1 = old.length + n := by exact_mod_cast hll
    rw [hcur, ← sub_mul]
    congr 1
    linarith
  have hnpos : (n : K) * Ts ≠ 0 := mul_ne_zero (by positivity) hTs.ne'
  have hupd := updateTiming_spec upd Ts hTs (some ((n : K) * Ts)) w.sim ((n : K) * Ts) (by positivity) (by simp only; rw [if_neg hnpos])
    (old.length - 1) hgrid
  have hsn : samples ((n : K) * Ts) Ts = n := by
    have := samples_mul (n : ℤ) hTs
    push_cast at this
    exact this
  rw [hsn, Int.toNat_natCast] at hupd
  have hpos : 1 ≤ old.length := List.length_pos_of_ne_nil hne
  refine ⟨⟨⟨w.sim.current + (n : K) * Ts, Spec.grid 0 Ts (old.length - 1 + n + 1)⟩, _⟩, ?_, ⟨rfl, ?_, ?_⟩⟩
  · rw [Option.bind_some, hlast, Option.map_some, Option.bind_some]
    simp only
    rw [hleft, hupd, Option.map_some]
  · simp only [List.length_append, added_length, Spec.grid]
    rw [show old.length - 1 + n + 1 = old.length + n by omega]
    exact List.map_congr_left fun k _ => by rw [zero_add]
  · simp only [List.length_append, added_length]
    rw [hcur]
    push_cast
    ring

/-! ## Properties -/

/-- C187: runs one after the other, each for a whole plan or until a hard stop, of at least a sample each and planned from where the vehicle is: nothing
fails; the log holds the start, and then for each run the states of its plan sample by sample until its end (less than a sample is left out) or
the hard stop, the last one with the perturbation; each plan starts from the last state of the log; times in the log, time axis and
clock of the simulator agree all along. -/
theorem C187_partial (upd Ts : K) (hTs : 0 < Ts) (init : S) (c : Cmd K S) (cs : List (Cmd K S)) (h : Spec.Proper Ts init [init] (c :: cs)) :
    ∃ w, runs upd Ts init World.new (c :: cs) = some w ∧ Spec.InStep Ts (Spec.states Ts init [init] (c :: cs)) w := by
  have key : ∀ (cs : List (Cmd K S)) (w : World K S) (old : List S), old ≠ [] → Spec.InStep Ts old w → Spec.Proper Ts init old cs →
      ∃ w', runs upd Ts init w cs = some w' ∧ Spec.InStep Ts (Spec.states Ts init old cs) w' := by
    intro cs
    induction cs with
    | nil => intro w old _ hw _; exact ⟨w, rfl, hw⟩
    | cons c cs ih =>
      intro w old hne hw hp
      obtain ⟨p1, p2, p3⟩ := hp
      obtain ⟨w1, e1, e2⟩ := runOnce_eq upd Ts hTs init c.1 c.2 w old hne (.inl hw) p1 p2
      obtain ⟨w2, f1, f2⟩ := ih w1 _ (by simp [hne]) e2 p3
      exact ⟨w2, by rw [runs, List.foldlM_cons, e1]; exact f1, f2⟩
  obtain ⟨p1, p2, p3⟩ := h
  obtain ⟨w1, e1, e2⟩ := runOnce_eq upd Ts hTs init c.1 c.2 World.new [init] (by simp) (.inr ⟨rfl, rfl⟩) p1 p2
  obtain ⟨w2, f1, f2⟩ := key cs w1 _ (by simp) e2 p3
  exact ⟨w2, by rw [runs, List.foldlM_cons, e1]; exact f1, f2⟩

/-- C187: at the end of a run without a hard stop the last logged state is the plan at a time that differs from the motion time by hardly more
than a sample. -/
theorem C187_end (Ts : K) (hTs : 0 < Ts) (p : Motion K S) (hT : Ts ≤ p.T) :
    ∃ t, (Spec.added Ts p none (samples (Spec.length p none) Ts).toNat).getLast? = some (p.state t) ∧ |t - p.T| ≤ Ts * (1 + 1 / 10 ^ 6) := by
  obtain ⟨h1, -, h3⟩ := Arrival.samples_bounds hTs hT
  have e : Spec.length p none = p.T := rfl
  obtain ⟨m, hm⟩ : ∃ m : ℕ, samples p.T Ts = (m + 1 : ℕ) := ⟨(samples p.T Ts).toNat - 1, by omega⟩
  refine ⟨((m + 1 : ℕ) : K) * Ts, ?_, ?_⟩
  · rw [e, hm, Int.toNat_natCast, Spec.added, List.range_succ, List.map_append]
    simp [Spec.push]
  · rw [hm] at h3
    exact_mod_cast h3

/-- C187 fails for a run that has nothing to do (motion time below a sample, as the vehicle is at its goal): as the first run it raises an
exception, and later the log stays as it is but the clock of the simulator advances by the update time. -/
theorem C187_short_violated (upd Ts : K) (hTs : 0 < Ts) (hu : 0 ≤ upd) (init : S) (solver : S → Motion K S) (states : List S) (hne : states ≠ [])
    (w : World K S) (hw : Spec.InStep Ts states w) (hT : ∀ a, (solver a).T < Ts) :
    runOnce upd Ts init solver none World.new = none ∧
      ∃ w', runOnce upd Ts init solver none w = some w' ∧ w'.sig = w.sig ∧ w'.sim.current = w.sim.current + upd := by
  constructor
  · simp [runOnce, hT, World.new]
  · have hpos : 1 ≤ states.length := List.length_pos_of_ne_nil hne
    have hgrid : w.sim.time = Spec.grid 0 Ts (states.length - 1 + 1) := by
      rw [hw.axis, Spec.grid, show states.length - 1 + 1 = states.length by omega]
      exact List.map_congr_left fun k _ => by rw [zero_add]
    obtain ⟨l, x, rfl⟩ := (List.eq_nil_or_concat' states).resolve_left hne
    have hlast : ((List.range (l ++ [x]).length).zipWith (fun k s => ((k : ℕ) * Ts, s)) (l ++ [x])).getLast? = some ((l.length : K) * Ts, x) := by
      rw [zipWith_append_range]
      simp
    have h0 : (l.length : K) * Ts - w.sim.current = 0 := by
      rw [hw.clock]
      simp
    have hupd := updateTiming_spec upd Ts hTs (some 0) w.sim upd hu (by simp) _ hgrid
    refine ⟨⟨⟨w.sim.current + upd, Spec.grid 0 Ts ((l ++ [x]).length - 1 + (samples upd Ts).toNat + 1)⟩, w.sig⟩, ?_, rfl, rfl⟩
    unfold runOnce
    simp only
    rw [if_pos (hT _), hw.log]
    simp only [Option.map_some, Option.bind_some]
    rw [hlast, Option.map_some, Option.bind_some]
    simp only
    rw [h0, hupd, Option.map_some]

/-! ## Examples -/

/-- Along a line to `1` in one second, with a stop after `0.3` that pushes the vehicle back, and on to the goal. -/
def exCmds : List (Cmd ℚ ℚ) :=
  [(fun a => ⟨1 - a, fun t => a + t⟩, some (3 / 10, fun x => x - 1 / 20)), (fun a => ⟨1 - a, fun t => a + t⟩, none)]

example : Spec.Proper (1 / 10 : ℚ) 0 [0] exCmds ∧
    Spec.states (1 / 10 : ℚ) 0 [0] exCmds = [0, 1 / 10, 1 / 5, 1 / 4, 7 / 20, 9 / 20, 11 / 20, 13 / 20, 3 / 4, 17 / 20, 19 / 20] := by
  refine ⟨?_, by decide +kernel⟩
  refine ⟨by decide +kernel, by decide +kernel, by decide +kernel, by decide +kernel, trivial⟩

end Verif.Timing.Once
