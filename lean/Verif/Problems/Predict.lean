import Mathlib.Data.List.Basic
import Mathlib.Tactic.Linarith

/-! # What the next plan starts from (C160)

`Problem.predict` (problem.py:138-163), `DistributedProblem.predict` (distributedproblem.py:196-200), `Vehicle.predict`
(vehicle.py:302-337) and the methods `set_initial_conditions` of the vehicles. -/

set_option linter.unusedSectionVars false

namespace Verif.Problems.Predict

/-! ## Model -/

/-- Values that may be passed as states and inputs: `None`, Python numbers, arrays of numpy, lists. -/
inductive Py (K : Type)
  | none
  | int (i : ℤ)
  | flt (x : K)
  | arr (l : List K)
  | list (l : List (Py K))
  | other (name : ℕ)

variable {K : Type}

/-- `x is None`. -/
def Py.isNone : Py K → Bool
  | .none => true
  | _ => false

/-- `prediction`, and a sample of plan or log: state, input and its derivative. The other signals are treated like `dinput`. -/
structure Sample (K : Type) where
  state : Py K
  input : Py K
  dinput : Py K

/-- A vehicle. `zero` is the input that `set_initial_conditions` fills in, `takesD` whether it has an argument `dinput` (tool.py:148; the
other vehicles have none, e.g. holonomic.py:107, dubins.py:199, quadrotor3d.py:177). `signals` and `plan` are the columns of the log and
of `trajectories`, absent before the first one. -/
structure Veh (K : Type) where
  zero : Py K
  takesD : Bool
  ideal : Bool
  signals : Option (List (Sample K))
  plan : Option (List (Sample K))
  pred : Sample K

/-- `set_initial_conditions`, holonomic.py:107-113, dubins.py:199-204, tool.py:148-158: the state, the input or zeros, and `dinput`;
`dinput = none` when no such argument is passed. An argument that the method does not have raises. Simplified: `dinput` is zero for
vehicles that do not keep it, and the conversions of Quadrotor and Trailer are left out. -/
def setInit (v : Veh K) (state input : Py K) (dinput : Option (Py K)) : Option (Sample K) :=
  match dinput with
  | some d => if v.takesD then some ⟨state, if input.isNone then v.zero else input, if d.isNone then v.zero else d⟩ else none
  | none => some ⟨state, if input.isNone then v.zero else input, v.zero⟩

/-- `signals[:, -1]`; raises on an empty log. -/
def lastLog (log : List (Sample K)) : Option (Sample K) := log.getLast?

/-- `Vehicle.predict`, vehicle.py:302-337, with `n = n_samp`: the new `prediction`. `integ state inputs n` is the last column of
`integrate_ode`. `none` raises. Simplified: `delay` is not negative. -/
def vehPredict (integ : Py K → List (Py K) → ℕ → Py K) (v : Veh K) (n : ℕ) (state0 input0 dinput0 : Py K) (delay : ℕ)
    (es ei : Bool) : Option (Sample K) :=
  if es && ei then
    if !state0.isNone && !input0.isNone && !dinput0.isNone then setInit v state0 input0 (some dinput0)
    else if !state0.isNone && !input0.isNone then setInit v state0 input0 none
    else match v.signals with
      | some log => (lastLog log).bind fun s => setInit v s.state s.input (some s.dinput)
      | none => some v.pred
  else if es then
    if !state0.isNone then setInit v state0 .none none
    else match v.signals with
      | some log => (lastLog log).bind fun s => setInit v s.state .none none
      | none => some v.pred
  else v.plan.bind fun plan => (plan[n + delay]?).bind fun c =>
    if v.ideal then some c
    else if !state0.isNone then some ⟨integ state0 ((plan.drop delay).map Sample.input) n, c.input, c.dinput⟩
    else v.signals.bind fun log => (if n + 1 ≤ log.length then log[log.length - n - 1]? else none).map fun s =>
      ⟨integ s.state ((plan.drop delay).map Sample.input) n, c.input, c.dinput⟩

/-- `states[k]` for a value that is no `None`; a number cannot be indexed, and indices past the end raise. -/
def index : Py K → ℕ → Option (Py K)
  | .list l, k => l[k]?
  | .arr l, k => (l[k]?).map .flt
  | _, _ => none

/-- The arguments per vehicle, problem.py:139-157, for `N` vehicles. -/
def perVehicle (N : ℕ) (a : Py K) : Option (Py K) :=
  match a with
  | .none => some (.list (List.replicate N .none))
  | .list l =>
    if N = 1 then
      match l with
      | [] => none
      | .flt _ :: _ => some (.list [.list l])
      | _ => some (.list l)
    else some (.list l)
  | a => if N = 1 then some (.list [a]) else some a

/-- `Problem.predict`, problem.py:138-163; `start` is `current_time == self.start_time`. -/
def problemPredict (integ : Py K → List (Py K) → ℕ → Py K) (vs : List (Veh K)) (start : Bool) (n : ℕ)
    (states inputs dinputs : Py K) (delay : ℕ) (es ei : Bool) : Option (List (Sample K)) := do
  let s ← perVehicle vs.length states
  let i ← perVehicle vs.length inputs
  let d ← perVehicle vs.length dinputs
  (List.range vs.length).mapM fun k => do
    let v ← vs[k]?
    vehPredict integ v n (← index s k) (← index i k) (← index d k) delay (es || start) ei

/-- `DistributedProblem.predict`, distributedproblem.py:196-200: each problem has one vehicle. The fifth argument of `problem.predict` is
`inputs`. `states` is `None` or a list; `zip` stops at the shorter list, and the vehicles of problems that are left out keep their
prediction. -/
def distPredict (integ : Py K → List (Py K) → ℕ → Py K) (vs : List (Veh K)) (start : Bool) (n : ℕ) (states : Option (List (Py K)))
    (_inputs _dinputs : Py K) (delay : ℕ) (_es _ei : Bool) : Option (List (Sample K)) :=
  let st := match states with
    | some l => l
    | none => List.replicate vs.length .none
  (vs.zipIdx).mapM fun p =>
    match st[p.2]? with
    | some s => (problemPredict integ [p.1] start n s (.int delay) .none 0 false false).bind List.head?
    | none => some p.1.pred

/-! ## Specification -/

/-- The arguments as a user may give them: nothing, or for each vehicle of the fleet its own value (`none` where there is nothing); a fleet
of one vehicle may also get the value itself, as an array or as a list of floats. -/
def Gives (N : ℕ) (a : Py K) (vals : List (Py K)) : Prop :=
  vals.length = N ∧
    ((a = .none ∧ ∀ x ∈ vals, x = .none) ∨
      (a = .list vals ∧ (N = 1 → ∀ x, vals ≠ [.flt x])) ∨
      (N = 1 ∧ ∃ l, a = .arr l ∧ vals = [.arr l]) ∨
      (N = 1 ∧ ∃ x l, a = .list (.flt x :: l) ∧ vals = [a]))

/-! ## Lemmas -/

theorem isNone_none : (Py.none : Py K).isNone = true := rfl

theorem perVehicle_of_gives {N : ℕ} {a : Py K} {vals : List (Py K)} (hN : 0 < N) (h : Gives N a vals) :
    perVehicle N a = some (.list vals) := by
  obtain ⟨hl, h | h | h | h⟩ := h
  · obtain ⟨rfl, h⟩ := h
    unfold perVehicle
    rw [(List.eq_replicate_iff.2 ⟨hl, h⟩ : vals = List.replicate N .none)]
  · obtain ⟨rfl, h⟩ := h
    unfold perVehicle
    split_ifs with h1
    · have hh := h h1
      match vals, hl with
      | [], hl => simp at hl; omega
      | [x], _ =>
        cases x with
        | flt y => exact absurd rfl (hh y)
        | _ => rfl
      | x :: y :: l, hl => simp at hl; omega
    · rfl
  · obtain ⟨rfl, l, rfl, rfl⟩ := h
    simp [perVehicle]
  · obtain ⟨rfl, x, l, rfl, rfl⟩ := h
    simp [perVehicle]

theorem mapM_range_some {α : Type} {N : ℕ} {f : ℕ → Option α} {g : ℕ → α} (h : ∀ k, k < N → f k = some (g k)) :
    (List.range N).mapM f = some ((List.range N).map g) := by
  have key : ∀ l : List ℕ, (∀ k ∈ l, f k = some (g k)) → l.mapM f = some (l.map g) := by
    intro l
    induction l with
    | nil => intro _; simp
    | cons a l ih =>
      intro h
      simp [List.mapM_cons, h a (by simp), ih fun k hk => h k (by simp [hk])]
  exact key _ fun k hk => h k (List.mem_range.1 hk)

/-! ## Properties -/

/-- **C160** Every vehicle gets its own arguments: whatever the fleet is given (nothing, a value per vehicle, or for a fleet of one the
value itself), the prediction of vehicle `k` is made with value `k`; at the first update the states are imposed. -/
theorem C160_each (integ : Py K → List (Py K) → ℕ → Py K) (vs : List (Veh K)) (hvs : vs ≠ []) (start : Bool) (n : ℕ)
    (states inputs dinputs : Py K) (ss is ds : List (Py K)) (hs : Gives vs.length states ss) (hi : Gives vs.length inputs is)
    (hd : Gives vs.length dinputs ds) (delay : ℕ) (es ei : Bool) (out : List (Sample K))
    (h : ∀ k (hk : k < vs.length), ∃ s i d p, ss[k]? = some s ∧ is[k]? = some i ∧ ds[k]? = some d ∧ out[k]? = some p ∧
      vehPredict integ vs[k] n s i d delay (es || start) ei = some p) (hout : out.length = vs.length) :
    problemPredict integ vs start n states inputs dinputs delay es ei = some out := by
  have hN : 0 < vs.length := List.length_pos_iff.2 hvs
  unfold problemPredict
  rw [perVehicle_of_gives hN hs, perVehicle_of_gives hN hi, perVehicle_of_gives hN hd]
  simp only [Option.bind_eq_bind, Option.bind_some]
  have hg : ∃ g : ℕ → Sample K, ∀ k, k < vs.length → out[k]? = some (g k) := by
    refine ⟨fun k => if hk : k < vs.length then out[k]'(by omega) else (vs.head hvs).pred, fun k hk => ?_⟩
    simp [hk, hout]
  obtain ⟨g, hg⟩ := hg
  rw [mapM_range_some (g := g)]
  · congr 1
    apply List.ext_getElem?
    intro k
    by_cases hk : k < vs.length
    · rw [hg k hk, List.getElem?_map, List.getElem?_range hk]; rfl
    · rw [List.getElem?_eq_none (by simp; omega), List.getElem?_eq_none (by omega)]
  · intro k hk
    obtain ⟨s, i, d, p, h1, h2, h3, h4, h5⟩ := h k hk
    rw [hg k hk] at h4
    simp only [List.getElem?_eq_getElem hk, Option.bind_some, index, h1, h2, h3, h5]
    exact h4.symm

/-- **C160** Imposed states (at the first update, or on request): the plan starts from the state that is given, with the default input;
without one, from the last logged state; without a log, from the initial conditions set before. -/
theorem C160_imposed (integ : Py K → List (Py K) → ℕ → Py K) (v : Veh K) (n : ℕ) (s i d : Py K) (delay : ℕ) :
    (s.isNone = false → vehPredict integ v n s i d delay true false = some ⟨s, v.zero, v.zero⟩) ∧
    (∀ log l, s.isNone = true → v.signals = some log → log.getLast? = some l →
      vehPredict integ v n s i d delay true false = some ⟨l.state, v.zero, v.zero⟩) ∧
    (s.isNone = true → v.signals = none → vehPredict integ v n s i d delay true false = some v.pred) := by
  refine ⟨fun h => ?_, fun log l h h1 h2 => ?_, fun h h1 => ?_⟩
  · simp [vehPredict, h, setInit, isNone_none]
  · simp [vehPredict, h, h1, lastLog, h2, setInit, isNone_none]
  · simp [vehPredict, h, h1]

/-- **C160** Imposed states and inputs: when both are given the plan starts from both, and for a vehicle that keeps the derivative of its
input also from that. -/
theorem C160_inputs_partial (integ : Py K → List (Py K) → ℕ → Py K) (v : Veh K) (n : ℕ) (s i d : Py K) (delay : ℕ)
    (hs : s.isNone = false) (hi : i.isNone = false) :
    (d.isNone = true → vehPredict integ v n s i d delay true true = some ⟨s, i, v.zero⟩) ∧
    (d.isNone = false → v.takesD = true → vehPredict integ v n s i d delay true true = some ⟨s, i, d⟩) := by
  refine ⟨fun h => ?_, fun h ht => ?_⟩
  · simp [vehPredict, hs, hi, h, setInit]
  · simp [vehPredict, hs, hi, h, setInit, ht]

/-- **C160** Later updates with ideal prediction: the plan starts from the sample of the last plan that is `n` samples, plus the delay,
after its start, whatever else is given. -/
theorem C160_ideal (integ : Py K → List (Py K) → ℕ → Py K) (v : Veh K) (n : ℕ) (s i d : Py K) (delay : ℕ) (ei : Bool)
    (plan : List (Sample K)) (hp : v.plan = some plan) (hid : v.ideal = true) (c : Sample K) (hc : plan[n + delay]? = some c) :
    vehPredict integ v n s i d delay false ei = some c := by
  simp [vehPredict, hp, hc, hid]

/-- **C160** Later updates with simulated prediction: the state is what the model of the vehicle reaches with the inputs of the last plan
after the delay, from the state that is given or else from the state logged `n` samples before the end of the log; the input is
that of the plan. -/
theorem C160_simulated (integ : Py K → List (Py K) → ℕ → Py K) (v : Veh K) (n : ℕ) (s i d : Py K) (delay : ℕ) (ei : Bool)
    (plan : List (Sample K)) (hp : v.plan = some plan) (hid : v.ideal = false) (c : Sample K) (hc : plan[n + delay]? = some c) :
    (s.isNone = false → ∃ p, vehPredict integ v n s i d delay false ei = some p ∧
      p.state = integ s ((plan.drop delay).map Sample.input) n ∧ p.input = c.input) ∧
    (s.isNone = true → ∀ before l after, v.signals = some (before ++ l :: after) → after.length = n →
      ∃ p, vehPredict integ v n s i d delay false ei = some p ∧
        p.state = integ l.state ((plan.drop delay).map Sample.input) n ∧ p.input = c.input) := by
  refine ⟨fun h => ?_, fun h before l after hl hn => ?_⟩
  · refine ⟨⟨integ s ((plan.drop delay).map Sample.input) n, c.input, c.dinput⟩, ?_, rfl, rfl⟩
    simp [vehPredict, hp, hc, hid, h]
  · refine ⟨⟨integ l.state ((plan.drop delay).map Sample.input) n, c.input, c.dinput⟩, ?_, rfl, rfl⟩
    have e : (before ++ l :: after)[(before ++ l :: after).length - n - 1]? = some l := by
      have : (before ++ l :: after).length - n - 1 = before.length := by
        simp only [List.length_append, List.length_cons]; omega
      rw [this]
      simp
    have hle : n + 1 ≤ (before ++ l :: after).length := by
      simp only [List.length_append, List.length_cons]; omega
    simp only [vehPredict, Bool.false_and, Bool.false_eq_true, if_false, hp, Option.bind_some, hc, hid, h, Bool.not_true, hl, if_pos hle, e,
      Option.map_some]

/-- **C160** (violated) A single vehicle whose state is given as a list that begins with an integer (`[0, 1.5]`) gets the first number
only. -/
theorem C160_integers_violated (a : ℤ) (l : List (Py K)) :
    ∃ s, perVehicle 1 (.list (.int a :: l)) = some s ∧ index s 0 = some (.int a) := by
  exact ⟨.list (.int a :: l), by simp [perVehicle], by simp [index]⟩

/-- **C160** (violated) When states and inputs are imposed and only the state is given, the state is not used: two different states give
the same. -/
theorem C160_state_only_violated (integ : Py K → List (Py K) → ℕ → Py K) (v : Veh K) (n : ℕ) (s s' d : Py K) (delay : ℕ) :
    vehPredict integ v n s .none d delay true true = vehPredict integ v n s' .none d delay true true ∧
      (v.signals = none → vehPredict integ v n s .none d delay true true = some v.pred) := by
  refine ⟨?_, fun h => ?_⟩
  · simp [vehPredict, Py.isNone]
  · simp [vehPredict, Py.isNone, h]

/-- **C160** (violated) All vehicles but the tool: imposing states and inputs raises when the derivative of the input is given as well,
and also when the values are to be taken from the log. -/
theorem C160_derivative_violated (integ : Py K → List (Py K) → ℕ → Py K) (v : Veh K) (hv : v.takesD = false) (n : ℕ) (s i d : Py K)
    (delay : ℕ) :
    (s.isNone = false → i.isNone = false → d.isNone = false → vehPredict integ v n s i d delay true true = none) ∧
    (∀ log, s.isNone = true → v.signals = some log → vehPredict integ v n s i d delay true true = none) := by
  refine ⟨fun h1 h2 h3 => ?_, fun log h1 h2 => ?_⟩
  · simp [vehPredict, h1, h2, h3, setInit, hv]
  · simp only [vehPredict, h1, h2]
    cases lastLog log <;> simp [setInit, hv]

/-- **C160** (violated) With a distributed problem neither the delay, nor the inputs, nor the request to impose states and inputs has any
effect: after the first update a vehicle with ideal prediction starts from the sample `n` samples after the start of its last
plan, whatever the delay and the states that were to be imposed. -/
theorem C160_distributed_violated (integ : Py K → List (Py K) → ℕ → Py K) (v : Veh K) (n : ℕ) (s : List K) (i d : Py K) (delay : ℕ)
    (es ei : Bool) (plan : List (Sample K)) (hp : v.plan = some plan) (hid : v.ideal = true) (c : Sample K) (hc : plan[n]? = some c) :
    distPredict integ [v] false n (some [.arr s]) i d delay es ei = some [c] := by
  simp [distPredict, problemPredict, perVehicle, index, vehPredict, hp, hid, hc, List.zipIdx]

/-- **C160** Distributed problems without delay and requests: every vehicle gets its own state, as in `C160_imposed`, `C160_ideal` and
`C160_simulated`. -/
theorem C160_distributed_partial (integ : Py K → List (Py K) → ℕ → Py K) (vs : List (Veh K)) (start : Bool) (n : ℕ) (ss : List (List K))
    (i d : Py K) (out : List (Sample K)) (hs : ss.length = vs.length) (hout : out.length = vs.length)
    (h : ∀ (k : ℕ) (v : Veh K) (s : List K) (p : Sample K), vs[k]? = some v → ss[k]? = some s → out[k]? = some p →
      vehPredict integ v n (.arr s) (.int 0) .none 0 start false = some p) :
    distPredict integ vs start n (some (ss.map .arr)) i d 0 false false = some out := by
  have one : ∀ (v : Veh K) (s : List K) (p : Sample K), vehPredict integ v n (.arr s) (.int 0) .none 0 start false = some p →
      (problemPredict integ [v] start n (.arr s) (.int 0) .none 0 false false).bind List.head? = some p := by
    intro v s p hp
    simp [problemPredict, perVehicle, index, hp]
  have key : ∀ (vs' : List (Veh K)) (out' : List (Sample K)) (m : ℕ), out'.length = vs'.length →
      (∀ (k : ℕ) (v : Veh K) (p : Sample K), vs'[k]? = some v → out'[k]? = some p → ∃ s, ss[m + k]? = some s ∧
        vehPredict integ v n (.arr s) (.int 0) .none 0 start false = some p) →
      (vs'.zipIdx m).mapM (fun p => match (ss.map Py.arr)[p.2]? with
        | some s => (problemPredict integ [p.1] start n s (.int 0) .none 0 false false).bind List.head?
        | none => some p.1.pred) = some out' := by
    intro vs'
    induction vs' with
    | nil =>
      intro out' m hl _
      rw [List.length_nil] at hl
      rw [List.eq_nil_of_length_eq_zero hl]
      rfl
    | cons v vs' ih =>
      intro out' m hl hk
      match out', hl with
      | p :: out', hl =>
        rw [List.zipIdx_cons, List.mapM_cons]
        obtain ⟨s, h1, h2⟩ := hk 0 v p rfl rfl
        rw [Nat.add_zero] at h1
        have e := ih out' (m + 1) (by simpa using hl) fun k v p a b => by
          obtain ⟨s, h3, h4⟩ := hk (k + 1) v p (by simpa using a) (by simpa using b)
          exact ⟨s, by rw [← h3]; congr 1; omega, h4⟩
        rw [e]
        simp only [List.getElem?_map, h1, Option.map_some, one v s p h2]
        rfl
  refine key vs out 0 hout fun k v p a b => ?_
  have hk : k < ss.length := by rw [hs]; exact (List.getElem?_eq_some_iff.1 a).1
  exact ⟨ss[k], by rw [Nat.zero_add]; exact List.getElem?_eq_getElem hk, h k v _ p a (List.getElem?_eq_getElem hk) b⟩

section Examples

/-- A plan of three samples; the vehicle has driven two. -/
def exPlan : List (Sample ℚ) := [⟨.arr [0], .arr [1], .arr [0]⟩, ⟨.arr [1], .arr [2], .arr [0]⟩, ⟨.arr [3], .arr [1], .arr [0]⟩]

def exVeh : Veh ℚ := ⟨.arr [0], false, true, some (exPlan.take 2), some exPlan, ⟨.arr [0], .arr [0], .arr [0]⟩⟩

example : vehPredict (fun s _ _ => s) exVeh 1 .none .none .none 1 false false = some ⟨.arr [3], .arr [1], .arr [0]⟩ :=
  C160_ideal _ exVeh 1 .none .none .none 1 false exPlan rfl rfl _ rfl

example : vehPredict (fun s _ _ => s) exVeh 1 (.arr [7]) .none .none 1 true false = some ⟨.arr [7], .arr [0], .arr [0]⟩ :=
  (C160_imposed _ exVeh 1 (.arr [7]) .none .none 1).1 rfl

example : vehPredict (fun s _ _ => s) exVeh 1 .none .none .none 0 true false = some ⟨.arr [1], .arr [0], .arr [0]⟩ :=
  (C160_imposed _ exVeh 1 .none .none .none 0).2.1 _ _ rfl rfl rfl

example : Gives 1 (.list [.flt (2 : ℚ), .flt 3]) [.list [.flt 2, .flt 3]] := by
  refine ⟨rfl, Or.inr (Or.inr (Or.inr ⟨rfl, 2, [.flt 3], rfl, rfl⟩))⟩

example : Gives 2 (.list [.arr [(2 : ℚ)], .none]) [.arr [2], .none] := by
  refine ⟨rfl, Or.inr (Or.inl ⟨rfl, fun h => absurd h (by decide)⟩)⟩

-- a fleet of two, each with its own state
example : distPredict (fun s _ _ => s) [exVeh, exVeh] true 1 (some [.arr [9], .arr [8]]) .none .none 0 false false
    = some [⟨.arr [9], .arr [0], .arr [0]⟩, ⟨.arr [8], .arr [0], .arr [0]⟩] :=
  C160_distributed_partial _ [exVeh, exVeh] true 1 [[9], [8]] .none .none _ rfl rfl fun k v s p a b c => by
    match k with
    | 0 => simp at a b c; subst a b c; rfl
    | 1 => simp at a b c; subst a b c; rfl
    | k + 2 => simp at a

/-- The state that was to be imposed and the delay are lost. -/
example : distPredict (fun s _ _ => s) [exVeh] false 1 (some [.arr [9]]) .none .none 1 true false
    = some [⟨.arr [1], .arr [2], .arr [0]⟩] :=
  C160_distributed_violated _ exVeh 1 [9] .none .none 1 true false exPlan rfl rfl _ rfl

end Examples

end Verif.Problems.Predict
