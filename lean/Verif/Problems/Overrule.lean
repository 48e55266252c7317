import Verif.Problems.Predict
import Mathlib.Tactic.Ring
import Mathlib.Data.Rat.Defs

/-! # Overruled states and inputs (C169)

`Vehicle.overrule_state`, `Vehicle.overrule_input` (vehicle.py:344-357), `Vehicle.simulate` (vehicle.py:359-385), `Simulator.hard_stop`
(simulator.py:138-142) and the updates that follow (deployer.py:46-83, simulator.py:93-100). -/

set_option linter.unusedSectionVars false

namespace Verif.Problems.Overrule

open Verif.Problems.Predict

variable {K : Type}

/-! ## Model -/

/-- `signals[key][:, -1] = x` for a change `f` of the last sample; raises when nothing was logged. -/
def setLast (f : Sample K → Sample K) (log : List (Sample K)) : Option (List (Sample K)) :=
  log.getLast?.map fun l => log.dropLast ++ [f l]

/-- `Vehicle.overrule_state`, vehicle.py:344-349: last logged state and prediction. Raises (attribute `signals`) before the first simulation.
Left out: the pose; `x` must have the number of entries of the state. -/
def overruleState (v : Veh K) (x : Py K) : Option (Veh K) :=
  v.signals.bind fun log => (setLast (fun s => { s with state := x }) log).map fun log' =>
    { v with signals := some log', pred := { v.pred with state := x } }

/-- `Vehicle.overrule_input`, vehicle.py:351-357; `d = none` when `dinput` is not passed. -/
def overruleInput (v : Veh K) (u : Py K) (d : Option (Py K)) : Option (Veh K) :=
  v.signals.bind fun log => (setLast (fun s => { s with input := u, dinput := d.getD s.dinput }) log).map fun log' =>
    { v with signals := some log', pred := { v.pred with input := u, dinput := d.getD v.pred.dinput } }

/-- The samples that `Vehicle.simulate` adds to a log that ends in `l`, vehicle.py:366-385; `upd` is option `ideal_update`; `integ x us k` is
column `k` of `integrate_ode`. -/
def logged (integ : Py K → List (Py K) → ℕ → Py K) (upd : Bool) (plan : List (Sample K)) (l : Sample K) (n : ℕ) : List (Sample K) :=
  if upd then (plan.drop 1).take n
  else ((plan.drop 1).take n).zipIdx.map fun p : Sample K × ℕ =>
    { p.1 with state := integ l.state (plan.map Sample.input) (p.2 + 1) }

/-- `Vehicle.simulate`, vehicle.py:359-385, for `n = n_samp` samples. Left out: disturbances and the delay of the input. Raises without
plan, or with an empty one. -/
def simulate (integ : Py K → List (Py K) → ℕ → Py K) (upd : Bool) (v : Veh K) (n : ℕ) : Option (Veh K) :=
  v.plan.bind fun plan => (match v.signals with
    | some log => some log
    | none => (plan[0]?).map fun c => [c]).bind fun log => log.getLast?.map fun l =>
      { v with signals := some (log ++ logged integ upd plan l n) }

/-- `x + np.array(p)` for arrays of the same shape; other shapes raise. -/
def plus [Add K] (x : Py K) (p : List K) : Option (Py K) :=
  match x with
  | .arr l => if l.length = p.length then some (.arr (List.zipWith (· + ·) l p)) else none
  | _ => none

/-- `Simulator.hard_stop`, simulator.py:138-142, for one vehicle; `z` is `np.zeros(len(prediction['input']))`. -/
def hardStop [Add K] (integ : Py K → List (Py K) → ℕ → Py K) (upd : Bool) (v : Veh K) (n : ℕ) (p : List K) (z : Py K) :
    Option (Veh K) := do
  let v ← simulate integ upd v n
  let log ← v.signals
  let l ← log.getLast?
  let x ← plus l.state p
  let v ← overruleState v x
  overruleInput v z none

/-- Vehicle and solver: `mem` is what the problem keeps between updates (previous variables, obstacles, time). -/
structure Run (σ K : Type) where
  veh : Veh K
  mem : σ

/-- `problem.predict` and `problem.store`: prediction and plan are replaced. -/
def planned (v : Veh K) (p : Sample K) (plan : List (Sample K)) : Veh K :=
  { v with pred := p, plan := some plan }

/-- One update of the simulator, simulator.py:93-98 with deployer.py:46-76: predict, solve, store, simulate. `solver` gives the samples of
the plan that is found from the prediction, `start` is whether it is the first update after a reset. Simplified: no delay, one
vehicle, the sampled plan instead of its splines. -/
def update {σ : Type} (integ : Py K → List (Py K) → ℕ → Py K) (solver : σ → Sample K → σ × List (Sample K)) (upd : Bool) (n : ℕ)
    (start : Bool) (r : Run σ K) : Option (Run σ K) :=
  (vehPredict integ r.veh n .none .none .none 0 start false).bind fun p =>
    (simulate integ upd (planned r.veh p (solver r.mem p).2) n).map fun v => ⟨v, (solver r.mem p).1⟩

/-- `m` further updates, none of which is the first after a reset. -/
def updates {σ : Type} (integ : Py K → List (Py K) → ℕ → Py K) (solver : σ → Sample K → σ × List (Sample K)) (upd : Bool) (n : ℕ) :
    ℕ → Run σ K → Option (Run σ K)
  | 0, r => some r
  | m + 1, r => (update integ solver upd n false r).bind (updates integ solver upd n m)

/-! ## Lemmas -/

theorem setLast_append (f : Sample K → Sample K) (pre : List (Sample K)) (l : Sample K) :
    setLast f (pre ++ [l]) = some (pre ++ [f l]) := by
  simp [setLast]

theorem overruleState_append (v : Veh K) (pre : List (Sample K)) (l : Sample K) (h : v.signals = some (pre ++ [l])) (x : Py K) :
    overruleState v x = some { v with signals := some (pre ++ [{ l with state := x }]), pred := { v.pred with state := x } } := by
  simp [overruleState, h, setLast_append]

theorem overruleInput_append (v : Veh K) (pre : List (Sample K)) (l : Sample K) (h : v.signals = some (pre ++ [l])) (u : Py K)
    (d : Option (Py K)) :
    overruleInput v u d = some { v with signals := some (pre ++ [{ l with input := u, dinput := d.getD l.dinput }]),
                                        pred := { v.pred with input := u, dinput := d.getD v.pred.dinput } } := by
  simp [overruleInput, h, setLast_append]

theorem predict_start (integ : Py K → List (Py K) → ℕ → Py K) (v : Veh K) (n : ℕ) (pre : List (Sample K)) (l : Sample K)
    (h : v.signals = some (pre ++ [l])) : vehPredict integ v n .none .none .none 0 true false = some ⟨l.state, v.zero, v.zero⟩ :=
  (C160_imposed integ v n .none .none .none 0).2.1 _ l rfl h (by simp)

theorem exists_append (log : List (Sample K)) (h : log ≠ []) : ∃ pre l, log = pre ++ [l] :=
  ⟨log.dropLast, log.getLast h, (List.dropLast_append_getLast h).symm⟩

/-- Two runs of which the logs may differ, with plans of which something was logged already. -/
def Alike {σ : Type} (r r' : Run σ K) : Prop :=
  r.mem = r'.mem ∧ r.veh.plan = r'.veh.plan ∧ r.veh.ideal = true ∧ r'.veh.ideal = true ∧ r.veh.zero = r'.veh.zero ∧
    r.veh.takesD = r'.veh.takesD ∧ ∃ L L', r.veh.signals = some L ∧ r'.veh.signals = some L' ∧ L ≠ [] ∧ L' ≠ []

theorem simulate_some (integ : Py K → List (Py K) → ℕ → Py K) (upd : Bool) (v : Veh K) (n : ℕ) (plan : List (Sample K))
    (hp : v.plan = some plan) (pre : List (Sample K)) (l : Sample K) (hs : v.signals = some (pre ++ [l])) :
    simulate integ upd v n = some { v with signals := some ((pre ++ [l]) ++ logged integ upd plan l n) } := by
  simp [simulate, hp, hs]

theorem update_alike {σ : Type} (integ : Py K → List (Py K) → ℕ → Py K) (solver : σ → Sample K → σ × List (Sample K)) (upd : Bool)
    (n : ℕ) (r r' : Run σ K) (h : Alike r r') :
    (update integ solver upd n false r = none ∧ update integ solver upd n false r' = none) ∨
      ∃ q q', update integ solver upd n false r = some q ∧ update integ solver upd n false r' = some q' ∧ Alike q q' ∧
        q.veh.pred = q'.veh.pred := by
  obtain ⟨hm, hp, hi, hi', hz, ht, L, L', hL, hL', hn, hn'⟩ := h
  obtain ⟨pre, l, rfl⟩ := exists_append L hn
  obtain ⟨pre', l', rfl⟩ := exists_append L' hn'
  have hv : vehPredict integ r.veh n .none .none .none 0 false false = vehPredict integ r'.veh n .none .none .none 0 false false := by
    simp [vehPredict, hp, hi, hi']
  unfold update
  rw [← hv]
  cases hq : vehPredict integ r.veh n .none .none .none 0 false false with
  | none => exact Or.inl ⟨rfl, rfl⟩
  | some p =>
    right
    rw [Option.bind_some, Option.bind_some, simulate_some integ upd (planned r.veh p _) n (solver r.mem p).2 rfl pre l hL,
      simulate_some integ upd (planned r'.veh p _) n (solver r'.mem p).2 rfl pre' l' hL']
    refine ⟨_, _, rfl, rfl, ⟨by simp [hm], by simp [hm, planned], hi, hi', hz, ht, _, _, rfl, rfl, by simp, by simp⟩, rfl⟩

/-! ## Properties -/

/-- **C169** After a reset (`run`, `run_once`) the first plan starts from the overruled state, at standstill, whatever the vehicle did
before, and that state is in the log. -/
theorem C169_reset_partial (integ : Py K → List (Py K) → ℕ → Py K) (v : Veh K) (log : List (Sample K)) (hs : v.signals = some log)
    (hn : log ≠ []) (x : Py K) :
    ∃ v' l log', overruleState v x = some v' ∧ v'.signals = some log' ∧ log'.length = log.length ∧ log'.getLast? = some l ∧
      l.state = x ∧ ∀ n, vehPredict integ v' n .none .none .none 0 true false = some ⟨x, v.zero, v.zero⟩ := by
  obtain ⟨pre, l, rfl⟩ := exists_append log hn
  refine ⟨_, { l with state := x }, pre ++ [{ l with state := x }], overruleState_append v pre l hs x, rfl, by simp, by simp, rfl,
    fun n => ?_⟩
  rw [predict_start integ _ n pre { l with state := x } rfl]

/-- **C169** `hard_stop` after `n ≥ 1` samples of a plan, with ideal updates: the log ends in the planned state plus the perturbation and
input zero, and the first plan after a reset starts there, at standstill. -/
theorem C169_hard_stop [Add K] (integ : Py K → List (Py K) → ℕ → Py K) (v : Veh K) (plan : List (Sample K)) (hp : v.plan = some plan)
    (hlog : v.signals ≠ some []) (n : ℕ) (hn : 1 ≤ n) (c : Sample K) (hc : plan[n]? = some c) (s p : List K) (hcs : c.state = .arr s)
    (hl : s.length = p.length) (z : Py K) :
    ∃ v' log l, hardStop integ true v n p z = some v' ∧ v'.signals = some log ∧ log.getLast? = some l ∧
      l.state = .arr (List.zipWith (· + ·) s p) ∧ l.input = z ∧
      ∀ m, vehPredict integ v' m .none .none .none 0 true false = some ⟨.arr (List.zipWith (· + ·) s p), v.zero, v.zero⟩ := by
  have hlen : n < plan.length := by
    by_contra h; rw [List.getElem?_eq_none (by omega)] at hc; simp at hc
  have hsim : ∃ log0 : List (Sample K), simulate integ true v n =
      some { v with signals := some ((log0 ++ (plan.drop 1).take (n - 1)) ++ [c]) } := by
    have ht : (plan.drop 1).take n = (plan.drop 1).take (n - 1) ++ [c] := by
      obtain ⟨m, rfl⟩ : ∃ m, n = m + 1 := ⟨n - 1, by omega⟩
      rw [Nat.add_sub_cancel, List.take_add_one, List.getElem?_drop, Nat.add_comm 1 m, hc]
      rfl
    cases hv : v.signals with
    | none =>
      have h0 : plan[0]? = some (plan[0]'(by omega)) := List.getElem?_eq_getElem (by omega)
      refine ⟨[plan[0]'(by omega)], ?_⟩
      simp only [simulate, hp, hv, h0, ht, Option.bind_some, Option.map_some, List.getLast?_singleton, logged, if_true,
        List.append_assoc]
    | some log =>
      have hne : log ≠ [] := by rintro rfl; exact hlog hv
      obtain ⟨pre, l, rfl⟩ := exists_append log hne
      refine ⟨pre ++ [l], ?_⟩
      rw [simulate_some integ true v n plan hp pre l hv]
      rw [logged, if_pos rfl, ht]
      simp only [List.append_assoc]
  obtain ⟨log0, hsim⟩ := hsim
  set pre := log0 ++ (plan.drop 1).take (n - 1) with hpre
  have hh : hardStop integ true v n p z =
      some { v with signals := some (pre ++ [{ c with state := .arr (List.zipWith (· + ·) s p), input := z }]),
                    pred := { v.pred with state := .arr (List.zipWith (· + ·) s p), input := z } } := by
    unfold hardStop
    simp only [hsim, Option.bind_eq_bind, Option.bind_some, List.getLast?_append, List.getLast?_singleton, Option.some_or, plus, hcs,
      hl, if_true]
    rw [overruleState_append _ pre c rfl, Option.bind_some,
      overruleInput_append _ pre { c with state := .arr (List.zipWith (· + ·) s p) } rfl]
    rfl
  refine ⟨_, _, { c with state := .arr (List.zipWith (· + ·) s p), input := z }, hh, rfl, by simp, rfl, rfl, fun m => ?_⟩
  rw [predict_start integ _ m pre _ rfl]

/-- **C169** Simulated prediction, in the middle of a drive: the second plan after the overruling starts from the state that the vehicle
reaches from the overruled one with the inputs of the first plan; with simulated updates that is where the vehicle is. -/
theorem C169_second_plan_partial {σ : Type} (integ : Py K → List (Py K) → ℕ → Py K) (solver : σ → Sample K → σ × List (Sample K))
    (upd : Bool) (n : ℕ) (r q : Run σ K) (hi : r.veh.ideal = false) (v : Veh K) (x : Py K) (hv : overruleState r.veh x = some v)
    (hq : update integ solver upd n false ⟨v, r.mem⟩ = some q) (plan : List (Sample K)) (hp : q.veh.plan = some plan)
    (hlen : n < plan.length) :
    ∃ p, vehPredict integ q.veh n .none .none .none 0 false false = some p ∧ p.state = integ x (plan.map Sample.input) n ∧
      (upd = false → 1 ≤ n → ∃ log l, q.veh.signals = some log ∧ log.getLast? = some l ∧ l.state = p.state) := by
  obtain ⟨log, hs, hne⟩ : ∃ log, r.veh.signals = some log ∧ log ≠ [] := by
    unfold overruleState at hv
    cases hs : r.veh.signals with
    | none => simp [hs] at hv
    | some log => exact ⟨log, rfl, by rintro rfl; simp [hs, setLast] at hv⟩
  obtain ⟨pre, l, rfl⟩ := exists_append log hne
  rw [overruleState_append _ pre l hs x] at hv
  obtain rfl := Option.some.inj hv
  unfold update at hq
  cases hpr : vehPredict integ { r.veh with signals := some (pre ++ [{ l with state := x }]), pred := { r.veh.pred with state := x } } n
      .none .none .none 0 false false with
  | none => simp [hpr] at hq
  | some p0 =>
    simp only [hpr, Option.bind_some] at hq
    rw [simulate_some integ upd (planned _ p0 _) n (solver r.mem p0).2 rfl pre { l with state := x } rfl] at hq
    obtain rfl := Option.some.inj hq
    simp only at hp
    obtain rfl := Option.some.inj hp
    set plan := (solver r.mem p0).2 with hplan
    have hc : plan[n + 0]? = some (plan[n]'hlen) := List.getElem?_eq_getElem hlen
    set new := logged integ upd plan { l with state := x } n with hnew
    have hnl : new.length = n := by
      rw [hnew, logged]; split_ifs <;> simp <;> omega
    obtain ⟨p, h1, h2, -⟩ := (C160_simulated integ { r.veh with signals := some ((pre ++ [{ l with state := x }]) ++ new), plan := some plan, pred := p0 }
      n .none .none .none 0 false plan rfl hi (plan[n]'hlen) hc).2 rfl pre { l with state := x } new (by simp) hnl
    refine ⟨p, h1, by simpa using h2, fun hu h1n => ?_⟩
    subst hu
    refine ⟨_, { plan[n]'hlen with state := integ x (plan.map Sample.input) n }, rfl, ?_, by rw [h2]; simp⟩
    have : new[n - 1]? = some { plan[n]'hlen with state := integ x (plan.map Sample.input) n } := by
      rw [hnew, logged]
      simp only [Bool.false_eq_true, if_false, List.getElem?_map, List.getElem?_zipIdx, List.getElem?_take, List.getElem?_drop]
      have e : 1 + (n - 1) = n := by omega
      have e2 : n - 1 < n := by omega
      simp only [e, e2, if_true, List.getElem?_eq_getElem hlen, Option.map_some]
      have e3 : 0 + (n - 1) + 1 = n := by omega
      rw [e3]
    rw [List.getLast?_append, List.getLast?_eq_getElem?, hnl, this]
    rfl

/-- **C169** (violated) Simulated prediction, in the middle of a drive: the first plan after the overruling starts from where the vehicle
would have been, whatever the state it was overruled to. -/
theorem C169_first_plan_violated (integ : Py K → List (Py K) → ℕ → Py K) (v v' : Veh K) (x : Py K) (hv : overruleState v x = some v')
    (n : ℕ) (hn : 1 ≤ n) :
    vehPredict integ v' n .none .none .none 0 false false = vehPredict integ v n .none .none .none 0 false false := by
  obtain ⟨log, hs, hne⟩ : ∃ log, v.signals = some log ∧ log ≠ [] := by
    unfold overruleState at hv
    cases hs : v.signals with
    | none => simp [hs] at hv
    | some log => exact ⟨log, rfl, by rintro rfl; simp [hs, setLast] at hv⟩
  obtain ⟨pre, l, rfl⟩ := exists_append log hne
  rw [overruleState_append _ pre l hs x] at hv
  obtain rfl := Option.some.inj hv
  unfold vehPredict
  simp only [Bool.false_and, Bool.false_eq_true, if_false, hs, isNone_none, Bool.not_true, Option.bind_some, List.length_append,
    List.length_singleton]
  have e : ∀ y : Sample K, (if n + 1 ≤ pre.length + 1 then (pre ++ [y])[pre.length + 1 - n - 1]? else none) =
      if n + 1 ≤ pre.length + 1 then pre[pre.length - n]? else none := by
    intro y
    split_ifs with h
    · rw [List.getElem?_append_left (by omega)]
      congr 1; omega
    · rfl
  rw [e, e]

/-- **C169** (violated) Ideal prediction, in the middle of a drive: the overruled state never has any effect on the plans. However many
updates follow, with or without ideal updates, the plans and the states that they start from are those of the drive in which
nothing was overruled. -/
theorem C169_ideal_violated {σ : Type} (integ : Py K → List (Py K) → ℕ → Py K) (solver : σ → Sample K → σ × List (Sample K))
    (upd : Bool) (n : ℕ) (r : Run σ K) (hi : r.veh.ideal = true) (v : Veh K) (x : Py K) (hv : overruleState r.veh x = some v) (m : ℕ) :
    (updates integ solver upd n (m + 1) ⟨v, r.mem⟩).map (fun q => (q.veh.plan, q.veh.pred)) =
      (updates integ solver upd n (m + 1) r).map fun q => (q.veh.plan, q.veh.pred) := by
  have key : ∀ m (q q' : Run σ K), Alike q q' → q.veh.pred = q'.veh.pred →
      (updates integ solver upd n m q).map (fun q => (q.veh.plan, q.veh.pred)) =
        (updates integ solver upd n m q').map fun q => (q.veh.plan, q.veh.pred) := by
    intro m
    induction m with
    | zero => intro q q' h hp; simp [updates, hp, h.2.1]
    | succ m ih =>
      intro q q' h hp
      rcases update_alike integ solver upd n q q' h with ⟨h1, h2⟩ | ⟨a, a', h1, h2, h3, h4⟩
      · simp [updates, h1, h2]
      · simpa [updates, h1, h2] using ih a a' h3 h4
  obtain ⟨log, hs, hne⟩ : ∃ log, r.veh.signals = some log ∧ log ≠ [] := by
    unfold overruleState at hv
    cases hs : r.veh.signals with
    | none => simp [hs] at hv
    | some log => exact ⟨log, rfl, by rintro rfl; simp [hs, setLast] at hv⟩
  obtain ⟨pre, l, rfl⟩ := exists_append log hne
  rw [overruleState_append _ pre l hs x] at hv
  obtain rfl := Option.some.inj hv
  rcases update_alike integ solver upd n
      ⟨{ r.veh with signals := some (pre ++ [{ l with state := x }]), pred := { r.veh.pred with state := x } }, r.mem⟩ r
      ⟨rfl, rfl, hi, hi, rfl, rfl, _, _, rfl, hs, by simp, by simp⟩ with ⟨h1, h2⟩ | ⟨a, a', h1, h2, h3, h4⟩
  · simp [updates, h1, h2]
  · simpa [updates, h1, h2] using key m a a' h3 h4

/-- **C169** (violated) An overruled input is not where the next plan starts from: after a reset the first plan starts with input zero, and
in the middle of a drive the prediction does not depend on the input. -/
theorem C169_input_violated (integ : Py K → List (Py K) → ℕ → Py K) (v v' : Veh K) (u : Py K) (d : Option (Py K))
    (hv : overruleInput v u d = some v') (n : ℕ) :
    (∃ p, vehPredict integ v' n .none .none .none 0 true false = some p ∧ p.input = v.zero ∧ p.dinput = v.zero) ∧
      (1 ≤ n → vehPredict integ v' n .none .none .none 0 false false = vehPredict integ v n .none .none .none 0 false false) := by
  obtain ⟨log, hs, hne⟩ : ∃ log, v.signals = some log ∧ log ≠ [] := by
    unfold overruleInput at hv
    cases hs : v.signals with
    | none => simp [hs] at hv
    | some log => exact ⟨log, rfl, by rintro rfl; simp [hs, setLast] at hv⟩
  obtain ⟨pre, l, rfl⟩ := exists_append log hne
  rw [overruleInput_append _ pre l hs] at hv
  obtain rfl := Option.some.inj hv
  refine ⟨⟨_, predict_start integ _ n pre _ rfl, rfl, rfl⟩, fun hn => ?_⟩
  unfold vehPredict
  simp only [Bool.false_and, Bool.false_eq_true, if_false, hs, isNone_none, Bool.not_true, Option.bind_some, List.length_append,
    List.length_singleton]
  have e : ∀ y : Sample K, (if n + 1 ≤ pre.length + 1 then (pre ++ [y])[pre.length + 1 - n - 1]? else none) =
      if n + 1 ≤ pre.length + 1 then pre[pre.length - n]? else none := by
    intro y
    split_ifs with h
    · rw [List.getElem?_append_left (by omega)]
      congr 1; omega
    · rfl
  rw [e, e]

/-- **C169** (violated) Before anything was simulated, overruling raises. -/
theorem C169_before_violated (v : Veh K) (h : v.signals = none) (x u : Py K) (d : Option (Py K)) :
    overruleState v x = none ∧ overruleInput v u d = none := by
  simp [overruleState, overruleInput, h]

/-! ## Cases -/

section Case

/-- Samples of a vehicle on a line with speed 1. -/
def smp (x u : ℚ) : Sample ℚ := ⟨.arr [x], .arr [u], .arr [0]⟩

/-- Exact integration of the speed, one second per sample. -/
def euler : Py ℚ → List (Py ℚ) → ℕ → Py ℚ
  | .arr [x], us, k => .arr [x + ((us.take k).map fun u => match u with | .arr [y] => y | _ => 0).sum]
  | x, _, _ => x

/-- A vehicle in the middle of a drive with speed 1, at position 2. -/
def car (ideal : Bool) : Veh ℚ :=
  ⟨.arr [0], false, ideal, some [smp 0 1, smp 1 1, smp 2 1], some [smp 1 1, smp 2 1, smp 3 1, smp 4 1], smp 1 1⟩

/-- Plans with speed 1 from wherever the vehicle is predicted to be. -/
def ahead (_ : Unit) (p : Sample ℚ) : Unit × List (Sample ℚ) :=
  match p.state with
  | .arr [x] => ((), [smp x 1, smp (x + 1) 1, smp (x + 2) 1])
  | _ => ((), [])

/-- After a reset: from the overruled position 7. -/
example : ∃ v', overruleState (car true) (.arr [7]) = some v' ∧
    vehPredict euler v' 1 .none .none .none 0 true false = some ⟨.arr [7], .arr [0], .arr [0]⟩ := by
  obtain ⟨v', l, log', h, -, -, -, -, hp⟩ := C169_reset_partial euler (car true) _ rfl (by simp) (.arr [7])
  exact ⟨v', h, hp 1⟩

/-- Stopped after 2 samples of the plan, displaced by 1/2. -/
example : ∃ v', hardStop euler true (car true) 2 [1 / 2] (.arr [0]) = some v' ∧
    vehPredict euler v' 1 .none .none .none 0 true false = some ⟨.arr [3 + 1 / 2], .arr [0], .arr [0]⟩ := by
  obtain ⟨v', log, l, h, -, -, -, -, hp⟩ := C169_hard_stop euler (car true) _ rfl (by simp [car]) 2 (by norm_num) (smp 3 1) rfl [3] [1 / 2]
    rfl rfl (.arr [0])
  exact ⟨v', h, hp 1⟩

/-- Simulated prediction: overruled from 2 to 7, the first plan starts from 2, the second from 8. -/
example : ∃ v' q p, overruleState (car false) (.arr [7]) = some v' ∧ update euler ahead false 1 false ⟨v', ()⟩ = some q ∧
    q.veh.pred.state = .arr [2] ∧ vehPredict euler q.veh 1 .none .none .none 0 false false = some p ∧ p.state = .arr [8] := by
  have hq : ∃ q, update euler ahead false 1 false
      ⟨{ car false with signals := some ([smp 0 1, smp 1 1] ++ [{ smp 2 1 with state := .arr [7] }]),
                        pred := { (car false).pred with state := .arr [7] } }, ()⟩ = some q ∧ q.veh.pred.state = .arr [2] ∧
      q.veh.plan = some [smp 2 1, smp 3 1, smp 4 1] := by
    refine ⟨_, rfl, ?_, ?_⟩
    · norm_num [car, smp, euler, planned]
    · norm_num [car, smp, euler, ahead, planned]
  obtain ⟨q, hq, h1, h2⟩ := hq
  have ho := overruleState_append (car false) [smp 0 1, smp 1 1] (smp 2 1) rfl (.arr [7])
  obtain ⟨p, h3, h4, -⟩ := C169_second_plan_partial euler ahead false 1 ⟨car false, ()⟩ q rfl _ _ ho hq _ h2 (by simp)
  exact ⟨_, q, p, ho, hq, h1, h3, by rw [h4]; norm_num [smp, euler]⟩

/-- Ideal prediction: overruled from 2 to 7, all later plans are those of the drive in which nothing happened, the next one from 2. -/
example : ∃ v', overruleState (car true) (.arr [7]) = some v' ∧
    (∀ m, (updates euler ahead true 1 (m + 1) ⟨v', ()⟩).map (fun q => (q.veh.plan, q.veh.pred)) =
      (updates euler ahead true 1 (m + 1) ⟨car true, ()⟩).map fun q => (q.veh.plan, q.veh.pred)) ∧
    (updates euler ahead true 1 1 ⟨v', ()⟩).map (fun q => q.veh.pred) = some (smp 2 1) := by
  have ho := overruleState_append (car true) [smp 0 1, smp 1 1] (smp 2 1) rfl (.arr [7])
  exact ⟨_, ho, fun m => C169_ideal_violated euler ahead true 1 ⟨car true, ()⟩ rfl _ _ ho m, rfl⟩

example : ∃ v', overruleInput (car true) (.arr [5]) none = some v' ∧
    vehPredict euler v' 1 .none .none .none 0 true false = some ⟨.arr [2], .arr [0], .arr [0]⟩ :=
  ⟨_, rfl, rfl⟩

end Case

end Verif.Problems.Overrule
