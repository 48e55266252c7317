import Verif.Timing.Sampling
import Mathlib.Data.Rat.Floor
import Mathlib.Tactic.Linarith
import Mathlib.Algebra.BigOperators.Group.List.Basic
import Mathlib.Algebra.Order.BigOperators.Group.List

/-! # Machining segment by segment (C133)

`Deployer.update_segment` and `check_results` (deployer.py:81-239): segments of the GCode are planned one after the other; a plan that the solver did not
succeed on is dropped and planned again. -/

set_option linter.unusedSectionVars false

namespace Verif.GCode.Machining

open Verif.Timing

variable {K : Type} [Field K] [LinearOrder K] [IsStrictOrderedRing K] [FloorRing K] {S : Type}

/-! ## Model -/

/-- A velocity of the tool. -/
structure V3 (K : Type) where
  x : K
  y : K
  z : K
deriving DecidableEq

/-- What comes back from one call of `update` (deployer.py:107-108, 123-124) and is read afterwards (deployer.py:127-145): the sampled trajectories, the motion
time of the first segment, state and input at its end, and whether the status is `Solve_Succeeded`. -/
structure Ans (S K : Type) where
  states : List S
  inputs : List (V3 K)
  T : K
  endS : S
  endU : V3 K
  ok : Bool

/-- The variables of `update_segment`: `current_time`, whether nothing was solved yet, `motion_times[0]`, the recorded trajectories, `states_end`, `inputs_end`,
`motion_time_log`, `no_update`, `cnt`; and the state and input that were given to the calls of `update` so far.
Not modelled: the derivatives of the inputs, the plots, the interactive breakpoint at deployer.py:194 (the user continues). -/
structure St (S K : Type) where
  time : K
  first : Bool
  T : K
  sTraj : List S
  uTraj : List (V3 K)
  endS : S
  endU : V3 K
  log : List K
  noUpd : Bool
  cnt : ℕ
  asked : List (S × Option (V3 K))

/-- `IndexError` and `RuntimeError`. -/
inductive Err where
  | index
  | giveUp
deriving DecidableEq

/-- deployer.py:81-99: the recording starts in `curr_state`, at rest. -/
def St.init (s0 : S) : St S K := ⟨0, true, 0, [s0], [⟨0, 0, 0⟩], s0, ⟨0, 0, 0⟩, [], false, 0, []⟩

/-- The last two inputs give a changed last one, deployer.py:206-218.  Simplification: if the first components are equal and the second ones are not, numpy
divides by zero and stores `nan`. -/
def perturb (p q : V3 K) : V3 K :=
  let x := q.x + (q.x - p.x) * (1 / 100)
  ⟨x, if 1 / 1000 < |q.y - p.y| then (q.y - p.y) / (q.x - p.x) * x + (-p.x * ((q.y - p.y) / (q.x - p.x)) + p.y) else p.y, 0⟩

/-- One round of the loop, deployer.py:100-169, with `check_results`, deployer.py:180-239, and `motion_time_log` of `solve`,
gcodeschedulerproblem.py:149. -/
def St.step (Ts : K) (m : St S K) (a : Ans S K) : Except Err (St S K) :=
  let time := if m.first then 0 else m.time + m.T
  let asked := m.asked ++ [(m.endS, if m.first then none else some m.endU)]
  let n := samples a.T Ts
  let sTraj := m.sTraj ++ slice a.states 1 (n + 1) ++ [a.endS]
  let uTraj := m.uTraj ++ slice a.inputs 1 (n + 1) ++ [a.endU]
  let log := m.log ++ [a.T]
  if a.ok then
    .ok ⟨time, false, a.T, sTraj, uTraj, a.endS, a.endU, log, false, if m.noUpd then m.cnt else 0, asked⟩
  else
    match m.uTraj.reverse with
    | q :: p :: r =>
      if 20 < m.cnt + 1 then .error .giveUp
      else .ok ⟨time, false, a.T, m.sTraj, (perturb p q :: p :: r).reverse, m.endS, a.endU, log.dropLast, true, m.cnt + 1, asked⟩
    | _ => .error .index

/-- The loop over a sequence of answers of the solver (until the target is reached). -/
def St.run (Ts : K) : St S K → List (Ans S K) → Except Err (St S K)
  | m, [] => .ok m
  | m, a :: as => match m.step Ts a with
    | .ok m' => m'.run Ts as
    | .error e => .error e

/-! ## Specification -/

/-- The plans that were accepted. -/
def accepted (as : List (Ans S K)) : List (Ans S K) := as.filter (·.ok)

/-- Where a number of attempts leaves the tool. -/
def whereabouts (s0 : S) (as : List (Ans S K)) : S := ((accepted as).getLast?.map (·.endS)).getD s0

/-- The velocity it has there. -/
def velocity (as : List (Ans S K)) : Option (V3 K) := (accepted as).getLast?.map (·.endU)

/-! ## Lemmas -/

theorem run_append (Ts : K) (m : St S K) (as bs : List (Ans S K)) :
    m.run Ts (as ++ bs) = match m.run Ts as with
      | .ok m' => m'.run Ts bs
      | .error e => .error e := by
  induction as generalizing m with
  | nil => rfl
  | cons a as ih =>
    simp only [List.cons_append, St.run]
    cases m.step Ts a with
    | ok m' => exact ih m'
    | error e => rfl

/-- What holds after the attempts `as`. -/
structure Good (Ts : K) (s0 : S) (as : List (Ans S K)) (m : St S K) : Prop where
  first : m.first = decide (as = [])
  time : m.time = (as.dropLast.map (·.T)).sum
  T : as ≠ [] → as.getLast?.map (·.T) = some m.T
  sTraj : m.sTraj = s0 :: (accepted as).flatMap fun a => slice a.states 1 (samples a.T Ts + 1) ++ [a.endS]
  uTraj : (∀ a ∈ as, a.ok = true) → m.uTraj = ⟨0, 0, 0⟩ :: as.flatMap fun a => slice a.inputs 1 (samples a.T Ts + 1) ++ [a.endU]
  endS : m.endS = whereabouts s0 as
  endU : as ≠ [] → as.getLast?.map (·.endU) = some m.endU
  log : m.log = (accepted as).map (·.T)
  asked : m.asked.length = as.length
  asked1 : ∀ k < as.length, m.asked[k]?.map (·.1) = some (whereabouts s0 (as.take k))
  asked2 : ∀ k < as.length, m.asked[k]?.map (·.2) = some ((as.take k).getLast?.map (·.endU))
  cnt : m.cnt ≤ as.countP (fun a => !a.ok)

theorem good_init (Ts : K) (s0 : S) : Good Ts s0 [] (St.init s0) := by
  constructor <;> simp [St.init, accepted, whereabouts]

theorem good_step {Ts : K} {s0 : S} {as : List (Ans S K)} {m m' : St S K} (h : Good Ts s0 as m) (a : Ans S K) (e : m.step Ts a = .ok m') :
    Good Ts s0 (as ++ [a]) m' := by
  have ht : (if m.first then 0 else m.time + m.T) = ((as ++ [a]).dropLast.map (·.T)).sum := by
    rw [h.first]
    rcases List.eq_nil_or_concat as with rfl | ⟨as', b, rfl⟩
    · simp
    · have hT := h.T (by simp)
      rw [h.time]
      simp only [List.concat_eq_append, List.getLast?_append, List.getLast?_singleton, Option.some_or, Option.map_some, Option.some.injEq] at hT
      simp [← hT]
  have hu : (if m.first then none else some m.endU) = as.getLast?.map (·.endU) := by
    rw [h.first]
    by_cases hn : as = []
    · simp [hn]
    · simp [hn, h.endU hn]
  have a1 : ∀ k < (as ++ [a]).length, (m.asked ++ [(m.endS, if m.first then none else some m.endU)])[k]?.map (·.1) =
      some (whereabouts s0 ((as ++ [a]).take k)) := by
    intro k hk
    rw [List.length_append, List.length_singleton] at hk
    rcases Nat.lt_or_ge k as.length with h1 | h1
    · rw [List.getElem?_append_left (by rw [h.asked]; exact h1), h.asked1 k h1, List.take_append_of_le_length h1.le]
    · have : k = as.length := by omega
      subst this
      rw [List.getElem?_append_right (by rw [h.asked]), h.asked]
      simp [h.endS]
  have a2 : ∀ k < (as ++ [a]).length, (m.asked ++ [(m.endS, if m.first then none else some m.endU)])[k]?.map (·.2) =
      some (((as ++ [a]).take k).getLast?.map (·.endU)) := by
    intro k hk
    rw [List.length_append, List.length_singleton] at hk
    rcases Nat.lt_or_ge k as.length with h1 | h1
    · rw [List.getElem?_append_left (by rw [h.asked]; exact h1), h.asked2 k h1, List.take_append_of_le_length h1.le]
    · have : k = as.length := by omega
      subst this
      rw [List.getElem?_append_right (by rw [h.asked]), h.asked, hu]
      simp
  unfold St.step at e
  simp only at e
  cases hok : a.ok with
  | true =>
    rw [hok, if_pos rfl] at e
    obtain rfl := Except.ok.inj e
    have hacc : accepted (as ++ [a]) = accepted as ++ [a] := by simp [accepted, List.filter_append, hok]
    refine ⟨by simp, ht, by simp, ?_, fun hall => ?_, ?_, by simp, ?_, by simp [h.asked], a1, a2, ?_⟩
    · rw [hacc, h.sTraj]; simp
    · rw [h.uTraj fun b hb => hall b (by simp [hb])]; simp
    · simp [whereabouts, hacc]
    · rw [hacc, h.log]; simp
    · rw [List.countP_append]
      show (if m.noUpd then m.cnt else 0) ≤ _
      have := h.cnt
      split <;> omega
  | false =>
    rw [hok, if_neg (by simp)] at e
    have hacc : accepted (as ++ [a]) = accepted as := by simp [accepted, List.filter_append, hok]
    split at e
    · by_cases hc : 20 < m.cnt + 1
      · rw [if_pos hc] at e; exact absurd e (by simp)
      rw [if_neg hc] at e
      obtain rfl := Except.ok.inj e
      refine ⟨by simp, ht, by simp, ?_, fun hall => ?_, ?_, by simp, ?_, by simp [h.asked], a1, a2, ?_⟩
      · rw [hacc, h.sTraj]
      · exact absurd (hall a (by simp)) (by simp [hok])
      · simp only [whereabouts, hacc]; exact h.endS
      · rw [hacc, ← h.log]; simp
      · rw [List.countP_append]
        have := h.cnt
        simp [hok]
        exact this
    · exact absurd e (by simp)

theorem good_run {Ts : K} {s0 : S} (bs : List (Ans S K)) : ∀ {as : List (Ans S K)} {m m' : St S K}, Good Ts s0 as m → m.run Ts bs = .ok m' →
    Good Ts s0 (as ++ bs) m' := by
  induction bs with
  | nil => intro as m m' h e; obtain rfl := Except.ok.inj e; simpa using h
  | cons b bs ih =>
    intro as m m' h e
    simp only [St.run] at e
    cases hs : m.step Ts b with
    | ok m1 =>
      rw [hs] at e
      have := ih (good_step h b hs) e
      simpa using this
    | error x => rw [hs] at e; simp at e

theorem good_of {Ts : K} {s0 : S} {as : List (Ans S K)} {m : St S K} (h : (St.init s0).run Ts as = .ok m) : Good Ts s0 as m := by
  have := good_run as (good_init Ts s0) h
  rwa [List.nil_append] at this

/-- The loop only ends in the `RuntimeError` after a round that finds the counter at twenty. -/
theorem giveUp_cnt {Ts : K} {s0 : S} (bs : List (Ans S K)) : ∀ {as : List (Ans S K)} {m : St S K}, Good Ts s0 as m → m.run Ts bs = .error .giveUp →
    21 ≤ (as ++ bs).countP (fun a => !a.ok) := by
  induction bs with
  | nil => intro as m h e; simp [St.run] at e
  | cons b bs ih =>
    intro as m h e
    simp only [St.run] at e
    cases hs : m.step Ts b with
    | ok m1 =>
      rw [hs] at e
      have := ih (good_step h b hs) e
      simpa using this
    | error x =>
      rw [hs] at e
      obtain rfl := Except.error.inj e
      unfold St.step at hs
      simp only at hs
      cases hok : b.ok with
      | true => rw [hok, if_pos rfl] at hs; simp at hs
      | false =>
        rw [hok, if_neg (by simp)] at hs
        split at hs
        · split_ifs at hs with hc
          have := h.cnt
          rw [List.countP_append, List.countP_cons]
          simp [hok]
          omega
        · simp at hs

theorem velocity_ok (l : List (Ans S K)) (a : Ans S K) (h : a.ok = true) : velocity (l ++ [a]) = some a.endU := by
  unfold velocity accepted
  rw [List.filter_append, List.filter_singleton, h, cond_true, List.getLast?_concat]
  rfl

theorem velocity_no (l : List (Ans S K)) (a : Ans S K) (h : a.ok = false) : velocity (l ++ [a]) = velocity l := by
  unfold velocity accepted
  rw [List.filter_append, List.filter_singleton, h, cond_false, List.append_nil]

/-! ## Properties -/

/-- **C133** The recorded motion is made up of the accepted plans, one after the other, and the reported machining time is the sum of their motion times. -/
theorem C133_recorded (Ts : K) (s0 : S) (as : List (Ans S K)) (m : St S K) (h : (St.init s0).run Ts as = .ok m) :
    m.sTraj = s0 :: (accepted as).flatMap (fun a => slice a.states 1 (samples a.T Ts + 1) ++ [a.endS]) ∧
    m.log.sum = ((accepted as).map (·.T)).sum := by
  have := good_of h
  exact ⟨this.sTraj, by rw [this.log]⟩

/-- **C133** Every attempt is planned from the position where the accepted plans before it leave the tool, which is the last recorded one. -/
theorem C133_from (Ts : K) (s0 : S) (as : List (Ans S K)) (m : St S K) (h : (St.init s0).run Ts as = .ok m) :
    (∀ k < as.length, m.asked[k]?.map (·.1) = some (whereabouts s0 (as.take k))) ∧ m.sTraj.getLast? = some (whereabouts s0 as) := by
  have g := good_of h
  refine ⟨g.asked1, ?_⟩
  rw [g.sTraj]
  unfold whereabouts
  rcases List.eq_nil_or_concat (accepted as) with e | ⟨l, b, e⟩
  · simp [e]
  · rw [e, List.concat_eq_append, List.flatMap_append, List.flatMap_singleton, ← List.append_assoc, ← List.cons_append, List.getLast?_concat]
    simp

/-- **C133** (after an accepted plan) with the velocity that the accepted plans end with. -/
theorem C133_velocity_partial (Ts : K) (s0 : S) (as : List (Ans S K)) (m : St S K) (h : (St.init s0).run Ts as = .ok m)
    (k : ℕ) (hk : k + 1 < as.length) (hok : (as[k]).ok = true) :
    m.asked[k + 1]?.map (·.2) = some (velocity (as.take (k + 1))) := by
  have g := good_of h
  have := g.asked2 (k + 1) hk
  rw [this]
  congr 1
  have e : as.take (k + 1) = as.take k ++ [as[k]] := (List.take_append_getElem (by omega)).symm
  rw [e, velocity_ok _ _ hok, List.getLast?_concat]
  rfl

/-- **C133** fails after a rejected plan: the next attempt starts with the velocity at the end of the rejected plan. -/
theorem C133_velocity_violated (Ts : K) (s0 : S) (as : List (Ans S K)) (m : St S K) (h : (St.init s0).run Ts as = .ok m)
    (k : ℕ) (hk : k + 1 < as.length) (hok : (as[k]).ok = false) (hne : velocity (as.take k) ≠ some (as[k]).endU) :
    m.asked[k + 1]?.map (·.2) = some (some (as[k]).endU) ∧ m.asked[k + 1]?.map (·.2) ≠ some (velocity (as.take (k + 1))) := by
  have g := good_of h
  have := g.asked2 (k + 1) hk
  have e : as.take (k + 1) = as.take k ++ [as[k]] := (List.take_append_getElem (by omega)).symm
  have e2 : velocity (as.take (k + 1)) = velocity (as.take k) := by
    rw [e, velocity_no _ _ hok]
  have e3 : m.asked[k + 1]?.map (·.2) = some (some (as[k]).endU) := by
    rw [this, e, List.getLast?_concat]; rfl
  refine ⟨e3, ?_⟩
  rw [e3, e2]
  exact fun x => hne (Option.some.inj x).symm

/-- **C133** (without rejected plans) The time of an attempt is the machining time up to there. -/
theorem C133_clock_partial (Ts : K) (s0 : S) (as : List (Ans S K)) (m : St S K) (h : (St.init s0).run Ts as = .ok m) (hok : ∀ a ∈ as, a.ok = true) :
    m.time = ((accepted as.dropLast).map (·.T)).sum := by
  have g := good_of h
  rw [g.time]
  congr 2
  exact (List.filter_eq_self.2 fun a ha => hok a ((List.dropLast_sublist _).subset ha)).symm

/-- **C133** fails if a plan was rejected before: its motion time is counted too. -/
theorem C133_clock_violated (Ts : K) (s0 : S) (as : List (Ans S K)) (m : St S K) (h : (St.init s0).run Ts as = .ok m)
    (hT : ∀ a ∈ as, 0 < a.T) (hr : ∃ a ∈ as.dropLast, a.ok = false) :
    ((accepted as.dropLast).map (·.T)).sum < m.time := by
  have g := good_of h
  rw [g.time]
  have hT' : ∀ a ∈ as.dropLast, 0 < a.T := fun a ha => hT a ((List.dropLast_sublist _).subset ha)
  revert hT' hr
  generalize as.dropLast = l
  intro hr hT'
  have key : ∀ l : List (Ans S K), (∀ a ∈ l, 0 < a.T) → ((accepted l).map (·.T)).sum ≤ (l.map (·.T)).sum ∧
      ((∃ a ∈ l, a.ok = false) → ((accepted l).map (·.T)).sum < (l.map (·.T)).sum) := by
    intro l
    induction l with
    | nil => intro _; simp [accepted]
    | cons a l ih =>
      intro hp
      obtain ⟨i1, i2⟩ := ih fun b hb => hp b (List.mem_cons_of_mem _ hb)
      have ha := hp a (by simp)
      cases hok : a.ok with
      | true =>
        have e : accepted (a :: l) = a :: accepted l := by simp [accepted, hok]
        rw [e]
        simp only [List.map_cons, List.sum_cons]
        refine ⟨by linarith, ?_⟩
        rintro ⟨b, hb, hbo⟩
        rcases List.mem_cons.1 hb with rfl | hb
        · rw [hok] at hbo; exact absurd hbo (by simp)
        · linarith [i2 ⟨b, hb, hbo⟩]
      | false =>
        have e : accepted (a :: l) = accepted l := by simp [accepted, hok]
        rw [e]
        simp only [List.map_cons, List.sum_cons]
        exact ⟨by linarith, fun _ => by linarith⟩
  exact (key l hT').2 hr

/-- **C133** (without rejected plans) The recorded velocities are those of the plans, too. -/
theorem C133_inputs_partial (Ts : K) (s0 : S) (as : List (Ans S K)) (m : St S K) (h : (St.init s0).run Ts as = .ok m) (hok : ∀ a ∈ as, a.ok = true) :
    m.uTraj = ⟨0, 0, 0⟩ :: as.flatMap fun a => slice a.inputs 1 (samples a.T Ts + 1) ++ [a.endU] :=
  (good_of h).uTraj hok

/-- **C133** fails if a plan is rejected: a recorded velocity of the plans accepted before is replaced by another one, whose first
component lies further on by a hundredth of the last change, and whose third component is zero. -/
theorem C133_inputs_violated (Ts : K) (s0 : S) (as : List (Ans S K)) (a : Ans S K) (m m' : St S K) (h : (St.init s0).run Ts as = .ok m)
    (ha : a.ok = false) (h' : (St.init s0).run Ts (as ++ [a]) = .ok m') :
    ∃ r p q q', m.uTraj = r ++ [p, q] ∧ m'.uTraj = r ++ [p, q'] ∧ q'.x = q.x + (q.x - p.x) / 100 ∧ q'.z = 0 ∧
      (p.x ≠ q.x ∨ q.z ≠ 0 → m'.uTraj ≠ m.uTraj) := by
  rw [run_append, h] at h'
  simp only [St.run] at h'
  unfold St.step at h'
  simp only [ha, Bool.false_eq_true, if_false] at h'
  match hr : m.uTraj.reverse with
  | [] => rw [hr] at h'; simp at h'
  | [_] => rw [hr] at h'; simp at h'
  | q :: p :: r =>
    rw [hr] at h'
    simp only at h'
    by_cases hc : 20 < m.cnt + 1
    · rw [if_pos hc] at h'; simp at h'
    rw [if_neg hc] at h'
    obtain rfl := Except.ok.inj h'
    have e : m.uTraj = r.reverse ++ [p, q] := by rw [← List.reverse_reverse m.uTraj, hr]; simp
    have e' : (perturb p q :: p :: r).reverse = r.reverse ++ [p, perturb p q] := by simp
    refine ⟨r.reverse, p, q, perturb p q, e, e', by simp only [perturb]; ring, rfl, fun hd hne => ?_⟩
    simp only at hne
    rw [e, e'] at hne
    have hq : perturb p q = q := by simpa using hne
    rcases hd with hd | hd
    · have := congrArg V3.x hq
      simp only [perturb] at this
      apply hd
      linarith
    · exact hd (congrArg V3.z hq).symm

/-- **C133** It only gives up after more than twenty rejected plans. -/
theorem C133_patience_partial (Ts : K) (s0 : S) (as : List (Ans S K)) (h : (St.init s0).run Ts as = .error .giveUp) :
    21 ≤ as.countP (fun a => !a.ok) := by
  have := giveUp_cnt as (good_init Ts s0) h
  rwa [List.nil_append] at this

/-- The solver succeeds once, and then at the second attempt for every segment. -/
def alternating (a b : Ans S K) (n : ℕ) : List (Ans S K) := a :: (List.replicate n [b, a]).flatten

theorem alternating_run (Ts : K) (a b : Ans S K) (ha : a.ok = true) (hb : b.ok = false) (n : ℕ) : ∀ m : St S K, 2 ≤ m.uTraj.length → m.noUpd = false →
    20 < m.cnt + n → m.cnt ≤ 20 → m.run Ts (List.replicate n [b, a]).flatten = .error .giveUp := by
  induction n with
  | zero => intro m _ _ h1 h2; omega
  | succ n ih =>
    intro m hu hn h1 h2
    rw [List.replicate_succ, List.flatten_cons, List.cons_append, List.cons_append, List.nil_append, St.run]
    have hrev : 2 ≤ m.uTraj.reverse.length := by simpa using hu
    match hr : m.uTraj.reverse with
    | [] => rw [hr] at hrev; simp at hrev
    | [_] => rw [hr] at hrev; simp at hrev
    | q :: p :: r =>
      by_cases hc : 20 < m.cnt + 1
      · have : m.step Ts b = .error .giveUp := by
          unfold St.step
          simp [hb, hr, hc]
        rw [this]
      · have : ∃ m1, m.step Ts b = .ok m1 ∧ m1.noUpd = true ∧ m1.cnt = m.cnt + 1 ∧ 2 ≤ m1.uTraj.length := by
          unfold St.step
          simp [hb, hr, hc]
        obtain ⟨m1, e1, n1, c1, u1⟩ := this
        rw [e1]
        show m1.run Ts (a :: _) = _
        rw [St.run]
        have : ∃ m2, m1.step Ts a = .ok m2 ∧ m2.noUpd = false ∧ m2.cnt = m.cnt + 1 ∧ 2 ≤ m2.uTraj.length := by
          unfold St.step
          simp [ha, n1, c1]
          omega
        obtain ⟨m2, e2, n2, c2, u2⟩ := this
        rw [e2]
        exact ih m2 u2 n2 (by omega) (by omega)

/-- **C133** fails: it gives up although every segment is solved at the first or second attempt. -/
theorem C133_patience_violated (Ts : K) (s0 : S) (a b : Ans S K) (ha : a.ok = true) (hb : b.ok = false) (n : ℕ) (hn : 21 ≤ n) :
    (St.init s0).run Ts (alternating a b n) = .error .giveUp := by
  unfold alternating
  rw [St.run]
  have : ∃ m, (St.init s0 : St S K).step Ts a = .ok m ∧ m.noUpd = false ∧ m.cnt = 0 ∧ 2 ≤ m.uTraj.length := by
    unfold St.step
    simp [ha, St.init]
  obtain ⟨m, e, n1, c, u⟩ := this
  rw [e]
  exact alternating_run Ts a b ha hb n m u n1 (by omega) (by omega)

/-- **C133** fails: if the very first plan is rejected, it is not planned again. -/
theorem C133_first_violated (Ts : K) (s0 : S) (a : Ans S K) (as : List (Ans S K)) (ha : a.ok = false) :
    (St.init s0).run Ts (a :: as) = .error .index := by
  have : (St.init s0 : St S K).step Ts a = .error .index := by
    unfold St.step
    simp [ha, St.init]
  rw [St.run, this]

/-! ## Examples: three segments along a line, the second of which needs two attempts -/

def exA : Ans ℚ ℚ := ⟨[0, 1, 2], [⟨0, 0, 0⟩, ⟨1, 1, 0⟩, ⟨2, 2, 0⟩], 2, 5 / 2, ⟨2, 2, 0⟩, true⟩
def exB : Ans ℚ ℚ := ⟨[5 / 2, 3], [⟨2, 2, 0⟩, ⟨7, 7, 0⟩], 1, 4, ⟨9, 9, 0⟩, false⟩
def exC : Ans ℚ ℚ := ⟨[5 / 2, 3, 7 / 2], [⟨2, 2, 0⟩, ⟨2, 2, 0⟩, ⟨1, 1, 0⟩], 2, 4, ⟨0, 0, 0⟩, true⟩
def exRun : List (Ans ℚ ℚ) := [exA, exB, exC, exA]

/-- The machine runs through, with the recorded positions, machining times, clock and velocities given to the attempts. -/
example : ((St.init (0 : ℚ)).run 1 exRun).toOption.map (fun m => (m.sTraj, m.log, m.time)) =
    some ([0, 1, 2, 5 / 2, 3, 7 / 2, 4, 1, 2, 5 / 2], [2, 2, 2], 5) := by decide +kernel
example : ((St.init (0 : ℚ)).run 1 exRun).toOption.map (fun m => m.asked) =
    some [(0, none), (5 / 2, some ⟨2, 2, 0⟩), (5 / 2, some ⟨9, 9, 0⟩), (4, some ⟨0, 0, 0⟩)] := by decide +kernel

-- its third attempt starts too fast, and its clock is late
example (m : St ℚ ℚ) (h : (St.init (0 : ℚ)).run 1 exRun = .ok m) :
    m.asked[2]?.map (·.2) = some (some ⟨9, 9, 0⟩) ∧ velocity (exRun.take 2) = some ⟨2, 2, 0⟩ ∧ ((accepted exRun.dropLast).map (·.T)).sum < m.time :=
  ⟨(C133_velocity_violated 1 0 exRun m h 1 (by decide) rfl (by decide +kernel)).1, by decide +kernel,
    C133_clock_violated 1 0 exRun m h (by decide +kernel) ⟨exB, by simp [exRun], rfl⟩⟩
example : (St.init (0 : ℚ)).run 1 (alternating exC exB 30) = .error .giveUp := C133_patience_violated 1 0 exC exB rfl rfl 30 (by norm_num)
example : 21 ≤ (alternating exC exB 30).countP (fun a => !a.ok) :=
  C133_patience_partial (1 : ℚ) 0 _ (C133_patience_violated 1 0 exC exB rfl rfl 30 (by norm_num))

end Verif.GCode.Machining
