import Verif.Problems.InitGuess

/-! # Which plans are followed (C184)

Mirrors `omgtools/problems/problem.py:103-136` (`solve`) and its call in `omgtools/execution/deployer.py:68-70`. -/

namespace Verif.Problems.InitGuess

/-! ## Model -/

/-- The cases of `stats['return_status']` that `solve` distinguishes. -/
inductive Status where
  | succeeded
  | timeExceeded
  | other (name : String)
  deriving DecidableEq

/-- What the solver returns: `result['x']` and the status. -/
structure Answer (V : Type) where
  x : V
  status : Status

/-- The handling of the status, problem.py:120-130: the error raised, if any.  `now` is the time since the start of the problem; without
time left after the first update, `reset_init_guess()` is called. -/
def handle {α V : Type} (vehs : List (Veh α)) (now : ℚ) (r : Answer V) : Option Err :=
  if r.status ≠ .succeeded then
    if r.status = .timeExceeded then
      if now ≠ 0 then (resetInitGuess vehs none).2 else none
    else none
  else none

/-- `Problem.solve` followed by `store`, problem.py:103-136 and deployer.py:68-70: the variables are set to the result before the status is
looked at (problem.py:118), and `store` makes the trajectories from the variables.  The plan that is followed, or an error.  What
`reset_init_guess` stores is left out: with a default guess it stores nothing (`C149_violated`). -/
def update {α V : Type} (vehs : List (Veh α)) (start now : ℚ) (r : Answer V) : Except Err V :=
  let vars := r.x
  match handle vehs (now - start) r with
  | some e => .error e
  | none => .ok vars

/-- Updates one after the other, until the first error: the plans that are followed. -/
def followed {α V : Type} (vehs : List (Veh α)) (start : ℚ) : List (ℚ × Answer V) → List V × Option Err
  | [] => ([], none)
  | (now, r) :: rest =>
    match update vehs start now r with
    | .error e => ([], some e)
    | .ok p => let q := followed vehs start rest; (p :: q.1, q.2)

/-! ## Specification -/

/-- A solver keeps its word: what it calls a success meets the constraints. -/
def Spec.Honest {V : Type} (meets : V → Prop) (r : Answer V) : Prop := r.status = .succeeded → meets r.x

/-! ## Properties -/

/-- C184, as long as every problem is solved: all updates are carried out, the plans that are followed are the solutions, one per update,
and they meet the constraints of their problems. -/
theorem C184_partial {α V : Type} (vehs : List (Veh α)) (start : ℚ) (hist : List (ℚ × Answer V)) (meets : V → Prop)
    (hok : ∀ r ∈ hist, r.2.status = .succeeded) (hs : ∀ r ∈ hist, Spec.Honest meets r.2) :
    followed vehs start hist = (hist.map fun r => r.2.x, none) ∧ ∀ p ∈ (followed vehs start hist).1, meets p := by
  have h : followed vehs start hist = (hist.map fun r => r.2.x, none) := by
    induction hist with
    | nil => rfl
    | cons r hist ih =>
      obtain ⟨now, r⟩ := r
      have h1 : r.status = .succeeded := hok (now, r) (by simp)
      have ih := ih (fun r hr => hok r (by simp [hr])) (fun r hr => hs r (by simp [hr]))
      simp [followed, update, handle, h1, ih]
  refine ⟨h, ?_⟩
  rw [h]
  intro p hp
  simp only [List.mem_map] at hp
  obtain ⟨r, hr, rfl⟩ := hp
  exact hs r hr (hok r hr)

/-- C184 fails: an update whose problem was not solved is followed like any other, whatever the solver returned: for any other status
than success, unless the time limit is exceeded after the first update.  So for every kind of constraints that some plan does not
meet, an honest solver, and every time, the vehicle may follow a plan that does not meet them. -/
theorem C184_failed_violated {α V : Type} (vehs : List (Veh α)) (start now : ℚ) (meets : V → Prop) (bad : V) (hbad : ¬meets bad)
    (status : Status) (hst : status ≠ .succeeded) (htime : status = .timeExceeded → now = start) :
    Spec.Honest meets ⟨bad, status⟩ ∧ followed vehs start [(now, ⟨bad, status⟩)] = ([bad], none) ∧ ¬meets bad := by
  refine ⟨fun h => absurd h hst, ?_, hbad⟩
  by_cases h : status = .timeExceeded
  · simp [followed, update, handle, h, htime h]
  · simp [followed, update, handle, h]

/-- C184 fails: if the time limit is exceeded after the first update, no plan is followed any more, neither the old one nor a new one: an
error is raised, for every problem with at least one vehicle. -/
theorem C184_time_violated {α V : Type} (vehs : List (Veh α)) (hne : vehs ≠ []) (hseg : ∀ v ∈ vehs, 1 ≤ v.nSeg)
    (hlist : ∀ v ∈ vehs, ∀ g, v.guess = some g → ∃ items, g = .list items) (start now : ℚ) (hnow : now ≠ start) (x : V)
    (rest : List (ℚ × Answer V)) :
    (followed vehs start ((now, ⟨x, .timeExceeded⟩) :: rest)).1 = [] ∧
      (followed vehs start ((now, ⟨x, .timeExceeded⟩) :: rest)).2 ≠ none := by
  have h := (C149_violated vehs hne hseg hlist).1
  cases e : (resetInitGuess vehs none).2 with
  | none => exact absurd e h
  | some er => simp [followed, update, handle, sub_ne_zero.2 hnow, e]

/-- Three updates of a vehicle: all of them solved, and the second one found infeasible. -/
example : let vehs : List (Veh ℕ) := [⟨1, 2, some (.list [.arr 2 7])⟩]
    followed vehs 0 [(0, ⟨"a", .succeeded⟩), (1 / 10, ⟨"b", .succeeded⟩), (1 / 5, ⟨"c", .succeeded⟩)] = (["a", "b", "c"], none) ∧
    followed vehs 0 [(0, ⟨"a", .succeeded⟩), (1 / 10, ⟨"b", .other "Infeasible_Problem_Detected"⟩), (1 / 5, ⟨"c", .succeeded⟩)] =
      (["a", "b", "c"], none) ∧
    followed vehs 0 [(0, ⟨"a", .timeExceeded⟩), (1 / 10, ⟨"b", .timeExceeded⟩), (1 / 5, ⟨"c", .succeeded⟩)] =
      (["a"], some .attributeError) := by
  refine ⟨?_, ?_, ?_⟩ <;> decide +kernel

end Verif.Problems.InitGuess
