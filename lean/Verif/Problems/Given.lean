import Mathlib.Data.List.Basic

/-! # The vehicles of a problem are those given (C207) -/

namespace Verif.Given

/-! ## Model -/

/-- What may be given to a problem, or be an element of a list given: a vehicle (by its number), a fleet (by its vehicles), or
something else. -/
inductive Item
  | vehicle (v : ℕ)
  | fleet (vs : List ℕ)
  | other
  deriving DecidableEq

/-- The argument `fleet` of a problem: one item or a list. -/
inductive Arg
  | one (i : Item)
  | many (l : List Item)

/-- `get_fleet_vehicles`, fleet.py:25-34, as used in problem.py:34: the vehicles of the problem. `none` is an exception: no first
element, or `None` returned, which cannot be unpacked. -/
def vehicles : Arg → Option (List Item)
  | .one (.fleet vs) => some (vs.map .vehicle)
  | .many l =>
    match l.head? with
    | none => none
    | some (.vehicle _) => some l
    | some (.fleet vs) => some (vs.map .vehicle)
    | some .other => none
  | .one (.vehicle v) => some [.vehicle v]
  | .one .other => none

/-! ## Specification -/

/-- The vehicles in an item. -/
def Spec.inItem : Item → List ℕ
  | .vehicle v => [v]
  | .fleet vs => vs
  | .other => []

/-- All vehicles given. -/
def Spec.given : Arg → List ℕ
  | .one i => Spec.inItem i
  | .many l => l.flatMap Spec.inItem

/-! ## Lemmas -/

theorem all_vehicles (vs : List ℕ) : (vs.map Item.vehicle).flatMap Spec.inItem = vs := by
  induction vs with
  | nil => rfl
  | cons v vs ih => rw [List.map_cons, List.flatMap_cons, ih]; rfl

/-! ## Properties -/

/-- C207, for a vehicle, a fleet, a list of vehicles that is not empty, and a list with a fleet first and no vehicles behind it: the
vehicles of the problem are all vehicles given, in their order. Missing: other lists (see below). -/
theorem C207_partial (a : Arg)
    (h : (∃ v, a = .one (.vehicle v)) ∨ (∃ vs, a = .one (.fleet vs)) ∨ (∃ (v : ℕ) (vs : List ℕ), a = .many (.vehicle v :: vs.map .vehicle)) ∨
      ∃ vs l, a = .many (.fleet vs :: l) ∧ Spec.given (.many l) = []) :
    vehicles a = some ((Spec.given a).map .vehicle) := by
  rcases h with ⟨v, rfl⟩ | ⟨vs, rfl⟩ | ⟨v, vs, rfl⟩ | ⟨vs, l, rfl, hl⟩
  · rfl
  · rfl
  · have : Spec.given (.many (.vehicle v :: vs.map .vehicle)) = v :: vs := by
      have := all_vehicles (v :: vs)
      rwa [List.map_cons] at this
    rw [this]
    rfl
  · have : Spec.given (.many (.fleet vs :: l)) = vs := by
      have h1 : Spec.given (.many (.fleet vs :: l)) = vs ++ Spec.given (.many l) := rfl
      rw [h1, hl, List.append_nil]
    rw [this]
    rfl

example : vehicles (.many [.vehicle 3, .vehicle 1, .vehicle 2]) = some [.vehicle 3, .vehicle 1, .vehicle 2] ∧
    vehicles (.many [.fleet [4, 5]]) = some [.vehicle 4, .vehicle 5] := by decide

/-- C207 fails for all lists that begin with a fleet and contain more vehicles: these are lost without notice. -/
theorem C207_fleets_violated (vs : List ℕ) (l : List Item) (h : Spec.given (.many l) ≠ []) :
    vehicles (.many (.fleet vs :: l)) = some (vs.map .vehicle) ∧
    vehicles (.many (.fleet vs :: l)) ≠ some ((Spec.given (.many (.fleet vs :: l))).map .vehicle) := by
  refine ⟨rfl, fun hc => h ?_⟩
  have h1 : Spec.given (.many (.fleet vs :: l)) = vs ++ Spec.given (.many l) := rfl
  rw [h1] at hc
  have h2 := congrArg List.length (Option.some.inj hc)
  simp only [List.length_map, List.length_append] at h2
  exact List.length_eq_zero_iff.1 (by omega)

/-- Two fleets. -/
example : Spec.given (.many [.fleet [3, 4]]) ≠ [] := by decide

/-- C207 fails for all lists that begin with a vehicle and contain something else than vehicles, such as a fleet: this is taken for a
vehicle of the problem. -/
theorem C207_mixed_violated (v : ℕ) (l : List Item) (i : Item) (hi : i ∈ l) (h : ∀ v, i ≠ .vehicle v) :
    ∃ r, vehicles (.many (.vehicle v :: l)) = some r ∧ i ∈ r ∧ ∀ given : List ℕ, r ≠ given.map .vehicle := by
  refine ⟨_, rfl, List.mem_cons_of_mem _ hi, ?_⟩
  intro given hc
  have hm : i ∈ given.map Item.vehicle := hc ▸ List.mem_cons_of_mem _ hi
  obtain ⟨w, _, hw⟩ := List.mem_map.1 hm
  exact h w hw.symm

/-- A vehicle and a fleet. -/
example : Item.fleet [1, 2] ∈ [Item.fleet [1, 2]] ∧ ∀ v, Item.fleet [1, 2] ≠ .vehicle v := ⟨List.mem_singleton.2 rfl, nofun⟩

/-- Without vehicles in a list a problem cannot be made. -/
theorem C207_empty_violated : vehicles (.many []) = none := rfl

example : vehicles (.one (.fleet [])) = some [] := rfl

end Verif.Given
