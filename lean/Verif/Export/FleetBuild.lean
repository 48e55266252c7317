import Verif.Problems.Builds

/-! # Which programs are exported for a fleet (C203) -/

set_option linter.unusedSectionVars false

namespace Verif.Export.FleetBuild

open Verif.Builds

variable {D : Type}

/-! ## Model -/

/-- The updaters (by number) for which `ExportADMM` exports a program, export_admm.py:33-46. With several groups the name of the directory is composed of a text and
an integer, `veh_type+'_'+nr+'nghb'`: an exception (`none`). -/
def exported (separateBuild : Bool) (vs : List (Vehicle D)) : Option (List ℕ) :=
  if separateBuild then some (List.range vs.length)
  else match sortVehicles vs with
    | [] => some []
    | [e] => match groupBy (neighboursOf vs) e.2 with
      | [] => some []
      | [g] => some (g.2.take 1)
      | _ => none
    | _ => none

/-! ## Specification -/

/-- Two vehicles of the fleet are of the same kind. -/
def Spec.Alike (v w : Vehicle D) : Prop := v.type = w.type ∧ v.neighbours = w.neighbours

/-! ## Lemmas -/

/-- One group, if there is one key. -/
theorem groupBy_const {κ : Type} [DecidableEq κ] (key : ℕ → κ) (l : List ℕ) (k : κ) (h : ∀ i ∈ l, key i = k) (hne : l ≠ []) : groupBy key l = [(k, l)] := by
  obtain ⟨h1, h2, h3⟩ := groupBy_spec key l
  have hk : ∀ e ∈ groupBy key l, e = (k, l) := by
    intro e he
    obtain ⟨p1, p2⟩ := h2 e he
    obtain ⟨i, hi⟩ := List.exists_mem_of_ne_nil _ p2
    rw [p1] at hi
    obtain ⟨hi1, hi2⟩ := List.mem_filter.1 hi
    have e1 : e.1 = k := by rw [← h i hi1]; exact (of_decide_eq_true hi2).symm
    refine Prod.ext e1 ?_
    rw [p1, e1]
    exact List.filter_eq_self.2 fun j hj => by simpa using h j hj
  obtain ⟨i, hi⟩ := List.exists_mem_of_ne_nil _ hne
  obtain ⟨e, he, -⟩ := h3 i hi
  match hg : groupBy key l, hk, h1 with
  | [], _, _ => rw [hg] at he; exact absurd he (by simp)
  | [a], hk, _ => rw [hk a (by simp)]
  | a :: b :: r, hk, h1 =>
    rw [hk a (by simp), hk b (by simp)] at h1
    simp at h1

theorem of_groupBy_one {κ : Type} [DecidableEq κ] (key : ℕ → κ) (l : List ℕ) (e : κ × List ℕ) (h : groupBy key l = [e]) : (∀ i ∈ l, key i = e.1) ∧ e.2 = l := by
  obtain ⟨-, h2, h3⟩ := groupBy_spec key l
  have h4 : ∀ i ∈ l, key i = e.1 := by
    intro i hi
    obtain ⟨e', he, hk⟩ := h3 i hi
    rw [h, List.mem_singleton] at he
    rw [← hk, he]
  refine ⟨h4, ?_⟩
  rw [(h2 e (by rw [h]; simp)).1]
  exact List.filter_eq_self.2 fun j hj => by simpa using h4 j hj

theorem groupBy_ne_nil {κ : Type} [DecidableEq κ] (key : ℕ → κ) (l : List ℕ) (hne : l ≠ []) : groupBy key l ≠ [] := by
  obtain ⟨i, hi⟩ := List.exists_mem_of_ne_nil _ hne
  obtain ⟨e, he, -⟩ := (groupBy_spec key l).2.2 i hi
  exact List.ne_nil_of_mem he

/-! ## Theorems -/

/-- **C203** (part) With separate builds a program is exported for every vehicle. Without, if all vehicles are of the same type and have the same number of neighbours, one program is
exported for all of them, that of the first one.
Missing: fleets of different vehicles (`C203_mixed_violated`). -/
theorem C203_partial (vs : List (Vehicle D)) : exported true vs = some (List.range vs.length) ∧
    (vs ≠ [] → (∀ v ∈ vs, ∀ w ∈ vs, Spec.Alike v w) → exported false vs = some [0]) := by
  refine ⟨rfl, fun hne hall => ?_⟩
  obtain ⟨v, r, rfl⟩ := List.exists_cons_of_ne_nil hne
  have hget : ∀ i ∈ List.range (v :: r).length, ∃ w ∈ v :: r, (v :: r)[i]? = some w := fun i hi =>
    ⟨(v :: r)[i]'(List.mem_range.1 hi), List.getElem_mem _, List.getElem?_eq_getElem _⟩
  have hrange : List.range (v :: r).length ≠ [] := by simp
  have h1 : sortVehicles (v :: r) = [(v.type, List.range (v :: r).length)] := by
    refine groupBy_const _ _ _ (fun i hi => ?_) hrange
    obtain ⟨w, hw, he⟩ := hget i hi
    unfold typeOf
    rw [he]
    exact (hall w hw v (by simp)).1
  have h2 : groupBy (neighboursOf (v :: r)) (List.range (v :: r).length) = [(v.neighbours, List.range (v :: r).length)] := by
    refine groupBy_const _ _ _ (fun i hi => ?_) hrange
    obtain ⟨w, hw, he⟩ := hget i hi
    unfold neighboursOf
    rw [he]
    exact (hall w hw v (by simp)).2
  unfold exported
  rw [h1]
  simp only [Bool.false_eq_true, if_false]
  rw [h2]
  simp [List.range_succ_eq_map]

/-- **C203** fails for every fleet in which two vehicles are of different types or have different numbers of neighbours: the export stops with an exception. -/
theorem C203_mixed_violated (vs : List (Vehicle D)) (v w : Vehicle D) (hv : v ∈ vs) (hw : w ∈ vs) (h : ¬ Spec.Alike v w) : exported false vs = none := by
  obtain ⟨i, hi, rfl⟩ := List.getElem_of_mem hv
  obtain ⟨j, hj, rfl⟩ := List.getElem_of_mem hw
  have hrange : List.range vs.length ≠ [] := List.ne_nil_of_mem (List.mem_range.2 hi)
  have ht : ∀ k (hk : k < vs.length), typeOf vs k = vs[k].type ∧ neighboursOf vs k = vs[k].neighbours := fun k hk => by
    unfold typeOf neighboursOf
    rw [List.getElem?_eq_getElem hk]
    exact ⟨rfl, rfl⟩
  unfold exported
  simp only [Bool.false_eq_true, if_false]
  match hs : sortVehicles vs with
  | [] => exact absurd hs (groupBy_ne_nil _ _ hrange)
  | [e] =>
    obtain ⟨h1, h2⟩ := of_groupBy_one _ _ e hs
    match hg : groupBy (neighboursOf vs) e.2 with
    | [] => exact absurd hg (groupBy_ne_nil _ _ (by rw [h2]; exact hrange))
    | [g] =>
      obtain ⟨h3, -⟩ := of_groupBy_one _ _ g hg
      rw [h2] at h3
      refine absurd ⟨?_, ?_⟩ h
      · rw [← (ht i hi).1, ← (ht j hj).1, h1 i (List.mem_range.2 hi), h1 j (List.mem_range.2 hj)]
      · rw [← (ht i hi).2, ← (ht j hj).2, h3 i (List.mem_range.2 hi), h3 j (List.mem_range.2 hj)]
    | a :: b :: r => simp only [hg]
  | a :: b :: r => rfl

/-! ## Examples -/

example : exported false [(⟨"Holonomic", 2, 1⟩ : Vehicle ℕ), ⟨"Holonomic", 2, 5⟩, ⟨"Holonomic", 2, 7⟩] = some [0] :=
  (C203_partial _).2 (by simp) (by simp [Spec.Alike])

example : exported false [(⟨"Holonomic", 2, 1⟩ : Vehicle ℕ), ⟨"Quadrotor", 2, 5⟩] = none :=
  C203_mixed_violated _ ⟨"Holonomic", 2, 1⟩ ⟨"Quadrotor", 2, 5⟩ (by simp) (by simp) (by simp [Spec.Alike])

end Verif.Export.FleetBuild
