import Mathlib.Logic.Function.Basic
import Mathlib.Data.List.Basic

/-! # The exported program evaluates every substitute with its own function (C208) -/

namespace Verif.Export.Substitutes

variable {F : Type}

/-! ## Model -/

/-- A substitute of a problem: the object that defined it, its name there, and its function. -/
structure Subst (F : Type) where
  child : ℕ
  name : String
  fn : F

/-- The substitutes of all objects, in the order of the loops over `father.substitutes` (export.py:203-204 and 296-297). -/
def listed (children : List (ℕ × List (String × F))) : List (Subst F) :=
  children.flatMap fun c => c.2.map fun s => ⟨c.1, s.1, s.2⟩

/-- `export_casadi_problems`, export.py:199-208: the files `subst_NAME.c`, by name; a file that exists is replaced. -/
def files (subs : List (Subst F)) : String → Option F :=
  subs.foldl (fun m s => Function.update m s.name (some s.fn)) fun _ => none

/-- The statements of `_create_generateSubstituteFunctions`, export.py:294-300, executed in turn: `substitutes["NAME"]` is set to the
function in the (compiled) file of that name. -/
def loaded (subs : List (Subst F)) : String → Option F :=
  subs.foldl (fun m s => Function.update m s.name (files subs s.name)) fun _ => none

/-! ## Lemmas -/

theorem files_from (subs : List (Subst F)) : ∀ (m : String → Option F) (n : String),
    (∀ s ∈ subs, s.name ≠ n) →
    subs.foldl (fun (m : String → Option F) s => Function.update m s.name (some s.fn)) m n = m n := by
  induction subs with
  | nil => intro m n _; rfl
  | cons s l ih =>
    intro m n h
    rw [List.foldl_cons, ih _ n (fun t ht => h t (List.mem_cons_of_mem _ ht)),
      Function.update_of_ne (h s List.mem_cons_self).symm]

theorem files_last (l l' : List (Subst F)) (t : Subst F) (h : ∀ s ∈ l', s.name ≠ t.name) :
    files (l ++ t :: l') t.name = some t.fn := by
  unfold files
  rw [List.foldl_append, List.foldl_cons, files_from l' _ _ h, Function.update_self]

theorem loaded_from (g : String → Option F) (subs : List (Subst F)) : ∀ (m : String → Option F) (n : String),
    subs.foldl (fun (m : String → Option F) s => Function.update m s.name (g s.name)) m n = if ∃ s ∈ subs, s.name = n then g n else m n := by
  induction subs with
  | nil => intro m n; simp
  | cons s l ih =>
    intro m n
    rw [List.foldl_cons, ih]
    by_cases h1 : ∃ s ∈ l, s.name = n
    · rw [if_pos h1, if_pos]
      obtain ⟨t, ht, hn⟩ := h1
      exact ⟨t, List.mem_cons_of_mem _ ht, hn⟩
    · rw [if_neg h1]
      by_cases h2 : s.name = n
      · rw [if_pos ⟨s, List.mem_cons_self, h2⟩, ← h2, Function.update_self]
      · rw [Function.update_of_ne (Ne.symm h2), if_neg]
        rintro ⟨t, ht, hn⟩
        rcases List.mem_cons.1 ht with rfl | ht
        · exact h2 hn
        · exact h1 ⟨t, ht, hn⟩

theorem exists_last (subs : List (Subst F)) (n : String) (h : ∃ s ∈ subs, s.name = n) :
    ∃ l t l', subs = l ++ t :: l' ∧ t.name = n ∧ ∀ s ∈ l', s.name ≠ n := by
  induction subs with
  | nil => simp at h
  | cons s r ih =>
    by_cases h1 : ∃ s ∈ r, s.name = n
    · obtain ⟨l, t, l', e, h2, h3⟩ := ih h1
      exact ⟨s :: l, t, l', by rw [e]; rfl, h2, h3⟩
    · obtain ⟨u, hu, hn⟩ := h
      rcases List.mem_cons.1 hu with rfl | hu
      · exact ⟨[], u, r, rfl, hn, fun t ht hc => h1 ⟨t, ht, hc⟩⟩
      · exact absurd ⟨u, hu, hn⟩ h1

/-! ## Properties -/

/-- C208, if no two objects use the same name for different functions: the exported program evaluates every substitute of every
object with its own function. Missing: equal names (see below). -/
theorem C208_partial (children : List (ℕ × List (String × F)))
    (h : ∀ c ∈ children, ∀ c' ∈ children, ∀ n f f', (n, f) ∈ c.2 → (n, f') ∈ c'.2 → f = f') :
    ∀ c ∈ children, ∀ n f, (n, f) ∈ c.2 → loaded (listed children) n = some f := by
  intro c hc n f hf
  have hm : (⟨c.1, n, f⟩ : Subst F) ∈ listed children := by
    unfold listed
    exact List.mem_flatMap.2 ⟨c, hc, List.mem_map.2 ⟨(n, f), hf, rfl⟩⟩
  have hex : ∃ s ∈ listed children, s.name = n := ⟨_, hm, rfl⟩
  unfold loaded
  rw [loaded_from, if_pos hex]
  obtain ⟨l, t, l', e, hn, hl⟩ := exists_last _ n hex
  subst hn
  rw [e, files_last l l' t hl]
  have ht : t ∈ listed children := by rw [e]; simp
  obtain ⟨c', hc', hs'⟩ := List.mem_flatMap.1 ht
  obtain ⟨⟨n, g⟩, hg, rfl⟩ := List.mem_map.1 hs'
  exact congrArg some (h c' hc' c hc n g f hg hf)

/-- Two coordinates of one vehicle, and another substitute of an obstacle. -/
example : loaded (listed [(0, [("fleet_center0", 7), ("fleet_center1", 8)]), (1, [("size", 9)])]) "fleet_center1" = some 8 := by
  decide

/-- C208 fails for all problems with two objects that use the same name for different functions: only the last one is exported, and
evaluated for both. -/
theorem C208_names_violated (l l' : List (Subst F)) (s t : Subst F) (hs : s ∈ l) (hn : s.name = t.name) (hf : s.fn ≠ t.fn)
    (h : ∀ u ∈ l', u.name ≠ t.name) :
    loaded (l ++ t :: l') s.name = some t.fn ∧ loaded (l ++ t :: l') s.name ≠ some s.fn := by
  have e : loaded (l ++ t :: l') s.name = some t.fn := by
    unfold loaded
    rw [loaded_from, if_pos ⟨s, List.mem_append_left _ hs, rfl⟩, hn, files_last l l' t h]
  exact ⟨e, fun hc => hf (Option.some.inj (hc.symm.trans e))⟩

/-- Two vehicles with a substitute `fleet_center0` each. -/
example : (⟨0, "fleet_center0", 7⟩ : Subst ℕ) ∈ [(⟨0, "fleet_center0", 7⟩ : Subst ℕ)] ∧ (7 : ℕ) ≠ 8 := ⟨List.mem_singleton.2 rfl, by decide⟩

end Verif.Export.Substitutes
