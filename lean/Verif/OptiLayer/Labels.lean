import Mathlib.Data.List.DropRight
import Mathlib.Data.List.Nodup
import Mathlib.Data.List.Perm.Subperm
import Mathlib.Tactic.SplitIfs
import Mathlib.Tactic.Push

/-! # Labels of the optimisation objects (C35) -/

set_option linter.unusedSectionVars false

namespace Verif.OptiLayer

/-! ## Model -/

/-- A Python string. Only ASCII letters and digits are known as such. -/
abbrev Str := List Char

/-- `str(n)` for a natural number. -/
def str10 (n : ℕ) : Str :=
  if n < 10 then [Char.ofNat (48 + n)] else str10 (n / 10) ++ [Char.ofNat (48 + n % 10)]
decreasing_by omega

/-- `int(s)` of a string of digits. -/
def int10 (s : Str) : ℕ := s.foldl (fun a c => 10 * a + (c.toNat - 48)) 0

/-- The last item of `[''.join(g) for _, g in groupby(label, str.isalpha)]`: the longest end of the string whose characters
are all letters, or all not letters. optilayer.py:540-541. -/
def lastGroup (label : Str) : Str :=
  match label.getLast? with
  | none => []
  | some c => label.rtakeWhile fun x => x.isAlpha == c.isAlpha

/-- The other items, joined, optilayer.py:542. -/
def restGroups (label : Str) : Str :=
  match label.getLast? with
  | none => []
  | some c => label.rdropWhile fun x => x.isAlpha == c.isAlpha

/-- `_make_label`, optilayer.py:538-550, with `fuel` nested calls available (1000 by default in Python); `none` is an exception:
no calls left, or an empty label. -/
def makeLabel : ℕ → List Str → Str → Option Str
  | 0, _, _ => none
  | fuel + 1, labels, label =>
    if label = [] then none
    else if (lastGroup label).all Char.isDigit then
      if label ∈ labels then makeLabel fuel labels (restGroups label ++ str10 (int10 (lastGroup label) + 1))
      else some label
    else makeLabel fuel labels (label ++ ['0'])

/-- Creation of objects with the given labels, optilayer.py:502-503; an object that raises does not exist. The labels are
remembered in the class, optilayer.py:547. -/
def create (fuel : ℕ) : List Str → List Str → List Str
  | labels, [] => labels
  | labels, l :: ls =>
    match makeLabel fuel labels l with
    | none => create fuel labels ls
    | some l' => create fuel (labels ++ [l']) ls

/-! ## Specification -/

/-- A name as all classes of the toolbox use: it ends with a letter. -/
def Spec.word (l : Str) : Prop := ∃ (r : Str) (c : Char), l = r ++ [c] ∧ c.isAlpha = true

/-! ## Lemmas -/

theorem digit_facts : ∀ d < 10, (Char.ofNat (48 + d)).isDigit = true ∧ (Char.ofNat (48 + d)).isAlpha = false ∧
    (Char.ofNat (48 + d)).toNat - 48 = d := by decide

theorem str10_digits (n : ℕ) : (str10 n).all Char.isDigit = true ∧ (∀ c ∈ str10 n, c.isAlpha = false) ∧ str10 n ≠ [] := by
  induction n using str10.induct with
  | case1 n h =>
    unfold str10; rw [if_pos h]
    have := digit_facts n h
    simp [this]
  | case2 n h ih =>
    unfold str10; rw [if_neg h]
    have := digit_facts (n % 10) (Nat.mod_lt _ (by omega))
    refine ⟨by simp [ih.1, this.1], ?_, by simp⟩
    intro c hc
    rcases List.mem_append.1 hc with hc | hc
    · exact ih.2.1 c hc
    · rw [List.mem_singleton.1 hc]; exact this.2.1

theorem int10_str10 (n : ℕ) : int10 (str10 n) = n := by
  induction n using str10.induct with
  | case1 n h =>
    unfold str10; rw [if_pos h]
    simp [int10, (digit_facts n h).2.2]
  | case2 n h ih =>
    unfold str10; rw [if_neg h]
    have := (digit_facts (n % 10) (Nat.mod_lt _ (by omega))).2.2
    unfold int10 at ih ⊢
    rw [List.foldl_append, ih, List.foldl_cons, List.foldl_nil, this]
    omega

theorem str10_inj {m n : ℕ} (h : str10 m = str10 n) : m = n := by rw [← int10_str10 m, h, int10_str10]

theorem groups_str (r : Str) (s : Str) (hr : r = [] ∨ Spec.word r) (hs : ∀ c ∈ s, c.isAlpha = false) (hne : s ≠ []) :
    lastGroup (r ++ s) = s ∧ restGroups (r ++ s) = r := by
  obtain ⟨s', c, rfl⟩ : ∃ (s' : Str) (c : Char), s = s' ++ [c] := ⟨s.dropLast, s.getLast hne, (List.dropLast_append_getLast hne).symm⟩
  have hc := hs c (by simp)
  have hl : (r ++ (s' ++ [c])).getLast? = some c := by rw [← List.append_assoc]; simp
  have key : ∀ s : Str, (∀ x ∈ s, x.isAlpha = false) → (r ++ s).rtakeWhile (fun x => x.isAlpha == false) = s ∧
      (r ++ s).rdropWhile (fun x => x.isAlpha == false) = r := by
    intro s
    induction s using List.reverseRecOn with
    | nil =>
      intro _
      rw [List.append_nil]
      rcases hr with rfl | ⟨r', d, rfl, hd⟩
      · simp
      · rw [List.rtakeWhile_concat_neg _ _ _ (by simp [hd]), List.rdropWhile_concat_neg _ _ _ (by simp [hd])]
        exact ⟨rfl, rfl⟩
    | append_singleton s x ih =>
      intro h
      have hx := h x (by simp)
      rw [← List.append_assoc, List.rtakeWhile_concat_pos _ _ _ (by simp [hx]), List.rdropWhile_concat_pos _ _ _ (by simp [hx])]
      have := ih fun y hy => h y (by simp [hy])
      exact ⟨by rw [this.1], this.2⟩
  unfold lastGroup restGroups
  rw [hl]
  simp only [hc]
  exact key _ hs

theorem makeLabel_spec (fuel : ℕ) (labels : List Str) (label l : Str) (h : makeLabel fuel labels label = some l) : l ∉ labels := by
  induction fuel generalizing label with
  | zero => simp [makeLabel] at h
  | succ fuel ih =>
    rw [makeLabel] at h
    split_ifs at h with h1 h2 h3
    · exact ih _ h
    · rw [← Option.some.inj h]; exact h3
    · exact ih _ h

theorem makeLabel_num (fuel : ℕ) (labels : List Str) (r : Str) (hr : r = [] ∨ Spec.word r) (n : ℕ) :
    makeLabel (fuel + 1) labels (r ++ str10 n) =
      if r ++ str10 n ∈ labels then makeLabel fuel labels (r ++ str10 (n + 1)) else some (r ++ str10 n) := by
  obtain ⟨d1, d2, d3⟩ := str10_digits n
  obtain ⟨g1, g2⟩ := groups_str r (str10 n) hr d2 d3
  rw [makeLabel, if_neg (by simp [d3]), g1, g2, if_pos d1, int10_str10]

theorem makeLabel_run (fuel : ℕ) (labels : List Str) (r : Str) (hr : r = [] ∨ Spec.word r) (n : ℕ) :
    (makeLabel fuel labels (r ++ str10 n) = none ↔ ∀ k < fuel, r ++ str10 (n + k) ∈ labels) ∧
    (∀ l, makeLabel fuel labels (r ++ str10 n) = some l → ∃ k, l = r ++ str10 (n + k) ∧ ∀ j < k, r ++ str10 (n + j) ∈ labels) := by
  induction fuel generalizing n with
  | zero => exact ⟨by simp [makeLabel], by simp [makeLabel]⟩
  | succ fuel ih =>
    rw [makeLabel_num fuel labels r hr n]
    obtain ⟨i1, i2⟩ := ih (n + 1)
    split_ifs with h
    · refine ⟨?_, ?_⟩
      · rw [i1]
        constructor
        · intro hh k hk
          cases k with
          | zero => exact h
          | succ k =>
            have := hh k (by omega)
            rwa [show n + 1 + k = n + (k + 1) by omega] at this
        · intro hh k hk
          have := hh (k + 1) (by omega)
          rwa [show n + (k + 1) = n + 1 + k by omega] at this
      · intro l hl
        obtain ⟨k, e, hk⟩ := i2 l hl
        refine ⟨k + 1, by rw [e, show n + 1 + k = n + (k + 1) by omega], ?_⟩
        intro j hj
        cases j with
        | zero => exact h
        | succ j =>
          have := hk j (by omega)
          rwa [show n + 1 + j = n + (j + 1) by omega] at this
    · refine ⟨?_, ?_⟩
      · constructor
        · intro hh; simp at hh
        · intro hh; exact absurd (hh 0 (by omega)) h
      · intro l hl
        exact ⟨0, (Option.some.inj hl).symm, by omega⟩

theorem makeLabel_word (fuel : ℕ) (labels : List Str) (l : Str) (hl : Spec.word l) :
    makeLabel (fuel + 1) labels l = makeLabel fuel labels (l ++ str10 0) := by
  obtain ⟨r, c, rfl, hc⟩ := hl
  have hd : c.isDigit = false := by
    have h1 : ∀ c : Char, c.isAlpha = true → c.isDigit = false := by
      intro c h
      simp only [Char.isAlpha, Char.isUpper, Char.isLower, Char.isDigit, Bool.or_eq_true, Bool.and_eq_true, decide_eq_true_eq,
        Bool.and_eq_false_iff, decide_eq_false_iff_not, ge_iff_le] at h ⊢
      have e1 : 'A'.val.toNat = 65 := rfl
      have e2 : 'a'.val.toNat = 97 := rfl
      have e3 : '9'.val.toNat = 57 := rfl
      right
      intro h'
      have h' := UInt32.le_iff_toNat_le.1 h'
      rcases h with h | h
      · have := UInt32.le_iff_toNat_le.1 h.1
        omega
      · have := UInt32.le_iff_toNat_le.1 h.1
        omega
    exact h1 c hc
  have hs : (lastGroup (r ++ [c])).all Char.isDigit = false := by
    unfold lastGroup
    simp only [List.getLast?_append, List.getLast?_singleton, Option.some_or]
    rw [List.rtakeWhile_concat_pos _ _ _ (by simp)]
    simp [hd]
  rw [makeLabel, if_neg (by simp), if_neg (by rw [hs]; simp)]
  have : str10 0 = ['0'] := by unfold str10; rfl
  rw [this]

/-! ## Properties -/

/-- **C35** Whatever labels are asked for, in whatever order, all objects that are created have different labels. -/
theorem C35_distinct (fuel : ℕ) (requests : List Str) : (create fuel [] requests).Nodup := by
  suffices h : ∀ (requests labels : List Str), labels.Nodup → (create fuel labels requests).Nodup from h requests [] List.nodup_nil
  intro requests
  induction requests with
  | nil => intro labels h; exact h
  | cons l ls ih =>
    intro labels h
    rw [create]
    cases e : makeLabel fuel labels l with
    | none => exact ih labels h
    | some l' =>
      refine ih _ ?_
      rw [List.nodup_append]
      refine ⟨h, by simp, ?_⟩
      intro a ha b hb
      rw [List.mem_singleton.1 hb]
      rintro rfl
      exact makeLabel_spec fuel labels l _ e ha

/-- **C35** (partial) An object whose label ends with a letter is always created, under the first free number, as long as the number of
objects is at least two below the recursion limit.
Missing: more objects than that (`C35_limit_violated`), and labels that do not end with a letter (`C35_underscore_violated`). -/
theorem C35_created_partial (fuel : ℕ) (labels : List Str) (l : Str) (hl : Spec.word l) (hf : labels.length + 2 ≤ fuel) :
    ∃ k, makeLabel fuel labels l = some (l ++ str10 k) ∧ l ++ str10 k ∉ labels ∧ ∀ j < k, l ++ str10 j ∈ labels := by
  obtain ⟨f, rfl⟩ : ∃ f, fuel = f + 1 := ⟨fuel - 1, by omega⟩
  rw [makeLabel_word f labels l hl]
  obtain ⟨r1, r2⟩ := makeLabel_run f labels l (Or.inr hl) 0
  cases e : makeLabel f labels (l ++ str10 0) with
  | none =>
    exfalso
    have h := r1.1 e
    have hn : ((List.range f).map fun (k : ℕ) => l ++ str10 (0 + k)).Nodup := by
      refine List.Nodup.map ?_ List.nodup_range
      intro a b hab
      have := str10_inj (List.append_cancel_left hab)
      omega
    have hs : ((List.range f).map fun (k : ℕ) => l ++ str10 (0 + k)) ⊆ labels := by
      intro x hx
      obtain ⟨k, hk, rfl⟩ := List.mem_map.1 hx
      exact h k (List.mem_range.1 hk)
    have := (List.subperm_of_subset hn hs).length_le
    simp at this
    omega
  | some x =>
    obtain ⟨k, hk, hj⟩ := r2 x e
    refine ⟨k, by rw [hk, Nat.zero_add], ?_, ?_⟩
    · rw [← Nat.zero_add k, ← hk]
      exact makeLabel_spec _ _ _ _ e
    · intro j h
      have := hj j h
      rwa [Nat.zero_add] at this

/-- With the recursion limit `F + 1`, the `F + 1`-st object of a kind cannot be created. -/
theorem C35_limit_violated (F : ℕ) (l : Str) (hl : Spec.word l) :
    makeLabel (F + 1) ((List.range F).map fun (k : ℕ) => l ++ str10 k) l = none := by
  rw [makeLabel_word F _ l hl, (makeLabel_run F _ l (Or.inr hl) 0).1]
  intro k hk
  rw [Nat.zero_add]
  exact List.mem_map.2 ⟨k, List.mem_range.2 hk, rfl⟩

/-- The label `a_1` (a letter, an underscore, a digit) is never accepted, whatever the recursion limit. -/
theorem C35_underscore_violated (fuel : ℕ) (labels : List Str) : makeLabel fuel labels ['a', '_', '1'] = none := by
  have key : ∀ (fuel n : ℕ), makeLabel fuel labels (['a'] ++ ('_' :: '1' :: List.replicate n '0')) = none := by
    intro fuel
    induction fuel with
    | zero => intro n; rfl
    | succ fuel ih =>
      intro n
      obtain ⟨g1, -⟩ := groups_str ['a'] ('_' :: '1' :: List.replicate n '0') (Or.inr ⟨[], 'a', rfl, by decide⟩) (by
        intro c hc
        simp only [List.mem_cons, List.mem_replicate] at hc
        rcases hc with rfl | rfl | ⟨-, rfl⟩ <;> decide) (by simp)
      rw [makeLabel, if_neg (by simp), g1, if_neg (by simp)]
      have := ih (n + 1)
      rw [List.replicate_succ'] at this
      simpa using this
  exact key fuel 0

/-- Two vehicles, an obstacle, and a vehicle that asks for a label in use. -/
example : create 1000 [] [['v'], ['v'], ['o'], ['v', '0']] = [['v', '0'], ['v', '1'], ['o', '0'], ['v', '2']] := by
  decide +kernel

example : Spec.word "vehicle".toList := ⟨"vehicl".toList, 'e', by decide, by decide⟩

end Verif.OptiLayer
