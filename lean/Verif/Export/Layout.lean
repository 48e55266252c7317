import Mathlib.Algebra.BigOperators.Group.Finset.Basic
import Mathlib.Algebra.Field.Defs
import Mathlib.Algebra.Ring.Rat
import Mathlib.Algebra.Order.BigOperators.Group.List
import Mathlib.Tactic.Ring
import Mathlib.Tactic.Linarith
import Mathlib.Tactic.NormNum

/-! # The layout of the vectors in the exported C++ code

`omgtools/export/export.py` writes C++ functions that copy every variable and parameter between a
dictionary (`map<string, map<string, vector<double>>>`) and one flat vector.  The generated text is a
list of copy statements; the statements (not their spelling) are modelled and given the meaning C++
gives them.  Reading beyond the end of a `vector` has no defined meaning and is `none`.

The flat vectors have the fixed lengths `N_VAR`, `N_PAR` and are functions `ℕ → K`. -/

set_option linter.unusedSectionVars false
set_option linter.unusedVariables false

namespace Verif.Export

/-- A symbolic variable or parameter of a child of the optimization problem: label of the child, name,
`size(1)` and `size(2)` (omgtools/export/export.py:304-306, 319-324). -/
structure Sym where
  label : String
  name : String
  rows : ℕ
  cols : ℕ
deriving DecidableEq

/-- `par.size(1)*par.size(2)` (export.py:307, 314, 334, 352). -/
def Sym.size (s : Sym) : ℕ := s.rows * s.cols

/-- The pair of keys in the C++ dictionaries, `["label"]["name"]`. -/
def Sym.key (s : Sym) : String × String := (s.label, s.name)

/-- `map<string, map<string, vector<double>>>`. -/
abbrev Dict (K : Type) := String × String → Option (List K)

/-! ## Specification: the flat vector stores the symbols one after another -/

/-- Where symbol number `j` begins: behind all symbols before it. -/
def offset (syms : List Sym) (j : ℕ) : ℕ := ((syms.take j).map Sym.size).sum

/-- The length of the flat vector (`N_VAR`, `N_PAR`, export.py:220-221). -/
def total (syms : List Sym) : ℕ := (syms.map Sym.size).sum

section model
variable {K : Type}

/-- The generated statement `for (int i=0; i<n; i++) vect[base+i] = dict[label][name][i];`. -/
structure Copy where
  base : ℕ
  n : ℕ
  key : String × String

/-- The loop of `Copy`: elements `0 .. n-1` of `l` are written from `base` on
(export.py:307-309, 325-328). -/
def copyLoop (l : List K) (base : ℕ) : ℕ → (ℕ → K) → Option (ℕ → K)
  | 0, v => some v
  | n + 1, v => do
    let v' ← copyLoop l base n v
    let x ← l[n]?
    some (Function.update v' (base + n) x)

/-- The generator of `getParameterVector` and of the copy statements of `getVariableVector`
(export.py:302-315, 317-336): a symbol of more than one row is copied with a loop over
`size(1)*size(2)` elements, other symbols with one assignment of element `0`; the counter grows by
`size(1)*size(2)`. -/
def genVector : ℕ → List Sym → List Copy
  | _, [] => []
  | cnt, s :: r =>
    ⟨cnt, if 1 < s.rows then s.rows * s.cols else 1, s.key⟩ :: genVector (cnt + s.rows * s.cols) r

/-- Running the generated `getParameterVector` (export.py:302-315): every parameter is read; the
`operator[]` of a missing key gives an empty vector, whose elements cannot be read. -/
def runParameters (d : Dict K) : List Copy → (ℕ → K) → Option (ℕ → K)
  | [], v => some v
  | c :: r, v => do
    let l ← d c.key
    let v' ← copyLoop l c.base c.n v
    runParameters d r v'

/-- Running the generated `getVariableVector` (export.py:317-336): a variable is copied if it is present
in the dictionary. -/
def runVariables (d : Dict K) : List Copy → (ℕ → K) → Option (ℕ → K)
  | [], v => some v
  | c :: r, v =>
    match d c.key with
    | none => runVariables d r v
    | some l => do
      let v' ← copyLoop l c.base c.n v
      runVariables d r v'

/-- `getParameterVector(par_vect, par_dict)`. -/
def getParameterVector (syms : List Sym) (d : Dict K) (v : ℕ → K) : Option (ℕ → K) :=
  runParameters d (genVector 0 syms) v

/-- `getVariableVector(var_vect, var_dict)`. -/
def getVariableVector (syms : List Sym) (d : Dict K) (v : ℕ → K) : Option (ℕ → K) :=
  runVariables d (genVector 0 syms) v

/-- The generated statements of `getVariableDict` (export.py:343-351): a vector is filled and stored, or
one `double` is assigned to the entry of the dictionary. -/
inductive Store where
  | vec (base n : ℕ) (key : String × String)
  | scalar (base : ℕ) (key : String × String)

/-- The generator of `getVariableDict` (export.py:338-353). -/
def genDict : ℕ → List Sym → List Store
  | _, [] => []
  | cnt, s :: r =>
    (if 1 < s.rows then .vec cnt (s.rows * s.cols) s.key else .scalar cnt s.key) ::
      genDict (cnt + s.rows * s.cols) r

/-- Running the generated `getVariableDict`.  The entry of the dictionary is a `vector<double>`, which
has no assignment from a `double` (its constructor from a number is explicit): `scalar` is rejected by
the compiler, `none`. -/
def runDict (v : ℕ → K) : List Store → Dict K → Option (Dict K)
  | [], d => some d
  | .vec base n key :: r, d =>
    runDict v r (Function.update d key (some ((List.range n).map fun i => v (base + i))))
  | .scalar _ _ :: _, _ => none

/-- `getVariableDict(var_vect, var_dict)`. -/
def getVariableDict (syms : List Sym) (v : ℕ → K) (d : Dict K) : Option (Dict K) :=
  runDict v (genDict 0 syms) d

end model

/-! ## Offsets -/

theorem offset_zero (syms : List Sym) : offset syms 0 = 0 := by simp [offset]

theorem offset_succ (s : Sym) (r : List Sym) (j : ℕ) :
    offset (s :: r) (j + 1) = s.size + offset r j := by simp [offset]

theorem total_cons (s : Sym) (r : List Sym) : total (s :: r) = s.size + total r := by simp [total]

theorem offset_lt (syms : List Sym) (j : ℕ) (s : Sym) (k : ℕ) (hs : syms[j]? = some s)
    (hk : k < s.size) : offset syms j + k < total syms := by
  induction syms generalizing j with
  | nil => simp at hs
  | cons a r ih =>
    cases j with
    | zero =>
      simp only [List.getElem?_cons_zero, Option.some.injEq] at hs
      subst hs
      rw [offset_zero, total_cons]; omega
    | succ j =>
      simp only [List.getElem?_cons_succ] at hs
      have := ih j hs
      rw [offset_succ, total_cons]; omega

section proofs
variable {K : Type}

theorem copyLoop_spec (l : List K) (base n : ℕ) (v : ℕ → K) (h : n ≤ l.length) :
    ∃ v', copyLoop l base n v = some v' ∧ (∀ k, k < n → l[k]? = some (v' (base + k))) ∧
      ∀ p, (p < base ∨ base + n ≤ p) → v' p = v p := by
  induction n with
  | zero => exact ⟨v, rfl, by intro k hk; omega, fun p _ => rfl⟩
  | succ n ih =>
    obtain ⟨v1, h1, h2, h3⟩ := ih (by omega)
    have hx : l[n]? = some (l[n]'(by omega)) := List.getElem?_eq_getElem (by omega)
    refine ⟨Function.update v1 (base + n) (l[n]'(by omega)), ?_, ?_, ?_⟩
    · simp [copyLoop, h1, hx]
    · intro k hk
      by_cases e : k = n
      · subst e; rw [Function.update_self]; exact hx
      · rw [Function.update_of_ne (by omega)]; exact h2 k (by omega)
    · intro p hp
      rw [Function.update_of_ne (by omega)]; exact h3 p (by omega)

/-- A shape that `genVector` copies completely. -/
def Sym.plain (s : Sym) : Prop := 1 < s.rows ∨ s.size = 1

theorem genVector_n {s : Sym} (h : s.plain) :
    (if 1 < s.rows then s.rows * s.cols else 1) = s.size := by
  unfold Sym.plain at h
  unfold Sym.size at *
  split_ifs with h'
  · rfl
  · rcases h with h | h
    · omega
    · exact h.symm

theorem runParameters_spec (d : Dict K) (syms : List Sym) (cnt : ℕ) (v : ℕ → K)
    (hp : ∀ s ∈ syms, s.plain) (hd : ∀ s ∈ syms, ∃ l, d s.key = some l ∧ s.size ≤ l.length) :
    ∃ v', runParameters d (genVector cnt syms) v = some v' ∧
      (∀ j s, syms[j]? = some s → ∀ l, d s.key = some l → ∀ k, k < s.size →
        l[k]? = some (v' (cnt + offset syms j + k))) ∧
      ∀ p, (p < cnt ∨ cnt + total syms ≤ p) → v' p = v p := by
  induction syms generalizing cnt v with
  | nil => exact ⟨v, rfl, by simp, fun p _ => rfl⟩
  | cons a r ih =>
    obtain ⟨l, hl, hlen⟩ := hd a (by simp)
    obtain ⟨v1, h1, h2, h3⟩ := copyLoop_spec l cnt a.size v hlen
    obtain ⟨v2, g1, g2, g3⟩ := ih (cnt + a.size) v1 (fun s hs => hp s (by simp [hs]))
      (fun s hs => hd s (by simp [hs]))
    refine ⟨v2, ?_, ?_, ?_⟩
    · have := genVector_n (hp a (by simp))
      simp only [genVector, runParameters, this, hl]
      show (copyLoop l cnt a.size v).bind (fun v' => runParameters d (genVector (cnt + a.size) r) v') = _
      rw [h1]; exact g1
    · intro j s hs l' hl' k hk
      cases j with
      | zero =>
        simp only [List.getElem?_cons_zero, Option.some.injEq] at hs
        subst hs
        rw [hl] at hl'; simp only [Option.some.injEq] at hl'; subst hl'
        rw [offset_zero, Nat.add_zero, g3 (cnt + k) (by omega)]
        exact h2 k hk
      | succ j =>
        simp only [List.getElem?_cons_succ] at hs
        have := g2 j s hs l' hl' k hk
        rw [offset_succ, ← Nat.add_assoc]; exact this
    · intro p hp'
      rw [total_cons] at hp'
      rw [g3 p (by omega), h3 p (by omega)]

theorem runVariables_spec (d : Dict K) (syms : List Sym) (cnt : ℕ) (v : ℕ → K)
    (hp : ∀ s ∈ syms, s.plain) (hd : ∀ s ∈ syms, ∀ l, d s.key = some l → s.size ≤ l.length) :
    ∃ v', runVariables d (genVector cnt syms) v = some v' ∧
      (∀ j s, syms[j]? = some s → ∀ k, k < s.size →
        (∀ l, d s.key = some l → l[k]? = some (v' (cnt + offset syms j + k))) ∧
        (d s.key = none → v' (cnt + offset syms j + k) = v (cnt + offset syms j + k))) ∧
      ∀ p, (p < cnt ∨ cnt + total syms ≤ p) → v' p = v p := by
  induction syms generalizing cnt v with
  | nil => exact ⟨v, rfl, by simp, fun p _ => rfl⟩
  | cons a r ih =>
    have hn := genVector_n (hp a (by simp))
    have key : ∃ v1, (match d a.key with | none => some v | some l => copyLoop l cnt a.size v) = some v1 ∧
        (∀ k, k < a.size → (∀ l, d a.key = some l → l[k]? = some (v1 (cnt + k))) ∧
          (d a.key = none → v1 (cnt + k) = v (cnt + k))) ∧
        ∀ p, (p < cnt ∨ cnt + a.size ≤ p) → v1 p = v p := by
      cases hl : d a.key with
      | none => exact ⟨v, rfl, fun k hk => ⟨by simp, fun _ => rfl⟩, fun p _ => rfl⟩
      | some l =>
        obtain ⟨v1, h1, h2, h3⟩ := copyLoop_spec l cnt a.size v (hd a (by simp) l hl)
        refine ⟨v1, h1, fun k hk => ⟨?_, by simp⟩, h3⟩
        intro l' hl'
        simp only [Option.some.injEq] at hl'; subst hl'; exact h2 k hk
    obtain ⟨v1, h1, h2, h3⟩ := key
    obtain ⟨v2, g1, g2, g3⟩ := ih (cnt + a.size) v1 (fun s hs => hp s (by simp [hs]))
      (fun s hs => hd s (by simp [hs]))
    refine ⟨v2, ?_, ?_, ?_⟩
    · simp only [genVector, runVariables, hn]
      cases hl : d a.key with
      | none =>
        rw [hl] at h1; simp only [Option.some.injEq] at h1; subst h1; exact g1
      | some l =>
        rw [hl] at h1; dsimp only at h1 ⊢
        rw [h1]; exact g1
    · intro j s hs k hk
      cases j with
      | zero =>
        simp only [List.getElem?_cons_zero, Option.some.injEq] at hs
        subst hs
        rw [offset_zero, Nat.add_zero, g3 (cnt + k) (by omega)]
        exact h2 k hk
      | succ j =>
        simp only [List.getElem?_cons_succ] at hs
        have := g2 j s hs k hk
        have hb : v1 (cnt + a.size + offset r j + k) = v (cnt + a.size + offset r j + k) :=
          h3 _ (by omega)
        rw [hb] at this
        rw [offset_succ, ← Nat.add_assoc]; exact this
    · intro p hp'
      rw [total_cons] at hp'
      rw [g3 p (by omega), h3 p (by omega)]

theorem runDict_other (v : ℕ → K) (syms : List Sym) (cnt : ℕ) (d d' : Dict K)
    (h : runDict v (genDict cnt syms) d = some d') (key : String × String)
    (hk : key ∉ syms.map Sym.key) : d' key = d key := by
  induction syms generalizing cnt d with
  | nil => simp only [genDict, runDict, Option.some.injEq] at h; rw [h]
  | cons a r ih =>
    simp only [List.map_cons, List.mem_cons, not_or] at hk
    simp only [genDict] at h
    split_ifs at h with hr
    · simp only [runDict] at h
      rw [ih _ _ h hk.2, Function.update_of_ne hk.1]
    · simp [runDict] at h

theorem runDict_spec (v : ℕ → K) (syms : List Sym) (cnt : ℕ) (d : Dict K)
    (hr : ∀ s ∈ syms, 1 < s.rows) (hnd : (syms.map Sym.key).Nodup) :
    ∃ d', runDict v (genDict cnt syms) d = some d' ∧
      ∀ j s, syms[j]? = some s → ∃ l, d' s.key = some l ∧ l.length = s.size ∧
        ∀ k, k < s.size → l[k]? = some (v (cnt + offset syms j + k)) := by
  induction syms generalizing cnt d with
  | nil => exact ⟨d, rfl, by simp⟩
  | cons a r ih =>
    simp only [List.map_cons, List.nodup_cons] at hnd
    have ha : 1 < a.rows := hr a (by simp)
    let d1 := Function.update d a.key (some ((List.range a.size).map fun i => v (cnt + i)))
    obtain ⟨d2, g1, g2⟩ := ih (cnt + a.size) d1 (fun s hs => hr s (by simp [hs])) hnd.2
    refine ⟨d2, ?_, ?_⟩
    · simp only [genDict, if_pos ha, runDict]; exact g1
    · intro j s hs
      cases j with
      | zero =>
        simp only [List.getElem?_cons_zero, Option.some.injEq] at hs
        subst hs
        refine ⟨(List.range a.size).map fun i => v (cnt + i), ?_, by simp, ?_⟩
        · rw [runDict_other v r _ d1 d2 g1 a.key hnd.1]; simp [d1]
        · intro k hk
          simp [offset_zero, hk]
      | succ j =>
        simp only [List.getElem?_cons_succ] at hs
        obtain ⟨l, e1, e2, e3⟩ := g2 j s hs
        refine ⟨l, e1, e2, ?_⟩
        rw [offset_succ, ← Nat.add_assoc]; exact e3

theorem runDict_scalar (v : ℕ → K) (syms : List Sym) (cnt : ℕ) (d : Dict K) (s : Sym) (hs : s ∈ syms)
    (hr : s.rows ≤ 1) : runDict v (genDict cnt syms) d = none := by
  induction syms generalizing cnt d with
  | nil => simp at hs
  | cons a r ih =>
    simp only [genDict]
    split_ifs with ha
    · simp only [runDict]
      rcases List.mem_cons.1 hs with e | e
      · subst e; omega
      · exact ih _ _ e
    · rfl

end proofs

/-! # C49 -/

section properties
variable {K : Type}

/-- C49, layout: every position of the flat vector belongs to exactly one element of exactly one symbol. -/
theorem C49_cover (syms : List Sym) (p : ℕ) (hp : p < total syms) :
    ∃! jk : ℕ × ℕ, ∃ s, syms[jk.1]? = some s ∧ jk.2 < s.size ∧ p = offset syms jk.1 + jk.2 := by
  induction syms generalizing p with
  | nil => simp [total] at hp
  | cons a r ih =>
    by_cases h : p < a.size
    · refine ⟨(0, p), ⟨a, by simp, h, by simp [offset_zero]⟩, ?_⟩
      rintro ⟨j, k⟩ ⟨s, hs, hk, e⟩
      dsimp only at hs hk e
      cases j with
      | zero => rw [offset_zero, Nat.zero_add] at e; rw [e]
      | succ j => rw [offset_succ] at e; omega
    · rw [total_cons] at hp
      obtain ⟨⟨j, k⟩, ⟨s, hs, hk, e⟩, hu⟩ := ih (p - a.size) (by omega)
      dsimp only at hs hk e
      refine ⟨(j + 1, k), ⟨s, by simpa using hs, hk, ?_⟩, ?_⟩
      · rw [offset_succ]; omega
      · rintro ⟨j', k'⟩ ⟨s', hs', hk', e'⟩
        dsimp only at hs' hk' e'
        cases j' with
        | zero =>
          simp only [List.getElem?_cons_zero, Option.some.injEq] at hs'
          subst hs'
          rw [offset_zero] at e'; omega
        | succ j' =>
          simp only [List.getElem?_cons_succ] at hs'
          rw [offset_succ] at e'
          have := hu (j', k') ⟨s', hs', hk', by dsimp only; omega⟩
          simp only [Prod.mk.injEq] at this
          rw [this.1, this.2]

/-- C49 for `getParameterVector` (partial: every symbol has more than one row or exactly one element; see
`C49_row_violated`): if the dictionary has all elements of all parameters, every element is stored at the
offset of its parameter and nothing is written outside of the vector. -/
theorem C49_parameters_partial (syms : List Sym) (d : Dict K) (v : ℕ → K)
    (hp : ∀ s ∈ syms, 1 < s.rows ∨ s.rows * s.cols = 1)
    (hd : ∀ s ∈ syms, ∃ l, d (s.label, s.name) = some l ∧ s.rows * s.cols ≤ l.length) :
    ∃ v', getParameterVector syms d v = some v' ∧
      (∀ j s, syms[j]? = some s → ∀ l, d (s.label, s.name) = some l → ∀ k, k < s.rows * s.cols →
        l[k]? = some (v' (offset syms j + k))) ∧
      ∀ p, total syms ≤ p → v' p = v p := by
  obtain ⟨v', h1, h2, h3⟩ := runParameters_spec d syms 0 v hp hd
  refine ⟨v', h1, ?_, fun p h => h3 p (by omega)⟩
  intro j s hs l hl k hk
  have := h2 j s hs l hl k hk
  rwa [Nat.zero_add] at this

example : ∃ (syms : List Sym) (d : Dict ℚ), syms.length = 2 ∧
    (∀ s ∈ syms, 1 < s.rows ∨ s.rows * s.cols = 1) ∧
    ∀ s ∈ syms, ∃ l, d (s.label, s.name) = some l ∧ s.rows * s.cols ≤ l.length :=
  ⟨[⟨"vehicle0", "state0", 2, 1⟩, ⟨"p2p0", "T", 1, 1⟩],
    fun k => if k.2 = "T" then some [10] else some [1, 2], rfl, by simp, by simp⟩

/-- C49 for `getVariableVector` (partial, same shapes): the elements of the variables in the dictionary
are stored at the offset of their variable; the variables that are not in the dictionary keep their
values. -/
theorem C49_variables_partial (syms : List Sym) (d : Dict K) (v : ℕ → K)
    (hp : ∀ s ∈ syms, 1 < s.rows ∨ s.rows * s.cols = 1)
    (hd : ∀ s ∈ syms, ∀ l, d (s.label, s.name) = some l → s.rows * s.cols ≤ l.length) :
    ∃ v', getVariableVector syms d v = some v' ∧
      (∀ j s, syms[j]? = some s → ∀ k, k < s.rows * s.cols →
        (∀ l, d (s.label, s.name) = some l → l[k]? = some (v' (offset syms j + k))) ∧
        (d (s.label, s.name) = none → v' (offset syms j + k) = v (offset syms j + k))) ∧
      ∀ p, total syms ≤ p → v' p = v p := by
  obtain ⟨v', h1, h2, h3⟩ := runVariables_spec d syms 0 v hp hd
  refine ⟨v', h1, ?_, fun p h => h3 p (by omega)⟩
  intro j s hs k hk
  have := h2 j s hs k hk
  simp only [Nat.zero_add] at this
  exact this

example : ∃ (syms : List Sym) (d : Dict ℚ), syms.length = 3 ∧
    (∀ s ∈ syms, 1 < s.rows ∨ s.rows * s.cols = 1) ∧ d ("vehicle0", "splines_seg0") ≠ none ∧
    d ("obstacle0", "a") = none ∧
    ∀ s ∈ syms, ∀ l, d (s.label, s.name) = some l → s.rows * s.cols ≤ l.length :=
  ⟨[⟨"vehicle0", "splines_seg0", 2, 2⟩, ⟨"obstacle0", "a", 3, 2⟩, ⟨"p2p0", "T", 1, 1⟩],
    fun k => if k.1 = "vehicle0" then some [1, 2, 3, 4] else none, rfl, by simp, by simp, by simp,
    by simp⟩

/-- C49 for `getVariableDict` (partial: every variable has more than one row, else the exported code is
rejected by the compiler, `C49_scalar_violated`): the dictionary gets, for every variable, the vector
that begins at the offset of the variable and has its size. -/
theorem C49_dictionary_partial (syms : List Sym) (v : ℕ → K) (d : Dict K)
    (hr : ∀ s ∈ syms, 1 < s.rows) (hnd : (syms.map fun s => (s.label, s.name)).Nodup) :
    ∃ d', getVariableDict syms v d = some d' ∧
      ∀ j s, syms[j]? = some s → ∃ l, d' (s.label, s.name) = some l ∧ l.length = s.rows * s.cols ∧
        ∀ k, k < s.rows * s.cols → l[k]? = some (v (offset syms j + k)) := by
  obtain ⟨d', h1, h2⟩ := runDict_spec v syms 0 d hr hnd
  refine ⟨d', h1, ?_⟩
  intro j s hs
  have := h2 j s hs
  simp only [Nat.zero_add] at this
  exact this

/-- C49, round trip: filling the dictionary from a vector and the vector from the dictionary gives the
same vector. -/
theorem C49_roundTrip_partial (syms : List Sym) (v w : ℕ → K)
    (hr : ∀ s ∈ syms, 1 < s.rows) (hnd : (syms.map fun s => (s.label, s.name)).Nodup) :
    ∃ d v', getVariableDict syms v (fun _ => none) = some d ∧ getVariableVector syms d w = some v' ∧
      ∀ p, p < total syms → v' p = v p := by
  obtain ⟨d, h1, h2⟩ := C49_dictionary_partial syms v (fun _ => none) hr hnd
  have hl : ∀ s ∈ syms, ∀ l, d (s.label, s.name) = some l → s.rows * s.cols ≤ l.length := by
    intro s hs l hl
    obtain ⟨j, hj⟩ := List.mem_iff_getElem?.1 hs
    obtain ⟨l', e1, e2, _⟩ := h2 j s hj
    rw [e1] at hl; simp only [Option.some.injEq] at hl; subst hl; omega
  obtain ⟨v', g1, g2, _⟩ := C49_variables_partial syms d w (fun s hs => Or.inl (hr s hs)) hl
  refine ⟨d, v', h1, g1, ?_⟩
  intro p hp
  obtain ⟨⟨j, k⟩, ⟨s, hs, hk, e⟩, _⟩ := C49_cover syms p hp
  dsimp only at hs hk e
  obtain ⟨l, e1, _, e3⟩ := h2 j s hs
  have a1 := (g2 j s hs k hk).1 l e1
  rw [e3 k hk] at a1
  simp only [Option.some.injEq] at a1
  rw [e, a1]

example : ∃ syms : List Sym, syms.length = 2 ∧ (∀ s ∈ syms, 1 < s.rows) ∧
    (syms.map fun s => (s.label, s.name)).Nodup :=
  ⟨[⟨"vehicle0", "splines_seg0", 13, 2⟩, ⟨"obstacle0", "a", 11, 2⟩], rfl, by simp, by simp⟩

/-- C49 is violated by every one-row symbol with several elements: of a parameter with `1` row and two
or more columns only the first element reaches the vector, whatever the dictionary contains. -/
theorem C49_row_violated (label name : String) (c : ℕ) (hc : 2 ≤ c) (d : Dict K) (v v' : ℕ → K)
    (h : getParameterVector [⟨label, name, 1, c⟩] d v = some v') (k : ℕ) (h1 : 1 ≤ k) (h2 : k < c) :
    v' (offset [⟨label, name, 1, c⟩] 0 + k) = v k := by
  simp only [getParameterVector, genVector, runParameters, Sym.key] at h
  cases hl : d (label, name) with
  | none => simp [hl] at h
  | some l =>
    cases l with
    | nil => simp [hl, copyLoop] at h
    | cons x r =>
      simp [hl, copyLoop] at h
      rw [← h, offset_zero, Nat.zero_add, Function.update_of_ne (by omega)]

example : ∃ v', getParameterVector [⟨"p", "w", 1, 2⟩] (fun _ => some [(5 : ℚ), 7]) (fun _ => 0) = some v' ∧
    v' 0 = 5 ∧ v' 1 = 0 :=
  ⟨_, rfl, by simp, by simp⟩

/-- C49 is violated by every variable of one row: the exported `getVariableDict` assigns a number to a
vector and does not compile. -/
theorem C49_scalar_violated (syms : List Sym) (s : Sym) (hs : s ∈ syms) (hr : s.rows = 1) (v : ℕ → K)
    (d : Dict K) : getVariableDict syms v d = none :=
  runDict_scalar v syms 0 d s hs (by omega)

example : ∃ s ∈ [(⟨"vehicle0", "splines_seg0", 13, 2⟩ : Sym), ⟨"p2p0", "T", 1, 1⟩], s.rows = 1 :=
  ⟨⟨"p2p0", "T", 1, 1⟩, by simp, rfl⟩

end properties

/-! # Moving the splines over a knot: the generated `transformSplines` -/

section splines
variable {K : Type} [CommRing K]

/-- A variable with, if it is a spline, the matrix `splines_tf[name]` that moves its coefficients to the
next knot interval (export.py:414-420). -/
structure SVar (K : Type) extends Sym where
  tf : Option (ℕ → ℕ → K)

/-- The body of the loop over `k` (export.py:421-438): column `k` of the variable stored at `cnt` is
multiplied by the matrix; the product is computed before it is written. -/
def moveColumn (M : ℕ → ℕ → K) (cnt rows k : ℕ) (v : ℕ → K) : ℕ → K := fun p =>
  if cnt + k * rows ≤ p ∧ p < cnt + k * rows + rows then
    ((List.range rows).map fun j => M (p - (cnt + k * rows)) j * v (cnt + k * rows + j)).sum
  else v p

/-- The loop over the columns (export.py:421-438). -/
def moveColumns (M : ℕ → ℕ → K) (cnt rows : ℕ) : ℕ → (ℕ → K) → (ℕ → K)
  | 0, v => v
  | c + 1, v => moveColumn M cnt rows c (moveColumns M cnt rows c v)

/-- The body of the generated `transformSplines` (export.py:414-440), inside of
`if(interval_now > interval_prev)`.  The counter grows by `var.size(1)`, the number of rows
(export.py:439). -/
def moveSplines : ℕ → List (SVar K) → (ℕ → K) → (ℕ → K)
  | _, [], v => v
  | cnt, s :: r, v =>
    moveSplines (cnt + s.rows) r
      (match s.tf with
       | some M => moveColumns M cnt s.rows s.cols v
       | none => v)

/-- `transformSplines` when a knot is passed. -/
def transformSplines (vars : List (SVar K)) (v : ℕ → K) : ℕ → K := moveSplines 0 vars v

/-- Where variable number `j` begins. -/
def voffset (vars : List (SVar K)) (j : ℕ) : ℕ := offset (vars.map SVar.toSym) j

theorem voffset_zero (vars : List (SVar K)) : voffset vars 0 = 0 := offset_zero _

theorem voffset_succ (s : SVar K) (r : List (SVar K)) (j : ℕ) :
    voffset (s :: r) (j + 1) = s.rows * s.cols + voffset r j := offset_succ _ _ _

theorem moveColumns_out (M : ℕ → ℕ → K) (cnt rows c : ℕ) (v : ℕ → K) (p : ℕ)
    (hp : p < cnt ∨ cnt + c * rows ≤ p) : moveColumns M cnt rows c v p = v p := by
  induction c with
  | zero => rfl
  | succ c ih =>
    have e : (c + 1) * rows = c * rows + rows := by ring
    have : moveColumns M cnt rows c v p = v p := by
      apply ih
      rcases hp with h | h
      · exact Or.inl h
      · right; omega
    rw [moveColumns, moveColumn, if_neg, this]
    rw [e] at hp
    generalize c * rows = x at hp
    omega

theorem moveColumns_in (M : ℕ → ℕ → K) (cnt rows c : ℕ) (v : ℕ → K) (k i : ℕ) (hk : k < c)
    (hi : i < rows) : moveColumns M cnt rows c v (cnt + k * rows + i) =
      ((List.range rows).map fun j => M i j * v (cnt + k * rows + j)).sum := by
  induction c with
  | zero => omega
  | succ c ih =>
    rw [moveColumns, moveColumn]
    by_cases e : k = c
    · subst e
      rw [if_pos ⟨by omega, by omega⟩]
      congr 1
      apply List.map_congr_left
      intro j hj
      rw [List.mem_range] at hj
      rw [moveColumns_out M cnt rows k v _ (by right; omega)]
      congr 2; omega
    · have hkc : k < c := by omega
      have hle : (k + 1) * rows ≤ c * rows := Nat.mul_le_mul_right _ hkc
      have e2 : (k + 1) * rows = k * rows + rows := by ring
      rw [if_neg (by omega)]
      exact ih hkc

theorem moveSplines_below (vars : List (SVar K)) (cnt : ℕ) (v : ℕ → K) (p : ℕ) (hp : p < cnt) :
    moveSplines cnt vars v p = v p := by
  induction vars generalizing cnt v with
  | nil => rfl
  | cons s r ih =>
    rw [moveSplines, ih _ _ (by omega)]
    cases s.tf with
    | none => rfl
    | some M => exact moveColumns_out _ _ _ _ _ _ (Or.inl hp)

/-- No spline behind the head: nothing is written. -/
theorem moveSplines_none (vars : List (SVar K)) (cnt : ℕ) (v : ℕ → K) (h : ∀ s ∈ vars, s.tf = none) :
    moveSplines cnt vars v = v := by
  induction vars generalizing cnt v with
  | nil => rfl
  | cons s r ih =>
    rw [moveSplines, h s (by simp)]
    exact ih _ _ (fun t ht => h t (by simp [ht]))

/-- What `transformSplines` should do with element `(i, k)` of variable number `j`. -/
def moved (vars : List (SVar K)) (j : ℕ) (s : SVar K) (v : ℕ → K) (k i : ℕ) : K :=
  match s.tf with
  | some M => ((List.range s.rows).map fun m => M i m * v (voffset vars j + k * s.rows + m)).sum
  | none => v (voffset vars j + k * s.rows + i)

theorem moveSplines_spec (vars : List (SVar K)) (cnt : ℕ) (v : ℕ → K)
    (hc : ∀ (i j : ℕ) (s s' : SVar K), i < j → vars[i]? = some s → vars[j]? = some s' → s'.tf ≠ none → s.cols = 1)
    (j : ℕ) (s : SVar K) (hs : vars[j]? = some s) (k i : ℕ) (hk : k < s.cols) (hi : i < s.rows) :
    moveSplines cnt vars v (cnt + voffset vars j + k * s.rows + i) =
      match s.tf with
      | some M => ((List.range s.rows).map fun m =>
          M i m * v (cnt + voffset vars j + k * s.rows + m)).sum
      | none => v (cnt + voffset vars j + k * s.rows + i) := by
  induction vars generalizing cnt v j with
  | nil => simp at hs
  | cons a r ih =>
    have hcr : ∀ (i j : ℕ) (s s' : SVar K), i < j → r[i]? = some s → r[j]? = some s' → s'.tf ≠ none → s.cols = 1 :=
      fun i j s s' hij h1 h2 h3 => hc (i + 1) (j + 1) s s' (by omega) (by simpa using h1) (by simpa using h2) h3
    -- the positions below `(i, k)` of a variable
    have hb : ∀ b : SVar K, ∀ k i : ℕ, k < b.cols → i < b.rows → k * b.rows + i < b.rows * b.cols := by
      intro b k i hk hi
      have : (k + 1) * b.rows ≤ b.cols * b.rows := Nat.mul_le_mul_right _ hk
      have e : (k + 1) * b.rows = k * b.rows + b.rows := by ring
      have e2 : b.cols * b.rows = b.rows * b.cols := by ring
      omega
    by_cases hr : ∀ t ∈ r, t.tf = none
    · rw [moveSplines, moveSplines_none r _ _ hr]
      cases j with
      | zero =>
        simp only [List.getElem?_cons_zero, Option.some.injEq] at hs
        subst hs
        rw [voffset_zero, Nat.add_zero]
        cases a.tf with
        | none => rfl
        | some M => exact moveColumns_in M cnt a.rows a.cols v k i hk hi
      | succ j =>
        simp only [List.getElem?_cons_succ] at hs
        rw [hr s (List.mem_of_getElem? hs), voffset_succ]
        have e2 : a.cols * a.rows = a.rows * a.cols := by ring
        cases a.tf with
        | none => rfl
        | some M => exact moveColumns_out _ _ _ _ _ _ (by right; rw [e2]; omega)
    · push Not at hr
      obtain ⟨t, ht, htf⟩ := hr
      obtain ⟨jt, hjt⟩ := List.mem_iff_getElem?.1 ht
      have ha : a.cols = 1 := hc 0 (jt + 1) a t (by omega) (by simp) (by simpa using hjt) htf
      rw [moveSplines]
      cases j with
      | zero =>
        simp only [List.getElem?_cons_zero, Option.some.injEq] at hs
        subst hs
        rw [voffset_zero, Nat.add_zero]
        have := hb a k i hk hi
        rw [ha, Nat.mul_one] at this
        rw [moveSplines_below r _ _ _ (by omega)]
        cases a.tf with
        | none => rfl
        | some M => exact moveColumns_in M cnt a.rows a.cols v k i hk hi
      | succ j =>
        simp only [List.getElem?_cons_succ] at hs
        have step : ∀ w : ℕ → K, (∀ p, cnt + a.rows ≤ p → w p = v p) →
            moveSplines (cnt + a.rows) r w (cnt + voffset (a :: r) (j + 1) + k * s.rows + i) =
            match s.tf with
            | some M => ((List.range s.rows).map fun m =>
                M i m * v (cnt + voffset (a :: r) (j + 1) + k * s.rows + m)).sum
            | none => v (cnt + voffset (a :: r) (j + 1) + k * s.rows + i) := by
          intro w hw
          have := ih (cnt + a.rows) w hcr j hs
          rw [voffset_succ, ha, Nat.mul_one, ← Nat.add_assoc cnt, this]
          cases s.tf with
          | none => exact hw _ (by omega)
          | some M =>
            dsimp only
            congr 1
            apply List.map_congr_left
            intro m _
            rw [hw _ (by omega)]
        apply step
        intro p hp
        cases a.tf with
        | none => rfl
        | some M => exact moveColumns_out _ _ _ _ _ _ (by right; rw [ha]; omega)

/-- C49 for `transformSplines` (partial: every variable in front of a spline variable has one column, see
`C49_transform_violated`): every column of every spline variable is multiplied by the matrix of that
variable, the other variables keep their values. -/
theorem C49_transform_partial (vars : List (SVar K)) (v : ℕ → K)
    (hc : ∀ (i j : ℕ) (s s' : SVar K), i < j → vars[i]? = some s → vars[j]? = some s' → s'.tf ≠ none → s.cols = 1)
    (j : ℕ) (s : SVar K) (hs : vars[j]? = some s) (k i : ℕ) (hk : k < s.cols) (hi : i < s.rows) :
    transformSplines vars v (voffset vars j + k * s.rows + i) = moved vars j s v k i := by
  have := moveSplines_spec vars 0 v hc j s hs k i hk hi
  simp only [Nat.zero_add] at this
  exact this

end splines

/-- The matrix that moves two coefficients one place. -/
def shift2 : ℕ → ℕ → ℚ := fun i j => if i = 0 ∧ j = 1 ∨ i = 1 ∧ j = 1 then 1 else 0

/-- Three variables: two splines with one column, then a spline with two columns. -/
def threeVars : List (SVar ℚ) :=
  [⟨⟨"vehicle0", "x", 2, 1⟩, some shift2⟩, ⟨⟨"p2p0", "g", 3, 1⟩, none⟩,
    ⟨⟨"obstacle0", "a", 2, 2⟩, some shift2⟩]

example : ∀ (i j : ℕ) (s s' : SVar ℚ), i < j → threeVars[i]? = some s → threeVars[j]? = some s' → s'.tf ≠ none →
    s.cols = 1 := by
  intro i j s s' hij h1 h2 h3
  match i, j with
  | 0, _ => simp [threeVars] at h1; rw [← h1]
  | 1, _ => simp [threeVars] at h1; rw [← h1]
  | 2, j + 3 => simp [threeVars] at h2
  | i + 3, _ => simp [threeVars] at h1

/-- C49 is violated by `transformSplines`: behind a variable with two columns (the splines of a planar
vehicle) the counter is too small.  The spline of the second variable is not moved (it should become
`6, 6`), and the second column of the first variable is moved twice. -/
theorem C49_transform_violated :
    ∃ (vars : List (SVar ℚ)) (v : ℕ → ℚ), vars.length = 2 ∧
      ∃ j s k i, vars[j]? = some s ∧ k < s.cols ∧ i < s.rows ∧
        transformSplines vars v (voffset vars j + k * s.rows + i) ≠ moved vars j s v k i :=
  ⟨[⟨⟨"vehicle0", "splines_seg0", 2, 2⟩, some shift2⟩, ⟨⟨"obstacle0", "a", 2, 1⟩, some shift2⟩],
    fun p => (p : ℚ) + 1, rfl, 1, ⟨⟨"obstacle0", "a", 2, 1⟩, some shift2⟩, 0, 0, rfl, by decide, by decide,
    by
      norm_num [transformSplines, moveSplines, moveColumns, moveColumn, moved, voffset, offset, shift2,
        Sym.size, List.range_succ]⟩

end Verif.Export
