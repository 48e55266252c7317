import Mathlib.Algebra.Order.BigOperators.Group.List
import Mathlib.Algebra.Field.Rat
import Mathlib.Algebra.Order.Ring.Rat
import Mathlib.Order.WithBot
import Mathlib.Tactic.Ring
import Mathlib.Tactic.Linarith
import Mathlib.Tactic.NormNum

/-! # The bounds of the constraints in the exported C++ code

`omgtools/export/export.py` writes the constants `LBG_DEF`, `UBG_DEF` (261-277) and the function
`updateBounds` (355-396). -/

set_option linter.unusedSectionVars false
set_option linter.unusedVariables false

namespace Verif.Export.Bounds

/-- Specification: where the rows of constraint number `j` begin in the vector of all constraints. -/
def rowOffset (rows : List ℕ) (j : ℕ) : ℕ := (rows.take j).sum

theorem rowOffset_zero (rows : List ℕ) : rowOffset rows 0 = 0 := by simp [rowOffset]

theorem rowOffset_succ (a : ℕ) (r : List ℕ) (j : ℕ) : rowOffset (a :: r) (j + 1) = a + rowOffset r j := by
  simp [rowOffset]

/-! ## The default bounds -/

/-- A lower or upper bound as it is stored by `define_constraint`
(omgtools/basics/optilayer.py:634-664): an array (for splines, and for lists given by the caller) or one
number (which casadi repeats for every row). -/
inductive Bd (K : Type) where
  | num (x : K)
  | arr (l : List K)

/-- Specification: the bound of row `i`. -/
def Bd.row {K : Type} : Bd K → ℕ → Option K
  | .num x, _ => some x
  | .arr l, i => l[i]?

/-- A constraint: `con[0].size(1)`, `con[1]` and `con[2]`. -/
structure Con (K : Type) where
  rows : ℕ
  lb : Bd K
  ub : Bd K

section defaults
variable {K : Type}

/-- `con[1][0], ..., con[1][n-1]`; an index beyond the end raises an exception (export.py:267-269). -/
def firstRows (l : List K) : ℕ → Option (List K)
  | 0 => some []
  | n + 1 => do
    let t ← firstRows l n
    let x ← l[n]?
    some (t ++ [x])

/-- The entries written for one constraint (export.py:266-272): with more than one row
`str(con[1][l])` for every row `l` (a number cannot be indexed: `TypeError`); else `str(con[1])`, which
is a number in C++ if the bound is a number (the text `[0.]` of an array is not). -/
def entries (rows : ℕ) (b : Bd K) : Option (List K) :=
  if 1 < rows then
    match b with
    | .num _ => none
    | .arr l => firstRows l rows
  else
    match b with
    | .num x => some [x]
    | .arr _ => none

/-- The entries of all constraints, in the order of the children and their constraints
(export.py:264-273). -/
def allEntries : List (ℕ × Bd K) → Option (List K)
  | [] => some []
  | (n, b) :: r => do
    let e ← entries n b
    let t ← allEntries r
    some (e ++ t)

/-- The braces (export.py:263, 274-275): every entry is followed by a comma and the last character is
replaced by the closing brace; without any entry the opening brace is lost. -/
def braces (e : List K) : Option (List K) :=
  match e with
  | [] => none
  | _ :: _ => some e

/-- The list of numbers in `LBG_DEF` (export.py:261-277). -/
def lbgDef (cs : List (Con K)) : Option (List K) :=
  (allEntries (cs.map fun c => (c.rows, c.lb))).bind braces

/-- The list of numbers in `UBG_DEF` (export.py:261-277). -/
def ubgDef (cs : List (Con K)) : Option (List K) :=
  (allEntries (cs.map fun c => (c.rows, c.ub))).bind braces

theorem firstRows_spec (l : List K) (n : ℕ) (h : n ≤ l.length) : firstRows l n = some (l.take n) := by
  induction n with
  | zero => simp [firstRows]
  | succ n ih =>
    have hx : l[n]? = some (l[n]'(by omega)) := List.getElem?_eq_getElem (by omega)
    have ht : l.take (n + 1) = l.take n ++ [l[n]'(by omega)] := by
      rw [List.take_add_one, hx]; rfl
    rw [firstRows, ih (by omega), hx, ht]; rfl

/-- A bound that `entries` can write. -/
def fits (n : ℕ) (b : Bd K) : Prop :=
  (∃ l, b = .arr l ∧ 2 ≤ n ∧ l.length = n) ∨ ∃ x, b = .num x ∧ n = 1

theorem entries_spec (n : ℕ) (b : Bd K) (h : fits n b) :
    ∃ e, entries n b = some e ∧ e.length = n ∧ ∀ i, i < n → e[i]? = b.row i := by
  rcases h with ⟨l, rfl, h2, hl⟩ | ⟨x, rfl, rfl⟩
  · refine ⟨l.take n, ?_, by simp [hl], ?_⟩
    · simp only [entries, if_pos (show 1 < n by omega)]
      exact firstRows_spec l n (by omega)
    · intro i hi
      simp [Bd.row, hi]
  · refine ⟨[x], by simp [entries], rfl, ?_⟩
    intro i hi
    obtain rfl : i = 0 := by omega
    rfl

theorem allEntries_spec (cs : List (ℕ × Bd K)) (h : ∀ c ∈ cs, fits c.1 c.2) :
    ∃ e, allEntries cs = some e ∧ e.length = (cs.map Prod.fst).sum ∧
      ∀ j c, cs[j]? = some c → ∀ i, i < c.1 → e[rowOffset (cs.map Prod.fst) j + i]? = c.2.row i := by
  induction cs with
  | nil => exact ⟨[], rfl, rfl, by simp⟩
  | cons a r ih =>
    obtain ⟨e1, h1, h2, h3⟩ := entries_spec a.1 a.2 (h a (by simp))
    obtain ⟨e2, g1, g2, g3⟩ := ih (fun c hc => h c (by simp [hc]))
    refine ⟨e1 ++ e2, by simp [allEntries, h1, g1], by simp [h2, g2], ?_⟩
    intro j c hc i hi
    cases j with
    | zero =>
      simp only [List.getElem?_cons_zero, Option.some.injEq] at hc
      subst hc
      rw [rowOffset_zero, Nat.zero_add, List.getElem?_append_left (by omega)]
      exact h3 i hi
    | succ j =>
      simp only [List.getElem?_cons_succ] at hc
      rw [List.map_cons, rowOffset_succ, List.getElem?_append_right (by omega), h2,
        show a.1 + rowOffset (r.map Prod.fst) j + i - a.1 = rowOffset (r.map Prod.fst) j + i by omega]
      exact g3 j c hc i hi

theorem braces_spec (e : List K) (h : 0 < e.length) : braces e = some e := by
  cases e with
  | nil => simp at h
  | cons => rfl

theorem def_spec (cs : List (ℕ × Bd K)) (hne : cs ≠ []) (h : ∀ c ∈ cs, fits c.1 c.2) :
    ∃ e, (allEntries cs).bind braces = some e ∧ e.length = (cs.map Prod.fst).sum ∧
      ∀ j c, cs[j]? = some c → ∀ i, i < c.1 → e[rowOffset (cs.map Prod.fst) j + i]? = c.2.row i := by
  obtain ⟨e, h1, h2, h3⟩ := allEntries_spec cs h
  refine ⟨e, ?_, h2, h3⟩
  rw [h1, Option.bind_some]
  apply braces_spec
  rw [h2]
  cases cs with
  | nil => exact absurd rfl hne
  | cons a r =>
    have := h a (by simp)
    have : 1 ≤ a.1 := by rcases this with ⟨l, _, h, _⟩ | ⟨x, _, h⟩ <;> omega
    simp only [List.map_cons, List.sum_cons]; omega

/-! ### C50 -/

/-- C50 (partial: the constraints with several rows have arrays of that length as bounds, the
constraints with one row have numbers, and there is a constraint; see `C50_number_violated`,
`C50_array_violated`): the exported bounds have one entry per constraint row, and the entry of row `i`
of constraint `j` is the bound of that row. -/
theorem C50_partial (cs : List (Con K)) (hne : cs ≠ [])
    (h : ∀ c ∈ cs, (∃ l u, c.lb = .arr l ∧ c.ub = .arr u ∧ 2 ≤ c.rows ∧ l.length = c.rows ∧
      u.length = c.rows) ∨ ∃ x y, c.lb = .num x ∧ c.ub = .num y ∧ c.rows = 1) :
    ∃ lo up, lbgDef cs = some lo ∧ ubgDef cs = some up ∧
      lo.length = (cs.map Con.rows).sum ∧ up.length = (cs.map Con.rows).sum ∧
      ∀ j c, cs[j]? = some c → ∀ i, i < c.rows →
        lo[rowOffset (cs.map Con.rows) j + i]? = c.lb.row i ∧
        up[rowOffset (cs.map Con.rows) j + i]? = c.ub.row i := by
  have hm : ∀ f : Con K → Bd K, (cs.map fun c => (c.rows, f c)).map Prod.fst = cs.map Con.rows := by
    intro f; simp [Function.comp_def]
  obtain ⟨lo, a1, a2, a3⟩ := def_spec (cs.map fun c => (c.rows, c.lb)) (by simpa using hne) (by
    intro c hc
    obtain ⟨d, hd, rfl⟩ := List.mem_map.1 hc
    rcases h d hd with ⟨l, u, e1, e2, e3, e4, e5⟩ | ⟨x, y, e1, e2, e3⟩
    · exact Or.inl ⟨l, e1, e3, e4⟩
    · exact Or.inr ⟨x, e1, e3⟩)
  obtain ⟨up, b1, b2, b3⟩ := def_spec (cs.map fun c => (c.rows, c.ub)) (by simpa using hne) (by
    intro c hc
    obtain ⟨d, hd, rfl⟩ := List.mem_map.1 hc
    rcases h d hd with ⟨l, u, e1, e2, e3, e4, e5⟩ | ⟨x, y, e1, e2, e3⟩
    · exact Or.inl ⟨u, e2, e3, e5⟩
    · exact Or.inr ⟨y, e2, e3⟩)
  rw [hm] at a2 a3 b2 b3
  refine ⟨lo, up, a1, b1, a2, b2, ?_⟩
  intro j c hc i hi
  exact ⟨a3 j (c.rows, c.lb) (by simp [hc]) i hi, b3 j (c.rows, c.ub) (by simp [hc]) i hi⟩

example : ∃ cs : List (Con ℚ), cs.length = 2 ∧ ∀ c ∈ cs,
    (∃ l u, c.lb = .arr l ∧ c.ub = .arr u ∧ 2 ≤ c.rows ∧ l.length = c.rows ∧ u.length = c.rows) ∨
      ∃ x y, c.lb = .num x ∧ c.ub = .num y ∧ c.rows = 1 :=
  ⟨[⟨2, .arr [0, 1], .arr [5, 6]⟩, ⟨1, .num (-1), .num 1⟩], rfl, by simp⟩

theorem allEntries_none (cs : List (ℕ × Bd K)) (c : ℕ × Bd K) (hc : c ∈ cs)
    (h : entries c.1 c.2 = none) : allEntries cs = none := by
  induction cs with
  | nil => simp at hc
  | cons a r ih =>
    rcases List.mem_cons.1 hc with e | e
    · subst e; simp [allEntries, h]
    · have := ih e
      cases ha : entries a.1 a.2 with
      | none => simp [allEntries, ha]
      | some x => simp [allEntries, ha, this]

/-- C50 is violated by every constraint with several rows and a number as bound (accepted by
`define_constraint`): the export fails, the number cannot be indexed. -/
theorem C50_number_violated (cs : List (Con K)) (c : Con K) (hc : c ∈ cs) (hr : 2 ≤ c.rows) (x : K)
    (hb : c.lb = .num x) : lbgDef cs = none := by
  unfold lbgDef
  rw [allEntries_none _ (c.rows, c.lb) (List.mem_map.2 ⟨c, hc, rfl⟩), Option.bind_none]
  simp only [hb, entries, if_pos (show 1 < c.rows by omega)]

/-- C50 is violated by every constraint of one row with an array as bound (every spline with one
coefficient, `optilayer.py:644-646`): the text of the array is not a number of C++. -/
theorem C50_array_violated (cs : List (Con K)) (c : Con K) (hc : c ∈ cs) (hr : c.rows = 1) (l : List K)
    (hb : c.lb = .arr l) : lbgDef cs = none := by
  unfold lbgDef
  rw [allEntries_none _ (c.rows, c.lb) (List.mem_map.2 ⟨c, hc, rfl⟩), Option.bind_none]
  simp [hb, entries, hr]

example : ∃ c ∈ [(⟨3, .num 0, .num 1⟩ : Con ℚ), ⟨1, .arr [0], .arr [1]⟩], 2 ≤ c.rows ∧ c.lb = .num 0 :=
  ⟨⟨3, .num 0, .num 1⟩, by simp, by simp, rfl⟩

example : ∃ c ∈ [(⟨3, .num 0, .num 1⟩ : Con ℚ), ⟨1, .arr [0], .arr [1]⟩], c.rows = 1 ∧ c.lb = .arr [0] :=
  ⟨⟨1, .arr [0], .arr [1]⟩, by simp, rfl, rfl⟩

end defaults

/-! ## Switching constraints off: the generated `updateBounds` -/

section update
variable {K T : Type}

/-- The bounds of one row, with `-inf` and `+inf`. -/
abbrev Row (K : Type) := WithBot K × WithTop K

/-- `-inf, +inf`. -/
def free : Row K := (⊥, ⊤)

/-- A constraint in `updateBounds`: its rows, the shutdown condition on the time (if any) and the number
in `environment.obstacles` of the obstacle that owns it (if any).  The condition is the meaning of the
text `shutdown`; its translation to C++ (replacing every letter `t`, export.py:366) is not modelled. -/
structure UCon (T : Type) where
  rows : ℕ
  shutdown : Option (T → Bool)
  obst : Option ℕ

/-- Assignments to all rows of the constraint that begins at `cnt` (export.py:368-376, 380-386). -/
def setRows (cnt rows : ℕ) (f : ℕ → Row K) (st : ℕ → Row K) : ℕ → Row K := fun p =>
  if cnt ≤ p ∧ p < cnt + rows then f p else st p

/-- The first part of the generated function: the shutdown conditions (export.py:361-377, 387). -/
def shutdowns (dflt : ℕ → Row K) (t : T) : ℕ → List (UCon T) → (ℕ → Row K) → (ℕ → Row K)
  | _, [], st => st
  | cnt, c :: r, st =>
    shutdowns dflt t (cnt + c.rows) r
      (match c.shutdown with
       | some cond => setRows cnt c.rows (if cond t then fun _ => free else dflt) st
       | none => st)

/-- The code of obstacle `k` (export.py:378-394): all rows of its constraints are freed if it is not to
be avoided, else they get their default bounds. -/
def obstacle (dflt : ℕ → Row K) (k : ℕ) (avoid : Bool) : ℕ → List (UCon T) → (ℕ → Row K) → (ℕ → Row K)
  | _, [], st => st
  | cnt, c :: r, st =>
    obstacle dflt k avoid (cnt + c.rows) r
      (if c.obst = some k then setRows cnt c.rows (if !avoid then fun _ => free else dflt) st else st)

/-- The loop over the obstacles (export.py:389-394). -/
def obstacles (dflt : ℕ → Row K) (avoid : ℕ → Bool) (cs : List (UCon T)) : ℕ → (ℕ → Row K) → (ℕ → Row K)
  | 0, st => st
  | n + 1, st => obstacle dflt n (avoid n) 0 cs (obstacles dflt avoid cs n st)

/-- `updateBounds(current_time, obstacles)` (export.py:355-396) with `n` obstacles. -/
def updateBounds (dflt : ℕ → Row K) (cs : List (UCon T)) (n : ℕ) (t : T) (avoid : ℕ → Bool)
    (st : ℕ → Row K) : ℕ → Row K :=
  obstacles dflt avoid cs n (shutdowns dflt t 0 cs st)

/-- The bounds after a history of calls, starting from the default bounds (Point2Point.cpp:32). -/
def history (dflt : ℕ → Row K) (cs : List (UCon T)) (n : ℕ) : List (T × (ℕ → Bool)) → (ℕ → Row K)
  | [] => dflt
  | (t, a) :: r => updateBounds dflt cs n t a (history dflt cs n r)

/-- Specification: the constraint is switched off. -/
def off (c : UCon T) (t : T) (avoid : ℕ → Bool) : Prop :=
  (∃ cond, c.shutdown = some cond ∧ cond t = true) ∨ ∃ k, c.obst = some k ∧ avoid k = false

theorem shutdowns_below (dflt : ℕ → Row K) (t : T) (cnt : ℕ) (cs : List (UCon T)) (st : ℕ → Row K)
    (p : ℕ) (hp : p < cnt) : shutdowns dflt t cnt cs st p = st p := by
  induction cs generalizing cnt st with
  | nil => rfl
  | cons c r ih =>
    rw [shutdowns, ih _ _ (by omega)]
    cases c.shutdown with
    | none => rfl
    | some cond => exact if_neg (by omega)

theorem shutdowns_spec (dflt : ℕ → Row K) (t : T) (cnt : ℕ) (cs : List (UCon T)) (st : ℕ → Row K)
    (j : ℕ) (c : UCon T) (hc : cs[j]? = some c) (i : ℕ) (hi : i < c.rows) :
    shutdowns dflt t cnt cs st (cnt + rowOffset (cs.map UCon.rows) j + i) =
      match c.shutdown with
      | some cond => if cond t then free else dflt (cnt + rowOffset (cs.map UCon.rows) j + i)
      | none => st (cnt + rowOffset (cs.map UCon.rows) j + i) := by
  induction cs generalizing cnt st j with
  | nil => simp at hc
  | cons a r ih =>
    rw [shutdowns]
    cases j with
    | zero =>
      simp only [List.getElem?_cons_zero, Option.some.injEq] at hc
      subst hc
      rw [rowOffset_zero, Nat.add_zero, shutdowns_below _ _ _ _ _ _ (by omega)]
      cases a.shutdown with
      | none => rfl
      | some cond =>
        simp only [setRows]
        rw [if_pos ⟨by omega, by omega⟩]
        split_ifs <;> rfl
    | succ j =>
      simp only [List.getElem?_cons_succ] at hc
      have := ih (cnt + a.rows) (match a.shutdown with
       | some cond => setRows cnt a.rows (if cond t then fun _ => free else dflt) st
       | none => st) j hc
      rw [List.map_cons, rowOffset_succ, ← Nat.add_assoc, this]
      cases c.shutdown with
      | some cond => rfl
      | none =>
        dsimp only
        cases a.shutdown with
        | none => rfl
        | some cond => exact if_neg (by omega)

theorem obstacle_below (dflt : ℕ → Row K) (k : ℕ) (av : Bool) (cnt : ℕ) (cs : List (UCon T))
    (st : ℕ → Row K) (p : ℕ) (hp : p < cnt) : obstacle dflt k av cnt cs st p = st p := by
  induction cs generalizing cnt st with
  | nil => rfl
  | cons c r ih =>
    rw [obstacle, ih _ _ (by omega)]
    by_cases e : c.obst = some k
    · rw [if_pos e]; exact if_neg (by omega)
    · rw [if_neg e]

theorem obstacle_spec (dflt : ℕ → Row K) (k : ℕ) (av : Bool) (cnt : ℕ) (cs : List (UCon T))
    (st : ℕ → Row K) (j : ℕ) (c : UCon T) (hc : cs[j]? = some c) (i : ℕ) (hi : i < c.rows) :
    obstacle dflt k av cnt cs st (cnt + rowOffset (cs.map UCon.rows) j + i) =
      if c.obst = some k then
        (if av then dflt (cnt + rowOffset (cs.map UCon.rows) j + i) else free)
      else st (cnt + rowOffset (cs.map UCon.rows) j + i) := by
  induction cs generalizing cnt st j with
  | nil => simp at hc
  | cons a r ih =>
    rw [obstacle]
    cases j with
    | zero =>
      simp only [List.getElem?_cons_zero, Option.some.injEq] at hc
      subst hc
      rw [rowOffset_zero, Nat.add_zero, obstacle_below _ _ _ _ _ _ _ (by omega)]
      by_cases e : a.obst = some k
      · rw [if_pos e, if_pos e, setRows, if_pos ⟨by omega, by omega⟩]
        cases av <;> rfl
      · rw [if_neg e, if_neg e]
    | succ j =>
      simp only [List.getElem?_cons_succ] at hc
      rw [List.map_cons, rowOffset_succ, ← Nat.add_assoc, ih (cnt + a.rows) _ j hc]
      by_cases e : c.obst = some k
      · rw [if_pos e, if_pos e]
      · rw [if_neg e, if_neg e]
        by_cases e2 : a.obst = some k
        · rw [if_pos e2]; exact if_neg (by omega)
        · rw [if_neg e2]

theorem obstacles_spec (dflt : ℕ → Row K) (avoid : ℕ → Bool) (cs : List (UCon T)) (n : ℕ)
    (st : ℕ → Row K) (j : ℕ) (c : UCon T) (hc : cs[j]? = some c) (i : ℕ) (hi : i < c.rows) :
    (∀ k, c.obst = some k → k < n → obstacles dflt avoid cs n st (rowOffset (cs.map UCon.rows) j + i) =
        if avoid k then dflt (rowOffset (cs.map UCon.rows) j + i) else free) ∧
      ((∀ k, c.obst = some k → n ≤ k) → obstacles dflt avoid cs n st (rowOffset (cs.map UCon.rows) j + i) =
        st (rowOffset (cs.map UCon.rows) j + i)) := by
  induction n with
  | zero => exact ⟨fun k _ h => by omega, fun _ => rfl⟩
  | succ n ih =>
    have h := obstacle_spec dflt n (avoid n) 0 cs (obstacles dflt avoid cs n st) j c hc i hi
    simp only [Nat.zero_add] at h
    constructor
    · intro k hk hlt
      rw [obstacles, h]
      by_cases e : c.obst = some n
      · rw [if_pos e]
        rw [hk] at e; simp only [Option.some.injEq] at e; subst e; rfl
      · rw [if_neg e]
        refine ih.1 k hk ?_
        have : k ≠ n := by rintro rfl; exact e hk
        omega
    · intro hk
      rw [obstacles, h, if_neg, ih.2 (fun k h' => by have := hk k h'; omega)]
      intro e
      have := hk n e
      omega

theorem updateBounds_spec (dflt : ℕ → Row K) (cs : List (UCon T)) (n : ℕ) (t : T) (avoid : ℕ → Bool)
    (st : ℕ → Row K) (j : ℕ) (c : UCon T) (hc : cs[j]? = some c) (i : ℕ) (hi : i < c.rows)
    (hn : ∀ k, c.obst = some k → k < n) :
    updateBounds dflt cs n t avoid st (rowOffset (cs.map UCon.rows) j + i) =
      match c.obst, c.shutdown with
      | some k, _ => if avoid k then dflt (rowOffset (cs.map UCon.rows) j + i) else free
      | none, some cond => if cond t then free else dflt (rowOffset (cs.map UCon.rows) j + i)
      | none, none => st (rowOffset (cs.map UCon.rows) j + i) := by
  have h1 := obstacles_spec dflt avoid cs n (shutdowns dflt t 0 cs st) j c hc i hi
  have h2 := shutdowns_spec dflt t 0 cs st j c hc i hi
  simp only [Nat.zero_add] at h2
  unfold updateBounds
  cases ho : c.obst with
  | some k => exact h1.1 k ho (hn k ho)
  | none =>
    rw [h1.2 (fun k hk => by rw [ho] at hk; simp at hk), h2]
    cases c.shutdown <;> rfl

/-! ### C104 -/

/-- C104 (partial: no constraint has both a shutdown condition and an obstacle, see `C104_violated`):
after every history of calls, the last one at time `t` with the flags `avoid`, a row has no bounds
exactly if its constraint is switched off at `t`; else it has its own default bounds. -/
theorem C104_partial (dflt : ℕ → Row K) (cs : List (UCon T)) (n : ℕ)
    (hn : ∀ c ∈ cs, ∀ k, c.obst = some k → k < n)
    (hex : ∀ c ∈ cs, c.shutdown = none ∨ c.obst = none)
    (t : T) (avoid : ℕ → Bool) (past : List (T × (ℕ → Bool)))
    (j : ℕ) (c : UCon T) (hc : cs[j]? = some c) (i : ℕ) (hi : i < c.rows) :
    (off c t avoid → history dflt cs n ((t, avoid) :: past) (rowOffset (cs.map UCon.rows) j + i) = (⊥, ⊤)) ∧
      (¬ off c t avoid → history dflt cs n ((t, avoid) :: past) (rowOffset (cs.map UCon.rows) j + i) =
        dflt (rowOffset (cs.map UCon.rows) j + i)) := by
  have hm : c ∈ cs := List.mem_of_getElem? hc
  have key : ∀ (t : T) (avoid : ℕ → Bool) (past : List (T × (ℕ → Bool))),
      history dflt cs n ((t, avoid) :: past) (rowOffset (cs.map UCon.rows) j + i) =
      match c.obst, c.shutdown with
      | some k, _ => if avoid k then dflt (rowOffset (cs.map UCon.rows) j + i) else free
      | none, some cond => if cond t then free else dflt (rowOffset (cs.map UCon.rows) j + i)
      | none, none => history dflt cs n past (rowOffset (cs.map UCon.rows) j + i) :=
    fun t avoid past => updateBounds_spec dflt cs n t avoid _ j c hc i hi (hn c hm)
  have idle : c.obst = none → c.shutdown = none → ∀ past : List (T × (ℕ → Bool)),
      history dflt cs n past (rowOffset (cs.map UCon.rows) j + i) =
        dflt (rowOffset (cs.map UCon.rows) j + i) := by
    intro h1 h2 past
    induction past with
    | nil => rfl
    | cons x r ih =>
      have := key x.1 x.2 r
      rw [h1, h2] at this
      rw [← ih]; exact this
  unfold off
  rw [key t avoid past]
  cases ho : c.obst with
  | some k =>
    have hs : c.shutdown = none := (hex c hm).resolve_right (by rw [ho]; simp)
    rw [hs]
    cases ha : avoid k with
    | true => simp [ha]
    | false => simp [ha, free]
  | none =>
    cases hs : c.shutdown with
    | none => simp [idle ho hs]
    | some cond =>
      cases hb : cond t with
      | true => simp [hb, free]
      | false => simp [hb]

/-- Constraints of a vehicle, of an obstacle, and one that is dropped after five seconds. -/
def threeCons : List (UCon ℚ) :=
  [⟨2, none, none⟩, ⟨3, none, some 0⟩, ⟨1, some fun t => decide (5 < t), none⟩]

example : (∀ c ∈ threeCons, ∀ k, c.obst = some k → k < 1) ∧
    (∀ c ∈ threeCons, c.shutdown = none ∨ c.obst = none) ∧
    (∃ c ∈ threeCons, off c 6 (fun _ => true)) ∧ (∃ c ∈ threeCons, off c 0 (fun _ => false)) ∧
    ∃ c ∈ threeCons, ¬ off c 6 (fun _ => false) := by
  refine ⟨by simp [threeCons], by simp [threeCons], ?_, ?_, ?_⟩
  · exact ⟨⟨1, some fun t => decide (5 < t), none⟩, by simp [threeCons],
      Or.inl ⟨_, rfl, by norm_num⟩⟩
  · exact ⟨⟨3, none, some 0⟩, by simp [threeCons], Or.inr ⟨0, rfl, rfl⟩⟩
  · exact ⟨⟨2, none, none⟩, by simp [threeCons], by simp [off]⟩

/-- C104 is violated by every constraint of an obstacle that has a shutdown condition: while the obstacle
is to be avoided, the condition has no effect. -/
theorem C104_violated (dflt : ℕ → Row K) (cs : List (UCon T)) (n : ℕ) (t : T) (avoid : ℕ → Bool)
    (st : ℕ → Row K) (j : ℕ) (c : UCon T) (hc : cs[j]? = some c) (i : ℕ) (hi : i < c.rows) (k : ℕ)
    (hk : c.obst = some k) (hkn : k < n) (ha : avoid k = true) (cond : T → Bool)
    (hs : c.shutdown = some cond) (ht : cond t = true) :
    off c t avoid ∧ updateBounds dflt cs n t avoid st (rowOffset (cs.map UCon.rows) j + i) =
      dflt (rowOffset (cs.map UCon.rows) j + i) := by
  refine ⟨Or.inl ⟨cond, hs, ht⟩, ?_⟩
  rw [updateBounds_spec dflt cs n t avoid st j c hc i hi (by
    intro k' h'; rw [hk] at h'; simp only [Option.some.injEq] at h'; omega), hk]
  simp [ha]

example : ∃ c ∈ [(⟨2, some fun t => decide (5 < t), some 0⟩ : UCon ℚ)], c.obst = some 0 ∧
    ∃ cond, c.shutdown = some cond ∧ cond 6 = true :=
  ⟨⟨2, some fun t => decide (5 < t), some 0⟩, by simp, rfl, fun t => decide (5 < t), rfl, by norm_num⟩

end update

end Verif.Export.Bounds
