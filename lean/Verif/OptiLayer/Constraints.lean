import Verif.OptiLayer.Symbols
import Verif.Timing.Sampling

/-! # Definition of constraints (C36, C67) -/

set_option linter.unusedSectionVars false

namespace Verif.OptiLayer

open Verif.Timing (slice sliceIdx)

/-! ## Model -/

/-- The first argument of `define_constraint`: a number, an expression (its rows), or a spline (its coefficients). -/
inductive Expr (E : Type)
  | const
  | rows (e : List E)
  | spline (coeffs : List E)

/-- An entry of `_constraints`: its name, the constrained rows, and their bounds. -/
structure Con (E B : Type) where
  name : Str
  rows : List E
  lb : B
  ub : B

/-- `_constraints` (an ordered dictionary) and `_constraint_cnt` of an object. -/
structure Cons (E B : Type) where
  cons : List (Con E B)
  cnt : ℕ

variable {E B : Type}

/-- `d[name] = c` of an ordered dictionary. -/
def put (c : Con E B) : List (Con E B) → List (Con E B)
  | [] => [c]
  | d :: ds => if d.name = c.name then c :: ds else d :: put c ds

/-- The coefficients that remain, optilayer.py:643-660; `skip` is `[]` (none) or a pair. -/
def kept (coeffs : List E) : Option (ℤ × ℤ) → List E
  | none => coeffs
  | some (a, b) =>
    if a = 0 then slice coeffs 0 (-b)
    else if b = 0 then slice coeffs a coeffs.length
    else slice coeffs a (-b)

/-- `define_constraint`, optilayer.py:634-666; `name` is `c` when none is given. -/
def define (e : Expr E) (lb ub : B) (name : Str) (skip : Option (ℤ × ℤ)) (s : Cons E B) : Cons E B :=
  let n := name ++ '_' :: str10 s.cnt
  match e with
  | .const => s
  | .rows e => ⟨put ⟨n, e, lb, ub⟩ s.cons, s.cnt + 1⟩
  | .spline c => ⟨put ⟨n, kept c skip, lb, ub⟩ s.cons, s.cnt + 1⟩

/-- A definition: the arguments of `define_constraint`. -/
structure Def (E B : Type) where
  expr : Expr E
  lb : B
  ub : B
  name : Str
  skip : Option (ℤ × ℤ)

/-- A sequence of definitions by one object. -/
def defineAll (ds : List (Def E B)) (s : Cons E B) : Cons E B :=
  ds.foldl (fun s d => define d.expr d.lb d.ub d.name d.skip s) s

/-- The names of the constraints in the problem, optilayer.py:254-261: name and label of the object. -/
def allNames (objects : List (Str × List (Def E B))) : List Str :=
  objects.flatMap fun o => (defineAll o.2 ⟨[], 0⟩).cons.map fun c => symName c.name o.1

/-! ## Specification -/

/-- What a definition imposes: rows and bounds; nothing for a number. -/
def Spec.imposes (d : Def E B) : Option (List E × B × B) :=
  match d.expr with
  | .const => none
  | .rows e => some (e, d.lb, d.ub)
  | .spline c =>
    match d.skip with
    | none => some (c, d.lb, d.ub)
    | some (a, b) => some ((c.take (c.length - b.toNat)).drop a.toNat, d.lb, d.ub)

/-! ## Lemmas -/

theorem put_new (c : Con E B) (l : List (Con E B)) (h : ∀ d ∈ l, d.name ≠ c.name) : put c l = l ++ [c] := by
  induction l with
  | nil => rfl
  | cons d ds ih =>
    rw [put, if_neg (h d (by simp)), ih fun d hd => h d (by simp [hd])]
    rfl

theorem kept_spec (c : List E) (a b : ℕ) (h : ¬ (a = 0 ∧ b = 0)) :
    kept c (some ((a : ℤ), (b : ℤ))) = (c.take (c.length - b)).drop a := by
  unfold kept
  simp only
  have hneg : 0 < b → sliceIdx c.length (-(b : ℤ)) = c.length - b := by
    intro hb
    unfold sliceIdx
    rw [if_neg (by omega)]
    omega
  by_cases ha : a = 0
  · subst ha
    have hb : 0 < b := by omega
    rw [if_pos (by simp)]
    unfold slice
    rw [hneg hb]
    simp [sliceIdx]
  · rw [if_neg (by simpa using ha)]
    by_cases hb : b = 0
    · subst hb
      rw [if_pos (by simp)]
      unfold slice sliceIdx
      simp only [Int.natCast_nonneg, if_true, Int.toNat_natCast, Nat.min_self, List.take_length, Nat.sub_zero]
      by_cases hl : a ≤ c.length
      · rw [Nat.min_eq_left hl]
      · rw [Nat.min_eq_right (by omega), List.drop_length, List.drop_eq_nil_of_le (by omega)]
    · rw [if_neg (by simpa using hb)]
      unfold slice
      rw [hneg (by omega)]
      unfold sliceIdx
      rw [if_pos (by omega), Int.toNat_natCast]
      by_cases hl : a ≤ c.length
      · rw [Nat.min_eq_left hl]
      · rw [Nat.min_eq_right (by omega), List.drop_eq_nil_of_le (by simp), List.drop_eq_nil_of_le (by simp; omega)]

/-- The invariant: every name ends with a number below the counter. -/
theorem define_names (ds : List (Def E B)) : ∀ c ∈ (defineAll ds ⟨[], 0⟩).cons,
    ∃ (x : Str) (n : ℕ), c.name = x ++ '_' :: str10 n ∧ n < (defineAll ds ⟨[], 0⟩).cnt := by
  induction ds using List.reverseRecOn with
  | nil => intro c hc; simp [defineAll] at hc
  | append_singleton ds d ih =>
    have mem_put : ∀ (c x : Con E B) (l : List (Con E B)), x ∈ put c l → x = c ∨ x ∈ l := by
      intro c x l
      induction l with
      | nil => intro h; simpa [put] using h
      | cons a l ih =>
        intro h
        rw [put] at h
        split_ifs at h
        · rcases List.mem_cons.1 h with h | h
          · exact Or.inl h
          · exact Or.inr (by simp [h])
        · rcases List.mem_cons.1 h with h | h
          · exact Or.inr (by simp [h])
          · rcases ih h with h | h
            · exact Or.inl h
            · exact Or.inr (by simp [h])
    unfold defineAll at ih ⊢
    rw [List.foldl_append, List.foldl_cons, List.foldl_nil]
    generalize List.foldl (fun s d => define d.expr d.lb d.ub d.name d.skip s) (⟨[], 0⟩ : Cons E B) ds = s at ih ⊢
    unfold define
    cases d.expr with
    | const => exact ih
    | rows e =>
      intro c hc
      rcases mem_put _ _ _ hc with rfl | hc
      · exact ⟨d.name, s.cnt, rfl, by simp⟩
      · obtain ⟨x, n, h1, h2⟩ := ih c hc; exact ⟨x, n, h1, by simp; omega⟩
    | spline e =>
      intro c hc
      rcases mem_put _ _ _ hc with rfl | hc
      · exact ⟨d.name, s.cnt, rfl, by simp⟩
      · obtain ⟨x, n, h1, h2⟩ := ih c hc; exact ⟨x, n, h1, by simp; omega⟩

/-- One more definition adds one constraint at the end, with a new name. -/
theorem define_step (ds : List (Def E B)) (d : Def E B) (rows : List E)
    (hr : match d.expr with | .const => False | .rows e => rows = e | .spline c => rows = kept c d.skip) :
    (defineAll (ds ++ [d]) ⟨[], 0⟩).cons = (defineAll ds ⟨[], 0⟩).cons ++
      [⟨d.name ++ '_' :: str10 (defineAll ds ⟨[], 0⟩ : Cons E B).cnt, rows, d.lb, d.ub⟩] ∧
    ∀ c ∈ (defineAll ds ⟨[], 0⟩ : Cons E B).cons, c.name ≠ d.name ++ '_' :: str10 (defineAll ds ⟨[], 0⟩ : Cons E B).cnt := by
  have hn : ∀ c ∈ (defineAll ds ⟨[], 0⟩ : Cons E B).cons, c.name ≠ d.name ++ '_' :: str10 (defineAll ds ⟨[], 0⟩ : Cons E B).cnt := by
    intro c hc e
    obtain ⟨x, n, h1, h2⟩ := define_names ds c hc
    rw [h1] at e
    have := str10_inj (split_us_right (str10_plain n) (str10_plain _) e).2
    omega
  refine ⟨?_, hn⟩
  have e : defineAll (ds ++ [d]) (⟨[], 0⟩ : Cons E B) = define d.expr d.lb d.ub d.name d.skip (defineAll ds ⟨[], 0⟩) := by
    unfold defineAll; rw [List.foldl_append]; rfl
  rw [e]
  unfold define
  cases hx : d.expr with
  | const => rw [hx] at hr; exact hr.elim
  | rows e =>
    rw [hx] at hr
    simp only at hr ⊢
    rw [put_new _ _ hn, hr]
  | spline c =>
    rw [hx] at hr
    simp only at hr ⊢
    rw [put_new _ _ hn, hr]

/-! ## Properties -/

/-- **C36** Without skipping, the bounds are imposed on all coefficients. -/
theorem C36_all (c : List E) : kept c none = c := rfl

/-- **C36** (partial) The bounds are imposed on all coefficients but exactly the skipped numbers at the start and at the end, when not
both numbers are zero.
Missing: both zero, see `C36_zero_violated`; constraints on constants, see `C36_constant_violated`. -/
theorem C36_partial (start mid tail : List E) (h : ¬ (start = [] ∧ tail = [])) :
    kept (start ++ mid ++ tail) (some ((start.length : ℤ), (tail.length : ℤ))) = mid := by
  rw [kept_spec _ _ _ (by simpa using h)]
  have : (start ++ mid ++ tail).length - tail.length = (start ++ mid).length := by simp; omega
  rw [this, List.take_left, List.drop_left]

/-- Skipping nothing at both sides drops the whole constraint. -/
theorem C36_zero_violated (c : List E) : kept c (some (0, 0)) = [] := by
  simp [kept, slice, sliceIdx]

/-- A constraint between constants is dropped, also when it does not hold, here `1 ≤ 0`. -/
theorem C36_constant_violated (lb ub : B) (name : Str) (s : Cons E B) : define (.const : Expr E) lb ub name none s = s := rfl

/-- **C67** No constraint is lost: after any sequence of definitions, under whatever names, the object has one constraint for each definition
that is not about constants, in order, with its rows and bounds, when no definition skips zero and zero. -/
theorem C67_kept (ds : List (Def E B)) (hs : ∀ d ∈ ds, ∀ s, d.skip = some s → 0 ≤ s.1 ∧ 0 ≤ s.2 ∧ s ≠ (0, 0)) :
    (defineAll ds ⟨[], 0⟩).cons.map (fun c => (c.rows, c.lb, c.ub)) = ds.filterMap Spec.imposes := by
  induction ds using List.reverseRecOn with
  | nil => rfl
  | append_singleton ds d ih =>
    have ih := ih fun d hd => hs d (by simp [hd])
    rw [List.filterMap_append, ← ih]
    cases hx : d.expr with
    | const =>
      have : defineAll (ds ++ [d]) (⟨[], 0⟩ : Cons E B) = defineAll ds ⟨[], 0⟩ := by
        unfold defineAll; rw [List.foldl_append, List.foldl_cons, List.foldl_nil]; unfold define; rw [hx]
      rw [this]
      simp [Spec.imposes, hx]
    | rows e =>
      rw [(define_step ds d e (by rw [hx])).1]
      simp [Spec.imposes, hx]
    | spline c =>
      rw [(define_step ds d (kept c d.skip) (by rw [hx])).1]
      cases hk : d.skip with
      | none => simp [Spec.imposes, hx, hk, kept]
      | some s =>
        obtain ⟨a, b⟩ := s
        obtain ⟨h1, h2, h3⟩ := hs d (by simp) (a, b) hk
        simp only at h1 h2
        obtain ⟨a, rfl⟩ := Int.eq_ofNat_of_zero_le h1
        obtain ⟨b, rfl⟩ := Int.eq_ofNat_of_zero_le h2
        rw [kept_spec c a b (by rintro ⟨rfl, rfl⟩; exact h3 rfl)]
        simp [Spec.imposes, hx, hk]

/-- **C67** The names of all constraints in a problem differ, for objects with different labels without underscore. -/
theorem C67_names (objects : List (Str × List (Def E B))) (hp : ∀ o ∈ objects, Spec.plain o.1) (hl : (objects.map (·.1)).Nodup) :
    (allNames objects).Nodup := by
  have one : ∀ ds : List (Def E B), ((defineAll ds ⟨[], 0⟩).cons.map fun c => c.name).Nodup := by
    intro ds
    induction ds using List.reverseRecOn with
    | nil => simp [defineAll]
    | append_singleton ds d ih =>
      have step : ∀ rows : List E, (match d.expr with | .const => False | .rows e => rows = e | .spline c => rows = kept c d.skip) →
          ((defineAll (ds ++ [d]) (⟨[], 0⟩ : Cons E B)).cons.map fun c => c.name).Nodup := by
        intro rows hr
        obtain ⟨h1, h2⟩ := define_step ds d rows hr
        rw [h1, List.map_append, List.nodup_append]
        refine ⟨ih, by simp, ?_⟩
        intro a ha b hb
        obtain ⟨c, hc, rfl⟩ := List.mem_map.1 ha
        simp only [List.map_cons, List.map_nil, List.mem_singleton] at hb
        rw [hb]
        exact h2 c hc
      cases hx : d.expr with
      | const =>
        have : defineAll (ds ++ [d]) (⟨[], 0⟩ : Cons E B) = defineAll ds ⟨[], 0⟩ := by
          unfold defineAll; rw [List.foldl_append, List.foldl_cons, List.foldl_nil]; unfold define; rw [hx]
        rw [this]; exact ih
      | rows e => exact step e (by rw [hx])
      | spline c => exact step _ (by rw [hx])
  induction objects with
  | nil => simp [allNames]
  | cons o os ih =>
    have ih := ih (fun o ho => hp o (by simp [ho])) (by simp at hl; exact hl.2)
    unfold allNames at ih ⊢
    rw [List.flatMap_cons, List.nodup_append]
    refine ⟨?_, ih, ?_⟩
    · have : ((defineAll o.2 ⟨[], 0⟩).cons.map fun c => symName c.name o.1) =
          ((defineAll o.2 ⟨[], 0⟩).cons.map fun c => c.name).map fun n => symName n o.1 := by simp
      rw [this]
      refine (one o.2).map ?_
      intro a b hab
      exact List.append_cancel_right hab
    · intro a ha b hb
      obtain ⟨c, -, rfl⟩ := List.mem_map.1 ha
      obtain ⟨o', ho', hb⟩ := List.mem_flatMap.1 hb
      obtain ⟨c', -, rfl⟩ := List.mem_map.1 hb
      intro e
      have e := (split_us_right (hp o (by simp)) (hp o' (by simp [ho'])) e).2
      simp only [List.map_cons, List.nodup_cons, List.mem_map, not_exists, not_and] at hl
      exact hl.1 o' ho' e.symm

/-- Five coefficients; the first one and the last two are skipped. -/
example : kept [1, 2, 3, 4, 5] (some (1, 2)) = [2, 3] := rfl

/-- Two constraints under one given name, a constant one, and one without name: three constraints. -/
example : (defineAll [⟨.rows [1], 0, 1, ['x'], none⟩, ⟨.rows [2], 0, 1, ['x'], none⟩, ⟨.const, 0, 0, ['c'], none⟩,
    ⟨.spline [3, 4, 5], 0, 1, ['c'], some (1, 0)⟩] (⟨[], 0⟩ : Cons ℕ ℕ)).cons.map (fun c => (c.rows, c.lb, c.ub)) =
    [([1], 0, 1), ([2], 0, 1), ([4, 5], 0, 1)] := by
  rw [C67_kept]
  · rfl
  · simp

end Verif.OptiLayer
