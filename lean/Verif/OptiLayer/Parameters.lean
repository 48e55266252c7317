import Verif.OptiLayer.Symbols

/-! # Parameters passed to the solver (C68), and splines that are shifted (C69) -/

set_option linter.unusedSectionVars false

namespace Verif.OptiLayer

/-! ## Model -/

/-- What `set_parameters` of one object returns: for objects (by label) and names, a value; the keys differ (dictionaries). -/
abbrev Answer (V : Type) := List ((Str × Str) × V)

variable {V : Type}

/-- `set_parameters` of the whole problem, first loop, optilayer.py:430-438: the dictionary of all values; raises when a key is there
already. -/
def collect : Answer V → List (Answer V) → Option (Answer V)
  | acc, [] => some acc
  | acc, a :: rest => if a.any fun p => acc.any fun q => q.1 == p.1 then none else collect (acc ++ a) rest

/-- `set_parameters`, second loop, optilayer.py:439-444: the value in the dictionary, or the default `child._values[name]`. -/
def setParameters (default : Str × Str → V) (answers : List (Answer V)) : Option (Str × Str → V) := do
  let par ← collect [] answers
  some fun k => ((par.find? fun p => p.1 == k).map (·.2)).getD (default k)

/-- `name[name.index('seg')+3]`: the character after the first `seg`; `none` raises. -/
def segChar : Str → Option Char
  | 's' :: 'e' :: 'g' :: rest => rest.head?
  | _ :: rest => segChar rest
  | [] => none

/-- `'seg' in name`. -/
def hasSeg : Str → Bool
  | 's' :: 'e' :: 'g' :: _ => true
  | _ :: rest => hasSeg rest
  | [] => false

/-- The test of `transform_primal_splines` whether a spline variable is transformed, optilayer.py:481; `none` raises. -/
def shifted (segShift : List ℕ) (name : Str) : Option Bool :=
  if hasSeg name then do
    let c ← segChar name
    if c.isDigit then some (decide (c.toNat - 48 ∈ segShift)) else none
  else some false

/-- The name of the spline variables of a segment, vehicle.py:117-118. -/
def splineName (k : ℕ) : Str := ['s', 'p', 'l', 'i', 'n', 'e', 's', '_', 's', 'e', 'g'] ++ str10 k

/-! ## Properties -/

/-- **C68** Setting the parameters fails exactly when two objects set the same parameter. -/
theorem C68_raises (default : Str × Str → V) (answers : List (Answer V)) :
    setParameters default answers = none ↔ ∃ i j, ∃ (hi : i < answers.length) (hj : j < answers.length), i < j ∧
      ∃ k, (∃ v, (k, v) ∈ answers[i]) ∧ ∃ v, (k, v) ∈ answers[j] := by
  have key : ∀ (answers : List (Answer V)) (acc : Answer V), collect acc answers = none ↔
      (∃ j, ∃ (hj : j < answers.length), ∃ k, (∃ v, (k, v) ∈ acc) ∧ ∃ v, (k, v) ∈ answers[j]) ∨
      (∃ i j, ∃ (hi : i < answers.length) (hj : j < answers.length), i < j ∧ ∃ k, (∃ v, (k, v) ∈ answers[i]) ∧ ∃ v, (k, v) ∈ answers[j]) := by
    intro answers
    induction answers with
    | nil => intro acc; simp [collect]
    | cons a rest ih =>
      intro acc
      rw [collect]
      by_cases hc : (a.any fun p => acc.any fun q => q.1 == p.1) = true
      · rw [if_pos hc]
        simp only [true_iff]
        left
        simp only [List.any_eq_true, beq_iff_eq] at hc
        obtain ⟨⟨k, v⟩, hp, ⟨k', v'⟩, hq, e⟩ := hc
        simp only at e
        subst e
        exact ⟨0, by simp, k', ⟨v', hq⟩, v, hp⟩
      · rw [if_neg hc, ih]
        have hc' : ∀ k v v', (k, v) ∈ acc → (k, v') ∈ a → False := by
          intro k v v' h1 h2
          apply hc
          simp only [List.any_eq_true, beq_iff_eq]
          exact ⟨(k, v'), h2, (k, v), h1, rfl⟩
        constructor
        · rintro (⟨j, hj, k, ⟨v, hv⟩, v', hv'⟩ | ⟨i, j, hi, hj, hij, h⟩)
          · rcases List.mem_append.1 hv with hv | hv
            · exact Or.inl ⟨j + 1, by simpa using hj, k, ⟨v, hv⟩, v', by simpa using hv'⟩
            · exact Or.inr ⟨0, j + 1, by simp, by simpa using hj, by omega, k, ⟨v, by simpa using hv⟩, v', by simpa using hv'⟩
          · exact Or.inr ⟨i + 1, j + 1, by simpa using hi, by simpa using hj, by omega, by simpa using h⟩
        · rintro (⟨j, hj, k, ⟨v, hv⟩, v', hv'⟩ | ⟨i, j, hi, hj, hij, k, ⟨v, hv⟩, v', hv'⟩)
          · cases j with
            | zero => exact (hc' k v v' hv (by simpa using hv')).elim
            | succ j => exact Or.inl ⟨j, by simpa using hj, k, ⟨v, by simp [hv]⟩, v', by simpa using hv'⟩
          · cases j with
            | zero => omega
            | succ j =>
              cases i with
              | zero => exact Or.inl ⟨j, by simpa using hj, k, ⟨v, by simp at hv; simp [hv]⟩, v', by simpa using hv'⟩
              | succ i =>
                exact Or.inr ⟨i, j, by simpa using hi, by simpa using hj, by omega, k, ⟨v, by simpa using hv⟩, v', by simpa using hv'⟩
  unfold setParameters
  cases hc : collect [] answers with
  | none =>
    have := (key answers []).1 hc
    simp only [Option.bind_eq_bind, Option.bind_none, true_iff]
    rcases this with ⟨j, hj, k, ⟨v, hv⟩, -⟩ | h
    · simp at hv
    · exact h
  | some par =>
    simp only [Option.bind_eq_bind, Option.bind_some, reduceCtorEq, false_iff]
    intro h
    have := (key answers []).2 (Or.inr h)
    rw [hc] at this
    simp at this

/-- **C68** Every parameter gets the value that some object sets for it, whichever object that is, and its default value when no object
sets it. -/
theorem C68_value (default : Str × Str → V) (answers : List (Answer V)) (par : Str × Str → V) (h : setParameters default answers = some par)
    (hn : ∀ a ∈ answers, (a.map (·.1)).Nodup) :
    (∀ a ∈ answers, ∀ k v, (k, v) ∈ a → par k = v) ∧ ∀ k, (∀ a ∈ answers, ∀ v, (k, v) ∉ a) → par k = default k := by
  have key : ∀ (answers : List (Answer V)) (acc d : Answer V), collect acc answers = some d → (acc.map (·.1)).Nodup →
      (∀ a ∈ answers, (a.map (·.1)).Nodup) → (d.map (·.1)).Nodup ∧ ∀ p, p ∈ d ↔ p ∈ acc ∨ ∃ a ∈ answers, p ∈ a := by
    intro answers
    induction answers with
    | nil => intro acc d h hn _; rw [collect] at h; simp at h; subst h; simpa using hn
    | cons a rest ih =>
      intro acc d h hn ha
      rw [collect] at h
      split_ifs at h with hc
      have hc' : ∀ x ∈ acc.map (·.1), ∀ y ∈ a.map (·.1), x ≠ y := by
        intro x hx y hy e
        obtain ⟨p, hp, rfl⟩ := List.mem_map.1 hx
        obtain ⟨q, hq, rfl⟩ := List.mem_map.1 hy
        apply hc
        simp only [List.any_eq_true, beq_iff_eq]
        exact ⟨q, hq, p, hp, e⟩
      obtain ⟨h1, h2⟩ := ih (acc ++ a) d h (by rw [List.map_append, List.nodup_append]; exact ⟨hn, ha a (by simp), hc'⟩)
        fun b hb => ha b (by simp [hb])
      refine ⟨h1, fun p => ?_⟩
      rw [h2]
      simp [or_assoc]
  unfold setParameters at h
  simp only [Option.bind_eq_bind, Option.bind_eq_some_iff, Option.some.injEq] at h
  obtain ⟨d, hd, rfl⟩ := h
  obtain ⟨h1, h2⟩ := key answers [] d hd (by simp) hn
  have find : ∀ (d : Answer V), (d.map (·.1)).Nodup → ∀ k v, (k, v) ∈ d → d.find? (fun p => p.1 == k) = some (k, v) := by
    intro d
    induction d with
    | nil => simp
    | cons p d ih =>
      intro hn k v hm
      rw [List.find?_cons]
      rcases List.mem_cons.1 hm with rfl | hm
      · simp
      · simp only [List.map_cons, List.nodup_cons] at hn
        have : p.1 ≠ k := by
          rintro rfl
          exact hn.1 (List.mem_map.2 ⟨_, hm, rfl⟩)
        simp only [beq_eq_false_iff_ne.2 this]
        exact ih hn.2 k v hm
  constructor
  · intro a ha k v hv
    simp only
    rw [find d h1 k v ((h2 _).2 (Or.inr ⟨a, ha, hv⟩))]
    rfl
  · intro k hk
    simp only
    have : d.find? (fun p => p.1 == k) = none := by
      rw [List.find?_eq_none]
      rintro ⟨k', v⟩ hp e
      simp only [beq_iff_eq] at e
      subst e
      rcases (h2 _).1 hp with hp | ⟨a, ha, hp⟩
      · simp at hp
      · exact hk a ha v hp
    rw [this]
    rfl

/-- The problem sets its time, a vehicle its state; the second parameter of the vehicle keeps its default. -/
example : ∃ par, setParameters (fun _ => 7) [[((['p'], ['t']), 1)], [((['v'], ['x']), 2)]] = some par ∧
    par (['p'], ['t']) = 1 ∧ par (['v'], ['x']) = 2 ∧ par (['v'], ['y']) = 7 := ⟨_, rfl, rfl, rfl, rfl⟩

example : setParameters (fun _ => 7) [[((['v'], ['x']), 1)], [((['v'], ['x']), 1)]] = none := rfl

/-- **C69** (partial) Of the splines of a vehicle exactly those of the segments asked for are transformed, for vehicles with at most ten segments.
Missing: more segments, see `C69_violated`. -/
theorem C69_partial (segShift : List ℕ) (k : ℕ) (hk : k < 10) : shifted segShift (splineName k) = some (decide (k ∈ segShift)) := by
  have hs : str10 k = [Char.ofNat (48 + k)] := by unfold str10; rw [if_pos hk]
  have e1 : hasSeg (splineName k) = true := by rw [splineName, hs]; rfl
  have e2 : segChar (splineName k) = some (Char.ofNat (48 + k)) := by rw [splineName, hs]; rfl
  obtain ⟨f1, -, f3⟩ := digit_facts k hk
  rw [shifted, if_pos e1, e2]
  simp only [Option.bind_eq_bind, Option.bind_some, f1, if_true, f3]

theorem hasSeg_iff (name : Str) : hasSeg name = true ↔ ['s', 'e', 'g'] <:+: name := by
  induction name using hasSeg.induct with
  | case1 rest => simp only [hasSeg, true_iff]; exact ⟨[], rest, rfl⟩
  | case2 c rest h ih =>
    rw [hasSeg.eq_2 c rest h, ih]
    constructor
    · rintro ⟨a, b, rfl⟩; exact ⟨c :: a, b, rfl⟩
    · rintro ⟨a, b, e⟩
      cases a with
      | nil =>
        simp only [List.nil_append, List.cons_append, List.cons.injEq] at e
        exact (h b e.1.symm e.2.symm).elim
      | cons x a =>
        simp only [List.cons_append, List.cons.injEq] at e
        exact ⟨a, b, e.2⟩
  | case3 => simp [hasSeg]

theorem seg_skip (p r : Str) (hp : 's' ∉ p) : hasSeg (p ++ r) = hasSeg r ∧ segChar (p ++ r) = segChar r := by
  induction p with
  | nil => exact ⟨rfl, rfl⟩
  | cons c p ih =>
    have hc : c ≠ 's' := fun e => hp (by simp [e])
    obtain ⟨h1, h2⟩ := ih fun hm => hp (by simp [hm])
    rw [List.cons_append, ← h1, ← h2]
    constructor
    · rw [hasSeg.eq_2]
      intro rest e
      exact absurd e hc
    · rw [segChar.eq_2]
      intro rest e
      exact absurd e hc

/-- **C69** A spline variable whose name does not mention a segment is never transformed. -/
theorem C69_others (segShift : List ℕ) (name : Str) (h : ¬ ['s', 'e', 'g'] <:+: name) : shifted segShift name = some false := by
  rw [shifted, if_neg]
  rwa [hasSeg_iff]

/-- **C69** (partial) The hyperplanes between a vehicle and an obstacle are transformed exactly with their segment, up to ten segments.
Missing: more segments, as for the splines. -/
theorem C69_hyperplanes_partial (segShift : List ℕ) (f : Char) (hf : f ≠ 's') (n i k l : ℕ) (hi : i < 10) :
    shifted segShift (Hyp.obst f (['v', 'e', 'h', 'i', 'c', 'l', 'e'] ++ str10 n) i k l).name = some (decide (i ∈ segShift)) := by
  have hs : str10 i = [Char.ofNat (48 + i)] := by unfold str10; rw [if_pos hi]
  have hd : ∀ m, 's' ∉ str10 m := by
    intro m hm
    exact absurd (List.all_eq_true.1 (str10_digits m).1 _ hm) (by decide)
  have e : (Hyp.obst f (['v', 'e', 'h', 'i', 'c', 'l', 'e'] ++ str10 n) i k l).name =
      (f :: '_' :: 'v' :: 'e' :: 'h' :: 'i' :: 'c' :: 'l' :: 'e' :: (str10 n ++ ['_'])) ++
      ('s' :: 'e' :: 'g' :: Char.ofNat (48 + i) :: '_' :: (str10 k ++ str10 l)) := by
    simp [Hyp.name, hs]
  obtain ⟨h1, h2⟩ := seg_skip (f :: '_' :: 'v' :: 'e' :: 'h' :: 'i' :: 'c' :: 'l' :: 'e' :: (str10 n ++ ['_']))
    ('s' :: 'e' :: 'g' :: Char.ofNat (48 + i) :: '_' :: (str10 k ++ str10 l)) (by
      simp [hd n, hf.symm])
  obtain ⟨f1, -, f3⟩ := digit_facts i hi
  rw [e, shifted, if_pos (by rw [h1]; rfl), h2]
  simp only [segChar, List.head?_cons, Option.bind_eq_bind, Option.bind_some, f1, if_true, f3]

example : shifted [0] ['d', 'x'] = some false := rfl

/-- The eleventh segment (number 10) is transformed with segment 1, and not when it is asked for. -/
theorem C69_violated : shifted [1] (splineName 10) = some true ∧ shifted [10] (splineName 10) = some false := by
  have hs : str10 10 = ['1', '0'] := by simp [str10]
  unfold splineName
  rw [hs]
  exact ⟨rfl, rfl⟩

example : shifted [0] (splineName 0) = some true ∧ shifted [0] (splineName 3) = some false := by
  rw [C69_partial _ _ (by omega), C69_partial _ _ (by omega)]; simp

end Verif.OptiLayer
