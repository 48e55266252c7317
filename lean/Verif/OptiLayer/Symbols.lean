import Verif.OptiLayer.Labels

/-! # Names of symbols: which variable a symbol stands for (C65), and when two definitions are two variables (C66) -/

set_option linter.unusedSectionVars false

namespace Verif.OptiLayer

/-! ## Model -/

/-- What a name is defined as: `define_variable`, `define_parameter`, `define_symbol` (and their spline versions) and `define_substitute`. -/
inductive Kind
  | var
  | par
  | sym
  | sub
deriving DecidableEq

/-- An object of the problem: its label and its definitions, in order. optilayer.py:502-517, 556-608. -/
structure Child where
  label : Str
  defs : List (Kind × Str)

/-- `name in child._variables or name in child._parameters`, optilayer.py:209-210. -/
def Child.defines (c : Child) (x : Str) : Bool := c.defs.any fun d => d.2 == x && (d.1 == .var || d.1 == .par)

/-- `_add_label`: the name of the casadi symbol, optilayer.py:535-536, 613. -/
def symName (x label : Str) : Str := x ++ '_' :: label

/-- `symbol_dict`: from the name of a casadi symbol to the label of an object and the name of a variable or parameter of it. -/
abbrev Dict := Str → Option (Str × Str)

/-- `d[k] = v` for all given items. -/
def assign (d : Dict) : List (Str × Str × Str) → Dict
  | [] => d
  | (k, v) :: rest => assign (fun s => if s = k then some v else d s) rest

/-- `add_to_dict` of the objects, optilayer.py:529-533 (the test compares a symbol with strings, and never fails), and
`compose_dictionary`, optilayer.py:200-202. -/
def composed (children : List Child) : List (Str × Str × Str) :=
  children.flatMap fun c => c.defs.map fun d => (symName d.2 c.label, c.label, d.2)

/-- `translate_symbols`, optilayer.py:204-223, for one symbol. -/
def translate1 (children : List Child) (c : Child) (x : Str) : Option (Str × Str × Str) :=
  match children.filter (·.defines x) with
  | [d] => some (symName x c.label, d.label, x)
  | _ => none

/-- All symbols: objects and names. -/
def symbols (children : List Child) : List (Child × Str) :=
  children.flatMap fun c => (c.defs.filter fun d => d.1 == .sym).map fun d => (c, d.2)

/-- The dictionary of the whole problem, or an exception; optilayer.py:180-182. -/
def dictionary (children : List Child) : Option Dict := do
  let tr ← (symbols children).mapM fun p => translate1 children p.1 p.2
  some (assign (fun _ => none) (composed children ++ tr))

/-- Names of the decision variables of hyperplanes, environment.py:133-136 (vehicle and obstacle) and 166-169 (two vehicles). -/
inductive Hyp
  | obst (first : Char) (veh : Str) (seg shape obst : ℕ)
  | pair (first : Char) (veh : Str) (seg shape : ℕ) (veh2 : Str) (shape2 : ℕ)

/-- The expressions for the names, ibid. -/
def Hyp.name : Hyp → Str
  | .obst f v i k l => f :: '_' :: v ++ '_' :: 's' :: 'e' :: 'g' :: str10 i ++ '_' :: str10 k ++ str10 l
  | .pair f v i k v2 l => f :: '_' :: v ++ '_' :: 's' :: 'e' :: 'g' :: str10 i ++ '_' :: str10 k ++ '_' :: v2 ++ '_' :: str10 l

/-- The name of the slack variable of a vehicle for hyperplane `k` of shape `s` in segment `seg`, vehicle.py:138-140. -/
def epsName (_seg s k : ℕ) : Str := 'e' :: 'p' :: 's' :: '_' :: str10 s ++ str10 k

/-- The name of the variable for terminal condition `k` of vehicle `v`, point2point.py:162-163. -/
def gName (_v k : ℕ) : Str := 'g' :: str10 k

/-! ## Specification -/

/-- The string has no underscore. -/
def Spec.plain (s : Str) : Prop := '_' ∉ s

/-! ## Lemmas -/

theorem split_us {x x' y y' : Str} (hx : Spec.plain x) (hx' : Spec.plain x') (h : x ++ '_' :: y = x' ++ '_' :: y') : x = x' ∧ y = y' := by
  induction x generalizing x' with
  | nil =>
    cases x' with
    | nil => simpa using h
    | cons a x' =>
      simp only [List.nil_append, List.cons_append, List.cons.injEq] at h
      exact absurd (by rw [h.1]; simp) hx'
  | cons a x ih =>
    cases x' with
    | nil =>
      simp only [List.nil_append, List.cons_append, List.cons.injEq] at h
      exact absurd (by rw [← h.1]; simp) hx
    | cons b x' =>
      simp only [List.cons_append, List.cons.injEq] at h
      have := ih (x' := x') (fun hm => hx (by simp [hm])) (fun hm => hx' (by simp [hm])) h.2
      exact ⟨by rw [h.1, this.1], this.2⟩

theorem split_us_right {x x' y y' : Str} (hy : Spec.plain y) (hy' : Spec.plain y') (h : x ++ '_' :: y = x' ++ '_' :: y') : x = x' ∧ y = y' := by
  have := congrArg List.reverse h
  simp only [List.reverse_append, List.reverse_cons, List.append_assoc, List.singleton_append] at this
  have := split_us (by simpa [Spec.plain] using hy) (by simpa [Spec.plain] using hy') this
  exact ⟨List.reverse_injective this.2, List.reverse_injective this.1⟩

theorem str10_plain (n : ℕ) : Spec.plain (str10 n) := by
  intro h
  have := List.all_eq_true.1 (str10_digits n).1 _ h
  exact absurd this (by decide)

theorem assign_append (d : Dict) (l l' : List (Str × Str × Str)) : assign d (l ++ l') = assign (assign d l) l' := by
  induction l generalizing d with
  | nil => rfl
  | cons a l ih => exact ih _

theorem assign_keep (d : Dict) (l : List (Str × Str × Str)) (k : Str) (v : Str × Str) (hd : d k = some v)
    (h : ∀ p ∈ l, p.1 = k → p.2 = v) : assign d l k = some v := by
  induction l generalizing d with
  | nil => exact hd
  | cons a l ih =>
    obtain ⟨k', v'⟩ := a
    rw [assign]
    refine ih _ ?_ fun p hp => h p (by simp [hp])
    by_cases e : k = k'
    · rw [if_pos e, ← h (k', v') (by simp) e.symm]
    · rw [if_neg e, hd]

theorem assign_mem (d : Dict) (l : List (Str × Str × Str)) (k : Str) (v : Str × Str) (hm : (k, v) ∈ l)
    (h : ∀ p ∈ l, p.1 = k → p.2 = v) : assign d l k = some v := by
  obtain ⟨s, t, rfl⟩ := List.append_of_mem hm
  rw [assign_append, assign]
  refine assign_keep _ _ _ _ (by simp) fun p hp => h p (by simp [hp])

theorem mapM_spec {A B : Type} (f : A → Option B) (l : List A) :
    (l.mapM f = none ↔ ∃ a ∈ l, f a = none) ∧
    (∀ r, l.mapM f = some r → (∀ a ∈ l, ∃ b ∈ r, f a = some b) ∧ ∀ b ∈ r, ∃ a ∈ l, f a = some b) := by
  induction l with
  | nil =>
    simp
  | cons a l ih =>
    rw [List.mapM_cons]
    cases ha : f a with
    | none => simp [ha]
    | some b =>
      cases hl : l.mapM f with
      | none =>
        have := ih.1.1 hl
        simpa [ha] using this
      | some r =>
        have h1 := ih.2 r hl
        have h2 : ¬ ∃ a ∈ l, f a = none := fun h => by rw [ih.1.2 h] at hl; simp at hl
        refine ⟨⟨by simp, ?_⟩, ?_⟩
        · rintro ⟨a', h', h''⟩
          rcases List.mem_cons.1 h' with rfl | h'
          · rw [ha] at h''; simp at h''
          · exact absurd ⟨a', h', h''⟩ h2
        · intro r' hr'
          have e : r' = b :: r := by simpa using hr'.symm
          subst e
          refine ⟨?_, ?_⟩
          · intro a' h'
            rcases List.mem_cons.1 h' with rfl | h'
            · exact ⟨b, by simp, ha⟩
            · obtain ⟨x, hx, e⟩ := h1.1 a' h'; exact ⟨x, by simp [hx], e⟩
          · intro b' h'
            rcases List.mem_cons.1 h' with rfl | h'
            · exact ⟨a, by simp, ha⟩
            · obtain ⟨x, hx, e⟩ := h1.2 b' h'; exact ⟨x, by simp [hx], e⟩

theorem translate1_some {children : List Child} {c : Child} {x : Str} {p : Str × Str × Str} (h : translate1 children c x = some p) :
    ∃ d, children.filter (·.defines x) = [d] ∧ p = (symName x c.label, d.label, x) := by
  unfold translate1 at h
  split at h
  · rename_i d e
    exact ⟨d, e, (Option.some.inj h).symm⟩
  · simp at h

theorem translate1_none (children : List Child) (c : Child) (x : Str) :
    translate1 children c x = none ↔ (children.filter (·.defines x)).length ≠ 1 := by
  unfold translate1
  split
  · rename_i d e; simp [e]
  · rename_i h
    simp only [true_iff]
    intro hl
    obtain ⟨d, hd⟩ := List.length_eq_one_iff.1 hl
    exact h d hd

theorem makeLabel_plain (fuel : ℕ) (labels : List Str) (l l' : Str) (hp : Spec.plain l) (h : makeLabel fuel labels l = some l') :
    Spec.plain l' := by
  induction fuel generalizing l with
  | zero => simp [makeLabel] at h
  | succ fuel ih =>
    rw [makeLabel] at h
    split_ifs at h with h1 h2 h3
    · refine ih _ ?_ h
      intro hm
      rcases List.mem_append.1 hm with hm | hm
      · refine hp ?_
        unfold restGroups at hm
        split at hm
        · simp at hm
        · exact (List.rdropWhile_prefix _ _).subset hm
      · exact str10_plain _ hm
    · rw [← Option.some.inj h]; exact hp
    · refine ih _ ?_ h
      intro hm
      rcases List.mem_append.1 hm with hm | hm
      · exact hp hm
      · simp at hm

/-! ## Properties -/

/-- **C65** A problem is refused exactly when some symbol is not defined as variable or parameter by exactly one of its objects. -/
theorem C65_raises (children : List Child) :
    dictionary children = none ↔
      ∃ c ∈ children, ∃ x, (Kind.sym, x) ∈ c.defs ∧ (children.filter (·.defines x)).length ≠ 1 := by
  unfold dictionary
  simp only [Option.bind_eq_bind, Option.bind_eq_none_iff, reduceCtorEq, imp_false]
  rw [show (∀ a, ¬ (List.mapM (fun p => translate1 children p.1 p.2) (symbols children) = some a)) ↔
    List.mapM (fun p => translate1 children p.1 p.2) (symbols children) = none from Option.eq_none_iff_forall_ne_some.symm]
  rw [(mapM_spec _ _).1]
  simp only [translate1_none]
  constructor
  · rintro ⟨⟨c, x⟩, hm, h⟩
    unfold symbols at hm
    obtain ⟨c', hc', hm⟩ := List.mem_flatMap.1 hm
    obtain ⟨⟨k, y⟩, hd, e⟩ := List.mem_map.1 hm
    simp only [List.mem_filter, beq_iff_eq] at hd
    simp only [Prod.mk.injEq] at e
    obtain ⟨rfl, rfl⟩ := e
    obtain ⟨hd, rfl⟩ := hd
    exact ⟨c', hc', y, hd, h⟩
  · rintro ⟨c, hc, x, hx, h⟩
    refine ⟨(c, x), ?_, h⟩
    unfold symbols
    exact List.mem_flatMap.2 ⟨c, hc, List.mem_map.2 ⟨(.sym, x), by simp [hx], rfl⟩⟩

/-- **C65** (partial) When all labels differ and have no underscore, every variable and parameter of an object stands for itself in
the whole problem, and every symbol stands for the variable or parameter of that name of the one object that defines it.
Missing: labels with an underscore, see `C65_violated`. -/
theorem C65_partial (children : List Child) (dict : Dict) (h : dictionary children = some dict)
    (hp : ∀ c ∈ children, Spec.plain c.label) (hl : children.Pairwise fun c d => c.label ≠ d.label)
    (c : Child) (hc : c ∈ children) (x : Str) :
    (c.defines x = true → dict (symName x c.label) = some (c.label, x)) ∧
    ((Kind.sym, x) ∈ c.defs → ∃ d ∈ children, d.defines x = true ∧ dict (symName x c.label) = some (d.label, x) ∧
      ∀ d' ∈ children, d'.defines x = true → d'.label = d.label) := by
  have inj : ∀ c ∈ children, ∀ d ∈ children, c.label = d.label → c = d := by
    intro c hc d hd e
    by_contra hne
    obtain ⟨i, hi, rfl⟩ := List.getElem_of_mem hc
    obtain ⟨j, hj, rfl⟩ := List.getElem_of_mem hd
    have hij : i ≠ j := by rintro rfl; exact hne rfl
    rcases Nat.lt_or_gt_of_ne hij with h' | h'
    · exact List.pairwise_iff_getElem.1 hl i j hi hj h' e
    · exact List.pairwise_iff_getElem.1 hl j i hj hi h' e.symm
  unfold dictionary at h
  simp only [Option.bind_eq_bind, Option.bind_eq_some_iff, Option.some.injEq] at h
  obtain ⟨tr, htr, rfl⟩ := h
  obtain ⟨t1, t2⟩ := (mapM_spec _ _).2 tr htr
  -- items of the dictionary with the given key
  have comp : ∀ p ∈ composed children, p.1 = symName x c.label → p.2 = (c.label, x) := by
    intro p hp' e
    obtain ⟨c', hc', hm⟩ := List.mem_flatMap.1 hp'
    obtain ⟨d, hd, rfl⟩ := List.mem_map.1 hm
    have := split_us_right (hp c' hc') (hp c hc) e
    simp [this.1, this.2]
  have trs : ∀ p ∈ tr, p.1 = symName x c.label →
      ∃ d, children.filter (·.defines x) = [d] ∧ p.2 = (d.label, x) ∧ (Kind.sym, x) ∈ c.defs := by
    intro p hp' e
    obtain ⟨⟨c', y⟩, hm, hy⟩ := t2 p hp'
    obtain ⟨d, hd, rfl⟩ := translate1_some hy
    obtain ⟨c'', hc'', hm⟩ := List.mem_flatMap.1 hm
    obtain ⟨⟨k, z⟩, hd', e'⟩ := List.mem_map.1 hm
    simp only [List.mem_filter, beq_iff_eq] at hd'
    simp only [Prod.mk.injEq] at e'
    obtain ⟨rfl, rfl⟩ := e'
    obtain ⟨hd', rfl⟩ := hd'
    obtain ⟨rfl, el⟩ := split_us_right (hp c'' hc'') (hp c hc) e
    rw [inj c'' hc'' c hc el] at hd'
    exact ⟨d, hd, rfl, hd'⟩
  constructor
  · intro hx
    have hm : (symName x c.label, c.label, x) ∈ composed children := by
      unfold Child.defines at hx
      obtain ⟨⟨k, y⟩, hd, e⟩ := List.any_eq_true.1 hx
      simp only [Bool.and_eq_true, beq_iff_eq] at e
      obtain ⟨rfl, -⟩ := e
      exact List.mem_flatMap.2 ⟨c, hc, List.mem_map.2 ⟨(k, y), hd, rfl⟩⟩
    refine assign_mem _ _ _ _ (by simp [hm]) ?_
    intro p hp' e
    rcases List.mem_append.1 hp' with hp' | hp'
    · exact comp p hp' e
    · obtain ⟨d, hd, e2, -⟩ := trs p hp' e
      have : c ∈ children.filter (·.defines x) := by simp [hc, hx]
      rw [hd, List.mem_singleton] at this
      rw [e2, this]
  · intro hx
    have hs : (c, x) ∈ symbols children :=
      List.mem_flatMap.2 ⟨c, hc, List.mem_map.2 ⟨(.sym, x), by simp [hx], rfl⟩⟩
    obtain ⟨p, hp', e⟩ := t1 (c, x) hs
    obtain ⟨d, hd, rfl⟩ := translate1_some e
    have hdm : d ∈ children ∧ d.defines x = true := by
      have : d ∈ children.filter (·.defines x) := by rw [hd]; simp
      simpa using this
    refine ⟨d, hdm.1, hdm.2, ?_, ?_⟩
    · rw [assign_append]
      refine assign_mem _ _ _ _ hp' ?_
      intro p hp'' e
      obtain ⟨d', hd', e2, -⟩ := trs p hp'' e
      rw [hd] at hd'
      rw [e2, (List.cons.inj hd').1]
    · intro d' hd' hx'
      have : d' ∈ children.filter (·.defines x) := by simp [hd', hx']
      rw [hd, List.mem_singleton] at this
      rw [this]

/-- Two objects with labels `b0` and `a_b0`: the variable `x_a` of the first and the variable `x` of the second are taken for one
variable, without an error. -/
theorem C65_violated :
    let c1 : Child := ⟨['b', '0'], [(.var, ['x', '_', 'a'])]⟩
    let c2 : Child := ⟨['a', '_', 'b', '0'], [(.var, ['x'])]⟩
    ∃ dict, dictionary [c1, c2] = some dict ∧ dict (symName ['x', '_', 'a'] c1.label) = some (c2.label, ['x']) :=
  ⟨_, rfl, rfl⟩

/-- A vehicle with a variable and the symbol `t`, and a problem with the parameter `t`. -/
example : ∃ dict, dictionary [⟨['v', '0'], [(.var, ['s']), (.sym, ['t'])]⟩, ⟨['p', '0'], [(.par, ['t'])]⟩] = some dict ∧
    dict ['t', '_', 'v', '0'] = some (['p', '0'], ['t']) ∧ dict ['s', '_', 'v', '0'] = some (['v', '0'], ['s']) :=
  ⟨_, rfl, rfl, rfl⟩

example : dictionary [⟨['v', '0'], [(.sym, ['t'])]⟩] = none := rfl

/-- **C66** (partial) Every hyperplane has its own decision variables: normals and offsets (first letter), vehicles, segments, shapes and
obstacles are told apart by the names, as long as vehicles have at most ten shapes.
Missing: vehicles with more shapes (`C66_shapes_violated`); the slack variables of several segments (`C66_eps_violated`), and the variables
for the terminal conditions of several vehicles (`C66_terminal_violated`), are not told apart. -/
theorem C66_partial (h h' : Hyp) (e : h.name = h'.name)
    (hh : match h with | .obst _ v _ k _ => Spec.plain v ∧ k < 10 | .pair _ v _ _ v2 _ => Spec.plain v ∧ Spec.plain v2)
    (hh' : match h' with | .obst _ v _ k _ => Spec.plain v ∧ k < 10 | .pair _ v _ _ v2 _ => Spec.plain v ∧ Spec.plain v2) : h = h' := by
  have hcat : ∀ a b : ℕ, Spec.plain (str10 a ++ str10 b) := by
    intro a b hm
    rcases List.mem_append.1 hm with hm | hm
    · exact str10_plain _ hm
    · exact str10_plain _ hm
  have hseg : ∀ i : ℕ, Spec.plain ('s' :: 'e' :: 'g' :: str10 i) := by
    intro i hm
    simp only [List.mem_cons] at hm
    rcases hm with hm | hm | hm | hm
    · exact absurd hm (by decide)
    · exact absurd hm (by decide)
    · exact absurd hm (by decide)
    · exact str10_plain _ hm
  cases h with
  | obst f v i k l =>
    cases h' with
    | obst f' v' i' k' l' =>
      simp only [Hyp.name, List.cons_append, List.cons.injEq, true_and, List.append_assoc] at e
      obtain ⟨rfl, e0⟩ := e
      obtain ⟨rfl, e'⟩ := split_us hh.1 hh'.1 e0
      have e : ('s' :: 'e' :: 'g' :: str10 i) ++ '_' :: (str10 k ++ str10 l) = ('s' :: 'e' :: 'g' :: str10 i') ++ '_' :: (str10 k' ++ str10 l') := e'
      obtain ⟨e1, e2⟩ := split_us (hseg i) (hseg i') e
      simp only [List.cons.injEq, true_and] at e1
      obtain rfl := str10_inj e1
      have s1 : ∀ k < 10, str10 k = [Char.ofNat (48 + k)] := by intro k hk; unfold str10; rw [if_pos hk]
      have e3 := e2
      rw [s1 k hh.2, s1 k' hh'.2] at e3
      simp only [List.cons_append, List.nil_append, List.cons.injEq] at e3
      obtain rfl : k = k' := str10_inj (by rw [s1 k hh.2, s1 k' hh'.2, e3.1])
      obtain rfl := str10_inj e3.2
      rfl
    | pair f' v' i' k' v2' l' =>
      exfalso
      simp only [Hyp.name, List.cons_append, List.cons.injEq, true_and, List.append_assoc] at e
      obtain ⟨rfl, e0⟩ := e
      obtain ⟨rfl, e'⟩ := split_us hh.1 hh'.1 e0
      have e : ('s' :: 'e' :: 'g' :: str10 i) ++ '_' :: (str10 k ++ str10 l) = ('s' :: 'e' :: 'g' :: str10 i') ++ '_' :: (str10 k' ++ '_' :: (v2' ++ '_' :: str10 l')) := e'
      obtain ⟨-, e2⟩ := split_us (hseg i) (hseg i') e
      exact hcat k l (by rw [e2]; simp)
  | pair f v i k v2 l =>
    cases h' with
    | obst f' v' i' k' l' =>
      exfalso
      simp only [Hyp.name, List.cons_append, List.cons.injEq, true_and, List.append_assoc] at e
      obtain ⟨rfl, e0⟩ := e
      obtain ⟨rfl, e'⟩ := split_us hh.1 hh'.1 e0
      have e : ('s' :: 'e' :: 'g' :: str10 i) ++ '_' :: (str10 k ++ '_' :: (v2 ++ '_' :: str10 l)) = ('s' :: 'e' :: 'g' :: str10 i') ++ '_' :: (str10 k' ++ str10 l') := e'
      obtain ⟨-, e2⟩ := split_us (hseg i) (hseg i') e
      exact hcat k' l' (by rw [← e2]; simp)
    | pair f' v' i' k' v2' l' =>
      simp only [Hyp.name, List.cons_append, List.cons.injEq, true_and, List.append_assoc] at e
      obtain ⟨rfl, e0⟩ := e
      obtain ⟨rfl, e'⟩ := split_us hh.1 hh'.1 e0
      have e : ('s' :: 'e' :: 'g' :: str10 i) ++ '_' :: (str10 k ++ '_' :: (v2 ++ '_' :: str10 l)) =
        ('s' :: 'e' :: 'g' :: str10 i') ++ '_' :: (str10 k' ++ '_' :: (v2' ++ '_' :: str10 l')) := e'
      obtain ⟨e1, e2⟩ := split_us (hseg i) (hseg i') e
      simp only [List.cons.injEq, true_and] at e1
      obtain rfl := str10_inj e1
      obtain ⟨e3, e4⟩ := split_us (str10_plain k) (str10_plain k') e2
      obtain rfl := str10_inj e3
      obtain ⟨rfl, e5⟩ := split_us hh.2 hh'.2 e4
      obtain rfl := str10_inj e5
      rfl

/-- Shape 1 with obstacle 10, and shape 11 with obstacle 0, share their hyperplane. -/
theorem C66_shapes_violated : (Hyp.obst 'a' ['v'] 0 1 10).name = (Hyp.obst 'a' ['v'] 0 11 0).name := by
  simp [Hyp.name, str10]

/-- The slack of a shape and hyperplane is the same variable in all segments. -/
theorem C66_eps_violated (i j s k : ℕ) : epsName i s k = epsName j s k := rfl

/-- The terminal conditions of all vehicles of a fixed-time problem share their variables. -/
theorem C66_terminal_violated (v w k : ℕ) : gName v k = gName w k := rfl

/-- The labels of vehicles satisfy the requirement of `C66_partial` and `C65_partial`. -/
theorem C66_vehicle_labels (fuel : ℕ) (labels : List Str) (l' : Str)
    (h : makeLabel fuel labels ['v', 'e', 'h', 'i', 'c', 'l', 'e'] = some l') : Spec.plain l' :=
  makeLabel_plain fuel labels _ l' (by simp [Spec.plain]) h

example : (Hyp.obst 'a' ['v', '0'] 2 1 10).name = "a_v0_seg2_110".toList := by simp [Hyp.name, str10]

end Verif.OptiLayer
