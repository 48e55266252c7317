import Verif.OptiLayer.Symbols
import Mathlib.Algebra.BigOperators.Group.List.Basic
import Mathlib.Tactic.Ring
import Mathlib.Tactic.NormNum

/-! # C146, C147: the problem given to the solver

`OptiFather.construct_problem` replaces the symbols in the expressions of all objects by entries of
the vector of variables and the vector of parameters (C146), and `update_bounds` computes the bounds
at the current time (C147).  The dictionary of symbols is that of `Symbols.lean`. -/

set_option linter.unusedSectionVars false

namespace Verif.OptiLayer.Assemble
open Verif.OptiLayer

variable {V : Type}

/-! ## Model -/

/-- A casadi symbol: objects with the same name can be different symbols (the same name defined twice
gives two of them, optilayer.py:610-617). -/
structure Sym where
  id : ℕ
  name : Str
deriving DecidableEq

/-- A casadi expression over values `V`: constants, symbols, entries of the two vectors of the
problem, and operations with two arguments. -/
inductive Expr (V : Type) where
  | const (v : V)
  | sym (s : Sym)
  | var (label name : Str)
  | par (label name : Str)
  | app (f : V → V → V) (a b : Expr V)

/-- `symvar(expr)`: the symbols in an expression. -/
def symvar : Expr V → List Sym
  | .sym s => [s]
  | .app _ a b => symvar a ++ (symvar b).filter fun s => !decide (s ∈ symvar a)
  | _ => []

/-- `substitute(expr, sym, by)`. -/
def subst (s : Sym) (by' : Expr V) : Expr V → Expr V
  | .sym t => if t = s then by' else .sym t
  | .app f a b => .app f (subst s by' a) (subst s by' b)
  | e => e

/-- `name in child._variables` and `name in child._parameters`. -/
def isVar (c : Child) (x : Str) : Bool := decide ((Kind.var, x) ∈ c.defs)
def isPar (c : Child) (x : Str) : Bool := decide ((Kind.par, x) ∈ c.defs)

/-- One pass of the loop in `_substitute_symbols`, optilayer.py:288-293; `none` stands for the
`KeyError`.  The dictionary holds the object itself, here found by its label. -/
def replace1 (children : List Child) (dict : Dict) (s : Sym) (e : Expr V) : Option (Expr V) := do
  let (label, name) ← dict s.name
  let c ← children.find? fun c => decide (c.label = label)
  if isVar c name then some (subst s (.var label name) e)
  else if isPar c name then some (subst s (.par label name) e)
  else some e

/-- `_substitute_symbols`, optilayer.py:285-294: the symbols are determined before the loop. -/
def substituteSymbols (children : List Child) (dict : Dict) (e : Expr V) : Option (Expr V) :=
  (symvar e).foldlM (fun e s => replace1 children dict s e) e

/-- `construct_objective`, optilayer.py:274-279, over the objectives of the objects. -/
def objective [Add V] [Zero V] (children : List Child) (dict : Dict) (objectives : List (Expr V)) : Option (Expr V) :=
  objectives.foldlM (fun acc o => do some (.app (· + ·) acc (← substituteSymbols children dict o))) (.const 0)

/-- The expressions in `construct_constraints`, optilayer.py:254-260. -/
def constraints (children : List Child) (dict : Dict) (cons : List (Expr V)) : Option (List (Expr V)) :=
  cons.mapM (substituteSymbols children dict)

/-- What the solver computes for an expression from values `x` of the variables and `p` of the
parameters.  Symbols that are left over have no value. -/
def eval (x p : Str → Str → V) : Expr V → Option V
  | .const v => some v
  | .sym _ => none
  | .var l n => some (x l n)
  | .par l n => some (p l n)
  | .app f a b => do some (f (← eval x p a) (← eval x p b))

/-! ## Specification -/

namespace Spec

/-- The value of an expression as it was written, when its symbols have the values `ρ`. -/
def value (x p : Str → Str → V) (ρ : Sym → V) : Expr V → V
  | .const v => v
  | .sym s => ρ s
  | .var l n => x l n
  | .par l n => p l n
  | .app f a b => f (value x p ρ a) (value x p ρ b)

/-- `v` is the value of the variable or parameter `y` of the object `c`: the value of the variable
when there is one of that name, and otherwise that of the parameter. -/
def OwnValue (x p : Str → Str → V) (c : Child) (y : Str) (v : V) : Prop :=
  ((Kind.var, y) ∈ c.defs ∧ v = x c.label y) ∨
  ((Kind.var, y) ∉ c.defs ∧ (Kind.par, y) ∈ c.defs ∧ v = p c.label y)

/-- The symbol `s` was made by one of the objects, and `v` is the value of what it stands for: the
object's own variable or parameter, or the variable or parameter of that name of another object. -/
def Means (children : List Child) (x p : Str → Str → V) (s : Sym) (v : V) : Prop :=
  ∃ c ∈ children, ∃ y, s.name = y ++ '_' :: c.label ∧
    (OwnValue x p c y v ∨ ((Kind.sym, y) ∈ c.defs ∧ ∃ d ∈ children, OwnValue x p d y v))

end Spec

/-! ## Lemmas -/

theorem mem_symvar_app (f : V → V → V) (a b : Expr V) (s : Sym) :
    s ∈ symvar (.app f a b) ↔ s ∈ symvar a ∨ s ∈ symvar b := by
  simp only [symvar, List.mem_append, List.mem_filter, Bool.not_eq_true', decide_eq_false_iff_not]
  by_cases h : s ∈ symvar a <;> simp [h]

theorem defines_iff (c : Child) (y : Str) : c.defines y = true ↔ (Kind.var, y) ∈ c.defs ∨ (Kind.par, y) ∈ c.defs := by
  unfold Child.defines
  rw [List.any_eq_true]
  constructor
  · rintro ⟨⟨k, z⟩, hm, h⟩
    simp only [Bool.and_eq_true, Bool.or_eq_true, beq_iff_eq] at h
    obtain ⟨rfl, rfl | rfl⟩ := h
    · exact Or.inl hm
    · exact Or.inr hm
  · rintro (h | h)
    · exact ⟨_, h, by simp⟩
    · exact ⟨_, h, by simp⟩

theorem find_label {children : List Child} (hl : children.Pairwise fun c d => c.label ≠ d.label) {c : Child}
    (hc : c ∈ children) : (children.find? fun d => decide (d.label = c.label)) = some c := by
  induction children with
  | nil => simp at hc
  | cons d ds ih =>
    rw [List.pairwise_cons] at hl
    rcases List.mem_cons.1 hc with rfl | hc
    · simp
    · rw [List.find?_cons_of_neg (by simpa using hl.1 c hc)]
      exact ih hl.2 hc

/-- What a symbol is replaced by. -/
def target (children : List Child) (dict : Dict) (s : Sym) : Option (Expr V) := do
  let (label, name) ← dict s.name
  let c ← children.find? fun c => decide (c.label = label)
  if isVar c name then some (.var label name) else if isPar c name then some (.par label name) else none

theorem replace1_target {children : List Child} {dict : Dict} {s : Sym} {t : Expr V}
    (h : target children dict s = some t) (e : Expr V) :
    replace1 children dict s e = some (subst s t e) := by
  unfold target at h
  unfold replace1
  cases hd : dict s.name with
  | none => simp [hd] at h
  | some ln =>
    obtain ⟨l, n⟩ := ln
    simp only [hd, Option.bind_eq_bind, Option.bind_some] at h ⊢
    cases hf : children.find? fun c => decide (c.label = l) with
    | none => simp [hf] at h
    | some c =>
      simp only [hf, Option.bind_some] at h ⊢
      split_ifs at h ⊢ with h1 h2
      · rw [← Option.some_inj.1 h]
      · rw [← Option.some_inj.1 h]

theorem subst_value (x p : Str → Str → V) (ρ : Sym → V) (s : Sym) (t : Expr V) (e : Expr V) :
    Spec.value x p ρ (subst s t e) = Spec.value x p (fun u => if u = s then Spec.value x p ρ t else ρ u) e := by
  induction e with
  | const v => rfl
  | sym u =>
    by_cases h : u = s
    · simp [subst, Spec.value, h]
    · simp [subst, Spec.value, h]
  | var l n => rfl
  | par l n => rfl
  | app f a b iha ihb => simp only [subst, Spec.value, iha, ihb]

theorem subst_symvar (s : Sym) (t e : Expr V) (ht : symvar t = []) (u : Sym) :
    u ∈ symvar (subst s t e) ↔ u ∈ symvar e ∧ u ≠ s := by
  induction e with
  | const v => simp [subst, symvar]
  | sym w =>
    unfold subst
    split_ifs with h
    · rw [ht]; simp only [List.not_mem_nil, symvar, List.mem_singleton, false_iff, not_and, not_not]
      intro e; rw [e, h]
    · simp only [symvar, List.mem_singleton]
      constructor
      · rintro rfl; exact ⟨rfl, h⟩
      · exact fun h => h.1
  | var l n => simp [subst, symvar]
  | par l n => simp [subst, symvar]
  | app f a b iha ihb =>
    simp only [subst, mem_symvar_app, iha, ihb]
    constructor
    · rintro (h | h)
      · exact ⟨Or.inl h.1, h.2⟩
      · exact ⟨Or.inr h.1, h.2⟩
    · rintro ⟨h | h, h'⟩
      · exact Or.inl ⟨h, h'⟩
      · exact Or.inr ⟨h, h'⟩

theorem target_symvar {children : List Child} {dict : Dict} {s : Sym} {t : Expr V}
    (h : target children dict s = some t) : symvar t = [] := by
  unfold target at h
  cases hd : dict s.name with
  | none => simp [hd] at h
  | some ln =>
    obtain ⟨l, n⟩ := ln
    simp only [hd, Option.bind_eq_bind, Option.bind_some] at h
    cases hf : children.find? fun c => decide (c.label = l) with
    | none => simp [hf] at h
    | some c =>
      simp only [hf, Option.bind_some] at h
      split_ifs at h with h1 h2
      · rw [← Option.some_inj.1 h]; rfl
      · rw [← Option.some_inj.1 h]; rfl

theorem eval_closed (x p : Str → Str → V) (ρ : Sym → V) (e : Expr V) (h : symvar e = []) :
    eval x p e = some (Spec.value x p ρ e) := by
  induction e with
  | const v => rfl
  | sym s => simp [symvar] at h
  | var l n => rfl
  | par l n => rfl
  | app f a b iha ihb =>
    have ha : symvar a = [] := by
      rw [List.eq_nil_iff_forall_not_mem] at h ⊢
      exact fun s hs => h s ((mem_symvar_app f a b s).2 (Or.inl hs))
    have hb : symvar b = [] := by
      rw [List.eq_nil_iff_forall_not_mem] at h ⊢
      exact fun s hs => h s ((mem_symvar_app f a b s).2 (Or.inr hs))
    simp [eval, iha ha, ihb hb, Spec.value]

/-- The loop over a list of symbols. -/
theorem loop_spec (children : List Child) (dict : Dict) (tg : Sym → Expr V) (x p : Str → Str → V) (ρ : Sym → V)
    (l : List Sym) (e : Expr V) (ht : ∀ s ∈ l, target children dict s = some (tg s))
    (hv : ∀ s ∈ l, Spec.value x p ρ (tg s) = ρ s) :
    ∃ e', l.foldlM (fun e s => replace1 children dict s e) e = some e' ∧
      Spec.value x p ρ e' = Spec.value x p ρ e ∧ ∀ u, u ∈ symvar e' ↔ u ∈ symvar e ∧ u ∉ l := by
  induction l generalizing e with
  | nil => exact ⟨e, rfl, rfl, by simp⟩
  | cons s l ih =>
    have hs := ht s List.mem_cons_self
    obtain ⟨e', h1, h2, h3⟩ := ih (subst s (tg s) e) (fun u hu => ht u (List.mem_cons_of_mem _ hu))
      (fun u hu => hv u (List.mem_cons_of_mem _ hu))
    refine ⟨e', ?_, ?_, ?_⟩
    · rw [List.foldlM_cons, replace1_target hs]; exact h1
    · rw [h2, subst_value, hv s List.mem_cons_self]
      congr 1
      funext u
      split_ifs with h
      · rw [h]
      · rfl
    · intro u
      rw [h3, subst_symvar s (tg s) e (target_symvar hs)]
      simp only [List.mem_cons, not_or]
      constructor
      · rintro ⟨⟨a, b⟩, c⟩; exact ⟨a, b, c⟩
      · rintro ⟨a, b, c⟩; exact ⟨⟨a, b⟩, c⟩

theorem target_own {children : List Child} {dict : Dict} (hl : children.Pairwise fun c d => c.label ≠ d.label)
    {c : Child} (hc : c ∈ children) {s : Sym} {y : Str} (hd : dict s.name = some (c.label, y))
    (x p : Str → Str → V) (ρ : Sym → V) {v : V} (h : Spec.OwnValue x p c y v) :
    ∃ t, target children dict s = some t ∧ Spec.value x p ρ t = v := by
  unfold target
  simp only [hd, Option.bind_eq_bind, Option.bind_some, find_label hl hc, isVar, isPar]
  rcases h with ⟨h1, rfl⟩ | ⟨h1, h2, rfl⟩
  · exact ⟨.var c.label y, by simp [h1], rfl⟩
  · exact ⟨.par c.label y, by simp [h1, h2], rfl⟩

theorem own_defines {x p : Str → Str → V} {c : Child} {y : Str} {v : V} (h : Spec.OwnValue x p c y v) :
    c.defines y = true := by
  rw [defines_iff]
  rcases h with h | h
  · exact Or.inl h.1
  · exact Or.inr h.2.1

theorem target_means {children : List Child} {dict : Dict} (h : dictionary children = some dict)
    (hp : ∀ c ∈ children, Spec.plain c.label) (hl : children.Pairwise fun c d => c.label ≠ d.label)
    (x p : Str → Str → V) (ρ : Sym → V) (s : Sym) (v : V) (hm : Spec.Means children x p s v) :
    ∃ t, target children dict s = some t ∧ Spec.value x p ρ t = v := by
  obtain ⟨c, hc, y, hn, hm⟩ := hm
  obtain ⟨k1, k2⟩ := C65_partial children dict h hp hl c hc y
  have hn : s.name = symName y c.label := hn
  rcases hm with hm | ⟨hs, d, hd, hm⟩
  · exact target_own hl hc (by rw [hn]; exact k1 (own_defines hm)) x p ρ hm
  · obtain ⟨d', hd', hdef, e, hu⟩ := k2 hs
    have : d = d' := by
      have el := hu d hd (own_defines hm)
      by_contra hne
      have := find_label hl hd
      rw [el, find_label hl hd'] at this
      exact hne (Option.some_inj.1 this).symm
    rw [this] at hm hd
    exact target_own hl hd (by rw [hn]; exact e) x p ρ hm

/-! ## C146 -/

/-- **C146** (partial) When the labels of the objects differ and have no underscore, every expression
over symbols that the objects have made is taken over into the problem, and what the solver computes
for it is its value as written, every symbol having the value of the variable or parameter that it
stands for.  Missing: labels with an underscore (see `C65_violated`), and symbols made by
`define_substitute`, which stay in the expression. -/
theorem C146_partial (children : List Child) (dict : Dict) (h : dictionary children = some dict)
    (hp : ∀ c ∈ children, Spec.plain c.label) (hl : children.Pairwise fun c d => c.label ≠ d.label)
    (x p : Str → Str → V) (ρ : Sym → V) (e : Expr V)
    (hm : ∀ s ∈ symvar e, Spec.Means children x p s (ρ s)) :
    ∃ e', substituteSymbols children dict e = some e' ∧ eval x p e' = some (Spec.value x p ρ e) := by
  have : Nonempty (Expr V) := ⟨.sym ⟨0, []⟩⟩
  have ht := fun s (hs : s ∈ symvar e) => target_means h hp hl x p ρ s (ρ s) (hm s hs)
  choose! tg h1 h2 using ht
  obtain ⟨e', a, b, c⟩ := loop_spec children dict tg x p ρ (symvar e) e h1 h2
  refine ⟨e', a, ?_⟩
  rw [← b]
  apply eval_closed
  rw [List.eq_nil_iff_forall_not_mem]
  intro u hu
  have := (c u).1 hu
  exact this.2 this.1

/-- **C146** (partial) The objective of the problem is the sum of the objectives of the objects, as
written. -/
theorem C146_objective_partial [AddMonoid V] (children : List Child) (dict : Dict) (h : dictionary children = some dict)
    (hp : ∀ c ∈ children, Spec.plain c.label) (hl : children.Pairwise fun c d => c.label ≠ d.label)
    (x p : Str → Str → V) (ρ : Sym → V) (os : List (Expr V))
    (hm : ∀ o ∈ os, ∀ s ∈ symvar o, Spec.Means children x p s (ρ s)) :
    ∃ e, objective children dict os = some e ∧ eval x p e = some ((os.map (Spec.value x p ρ)).sum) := by
  unfold objective
  suffices hs : ∀ (acc : Expr V) (v : V), eval x p acc = some v →
      ∃ e, os.foldlM (fun acc o => do some (Expr.app (· + ·) acc (← substituteSymbols children dict o))) acc = some e ∧
        eval x p e = some (v + (os.map (Spec.value x p ρ)).sum) by
    obtain ⟨e, a, b⟩ := hs (.const 0) 0 rfl
    exact ⟨e, a, by rw [b, zero_add]⟩
  induction os with
  | nil => intro acc v hv; exact ⟨acc, rfl, by simpa using hv⟩
  | cons o os ih =>
    intro acc v hv
    obtain ⟨o', h1, h2⟩ := C146_partial children dict h hp hl x p ρ o (hm o List.mem_cons_self)
    obtain ⟨e, a, b⟩ := ih (fun u hu => hm u (List.mem_cons_of_mem _ hu)) (.app (· + ·) acc o')
      (v + Spec.value x p ρ o) (by simp [eval, hv, h2])
    refine ⟨e, ?_, ?_⟩
    · rw [List.foldlM_cons, h1]; exact a
    · rw [b, List.map_cons, List.sum_cons, add_assoc]

/-- **C146** (partial) The constraints of the problem are those of the objects, in their order and as
written. -/
theorem C146_constraints_partial (children : List Child) (dict : Dict) (h : dictionary children = some dict)
    (hp : ∀ c ∈ children, Spec.plain c.label) (hl : children.Pairwise fun c d => c.label ≠ d.label)
    (x p : Str → Str → V) (ρ : Sym → V) (cs : List (Expr V))
    (hm : ∀ o ∈ cs, ∀ s ∈ symvar o, Spec.Means children x p s (ρ s)) :
    ∃ es, constraints children dict cs = some es ∧ es.map (eval x p) = cs.map fun e => some (Spec.value x p ρ e) := by
  unfold constraints
  induction cs with
  | nil => exact ⟨[], rfl, rfl⟩
  | cons c cs ih =>
    obtain ⟨c', h1, h2⟩ := C146_partial children dict h hp hl x p ρ c (hm c List.mem_cons_self)
    obtain ⟨es, a, b⟩ := ih (fun u hu => hm u (List.mem_cons_of_mem _ hu))
    refine ⟨c' :: es, ?_, ?_⟩
    · rw [List.mapM_cons, h1, a]; rfl
    · rw [List.map_cons, List.map_cons, b, h2]

/-- **C146** (free motion time, partial) An object that first defines a parameter and later a variable
with the same name (as the problem with free motion time does with `T`) gets the variable in both
cases: expressions made with the parameter depend on the variable, and the value of the parameter is
never used. -/
theorem C146_free_time_partial (children : List Child) (dict : Dict) (h : dictionary children = some dict)
    (hp : ∀ c ∈ children, Spec.plain c.label) (hl : children.Pairwise fun c d => c.label ≠ d.label)
    (c : Child) (hc : c ∈ children) (y : Str) (hv : (Kind.var, y) ∈ c.defs)
    (x p : Str → Str → V) (i : ℕ) :
    ∃ e', substituteSymbols children dict (.sym ⟨i, y ++ '_' :: c.label⟩ : Expr V) = some e' ∧
      eval x p e' = some (x c.label y) := by
  have := C146_partial children dict h hp hl x p (fun _ => x c.label y) (.sym ⟨i, y ++ '_' :: c.label⟩) (by
    intro s hs
    simp only [symvar, List.mem_singleton] at hs
    subst hs
    exact ⟨c, hc, y, rfl, Or.inl (Or.inl ⟨hv, rfl⟩)⟩)
  exact this

/-- A symbol that the objects have not defined stops the construction. -/
theorem C146_unknown (children : List Child) (dict : Dict) (s : Sym) (hs : dict s.name = none) :
    substituteSymbols children dict (.sym s : Expr V) = none := by
  simp [substituteSymbols, symvar, replace1, hs]

/-- The problem with free motion time: the velocity constraint `ds <= T v` was written with the
parameter `T` (symbol 0), the objective with the variable `T` (symbol 1); both are the variable. -/
example : ∃ dict,
    dictionary [⟨['p', '0'], [(.par, ['T']), (.par, ['t']), (.var, ['T']), (.par, ['t'])]⟩,
      ⟨['v', '0'], [(.var, ['s']), (.sym, ['t'])]⟩] = some dict ∧
    ∀ x p : Str → Str → ℚ, ∃ e',
      substituteSymbols [⟨['p', '0'], [(.par, ['T']), (.par, ['t']), (.var, ['T']), (.par, ['t'])]⟩,
        ⟨['v', '0'], [(.var, ['s']), (.sym, ['t'])]⟩] dict
        (.app (· - ·) (.sym ⟨2, ['s', '_', 'v', '0']⟩)
          (.app (· * ·) (.sym ⟨0, ['T', '_', 'p', '0']⟩) (.sym ⟨3, ['t', '_', 'v', '0']⟩))) = some e' ∧
      eval x p e' = some (x ['v', '0'] ['s'] - x ['p', '0'] ['T'] * p ['p', '0'] ['t']) :=
  ⟨_, rfl, fun _ _ => ⟨_, rfl, rfl⟩⟩

/-! ## C147: bounds at the current time -/

/-- The two generations of the language that the package supports (setup.py:39-44). -/
inductive Python
  | two
  | three
deriving DecidableEq

/-- A bound: a number or plus or minus infinity. -/
inductive Bound (K : Type)
  | minus
  | num (v : K)
  | plus
deriving DecidableEq

/-- A constraint in the problem: bounds and the condition for switching it off, if there is one
(optilayer.py:262-270). -/
structure Row (K : Type) where
  lb : Bound K
  ub : Bound K
  shutdown : Option (K → Bool)

/-- What `update_bounds` keeps between calls: `_lb`, `_ub` and `_constraint_shutdown`. -/
structure Bounds (K : Type) where
  rows : List (Row K)

/-- `update_bounds`, optilayer.py:313-319: works on copies, so the kept bounds stay.  In Python 3 the
name bound by `exec` inside a function is not visible in it: `NameError` (`none`) as soon as there is
one condition. -/
def updateBounds {K : Type} (py : Python) (s : Bounds K) (t : K) : Bounds K × Option (List (Bound K × Bound K)) :=
  (s, if py = .three ∧ s.rows.any (fun r => r.shutdown.isSome) then none
    else some (s.rows.map fun r => match r.shutdown with
      | none => (r.lb, r.ub)
      | some f => if f t then (.minus, .plus) else (r.lb, r.ub)))

/-- Calls at the given times, one after the other. -/
def calls {K : Type} (py : Python) (s : Bounds K) (ts : List K) : Bounds K :=
  ts.foldl (fun s t => (updateBounds py s t).1) s

theorem calls_rows {K : Type} (py : Python) (s : Bounds K) (ts : List K) : calls py s ts = s := by
  induction ts with
  | nil => rfl
  | cons t ts ih => exact ih

/-- **C147** (partial: Python 2) After any history of calls, at every time each constraint has its own
bounds, except that it is switched off exactly when its condition holds at that time. -/
theorem C147_partial {K : Type} (rows : List (Row K)) (ts : List K) (t : K) :
    ∃ bs, (updateBounds .two (calls .two ⟨rows⟩ ts) t).2 = some bs ∧ bs.length = rows.length ∧
      ∀ (i : ℕ) (r : Row K) (b : Bound K × Bound K), rows[i]? = some r → bs[i]? = some b →
        ((∃ f, r.shutdown = some f ∧ f t = true) → b = (.minus, .plus)) ∧
        ((∀ f, r.shutdown = some f → f t = false) → b = (r.lb, r.ub)) := by
  rw [calls_rows]
  refine ⟨_, by unfold updateBounds; rw [if_neg (by simp)], by simp, ?_⟩
  intro i r b hr hb
  rw [List.getElem?_map, hr] at hb
  have hb := (Option.some_inj.1 hb).symm
  subst hb
  constructor
  · rintro ⟨f, hf, ht⟩
    simp [hf, ht]
  · intro h
    cases hf : r.shutdown with
    | none => simp [hf]
    | some f => simp [hf, h f hf]

/-- In Python 3 every problem with a condition on one of its constraints fails at its first update. -/
theorem C147_violated {K : Type} (rows : List (Row K)) (r : Row K) (hr : r ∈ rows) (f : K → Bool)
    (hf : r.shutdown = some f) (t : K) : (updateBounds .three ⟨rows⟩ t).2 = none := by
  unfold updateBounds
  have : rows.any (fun r => r.shutdown.isSome) = true := List.any_eq_true.2 ⟨r, hr, by simp [hf]⟩
  simp [this]

/-- **C147** Without conditions the version does not matter. -/
theorem C147_plain {K : Type} (py : Python) (rows : List (Row K)) (h : ∀ r ∈ rows, r.shutdown = none) (t : K) :
    (updateBounds py ⟨rows⟩ t).2 = some (rows.map fun r => (r.lb, r.ub)) := by
  have e : rows.any (fun r => r.shutdown.isSome) = false := by
    rw [List.any_eq_false]; intro r hr; simp [h r hr]
  unfold updateBounds
  simp only [e, Bool.false_eq_true, and_false, if_false]
  congr 1
  apply List.map_congr_left
  intro r hr
  rw [h r hr]

example : (updateBounds .two (calls .two ⟨[⟨.minus, .num (0 : ℚ), some fun t => decide (t > 2)⟩]⟩ [3]) 1).2
    = some [(.minus, .num 0)] := by decide +kernel

example : (updateBounds .two (calls .two ⟨[⟨.minus, .num (0 : ℚ), some fun t => decide (t > 2)⟩]⟩ [1]) 3).2
    = some [(.minus, .plus)] := by decide +kernel

end Verif.OptiLayer.Assemble
