import Verif.Timing.KnotClock
import Verif.Spline.Solvable
import Verif.Spline.ShiftVeh

/-! # C177: options that are set are in force

`problem.set_options({...})` may be called any number of times between the construction of a problem and `init`. -/

set_option linter.unusedSectionVars false

namespace Verif.Problems.Options
open Verif.Timing Verif.Spline Verif.Vehicles

variable {S V : Type} [DecidableEq S]

/-! ## Model -/

/-- A dictionary. -/
abbrev Dict (S V : Type) := S → Option V

/-- `d.update(items)`. -/
def Dict.update (d : Dict S V) (items : List (S × V)) : Dict S V :=
  items.foldl (fun d it => fun k => if k = it.1 then some it.2 else d k) d

/-- `self.options`: the options of each solver and those of the code generator are dictionaries themselves, problem.py:54-62. -/
structure Opts (S V : Type) where
  solver : Dict S (Dict S V)
  codegen : Dict S V
  rest : Dict S V

/-- The argument of `set_options`; `solver` and `codegen` are `none` when they are not mentioned. -/
structure Given (S V : Type) where
  solver : Option (List (S × List (S × V)))
  codegen : Option (List (S × V))
  rest : List (S × V)

/-- `self.options['solver_options'][key]`, made first when it is missing, and updated; problem.py:66-69. -/
def updateSolver (d : Dict S (Dict S V)) (it : S × List (S × V)) : Dict S (Dict S V) :=
  fun k => if k = it.1 then some (Dict.update ((d it.1).getD fun _ => none) it.2) else d k

/-- `Problem.set_options`, problem.py:64-74. -/
def setOptions (o : Opts S V) (g : Given S V) : Opts S V :=
  { solver := match g.solver with
      | some items => items.foldl updateSolver o.solver
      | none => o.solver
    codegen := match g.codegen with
      | some items => o.codegen.update items
      | none => o.codegen
    rest := o.rest.update g.rest }

/-- `DistributedProblem.set_options`, distributedproblem.py:47-50: the problem itself and those of all vehicles. -/
def setDistributed (o : Opts S V × List (Opts S V)) (g : Given S V) : Opts S V × List (Opts S V) :=
  (setOptions o.1 g, o.2.map fun p => setOptions p g)

/-- A problem with fixed horizon: its options and `knot_time`. -/
structure Fixed (S V K : Type) where
  options : Opts S V
  knotTime : K

/-- `FixedTPoint2point.__init__`, point2point.py:128-135, and problem.py:35-36: the defaults, then the options given to the constructor, then the
length of a knot interval.  `horizon` is the name of the option and `num` the number its value stands for; `n` is the number of knot intervals. -/
noncomputable def Fixed.new (default : Opts S V) (horizon : S) (num : V → ℝ) (n : ℕ) (g : Given S V) : Fixed S V ℝ :=
  let o := setOptions default g
  ⟨o, Verif.Timing.knotTime ((o.rest horizon).elim 0 num) n⟩

/-- `set_options` is inherited: the length of the knot interval is not computed again. -/
def Fixed.set {K : Type} (q : Fixed S V K) (g : Given S V) : Fixed S V K := { q with options := setOptions q.options g }

/-! ## Specification -/

/-- The last value given for `k`. -/
def lastGiven (k : S) : List (S × V) → Option V
  | [] => none
  | it :: rest => (lastGiven k rest).or (if it.1 = k then some it.2 else none)

/-- All that was given for the solver `s`, call after call. -/
def solverItems (s : S) (gs : List (Given S V)) : List (S × V) :=
  gs.flatMap fun g => (g.solver.getD []).flatMap fun it => if it.1 = s then it.2 else []

/-! ## Helpers -/

theorem update_eq (d : Dict S V) (items : List (S × V)) (k : S) : Dict.update d items k = (lastGiven k items).or (d k) := by
  induction items generalizing d with
  | nil => rfl
  | cons it rest ih =>
    have h : Dict.update d (it :: rest) = Dict.update (fun k => if k = it.1 then some it.2 else d k) rest := rfl
    rw [h, ih]
    rw [lastGiven]
    by_cases e : k = it.1
    · cases hl : lastGiven k rest <;> simp [e]
    · have e' : ¬ it.1 = k := fun h => e h.symm
      cases hl : lastGiven k rest <;> simp [e, e']

theorem lastGiven_append (k : S) (a b : List (S × V)) : lastGiven k (a ++ b) = (lastGiven k b).or (lastGiven k a) := by
  induction a with
  | nil => simp [lastGiven]
  | cons it a ih => rw [List.cons_append, lastGiven, ih, lastGiven, Option.or_assoc]

/-- The value of an option of a solver. -/
def solverOption (d : Dict S (Dict S V)) (s k : S) : Option V := (d s).bind fun e => e k

theorem foldl_updateSolver (items : List (S × List (S × V))) (d : Dict S (Dict S V)) (s k : S) :
    solverOption (items.foldl updateSolver d) s k
      = (lastGiven k (items.flatMap fun it => if it.1 = s then it.2 else [])).or (solverOption d s k) := by
  induction items generalizing d with
  | nil => rfl
  | cons it rest ih =>
    rw [List.foldl_cons, ih, List.flatMap_cons, lastGiven_append, Option.or_assoc]
    congr 1
    unfold solverOption updateSolver
    by_cases e : s = it.1
    · subst e
      cases hd : d it.1 <;> simp [update_eq]
    · have e' : ¬ it.1 = s := fun h => e h.symm
      simp [e, e', lastGiven]

theorem set_solver (o : Opts S V) (g : Given S V) (s k : S) :
    solverOption (setOptions o g).solver s k = (lastGiven k (solverItems s [g])).or (solverOption o.solver s k) := by
  unfold setOptions solverItems
  cases h : g.solver with
  | none => simp [h, lastGiven]
  | some items => simp [h, foldl_updateSolver]

theorem set_codegen (o : Opts S V) (g : Given S V) (k : S) :
    (setOptions o g).codegen k = (lastGiven k (g.codegen.getD [])).or (o.codegen k) := by
  unfold setOptions
  cases h : g.codegen with
  | none => simp [lastGiven]
  | some items => simp [update_eq]

/-! ## Theorems -/

/-- **C177** After any number of calls every option has the value that was given last, and the value it had before when none was given: for the
options of the solvers, for those of the code generator and for all others.  In particular giving one option of a solver keeps its other options. -/
theorem C177_in_force (o : Opts S V) (gs : List (Given S V)) :
    (∀ s k, solverOption (gs.foldl setOptions o).solver s k = (lastGiven k (solverItems s gs)).or (solverOption o.solver s k)) ∧
    (∀ k, (gs.foldl setOptions o).codegen k = (lastGiven k (gs.flatMap fun g => g.codegen.getD [])).or (o.codegen k)) ∧
    (∀ k, (gs.foldl setOptions o).rest k = (lastGiven k (gs.flatMap fun g => g.rest)).or (o.rest k)) := by
  induction gs generalizing o with
  | nil => exact ⟨fun _ _ => rfl, fun _ => rfl, fun _ => rfl⟩
  | cons g gs ih =>
    obtain ⟨h1, h2, h3⟩ := ih (setOptions o g)
    refine ⟨fun s k => ?_, fun k => ?_, fun k => ?_⟩
    · have : solverItems s (g :: gs) = solverItems s [g] ++ solverItems s gs := by simp [solverItems]
      rw [List.foldl_cons, h1, this, lastGiven_append, Option.or_assoc, set_solver]
    · rw [List.foldl_cons, h2, List.flatMap_cons, lastGiven_append, Option.or_assoc, set_codegen]
    · rw [List.foldl_cons, h3, List.flatMap_cons, lastGiven_append, Option.or_assoc]
      congr 1
      exact update_eq _ _ _

/-- **C177** Options of a problem of a fleet are options of the problems of its vehicles. -/
theorem C177_fleet (o : Opts S V × List (Opts S V)) (gs : List (Given S V)) :
    (gs.foldl setDistributed o).1 = gs.foldl setOptions o.1 ∧ (gs.foldl setDistributed o).2 = o.2.map fun p => gs.foldl setOptions p := by
  induction gs generalizing o with
  | nil => simp
  | cons g gs ih =>
    obtain ⟨h1, h2⟩ := ih (setDistributed o g)
    rw [List.foldl_cons, h1, h2]
    refine ⟨rfl, ?_⟩
    simp [setDistributed]

/-- **C177** (partial) When the horizon is given to the constructor or left at its default, the knot intervals by which plans are shifted make up the
horizon.  Missing: a horizon that is set later (`C177_horizon_violated`). -/
theorem C177_horizon_partial (default : Opts S V) (horizon : S) (num : V → ℝ) (n : ℕ) (hn : 0 < n) (g : Given S V) (gs : List (Given S V))
    (hgs : ∀ g' ∈ gs, ∀ it ∈ g'.rest, it.1 ≠ horizon) (v : V) (ms : ℕ) (hv : num v = (ms : ℝ) / 1000)
    (hin : (gs.foldl Fixed.set (Fixed.new default horizon num n g)).options.rest horizon = some v) :
    n * (gs.foldl Fixed.set (Fixed.new default horizon num n g)).knotTime = num v := by
  have hkt : ∀ (q : Fixed S V ℝ), (gs.foldl Fixed.set q).knotTime = q.knotTime ∧ (gs.foldl Fixed.set q).options = gs.foldl setOptions q.options := by
    clear hin hgs
    induction gs with
    | nil => exact fun q => ⟨rfl, rfl⟩
    | cons g' gs ih => exact fun q => ih (q.set g')
  rw [(hkt _).1]
  rw [(hkt _).2, (C177_in_force _ gs).2.2] at hin
  have hnone : lastGiven horizon (gs.flatMap fun g => g.rest) = none := by
    have : ∀ l : List (S × V), (∀ it ∈ l, it.1 ≠ horizon) → lastGiven horizon l = none := by
      intro l
      induction l with
      | nil => intro _; rfl
      | cons it l ih =>
        intro hl
        rw [lastGiven, ih fun x hx => hl x (List.mem_cons_of_mem _ hx), if_neg (hl it List.mem_cons_self)]
        rfl
    refine this _ fun it hit => ?_
    obtain ⟨g', hg', hit⟩ := List.mem_flatMap.1 hit
    exact hgs g' hg' it hit
  rw [hnone, Option.none_or] at hin
  have hin' : (setOptions default g).rest horizon = some v := hin
  show n * Verif.Timing.knotTime (((setOptions default g).rest horizon).elim 0 num) n = num v
  rw [hin', Option.elim_some, hv]
  exact C33_horizon ms n hn

/-- A horizon that is set after the construction of the problem, as in examples/p2p_holonomic_3d.py:39, leaves the knot intervals as they were:
they do not make up the horizon that is in force. -/
theorem C177_horizon_violated (default : Opts S V) (horizon : S) (num : V → ℝ) (n : ℕ) (hn : 0 < n) (g : Given S V) (v w : V) (ms ms' : ℕ)
    (hv : num v = (ms : ℝ) / 1000) (hw : num w = (ms' : ℝ) / 1000) (hne : ms ≠ ms')
    (hin : (Fixed.new default horizon num n g).options.rest horizon = some v) (q : Fixed S V ℝ)
    (hq : q = (Fixed.new default horizon num n g).set ⟨none, none, [(horizon, w)]⟩) :
    q.options.rest horizon = some w ∧ n * q.knotTime = num v ∧ n * q.knotTime ≠ num w := by
  have h1 := C177_horizon_partial default horizon num n hn g [] (by simp) v ms hv hin
  have h2 : n * q.knotTime = num v := by rw [hq]; exact h1
  refine ⟨?_, h2, ?_⟩
  · rw [hq]
    show Dict.update _ [(horizon, w)] horizon = some w
    rw [update_eq]
    simp [lastGiven]
  · rw [h2, hv, hw]
    intro h
    apply hne
    have : (ms : ℝ) = ms' := by linarith
    exact_mod_cast this

/-- With such a problem the initial guess of an update in which the first knot is passed is not the rest of the plan: it starts where the plan is at
another instant.  `c` are the coefficients of the plan and `c'` those of the guess; the horizon in force is `num w`, and the vehicle, which has
driven for one knot interval, is at `q.knotTime / num w` of the plan.  The plan has to differ at the two instants by more than rounding. -/
theorem C177_guess_violated (default : Opts S V) (horizon : S) (num : V → ℝ) (d n : ℕ) (hd : 1 ≤ d) (hn : 2 ≤ n) (hnd : d ≤ n) (g : Given S V) (v w : V)
    (ms ms' : ℕ) (hv : num v = (ms : ℝ) / 1000) (hw : num w = (ms' : ℝ) / 1000)
    (hin : (Fixed.new default horizon num n g).options.rest horizon = some v) (q : Fixed S V ℝ)
    (hq : q = (Fixed.new default horizon num n g).set ⟨none, none, [(horizon, w)]⟩) (c : List ℝ) (hc : c.length = n + d)
    (hgap : 1 / 10 ^ 10 * (c.map fun x => |x|).sum
      < |(BSpline.mk (vehBasis d n) c).eval (1 / n) - (BSpline.mk (vehBasis d n) c).eval (ms / ms' / n)|) :
    ∃ c', shiftOver ⟨vehBasis d n, c⟩ = some c' ∧ (BSpline.mk (vehBasis d n) c').eval 0 ≠ (BSpline.mk (vehBasis d n) c).eval (q.knotTime / num w) := by
  have hn0 : (0 : ℝ) < n := by positivity
  have hk : n * q.knotTime = num v := by
    rw [hq]; exact C177_horizon_partial default horizon num n (by omega) g [] (by simp) v ms hv hin
  have hk' : q.knotTime / num w = ms / ms' / n := by
    have : q.knotTime = num v / n := by field_simp; linarith
    rw [this, hv, hw]
    rcases eq_or_ne (ms' : ℝ) 0 with h | h
    · simp [h]
    · field_simp
  rw [hk']
  obtain ⟨c', h1, -, h2, -⟩ := C120_vehicle_close d n hd hn hnd c hc
  refine ⟨c', h1, fun h => ?_⟩
  have hn1 : (1 : ℝ) / n ≤ 1 := by
    rw [div_le_one (by positivity)]
    exact_mod_cast (by omega : 1 ≤ n)
  have := h2 0 le_rfl (by linarith)
  rw [zero_add, h, abs_sub_comm] at this
  linarith

/-! ## Non-vacuity -/

/-- Values of options are names or numbers, in milliseconds. -/
def demo : Opts String (String ⊕ ℕ) :=
  { solver := fun s => if s = "ipopt" then some (Dict.update (fun _ => none) [("ipopt.tol", .inl "1e-3"), ("print_time", .inr 0)]) else none
    codegen := Dict.update (fun _ => none) [("build", .inl "None"), ("flags", .inl "-O0")]
    rest := Dict.update (fun _ => none) [("verbose", .inr 2), ("horizon_time", .inr 10000)] }

/-- One tolerance is changed, the other option of the solver and the default flags stay. -/
example : let o := List.foldl setOptions demo [⟨some [("ipopt", [("ipopt.tol", .inl "1e-5")])], none, []⟩,
      ⟨none, some [("build", .inl "jit")], [("verbose", .inr 1)]⟩]
    solverOption o.solver "ipopt" "ipopt.tol" = some (.inl "1e-5") ∧ solverOption o.solver "ipopt" "print_time" = some (.inr 0) ∧
    o.codegen "flags" = some (.inl "-O0") ∧ o.rest "verbose" = some (.inr 1) ∧ o.rest "horizon_time" = some (.inr 10000) := by
  decide +kernel

/-- The number of seconds. -/
noncomputable def secs : String ⊕ ℕ → ℝ
  | .inl _ => 0
  | .inr ms => ms / 1000

/-- The horizon is set from 10 to 12 seconds with two knot intervals, the plan goes through `0`, `1/2` and `3`: the hypotheses of the theorems hold. -/
example : (Fixed.new demo "horizon_time" secs 2 ⟨none, none, []⟩).options.rest "horizon_time" = some (.inr 10000) ∧
    secs (.inr 10000) = ((10000 : ℕ) : ℝ) / 1000 ∧ secs (.inr 12000) = ((12000 : ℕ) : ℝ) / 1000 ∧
    1 / 10 ^ 10 * (([0, 1/2, 3] : List ℝ).map fun x => |x|).sum
      < |(BSpline.mk (vehBasis 1 2) [0, 1/2, 3]).eval (1 / (2 : ℕ)) - (BSpline.mk (vehBasis 1 2) [0, 1/2, 3]).eval ((10000 : ℕ) / (12000 : ℕ) / (2 : ℕ))| := by
  refine ⟨by decide +kernel, rfl, rfl, ?_⟩
  have hl := vehBasis_len 1 2
  have hd : (vehBasis 1 2).degree = 1 := rfl
  have h1 : (BSpline.mk (vehBasis 1 2) [0, 1/2, 3]).eval (1 / (2 : ℕ)) = 1 / 2 := by
    norm_num [BSpline.eval, Basis.eval, hl, hd, Basis.fn, cox, ind, ex_k.1, List.range_succ]
  have h2 : (BSpline.mk (vehBasis 1 2) [0, 1/2, 3]).eval ((10000 : ℕ) / (12000 : ℕ) / (2 : ℕ)) = 5 / 12 := by
    norm_num [BSpline.eval, Basis.eval, hl, hd, Basis.fn, cox, ind, ex_k.1, List.range_succ]
  rw [h1, h2]
  norm_num [abs_of_pos]

end Verif.Problems.Options
