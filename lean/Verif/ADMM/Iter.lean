import Mathlib.Analysis.InnerProductSpace.PiL2
import Mathlib.Algebra.BigOperators.Fin
import Mathlib.Tactic.Linarith
import Mathlib.Tactic.NormNum
import Mathlib.Logic.Function.Iterate

/-! # The loop of a distributed problem (C27, C63) and the residuals that it reports (C62) -/

set_option linter.unusedSectionVars false

namespace Verif.ADMM

/-! ## Model: loop -/

section Loop

variable {S O X : Type}

/-- A distributed problem: `sys` is everything that the updaters, solvers and vehicles hold (any type); `objectives` and `stacked`
are the two histories, dualmethod.py:211-213. -/
structure Dual (S O X : Type) where
  sys : S
  iteration : ℕ
  objectives : List O
  stacked : List X

/-- The methods of `DualProblem` that depend on the problem: the state change of one `dual_update` (solver outcome included),
`compute_objective` and `get_stacked_x_var_it`. -/
structure Methods (S O X : Type) where
  update : S → S
  objective : S → O
  stack : S → X

/-- `dual_update`: admm.py:584-628, dualdecomposition.py:279-310.  `self.iteration += 1` once. -/
def dualUpdate (m : Methods S O X) (d : Dual S O X) : Dual S O X := { d with sys := m.update d.sys, iteration := d.iteration + 1 }

/-- The `while` loop of `DualProblem.solve`, dualmethod.py:221-224. -/
def solveLoop (m : Methods S O X) (it0 : ℕ) (perUpdate : ℤ) (d : Dual S O X) : Dual S O X :=
  if (d.iteration : ℤ) - it0 < perUpdate then
    let d1 := dualUpdate m d
    solveLoop m it0 perUpdate { d1 with objectives := d1.objectives ++ [m.objective d1.sys], stacked := d1.stacked ++ [m.stack d1.sys] }
  else d
termination_by (perUpdate - ((d.iteration : ℤ) - it0)).toNat
decreasing_by simp only [dualUpdate]; omega

/-- `DualProblem.solve`, dualmethod.py:218-224. -/
def solve (m : Methods S O X) (perUpdate : ℤ) (d : Dual S O X) : Dual S O X := solveLoop m d.iteration perUpdate d

/-- `DualProblem.initialize`, dualmethod.py:209-216: `init_iter` calls of `solve` (`range` of a negative number is empty). -/
def start (m : Methods S O X) (initIter perUpdate : ℤ) (d : Dual S O X) : Dual S O X :=
  (solve m perUpdate)^[initIter.toNat] { d with objectives := [], stacked := [m.stack d.sys] }

/-- `DistributedProblem.store`, distributedproblem.py:192-194: `problem.store` for every problem.  `results v` is the list of
results stored so far for vehicle `v`, `result v` the one taken now. -/
def store {R : Type} (N : ℕ) (result : ℕ → R) (results : ℕ → List R) : ℕ → List R :=
  (List.range N).foldl (fun rs v => Function.update rs v (rs v ++ [result v])) results

/-- `DualProblem.stop_criterium`, dualmethod.py:238-243, with `arrived` for `DistributedProblem.stop_criterium`; option `max_iter`
`None` or `0` means that it is not used; `None` returned by the method counts as false. -/
def stop (maxIter : Option ℕ) (arrived : Bool) (d : Dual S O X) : Bool :=
  match maxIter with
  | none => arrived
  | some 0 => arrived
  | some (k + 1) => decide (k + 1 < d.iteration)

end Loop

/-! ## Model: residuals -/

section Residuals

variable {n : Type} [Fintype n]

/-- What `get_residuals` of one updater reads: own variables and their copies (new and previous), the variables of the neighbours
and their copies (new and previous); `n` indexes the entries of the two vectors together. -/
structure ResIn (n : Type) where
  x : n → ℝ
  z : n → ℝ
  zp : n → ℝ

/-- admm.py:298-299: `mtimes((x-z).T, (x-z))`, both vectors. -/
def pr (r : ResIn n) : ℝ := ∑ k, (r.x k - r.z k) * (r.x k - r.z k)

/-- admm.py:300-301. -/
def dr (rho : ℝ) (r : ResIn n) : ℝ := ∑ k, rho * ((r.z k - r.zp k) * (r.z k - r.zp k))

/-- admm.py:302. -/
def cr (rho : ℝ) (r : ResIn n) : ℝ := rho * pr r + dr rho r

/-- The sums over the updaters and the square roots, admm.py:594-606. -/
noncomputable def reported (rho : ℝ) (rs : List (ResIn n)) : ℝ × ℝ × ℝ :=
  let s := rs.foldl (fun (a : ℝ × ℝ × ℝ) r => (a.1 + pr r, a.2.1 + dr rho r, a.2.2 + cr rho r)) (0, 0, 0)
  (√s.1, √s.2.1, s.2.2)

/-- Dual decomposition: `pr = la.norm(x_j-z_ij)**2` (dualdecomposition.py:256), `p_res += pr**2` and the square root (lines 294, 295). -/
noncomputable def reportedDD (rs : List (ResIn n)) : ℝ := √(rs.foldl (fun a r => a + (√(pr r) ^ 2) ^ 2) 0)

end Residuals

/-! ## Specification -/

/-- The results of the first `k` iterations from `s`. -/
def Spec.history {S A : Type} (f : S → S) (g : S → A) (s : S) (k : ℕ) : List A := (List.range k).map fun i => g (f^[i + 1] s)

/-- Squared Euclidean distance over all updaters. -/
def Spec.distSq {n : Type} [Fintype n] (u v : ResIn n → n → ℝ) (rs : List (ResIn n)) : ℝ :=
  (rs.map fun r => ∑ k, (u r k - v r k) ^ 2).sum

/-! ## Lemmas -/

section LoopLemmas

variable {S O X : Type}

theorem history_succ {A : Type} (f : S → S) (g : S → A) (s : S) (k : ℕ) :
    Spec.history f g s (k + 1) = g (f s) :: Spec.history f g (f s) k := by
  unfold Spec.history
  rw [List.range_succ_eq_map, List.map_cons, List.map_map]
  rfl

theorem history_add {A : Type} (f : S → S) (g : S → A) (s : S) (j k : ℕ) :
    Spec.history f g s (j + k) = Spec.history f g s j ++ Spec.history f g (f^[j] s) k := by
  unfold Spec.history
  rw [List.range_add, List.map_append, List.map_map]
  congr 1
  refine List.map_congr_left fun i _ => ?_
  simp only [Function.comp]
  rw [← Function.iterate_add_apply, show j + i + 1 = i + 1 + j by omega]

theorem solveLoop_spec (m : Methods S O X) (it0 : ℕ) (p : ℤ) : ∀ (k : ℕ) (d : Dual S O X), (p - ((d.iteration : ℤ) - it0)).toNat = k →
    solveLoop m it0 p d = ⟨m.update^[k] d.sys, d.iteration + k, d.objectives ++ Spec.history m.update m.objective d.sys k,
      d.stacked ++ Spec.history m.update m.stack d.sys k⟩ := by
  intro k
  induction k with
  | zero =>
    intro d h
    rw [solveLoop, if_neg (by omega)]
    simp [Spec.history]
  | succ k ih =>
    intro d h
    rw [solveLoop, if_pos (by omega)]
    simp only
    rw [ih _ (by simp only [dualUpdate]; omega)]
    simp only [dualUpdate, history_succ, List.append_assoc, List.singleton_append, Function.iterate_succ_apply, Dual.mk.injEq, true_and, and_true]
    omega

theorem solve_iterate (m : Methods S O X) (p : ℤ) (j : ℕ) (d : Dual S O X) :
    (solve m p)^[j] d = ⟨m.update^[j * p.toNat] d.sys, d.iteration + j * p.toNat,
      d.objectives ++ Spec.history m.update m.objective d.sys (j * p.toNat),
      d.stacked ++ Spec.history m.update m.stack d.sys (j * p.toNat)⟩ := by
  induction j with
  | zero => simp [Spec.history]
  | succ j ih =>
    rw [Function.iterate_succ_apply', ih]
    unfold solve
    rw [solveLoop_spec m _ p p.toNat _ (by simp)]
    simp only [List.append_assoc, ← history_add, ← Function.iterate_add_apply, Nat.succ_mul, Dual.mk.injEq, Nat.add_assoc, and_true]
    rw [Nat.add_comm]

end LoopLemmas

theorem store_spec {R : Type} (result : ℕ → R) (l : List ℕ) (hl : l.Nodup) : ∀ (results : ℕ → List R) (v : ℕ),
    l.foldl (fun rs v => Function.update rs v (rs v ++ [result v])) results v = if v ∈ l then results v ++ [result v] else results v := by
  induction l with
  | nil => intro rs v; simp
  | cons w l ih =>
    intro rs v
    obtain ⟨hw, hl⟩ := List.nodup_cons.1 hl
    rw [List.foldl_cons, ih hl]
    by_cases hvw : v = w
    · subst hvw
      rw [if_neg hw, if_pos (by simp), Function.update_self]
    · rw [Function.update_of_ne hvw]
      simp [hvw]

theorem reported_aux {n : Type} [Fintype n] (rho : ℝ) (rs : List (ResIn n)) : ∀ (a : ℝ × ℝ × ℝ),
    rs.foldl (fun (a : ℝ × ℝ × ℝ) r => (a.1 + pr r, a.2.1 + dr rho r, a.2.2 + cr rho r)) a =
      (a.1 + Spec.distSq ResIn.x ResIn.z rs, a.2.1 + rho * Spec.distSq ResIn.z ResIn.zp rs,
        a.2.2 + rho * (Spec.distSq ResIn.x ResIn.z rs + Spec.distSq ResIn.z ResIn.zp rs)) := by
  induction rs with
  | nil => intro a; simp [Spec.distSq]
  | cons r rs ih =>
    intro a
    rw [List.foldl_cons, ih]
    have e1 : pr r = ∑ k, (r.x k - r.z k) ^ 2 := Finset.sum_congr rfl fun k _ => (sq _).symm
    have e2 : dr rho r = rho * ∑ k, (r.z k - r.zp k) ^ 2 := by
      rw [Finset.mul_sum]
      exact Finset.sum_congr rfl fun k _ => by rw [sq]
    simp only [Spec.distSq, List.map_cons, List.sum_cons, cr, e1, e2, Prod.mk.injEq]
    exact ⟨by ring, by ring, by ring⟩

theorem distSq_nonneg {n : Type} [Fintype n] (u v : ResIn n → n → ℝ) (rs : List (ResIn n)) : 0 ≤ Spec.distSq u v rs :=
  List.sum_nonneg (by
    intro x hx
    obtain ⟨r, -, rfl⟩ := List.mem_map.1 hx
    exact Finset.sum_nonneg fun k _ => sq_nonneg _)

theorem distSq_zero {n : Type} [Fintype n] (u v : ResIn n → n → ℝ) (rs : List (ResIn n)) :
    Spec.distSq u v rs = 0 ↔ ∀ r ∈ rs, u r = v r := by
  induction rs with
  | nil => simp [Spec.distSq]
  | cons r rs ih =>
    have h1 : 0 ≤ ∑ k, (u r k - v r k) ^ 2 := Finset.sum_nonneg fun k _ => sq_nonneg _
    have h2 := distSq_nonneg u v rs
    have e : Spec.distSq u v (r :: rs) = ∑ k, (u r k - v r k) ^ 2 + Spec.distSq u v rs := by simp [Spec.distSq]
    have h3 : ∑ k, (u r k - v r k) ^ 2 = 0 ↔ u r = v r := by
      rw [Finset.sum_eq_zero_iff_of_nonneg fun k _ => sq_nonneg _]
      constructor
      · intro h
        funext k
        have := h k (Finset.mem_univ k)
        nlinarith [pow_eq_zero_iff (two_ne_zero) |>.1 this]
      · intro h k _
        rw [h]; ring
    rw [e, List.forall_mem_cons, ← ih, ← h3]
    constructor
    · intro h; exact ⟨by linarith, by linarith⟩
    · rintro ⟨a, b⟩; rw [a, b, add_zero]

/-! ## Properties -/

section LoopProps

variable {S O X : Type}

/-- **C27** One solve performs exactly the configured number of iterations (none if it is negative), whatever the solver does, and
keeps the objective and the variables after each of them. -/
theorem C27_solve (m : Methods S O X) (p : ℤ) (d : Dual S O X) :
    (solve m p d).iteration = d.iteration + p.toNat ∧ (solve m p d).sys = m.update^[p.toNat] d.sys ∧
    (solve m p d).objectives = d.objectives ++ Spec.history m.update m.objective d.sys p.toNat ∧
    (solve m p d).stacked = d.stacked ++ Spec.history m.update m.stack d.sys p.toNat := by
  have := solve_iterate m p 1 d
  rw [Function.iterate_one, one_mul] at this
  rw [this]
  exact ⟨rfl, rfl, rfl, rfl⟩

/-- **C27** A store adds exactly one result for every vehicle of the fleet, and for no other. -/
theorem C27_store {R : Type} (N : ℕ) (result : ℕ → R) (results : ℕ → List R) (v : ℕ) :
    store N result results v = if v < N then results v ++ [result v] else results v := by
  rw [store, store_spec result _ List.nodup_range]
  simp

/-- **C27** (partial) With one iteration per update, the initialisation performs exactly the configured number of iterations; in
general it performs that number times the iterations per update.
Missing: exactly `initIter` iterations for every `perUpdate`, see `C27_init_violated`. -/
theorem C27_init_partial (m : Methods S O X) (initIter p : ℤ) (d : Dual S O X) :
    (start m initIter p d).iteration = d.iteration + initIter.toNat * p.toNat ∧
    (p = 1 → (start m initIter p d).iteration = d.iteration + initIter.toNat ∧
      (start m initIter p d).sys = m.update^[initIter.toNat] d.sys) ∧
    (start m initIter p d).objectives = Spec.history m.update m.objective d.sys (initIter.toNat * p.toNat) ∧
    (start m initIter p d).stacked = m.stack d.sys :: Spec.history m.update m.stack d.sys (initIter.toNat * p.toNat) := by
  unfold start
  rw [solve_iterate]
  refine ⟨rfl, ?_, ?_, ?_⟩
  · rintro rfl; simp
  · simp
  · simp

/-- With two iterations per update the default five initial iterations become ten. -/
theorem C27_init_violated : ∃ (m : Methods ℕ ℕ ℕ) (d : Dual ℕ ℕ ℕ), d.iteration = 0 ∧ (start m 5 2 d).iteration = 10 :=
  ⟨⟨id, id, id⟩, ⟨0, 0, [], []⟩, rfl, by rw [(C27_init_partial _ _ _ _).1]; rfl⟩

/-- Three iterations of a system that halves its state. -/
example : (solve ⟨fun x : ℚ => x / 2, fun x => x, fun x => x⟩ 3 ⟨8, 4, [], [8]⟩).objectives = [4, 2, 1] ∧
    (solve ⟨fun x : ℚ => x / 2, fun x => x, fun x => x⟩ 3 ⟨8, 4, [], [8]⟩).iteration = 7 := by
  obtain ⟨h1, -, h3, -⟩ := C27_solve ⟨fun x : ℚ => x / 2, fun x => x, fun x => x⟩ 3 ⟨8, 4, [], [8]⟩
  refine ⟨?_, h1⟩
  rw [h3]
  show _ ++ Spec.history _ _ _ 3 = _
  norm_num [Spec.history, List.range_succ]

/-- **C63** With a limit on the iterations, the simulation of a distributed problem ends: at the first update after which the limit
is exceeded, independent of what the solvers do, and with less than one update of iterations too many. -/
theorem C63_limit (m : Methods S O X) (maxIter p : ℕ) (hm : 0 < maxIter) (hp : 0 < p) (d : Dual S O X) (hd : d.iteration ≤ maxIter)
    (arrived : Bool) :
    ∃ k, 0 < k ∧ stop (some maxIter) arrived ((solve m p)^[k] d) = true ∧
      (∀ j < k, stop (some maxIter) arrived ((solve m p)^[j] d) = false) ∧
      maxIter < ((solve m p)^[k] d).iteration ∧ ((solve m p)^[k] d).iteration ≤ maxIter + p := by
  obtain ⟨M, rfl⟩ : ∃ M, maxIter = M + 1 := ⟨maxIter - 1, by omega⟩
  have e : ∀ j, ((solve m p)^[j] d).iteration = d.iteration + j * p := by
    intro j
    rw [solve_iterate]
    simp
  set q := (M + 1 - d.iteration) / p with hq
  have h1 : q * p ≤ M + 1 - d.iteration := Nat.div_mul_le_self _ _
  have h2 : M + 1 - d.iteration < q * p + p := by
    have := Nat.lt_div_mul_add hp (a := M + 1 - d.iteration)
    omega
  refine ⟨q + 1, Nat.succ_pos _, ?_, ?_, ?_, ?_⟩
  · simp only [stop, e, Nat.succ_mul, decide_eq_true_eq]; omega
  · intro j hj
    have : j * p ≤ q * p := Nat.mul_le_mul_right _ (by omega)
    simp only [stop, e, decide_eq_false_iff_not]; omega
  · rw [e, Nat.succ_mul]; omega
  · rw [e, Nat.succ_mul]; omega

/-- **C63** (partial) Without a limit the simulation ends exactly when the vehicles have arrived.
Missing: arrival also ends a simulation with a limit, see `C63_arrival_violated`. -/
theorem C63_arrival_partial (maxIter : Option ℕ) (h : maxIter = none ∨ maxIter = some 0) (arrived : Bool) (d : Dual S O X) :
    stop maxIter arrived d = true ↔ arrived = true := by
  rcases h with rfl | rfl <;> rfl

/-- With a limit of 100 the simulation goes on for 100 iterations although the vehicles have arrived. -/
theorem C63_arrival_violated (sys : S) : stop (O := O) (X := X) (some 100) true ⟨sys, 100, [], []⟩ = false := rfl

/-- Limit 20, five initial iterations, three per update: the sixth update is the last. -/
example : stop (some 20) false ((solve ⟨id, id, id⟩ 3)^[6] (⟨0, 5, [], []⟩ : Dual ℕ ℕ ℕ)) = true ∧
    stop (some 20) false ((solve ⟨id, id, id⟩ 3)^[5] (⟨0, 5, [], []⟩ : Dual ℕ ℕ ℕ)) = false := by
  rw [solve_iterate, solve_iterate]
  decide

end LoopProps

/-- **C62** The primal residual reported by ADMM is the Euclidean distance between the variables and their copies over the whole
fleet; the dual residual is `√rho` times the distance between the last two copies; the combined one is `rho` times the sum of the
squared distances. -/
theorem C62_admm {n : Type} [Fintype n] (rho : ℝ) (hr : 0 ≤ rho) (rs : List (ResIn n)) :
    (reported rho rs).1 = √(Spec.distSq ResIn.x ResIn.z rs) ∧
    (reported rho rs).2.1 = √rho * √(Spec.distSq ResIn.z ResIn.zp rs) ∧
    (reported rho rs).2.2 = rho * (Spec.distSq ResIn.x ResIn.z rs + Spec.distSq ResIn.z ResIn.zp rs) := by
  unfold reported
  simp only [reported_aux, zero_add]
  exact ⟨trivial, Real.sqrt_mul hr _, trivial⟩

/-- **C62** The combined residual vanishes exactly when all copies agree with the variables and none has changed. -/
theorem C62_zero {n : Type} [Fintype n] (rho : ℝ) (hr : 0 < rho) (rs : List (ResIn n)) :
    (reported rho rs).2.2 = 0 ↔ ∀ r ∈ rs, r.x = r.z ∧ r.z = r.zp := by
  rw [(C62_admm rho hr.le rs).2.2, mul_eq_zero]
  have h1 := distSq_nonneg ResIn.x ResIn.z rs
  have h2 := distSq_nonneg ResIn.z ResIn.zp rs
  constructor
  · rintro (h | h)
    · exact absurd h hr.ne'
    · intro r hr
      exact ⟨(distSq_zero ResIn.x ResIn.z rs).1 (by linarith) r hr, (distSq_zero ResIn.z ResIn.zp rs).1 (by linarith) r hr⟩
  · intro h
    rw [(distSq_zero _ _ rs).2 fun r hr => (h r hr).1, (distSq_zero _ _ rs).2 fun r hr => (h r hr).2]
    simp

/-- **C62** (partial) The residual reported by dual decomposition vanishes exactly when the variables of the neighbours agree with
their copies; but it is the root of the sum of the fourth powers of the distances.
Missing: the distance itself, see `C62_dd_violated`. -/
theorem C62_dd_partial {n : Type} [Fintype n] (rs : List (ResIn n)) :
    reportedDD rs = √((rs.map fun r => (∑ k, (r.x k - r.z k) ^ 2) ^ 2).sum) ∧
    (reportedDD rs = 0 ↔ ∀ r ∈ rs, r.x = r.z) := by
  have hp : ∀ r : ResIn n, pr r = ∑ k, (r.x k - r.z k) ^ 2 := fun r => Finset.sum_congr rfl fun k _ => (sq _).symm
  have key : ∀ (rs : List (ResIn n)) (a : ℝ), rs.foldl (fun a r => a + (√(pr r) ^ 2) ^ 2) a =
      a + (rs.map fun r => (∑ k, (r.x k - r.z k) ^ 2) ^ 2).sum := by
    intro rs
    induction rs with
    | nil => intro a; simp
    | cons r rs ih =>
      intro a
      have h0 : 0 ≤ pr r := by rw [hp]; exact Finset.sum_nonneg fun k _ => sq_nonneg _
      rw [List.foldl_cons, ih, List.map_cons, List.sum_cons, ← hp, Real.sq_sqrt h0]
      ring
  have e : reportedDD rs = √((rs.map fun r => (∑ k, (r.x k - r.z k) ^ 2) ^ 2).sum) := by
    unfold reportedDD
    rw [key, zero_add]
  refine ⟨e, ?_⟩
  rw [e]
  have hn : ∀ rs : List (ResIn n), 0 ≤ (rs.map fun r => (∑ k, (r.x k - r.z k) ^ 2) ^ 2).sum := fun rs =>
    List.sum_nonneg (by
      intro x hx
      obtain ⟨r, -, rfl⟩ := List.mem_map.1 hx
      exact sq_nonneg _)
  rw [Real.sqrt_eq_zero (hn rs)]
  clear e key
  induction rs with
  | nil => simp
  | cons r rs ih =>
    have e1 := hn rs
    have e2 : 0 ≤ (∑ k, (r.x k - r.z k) ^ 2) ^ 2 := sq_nonneg _
    have e3 : (∑ k, (r.x k - r.z k) ^ 2) ^ 2 = 0 ↔ r.x = r.z := by
      rw [pow_eq_zero_iff two_ne_zero]
      have := distSq_zero ResIn.x ResIn.z [r]
      simpa [Spec.distSq] using this
    rw [List.map_cons, List.sum_cons, List.forall_mem_cons, ← e3]
    constructor
    · intro h; exact ⟨by linarith, ih.1 (by linarith)⟩
    · rintro ⟨a, b⟩; rw [a, ih.2 b, add_zero]

/-- One updater at distance two from its copy: dual decomposition reports four. -/
theorem C62_dd_violated : ∃ r : ResIn (Fin 1), √(Spec.distSq ResIn.x ResIn.z [r]) = 2 ∧ reportedDD [r] = 4 := by
  refine ⟨⟨fun _ => 2, fun _ => 0, fun _ => 0⟩, ?_, ?_⟩
  · simp only [Spec.distSq, List.map_cons, List.map_nil, List.sum_cons, List.sum_nil, Finset.univ_unique, Finset.sum_singleton]
    rw [Real.sqrt_eq_iff_mul_self_eq (by norm_num) (by norm_num)]; norm_num
  · rw [(C62_dd_partial _).1]
    simp only [List.map_cons, List.map_nil, List.sum_cons, List.sum_nil, Finset.univ_unique, Finset.sum_singleton]
    rw [Real.sqrt_eq_iff_mul_self_eq (by norm_num) (by norm_num)]; norm_num

/-- Two updaters: distances 3 and 4 make a primal residual of 5; the copies have changed by 1 and 0. -/
example : reported 2 [(⟨fun _ => 3, fun _ => 0, fun _ => 1⟩ : ResIn (Fin 1)), ⟨fun _ => 6, fun _ => 2, fun _ => 2⟩] = (5, √2, 52) := by
  obtain ⟨h1, h2, h3⟩ := C62_admm 2 (by norm_num) [(⟨fun _ => 3, fun _ => 0, fun _ => 1⟩ : ResIn (Fin 1)), ⟨fun _ => 6, fun _ => 2, fun _ => 2⟩]
  refine Prod.ext ?_ (Prod.ext ?_ ?_)
  · rw [h1]
    simp only [Spec.distSq, List.map_cons, List.map_nil, List.sum_cons, List.sum_nil, Finset.univ_unique, Finset.sum_singleton]
    rw [Real.sqrt_eq_iff_mul_self_eq (by norm_num) (by norm_num)]; norm_num
  · rw [h2]
    simp [Spec.distSq]
  · rw [h3]
    norm_num [Spec.distSq]

end Verif.ADMM
