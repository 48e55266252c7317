import Mathlib.Data.Matrix.Mul
import Mathlib.Algebra.BigOperators.Ring.Finset
import Mathlib.Algebra.Order.BigOperators.Ring.Finset
import Mathlib.Algebra.Order.Archimedean.Real.Basic
import Mathlib.Data.Real.Basic
import Mathlib.Tactic.Linarith
import Mathlib.Tactic.Ring
import Mathlib.Tactic.FieldSimp
import Mathlib.Tactic.Positivity
import Mathlib.Tactic.NormNum
import Mathlib.Tactic.FinCases
import Mathlib.Tactic.Abel
import Mathlib.Data.Fin.VecNotation
import Mathlib.Algebra.Order.Archimedean.Basic
import Mathlib.Algebra.BigOperators.Fin

/-! # Dual decomposition: what its iterations guarantee (C137)

`dualdecomposition.py`: every vehicle minimises its own objective plus a price for its shared variables and minus the price of
its copies of the neighbours' variables, under its own constraints and the coupling constraints on own variables and copies;
then the prices are moved along the disagreement. -/

set_option linter.unusedSectionVars false

namespace Verif.DualDec

open Matrix

variable {V n E : Type} [Fintype V] [DecidableEq V] [Fintype n]
variable (nb : V → V → Prop) [∀ i j, Decidable (nb i j)]

/-! ## Model -/

/-- What the fleet solves: objective `f i` and constraints `C i` of vehicle `i` on its own variables, the shared ones among them
(`S i`, the entries `q_i` of distributedproblem.py:134-143), and the coupling constraints `G i` known to updater `i`
(`global_constraints`), on its own shared variables and those of its neighbours. All of it arbitrary. -/
structure Problem (V n E : Type) (nb : V → V → Prop) where
  f : V → E → ℝ
  C : V → Set E
  S : V → E → n → ℝ
  G : (i : V) → (n → ℝ) → ({j // nb i j} → n → ℝ) → Prop

variable {nb}

/-- `var_dd` of all updaters, dualdecomposition.py:44-51: `x i` the shared variables of `i`; `xr i j` those of `j` as received by
`i` (`x_j`); `z i j`, `l i j` copy and multiplier held by `i` for the variables of `j` (`z_ij`, `l_ij`); `lr i j` the multiplier
that `j` holds for `i`, as received by `i` (`l_ji`). (The previous values `l_ij_p`, `z_ij_p` are not read anywhere.) -/
structure State (V n : Type) where
  x : V → n → ℝ
  xr : V → V → n → ℝ
  z : V → V → n → ℝ
  l : V → V → n → ℝ
  lr : V → V → n → ℝ

/-- The objective of update xz, dualdecomposition.py:93-107 and 57: the own objective, plus `l_ji · x_i` for every neighbour,
minus `l_ij · z_ij`. At `t = 0` in the knot interval, so that no spline is shifted (see C138 for the shift). -/
noncomputable def xzObjective (P : Problem V n E nb) (s : State V n) (i : V) (y : E) (z : V → n → ℝ) : ℝ :=
  P.f i y + ∑ j with nb i j, s.lr i j ⬝ᵥ P.S i y - ∑ j with nb i j, s.l i j ⬝ᵥ z j

/-- The constraints of update xz, dualdecomposition.py:108-139: own constraints, and the coupling constraints on `x_i`, `z_ij`. -/
def Admissible (P : Problem V n E nb) (i : V) (y : E) (z : V → n → ℝ) : Prop :=
  y ∈ P.C i ∧ P.G i (P.S i y) (fun j => z j)

/-- `update_xz`, dualdecomposition.py:195-213: the solver returns a minimiser. -/
def XZUpdate (P : Problem V n E nb) (s : State V n) (i : V) (y : E) (z : V → n → ℝ) : Prop :=
  Admissible P i y z ∧ ∀ y' z', Admissible P i y' z' → xzObjective P s i y z ≤ xzObjective P s i y' z'

/-- `communicate` of all updaters, dualdecomposition.py:231-236. -/
def communicate (nb : V → V → Prop) [∀ i j, Decidable (nb i j)] (s : State V n) : State V n :=
  { s with
    lr := fun i j => if nb i j then s.l j i else s.lr i j
    xr := fun i j => if nb i j then s.x j else s.xr i j }

/-- `update_l` of all updaters, dualdecomposition.py:152-170 and 215-229. -/
noncomputable def updateL (nb : V → V → Prop) [∀ i j, Decidable (nb i j)] (ρ : ℝ) (s : State V n) : State V n :=
  { s with l := fun i j => if nb i j then s.l i j + ρ • (s.xr i j - s.z i j) else s.l i j }

/-- `dual_update`, dualdecomposition.py:282-303, away from a knot: update xz with solutions `y`, `z`; communicate; update l;
communicate. -/
noncomputable def dualUpdate (P : Problem V n E nb) (ρ : ℝ) (s : State V n) (y : V → E) (z : V → V → n → ℝ) : State V n :=
  communicate nb (updateL nb ρ (communicate nb { s with x := fun i => P.S i (y i), z := z }))

/-- `init_step` at a knot, dualdecomposition.py:238-254: the shared splines of vehicle `j`, and all that other vehicles hold about
them, are moved over the knot, by `tf j` (`shift_over_knot`; it depends on the bases of `j`). -/
def shiftOver (tf : V → (n → ℝ) → n → ℝ) (s : State V n) : State V n :=
  { x := fun i => tf i (s.x i), xr := fun i j => tf j (s.xr i j), z := fun i j => tf j (s.z i j),
    l := fun i j => tf j (s.l i j), lr := fun i j => tf i (s.lr i j) }

/-- `init`, dualdecomposition.py:44-51 and 176-180: zeros, and the shared variables of the initial guess. -/
def start (x : V → n → ℝ) : State V n :=
  { x := x, xr := fun _ _ _ => 0, z := fun _ _ _ => 0, l := fun _ _ _ => 0, lr := fun _ _ _ => 0 }

/-- The states of a run: any number of iterations, with a move over a knot at any time. -/
inductive Reachable (P : Problem V n E nb) (ρ : ℝ) : State V n → Prop
  | start (x : V → n → ℝ) : Reachable P ρ (start x)
  | update {s : State V n} (y : V → E) (z : V → V → n → ℝ) : Reachable P ρ s → (∀ i, XZUpdate P s i (y i) (z i)) →
      Reachable P ρ (dualUpdate P ρ s y z)
  | shift {s : State V n} (tf : V → (n → ℝ) → n → ℝ) : Reachable P ρ s → Reachable P ρ (shiftOver tf s)

/-! ## Specification: the central problem -/

/-- All vehicles satisfy their own constraints and the coupling constraints on the actual variables of their neighbours. -/
def Spec.Feasible (P : Problem V n E nb) (y : V → E) : Prop :=
  ∀ i, y i ∈ P.C i ∧ P.G i (P.S i (y i)) (fun j => P.S j (y j))

/-- Total objective. -/
noncomputable def Spec.total (P : Problem V n E nb) (y : V → E) : ℝ := ∑ i, P.f i (y i)

/-- The sum over all pairs of neighbours. -/
noncomputable def Spec.pairs (nb : V → V → Prop) [∀ i j, Decidable (nb i j)] (a b : V → V → n → ℝ) : ℝ :=
  ∑ i, ∑ j with nb i j, a i j ⬝ᵥ b i j

/-- By how much the variables of `j` differ from the copy held by `i`. -/
def Spec.disagreement (P : Problem V n E nb) (y : V → E) (z : V → V → n → ℝ) : V → V → n → ℝ :=
  fun i j => P.S j (y j) - z i j

/-- The value that the fleet would reach at best with prices `p`, when the copies need not agree. -/
noncomputable def Spec.relaxed (P : Problem V n E nb) (p : V → V → n → ℝ) (y : V → E) (z : V → V → n → ℝ) : ℝ :=
  Spec.total P y + Spec.pairs nb p (Spec.disagreement P y z)

/-! ## Lemmas -/

theorem received {P : Problem V n E nb} (hsym : ∀ i j, nb i j → nb j i) {ρ : ℝ} {s : State V n} (h : Reachable P ρ s) (i j : V) (hij : nb i j) :
    s.lr i j = s.l j i := by
  induction h with
  | start x => rfl
  | update y z hs hm ih => simp [dualUpdate, communicate, updateL, hij, hsym i j hij]
  | shift tf hs ih => simp only [shiftOver]; rw [ih]

/-- What the vehicles minimise together. -/
theorem sum_objectives {P : Problem V n E nb} (hsym : ∀ i j, nb i j → nb j i) {ρ : ℝ} {s : State V n} (h : Reachable P ρ s)
    (y : V → E) (z : V → V → n → ℝ) : ∑ i, xzObjective P s i (y i) (z i) = Spec.relaxed P s.l y z := by
  unfold xzObjective Spec.relaxed Spec.total Spec.pairs Spec.disagreement
  rw [Finset.sum_sub_distrib, Finset.sum_add_distrib]
  have e : ∑ i, ∑ j with nb i j, s.lr i j ⬝ᵥ P.S i (y i) = ∑ i, ∑ j with nb i j, s.l i j ⬝ᵥ P.S j (y j) := by
    have e1 : ∑ i, ∑ j with nb i j, s.lr i j ⬝ᵥ P.S i (y i) = ∑ i, ∑ j, if nb i j then s.l j i ⬝ᵥ P.S i (y i) else 0 := by
      refine Finset.sum_congr rfl fun i _ => ?_
      rw [Finset.sum_filter]
      refine Finset.sum_congr rfl fun j _ => ?_
      split_ifs with hij
      · rw [received hsym h i j hij]
      · rfl
    rw [e1, Finset.sum_comm]
    refine Finset.sum_congr rfl fun i _ => ?_
    rw [Finset.sum_filter]
    refine Finset.sum_congr rfl fun j _ => ?_
    have : nb j i ↔ nb i j := ⟨hsym _ _, hsym _ _⟩
    simp only [this]
  rw [e]
  have e2 : ∀ i, ∑ j with nb i j, s.l i j ⬝ᵥ (P.S j (y j) - z i j) =
      ∑ j with nb i j, s.l i j ⬝ᵥ P.S j (y j) - ∑ j with nb i j, s.l i j ⬝ᵥ z i j := by
    intro i
    rw [← Finset.sum_sub_distrib]
    exact Finset.sum_congr rfl fun j _ => dotProduct_sub _ _ _
  simp only [e2, Finset.sum_sub_distrib]
  ring

/-- The solutions of the vehicles are together best for the current prices. -/
theorem best {P : Problem V n E nb} (hsym : ∀ i j, nb i j → nb j i) {ρ : ℝ} {s : State V n} (h : Reachable P ρ s)
    {y : V → E} {z : V → V → n → ℝ} (hm : ∀ i, XZUpdate P s i (y i) (z i)) {y' : V → E} {z' : V → V → n → ℝ}
    (h' : ∀ i, Admissible P i (y' i) (z' i)) : Spec.relaxed P s.l y z ≤ Spec.relaxed P s.l y' z' := by
  rw [← sum_objectives hsym h, ← sum_objectives hsym h]
  exact Finset.sum_le_sum fun i _ => (hm i).2 _ _ (h' i)

theorem relaxed_agree (P : Problem V n E nb) (p : V → V → n → ℝ) (y : V → E) :
    Spec.relaxed P p y (fun _ j => P.S j (y j)) = Spec.total P y := by
  simp [Spec.relaxed, Spec.pairs, Spec.disagreement]

theorem dualUpdate_l (P : Problem V n E nb) (ρ : ℝ) (s : State V n) (y : V → E) (z : V → V → n → ℝ) (i j : V) (hij : nb i j) :
    (dualUpdate P ρ s y z).l i j = s.l i j + ρ • Spec.disagreement P y z i j := by
  simp [dualUpdate, communicate, updateL, hij, Spec.disagreement]

theorem pairs_congr {a b a' b' : V → V → n → ℝ} (h : ∀ i j, nb i j → a i j = a' i j) (h' : ∀ i j, nb i j → b i j = b' i j) :
    Spec.pairs nb a b = Spec.pairs nb a' b' := by
  unfold Spec.pairs
  refine Finset.sum_congr rfl fun i _ => Finset.sum_congr rfl fun j hj => ?_
  rw [h i j (Finset.mem_filter.1 hj).2, h' i j (Finset.mem_filter.1 hj).2]

theorem pairs_add_left (a b c : V → V → n → ℝ) : Spec.pairs nb (a + b) c = Spec.pairs nb a c + Spec.pairs nb b c := by
  simp only [Spec.pairs, Pi.add_apply, add_dotProduct, Finset.sum_add_distrib]

theorem pairs_comm (a b : V → V → n → ℝ) : Spec.pairs nb a b = Spec.pairs nb b a := by
  simp only [Spec.pairs, dotProduct_comm]

theorem pairs_smul_left (r : ℝ) (a b : V → V → n → ℝ) : Spec.pairs nb (r • a) b = r * Spec.pairs nb a b := by
  simp only [Spec.pairs, Pi.smul_apply, smul_dotProduct, smul_eq_mul, Finset.mul_sum]

theorem pairs_self_nonneg (a : V → V → n → ℝ) : 0 ≤ Spec.pairs nb a a := by
  unfold Spec.pairs
  refine Finset.sum_nonneg fun i _ => Finset.sum_nonneg fun j _ => ?_
  exact Finset.sum_nonneg fun k _ => mul_self_nonneg _

/-- How the distance to any other prices changes in one iteration. -/
theorem distance_step (P : Problem V n E nb) (ρ : ℝ) (s : State V n) (y : V → E) (z p : V → V → n → ℝ) :
    Spec.pairs nb ((dualUpdate P ρ s y z).l - p) ((dualUpdate P ρ s y z).l - p) =
      Spec.pairs nb (s.l - p) (s.l - p) + 2 * ρ * (Spec.relaxed P s.l y z - Spec.relaxed P p y z) +
        ρ ^ 2 * Spec.pairs nb (Spec.disagreement P y z) (Spec.disagreement P y z) := by
  have e : Spec.pairs nb ((dualUpdate P ρ s y z).l - p) ((dualUpdate P ρ s y z).l - p) =
      Spec.pairs nb ((s.l - p) + ρ • Spec.disagreement P y z) ((s.l - p) + ρ • Spec.disagreement P y z) := by
    have : ∀ i j, nb i j → ((dualUpdate P ρ s y z).l - p) i j = ((s.l - p) + ρ • Spec.disagreement P y z) i j := by
      intro i j hij
      simp only [Pi.sub_apply, Pi.add_apply, Pi.smul_apply, dualUpdate_l P ρ s y z i j hij]
      abel
    exact pairs_congr this this
  rw [e, pairs_add_left, pairs_comm _ (_ + _), pairs_add_left, pairs_comm _ (_ + _), pairs_add_left, pairs_smul_left,
    pairs_smul_left, pairs_comm _ (ρ • _), pairs_smul_left]
  have e2 : Spec.relaxed P s.l y z - Spec.relaxed P p y z = Spec.pairs nb (s.l - p) (Spec.disagreement P y z) := by
    have := pairs_add_left (nb := nb) (s.l - p) p (Spec.disagreement P y z)
    rw [sub_add_cancel] at this
    unfold Spec.relaxed
    rw [this]; ring
  rw [e2, pairs_comm (Spec.disagreement P y z) (s.l - p), pairs_comm (Spec.disagreement P y z) (ρ • _), pairs_smul_left]
  ring

/-! ## Property -/

/-- **C137** (fixed points) Whenever, in any run of dual decomposition and for arbitrary objectives and constraints, an iteration
leaves the prices as they were, then the trajectories it found satisfy the constraints of all vehicles and the coupling
constraints, and no other trajectories that satisfy them have a lower total objective. -/
theorem C137_fixed_point (P : Problem V n E nb) (hsym : ∀ i j, nb i j → nb j i) (ρ : ℝ) (hρ : ρ ≠ 0) (s : State V n)
    (hs : Reachable P ρ s) (y : V → E) (z : V → V → n → ℝ) (hm : ∀ i, XZUpdate P s i (y i) (z i))
    (hfix : ∀ i j, nb i j → (dualUpdate P ρ s y z).l i j = s.l i j) :
    Spec.Feasible P y ∧ ∀ y', Spec.Feasible P y' → Spec.total P y ≤ Spec.total P y' := by
  have hz : ∀ i j, nb i j → P.S j (y j) = z i j := by
    intro i j hij
    have := hfix i j hij
    rw [dualUpdate_l P ρ s y z i j hij] at this
    have h0 : ρ • Spec.disagreement P y z i j = 0 := by simpa using this
    funext k
    have h1 := congrFun h0 k
    simp only [Pi.smul_apply, smul_eq_mul, Pi.zero_apply, mul_eq_zero, hρ, false_or, Spec.disagreement, Pi.sub_apply] at h1
    linarith
  have hrel : Spec.relaxed P s.l y z = Spec.total P y := by
    have : Spec.pairs nb s.l (Spec.disagreement P y z) = 0 := by
      unfold Spec.pairs
      refine Finset.sum_eq_zero fun i _ => Finset.sum_eq_zero fun j hj => ?_
      rw [Spec.disagreement, hz i j (Finset.mem_filter.1 hj).2]; simp
    rw [Spec.relaxed, this, add_zero]
  refine ⟨fun i => ⟨(hm i).1.1, ?_⟩, fun y' hy' => ?_⟩
  · have := (hm i).1.2
    rwa [show (fun j : {j // nb i j} => z i j) = fun j : {j // nb i j} => P.S j (y j) from funext fun j => (hz i j j.2).symm] at this
  · have := best hsym hs hm (y' := y') (z' := fun _ j => P.S j (y' j)) hy'
    rwa [hrel, relaxed_agree] at this

/-- **C137** (bound) In every iteration of every run the minimal values found by the vehicles add up to a lower bound of the
total objective of the whole fleet; and the trajectories found exceed the objective of every solution by at most the price of
their disagreement. -/
theorem C137_bound (P : Problem V n E nb) (hsym : ∀ i j, nb i j → nb j i) (ρ : ℝ) (s : State V n)
    (hs : Reachable P ρ s) (y : V → E) (z : V → V → n → ℝ) (hm : ∀ i, XZUpdate P s i (y i) (z i)) (y' : V → E)
    (hy' : Spec.Feasible P y') :
    ∑ i, xzObjective P s i (y i) (z i) ≤ Spec.total P y' ∧
      Spec.total P y ≤ Spec.total P y' - Spec.pairs nb s.l (Spec.disagreement P y z) := by
  have := best hsym hs hm (y' := y') (z' := fun _ j => P.S j (y' j)) hy'
  rw [relaxed_agree] at this
  refine ⟨by rw [sum_objectives hsym hs]; exact this, ?_⟩
  unfold Spec.relaxed at this
  linarith

/-- **C137** (progress) Let `D` be a bound that some prices `p` would give. After `N` iterations of a run in which the
disagreement stays below `R`, one of the iterations had a bound of at least `D`, up to `ρ R² / 2` and a part that vanishes with
the number of iterations. -/
theorem C137_progress (P : Problem V n E nb) (hsym : ∀ i j, nb i j → nb j i) (ρ : ℝ) (hρ : 0 < ρ) (p : V → V → n → ℝ) (D R : ℝ)
    (hD : ∀ y z, (∀ i, Admissible P i (y i) (z i)) → D ≤ Spec.relaxed P p y z)
    (s : ℕ → State V n) (y : ℕ → V → E) (z : ℕ → V → V → n → ℝ) (h0 : Reachable P ρ (s 0))
    (hm : ∀ k i, XZUpdate P (s k) i (y k i) (z k i)) (hs : ∀ k, s (k + 1) = dualUpdate P ρ (s k) (y k) (z k))
    (hR : ∀ k, Spec.pairs nb (Spec.disagreement P (y k) (z k)) (Spec.disagreement P (y k) (z k)) ≤ R ^ 2) (N : ℕ) (hN : 0 < N) :
    ∃ k < N, D - (Spec.pairs nb ((s 0).l - p) ((s 0).l - p) / (2 * ρ * N) + ρ * R ^ 2 / 2) ≤
      ∑ i, xzObjective P (s k) i (y k i) (z k i) := by
  have hreach : ∀ k, Reachable P ρ (s k) := by
    intro k
    induction k with
    | zero => exact h0
    | succ k ih => rw [hs]; exact ih.update _ _ (hm k)
  by_contra hcon
  push Not at hcon
  set W := Spec.pairs nb ((s 0).l - p) ((s 0).l - p) with hW
  have hlt : ∀ k < N, Spec.relaxed P (s k).l (y k) (z k) < D - (W / (2 * ρ * N) + ρ * R ^ 2 / 2) := fun k hk => by
    rw [← sum_objectives hsym (hreach k)]; exact hcon k hk
  have hdec : ∀ k ≤ N, Spec.pairs nb ((s k).l - p) ((s k).l - p) ≤ W - k * (W / N) ∧
      (0 < k → Spec.pairs nb ((s k).l - p) ((s k).l - p) < W - k * (W / N)) := by
    intro k
    induction k with
    | zero => intro _; simp [hW]
    | succ k ih =>
      intro hk
      have h1 := (ih (by omega)).1
      have h2 := distance_step P ρ (s k) (y k) (z k) p
      rw [← hs k] at h2
      have h3 := hlt k (by omega)
      have h4 := hD (y k) (z k) fun i => (hm k i).1
      have h5 : ρ ^ 2 * Spec.pairs nb (Spec.disagreement P (y k) (z k)) (Spec.disagreement P (y k) (z k)) ≤ ρ ^ 2 * R ^ 2 :=
        mul_le_mul_of_nonneg_left (hR k) (by positivity)
      have h6 : 2 * ρ * (Spec.relaxed P (s k).l (y k) (z k) - Spec.relaxed P p (y k) (z k)) < 2 * ρ * (-(W / (2 * ρ * N) + ρ * R ^ 2 / 2)) :=
        mul_lt_mul_of_pos_left (by linarith) (by positivity)
      have h7 : 2 * ρ * (-(W / (2 * ρ * N) + ρ * R ^ 2 / 2)) = -(W / N) - ρ ^ 2 * R ^ 2 := by
        have : (N : ℝ) ≠ 0 := by exact_mod_cast hN.ne'
        field_simp
        ring
      have : Spec.pairs nb ((s (k + 1)).l - p) ((s (k + 1)).l - p) < W - ((k + 1 : ℕ) : ℝ) * (W / N) := by
        push_cast
        rw [h2]
        linarith
      exact ⟨this.le, fun _ => this⟩
  have hend := (hdec N le_rfl).2 hN
  have h8 : (N : ℝ) * (W / N) = W := by
    have : (N : ℝ) ≠ 0 := by exact_mod_cast hN.ne'
    field_simp
  rw [h8, sub_self] at hend
  exact absurd (pairs_self_nonneg ((s N).l - p)) (not_le.2 hend)

/-! ### Two vehicles that have to agree -/

/-- Two vehicles with one shared number each, which have to be equal, and the objectives `(y - c i)² / 2`. -/
noncomputable def meeting (c : Fin 2 → ℝ) : Problem (Fin 2) Unit ℝ (fun i j => i ≠ j) where
  f i y := (y - c i) ^ 2 / 2
  C _ := Set.univ
  S _ y := fun _ => y
  G _ x z := ∀ j, z j = x

theorem sum_other (i j : Fin 2) (h : i ≠ j) (g : Fin 2 → ℝ) : ∑ k with i ≠ k, g k = g j := by
  have : (Finset.univ.filter fun k => i ≠ k) = {j} := by
    ext k; simp only [Finset.mem_filter, Finset.mem_univ, true_and, Finset.mem_singleton]; omega
  rw [this, Finset.sum_singleton]

theorem meeting_objective (c : Fin 2 → ℝ) (s : State (Fin 2) Unit) (i j : Fin 2) (h : i ≠ j) (y : ℝ) (z : Fin 2 → Unit → ℝ)
    (hz : Admissible (meeting c) i y z) :
    xzObjective (meeting c) s i y z = (y - c i) ^ 2 / 2 + (s.lr i j () - s.l i j ()) * y := by
  have := hz.2 ⟨j, h⟩
  unfold xzObjective
  rw [sum_other i j h, sum_other i j h]
  simp only at this
  rw [this]
  simp [meeting, dotProduct]
  ring

theorem meeting_update (c : Fin 2 → ℝ) (s : State (Fin 2) Unit) (i j : Fin 2) (h : i ≠ j) (y : ℝ) (z : Fin 2 → Unit → ℝ) :
    XZUpdate (meeting c) s i y z ↔ y = c i - (s.lr i j () - s.l i j ()) ∧ z j = fun _ => y := by
  constructor
  · rintro ⟨ha, hm⟩
    have hz : z j = fun _ => y := ha.2 ⟨j, h⟩
    refine ⟨?_, hz⟩
    have hb : Admissible (meeting c) i (c i - (s.lr i j () - s.l i j ())) (fun _ _ => c i - (s.lr i j () - s.l i j ())) :=
      ⟨Set.mem_univ _, fun _ => rfl⟩
    have := hm _ _ hb
    rw [meeting_objective c s i j h _ _ ha, meeting_objective c s i j h _ _ hb] at this
    have h2 : (y - (c i - (s.lr i j () - s.l i j ()))) ^ 2 ≤ 0 := by nlinarith
    have := pow_eq_zero_iff (two_ne_zero) |>.1 (le_antisymm h2 (sq_nonneg _))
    linarith
  · rintro ⟨hy, hz⟩
    have ha : Admissible (meeting c) i y z := by
      refine ⟨Set.mem_univ _, fun k => ?_⟩
      have : (k : Fin 2) = j := by have := k.2; omega
      show z k = _
      rw [this, hz]; rfl
    refine ⟨ha, fun y' z' hb => ?_⟩
    rw [meeting_objective c s i j h _ _ ha, meeting_objective c s i j h _ _ hb, hy]
    nlinarith [sq_nonneg (y' - (c i - (s.lr i j () - s.l i j ())))]

/-- **C137** (step size) The two vehicles: after `k` iterations their numbers differ by `(1 - 4ρ)^k` times the initial difference.
So they come to agree for small steps, -/
theorem C137_step_partial (c : Fin 2 → ℝ) (ρ : ℝ) (x : Fin 2 → Unit → ℝ) (s : ℕ → State (Fin 2) Unit) (y : ℕ → Fin 2 → ℝ)
    (z : ℕ → Fin 2 → Fin 2 → Unit → ℝ) (h0 : s 0 = start x) (hm : ∀ k i, XZUpdate (meeting c) (s k) i (y k i) (z k i))
    (hs : ∀ k, s (k + 1) = dualUpdate (meeting c) ρ (s k) (y k) (z k)) (k : ℕ) :
    y k 1 - y k 0 = (1 - 4 * ρ) ^ k * (c 1 - c 0) := by
  have hsym : ∀ i j : Fin 2, i ≠ j → j ≠ i := fun i j h => h.symm
  have hreach : ∀ k, Reachable (meeting c) ρ (s k) := by
    intro k
    induction k with
    | zero => rw [h0]; exact .start x
    | succ k ih => rw [hs]; exact ih.update _ _ (hm k)
  have e0 : ∀ k, y k 0 = c 0 - ((s k).l 1 0 () - (s k).l 0 1 ()) := fun k => by
    rw [((meeting_update c (s k) 0 1 (by decide) _ _).1 (hm k 0)).1, received hsym (hreach k) 0 1 (by decide)]
  have e1 : ∀ k, y k 1 = c 1 - ((s k).l 0 1 () - (s k).l 1 0 ()) := fun k => by
    rw [((meeting_update c (s k) 1 0 (by decide) _ _).1 (hm k 1)).1, received hsym (hreach k) 1 0 (by decide)]
  induction k with
  | zero => rw [e0, e1, h0]; simp [start]
  | succ k ih =>
    have z0 := ((meeting_update c (s k) 0 1 (by decide) _ _).1 (hm k 0)).2
    have z1 := ((meeting_update c (s k) 1 0 (by decide) _ _).1 (hm k 1)).2
    have l0 := congrFun (dualUpdate_l (meeting c) ρ (s k) (y k) (z k) 0 1 (by decide)) ()
    have l1 := congrFun (dualUpdate_l (meeting c) ρ (s k) (y k) (z k) 1 0 (by decide)) ()
    rw [← hs] at l0 l1
    simp only [Spec.disagreement, Pi.add_apply, Pi.smul_apply, Pi.sub_apply, smul_eq_mul, z0, z1, meeting] at l0 l1
    rw [e0, e1, l0, l1, pow_succ]
    have a0 := e0 k
    have a1 := e1 k
    have : c 1 - (((s k).l 0 1 () + ρ * (y k 1 - y k 0)) - ((s k).l 1 0 () + ρ * (y k 0 - y k 1))) -
        (c 0 - (((s k).l 1 0 () + ρ * (y k 0 - y k 1)) - ((s k).l 0 1 () + ρ * (y k 1 - y k 0)))) =
        (y k 1 - y k 0) - 4 * ρ * (y k 1 - y k 0) := by rw [a0, a1]; ring
    rw [this, ih]
    ring

/-- **C137** (step size, refuted) while with the default step `rho = 2` (dualmethod.py:203) the disagreement grows to seven times
its size in every iteration, and passes every bound, whatever the initial guess, unless they agreed from the start. -/
theorem C137_step_violated (c : Fin 2 → ℝ) (hc : c 0 ≠ c 1) (x : Fin 2 → Unit → ℝ) (s : ℕ → State (Fin 2) Unit) (y : ℕ → Fin 2 → ℝ)
    (z : ℕ → Fin 2 → Fin 2 → Unit → ℝ) (h0 : s 0 = start x) (hm : ∀ k i, XZUpdate (meeting c) (s k) i (y k i) (z k i))
    (hs : ∀ k, s (k + 1) = dualUpdate (meeting c) 2 (s k) (y k) (z k)) :
    (∀ k, |y (k + 1) 1 - y (k + 1) 0| = 7 * |y k 1 - y k 0|) ∧ ∀ B : ℝ, ∃ k, B < |y k 1 - y k 0| := by
  have h := C137_step_partial c 2 x s y z h0 hm hs
  have hpos : 0 < |c 1 - c 0| := abs_pos.2 (sub_ne_zero.2 hc.symm)
  have e : ∀ k, |y k 1 - y k 0| = 7 ^ k * |c 1 - c 0| := fun k => by
    rw [h, abs_mul, abs_pow]; norm_num
  refine ⟨fun k => by rw [e, e, pow_succ]; ring, fun B => ?_⟩
  obtain ⟨k, hk⟩ := pow_unbounded_of_one_lt (B / |c 1 - c 0|) (by norm_num : (1 : ℝ) < 7)
  exact ⟨k, by rw [e]; exact (div_lt_iff₀ hpos).1 hk⟩

/-! ### Examples -/

/-- The solutions of the two vehicles exist and are given by a formula. -/
theorem meeting_solution (c : Fin 2 → ℝ) (s : State (Fin 2) Unit) (i : Fin 2) :
    XZUpdate (meeting c) s i (c i - (s.lr i (1 - i) () - s.l i (1 - i) ())) (fun _ _ => c i - (s.lr i (1 - i) () - s.l i (1 - i) ())) :=
  (meeting_update c s i (1 - i) (by fin_cases i <;> decide) _ _).2 ⟨rfl, rfl⟩

/-- Two vehicles that want to be at 0 and at 4 meet at 2 after one iteration with `ρ = 1/4`; the second iteration leaves the
prices as they were. -/
example : ∃ (s : State (Fin 2) Unit) (y : Fin 2 → ℝ) (z : Fin 2 → Fin 2 → Unit → ℝ), Reachable (meeting ![0, 4]) (1 / 4) s ∧
    (∀ i, XZUpdate (meeting ![0, 4]) s i (y i) (z i)) ∧ y 0 = 2 ∧ y 1 = 2 ∧ s.l 0 1 () = 1 ∧
    ∀ i j, i ≠ j → (dualUpdate (meeting ![0, 4]) (1 / 4) s y z).l i j = s.l i j := by
  let s0 : State (Fin 2) Unit := start fun _ _ => 0
  let y0 : Fin 2 → ℝ := ![0, 4]
  let z0 : Fin 2 → Fin 2 → Unit → ℝ := fun i _ _ => y0 i
  have h0 : ∀ i, XZUpdate (meeting ![0, 4]) s0 i (y0 i) (z0 i) := by
    intro i
    have := meeting_solution ![0, 4] s0 i
    simpa [s0, start, y0, z0] using this
  have l01 : (dualUpdate (meeting ![0, 4]) (1 / 4) s0 y0 z0).l 0 1 () = 1 := by
    rw [dualUpdate_l _ _ _ _ _ _ _ (by decide)]
    simp [s0, start, Spec.disagreement, meeting, y0, z0]
  have l10 : (dualUpdate (meeting ![0, 4]) (1 / 4) s0 y0 z0).l 1 0 () = -1 := by
    rw [dualUpdate_l _ _ _ _ _ _ _ (by decide)]
    simp [s0, start, Spec.disagreement, meeting, y0, z0]
  have hr : Reachable (meeting ![0, 4]) (1 / 4) (dualUpdate (meeting ![0, 4]) (1 / 4) s0 y0 z0) :=
    (Reachable.start fun _ _ => 0).update _ _ h0
  have r01 := received (fun i j h => h.symm) hr 0 1 (by decide)
  have r10 := received (fun i j h => h.symm) hr 1 0 (by decide)
  refine ⟨_, fun _ => 2, fun _ _ _ => 2, hr, ?_, rfl, rfl, l01, ?_⟩
  · intro i
    fin_cases i
    · refine (meeting_update _ _ 0 1 (by decide) _ _).2 ⟨?_, rfl⟩
      rw [r01, l01, l10]; norm_num
    · refine (meeting_update _ _ 1 0 (by decide) _ _).2 ⟨?_, rfl⟩
      rw [r10, l01, l10]; norm_num
  · intro i j hij
    rw [dualUpdate_l _ _ _ _ _ _ _ hij]
    funext k
    simp [Spec.disagreement, meeting]

/-- Their first iteration: the bound is 0, and the best total objective is 4. -/
example : ∃ (s : State (Fin 2) Unit) (y : Fin 2 → ℝ) (z : Fin 2 → Fin 2 → Unit → ℝ), Reachable (meeting ![0, 4]) (1 / 4) s ∧
    (∀ i, XZUpdate (meeting ![0, 4]) s i (y i) (z i)) ∧ Spec.Feasible (meeting ![0, 4]) (fun _ => 2) ∧
    Spec.total (meeting ![0, 4]) (fun _ => 2) = 4 ∧ y 0 ≠ y 1 := by
  refine ⟨start fun _ _ => 0, ![0, 4], fun i _ _ => (![0, 4] : Fin 2 → ℝ) i, .start _, fun i => ?_, fun i => ⟨Set.mem_univ _, fun _ => rfl⟩,
    by simp [Spec.total, meeting, Fin.sum_univ_two]; norm_num, by simp⟩
  have := meeting_solution ![0, 4] (start fun _ _ => 0) i
  simpa [start] using this

/-- A run exists for all parameters. -/
example (c : Fin 2 → ℝ) (ρ : ℝ) (x : Fin 2 → Unit → ℝ) : ∃ (s : ℕ → State (Fin 2) Unit) (y : ℕ → Fin 2 → ℝ)
    (z : ℕ → Fin 2 → Fin 2 → Unit → ℝ), s 0 = start x ∧ (∀ k i, XZUpdate (meeting c) (s k) i (y k i) (z k i)) ∧
    ∀ k, s (k + 1) = dualUpdate (meeting c) ρ (s k) (y k) (z k) := by
  let Y : State (Fin 2) Unit → Fin 2 → ℝ := fun s i => c i - (s.lr i (1 - i) () - s.l i (1 - i) ())
  let s : ℕ → State (Fin 2) Unit := fun k => Nat.rec (start x) (fun _ s => dualUpdate (meeting c) ρ s (Y s) (fun i _ _ => Y s i)) k
  exact ⟨s, fun k => Y (s k), fun k i _ _ => Y (s k) i, rfl, fun k i => meeting_solution c (s k) i, fun _ => rfl⟩

/-- The prices `±1` give the best bound, 4. -/
example (y : Fin 2 → ℝ) (z : Fin 2 → Fin 2 → Unit → ℝ) (h : ∀ i, Admissible (meeting ![0, 4]) i (y i) (z i)) :
    4 ≤ Spec.relaxed (meeting ![0, 4]) (fun i _ _ => if i = 0 then 1 else -1) y z := by
  have z0 : z 0 1 = fun _ => y 0 := (h 0).2 ⟨1, by decide⟩
  have z1 : z 1 0 = fun _ => y 1 := (h 1).2 ⟨0, by decide⟩
  unfold Spec.relaxed Spec.total Spec.pairs
  rw [Fin.sum_univ_two, Fin.sum_univ_two, sum_other 0 1 (by decide), sum_other 1 0 (by decide)]
  simp [Spec.disagreement, meeting, z0, z1, dotProduct]
  nlinarith [sq_nonneg (y 0 - 2), sq_nonneg (y 1 - 2)]

end Verif.DualDec
