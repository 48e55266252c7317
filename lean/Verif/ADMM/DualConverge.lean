import Verif.ADMM.DualDec
import Mathlib.Algebra.Module.BigOperators
import Mathlib.Analysis.SpecialFunctions.Sqrt
import Mathlib.Topology.Algebra.InfiniteSum.Order
import Mathlib.Topology.Algebra.InfiniteSum.Real
import Mathlib.Topology.Algebra.Order.LiminfLimsup
import Mathlib.Tactic.Module

/-! # Dual decomposition converges for small steps (C191) -/

set_option linter.unusedSectionVars false

namespace Verif.DualDec

open Matrix Filter Topology

variable {V n E : Type} [Fintype V] [DecidableEq V] [Fintype n] [AddCommGroup E] [Module ℝ E]
variable {nb : V → V → Prop} [∀ i j, Decidable (nb i j)]

/-! ## Model -/

/-- The primal residual that `dual_update` reports, dualdecomposition.py:256-266 and 288-293, at the start of a knot interval: the squared
distance between the received variables and the copies of every updater, squared once more, summed, and the root of that (see C62). -/
noncomputable def residual (nb : V → V → Prop) [∀ i j, Decidable (nb i j)] (s : State V n) : ℝ :=
  Real.sqrt (∑ i, (∑ j with nb i j, (s.xr i j - s.z i j) ⬝ᵥ (s.xr i j - s.z i j)) ^ 2)

/-! ## Specification -/

/-- Problems with curvature `σ`: the shared variables are affine in the plan, the constraints convex, every objective is above its chords by
at least `σ/2` times the squared distance of the shared variables, and the coupling constraints pin the copies: two choices differ in the copies by at most
`K` times the difference in the own shared variables (squared). -/
structure Spec.Curved (P : Problem V n E nb) (σ K : ℝ) : Prop where
  affine : ∀ i (y y' : E) (t : ℝ), P.S i ((1 - t) • y + t • y') = (1 - t) • P.S i y + t • P.S i y'
  convex : ∀ i (y y' : E) (z z' : V → n → ℝ) (t : ℝ), 0 ≤ t → t ≤ 1 → y ∈ P.C i → P.G i (P.S i y) (fun j => z j) → y' ∈ P.C i →
    P.G i (P.S i y') (fun j => z' j) → (1 - t) • y + t • y' ∈ P.C i ∧
      P.G i ((1 - t) • P.S i y + t • P.S i y') (fun j => (1 - t) • z j + t • z' j)
  curved : ∀ i, ∀ y ∈ P.C i, ∀ y' ∈ P.C i, ∀ t : ℝ, 0 ≤ t → t ≤ 1 → P.f i ((1 - t) • y + t • y') ≤
    (1 - t) * P.f i y + t * P.f i y' - t * (1 - t) * (σ / 2) * ((P.S i y' - P.S i y) ⬝ᵥ (P.S i y' - P.S i y))
  pinned : ∀ i (y y' : E) (z z' : V → n → ℝ), y ∈ P.C i → P.G i (P.S i y) (fun j => z j) → y' ∈ P.C i →
    P.G i (P.S i y') (fun j => z' j) →
      ∑ j with nb i j, (z' j - z j) ⬝ᵥ (z' j - z j) ≤ K * ((P.S i y' - P.S i y) ⬝ᵥ (P.S i y' - P.S i y))

/-- `ys` satisfies all constraints, and at the prices `p` for disagreement no plans and copies that need not agree are better. -/
structure Spec.Prices (P : Problem V n E nb) (ys : V → E) (p : V → V → n → ℝ) : Prop where
  feasible : Spec.Feasible P ys
  best : ∀ (y : V → E) (z : V → V → n → ℝ), (∀ i, y i ∈ P.C i ∧ P.G i (P.S i (y i)) (fun j => z i j)) →
    Spec.total P ys ≤ Spec.total P y + Spec.pairs nb p (Spec.disagreement P y z)

/-- Squared distance of two plans in the shared variables. -/
noncomputable def Spec.apart (P : Problem V n E nb) (y y' : V → E) : ℝ := ∑ i, (P.S i (y' i) - P.S i (y i)) ⬝ᵥ (P.S i (y' i) - P.S i (y i))

/-! ## Lemmas -/

theorem dot_self_nn (a : n → ℝ) : 0 ≤ a ⬝ᵥ a := Finset.sum_nonneg fun _ _ => mul_self_nonneg _

theorem apart_nonneg (P : Problem V n E nb) (y y' : V → E) : 0 ≤ Spec.apart P y y' := Finset.sum_nonneg fun _ _ => dot_self_nn _

theorem pairs_lin (p a b : V → V → n → ℝ) (t : ℝ) :
    Spec.pairs nb p (fun i j => (1 - t) • a i j + t • b i j) = (1 - t) * Spec.pairs nb p a + t * Spec.pairs nb p b := by
  unfold Spec.pairs
  rw [Finset.mul_sum, Finset.mul_sum, ← Finset.sum_add_distrib]
  refine Finset.sum_congr rfl fun i _ => ?_
  rw [Finset.mul_sum, Finset.mul_sum, ← Finset.sum_add_distrib]
  refine Finset.sum_congr rfl fun j _ => ?_
  rw [dotProduct_add, dotProduct_smul, dotProduct_smul, smul_eq_mul, smul_eq_mul]

/-- Away from the best choice the value grows with the square of the distance. -/
theorem growth {P : Problem V n E nb} {σ K : ℝ} (hP : Spec.Curved P σ K) {p : V → V → n → ℝ} {y : V → E} {z : V → V → n → ℝ}
    (ha : ∀ i, Admissible P i (y i) (z i))
    (hmin : ∀ y' z', (∀ i, Admissible P i (y' i) (z' i)) → Spec.relaxed P p y z ≤ Spec.relaxed P p y' z') {y' : V → E} {z' : V → V → n → ℝ}
    (ha' : ∀ i, Admissible P i (y' i) (z' i)) : Spec.relaxed P p y z + σ / 2 * Spec.apart P y y' ≤ Spec.relaxed P p y' z' := by
  have key : ∀ t : ℝ, 0 < t → t ≤ 1 → Spec.relaxed P p y z + (1 - t) * (σ / 2 * Spec.apart P y y') ≤ Spec.relaxed P p y' z' := by
    intro t h0 h1
    have hm := hmin (fun i => (1 - t) • y i + t • y' i) (fun i j => (1 - t) • z i j + t • z' i j) fun i => by
      have := hP.convex i (y i) (y' i) (z i) (z' i) t h0.le h1 (ha i).1 (ha i).2 (ha' i).1 (ha' i).2
      refine ⟨this.1, ?_⟩
      rw [hP.affine]
      exact this.2
    have hc : Spec.total P (fun i => (1 - t) • y i + t • y' i) ≤
        (1 - t) * Spec.total P y + t * Spec.total P y' - t * (1 - t) * (σ / 2) * Spec.apart P y y' := by
      unfold Spec.total Spec.apart
      rw [Finset.mul_sum, Finset.mul_sum, Finset.mul_sum, ← Finset.sum_add_distrib, ← Finset.sum_sub_distrib]
      exact Finset.sum_le_sum fun i _ => hP.curved i _ (ha i).1 _ (ha' i).1 t h0.le h1
    have hd : Spec.disagreement P (fun i => (1 - t) • y i + t • y' i) (fun i j => (1 - t) • z i j + t • z' i j) =
        fun i j => (1 - t) • Spec.disagreement P y z i j + t • Spec.disagreement P y' z' i j := by
      funext i j
      simp only [Spec.disagreement, hP.affine]
      module
    unfold Spec.relaxed at hm ⊢
    rw [hd, pairs_lin] at hm
    have h2 : 0 ≤ t * (Spec.total P y' + Spec.pairs nb p (Spec.disagreement P y' z') -
        (Spec.total P y + Spec.pairs nb p (Spec.disagreement P y z)) - (1 - t) * (σ / 2 * Spec.apart P y y')) := by linarith
    have := nonneg_of_mul_nonneg_right h2 h0
    linarith
  have hlim : Tendsto (fun t : ℝ => Spec.relaxed P p y z + (1 - t) * (σ / 2 * Spec.apart P y y')) (𝓝[>] 0)
      (𝓝 (Spec.relaxed P p y z + (1 - 0) * (σ / 2 * Spec.apart P y y'))) :=
    (Continuous.tendsto (by fun_prop) 0).mono_left nhdsWithin_le_nhds
  have := le_of_tendsto hlim (by
    filter_upwards [Ioc_mem_nhdsGT (show (0 : ℝ) < 1 by norm_num)] with t ht
    exact key t ht.1 ht.2)
  simpa using this

theorem dot_sub_sq (a b : n → ℝ) : (a - b) ⬝ᵥ (a - b) ≤ 2 * (a ⬝ᵥ a) + 2 * (b ⬝ᵥ b) := by
  have := dot_self_nn (a + b)
  simp only [add_dotProduct, dotProduct_add, sub_dotProduct, dotProduct_sub] at this ⊢
  linarith

/-- The disagreement is bounded by the distance to the solution. -/
theorem disagreement_le {P : Problem V n E nb} {σ K : ℝ} (hP : Spec.Curved P σ K) {d : ℕ} (hd : ∀ j, (Finset.univ.filter fun i => nb i j).card ≤ d)
    {ys y : V → E} (hys : Spec.Feasible P ys) {z : V → V → n → ℝ} (ha : ∀ i, Admissible P i (y i) (z i)) :
    Spec.pairs nb (Spec.disagreement P y z) (Spec.disagreement P y z) ≤ 2 * (d + K) * Spec.apart P y ys := by
  have h1 : Spec.pairs nb (Spec.disagreement P y z) (Spec.disagreement P y z) ≤
      ∑ i, ∑ j with nb i j, (2 * ((P.S j (ys j) - P.S j (y j)) ⬝ᵥ (P.S j (ys j) - P.S j (y j))) +
        2 * ((P.S j (ys j) - z i j) ⬝ᵥ (P.S j (ys j) - z i j))) := by
    refine Finset.sum_le_sum fun i _ => Finset.sum_le_sum fun j _ => ?_
    have e : Spec.disagreement P y z i j = (P.S j (ys j) - z i j) - (P.S j (ys j) - P.S j (y j)) := by
      simp only [Spec.disagreement]; abel
    rw [e]
    have := dot_sub_sq (P.S j (ys j) - z i j) (P.S j (ys j) - P.S j (y j))
    linarith
  refine h1.trans ?_
  simp only [Finset.sum_add_distrib, ← Finset.mul_sum]
  have h2 : ∑ i, ∑ j with nb i j, (P.S j (ys j) - P.S j (y j)) ⬝ᵥ (P.S j (ys j) - P.S j (y j)) ≤ d * Spec.apart P y ys := by
    simp only [Finset.sum_filter]
    rw [Finset.sum_comm]
    unfold Spec.apart
    rw [Finset.mul_sum]
    refine Finset.sum_le_sum fun j _ => ?_
    rw [← Finset.sum_filter, Finset.sum_const, nsmul_eq_mul]
    exact mul_le_mul_of_nonneg_right (by exact_mod_cast hd j) (dot_self_nn _)
  have h3 : ∑ i, ∑ j with nb i j, (P.S j (ys j) - z i j) ⬝ᵥ (P.S j (ys j) - z i j) ≤ K * Spec.apart P y ys := by
    unfold Spec.apart
    rw [Finset.mul_sum]
    exact Finset.sum_le_sum fun i _ => hP.pinned i (y i) (ys i) (z i) (fun j => P.S j (ys j)) (ha i).1 (ha i).2 (hys i).1 (hys i).2
  linarith

theorem pairs_cs (a b : V → V → n → ℝ) : Spec.pairs nb a b ^ 2 ≤ Spec.pairs nb a a * Spec.pairs nb b b := by
  have e : ∀ a b : V → V → n → ℝ, Spec.pairs nb a b = ∑ q : V × V × n,
      (if nb q.1 q.2.1 then a q.1 q.2.1 q.2.2 else 0) * (if nb q.1 q.2.1 then b q.1 q.2.1 q.2.2 else 0) := by
    intro a b
    unfold Spec.pairs
    rw [Fintype.sum_prod_type]
    refine Finset.sum_congr rfl fun i _ => ?_
    rw [Fintype.sum_prod_type, Finset.sum_filter]
    refine Finset.sum_congr rfl fun j _ => ?_
    by_cases h : nb i j <;> simp [h, dotProduct]
  have := Finset.sum_mul_sq_le_sq_mul_sq (Finset.univ : Finset (V × V × n))
    (fun q => if nb q.1 q.2.1 then a q.1 q.2.1 q.2.2 else 0) (fun q => if nb q.1 q.2.1 then b q.1 q.2.1 q.2.2 else 0)
  simp only [e, ← sq]
  exact this

section Run
variable {P : Problem V n E nb} {ρ σ K : ℝ} {d : ℕ} {s : ℕ → State V n} {y : ℕ → V → E} {z : ℕ → V → V → n → ℝ} {ys : V → E} {p : V → V → n → ℝ}

theorem run_reach (h0 : Reachable P ρ (s 0)) (hm : ∀ k i, XZUpdate P (s k) i (y k i) (z k i))
    (hs : ∀ k, s (k + 1) = dualUpdate P ρ (s k) (y k) (z k)) (k : ℕ) : Reachable P ρ (s k) := by
  induction k with
  | zero => exact h0
  | succ k ih => rw [hs]; exact ih.update _ _ (hm k)

theorem run_step (hP : Spec.Curved P σ K) (hsym : ∀ i j, nb i j → nb j i) (hd : ∀ j, (Finset.univ.filter fun i => nb i j).card ≤ d)
    (hρ : 0 < ρ) (hp : Spec.Prices P ys p) {s : State V n} {y : V → E} {z : V → V → n → ℝ} (hr : Reachable P ρ s)
    (hm : ∀ i, XZUpdate P s i (y i) (z i)) :
    Spec.pairs nb ((dualUpdate P ρ s y z).l - p) ((dualUpdate P ρ s y z).l - p) + 2 * ρ * (σ - ρ * (d + K)) * Spec.apart P y ys ≤
      Spec.pairs nb (s.l - p) (s.l - p) := by
  have hz : ∀ i, Admissible P i (ys i) (fun j => P.S j (ys j)) := hp.feasible
  have g1 := growth hP (p := s.l) (y := y) (z := z) (fun i => (hm i).1) (fun y' z' h => best hsym hr hm h)
    (y' := ys) (z' := fun _ j => P.S j (ys j)) hz
  have g2 := growth hP (p := p) (y := ys) (z := fun _ j => P.S j (ys j)) hz
    (fun y' z' h => by rw [relaxed_agree]; exact hp.best y' z' h) (y' := y) (z' := z) fun i => (hm i).1
  rw [relaxed_agree] at g1 g2
  have e : Spec.apart P ys y = Spec.apart P y ys := by
    unfold Spec.apart
    refine Finset.sum_congr rfl fun i _ => ?_
    rw [← neg_sub (P.S i (ys i)), neg_dotProduct_neg]
  rw [e] at g2
  have h1 := distance_step P ρ s y z p
  have h2 := mul_le_mul_of_nonneg_left (disagreement_le hP hd hp.feasible fun i => (hm i).1) (sq_nonneg ρ)
  have h3 : 2 * ρ * (Spec.relaxed P s.l y z - Spec.relaxed P p y z) ≤ 2 * ρ * (-(σ * Spec.apart P y ys)) :=
    mul_le_mul_of_nonneg_left (by linarith) (by positivity)
  rw [h1]
  linarith

theorem run_sum (hP : Spec.Curved P σ K) (hsym : ∀ i j, nb i j → nb j i) (hd : ∀ j, (Finset.univ.filter fun i => nb i j).card ≤ d)
    (hρ : 0 < ρ) (hp : Spec.Prices P ys p) (h0 : Reachable P ρ (s 0)) (hm : ∀ k i, XZUpdate P (s k) i (y k i) (z k i))
    (hs : ∀ k, s (k + 1) = dualUpdate P ρ (s k) (y k) (z k)) (N : ℕ) :
    Spec.pairs nb ((s N).l - p) ((s N).l - p) + 2 * ρ * (σ - ρ * (d + K)) * ∑ k ∈ Finset.range N, Spec.apart P (y k) ys ≤
      Spec.pairs nb ((s 0).l - p) ((s 0).l - p) := by
  induction N with
  | zero => simp
  | succ N ih =>
    have := run_step hP hsym hd hρ hp (run_reach h0 hm hs N) (hm N)
    rw [← hs] at this
    rw [Finset.sum_range_succ, mul_add]
    linarith

theorem residual_le (hs : ∀ k, s (k + 1) = dualUpdate P ρ (s k) (y k) (z k)) (k : ℕ) :
    residual nb (s (k + 1)) ≤ Spec.pairs nb (Spec.disagreement P (y k) (z k)) (Spec.disagreement P (y k) (z k)) := by
  unfold residual Spec.pairs
  have e : ∀ i, ∑ j with nb i j, ((s (k + 1)).xr i j - (s (k + 1)).z i j) ⬝ᵥ ((s (k + 1)).xr i j - (s (k + 1)).z i j) =
      ∑ j with nb i j, Spec.disagreement P (y k) (z k) i j ⬝ᵥ Spec.disagreement P (y k) (z k) i j := fun i => by
    refine Finset.sum_congr rfl fun j hj => ?_
    have hij := (Finset.mem_filter.1 hj).2
    rw [hs]
    simp [dualUpdate, communicate, updateL, hij, Spec.disagreement]
  simp only [e]
  have hnn : ∀ i, 0 ≤ ∑ j with nb i j, Spec.disagreement P (y k) (z k) i j ⬝ᵥ Spec.disagreement P (y k) (z k) i j :=
    fun i => Finset.sum_nonneg fun j _ => dot_self_nn _
  refine (Real.sqrt_le_sqrt (Finset.sum_sq_le_sq_sum_of_nonneg (fun i _ => hnn i))).trans_eq (Real.sqrt_sq (Finset.sum_nonneg fun i _ => hnn i))

end Run

/-! ## C191 -/

/-- **C191**: with a step below `σ / (d + K)`, where no vehicle has more than `d` neighbours, the squared distances of the plans from the
solution, over any number of iterations, add up to no more than a fixed number; so they are found to any accuracy. -/
theorem C191_progress (P : Problem V n E nb) {σ K : ℝ} (hP : Spec.Curved P σ K) (hsym : ∀ i j, nb i j → nb j i) (d : ℕ)
    (hd : ∀ j, (Finset.univ.filter fun i => nb i j).card ≤ d) {ρ : ℝ} (hρ : 0 < ρ) (hstep : ρ * (d + K) < σ) {ys : V → E} {p : V → V → n → ℝ}
    (hp : Spec.Prices P ys p) (s : ℕ → State V n) (y : ℕ → V → E) (z : ℕ → V → V → n → ℝ) (h0 : Reachable P ρ (s 0))
    (hm : ∀ k i, XZUpdate P (s k) i (y k i) (z k i)) (hs : ∀ k, s (k + 1) = dualUpdate P ρ (s k) (y k) (z k)) (N : ℕ) :
    ∑ k ∈ Finset.range N, Spec.apart P (y k) ys ≤ Spec.pairs nb ((s 0).l - p) ((s 0).l - p) / (2 * ρ * (σ - ρ * (d + K))) := by
  have h := run_sum hP hsym hd hρ hp h0 hm hs N
  have hpos : 0 < 2 * ρ * (σ - ρ * (d + K)) := mul_pos (by linarith) (by linarith)
  rw [le_div_iff₀ hpos]
  have := pairs_self_nonneg (nb := nb) ((s N).l - p)
  linarith

/-- **C191**: then the shared variables of all plans tend to those of the solution, the reported residual tends to zero, and the total
objective to that of the solution. -/
theorem C191_converges (P : Problem V n E nb) {σ K : ℝ} (hP : Spec.Curved P σ K) (hsym : ∀ i j, nb i j → nb j i) (d : ℕ)
    (hd : ∀ j, (Finset.univ.filter fun i => nb i j).card ≤ d) {ρ : ℝ} (hρ : 0 < ρ) (hstep : ρ * (d + K) < σ) {ys : V → E} {p : V → V → n → ℝ}
    (hp : Spec.Prices P ys p) (s : ℕ → State V n) (y : ℕ → V → E) (z : ℕ → V → V → n → ℝ) (h0 : Reachable P ρ (s 0))
    (hm : ∀ k i, XZUpdate P (s k) i (y k i) (z k i)) (hs : ∀ k, s (k + 1) = dualUpdate P ρ (s k) (y k) (z k)) :
    (∀ i, Tendsto (fun k => P.S i (y k i)) atTop (𝓝 (P.S i (ys i)))) ∧
    Tendsto (fun k => residual nb (s k)) atTop (𝓝 0) ∧
    Tendsto (fun k => Spec.total P (y k)) atTop (𝓝 (Spec.total P ys)) := by
  have hsum : Summable fun k => Spec.apart P (y k) ys :=
    summable_of_sum_range_le (fun k => apart_nonneg P _ _) (C191_progress P hP hsym d hd hρ hstep hp s y z h0 hm hs)
  have ha := hsum.tendsto_atTop_zero
  have h1 : Tendsto (fun k => Spec.pairs nb (Spec.disagreement P (y k) (z k)) (Spec.disagreement P (y k) (z k))) atTop (𝓝 0) := by
    refine squeeze_zero (fun k => pairs_self_nonneg _) (fun k => disagreement_le hP hd hp.feasible fun i => (hm k i).1) ?_
    simpa using ha.const_mul (2 * ((d : ℝ) + K))
  have hdis : Tendsto (fun k => Real.sqrt (Spec.pairs nb (Spec.disagreement P (y k) (z k)) (Spec.disagreement P (y k) (z k)))) atTop (𝓝 0) := by
    simpa [Function.comp_def] using (Real.continuous_sqrt.tendsto _).comp h1
  refine ⟨fun i => ?_, ?_, ?_⟩
  · rw [tendsto_pi_nhds]
    intro j
    rw [tendsto_iff_norm_sub_tendsto_zero]
    have h1 : Tendsto (fun k => Real.sqrt (Spec.apart P (y k) ys)) atTop (𝓝 0) := by
      simpa [Function.comp_def] using (Real.continuous_sqrt.tendsto _).comp ha
    refine squeeze_zero (fun _ => norm_nonneg _) (fun k => ?_) h1
    refine Real.le_sqrt_of_sq_le ?_
    rw [Real.norm_eq_abs, sq_abs]
    have h2 : (P.S i (ys i) j - P.S i (y k i) j) * (P.S i (ys i) j - P.S i (y k i) j) ≤
        (P.S i (ys i) - P.S i (y k i)) ⬝ᵥ (P.S i (ys i) - P.S i (y k i)) :=
      Finset.single_le_sum (f := fun j => (P.S i (ys i) - P.S i (y k i)) j * (P.S i (ys i) - P.S i (y k i)) j)
        (fun q _ => mul_self_nonneg _) (Finset.mem_univ j)
    have h3 := Finset.single_le_sum (f := fun i => (P.S i (ys i) - P.S i (y k i)) ⬝ᵥ (P.S i (ys i) - P.S i (y k i)))
      (fun q _ => dot_self_nn _) (Finset.mem_univ i)
    unfold Spec.apart
    calc (P.S i (y k i) j - P.S i (ys i) j) ^ 2 = (P.S i (ys i) j - P.S i (y k i) j) * (P.S i (ys i) j - P.S i (y k i) j) := by ring
      _ ≤ _ := h2.trans h3
  · refine (tendsto_add_atTop_iff_nat (f := fun k => residual nb (s k)) 1).1 ?_
    exact squeeze_zero (fun k => Real.sqrt_nonneg _) (residual_le hs) h1
  · set G := Spec.pairs nb ((s 0).l - p) ((s 0).l - p)
    have hbd : ∀ k, Spec.pairs nb ((s k).l - p) ((s k).l - p) ≤ G := by
      intro k
      have h := run_sum hP hsym hd hρ hp h0 hm hs k
      have hpos : 0 < 2 * ρ * (σ - ρ * (d + K)) := mul_pos (by linarith) (by linarith)
      have := mul_nonneg hpos.le (Finset.sum_nonneg fun q (_ : q ∈ Finset.range k) => apart_nonneg P (y q) ys)
      linarith
    have cs : ∀ a b : V → V → n → ℝ, |Spec.pairs nb a b| ≤ Real.sqrt (Spec.pairs nb a a) * Real.sqrt (Spec.pairs nb b b) := fun a b => by
      rw [← Real.sqrt_mul (pairs_self_nonneg a)]
      exact Real.abs_le_sqrt (pairs_cs a b)
    have hlow : ∀ k, Spec.total P ys - Real.sqrt (Spec.pairs nb p p) *
        Real.sqrt (Spec.pairs nb (Spec.disagreement P (y k) (z k)) (Spec.disagreement P (y k) (z k))) ≤ Spec.total P (y k) := fun k => by
      have h1 := hp.best (y k) (z k) fun i => (hm k i).1
      have h2 := (le_abs_self _).trans (cs p (Spec.disagreement P (y k) (z k)))
      linarith
    have hup : ∀ k, Spec.total P (y k) ≤ Spec.total P ys + (Real.sqrt G + Real.sqrt (Spec.pairs nb p p)) *
        Real.sqrt (Spec.pairs nb (Spec.disagreement P (y k) (z k)) (Spec.disagreement P (y k) (z k))) := fun k => by
      have h1 := (C137_bound P hsym ρ (s k) (run_reach h0 hm hs k) (y k) (z k) (hm k) ys hp.feasible).2
      have e : Spec.pairs nb (s k).l (Spec.disagreement P (y k) (z k)) =
          Spec.pairs nb ((s k).l - p) (Spec.disagreement P (y k) (z k)) + Spec.pairs nb p (Spec.disagreement P (y k) (z k)) := by
        rw [← pairs_add_left, sub_add_cancel]
      have h2 := (neg_le_of_abs_le (cs p (Spec.disagreement P (y k) (z k))))
      have h3 := (neg_le_of_abs_le (cs ((s k).l - p) (Spec.disagreement P (y k) (z k))))
      have h4 := mul_le_mul_of_nonneg_right (Real.sqrt_le_sqrt (hbd k))
        (Real.sqrt_nonneg (Spec.pairs nb (Spec.disagreement P (y k) (z k)) (Spec.disagreement P (y k) (z k))))
      rw [e] at h1
      linarith
    refine tendsto_of_tendsto_of_tendsto_of_le_of_le ?_ ?_ hlow hup
    · simpa using (hdis.const_mul (Real.sqrt (Spec.pairs nb p p))).const_sub (Spec.total P ys)
    · simpa using (hdis.const_mul (Real.sqrt G + Real.sqrt (Spec.pairs nb p p))).const_add (Spec.total P ys)

/-- **C191**: an iteration that leaves the prices as they are gives such a solution and prices. -/
theorem C191_prices (P : Problem V n E nb) (hsym : ∀ i j, nb i j → nb j i) (ρ : ℝ) (hρ : ρ ≠ 0) (s : State V n)
    (hs : Reachable P ρ s) (y : V → E) (z : V → V → n → ℝ) (hm : ∀ i, XZUpdate P s i (y i) (z i))
    (hfix : ∀ i j, nb i j → (dualUpdate P ρ s y z).l i j = s.l i j) : Spec.Prices P y s.l := by
  refine ⟨(C137_fixed_point P hsym ρ hρ s hs y z hm hfix).1, fun y' z' h => ?_⟩
  have h1 := best hsym hs hm (y' := y') (z' := z') h
  have h2 : Spec.pairs nb s.l (Spec.disagreement P y z) = 0 := by
    unfold Spec.pairs
    refine Finset.sum_eq_zero fun i _ => Finset.sum_eq_zero fun j hj => ?_
    have hij := (Finset.mem_filter.1 hj).2
    have := hfix i j hij
    rw [dualUpdate_l P ρ s y z i j hij] at this
    have h3 : ρ • Spec.disagreement P y z i j = 0 := by simpa using this
    rw [(smul_eq_zero.1 h3).resolve_left hρ, dotProduct_zero]
  unfold Spec.relaxed at h1
  rw [h2, add_zero] at h1
  exact h1

/-! ### Two vehicles that have to agree -/

/-- Their problem has curvature 1, the copies move as much as the own variable, and each has one neighbour: so any step below `1/2` will do,
exactly as C137 found. -/
theorem meeting_curved (c : Fin 2 → ℝ) : Spec.Curved (meeting c) 1 1 where
  affine i y y' t := rfl
  convex i y y' z z' t _ _ _ hz _ hz' := ⟨Set.mem_univ _, fun j => by
    have h1 := hz j
    have h2 := hz' j
    simp only at h1 h2 ⊢
    rw [h1, h2]⟩
  curved i y _ y' _ t _ _ := by
    simp only [meeting, dotProduct, Finset.univ_unique, Finset.sum_singleton, Pi.sub_apply, smul_eq_mul]
    nlinarith
  pinned i y y' z z' _ hz _ hz' := by
    have hj : i ≠ 1 - i := by fin_cases i <;> decide
    rw [sum_other i (1 - i) hj]
    have h1 := hz ⟨1 - i, hj⟩
    have h2 := hz' ⟨1 - i, hj⟩
    simp only at h1 h2
    rw [h1, h2, one_mul]

theorem meeting_prices (c : Fin 2 → ℝ) : Spec.Prices (meeting c) (fun _ => (c 0 + c 1) / 2) (fun i j _ => (c j - c i) / 4) where
  feasible i := ⟨Set.mem_univ _, fun j => rfl⟩
  best y z h := by
    have z0 : z 0 1 = fun _ => y 0 := (h 0).2 ⟨1, by decide⟩
    have z1 : z 1 0 = fun _ => y 1 := (h 1).2 ⟨0, by decide⟩
    unfold Spec.total Spec.pairs
    rw [Fin.sum_univ_two, Fin.sum_univ_two, Fin.sum_univ_two, sum_other 0 1 (by decide), sum_other 1 0 (by decide)]
    simp [Spec.disagreement, meeting, z0, z1, dotProduct]
    nlinarith [sq_nonneg (y 0 - (c 0 + c 1) / 2), sq_nonneg (y 1 - (c 0 + c 1) / 2)]

/-- With any step below `1/2`, from any initial guess, both come to the middle. -/
example (c : Fin 2 → ℝ) (ρ : ℝ) (h0 : 0 < ρ) (h1 : ρ < 1 / 2) (x : Fin 2 → Unit → ℝ) : ∃ (s : ℕ → State (Fin 2) Unit) (y : ℕ → Fin 2 → ℝ)
    (z : ℕ → Fin 2 → Fin 2 → Unit → ℝ), s 0 = start x ∧ (∀ k i, XZUpdate (meeting c) (s k) i (y k i) (z k i)) ∧
    (∀ k, s (k + 1) = dualUpdate (meeting c) ρ (s k) (y k) (z k)) ∧
    (∀ i, Tendsto (fun k => y k i) atTop (𝓝 ((c 0 + c 1) / 2))) ∧ Tendsto (fun k => residual (fun i j => i ≠ j) (s k)) atTop (𝓝 0) := by
  let Y : State (Fin 2) Unit → Fin 2 → ℝ := fun s i => c i - (s.lr i (1 - i) () - s.l i (1 - i) ())
  let s : ℕ → State (Fin 2) Unit := fun k => Nat.rec (start x) (fun _ s => dualUpdate (meeting c) ρ s (Y s) (fun i _ _ => Y s i)) k
  have hm : ∀ k i, XZUpdate (meeting c) (s k) i (Y (s k) i) (fun _ _ => Y (s k) i) := fun k i => meeting_solution c (s k) i
  obtain ⟨t1, t2, -⟩ := C191_converges (meeting c) (meeting_curved c) (fun i j h => h.symm) 1
    (fun j => by fin_cases j <;> decide) h0 (by push_cast; linarith) (meeting_prices c) s (fun k => Y (s k)) (fun k i _ _ => Y (s k) i)
    (.start x) hm (fun _ => rfl)
  exact ⟨s, fun k => Y (s k), fun k i _ _ => Y (s k) i, rfl, hm, fun _ => rfl, fun i => (tendsto_pi_nhds.1 (t1 i)) (), t2⟩

end Verif.DualDec
