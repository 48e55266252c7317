import Verif.ADMM.Converge

/-! # The distributed iteration without penalty (option `AMA`) converges for small steps (C192) -/

set_option linter.unusedSectionVars false

namespace Verif.ADMM

open Matrix Filter Topology

variable {V m n : Type} [Fintype V] [DecidableEq V] [Fintype m] [Fintype n]
variable {E : Type} [AddCommGroup E] [Module ℝ E]
variable {nb : V → V → Prop} [∀ i j, Decidable (nb i j)]

/-! ## Model -/

/-- The objective of the x-update with the option `AMA`, admm.py:84-103: the penalty is left out. At the start of a knot interval, where no spline is shifted. -/
noncomputable def amaObjective (P : Problem V m n E nb) (s : Vars V n) (i : V) (y : E) : ℝ :=
  P.f i y + s.l i ⬝ᵥ (P.S i y - s.z i) + ∑ j with nb i j, s.ln j i ⬝ᵥ (P.S i y - s.zn j i)

/-- The x-update: the solver returns a minimiser. -/
def AmaUpdate (P : Problem V m n E nb) (s : Vars V n) (i : V) (y : E) : Prop :=
  y ∈ P.C i ∧ ∀ y' ∈ P.C i, amaObjective P s i y ≤ amaObjective P s i y'

/-- One iteration of all updaters with the option `AMA`, admm.py:584-612, without acceleration. -/
def AmaIterate (P : Problem V m n E nb) (ρ : ℝ) (s : Vars V n) (y : V → E) (s' : Vars V n) : Prop :=
  (∀ i, AmaUpdate P s i (y i)) ∧ Copies P ρ s y s'

/-! ## Specification -/

/-- Convex constraints, and objectives that are below their chords by at least `σ/2` times the squared distance of the shared variables
(times the usual factor). -/
structure Spec.Curved (P : Problem V m n E nb) (σ : ℝ) : Prop where
  convex : ∀ i, Convex ℝ (P.C i)
  curved : ∀ i, ∀ y ∈ P.C i, ∀ y' ∈ P.C i, ∀ t : ℝ, 0 ≤ t → t ≤ 1 → P.f i ((1 - t) • y + t • y') ≤
    (1 - t) * P.f i y + t * P.f i y' - t * (1 - t) * (σ / 2) * ((P.S i y' - P.S i y) ⬝ᵥ (P.S i y' - P.S i y))

/-- Squared distance of plans in the shared variables. -/
def Spec.apart (P : Problem V m n E nb) (y y' : V → E) : ℝ := ∑ i, (P.S i (y' i) - P.S i (y i)) ⬝ᵥ (P.S i (y' i) - P.S i (y i))

/-! ## Lemmas -/

/-- What vehicle `i` pays for its shared variables. -/
noncomputable def price (nb : V → V → Prop) [∀ i j, Decidable (nb i j)] (p : V → n → ℝ) (pn : V → V → n → ℝ) (i : V) : n → ℝ :=
  p i + ∑ j with nb i j, pn j i

theorem inner_price (P : Problem V m n E nb) (hsym : ∀ i j, nb i j → nb j i) (p : V → n → ℝ) (pn : V → V → n → ℝ) (y y' : V → E) :
    inner ℝ (vec nb p pn) (plans P y' - plans P y) = ∑ i, price nb p pn i ⬝ᵥ (P.S i (y' i) - P.S i (y i)) := by
  unfold plans price
  rw [vec_sub, vec_inner', Finset.sum_add_distrib]
  simp only [add_dotProduct, Finset.sum_add_distrib, sum_dotProduct]
  congr 1
  simp only [Finset.sum_filter]
  rw [Finset.sum_comm]
  refine Finset.sum_congr rfl fun i _ => Finset.sum_congr rfl fun j _ => ?_
  by_cases hij : nb i j
  · rw [if_pos hij, if_pos (hsym i j hij)]
  · rw [if_neg hij, if_neg (fun h => hij (hsym j i h))]

/-- Away from the best plans the value grows with the square of the distance. -/
theorem curved_growth {P : Problem V m n E nb} {σ : ℝ} (hP : Spec.Curved P σ) {q : V → n → ℝ} {y : V → E} (hy : ∀ i, y i ∈ P.C i)
    (hmin : ∀ y' : V → E, (∀ i, y' i ∈ P.C i) → ∑ i, P.f i (y i) ≤ ∑ i, P.f i (y' i) + ∑ i, q i ⬝ᵥ (P.S i (y' i) - P.S i (y i)))
    {y' : V → E} (hy' : ∀ i, y' i ∈ P.C i) :
    ∑ i, P.f i (y i) + σ / 2 * Spec.apart P y y' ≤ ∑ i, P.f i (y' i) + ∑ i, q i ⬝ᵥ (P.S i (y' i) - P.S i (y i)) := by
  have key : ∀ t : ℝ, 0 < t → t ≤ 1 → ∑ i, P.f i (y i) + (1 - t) * (σ / 2 * Spec.apart P y y') ≤
      ∑ i, P.f i (y' i) + ∑ i, q i ⬝ᵥ (P.S i (y' i) - P.S i (y i)) := by
    intro t h0 h1
    have hm := hmin (fun i => (1 - t) • y i + t • y' i) fun i => hP.convex i (hy i) (hy' i) (by linarith) h0.le (by ring)
    have hc : ∑ i, P.f i ((1 - t) • y i + t • y' i) ≤
        (1 - t) * ∑ i, P.f i (y i) + t * ∑ i, P.f i (y' i) - t * (1 - t) * (σ / 2) * Spec.apart P y y' := by
      unfold Spec.apart
      rw [Finset.mul_sum, Finset.mul_sum, Finset.mul_sum, ← Finset.sum_add_distrib, ← Finset.sum_sub_distrib]
      exact Finset.sum_le_sum fun i _ => hP.curved i _ (hy i) _ (hy' i) t h0.le h1
    have hS : ∀ i, P.S i ((1 - t) • y i + t • y' i) - P.S i (y i) = t • (P.S i (y' i) - P.S i (y i)) := fun i => by
      rw [← AffineMap.lineMap_apply_module, AffineMap.apply_lineMap, AffineMap.lineMap_apply]
      simp
    simp only [hS, dotProduct_smul, smul_eq_mul, ← Finset.mul_sum] at hm
    have h2 : 0 ≤ t * (∑ i, P.f i (y' i) + ∑ i, q i ⬝ᵥ (P.S i (y' i) - P.S i (y i)) - ∑ i, P.f i (y i) -
        (1 - t) * (σ / 2 * Spec.apart P y y')) := by linarith
    have := nonneg_of_mul_nonneg_right h2 h0
    linarith
  have hlim : Tendsto (fun t : ℝ => ∑ i, P.f i (y i) + (1 - t) * (σ / 2 * Spec.apart P y y')) (𝓝[>] 0)
      (𝓝 (∑ i, P.f i (y i) + (1 - 0) * (σ / 2 * Spec.apart P y y'))) :=
    (Continuous.tendsto (by fun_prop) 0).mono_left nhdsWithin_le_nhds
  have := le_of_tendsto hlim (by
    filter_upwards [Ioc_mem_nhdsGT (show (0 : ℝ) < 1 by norm_num)] with t ht
    exact key t ht.1 ht.2)
  simpa using this

/-- At the prices of a solution, copies that satisfy the coupling equations all have the same value. -/
theorem prices_flat {P : Problem V m n E nb} {ys : V → E} {p : V → n → ℝ} {pn : V → V → n → ℝ} (hp : Spec.Prices P ys p pn)
    {c : V → n → ℝ} {cn : V → V → n → ℝ} (hc : ∀ i, Spec.Coupled (P.A i) (P.b i) (c i) (fun q => cn i q.1 q.2)) :
    inner ℝ (vec nb p pn) (vec nb c cn - plans P ys) = 0 := by
  have one : ∀ (c : V → n → ℝ) (cn : V → V → n → ℝ), (∀ i, Spec.Coupled (P.A i) (P.b i) (c i) (fun q => cn i q.1 q.2)) →
      0 ≤ inner ℝ (vec nb p pn) (plans P ys - vec nb c cn) := by
    intro c cn hc
    have := hp.best ys c cn (fun i => (hp.feasible i).1) hc
    unfold plans
    rw [vec_sub, vec_inner']
    linarith
  have h1 := one c cn hc
  have h2 := one (fun i => (2 : ℝ) • P.S i (ys i) - c i) (fun i j => (2 : ℝ) • P.S j (ys j) - cn i j) fun i => by
    have e1 := (hp.feasible i).2
    have e2 := hc i
    unfold Spec.Coupled at e1 e2 ⊢
    have e : Sum.elim ((2 : ℝ) • P.S i (ys i) - c i) (fun q : {j // nb i j} × n => ((2 : ℝ) • P.S q.1 (ys q.1) - cn i q.1) q.2) =
        (2 : ℝ) • Sum.elim (P.S i (ys i)) (fun q : {j // nb i j} × n => P.S q.1 (ys q.1) q.2) -
          Sum.elim (c i) (fun q : {j // nb i j} × n => cn i q.1 q.2) := by
      funext q
      rcases q with q | q <;> simp
    rw [e, mulVec_sub, mulVec_smul, e1, e2, two_smul]
    abel
  have e3 : vec nb (fun i => (2 : ℝ) • P.S i (ys i) - c i) (fun i j => (2 : ℝ) • P.S j (ys j) - cn i j) =
      (2 : ℝ) • plans P ys - vec nb c cn := by
    unfold plans
    rw [vec_smul, vec_sub]
  rw [e3] at h2
  have e4 : plans P ys - ((2 : ℝ) • plans P ys - vec nb c cn) = -(plans P ys - vec nb c cn) := by module
  rw [e4, inner_neg_right] at h2
  rw [← neg_sub (plans P ys), inner_neg_right]
  linarith

theorem ama_growth {P : Problem V m n E nb} (hsym : ∀ i j, nb i j → nb j i) {σ : ℝ} (hP : Spec.Curved P σ) {s : Vars V n} {y : V → E}
    (h : ∀ i, AmaUpdate P s i (y i)) {ys : V → E} (hys : ∀ i, ys i ∈ P.C i) :
    ∑ i, P.f i (y i) + σ / 2 * Spec.apart P y ys ≤ ∑ i, P.f i (ys i) + inner ℝ (vec nb s.l s.ln) (plans P ys - plans P y) := by
  rw [inner_price P hsym]
  refine curved_growth hP (fun i => (h i).1) (fun y' hy' => ?_) hys
  rw [← Finset.sum_add_distrib]
  refine Finset.sum_le_sum fun i _ => ?_
  have := (h i).2 (y' i) (hy' i)
  unfold amaObjective at this
  unfold price
  rw [add_dotProduct, sum_dotProduct]
  have e : ∑ j with nb i j, s.ln j i ⬝ᵥ (P.S i (y' i) - P.S i (y i)) =
      ∑ j with nb i j, s.ln j i ⬝ᵥ (P.S i (y' i) - s.zn j i) - ∑ j with nb i j, s.ln j i ⬝ᵥ (P.S i (y i) - s.zn j i) := by
    rw [← Finset.sum_sub_distrib]
    refine Finset.sum_congr rfl fun j _ => ?_
    rw [← dotProduct_sub]
    congr 1
    abel
  have e2 : s.l i ⬝ᵥ (P.S i (y' i) - P.S i (y i)) = s.l i ⬝ᵥ (P.S i (y' i) - s.z i) - s.l i ⬝ᵥ (P.S i (y i) - s.z i) := by
    rw [← dotProduct_sub]
    congr 1
    abel
  rw [e, e2]
  linarith

theorem prices_growth {P : Problem V m n E nb} (hsym : ∀ i j, nb i j → nb j i) {σ : ℝ} (hP : Spec.Curved P σ) {ys : V → E} {p : V → n → ℝ}
    {pn : V → V → n → ℝ} (hp : Spec.Prices P ys p pn) {y : V → E} (hy : ∀ i, y i ∈ P.C i) :
    ∑ i, P.f i (ys i) + σ / 2 * Spec.apart P ys y ≤ ∑ i, P.f i (y i) + inner ℝ (vec nb p pn) (plans P y - plans P ys) := by
  rw [inner_price P hsym]
  refine curved_growth hP (fun i => (hp.feasible i).1) (fun y' hy' => ?_) hy
  rw [← inner_price P hsym]
  have := hp.best y' (fun i => P.S i (ys i)) (fun _ j => P.S j (ys j)) hy' fun i => (hp.feasible i).2
  unfold plans
  rw [vec_sub, vec_inner']
  exact this

theorem apart_symm (P : Problem V m n E nb) (y y' : V → E) : Spec.apart P y y' = Spec.apart P y' y := by
  unfold Spec.apart
  refine Finset.sum_congr rfl fun i _ => ?_
  rw [← neg_sub (P.S i (y i)), neg_dotProduct_neg]

theorem apart_nn (P : Problem V m n E nb) (y y' : V → E) : 0 ≤ Spec.apart P y y' :=
  Finset.sum_nonneg fun _ _ => Finset.sum_nonneg fun _ _ => mul_self_nonneg _

theorem plans_dist (P : Problem V m n E nb) {d : ℕ} (hd : ∀ j, (Finset.univ.filter fun i => nb i j).card ≤ d) (y y' : V → E) :
    ‖plans P y' - plans P y‖ ^ 2 ≤ (1 + d) * Spec.apart P y y' := by
  unfold plans
  rw [vec_sub, ← real_inner_self_eq_norm_sq, vec_inner', Finset.sum_add_distrib]
  have h2 : ∑ i, ∑ j with nb i j, (P.S j (y' j) - P.S j (y j)) ⬝ᵥ (P.S j (y' j) - P.S j (y j)) ≤ d * Spec.apart P y y' := by
    simp only [Finset.sum_filter]
    rw [Finset.sum_comm]
    unfold Spec.apart
    rw [Finset.mul_sum]
    refine Finset.sum_le_sum fun j _ => ?_
    rw [← Finset.sum_filter, Finset.sum_const, nsmul_eq_mul]
    exact mul_le_mul_of_nonneg_right (by exact_mod_cast hd j) (Finset.sum_nonneg fun _ _ => mul_self_nonneg _)
  have : ∑ i, (P.S i (y' i) - P.S i (y i)) ⬝ᵥ (P.S i (y' i) - P.S i (y i)) = Spec.apart P y y' := rfl
  rw [this]
  linarith

/-- One step in any space. -/
theorem ama_fejer {H : Type*} [NormedAddCommGroup H] [InnerProductSpace ℝ H] {ρ : ℝ} {x z' l l' xs ls : H}
    (hl : l' = l + ρ • (x - z')) (h1 : inner ℝ l' (z' - xs) = 0) (h2 : inner ℝ ls (z' - xs) = 0) :
    ‖l' - ls‖ ^ 2 + ρ ^ 2 * ‖z' - xs‖ ^ 2 = ‖l - ls‖ ^ 2 + 2 * ρ * inner ℝ (l - ls) (x - xs) + ρ ^ 2 * ‖x - xs‖ ^ 2 := by
  have e1 : ‖(l' - ls) + ρ • (z' - xs)‖ ^ 2 = ‖l' - ls‖ ^ 2 + ρ ^ 2 * ‖z' - xs‖ ^ 2 := by
    rw [norm_add_sq_real, inner_smul_right, inner_sub_left, h1, h2, norm_smul, mul_pow, Real.norm_eq_abs, sq_abs]
    ring
  have e2 : (l' - ls) + ρ • (z' - xs) = (l - ls) + ρ • (x - xs) := by rw [hl]; module
  rw [← e1, e2, norm_add_sq_real, inner_smul_right, norm_smul, mul_pow, Real.norm_eq_abs, sq_abs]
  ring

theorem ama_step {P : Problem V m n E nb} (hsym : ∀ i j, nb i j → nb j i) {σ : ℝ} (hP : Spec.Curved P σ) {d : ℕ}
    (hd : ∀ j, (Finset.univ.filter fun i => nb i j).card ≤ d) {ρ : ℝ} (hρ : 0 < ρ) {ys : V → E} {p : V → n → ℝ} {pn : V → V → n → ℝ}
    (hp : Spec.Prices P ys p pn) {s s' : Vars V n} {y : V → E} (h : AmaIterate P ρ s y s') :
    ‖vec nb s'.l s'.ln - vec nb p pn‖ ^ 2 + (ρ ^ 2 * ‖vec nb s'.z s'.zn - plans P ys‖ ^ 2 +
      ρ * (2 * σ - ρ * (1 + d)) * Spec.apart P y ys) ≤ ‖vec nb s.l s.ln - vec nb p pn‖ ^ 2 := by
  have hzs : ∀ i, Spec.Coupled (P.A i) (P.b i) (P.S i (ys i)) (fun q => P.S q.1 (ys q.1) q.2) := fun i => (hp.feasible i).2
  have h1 := ama_fejer (x := plans P y) (xs := plans P ys) (ls := vec nb p pn) (iterate_l P h.2)
    (multipliers_flat P hρ h.2 (iterate_coupled P h.2) hzs) (prices_flat hp (iterate_coupled P h.2))
  have g1 := ama_growth hsym hP h.1 fun i => (hp.feasible i).1
  have g2 := prices_growth hsym hP hp fun i => (h.1 i).1
  rw [apart_symm] at g2
  have h3 := plans_dist P hd ys y
  rw [apart_symm] at h3
  have h4 : inner ℝ (vec nb s.l s.ln - vec nb p pn) (plans P y - plans P ys) ≤ -(σ * Spec.apart P y ys) := by
    rw [inner_sub_left]
    rw [← neg_sub (plans P y), inner_neg_right] at g1
    linarith
  have h5 := mul_le_mul_of_nonneg_left h4 (show 0 ≤ 2 * ρ by positivity)
  have h6 := mul_le_mul_of_nonneg_left h3 (sq_nonneg ρ)
  linarith

theorem ama_sum {P : Problem V m n E nb} (hsym : ∀ i j, nb i j → nb j i) {σ : ℝ} (hP : Spec.Curved P σ) {d : ℕ}
    (hd : ∀ j, (Finset.univ.filter fun i => nb i j).card ≤ d) {ρ : ℝ} (hρ : 0 < ρ) {ys : V → E} {p : V → n → ℝ} {pn : V → V → n → ℝ}
    (hp : Spec.Prices P ys p pn) {s : ℕ → Vars V n} {y : ℕ → V → E} (h : ∀ k, AmaIterate P ρ (s k) (y k) (s (k + 1))) (N : ℕ) :
    ‖vec nb (s N).l (s N).ln - vec nb p pn‖ ^ 2 + ∑ k ∈ Finset.range N, (ρ ^ 2 * ‖vec nb (s (k + 1)).z (s (k + 1)).zn - plans P ys‖ ^ 2 +
      ρ * (2 * σ - ρ * (1 + d)) * Spec.apart P (y k) ys) ≤ ‖vec nb (s 0).l (s 0).ln - vec nb p pn‖ ^ 2 := by
  induction N with
  | zero => simp
  | succ N ih =>
    rw [Finset.sum_range_succ]
    have := ama_step hsym hP hd hρ hp (h N)
    linarith

/-! ## C192 -/

/-- **C192**: with a step below `2σ / (1 + d)`, where no vehicle has more than `d` neighbours, the squared distances of the plans from the
solution, over any number of iterations, add up to no more than a fixed number. -/
theorem C192_progress (P : Problem V m n E nb) (hsym : ∀ i j, nb i j → nb j i) {σ : ℝ} (hP : Spec.Curved P σ) (d : ℕ)
    (hd : ∀ j, (Finset.univ.filter fun i => nb i j).card ≤ d) {ρ : ℝ} (hρ : 0 < ρ) (hstep : ρ * (1 + d) < 2 * σ) {ys : V → E} {p : V → n → ℝ}
    {pn : V → V → n → ℝ} (hp : Spec.Prices P ys p pn) {s : ℕ → Vars V n} {y : ℕ → V → E} (h : ∀ k, AmaIterate P ρ (s k) (y k) (s (k + 1))) (N : ℕ) :
    ∑ k ∈ Finset.range N, Spec.apart P (y k) ys ≤
      Spec.square nb (fun i => (s 0).l i - p i) (fun i j => (s 0).ln i j - pn i j) / (ρ * (2 * σ - ρ * (1 + d))) := by
  have hpos : 0 < ρ * (2 * σ - ρ * (1 + d)) := mul_pos hρ (by linarith)
  rw [le_div_iff₀ hpos, ← vec_norm, ← vec_sub]
  have h1 := ama_sum hsym hP hd hρ hp h N
  rw [Finset.sum_add_distrib, ← Finset.mul_sum, ← Finset.mul_sum] at h1
  have h2 : 0 ≤ ρ ^ 2 * ∑ k ∈ Finset.range N, ‖vec nb (s (k + 1)).z (s (k + 1)).zn - plans P ys‖ ^ 2 :=
    mul_nonneg (sq_nonneg _) (Finset.sum_nonneg fun _ _ => sq_nonneg _)
  have h3 := sq_nonneg ‖vec nb (s N).l (s N).ln - vec nb p pn‖
  linarith

/-- **C192**: then the shared variables of all plans tend to those of the solution, the reported combined residual tends to zero, and the
total objective to that of the solution. -/
theorem C192_converges (P : Problem V m n E nb) (hsym : ∀ i j, nb i j → nb j i) {σ : ℝ} (hP : Spec.Curved P σ) (d : ℕ)
    (hd : ∀ j, (Finset.univ.filter fun i => nb i j).card ≤ d) {ρ : ℝ} (hρ : 0 < ρ) (hstep : ρ * (1 + d) < 2 * σ) {ys : V → E} {p : V → n → ℝ}
    {pn : V → V → n → ℝ} (hp : Spec.Prices P ys p pn) {s : ℕ → Vars V n} {y : ℕ → V → E} (h : ∀ k, AmaIterate P ρ (s k) (y k) (s (k + 1))) :
    (∀ i, Tendsto (fun k => P.S i (y k i)) atTop (𝓝 (P.S i (ys i)))) ∧
    Tendsto (fun k => combined P ρ (s k) (y k) (s (k + 1))) atTop (𝓝 0) ∧
    Tendsto (fun k => ∑ i, P.f i (y k i)) atTop (𝓝 (∑ i, P.f i (ys i))) := by
  have hpos : 0 < ρ * (2 * σ - ρ * (1 + d)) := mul_pos hρ (by linarith)
  have nn : ∀ k, 0 ≤ ρ * (2 * σ - ρ * (1 + d)) * Spec.apart P (y k) ys := fun k => mul_nonneg hpos.le (apart_nn P _ _)
  have nz : ∀ k, 0 ≤ ρ ^ 2 * ‖vec nb (s (k + 1)).z (s (k + 1)).zn - plans P ys‖ ^ 2 := fun k => by positivity
  have hsum : Summable fun k => ρ ^ 2 * ‖vec nb (s (k + 1)).z (s (k + 1)).zn - plans P ys‖ ^ 2 +
      ρ * (2 * σ - ρ * (1 + d)) * Spec.apart P (y k) ys :=
    summable_of_sum_range_le (fun k => add_nonneg (nz k) (nn k)) fun N => by
      have h1 := ama_sum hsym hP hd hρ hp h N
      have h3 := sq_nonneg ‖vec nb (s N).l (s N).ln - vec nb p pn‖
      exact (show _ ≤ ‖vec nb (s 0).l (s 0).ln - vec nb p pn‖ ^ 2 by linarith)
  have h0 := hsum.tendsto_atTop_zero
  have ha : Tendsto (fun k => Spec.apart P (y k) ys) atTop (𝓝 0) := by
    have h1 := squeeze_zero nn (fun k => le_add_of_nonneg_left (nz k)) h0
    have h2 := h1.div_const (ρ * (2 * σ - ρ * (1 + d)))
    simpa [mul_div_cancel_left₀ _ hpos.ne'] using h2
  have hz1 : Tendsto (fun k => ‖vec nb (s (k + 1)).z (s (k + 1)).zn - plans P ys‖) atTop (𝓝 0) := by
    have h1 := squeeze_zero nz (fun k => le_add_of_nonneg_right (nn k)) h0
    have h2 := h1.div_const (ρ ^ 2)
    have h3 : Tendsto (fun k => ‖vec nb (s (k + 1)).z (s (k + 1)).zn - plans P ys‖ ^ 2) atTop (𝓝 0) := by
      simpa [mul_div_cancel_left₀ _ (pow_pos hρ 2).ne'] using h2
    have h4 := (Real.continuous_sqrt.tendsto _).comp h3
    simpa [Function.comp_def, Real.sqrt_sq (norm_nonneg _)] using h4
  have hz0 : Tendsto (fun k => ‖vec nb (s k).z (s k).zn - plans P ys‖) atTop (𝓝 0) :=
    (tendsto_add_atTop_iff_nat (f := fun k => ‖vec nb (s k).z (s k).zn - plans P ys‖) 1).1 hz1
  have hx : Tendsto (fun k => ‖plans P (y k) - plans P ys‖) atTop (𝓝 0) := by
    have h1 : Tendsto (fun k => Real.sqrt ((1 + d) * Spec.apart P (y k) ys)) atTop (𝓝 0) := by
      have := (Real.continuous_sqrt.tendsto _).comp (ha.const_mul (1 + (d : ℝ)))
      simpa [Function.comp_def] using this
    refine squeeze_zero (fun _ => norm_nonneg _) (fun k => Real.le_sqrt_of_sq_le ?_) h1
    rw [norm_sub_rev]
    exact plans_dist P hd _ _
  refine ⟨fun i => ?_, ?_, ?_⟩
  · rw [tendsto_pi_nhds]
    intro j
    rw [tendsto_iff_norm_sub_tendsto_zero]
    refine squeeze_zero (fun _ => norm_nonneg _) (fun k => ?_) hx
    have := PiLp.norm_apply_le (plans P (y k) - plans P ys) ⟨i, Sum.inl j⟩
    simpa [plans, vec] using this
  · have hb : ∀ k, combined P ρ (s k) (y k) (s (k + 1)) ≤ ρ * ((‖plans P (y k) - plans P ys‖ + ‖vec nb (s (k + 1)).z (s (k + 1)).zn - plans P ys‖) ^ 2 +
        (‖vec nb (s (k + 1)).z (s (k + 1)).zn - plans P ys‖ + ‖vec nb (s k).z (s k).zn - plans P ys‖) ^ 2) := fun k => by
      rw [combined_eq]
      have tri : ∀ a b c : EuclideanSpace ℝ (Ix V n nb), ‖a - b‖ ≤ ‖a - c‖ + ‖b - c‖ := fun a b c => by
        have := norm_sub_le (a - c) (b - c)
        simpa using this
      refine mul_le_mul_of_nonneg_left (add_le_add ?_ ?_) hρ.le <;>
      exact pow_le_pow_left₀ (norm_nonneg _) (tri _ _ _) 2
    refine squeeze_zero (fun k => combined_nonneg P hρ _ _ _) hb ?_
    have := ((((hx.add hz1).pow 2).add ((hz1.add hz0).pow 2)).const_mul ρ)
    simpa using this
  · have hL : ∀ k, ‖vec nb (s k).l (s k).ln‖ ≤ ‖vec nb p pn‖ + ‖vec nb (s 0).l (s 0).ln - vec nb p pn‖ := fun k => by
      have h1 := ama_sum hsym hP hd hρ hp h k
      have h2 := Finset.sum_nonneg fun q (_ : q ∈ Finset.range k) => add_nonneg (nz q) (nn q)
      have h3 : ‖vec nb (s k).l (s k).ln - vec nb p pn‖ ≤ ‖vec nb (s 0).l (s 0).ln - vec nb p pn‖ :=
        (sq_le_sq₀ (norm_nonneg _) (norm_nonneg _)).1 (by linarith)
      have h4 := norm_sub_norm_le (vec nb (s k).l (s k).ln) (vec nb p pn)
      linarith
    set L := ‖vec nb p pn‖ + ‖vec nb (s 0).l (s 0).ln - vec nb p pn‖
    have hσ : 0 ≤ σ := by
      have : 0 ≤ ρ * (1 + d) := by positivity
      linarith
    have hlow : ∀ k, ∑ i, P.f i (ys i) - ‖vec nb p pn‖ * ‖plans P (y k) - plans P ys‖ ≤ ∑ i, P.f i (y k i) := fun k => by
      have h1 := prices_growth hsym hP hp fun i => ((h k).1 i).1
      have h2 := real_inner_le_norm (vec nb p pn) (plans P (y k) - plans P ys)
      have h3 := mul_nonneg (div_nonneg hσ (by norm_num : (0 : ℝ) ≤ 2)) (apart_nn P ys (y k))
      linarith
    have hup : ∀ k, ∑ i, P.f i (y k i) ≤ ∑ i, P.f i (ys i) + L * ‖plans P (y k) - plans P ys‖ := fun k => by
      have h1 := ama_growth hsym hP (h k).1 fun i => (hp.feasible i).1
      have h2 := real_inner_le_norm (vec nb (s k).l (s k).ln) (plans P ys - plans P (y k))
      have h3 := mul_nonneg (div_nonneg hσ (by norm_num : (0 : ℝ) ≤ 2)) (apart_nn P (y k) ys)
      rw [norm_sub_rev] at h2
      have h4 := mul_le_mul_of_nonneg_right (hL k) (norm_nonneg (plans P (y k) - plans P ys))
      linarith
    refine tendsto_of_tendsto_of_tendsto_of_le_of_le ?_ ?_ hlow hup
    · simpa using (hx.const_mul ‖vec nb p pn‖).const_sub (∑ i, P.f i (ys i))
    · simpa using (hx.const_mul L).const_add (∑ i, P.f i (ys i))

/-! ### The two vehicles on a line -/

theorem exP_curved : Spec.Curved exP 2 where
  convex _ := convex_univ
  curved i y _ y' _ t _ _ := by
    simp only [exP_S, dotProduct, Finset.univ_unique, Finset.sum_singleton, Pi.sub_apply]
    simp only [exP, smul_eq_mul]
    nlinarith

theorem exP_ama (ρ : ℝ) (hρ : 0 < ρ) (s : Vars Bool Unit) : ∃ t : (Bool → ℝ) × Vars Bool Unit, AmaIterate exP ρ s t.1 t.2 := by
  let y : Bool → ℝ := fun i => (2 * (if i then 3 else 0) - s.l i () - s.ln (!i) i ()) / 2
  have hz := fun i : Bool => C24_defined ρ hρ (exP.A i)
    (fun c hc => by
      funext k
      have := congrFun hc (Sum.inl ())
      cases i <;> simpa [exP, Matrix.mulVec, dotProduct] using this)
    (exP.b i) (exP.S i (y i)) (s.l i) (fun p : {j // i ≠ j} × Unit => exP.S p.1 (y p.1) p.2) (fun p => s.ln i p.1 p.2)
  choose z zn hzz using hz
  refine ⟨⟨y, ⟨z, fun i => lUpdate ρ (s.l i) (exP.S i (y i)) (z i),
    fun i j k => if h : i ≠ j then zn i (⟨j, h⟩, k) else 0,
    fun i j => lUpdate ρ (s.ln i j) (exP.S j (y j)) (fun k => if h : i ≠ j then zn i (⟨j, h⟩, k) else 0)⟩⟩, fun i => ⟨Set.mem_univ _, fun y' _ => ?_⟩,
    fun i => ?_, fun i => rfl, fun i j hij => rfl⟩
  · cases i
    · have : (Finset.univ.filter fun j : Bool => false ≠ j) = {true} := by decide
      simp only [amaObjective, this, Finset.sum_singleton]
      simp [exP, dotProduct, y]
      nlinarith [sq_nonneg (y' - (-s.l false () - s.ln true false ()) / 2)]
    · have : (Finset.univ.filter fun j : Bool => true ≠ j) = {false} := by decide
      simp only [amaObjective, this, Finset.sum_singleton]
      simp [exP, dotProduct, y]
      nlinarith [sq_nonneg (y' - (2 * 3 - s.l true () - s.ln false true ()) / 2)]
  · have e : (fun p : {j // i ≠ j} × Unit => if h : i ≠ p.1 then zn i (⟨p.1, h⟩, p.2) else 0) = zn i := by
      funext p
      rw [dif_pos p.1.2]
    have := hzz i
    rw [← e] at this
    exact this

/-- With a step of 1, whatever they begin with, they come to stand at 1 and 2. -/
example (s0 : Vars Bool Unit) : ∃ (s : ℕ → Vars Bool Unit) (y : ℕ → Bool → ℝ), s 0 = s0 ∧ (∀ k, AmaIterate exP 1 (s k) (y k) (s (k + 1))) ∧
    Tendsto (fun k => y k false) atTop (𝓝 1) ∧ Tendsto (fun k => y k true) atTop (𝓝 2) := by
  choose t ht using exP_ama 1 one_pos
  let s : ℕ → Vars Bool Unit := fun k => k.rec s0 fun _ s => (t s).2
  have hit : ∀ k, AmaIterate exP 1 (s k) (t (s k)).1 (s (k + 1)) := fun k => ht (s k)
  have hp := C190_prices exP (fun i j h => h.symm) exP_convex (by norm_num) exIterate
  obtain ⟨h1, -, -⟩ := C192_converges exP (fun i j h => h.symm) exP_curved 1 (fun j => by cases j <;> decide) one_pos (by norm_num) hp hit
  exact ⟨s, fun k => (t (s k)).1, rfl, hit, by simpa [exP_S] using (tendsto_pi_nhds.1 (h1 false)) (), by simpa [exP_S] using (tendsto_pi_nhds.1 (h1 true)) ()⟩

end Verif.ADMM
