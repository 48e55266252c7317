import Verif.ADMM.ZUpdate
import Mathlib.Analysis.Convex.Function
import Mathlib.LinearAlgebra.AffineSpace.AffineMap
import Mathlib.Algebra.BigOperators.Ring.Finset
import Mathlib.Data.Real.Basic

/-! # Fixed points of the distributed iteration solve the central problem (C61) -/

set_option linter.unusedSectionVars false

namespace Verif.ADMM

open Matrix

variable {V m n : Type} [Fintype V] [DecidableEq V] [Fintype m] [Fintype n]
variable {E : Type} [AddCommGroup E] [Module ℝ E]
variable (nb : V → V → Prop) [∀ i j, Decidable (nb i j)]

/-! ## Model -/

/-- The variables of all updaters, admm.py:34-40: `z_i`, `l_i` the copy and multiplier of the own shared variables, and `z_ij`,
`l_ij` those of the shared variables of the neighbour `j`. -/
structure Vars (V n : Type) where
  z : V → n → ℝ
  l : V → n → ℝ
  zn : V → V → n → ℝ
  ln : V → V → n → ℝ

/-- What the fleet solves: local objective `f i`, local constraints `C i`, the shared variables as an affine function `S i` of
the local ones, and the coupling equations `A i (x_i, x_j) = b i` known to updater `i`. -/
structure Problem (V m n E : Type) [AddCommGroup E] [Module ℝ E] (nb : V → V → Prop) where
  f : V → E → ℝ
  C : V → Set E
  S : V → E →ᵃ[ℝ] (n → ℝ)
  A : (i : V) → Matrix m (n ⊕ ({j // nb i j} × n)) ℝ
  b : V → m → ℝ

variable {nb}

/-- The objective of the x-update, admm.py:84-100 (without `AMA`), after communication: `z_ji`, `l_ji` are the values held by the
neighbours, see C26. -/
noncomputable def xObjective (P : Problem V m n E nb) (ρ : ℝ) (s : Vars V n) (i : V) (y : E) : ℝ :=
  P.f i y + (s.l i ⬝ᵥ (P.S i y - s.z i) + ρ / 2 * ((P.S i y - s.z i) ⬝ᵥ (P.S i y - s.z i))) +
    ∑ j with nb i j, (s.ln j i ⬝ᵥ (P.S i y - s.zn j i) + ρ / 2 * ((P.S i y - s.zn j i) ⬝ᵥ (P.S i y - s.zn j i)))

/-- The x-update of updater `i`: the solver returns a minimiser. -/
def XUpdate (P : Problem V m n E nb) (ρ : ℝ) (s : Vars V n) (i : V) (y : E) : Prop :=
  y ∈ P.C i ∧ ∀ y' ∈ P.C i, xObjective P ρ s i y ≤ xObjective P ρ s i y'

/-- One iteration of all updaters, admm.py:584-612 without acceleration, at time 0 (so that splines are not shifted): from `s` to `s'`, with
solutions `y` of the x-updates. -/
def Iterate (P : Problem V m n E nb) (ρ : ℝ) (s : Vars V n) (y : V → E) (s' : Vars V n) : Prop :=
  (∀ i, XUpdate P ρ s i (y i)) ∧
  (∀ i, ZUpdate ρ (P.A i) (P.b i) (P.S i (y i)) (s.l i) (fun p => P.S p.1 (y p.1) p.2) (fun p => s.ln i p.1 p.2)
    (s'.z i) (fun p => s'.zn i p.1 p.2)) ∧
  (∀ i, s'.l i = lUpdate ρ (s.l i) (P.S i (y i)) (s'.z i)) ∧
  (∀ i j, nb i j → s'.ln i j = lUpdate ρ (s.ln i j) (P.S j (y j)) (s'.zn i j))

/-! ## Specification: the central problem -/

/-- Local and coupling constraints of all vehicles hold. -/
def Spec.Feasible (P : Problem V m n E nb) (y : V → E) : Prop :=
  ∀ i, y i ∈ P.C i ∧ Spec.Coupled (P.A i) (P.b i) (P.S i (y i)) (fun p => P.S p.1 (y p.1) p.2)

/-! ## Lemmas -/

theorem slope_nonneg {a c : ℝ} (h : ∀ t : ℝ, 0 < t → t ≤ 1 → 0 ≤ a * t + c * t ^ 2) : 0 ≤ a := by
  by_contra ha
  push Not at ha
  rcases le_or_gt c 0 with hc | hc
  · have := h 1 one_pos le_rfl; nlinarith
  · have hd : 0 < c - a := by linarith
    have ht : 0 < -a / (c - a) / 2 := by have := div_pos (neg_pos.2 ha) hd; linarith
    have h1 : -a / (c - a) ≤ 1 := by rw [div_le_one hd]; linarith
    have := h (-a / (c - a) / 2) ht (by linarith)
    have e : a * (-a / (c - a) / 2) + c * (-a / (c - a) / 2) ^ 2 = (-a / (c - a) / 2) * (a + c * (-a / (c - a)) / 2) := by ring
    rw [e] at this
    have h2 : 0 ≤ a + c * (-a / (c - a)) / 2 := nonneg_of_mul_nonneg_right this ht
    have h3 : c * (-a / (c - a)) < -a := by
      rw [mul_div_assoc', div_lt_iff₀ hd]; nlinarith
    linarith

theorem lUpdate_fixed {ρ : ℝ} (hρ : ρ ≠ 0) {l x z : n → ℝ} (h : l = lUpdate ρ l x z) : z = x := by
  unfold lUpdate at h
  have : ρ • (x - z) = 0 := by simpa using h.symm
  rcases smul_eq_zero.1 this with h | h
  · exact absurd h hρ
  · exact (sub_eq_zero.1 h).symm

/-- First-order optimality of the x-update when all copies agree. -/
theorem xUpdate_slope (P : Problem V m n E nb) (hf : ∀ i, ConvexOn ℝ (P.C i) (P.f i)) {ρ : ℝ} {s : Vars V n} {i : V} {y : E}
    (h : XUpdate P ρ s i y) (hz : s.z i = P.S i y) (hzn : ∀ j, nb i j → s.zn j i = P.S i y) {y' : E} (hy' : y' ∈ P.C i) :
    0 ≤ P.f i y' - P.f i y + (s.l i ⬝ᵥ (P.S i y' - P.S i y) + ∑ j with nb i j, s.ln j i ⬝ᵥ (P.S i y' - P.S i y)) := by
  obtain ⟨hy, hmin⟩ := h
  have hS : ∀ t : ℝ, P.S i (AffineMap.lineMap y y' t) - P.S i y = t • (P.S i y' - P.S i y) := by
    intro t
    rw [AffineMap.apply_lineMap, AffineMap.lineMap_apply]
    simp
  refine slope_nonneg (c := (1 + ∑ j with nb i j, (1 : ℝ)) * (ρ / 2) * ((P.S i y' - P.S i y) ⬝ᵥ (P.S i y' - P.S i y))) fun t h0 h1 => ?_
  have hl : AffineMap.lineMap y y' t = (1 - t) • y + t • y' := by
    rw [AffineMap.lineMap_apply_module]
  have hmem : AffineMap.lineMap y y' t ∈ P.C i := by
    rw [hl]; exact (hf i).1 hy hy' (by linarith) h0.le (by ring)
  have hc := (hf i).2 hy hy' (show (0 : ℝ) ≤ 1 - t by linarith) h0.le (by ring)
  rw [← hl] at hc
  have hm := hmin _ hmem
  unfold xObjective at hm
  rw [hz, hS] at hm
  have e1 : (∑ j with nb i j, (s.ln j i ⬝ᵥ (P.S i y - s.zn j i) + ρ / 2 * ((P.S i y - s.zn j i) ⬝ᵥ (P.S i y - s.zn j i)))) = 0 := by
    refine Finset.sum_eq_zero fun j hj => ?_
    rw [hzn j (Finset.mem_filter.1 hj).2]; simp
  have e2 : (∑ j with nb i j, (s.ln j i ⬝ᵥ (P.S i (AffineMap.lineMap y y' t) - s.zn j i) +
      ρ / 2 * ((P.S i (AffineMap.lineMap y y' t) - s.zn j i) ⬝ᵥ (P.S i (AffineMap.lineMap y y' t) - s.zn j i)))) =
      t * (∑ j with nb i j, s.ln j i ⬝ᵥ (P.S i y' - P.S i y)) +
        (∑ j with nb i j, (1 : ℝ)) * (ρ / 2 * t ^ 2 * ((P.S i y' - P.S i y) ⬝ᵥ (P.S i y' - P.S i y))) := by
    rw [Finset.mul_sum, Finset.sum_mul, ← Finset.sum_add_distrib]
    refine Finset.sum_congr rfl fun j hj => ?_
    rw [hzn j (Finset.mem_filter.1 hj).2, hS]
    simp only [dotProduct_smul, smul_dotProduct, smul_eq_mul]
    ring
  rw [e1, e2] at hm
  simp only [sub_self, dotProduct_zero, dotProduct_smul, smul_dotProduct, smul_eq_mul, mul_zero, add_zero] at hm hc
  generalize (P.S i y' - P.S i y) ⬝ᵥ (P.S i y' - P.S i y) = q at hm ⊢
  generalize (∑ j with nb i j, s.ln j i ⬝ᵥ (P.S i y' - P.S i y)) = r at hm ⊢
  generalize s.l i ⬝ᵥ (P.S i y' - P.S i y) = r' at hm ⊢
  generalize (∑ j with nb i j, (1 : ℝ)) = d at hm ⊢
  nlinarith

/-! ## Property -/

/-- **C61** In a convex problem with symmetric neighbourhoods: when an iteration of the distributed solver leaves the copies and
the multipliers as they were, then the trajectories satisfy the coupling and the local constraints, and no other trajectories
that satisfy them have a lower total objective. -/
theorem C61_fixed_point (P : Problem V m n E nb) (hsym : ∀ i j, nb i j → nb j i) (hf : ∀ i, ConvexOn ℝ (P.C i) (P.f i))
    (ρ : ℝ) (hρ : 0 < ρ) (s : Vars V n) (y : V → E) (h : Iterate P ρ s y s) :
    Spec.Feasible P y ∧ ∀ y', Spec.Feasible P y' → ∑ i, P.f i (y i) ≤ ∑ i, P.f i (y' i) := by
  obtain ⟨hx, hz, hl, hln⟩ := h
  have ez : ∀ i, s.z i = P.S i (y i) := fun i => lUpdate_fixed hρ.ne' (hl i)
  have ezn : ∀ i j, nb i j → s.zn i j = P.S j (y j) := fun i j hij => lUpdate_fixed hρ.ne' (hln i j hij)
  have hcop : ∀ i, (fun p : {j // nb i j} × n => s.zn i p.1 p.2) = fun p => P.S p.1 (y p.1) p.2 := fun i =>
    funext fun p => by rw [ezn i p.1 p.1.2]
  have hcoup : ∀ i, Spec.Coupled (P.A i) (P.b i) (P.S i (y i)) (fun p => P.S p.1 (y p.1) p.2) := fun i => by
    have := C24_feasible _ _ _ _ _ _ _ _ _ (hz i)
    rwa [hcop i, ez i] at this
  refine ⟨fun i => ⟨(hx i).1, hcoup i⟩, fun y' hy' => ?_⟩
  have hsl : ∀ i, _ := fun i => xUpdate_slope P hf (hx i) (ez i) (fun j hij => ezn j i (hsym i j hij)) (hy' i).1
  have hsum := Finset.sum_nonneg fun i (_ : i ∈ Finset.univ) => hsl i
  rw [Finset.sum_add_distrib, Finset.sum_sub_distrib] at hsum
  have hmult : ∀ i, s.l i ⬝ᵥ (P.S i (y' i) - P.S i (y i)) + ∑ j with nb i j, s.ln i j ⬝ᵥ (P.S j (y' j) - P.S j (y j)) = 0 := by
    intro i
    obtain ⟨mu, -, hi, hj⟩ := hz i
    have hlu := lUpdate_zvec hρ.ne' (P.A i) (Sum.elim (s.l i) (fun p : {j // nb i j} × n => s.ln i p.1 p.2))
      (Sum.elim (P.S i (y i)) (fun p : {j // nb i j} × n => P.S p.1 (y p.1) p.2)) mu
    rw [← elim_comp (zvec _ _ _ _), ← hi, ← hj, hcop i, ez i] at hlu
    have hlu' : (P.A i)ᵀ *ᵥ mu = Sum.elim (s.l i) (fun p : {j // nb i j} × n => s.ln i p.1 p.2) := by
      rw [← hlu]; simp [lUpdate]
    have hd := transpose_dot (P.A i) mu (Sum.elim (P.S i (y' i)) (fun p : {j // nb i j} × n => P.S p.1 (y' p.1) p.2) -
      Sum.elim (P.S i (y i)) (fun p : {j // nb i j} × n => P.S p.1 (y p.1) p.2))
    rw [Matrix.mulVec_sub, (hy' i).2, hcoup i, sub_self, dotProduct_zero, hlu'] at hd
    rw [← hd]
    simp only [dotProduct, Fintype.sum_sum_type, Pi.sub_apply, Sum.elim_inl, Sum.elim_inr, Fintype.sum_prod_type]
    congr 1
    exact Finset.sum_subtype (Finset.univ.filter (nb i)) (by simp) _
  have hswap : ∑ i, ∑ j with nb i j, s.ln j i ⬝ᵥ (P.S i (y' i) - P.S i (y i))
      = ∑ i, ∑ j with nb i j, s.ln i j ⬝ᵥ (P.S j (y' j) - P.S j (y j)) := by
    simp only [Finset.sum_filter]
    rw [Finset.sum_comm]
    refine Finset.sum_congr rfl fun i _ => Finset.sum_congr rfl fun j _ => ?_
    by_cases hij : nb i j
    · rw [if_pos hij, if_pos (hsym i j hij)]
    · rw [if_neg hij, if_neg (fun h => hij (hsym j i h))]
  have htot : ∑ i, (s.l i ⬝ᵥ (P.S i (y' i) - P.S i (y i)) + ∑ j with nb i j, s.ln j i ⬝ᵥ (P.S i (y' i) - P.S i (y i))) = 0 := by
    rw [Finset.sum_add_distrib, hswap, ← Finset.sum_add_distrib]
    exact Finset.sum_eq_zero fun i _ => hmult i
  linarith

/-! ### Two vehicles on a line that have to be one apart and want to be at 0 and 3 -/

noncomputable def exP : Problem Bool Unit Unit ℝ (fun i j => i ≠ j) where
  f i y := (y - if i then 3 else 0) ^ 2
  C _ := Set.univ
  S _ := (LinearMap.pi fun _ => LinearMap.id).toAffineMap
  A i := Matrix.of fun _ => Sum.elim (fun _ => if i then 1 else -1) (fun _ => if i then -1 else 1)
  b _ := fun _ => 1

noncomputable def exS : Vars Bool Unit where
  z i := fun _ => if i then 2 else 1
  l i := fun _ => if i then 1 else -1
  zn i _ := fun _ => if i then 1 else 2
  ln i _ := fun _ => if i then -1 else 1

theorem exP_S (i : Bool) (y : ℝ) (k : Unit) : exP.S i y k = y := rfl

theorem exF (p : {j : Bool // false ≠ j}) : (p : Bool) = true := by
  obtain ⟨j, h⟩ := p; cases j <;> simp_all

theorem exT (p : {j : Bool // true ≠ j}) : (p : Bool) = false := by
  obtain ⟨j, h⟩ := p; cases j <;> simp_all

/-- They settle at 1 and 2. -/
theorem exIterate : Iterate exP 2 exS (fun i => if i then 2 else 1) exS := by
  refine ⟨fun i => ⟨Set.mem_univ _, fun y' _ => ?_⟩, fun i => ⟨fun _ => 1, ?_, ?_, ?_⟩, fun i => ?_, fun i j hij => ?_⟩
  · cases i
    · have : (Finset.univ.filter fun j : Bool => false ≠ j) = {true} := by decide
      simp only [xObjective, this, Finset.sum_singleton]
      simp [exP, exS, dotProduct]
      nlinarith [sq_nonneg (y' - 1)]
    · have : (Finset.univ.filter fun j : Bool => true ≠ j) = {false} := by decide
      simp only [xObjective, this, Finset.sum_singleton]
      simp [exP, exS, dotProduct]
      nlinarith [sq_nonneg (y' - 2)]
  · funext k
    cases i <;> simp [gmat, hvec, fvec, exP, exS, Matrix.mulVec, dotProduct, Matrix.mul_apply, exF, exT] <;> norm_num
  · funext k
    cases i <;> simp [zvec, fvec, exP, exS, Matrix.mulVec, dotProduct]
  · funext k
    cases i <;> simp [zvec, fvec, exP, exS, Matrix.mulVec, dotProduct, exF, exT]
  · cases i <;> (funext k; simp [exS, lUpdate, exP_S])
  · cases i <;> cases j <;> first | exact absurd rfl hij | (funext k; simp [exS, lUpdate, exP_S])

example (y' : Bool → ℝ) (h : Spec.Feasible exP y') : 2 ≤ (y' true - 3) ^ 2 + (y' false - 0) ^ 2 := by
  have hf : ∀ i, ConvexOn ℝ (exP.C i) (exP.f i) := fun i => by
    refine ⟨convex_univ, fun x _ y _ a b ha hb hab => ?_⟩
    obtain rfl : b = 1 - a := by linarith
    simp only [exP, smul_eq_mul]
    nlinarith [mul_nonneg (mul_nonneg ha hb) (sq_nonneg (x - y))]
  have := (C61_fixed_point exP (fun i j h => h.symm) hf 2 (by norm_num) exS _ exIterate).2 y' h
  simp only [Fintype.sum_bool, exP] at this
  norm_num at this
  linarith

end Verif.ADMM
