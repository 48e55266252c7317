import Mathlib.LinearAlgebra.Matrix.NonsingularInverse
import Mathlib.LinearAlgebra.Matrix.DotProduct
import Mathlib.LinearAlgebra.Matrix.Notation
import Mathlib.LinearAlgebra.Matrix.PosDef
import Mathlib.Tactic.Linarith
import Mathlib.Tactic.NormNum
import Mathlib.Tactic.FinCases

/-! # The z-update and l-update of the distributed solver (C24) -/

set_option linter.unusedSectionVars false

namespace Verif.ADMM

open Matrix

variable {K : Type} [Field K] [LinearOrder K] [IsStrictOrderedRing K]
variable {m n : Type} [Fintype m] [Fintype n]

/-! ## Model -/

/-- admm.py:150: `f = -(l + rho*x)`. -/
def fvec (ρ : K) (l x : n → K) : n → K := -(l + ρ • x)

/-- admm.py:151: `G = -(1/rho)*mtimes(A, A.T)`. -/
def gmat (ρ : K) (A : Matrix m n K) : Matrix m m K := -(1 / ρ) • (A * Aᵀ)

/-- admm.py:152: `h = b + (1/rho)*mtimes(A, f)`. -/
def hvec (ρ : K) (A : Matrix m n K) (b : m → K) (f : n → K) : m → K := b + (1 / ρ) • (A *ᵥ f)

/-- admm.py:154: `z = -(1/rho)*(mtimes(A.T, mu)+f)`. -/
def zvec (ρ : K) (A : Matrix m n K) (f : n → K) (mu : m → K) : n → K := -(1 / ρ) • (Aᵀ *ᵥ mu + f)

/-- The z-update, admm.py:145-158, on the stacked vectors `(l_i, l_ij)` and `(x_i, x_j)`, in the coordinates of the future piece
of the splines; `ni` and `nj` are the sizes of `q_i_struct` and `q_ij_struct`.  `z` is a result when the linear system of
admm.py:153 has been solved. -/
def ZUpdate {ni nj : Type} [Fintype ni] [Fintype nj] (ρ : K) (A : Matrix m (ni ⊕ nj) K) (b : m → K)
    (x_i l_i : ni → K) (x_j l_ij : nj → K) (z_i : ni → K) (z_ij : nj → K) : Prop :=
  let l := Sum.elim l_i l_ij
  let x := Sum.elim x_i x_j
  let f := fvec ρ l x
  ∃ mu, gmat ρ A *ᵥ mu = hvec ρ A b f ∧ z_i = zvec ρ A f mu ∘ Sum.inl ∧ z_ij = zvec ρ A f mu ∘ Sum.inr

/-- The multiplier update, admm.py:262-263. -/
def lUpdate (ρ : K) (l x z : n → K) : n → K := l + ρ • (x - z)

/-! ## Specification -/

/-- The part of the augmented Lagrangian that depends on `z` for one vector of variables. -/
def Spec.lagr (ρ : K) (x l z : n → K) : K := l ⬝ᵥ (x - z) + ρ / 2 * ((x - z) ⬝ᵥ (x - z))

/-- `(z_i, z_ij)` satisfies the coupling equations `A z = b` of an updater. -/
def Spec.Coupled {ni nj : Type} [Fintype ni] [Fintype nj] (A : Matrix m (ni ⊕ nj) K) (b : m → K) (z_i : ni → K) (z_ij : nj → K) : Prop :=
  A *ᵥ Sum.elim z_i z_ij = b

/-! ## Lemmas -/

theorem dot_self_nonneg (v : n → K) : 0 ≤ v ⬝ᵥ v := Finset.sum_nonneg fun i _ => mul_self_nonneg (v i)

theorem dot_self_eq_zero {v : n → K} (h : v ⬝ᵥ v = 0) : v = 0 := by
  unfold dotProduct at h
  rw [Finset.sum_eq_zero_iff_of_nonneg (fun i _ => mul_self_nonneg (v i))] at h
  funext i
  simpa using h i (Finset.mem_univ i)

/-- The multipliers after the update are in the row space of `A`. -/
theorem lUpdate_zvec {ρ : K} (hρ : ρ ≠ 0) (A : Matrix m n K) (l x : n → K) (mu : m → K) :
    lUpdate ρ l x (zvec ρ A (fvec ρ l x) mu) = Aᵀ *ᵥ mu := by
  funext i
  simp only [lUpdate, zvec, fvec, Pi.add_apply, Pi.smul_apply, Pi.sub_apply, Pi.neg_apply, smul_eq_mul, neg_smul]
  field_simp
  ring

theorem zvec_feasible {ρ : K} (A : Matrix m n K) (b : m → K) (f : n → K) (mu : m → K)
    (h : gmat ρ A *ᵥ mu = hvec ρ A b f) : A *ᵥ zvec ρ A f mu = b := by
  unfold zvec
  have h1 : gmat ρ A *ᵥ mu = -(1 / ρ) • (A *ᵥ (Aᵀ *ᵥ mu)) := by
    unfold gmat
    rw [Matrix.smul_mulVec, Matrix.mulVec_mulVec]
  rw [h1] at h
  rw [Matrix.mulVec_smul, Matrix.mulVec_add, smul_add, h]
  unfold hvec
  funext i
  simp only [Pi.add_apply, Pi.smul_apply, smul_eq_mul, Pi.neg_apply, neg_smul]
  ring

theorem transpose_dot (A : Matrix m n K) (mu : m → K) (v : n → K) : (Aᵀ *ᵥ mu) ⬝ᵥ v = mu ⬝ᵥ (A *ᵥ v) := by
  rw [Matrix.mulVec_transpose, Matrix.dotProduct_mulVec]

/-- Completing the square around the update. -/
theorem lagr_diff {ρ : K} (hρ : ρ ≠ 0) (A : Matrix m n K) (l x : n → K) (mu : m → K) (z' : n → K)
    (hz : A *ᵥ z' = A *ᵥ zvec ρ A (fvec ρ l x) mu) :
    Spec.lagr ρ x l z' - Spec.lagr ρ x l (zvec ρ A (fvec ρ l x) mu)
      = ρ / 2 * ((z' - zvec ρ A (fvec ρ l x) mu) ⬝ᵥ (z' - zvec ρ A (fvec ρ l x) mu)) := by
  have hl := lUpdate_zvec hρ A l x mu
  have h0 := transpose_dot A mu (z' - zvec ρ A (fvec ρ l x) mu)
  rw [Matrix.mulVec_sub, hz, sub_self, dotProduct_zero, ← hl] at h0
  generalize zvec ρ A (fvec ρ l x) mu = z at *
  unfold lUpdate at h0
  unfold Spec.lagr
  simp only [dotProduct, Pi.add_apply, Pi.sub_apply, Pi.smul_apply, smul_eq_mul, Finset.mul_sum] at *
  rw [← Finset.sum_add_distrib, ← Finset.sum_add_distrib, ← Finset.sum_sub_distrib]
  rw [← sub_eq_zero, ← Finset.sum_sub_distrib]
  rw [← neg_eq_zero, ← h0, ← Finset.sum_neg_distrib]
  refine Finset.sum_congr rfl fun i _ => ?_
  ring

/-! ## Properties -/

section
variable {ni nj : Type} [Fintype ni] [Fintype nj]

theorem elim_comp (z : ni ⊕ nj → K) : Sum.elim (z ∘ Sum.inl) (z ∘ Sum.inr) = z := Sum.elim_comp_inl_inr z

/-- **C24** The z-update satisfies the coupling equations. -/
theorem C24_feasible (ρ : K) (A : Matrix m (ni ⊕ nj) K) (b : m → K) (x_i l_i : ni → K) (x_j l_ij : nj → K)
    (z_i : ni → K) (z_ij : nj → K) (h : ZUpdate ρ A b x_i l_i x_j l_ij z_i z_ij) : Spec.Coupled A b z_i z_ij := by
  obtain ⟨mu, hmu, rfl, rfl⟩ := h
  unfold Spec.Coupled
  rw [elim_comp]
  exact zvec_feasible _ _ _ _ hmu

/-- **C24** The z-update minimises the augmented Lagrangian over all points that satisfy the coupling equations, and every other
such point is strictly worse. -/
theorem C24_optimal (ρ : K) (hρ : 0 < ρ) (A : Matrix m (ni ⊕ nj) K) (b : m → K) (x_i l_i : ni → K) (x_j l_ij : nj → K)
    (z_i : ni → K) (z_ij : nj → K) (h : ZUpdate ρ A b x_i l_i x_j l_ij z_i z_ij)
    (w_i : ni → K) (w_ij : nj → K) (hw : Spec.Coupled A b w_i w_ij) :
    Spec.lagr ρ x_i l_i z_i + Spec.lagr ρ x_j l_ij z_ij ≤ Spec.lagr ρ x_i l_i w_i + Spec.lagr ρ x_j l_ij w_ij ∧
    (Spec.lagr ρ x_i l_i w_i + Spec.lagr ρ x_j l_ij w_ij ≤ Spec.lagr ρ x_i l_i z_i + Spec.lagr ρ x_j l_ij z_ij →
      w_i = z_i ∧ w_ij = z_ij) := by
  have hf := C24_feasible ρ A b x_i l_i x_j l_ij z_i z_ij h
  obtain ⟨mu, hmu, hi, hj⟩ := h
  have split : ∀ v_i v_ij, Spec.lagr ρ (Sum.elim x_i x_j) (Sum.elim l_i l_ij) (Sum.elim v_i v_ij)
      = Spec.lagr ρ x_i l_i v_i + Spec.lagr ρ x_j l_ij v_ij := by
    intro v_i v_ij
    simp only [Spec.lagr, dotProduct, Fintype.sum_sum_type, Sum.elim_inl, Sum.elim_inr, Pi.sub_apply]
    ring
  have hz : Sum.elim z_i z_ij = zvec ρ A (fvec ρ (Sum.elim l_i l_ij) (Sum.elim x_i x_j)) mu := by
    rw [hi, hj, elim_comp]
  have key := lagr_diff hρ.ne' A (Sum.elim l_i l_ij) (Sum.elim x_i x_j) mu (Sum.elim w_i w_ij)
    (by rw [← hz]; exact hw.trans hf.symm)
  rw [← hz, split, split] at key
  have hnn := dot_self_nonneg (Sum.elim w_i w_ij - Sum.elim z_i z_ij)
  have hρ2 : 0 < ρ / 2 := by linarith
  refine ⟨by nlinarith [mul_nonneg hρ2.le hnn], fun hle => ?_⟩
  have h0 : (Sum.elim w_i w_ij - Sum.elim z_i z_ij) ⬝ᵥ (Sum.elim w_i w_ij - Sum.elim z_i z_ij) = 0 := by
    have : ρ / 2 * ((Sum.elim w_i w_ij - Sum.elim z_i z_ij) ⬝ᵥ (Sum.elim w_i w_ij - Sum.elim z_i z_ij)) ≤ 0 := by linarith
    by_contra hne
    have : 0 < (Sum.elim w_i w_ij - Sum.elim z_i z_ij) ⬝ᵥ (Sum.elim w_i w_ij - Sum.elim z_i z_ij) := lt_of_le_of_ne hnn (Ne.symm hne)
    nlinarith [mul_pos hρ2 this]
  have h1 := sub_eq_zero.1 (dot_self_eq_zero h0)
  exact ⟨funext fun i => by simpa using congrFun h1 (Sum.inl i), funext fun i => by simpa using congrFun h1 (Sum.inr i)⟩

variable [DecidableEq m]

/-- **C24** The update is defined, whatever the iterates, when no coupling equation is a combination of the others. -/
theorem C24_defined (ρ : K) (hρ : 0 < ρ) (A : Matrix m (ni ⊕ nj) K) (hA : ∀ c : m → K, Aᵀ *ᵥ c = 0 → c = 0) (b : m → K)
    (x_i l_i : ni → K) (x_j l_ij : nj → K) : ∃ z_i z_ij, ZUpdate ρ A b x_i l_i x_j l_ij z_i z_ij := by
  have hinj : Function.Injective (gmat ρ A).mulVec := by
    intro u v huv
    have h0 : gmat ρ A *ᵥ (u - v) = 0 := by rw [Matrix.mulVec_sub]; exact sub_eq_zero.2 huv
    have h1 : A *ᵥ (Aᵀ *ᵥ (u - v)) = 0 := by
      unfold gmat at h0
      rw [Matrix.smul_mulVec] at h0
      rcases smul_eq_zero.1 h0 with h | h
      · exact absurd h (by simp [hρ.ne'])
      · rwa [Matrix.mulVec_mulVec]
    have h2 : (Aᵀ *ᵥ (u - v)) ⬝ᵥ (Aᵀ *ᵥ (u - v)) = 0 := by rw [transpose_dot, h1, dotProduct_zero]
    exact sub_eq_zero.1 (hA _ (dot_self_eq_zero h2))
  have hu : IsUnit (gmat ρ A) := Matrix.mulVec_injective_iff_isUnit.1 hinj
  obtain ⟨mu, hmu⟩ := (Matrix.mulVec_surjective_iff_isUnit.2 hu) (hvec ρ A b (fvec ρ (Sum.elim l_i l_ij) (Sum.elim x_i x_j)))
  exact ⟨_, _, mu, hmu, rfl, rfl⟩

/-- When a coupling equation is a combination of the others, the system that is solved is singular. -/
theorem C24_singular (ρ : K) (A : Matrix m (ni ⊕ nj) K) (c : m → K) (hc : c ≠ 0) (h : Aᵀ *ᵥ c = 0) : ¬ IsUnit (gmat ρ A) := by
  intro hu
  refine hc ((Matrix.mulVec_injective_iff_isUnit.2 hu) ?_)
  unfold gmat
  rw [Matrix.smul_mulVec, ← Matrix.mulVec_mulVec, h]
  simp

end

/-- Two vehicles on a line that have to be one apart, with estimates 0 and 3: the update moves each by one. -/
example : ZUpdate (K := ℚ) (ni := Fin 1) (nj := Fin 1) 2 (!![-1, 1].submatrix id (fun s : Fin 1 ⊕ Fin 1 => Sum.elim (fun _ => 0) (fun _ => 1) s)) ![1]
    ![0] ![0] ![3] ![0] ![1] ![2] := by
  refine ⟨![2], ?_, ?_, ?_⟩
  · funext i; fin_cases i
    simp [gmat, hvec, fvec, Matrix.mulVec, dotProduct, Matrix.mul_apply, Fintype.sum_sum_type]
    norm_num
  · funext i; fin_cases i
    simp [zvec, fvec, Matrix.mulVec, dotProduct]
  · funext i; fin_cases i
    simp [zvec, fvec, Matrix.mulVec, dotProduct]
    norm_num

end Verif.ADMM
