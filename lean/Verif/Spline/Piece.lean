import Verif.Spline.Curry
import Mathlib.Tactic.LinearCombination

/-! # One polynomial piece of a spline

Helper lemmas: derivative, values at the ends and uniqueness of the coefficients on one knot interval. -/

set_option linter.unusedSectionVars false

namespace Verif.Spline

open Finset Polynomial

variable {K : Type*} [Field K] [LinearOrder K] [IsStrictOrderedRing K]

/-- The polynomial with coefficients `c 0, …, c d` on the interval `m`. -/
noncomputable def pieceSum (k : ℕ → K) (m d : ℕ) (c : ℕ → K) : K[X] :=
  ∑ j ∈ range (d + 1), C (c j) * pieceP k m d (m - d + j)

/-- Coefficients of the derivative of a piece. -/
def diffC (k : ℕ → K) (m d : ℕ) (c : ℕ → K) (j : ℕ) : K :=
  ((d : K) + 1) / (k (m + 1 + j) - k (m - d + j)) * (c (j + 1) - c j)

theorem pieceSum_derivative {k : ℕ → K} (hk : Monotone k) {m : ℕ} (d : ℕ) (hd : d + 1 ≤ m)
    (c : ℕ → K) :
    derivative (pieceSum k m (d + 1) c) = pieceSum k m d (diffC k m d c) := by
  unfold pieceSum diffC
  rw [derivative_sum]
  -- the function of index `i` with its two neighbours
  set P : ℕ → K[X] := fun j => C (((d : K) + 1) / (k (m + j) - k (m - (d + 1) + j))) * pieceP k m d (m - (d + 1) + j) with hP
  have e : ∀ j, derivative (C (c j) * pieceP k m (d + 1) (m - (d + 1) + j)) = C (c j) * (P j - P (j + 1)) := by
    intro j
    rw [derivative_C_mul, pieceP_derivative hk, hP]
    dsimp only
    rw [show m - (d + 1) + j + d + 1 = m + j by omega, show m - (d + 1) + j + d + 2 = m + (j + 1) by omega,
      show m - (d + 1) + j + 1 = m - (d + 1) + (j + 1) by omega]
    have hC : ∀ D : K, C (((d : K) + 1) / D) = C ((d : K) + 1) * C (1 / D) := by
      intro D; rw [← C_mul, mul_one_div]
    rw [hC, hC]
    ring
  rw [Finset.sum_congr rfl (fun j _ => e j)]
  have tel : ∀ n, ∑ j ∈ range n, C (c j) * (P j - P (j + 1))
      = C (c 0) * P 0 - C (c n) * P n + ∑ j ∈ range n, C (c (j + 1) - c j) * P (j + 1) := by
    intro n
    induction n with
    | zero => simp
    | succ n ih => rw [Finset.sum_range_succ, ih, Finset.sum_range_succ, C_sub]; ring
  rw [tel]
  have z0 : P 0 = 0 := by rw [hP]; dsimp only; rw [pieceP_zero _ _ _ _ (by omega), mul_zero]
  have z1 : P (d + 1 + 1) = 0 := by rw [hP]; dsimp only; rw [pieceP_zero _ _ _ _ (by omega), mul_zero]
  rw [z0, z1, mul_zero, mul_zero, sub_zero, zero_add, Finset.sum_range_succ, z1, mul_zero, add_zero]
  refine Finset.sum_congr rfl fun j _ => ?_
  rw [hP]
  dsimp only
  rw [show m - (d + 1) + (j + 1) = m - d + j by omega, show m + (j + 1) = m + 1 + j by omega, C_mul]
  ring

/-- Partition of unity on a piece. -/
theorem pieceSum_one {k : ℕ → K} (hk : Monotone k) {m : ℕ} (hm : k m < k (m + 1)) (d : ℕ) (hd : d ≤ m) :
    pieceSum k m d (fun _ => 1) = 1 := by
  induction d with
  | zero => simp [pieceSum, pieceP]
  | succ d ih =>
    have ih := ih (by omega)
    unfold pieceSum at ih ⊢
    set Q : ℕ → K[X] := fun j => C (1 / (k (m + j) - k (m - (d + 1) + j)))
      * ((X - C (k (m - (d + 1) + j))) * pieceP k m d (m - (d + 1) + j)) with hQ
    set R : ℕ → K[X] := fun j => C (1 / (k (m + j) - k (m - (d + 1) + j)))
      * ((C (k (m + j)) - X) * pieceP k m d (m - (d + 1) + j)) with hR
    have e : ∀ j, C (1 : K) * pieceP k m (d + 1) (m - (d + 1) + j) = Q j + R (j + 1) := by
      intro j
      rw [C_1, one_mul, pieceP, hQ, hR]
      dsimp only
      rw [show m - (d + 1) + j + (d + 1) = m + j by omega,
        show m + j + 1 = m + (j + 1) by omega, show m - (d + 1) + j + 1 = m - (d + 1) + (j + 1) by omega]
    rw [Finset.sum_congr rfl (fun j _ => e j), Finset.sum_add_distrib, Finset.sum_range_succ',
      Finset.sum_range_succ (fun j => R (j + 1))]
    have z0 : Q 0 = 0 := by rw [hQ]; dsimp only; rw [pieceP_zero _ _ _ _ (by omega), mul_zero, mul_zero]
    have z1 : R (d + 1 + 1) = 0 := by rw [hR]; dsimp only; rw [pieceP_zero _ _ _ _ (by omega), mul_zero, mul_zero]
    rw [z0, z1, add_zero, add_zero, ← Finset.sum_add_distrib, ← ih]
    refine Finset.sum_congr rfl fun j hj => ?_
    rw [Finset.mem_range] at hj
    rw [hQ, hR]
    dsimp only
    rw [← mul_add, ← add_mul, show X - C (k (m - (d + 1) + (j + 1))) + (C (k (m + (j + 1))) - X)
        = C (k (m + (j + 1)) - k (m - (d + 1) + (j + 1))) by rw [C_sub]; ring, ← mul_assoc, ← C_mul,
      one_div_mul_cancel, C_1, one_mul, one_mul, show m - (d + 1) + (j + 1) = m - d + j by omega]
    refine (sub_pos.2 (lt_of_le_of_lt (hk ?_) (hm.trans_le (hk ?_)))).ne' <;> omega

/-- The coefficients on a piece are determined by the polynomial. -/
theorem pieceSum_eq_zero {k : ℕ → K} (hk : Monotone k) {m : ℕ} (hm : k m < k (m + 1)) (d : ℕ) (hd : d ≤ m)
    (c : ℕ → K) (h : pieceSum k m d c = 0) (j : ℕ) (hj : j ≤ d) : c j = 0 := by
  induction d generalizing c j with
  | zero =>
    have : j = 0 := by omega
    subst this
    simpa [pieceSum, pieceP] using h
  | succ d ih =>
    have hder : pieceSum k m d (diffC k m d c) = 0 := by
      rw [← pieceSum_derivative hk d hd, h, derivative_zero]
    have step : ∀ j, j ≤ d → c (j + 1) = c j := by
      intro j hj
      have := ih (by omega) _ hder j hj
      unfold diffC at this
      rcases mul_eq_zero.1 this with h1 | h1
      · exfalso
        refine div_ne_zero (by positivity) (sub_pos.2 (lt_of_le_of_lt (hk ?_) (hm.trans_le (hk ?_)))).ne' h1 <;> omega
      · exact sub_eq_zero.1 h1
    have const : ∀ j, j ≤ d + 1 → c j = c 0 := by
      intro j
      induction j with
      | zero => intro _; rfl
      | succ j ihj => intro hj; rw [step j (by omega), ihj (by omega)]
    have h0 : c 0 = 0 := by
      have e : pieceSum k m (d + 1) c = C (c 0) * pieceSum k m (d + 1) (fun _ => 1) := by
        unfold pieceSum
        rw [Finset.mul_sum]
        refine Finset.sum_congr rfl fun j hj => ?_
        rw [Finset.mem_range] at hj
        rw [const j (by omega), C_1, one_mul]
      rw [e, pieceSum_one hk hm _ hd, mul_one] at h
      exact C_eq_zero.1 h
    rw [const j hj, h0]

theorem pieceSum_inj {k : ℕ → K} (hk : Monotone k) {m : ℕ} (hm : k m < k (m + 1)) (d : ℕ) (hd : d ≤ m)
    {c c' : ℕ → K} (h : pieceSum k m d c = pieceSum k m d c') (j : ℕ) (hj : j ≤ d) : c j = c' j := by
  have : pieceSum k m d (fun j => c j - c' j) = 0 := by
    rw [← sub_eq_zero, pieceSum, pieceSum, ← Finset.sum_sub_distrib] at h
    unfold pieceSum
    rw [← h]
    exact Finset.sum_congr rfl fun j _ => by rw [C_sub]; ring
  exact sub_eq_zero.1 (pieceSum_eq_zero hk hm d hd _ this j hj)

/-- All functions outside the piece vanish there. -/
theorem sum_eq_pieceSum (k : ℕ → K) {m d N : ℕ} (hd : d ≤ m) (hN : m < N) (c : ℕ → K) :
    ∑ i ∈ range N, C (c i) * pieceP k m d i = pieceSum k m d (fun j => c (m - d + j)) := by
  unfold pieceSum
  rw [← Finset.sum_subset (s₁ := Finset.Ico (m - d) (m + 1))
    (by intro i hi; rw [Finset.mem_Ico] at hi; exact Finset.mem_range.2 (by omega))]
  · rw [Finset.sum_Ico_eq_sum_range, show m + 1 - (m - d) = d + 1 by omega]
  · intro i _ hi
    rw [Finset.mem_Ico] at hi
    rw [pieceP_zero _ _ _ _ (by omega), mul_zero]

/-- Coefficient as a functional of the polynomial of any piece in the support. -/
theorem coeff_eq_lam {k : ℕ → K} (hk : Monotone k) {m p N : ℕ} (hm : k m < k (m + 1)) (hd : p ≤ m)
    (hN : m < N) (c : ℕ → K) (i : ℕ) (h1 : i ≤ m) (h2 : m ≤ i + p) :
    c i = lam k p i (∑ i ∈ range N, C (c i) * pieceP k m p i) := by
  set f := ∑ i ∈ range N, C (c i) * pieceP k m p i with hf
  have hdeg : f.natDegree ≤ p := natDegree_sum_le_of_forall_le _ _ fun i _ =>
    (natDegree_C_mul_le _ _).trans (pieceP_natDegree _ _ _ _)
  obtain ⟨M, rfl⟩ : ∃ M, N = M + 1 := ⟨N - 1, by omega⟩
  have hr := lam_repro hk hm p M hd (by omega) hdeg
  rw [sum_eq_pieceSum k hd hN (fun i => lam k p i f)] at hr
  have hf' := hf
  rw [sum_eq_pieceSum k hd hN c] at hf'
  have := pieceSum_inj hk hm p hd (hr.trans hf') (i - (m - p)) (by omega)
  rw [show m - p + (i - (m - p)) = i by omega] at this
  exact this.symm

/-- Value at the right end of a piece that ends in `d` equal knots. -/
theorem pieceP_right {k : ℕ → K} {m : ℕ} (hm : k m < k (m + 1)) (d : ℕ)
    (h : ∀ r, r < d → k (m + 1 + r) = k (m + 1)) (i : ℕ) :
    (pieceP k m d i).eval (k (m + 1)) = if i = m then 1 else 0 := by
  induction d generalizing i with
  | zero => rw [pieceP]; split_ifs <;> simp
  | succ d ih =>
    have ih := fun i => ih (fun r hr => h r (by omega)) i
    rw [pieceP]
    simp only [eval_add, eval_mul, eval_sub, eval_C, eval_X, ih]
    by_cases h1 : i = m
    · subst h1
      rw [if_pos rfl, if_neg (by omega), mul_one, mul_zero, mul_zero, add_zero,
        show i + (d + 1) = i + 1 + d by omega]
      rw [h d (by omega), one_div_mul_cancel (sub_pos.2 hm).ne']
    · rw [if_neg h1, mul_zero, mul_zero, zero_add]
      by_cases h2 : i + 1 = m
      · rw [if_pos h2, mul_one, show i + (d + 1) + 1 = m + 1 + d by omega, h d (by omega), sub_self, mul_zero]
      · rw [if_neg h2, mul_zero, mul_zero]

/-- Value at the left end of a piece that starts with `d` equal knots. -/
theorem pieceP_left {k : ℕ → K} {m : ℕ} (hm : k m < k (m + 1)) (d : ℕ) (hd : d ≤ m)
    (h : ∀ r, r < d → k (m - r) = k m) (i : ℕ) :
    (pieceP k m d i).eval (k m) = if i = m - d then 1 else 0 := by
  induction d generalizing i with
  | zero => rw [pieceP, Nat.sub_zero]; split_ifs <;> simp
  | succ d ih =>
    have ih := fun i => ih (by omega) (fun r hr => h r (by omega)) i
    rw [pieceP]
    simp only [eval_add, eval_mul, eval_sub, eval_C, eval_X, ih]
    have hkd := h d (by omega)
    by_cases h1 : i = m - (d + 1)
    · rw [if_neg (by omega), if_pos (by omega), if_pos h1, mul_one, mul_zero, mul_zero, zero_add,
        show i + (d + 1) + 1 = m + 1 by omega, show i + 1 = m - d by omega, hkd,
        one_div_mul_cancel (sub_pos.2 hm).ne']
    · rw [if_neg h1, if_neg (by omega : ¬ i + 1 = m - d), mul_zero, mul_zero, add_zero]
      by_cases h2 : i = m - d
      · rw [if_pos h2, h2, hkd, sub_self, zero_mul, mul_zero]
      · rw [if_neg h2, mul_zero, mul_zero]

/-- The Cox-de Boor value only depends on the first knot and the knots of the support. -/
theorem cox_congr {k k' : ℕ → K} {p : ℕ} (x : K) (d i : ℕ) (h0 : k 0 = k' 0)
    (h : ∀ j, i ≤ j → j ≤ i + d + 1 → k j = k' j) : cox k p x d i = cox k' p x d i := by
  induction d generalizing i with
  | zero =>
    rw [cox, cox, ind, ind, h0, h i le_rfl (by omega), h (i + 1) (by omega) (by omega)]
  | succ d ih =>
    rw [cox_succ, cox_succ, ih i (fun j h1 h2 => h j h1 (by omega)),
      ih (i + 1) (fun j h1 h2 => h j (by omega) (by omega)), h i le_rfl (by omega),
      h (i + (d + 1)) (by omega) (by omega), h (i + (d + 1) + 1) (by omega) (by omega),
      h (i + 1) (by omega) (by omega)]

end Verif.Spline
