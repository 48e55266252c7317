import Verif.Spline.Combine
import Mathlib.Algebra.Polynomial.Derivative
import Mathlib.Algebra.Polynomial.Roots
import Mathlib.Algebra.Polynomial.FieldDivision
import Mathlib.Algebra.Polynomial.Taylor

/-! # Polynomial pieces of splines

Marsden's identity, the de Boor-Fix functionals, and the Curry-Schoenberg theorem: piecewise
polynomials with the smoothness allowed by the knots are exactly the splines of the basis. All
algebraic, over any ordered field. -/

set_option linter.unusedSectionVars false

namespace Verif.Spline

open Finset Polynomial

variable {K : Type*} [Field K] [LinearOrder K]

/-- Polynomial of basis function `i` of degree `d` on the piece `m`. -/
noncomputable def pieceP (k : ℕ → K) (m : ℕ) : ℕ → ℕ → K[X]
  | 0, i => if i = m then 1 else 0
  | d + 1, i => C (1 / (k (i + (d + 1)) - k i)) * ((X - C (k i)) * pieceP k m d i)
      + C (1 / (k (i + (d + 1) + 1) - k (i + 1))) * ((C (k (i + (d + 1) + 1)) - X) * pieceP k m d (i + 1))

/-- `∏ (k_{i+r} - X)`, `r = 1..p`. -/
noncomputable def Psi (k : ℕ → K) (p i : ℕ) : K[X] := ∏ r ∈ range p, (C (k (i + 1 + r)) - X)

variable [IsStrictOrderedRing K]

theorem pieceP_eval (k : ℕ → K) (m : ℕ) (x : K) (d i : ℕ) :
    (pieceP k m d i).eval x = coxB k (fun i => if i = m then 1 else 0) x d i := by
  induction d generalizing i with
  | zero => rw [pieceP, coxB]; split_ifs <;> simp
  | succ d ih =>
    rw [pieceP, coxB]
    simp only [eval_add, eval_mul, eval_sub, eval_C, eval_X, ih]
    ring

theorem pieceP_natDegree (k : ℕ → K) (m : ℕ) (d i : ℕ) : (pieceP k m d i).natDegree ≤ d := by
  induction d generalizing i with
  | zero => rw [pieceP]; split_ifs <;> simp
  | succ d ih =>
    rw [pieceP]
    refine (natDegree_add_le _ _).trans (max_le ?_ ?_)
    · refine (natDegree_C_mul_le _ _).trans (natDegree_mul_le.trans ?_)
      have := ih i
      have h : (X - C (k i)).natDegree ≤ 1 := natDegree_X_sub_C_le _
      omega
    · refine (natDegree_C_mul_le _ _).trans (natDegree_mul_le.trans ?_)
      have := ih (i + 1)
      have h : (C (k (i + (d + 1) + 1)) - X).natDegree ≤ 1 := by
        rw [← neg_sub, natDegree_neg]; exact natDegree_X_sub_C_le _
      omega

theorem pieceP_zero (k : ℕ → K) (m : ℕ) (d i : ℕ) (h : m < i ∨ i + d < m) : pieceP k m d i = 0 := by
  induction d generalizing i with
  | zero => rw [pieceP, if_neg (by omega)]
  | succ d ih => rw [pieceP, ih i (by omega), ih (i + 1) (by omega)]; simp

theorem pieceP_deg_zero {k : ℕ → K} (hk : Monotone k) {m : ℕ} (hm : k m < k (m + 1)) (d i : ℕ)
    (h : k (i + d + 1) = k i) : pieceP k m d i = 0 := by
  apply pieceP_zero
  by_contra hc
  push Not at hc
  have h1 : k i ≤ k m := hk hc.1
  have h2 : k (m + 1) ≤ k (i + d + 1) := hk (by omega)
  rw [h] at h2
  exact absurd hm (not_lt.2 (h2.trans h1))

/-- Derivative of a piece. -/
theorem pieceP_derivative {k : ℕ → K} (hk : Monotone k) (m d i : ℕ) :
    derivative (pieceP k m (d + 1) i)
      = C ((d : K) + 1) * (C (1 / (k (i + d + 1) - k i)) * pieceP k m d i
        - C (1 / (k (i + d + 2) - k (i + 1))) * pieceP k m d (i + 1)) := by
  induction d generalizing i with
  | zero =>
    simp only [pieceP, derivative_add, derivative_mul, derivative_C, derivative_sub, derivative_X]
    have hz : ∀ c : Prop, [Decidable c] → derivative (if c then (1 : K[X]) else 0) = 0 := by
      intro c _; split_ifs <;> simp
    rw [hz, hz]
    simp only [Nat.cast_zero, zero_add, map_one]
    ring_nf
  | succ d ih =>
    rw [pieceP]
    simp only [derivative_add, derivative_mul, derivative_C, derivative_sub, derivative_X, ih]
    have n1 : i + 1 + d + 1 = i + d + 2 := by omega
    have n2 : i + 1 + d + 2 = i + d + 3 := by omega
    have n3 : i + (d + 1 + 1) + 1 = i + d + 3 := by omega
    have n4 : i + (d + 1 + 1) = i + d + 2 := by omega
    have n5 : i + (d + 1) + 1 = i + d + 2 := by omega
    have n6 : i + (d + 1) + 2 = i + d + 3 := by omega
    have n7 : i + (d + 1) = i + d + 1 := by omega
    have n8 : i + 1 + (d + 1) = i + d + 2 := by omega
    have n9 : i + d + 2 + 1 = i + d + 3 := by omega
    have na : i + d + 1 + 1 = i + d + 2 := by omega
    have nb : i + 1 + 1 = i + 2 := rfl
    rw [n1, n2, n3, n4, n5, n6, nb]
    have e1 : pieceP k m (d + 1) i = C (1 / (k (i + d + 1) - k i)) * ((X - C (k i)) * pieceP k m d i)
        + C (1 / (k (i + d + 2) - k (i + 1))) * ((C (k (i + d + 2)) - X) * pieceP k m d (i + 1)) := by
      rw [pieceP, n7, na]
    have e2 : pieceP k m (d + 1) (i + 1)
        = C (1 / (k (i + d + 2) - k (i + 1))) * ((X - C (k (i + 1))) * pieceP k m d (i + 1))
        + C (1 / (k (i + d + 3) - k (i + 2))) * ((C (k (i + d + 3)) - X) * pieceP k m d (i + 2)) := by
      rw [pieceP, n8, n9, nb]
    rw [e1, e2]
    set a := 1 / (k (i + d + 2) - k i) with ha
    set b := 1 / (k (i + d + 3) - k (i + 1)) with hb
    set c := 1 / (k (i + d + 2) - k (i + 1)) with hc
    have key : C c * (C a * (C (k (i + d + 2)) - C (k i)) - C b * (C (k (i + d + 3)) - C (k (i + 1))))
        = (0 : K[X]) := by
      rw [← C_sub, ← C_sub, ← C_mul, ← C_mul, ← C_sub, ← C_mul, ← C_0]
      congr 1
      by_cases hz : k (i + d + 2) = k (i + 1)
      · rw [hc, hz]; simp
      · have l1 : k (i + 1) < k (i + d + 2) := lt_of_le_of_ne (hk (by omega)) (Ne.symm hz)
        have l2 : k i ≤ k (i + 1) := hk (by omega)
        have l3 : k (i + d + 2) ≤ k (i + d + 3) := hk (by omega)
        rw [ha, hb, one_div_mul_cancel (sub_pos.2 (l2.trans_lt l1)).ne',
          one_div_mul_cancel (sub_pos.2 (l1.trans_le l3)).ne']
        simp
    push_cast
    simp only [map_add, map_one, map_natCast]
    linear_combination (-((d : K[X]) + 1) * pieceP k m d (i + 1)) * key

/-- Marsden's identity on one piece. -/
theorem marsden {k : ℕ → K} (hk : Monotone k) {m : ℕ} (hm : k m < k (m + 1)) (x y : K) (d N : ℕ)
    (hd : d ≤ m) (hN : m ≤ N) :
    ∑ i ∈ range (N + 1), (∏ r ∈ range d, (k (i + 1 + r) - y)) * (pieceP k m d i).eval x
      = (x - y) ^ d := by
  induction d with
  | zero =>
    simp only [Finset.prod_range_zero, pow_zero, one_mul, pieceP]
    rw [Finset.sum_eq_single m]
    · simp
    · intro i _ hi; simp [hi]
    · intro h; exact absurd (Finset.mem_range.2 (by omega)) h
  | succ d ih =>
    have ih := ih (by omega)
    set b : ℕ → K := fun i => (pieceP k m d i).eval x with hb
    have b0 : b 0 = 0 := by
      rw [hb]; dsimp only; rw [pieceP_zero k m d 0 (by omega)]; simp
    have bN : b (N + 1) = 0 := by
      rw [hb]; dsimp only; rw [pieceP_zero k m d (N + 1) (by omega)]; simp
    have e : ∀ i, (∏ r ∈ range (d + 1), (k (i + 1 + r) - y)) * (pieceP k m (d + 1) i).eval x
        = (∏ r ∈ range (d + 1), (k (i + 1 + r) - y)) * ((x - k i) / (k (i + (d + 1)) - k i)) * b i
          + (∏ r ∈ range (d + 1), (k (i + 1 + r) - y)) * ((k (i + (d + 1) + 1) - x)
            / (k (i + (d + 1) + 1) - k (i + 1))) * b (i + 1) := by
      intro i
      rw [pieceP]
      simp only [eval_add, eval_mul, eval_sub, eval_C, eval_X, hb]
      ring
    rw [Finset.sum_congr rfl (fun i _ => e i), Finset.sum_add_distrib, Finset.sum_range_succ', b0,
      mul_zero, add_zero, Finset.sum_range_succ (fun i => (∏ r ∈ range (d + 1), (k (i + 1 + r) - y))
        * ((k (i + (d + 1) + 1) - x) / (k (i + (d + 1) + 1) - k (i + 1))) * b (i + 1)), bN, mul_zero,
      add_zero, ← Finset.sum_add_distrib, pow_succ, ← ih, Finset.sum_range_succ']
    have : b 0 = (pieceP k m d 0).eval x := rfl
    rw [← this, b0, mul_zero, add_zero, Finset.sum_mul]
    refine Finset.sum_congr rfl fun i _ => ?_
    have : (pieceP k m d (i + 1)).eval x = b (i + 1) := rfl
    rw [this]
    by_cases hz : k (i + (d + 1) + 1) - k (i + 1) = 0
    · have : b (i + 1) = 0 := by
        rw [hb]; dsimp only
        rw [pieceP_deg_zero hk hm d (i + 1) (by
          rw [show i + 1 + d + 1 = i + (d + 1) + 1 by omega]; exact sub_eq_zero.1 hz)]
        simp
      rw [this]; simp
    · rw [Finset.prod_range_succ, Finset.prod_range_succ' (fun r => k (i + 1 + r) - y)]
      have e2 : ∀ r, k (i + 1 + (r + 1)) = k (i + 1 + 1 + r) := fun r => by congr 1; omega
      simp only [e2]
      rw [show i + 1 + 1 + d = i + (d + 1) + 1 by omega,
        add_zero]
      field_simp
      ring

theorem Psi_natDegree (k : ℕ → K) (p i : ℕ) : (Psi k p i).natDegree ≤ p := by
  unfold Psi
  refine (natDegree_prod_le _ _).trans ?_
  calc ∑ r ∈ range p, (C (k (i + 1 + r)) - X).natDegree ≤ ∑ r ∈ range p, 1 := by
        refine Finset.sum_le_sum fun r _ => ?_
        rw [← neg_sub, natDegree_neg]; exact natDegree_X_sub_C_le _
    _ = p := by simp

/-- Marsden's identity as a polynomial identity in the second variable. -/
theorem marsden_poly {k : ℕ → K} (hk : Monotone k) {m : ℕ} (hm : k m < k (m + 1)) (x : K) (p N : ℕ)
    (hd : p ≤ m) (hN : m ≤ N) :
    ∑ i ∈ range (N + 1), C ((pieceP k m p i).eval x) * Psi k p i = (C x - X) ^ p := by
  apply Polynomial.funext
  intro y
  rw [eval_finsetSum, eval_pow, eval_sub, eval_C, eval_X, ← marsden hk hm x y p N hd hN]
  refine Finset.sum_congr rfl fun i _ => ?_
  rw [eval_mul, eval_C, mul_comm, Psi, eval_prod]
  simp

/-- The de Boor-Fix functional (before normalisation). -/
noncomputable def fixL (k : ℕ → K) (p i : ℕ) (f : K[X]) : K[X] :=
  ∑ s ∈ range (p + 1), (-1) ^ s * (derivative^[s] (Psi k p i) * derivative^[p - s] f)

theorem fixL_derivative (k : ℕ → K) (p i : ℕ) {f : K[X]} (hf : f.natDegree ≤ p) :
    derivative (fixL k p i f) = 0 := by
  set g : ℕ → K[X] := fun s => derivative^[s] (Psi k p i) * derivative^[p + 1 - s] f with hg
  have tel : ∀ n, ∑ s ∈ range n, (-1) ^ s * (g s + g (s + 1)) = g 0 - (-1) ^ n * g n := by
    intro n
    induction n with
    | zero => simp
    | succ n ih => rw [Finset.sum_range_succ, ih, pow_succ]; ring
  have e : derivative (fixL k p i f) = ∑ s ∈ range (p + 1), (-1) ^ s * (g s + g (s + 1)) := by
    unfold fixL
    rw [derivative_sum]
    refine Finset.sum_congr rfl fun s hs => ?_
    have hs := Finset.mem_range.1 hs
    have hc : ((-1 : K[X]) ^ s) = C ((-1) ^ s) := by simp
    rw [hc, derivative_C_mul, derivative_mul, hg]
    dsimp only
    rw [← Function.iterate_succ_apply' derivative s, ← Function.iterate_succ_apply' derivative (p - s),
      show p + 1 - s = p - s + 1 by omega, show p + 1 - (s + 1) = p - s by omega]
    ring
  rw [e, tel]
  have g0 : g 0 = 0 := by
    rw [hg]; dsimp only
    rw [Nat.sub_zero, iterate_derivative_eq_zero (p := f) (by omega), mul_zero]
  have gp : g (p + 1) = 0 := by
    rw [hg]; dsimp only
    rw [iterate_derivative_eq_zero (lt_of_le_of_lt (Psi_natDegree k p i) (by omega)), zero_mul]
  rw [g0, gp]; simp

theorem fixL_const (k : ℕ → K) (p i : ℕ) {f : K[X]} (hf : f.natDegree ≤ p) (x y : K) :
    (fixL k p i f).eval x = (fixL k p i f).eval y := by
  have h := derivative_eq_zero.1 (fixL_derivative k p i hf)
  rw [eq_C_of_natDegree_eq_zero h]
  simp

/-- Coefficient of a polynomial in the B-spline basis. -/
noncomputable def lam (k : ℕ → K) (p i : ℕ) (f : K[X]) : K :=
  (fixL k p i f).eval 0 / (p.factorial : K)

theorem iterate_derivative_eval_zero {h : K[X]} {τ : K} {n s : ℕ} (hd : (X - C τ) ^ n ∣ h) (hs : s < n) :
    (derivative^[s] h).eval τ = 0 := by
  have h1 := pow_sub_dvd_iterate_derivative_of_pow_dvd s hd
  have h2 : (X - C τ) ∣ derivative^[s] h :=
    (dvd_pow_self _ (by omega : n - s ≠ 0)).trans h1
  rwa [dvd_iff_isRoot] at h2

/-- Reproduction of polynomials on a piece. -/
theorem lam_repro {k : ℕ → K} (hk : Monotone k) {m : ℕ} (hm : k m < k (m + 1)) (p N : ℕ)
    (hd : p ≤ m) (hN : m ≤ N) {f : K[X]} (hf : f.natDegree ≤ p) :
    ∑ i ∈ range (N + 1), C (lam k p i f) * pieceP k m p i = f := by
  apply Polynomial.funext
  intro x
  have hfac : (p.factorial : K) ≠ 0 := Nat.cast_ne_zero.2 (Nat.factorial_ne_zero p)
  rw [eval_finsetSum]
  have e : ∀ i, (C (lam k p i f) * pieceP k m p i).eval x
      = (∑ s ∈ range (p + 1), (-1) ^ s * ((pieceP k m p i).eval x * (derivative^[s] (Psi k p i)).eval x)
          * (derivative^[p - s] f).eval x) / (p.factorial : K) := by
    intro i
    rw [eval_mul, eval_C, lam, fixL_const k p i hf 0 x, fixL, eval_finsetSum, div_mul_eq_mul_div,
      Finset.sum_mul]
    congr 1
    refine Finset.sum_congr rfl fun s _ => ?_
    simp only [eval_mul, eval_pow, eval_neg, eval_one]
    ring
  rw [Finset.sum_congr rfl (fun i _ => e i), ← Finset.sum_div, Finset.sum_comm]
  -- derivatives of Marsden's identity
  have M : ∀ s, s ≤ p → ∑ i ∈ range (N + 1), (pieceP k m p i).eval x * (derivative^[s] (Psi k p i)).eval x
      = if s = p then (-1) ^ p * (p.factorial : K) else 0 := by
    intro s hs
    have h := congrArg (fun q => (derivative^[s] q).eval x) (marsden_poly hk hm x p N hd hN)
    rw [iterate_derivative_sum, eval_finsetSum] at h
    simp only [iterate_derivative_C_mul, eval_mul, eval_C] at h
    rw [h]
    have hc : (C x - X : K[X]) ^ p = C ((-1) ^ p) * (X - C x) ^ p := by
      rw [← neg_sub, neg_pow]; simp
    rw [hc, iterate_derivative_C_mul, iterate_derivative_X_sub_pow]
    split_ifs with hsp
    · subst hsp
      simp [Nat.descFactorial_self]
    · have : p - s ≠ 0 := by omega
      simp [this]
  have e2 : ∀ s ∈ range (p + 1), ∑ i ∈ range (N + 1),
      (-1) ^ s * ((pieceP k m p i).eval x * (derivative^[s] (Psi k p i)).eval x) * (derivative^[p - s] f).eval x
      = if s = p then (p.factorial : K) * f.eval x else 0 := by
    intro s hs
    have hs := Finset.mem_range.1 hs
    rw [← Finset.sum_mul, ← Finset.mul_sum, M s (by omega)]
    split_ifs with h
    · subst h
      rw [Nat.sub_self, Function.iterate_zero, id, ← mul_assoc, ← mul_pow]
      simp
    · simp
  rw [Finset.sum_congr rfl e2, Finset.sum_ite_eq', if_pos (Finset.mem_range.2 (by omega))]
  field_simp

/-- A jump that is smooth enough for the multiplicity of the knot is invisible to the functional. -/
theorem lam_vanish {k : ℕ → K} {p i M : ℕ} {τ : K} (hM : ∃ j, i < j ∧ j + M ≤ i + p + 1 ∧ ∀ r, r < M → k (j + r) = τ)
    {g : K[X]} (hg : g.natDegree ≤ p) (hdvd : (X - C τ) ^ (p + 1 - M) ∣ g) : lam k p i g = 0 := by
  have hPsi : (X - C τ) ^ M ∣ Psi k p i := by
    obtain ⟨j, hj1, hj2, hj3⟩ := hM
    unfold Psi
    have hsub : (range M).image (fun r => j + r - i - 1) ⊆ range p := by
      intro a ha
      obtain ⟨r, hr, rfl⟩ := Finset.mem_image.1 ha
      have := Finset.mem_range.1 hr
      exact Finset.mem_range.2 (by omega)
    refine dvd_trans ?_ (Finset.prod_dvd_prod_of_subset _ _ _ hsub)
    rw [Finset.prod_image (by
      intro a ha b hb h
      dsimp only at h
      omega)]
    have : ∀ r ∈ range M, (C (k (i + 1 + (j + r - i - 1))) - X : K[X]) = C τ - X := by
      intro r hr
      rw [show i + 1 + (j + r - i - 1) = j + r by omega, hj3 r (Finset.mem_range.1 hr)]
    rw [Finset.prod_congr rfl this, Finset.prod_const, Finset.card_range, ← neg_sub X, neg_pow]
    exact Dvd.intro_left _ rfl
  unfold lam
  rw [fixL_const k p i hg 0 τ, fixL, eval_finsetSum, Finset.sum_eq_zero, zero_div]
  intro s hs
  have hs := Finset.mem_range.1 hs
  rw [eval_mul, eval_mul]
  rcases Nat.lt_or_ge s M with h | h
  · rw [iterate_derivative_eval_zero hPsi h]; simp
  · rw [iterate_derivative_eval_zero hdvd (s := p - s) (by omega)]; simp

theorem lam_sub (k : ℕ → K) (p i : ℕ) (f g : K[X]) : lam k p i (f - g) = lam k p i f - lam k p i g := by
  unfold lam fixL
  rw [← sub_div, ← eval_sub, ← Finset.sum_sub_distrib]
  congr 3
  refine funext fun s => ?_
  rw [iterate_derivative_sub]; ring

/-- At a knot repeated `M ≤ d` times neighbouring pieces of level `d` have the same value. -/
theorem pieceP_meet {k : ℕ → K} {m M : ℕ} {τ : K} (h0 : k m < τ)
    (heq : ∀ r, r < M → k (m + 1 + r) = τ) (h1 : τ < k (m + M + 1)) (d : ℕ) (hd : M ≤ d) (i : ℕ) :
    (pieceP k m d i).eval τ = (pieceP k (m + M) d i).eval τ := by
  -- left piece, low levels
  have hl : ∀ d, d ≤ M → ∀ i, (pieceP k m d i).eval τ = if i = m then 1 else 0 := by
    intro d
    induction d with
    | zero => intro _ i; rw [pieceP]; split_ifs <;> simp
    | succ d ih =>
      intro hd i
      have hk : k (m + (d + 1)) = τ := by rw [← heq d (by omega)]; congr 1; omega
      rw [pieceP]
      simp only [eval_add, eval_mul, eval_sub, eval_C, eval_X, ih (by omega)]
      by_cases h : i = m
      · subst h
        rw [if_pos rfl, if_neg (by omega), hk]
        have : τ - k i ≠ 0 := (sub_pos.2 h0).ne'
        field_simp; simp
      · rw [if_neg h]
        by_cases h' : i + 1 = m
        · have : k (i + (d + 1) + 1) = τ := by rw [← hk]; congr 1; omega
          rw [if_pos h', this]; simp
        · rw [if_neg h']; simp
  have hr : ∀ d, d ≤ M → ∀ i, (pieceP k (m + M) d i).eval τ = if i + d = m + M then 1 else 0 := by
    intro d
    induction d with
    | zero => intro _ i; rw [pieceP]; split_ifs <;> simp_all
    | succ d ih =>
      intro hd i
      have hk : ∀ j, m < j → j ≤ m + M → k j = τ := by
        intro j a b
        rw [← heq (j - m - 1) (by omega)]; congr 1; omega
      rw [pieceP]
      simp only [eval_add, eval_mul, eval_sub, eval_C, eval_X, ih (by omega)]
      have z : (1 / (k (i + (d + 1)) - k i)) * ((τ - k i) * (if i + d = m + M then (1 : K) else 0)) = 0 := by
        split_ifs with h
        · rw [hk i (by omega) (by omega)]; simp
        · simp
      rw [z, zero_add]
      by_cases h : i + (d + 1) = m + M
      · rw [if_pos h, if_pos (by omega), h, hk (i + 1) (by omega) (by omega), mul_one]
        exact one_div_mul_cancel (sub_pos.2 h1).ne'
      · rw [if_neg h, if_neg (by omega)]; simp
  induction d, hd using Nat.le_induction generalizing i with
  | base =>
    rw [hl M le_rfl, hr M le_rfl]
    congr 1
    simp
  | succ d _ ih =>
    rw [pieceP, pieceP]
    simp only [eval_add, eval_mul, ih]

theorem dvd_of_dvd_derivative {f : K[X]} {τ : K} {n : ℕ} (hd : (X - C τ) ^ n ∣ derivative f)
    (h0 : f.eval τ = 0) : (X - C τ) ^ (n + 1) ∣ f := by
  by_cases hf : f = 0
  · subst hf; exact dvd_zero _
  by_cases hder : derivative f = 0
  · have := derivative_eq_zero.1 hder
    rw [eq_C_of_natDegree_eq_zero this] at h0 hf
    simp at h0
    rw [h0] at hf
    simp at hf
  have hroot : f.IsRoot τ := h0
  rw [← le_rootMultiplicity_iff hf]
  rw [← le_rootMultiplicity_iff hder] at hd
  have h1 := derivative_rootMultiplicity_of_root hroot
  have h2 : 0 < f.rootMultiplicity τ := (rootMultiplicity_pos hf).2 hroot
  omega

/-- Smoothness of the pieces at a knot of multiplicity `M`. -/
theorem pieceP_smooth {k : ℕ → K} (hk : Monotone k) {m M : ℕ} {τ : K} (h0 : k m < τ)
    (heq : ∀ r, r < M → k (m + 1 + r) = τ) (h1 : τ < k (m + M + 1)) (d i : ℕ) :
    (X - C τ) ^ (d + 1 - M) ∣ pieceP k (m + M) d i - pieceP k m d i := by
  induction d generalizing i with
  | zero =>
    rcases Nat.eq_zero_or_pos M with z | z
    · subst z; simp
    · rw [show 0 + 1 - M = 0 by omega]; simp
  | succ d ih =>
    rcases Nat.lt_or_ge d M with h | h
    · rcases Nat.lt_or_ge (d + 1) M with h' | h'
      · rw [show d + 1 + 1 - M = 0 by omega]; simp
      · have e : M = d + 1 := by omega
        rw [show d + 1 + 1 - M = 0 + 1 by omega]
        apply dvd_of_dvd_derivative (by simp)
        rw [eval_sub, pieceP_meet h0 heq h1 (d + 1) h', sub_self]
    · rw [show d + 1 + 1 - M = (d + 1 - M) + 1 by omega]
      apply dvd_of_dvd_derivative
      · rw [derivative_sub, pieceP_derivative hk, pieceP_derivative hk]
        have : C ((d : K) + 1) * (C (1 / (k (i + d + 1) - k i)) * pieceP k (m + M) d i
            - C (1 / (k (i + d + 2) - k (i + 1))) * pieceP k (m + M) d (i + 1))
            - C ((d : K) + 1) * (C (1 / (k (i + d + 1) - k i)) * pieceP k m d i
            - C (1 / (k (i + d + 2) - k (i + 1))) * pieceP k m d (i + 1))
            = C ((d : K) + 1) * C (1 / (k (i + d + 1) - k i)) * (pieceP k (m + M) d i - pieceP k m d i)
              - C ((d : K) + 1) * C (1 / (k (i + d + 2) - k (i + 1)))
                * (pieceP k (m + M) d (i + 1) - pieceP k m d (i + 1)) := by ring
        rw [this]
        exact dvd_sub (Dvd.dvd.mul_left (ih i) _) (Dvd.dvd.mul_left (ih (i + 1)) _)
      · rw [eval_sub, pieceP_meet h0 heq h1 (d + 1) (by omega), sub_self]

end Verif.Spline
