import Verif.Spline.Basic

/-! Helper lemmas about the Cox-de Boor recursion (no property theorems here). -/

set_option linter.unusedSectionVars false

namespace Verif.Spline

open Finset

variable {K : Type*} [Field K] [LinearOrder K] [IsStrictOrderedRing K]

/-- The guarded recursion, with Lean's `a / 0 = 0`. -/
theorem cox_succ (k : ℕ → K) (p : ℕ) (x : K) (d i : ℕ) :
    cox k p x (d + 1) i
      = (x - k i) * cox k p x d i / (k (i + (d + 1)) - k i)
        + (k (i + (d + 1) + 1) - x) * cox k p x d (i + 1)
            / (k (i + (d + 1) + 1) - k (i + 1)) := by
  rw [cox]
  congr 1
  · split_ifs with h
    · rfl
    · push Not at h; rw [h, div_zero]
  · split_ifs with h
    · rfl
    · push Not at h; rw [h, div_zero]

theorem ind_of_lt {k : ℕ → K} {p i : ℕ} {x : K} (hx : k 0 < x) :
    ind k p i x = if k i < x ∧ x ≤ k (i + 1) then 1 else 0 := by
  unfold ind
  split_ifs with h1 h2 h3 h3 <;> try rfl
  · exact absurd ⟨h1.2 ▸ hx, h2.2⟩ h3
  · exact absurd ⟨h3.1.le, h3.2⟩ h2

/-- Away from the first knot the degree parameter of `_ind` is irrelevant. -/
theorem cox_degree_irrel {k : ℕ → K} {x : K} (hx : k 0 < x) (p q d i : ℕ) :
    cox k p x d i = cox k q x d i := by
  induction d generalizing i with
  | zero => rw [cox, cox, ind_of_lt hx, ind_of_lt hx]
  | succ d ih => rw [cox_succ, cox_succ, ih, ih]

/-- Support: right of the first knot. -/
theorem cox_eq_zero {k : ℕ → K} (hk : Monotone k) {p : ℕ} {x : K} (hx : k 0 < x) (d i : ℕ)
    (h : x ≤ k i ∨ k (i + d + 1) < x) : cox k p x d i = 0 := by
  induction d generalizing i with
  | zero =>
    rw [cox, ind_of_lt hx, if_neg]
    rintro ⟨h1, h2⟩
    rcases h with h | h
    · exact absurd h (not_le.2 h1)
    · exact absurd h2 (not_le.2 h)
  | succ d ih =>
    rw [cox_succ]
    have e1 : cox k p x d i = 0 := by
      apply ih
      rcases h with h | h
      · exact Or.inl h
      · exact Or.inr (lt_of_le_of_lt (hk (by omega)) h)
    have e2 : cox k p x d (i + 1) = 0 := by
      apply ih
      rcases h with h | h
      · exact Or.inl (h.trans (hk (by omega)))
      · right
        have : i + 1 + d + 1 = i + (d + 1) + 1 := by omega
        rw [this]; exact h
    rw [e1, e2]; simp

theorem cox_deg_zero {k : ℕ → K} (hk : Monotone k) {p : ℕ} {x : K} (hx : k 0 < x) (d i : ℕ)
    (h : k (i + d + 1) - k i = 0) : cox k p x d i = 0 := by
  apply cox_eq_zero hk hx
  by_contra hc
  push Not at hc
  have := sub_eq_zero.1 h
  linarith [hc.1, hc.2]

/-- Nonnegativity right of the first knot. -/
theorem cox_nonneg {k : ℕ → K} (hk : Monotone k) {p : ℕ} {x : K} (hx : k 0 < x) (d i : ℕ) :
    0 ≤ cox k p x d i := by
  induction d generalizing i with
  | zero =>
    rw [cox, ind_of_lt hx]; split_ifs <;> simp
  | succ d ih =>
    rw [cox_succ]
    apply add_nonneg
    · by_cases h : x ≤ k i ∨ k (i + d + 1) < x
      · rw [cox_eq_zero hk hx d i h]; simp
      · push Not at h
        exact div_nonneg (mul_nonneg (by linarith [h.1]) (ih i)) (sub_nonneg.2 (hk (by omega)))
    · by_cases h : x ≤ k (i + 1) ∨ k (i + 1 + d + 1) < x
      · rw [cox_eq_zero hk hx d (i + 1) h]; simp
      · push Not at h
        have e : i + (d + 1) + 1 = i + 1 + d + 1 := by omega
        rw [e]
        exact div_nonneg (mul_nonneg (by linarith [h.2]) (ih (i + 1)))
          (sub_nonneg.2 (hk (by omega)))

/-- de Boor's step: a combination of level `d+1` functions is a combination of
level `d` functions, up to the two boundary terms. -/
theorem deBoor_step (k : ℕ → K) (p : ℕ) (x : K) (d M : ℕ) (c : ℕ → K) :
    ∑ i ∈ range M, c i * cox k p x (d + 1) i
      = (∑ i ∈ range M, c i * ((x - k i) / (k (i + (d + 1)) - k i)) * cox k p x d i)
        + ∑ i ∈ range M, c i * ((k (i + (d + 1) + 1) - x)
            / (k (i + (d + 1) + 1) - k (i + 1))) * cox k p x d (i + 1) := by
  rw [← Finset.sum_add_distrib]
  refine Finset.sum_congr rfl fun i _ => ?_
  rw [cox_succ]; ring

/-- Values at the first knot of a clamped basis. -/
theorem cox_first {k : ℕ → K} {p : ℕ} (hfirst : ∀ i, i ≤ p → k i = k 0)
    (hk : Monotone k) (hstart : k p < k (p + 1)) (d i : ℕ) (hd : d ≤ p) :
    cox k p (k 0) d i = if i + d = p ∨ (d = 0 ∧ i ≤ p) then 1 else 0 := by
  have h0 : ∀ i, p < i → k 0 < k i := fun i hi =>
    (hfirst p le_rfl ▸ hstart).trans_le (hk hi)
  induction d generalizing i with
  | zero =>
    rw [cox, ind]
    by_cases hi : i ≤ p
    · have : k 0 = k i := (hfirst i hi).symm
      rw [if_pos ⟨by omega, this⟩, if_pos ⟨this ▸ le_rfl, hk (by omega)⟩, if_pos (by omega)]
    · have : k 0 < k i := h0 i (by omega)
      rw [if_neg (fun h => this.ne h.2), if_neg (fun h => absurd h.1 (not_lt.2 this.le)),
        if_neg (by omega)]
  | succ d ih =>
    rw [cox_succ, ih i (by omega), ih (i + 1) (by omega)]
    have z1 : (k 0 - k i) * (if i + d = p ∨ (d = 0 ∧ i ≤ p) then (1 : K) else 0) = 0 := by
      split_ifs with h
      · rw [hfirst i (by omega)]; simp
      · simp
    rw [z1, zero_div, zero_add]
    by_cases h : i + (d + 1) = p
    · have hpos := h0 (i + (d + 1) + 1) (by omega)
      have e := hfirst (i + 1) (by omega)
      rw [if_pos (Or.inl (by omega)), if_pos (Or.inl h), e, mul_one, div_self]
      exact (sub_pos.2 hpos).ne'
    · rw [if_neg (c := i + (d + 1) = p ∨ _) (by omega)]
      by_cases h' : i + 1 + d = p ∨ (d = 0 ∧ i + 1 ≤ p)
      · rw [if_pos h']
        have e1 := hfirst (i + 1) (by omega)
        have e2 := hfirst (i + (d + 1) + 1) (by omega)
        rw [e1, e2]; simp
      · rw [if_neg h']; simp

/-- Values at the last knot of a clamped basis. -/
theorem cox_last {k : ℕ → K} {p n : ℕ} (hn : 0 < n) (hlast : ∀ i, n ≤ i → k i = k n)
    (hk : Monotone k) (hstop : k (n - 1) < k n) (h0 : k 0 < k n) (d i : ℕ) :
    cox k p (k n) d i = if i = n - 1 then 1 else 0 := by
  induction d generalizing i with
  | zero =>
    rw [cox, ind_of_lt h0]
    congr 1
    apply propext
    constructor
    · rintro ⟨h1, h2⟩
      by_contra hne
      rcases Nat.lt_or_ge i (n - 1) with l | g
      · exact absurd ((hk (by omega : i + 1 ≤ n - 1)).trans_lt hstop) (not_lt.2 h2)
      · rw [hlast i (by omega)] at h1; exact lt_irrefl _ h1
    · rintro rfl
      exact ⟨hstop, by rw [Nat.sub_add_cancel hn]⟩
  | succ d ih =>
    rw [cox_succ, ih, ih]
    by_cases h : i = n - 1
    · rw [if_pos h, if_neg (by omega), hlast (i + (d + 1)) (by omega), h, mul_one, mul_zero,
        zero_div, add_zero, div_self (sub_pos.2 hstop).ne']
    · rw [if_neg h]
      by_cases h' : i + 1 = n - 1
      · rw [hlast (i + (d + 1) + 1) (by omega)]; simp
      · rw [if_neg h']; simp

/-- Partition of unity at every level, right of the first knot. -/
theorem cox_sum_level {k : ℕ → K} (hk : Monotone k) {p n : ℕ} (hn : p < n)
    (hfirst : ∀ i, i ≤ p → k i = k 0) (hlast : ∀ i, n ≤ i → k i = k n)
    {x : K} (hx : k 0 < x) (hx' : x ≤ k n) (d : ℕ) (hd : d ≤ p) :
    ∑ i ∈ range (n + p - d), cox k p x d i = 1 := by
  induction d with
  | zero =>
    have key : ∀ m, k 0 < x → ∑ i ∈ range m, cox k p x 0 i = if x ≤ k m then 1 else 0 := by
      intro m _
      induction m with
      | zero => simp [not_le.2 hx]
      | succ m ihm =>
        rw [Finset.sum_range_succ, ihm, cox, ind_of_lt hx]
        by_cases h1 : x ≤ k m
        · rw [if_pos h1, if_neg (fun h => absurd h.1 (not_lt.2 h1)),
            if_pos (h1.trans (hk (by omega)))]; simp
        · rw [if_neg h1]; push Not at h1; simp [h1]
    rw [key _ hx, if_pos (hx'.trans (hk (by omega)))]
  | succ d ih =>
    have ih := ih (by omega)
    obtain ⟨M, hM⟩ : ∃ M, n + p - d = M + 1 := ⟨n + p - d - 1, by omega⟩
    have hM' : n + p - (d + 1) = M := by omega
    rw [hM] at ih
    have step := deBoor_step k p x d M (fun _ => 1)
    simp only [one_mul] at step
    rw [hM', step]
    have a1 : ∑ i ∈ range M, (x - k i) / (k (i + (d + 1)) - k i) * cox k p x d i
        = ∑ i ∈ range (M + 1), (x - k i) / (k (i + (d + 1)) - k i) * cox k p x d i := by
      rw [Finset.sum_range_succ, hlast M (by omega), hlast (M + (d + 1)) (by omega)]
      simp
    have a2 : ∑ i ∈ range M, (k (i + (d + 1) + 1) - x) / (k (i + (d + 1) + 1) - k (i + 1))
          * cox k p x d (i + 1)
        = ∑ i ∈ range (M + 1), (k (i + (d + 1)) - x) / (k (i + (d + 1)) - k i)
          * cox k p x d i := by
      rw [Finset.sum_range_succ' (fun i => (k (i + (d + 1)) - x) / (k (i + (d + 1)) - k i)
          * cox k p x d i)]
      have : k (0 + (d + 1)) = k 0 := by rw [zero_add]; exact hfirst _ hd
      rw [this]
      simp only [sub_self, div_zero, zero_mul, add_zero]
      refine Finset.sum_congr rfl fun i _ => ?_
      have : i + 1 + (d + 1) = i + (d + 1) + 1 := by omega
      rw [this]
    rw [a1, a2, ← Finset.sum_add_distrib, ← ih]
    refine Finset.sum_congr rfl fun i _ => ?_
    by_cases h : k (i + (d + 1)) - k i = 0
    · rw [cox_deg_zero hk hx d i (by rw [← h]; rfl)]; simp
    · rw [← add_mul, ← add_div]
      have : x - k i + (k (i + (d + 1)) - x) = k (i + (d + 1)) - k i := by ring
      rw [this, div_self h, one_mul]

end Verif.Spline
