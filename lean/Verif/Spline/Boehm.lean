import Verif.Spline.Lemmas

/-! Helper lemmas: Boehm's knot insertion identity. -/

set_option linter.unusedSectionVars false

namespace Verif.Spline

open Finset

variable {K : Type*} [Field K] [LinearOrder K] [IsStrictOrderedRing K]

/-- Knot function after inserting `τ` behind position `s`. -/
def insK (k : ℕ → K) (s : ℕ) (τ : K) (i : ℕ) : K :=
  if i ≤ s then k i else if i = s + 1 then τ else k (i - 1)

/-- Insertion weight in terms of the position `s`. -/
def insW (k : ℕ → K) (s : ℕ) (τ : K) (d i : ℕ) : K :=
  if i + d ≤ s then 1 else if i ≤ s then (τ - k i) / (k (i + d) - k i) else 0

theorem insK_of_le {k : ℕ → K} {s : ℕ} {τ : K} {i : ℕ} (h : i ≤ s) : insK k s τ i = k i := by
  simp [insK, h]

theorem insK_mid {k : ℕ → K} {s : ℕ} {τ : K} {i : ℕ} (h : i = s + 1) : insK k s τ i = τ := by
  subst h; simp [insK]

theorem insK_of_gt {k : ℕ → K} {s : ℕ} {τ : K} {i j : ℕ} (h : i = j + 1) (hj : s < j) :
    insK k s τ i = k j := by
  subst h
  unfold insK
  rw [if_neg (by omega), if_neg (by omega), Nat.add_sub_cancel]

theorem insK_mono {k : ℕ → K} (hk : Monotone k) {s : ℕ} {τ : K} (h1 : k s < τ) (h2 : τ ≤ k (s + 1)) :
    Monotone (insK k s τ) := by
  apply monotone_nat_of_le_succ
  intro n
  rcases Nat.lt_trichotomy n s with h | h | h
  · rw [insK_of_le h.le, insK_of_le (by omega)]; exact hk (by omega)
  · subst h; rw [insK_of_le le_rfl, insK_mid rfl]; exact h1.le
  · rcases Nat.eq_or_lt_of_le h with h | h
    · rw [insK_mid (by omega), insK_of_gt (j := n) rfl (by omega), ← h]; exact h2
    · rw [insK_of_gt (i := n) (j := n - 1) (by omega) (by omega), insK_of_gt rfl (by omega)]
      exact hk (by omega)

variable {k : ℕ → K} {s : ℕ} {τ : K}

theorem insW_one {d i : ℕ} (h : i + d ≤ s) : insW k s τ d i = 1 := by simp [insW, h]

theorem insW_mid {d i : ℕ} (h : s < i + d) (h' : i ≤ s) :
    insW k s τ d i = (τ - k i) / (k (i + d) - k i) := by
  rw [insW, if_neg (by omega), if_pos h']

theorem insW_zero {d i : ℕ} (h : s < i) : insW k s τ d i = 0 := by
  rw [insW, if_neg (by omega), if_neg (by omega)]

theorem boehm_A (h1 : k s < τ) (hk : Monotone k) (d i : ℕ) (x : K) :
    (x - k i) * insW k s τ d i / (k (i + (d + 1)) - k i)
      = (x - insK k s τ i) * insW k s τ (d + 1) i / (insK k s τ (i + (d + 1)) - insK k s τ i) := by
  rcases Nat.lt_or_ge s i with hi | hi
  · rw [insW_zero hi, insW_zero hi]; simp
  · have p1 : 0 < τ - k i := sub_pos.2 ((hk hi).trans_lt h1)
    rw [insK_of_le hi]
    rcases Nat.lt_trichotomy (i + d) s with h | h | h
    · rw [insW_one (by omega), insW_one (by omega), insK_of_le (by omega)]
    · rw [insW_one (by omega), insW_mid (by omega) hi, insK_mid (by omega)]
      have := p1.ne'
      field_simp
    · rw [insW_mid h hi, insW_mid (by omega) hi,
        insK_of_gt (j := i + d) (by omega) h, mul_div_assoc, mul_div_assoc, div_right_comm]

theorem boehm_C (h1 : k s < τ) (h2 : τ ≤ k (s + 1)) (hk : Monotone k) (d i : ℕ) (x C : K)
    (hC : insK k s τ (i + 1 + (d + 1) + 1) - insK k s τ (i + 1 + 1) = 0 → C = 0) :
    (k (i + (d + 1) + 1) - x) * (1 - insW k s τ d (i + 1 + 1)) / (k (i + (d + 1) + 1) - k (i + 1)) * C
      = (insK k s τ (i + 1 + (d + 1) + 1) - x) * (1 - insW k s τ (d + 1) (i + 1))
          / (insK k s τ (i + 1 + (d + 1) + 1) - insK k s τ (i + 1 + 1)) * C := by
  by_cases hc : insK k s τ (i + 1 + (d + 1) + 1) - insK k s τ (i + 1 + 1) = 0
  · rw [hC hc]; simp
  congr 1
  clear hC
  rcases Nat.lt_or_ge s (i + 1 + 1 + d) with h | h
  swap
  · rw [insW_one h, insW_one (by omega)]; simp
  rw [insK_of_gt (i := i + 1 + (d + 1) + 1) (j := i + (d + 1) + 1) (by omega) (by omega)] at hc ⊢
  have e1 : i + 1 + 1 + d = i + (d + 1) + 1 := by omega
  have e2 : i + 1 + (d + 1) = i + (d + 1) + 1 := by omega
  rcases Nat.lt_trichotomy (i + 1) s with hs | hs | hs
  · rw [insK_of_le (by omega)] at hc ⊢
    rw [insW_mid h (by omega), insW_mid (by omega) (by omega), e1, e2]
    have p1 : 0 < k (i + (d + 1) + 1) - k (i + 1) := by
      have := hk (show i + 1 ≤ s by omega)
      have := hk (show s + 1 ≤ i + (d + 1) + 1 by omega)
      linarith
    have := p1.ne'
    field_simp
    ring
  · rw [insK_mid (by omega)] at hc ⊢
    rw [insW_zero (by omega), insW_mid (by omega) (by omega), e2]
    have p1 : 0 < k (i + (d + 1) + 1) - k (i + 1) := by
      have := hk (show i + 1 ≤ s by omega)
      have := hk (show s + 1 ≤ i + (d + 1) + 1 by omega)
      linarith
    have := p1.ne'
    field_simp
    ring
  · rw [insW_zero (by omega), insW_zero (by omega), insK_of_gt (j := i + 1) rfl hs]

theorem boehm_B (h1 : k s < τ) (h2 : τ ≤ k (s + 1)) (hk : Monotone k) (d i : ℕ) (x B : K)
    (hB : insK k s τ (i + (d + 1) + 1) - insK k s τ (i + 1) = 0 → B = 0) :
    ((x - k i) * (1 - insW k s τ d (i + 1)) / (k (i + (d + 1)) - k i)
      + (k (i + (d + 1) + 1) - x) * insW k s τ d (i + 1) / (k (i + (d + 1) + 1) - k (i + 1))) * B
      = ((insK k s τ (i + (d + 1) + 1) - x) * insW k s τ (d + 1) i
        + (x - insK k s τ (i + 1)) * (1 - insW k s τ (d + 1) (i + 1)))
          / (insK k s τ (i + (d + 1) + 1) - insK k s τ (i + 1)) * B := by
  by_cases hc : insK k s τ (i + (d + 1) + 1) - insK k s τ (i + 1) = 0
  · rw [hB hc]; simp
  congr 1
  clear hB
  have e1 : i + 1 + d = i + (d + 1) := by omega
  have e2 : i + 1 + (d + 1) = i + (d + 1) + 1 := by omega
  rcases Nat.lt_trichotomy (i + (d + 1)) s with h | h | h
  · rw [insK_of_le (i := i + (d + 1) + 1) (by omega), insK_of_le (by omega)] at *
    rw [insW_one (by omega), insW_one (by omega), insW_one (by omega)]
    simp
  · rw [insK_mid (i := i + (d + 1) + 1) (by omega), insK_of_le (by omega)] at *
    rw [insW_one (by omega), insW_one (by omega), insW_mid (by omega) (by omega), e2]
    have p1 : 0 < k (i + (d + 1) + 1) - k (i + 1) := by
      have := hk (show i + 1 ≤ s by omega)
      have := hk (show s + 1 ≤ i + (d + 1) + 1 by omega)
      linarith
    have := p1.ne'
    field_simp
    ring
  · rw [insK_of_gt (i := i + (d + 1) + 1) (j := i + (d + 1)) rfl h] at *
    rcases Nat.lt_trichotomy i s with hs | hs | hs
    · rw [insK_of_le (by omega)] at *
      rw [insW_mid (i := i + 1) (by omega) (by omega), insW_mid (i := i) (by omega) (by omega),
        insW_mid (by omega) (by omega), e1, e2]
      have q1 := hk (show i + 1 ≤ s by omega)
      have q0 := hk (show i ≤ s by omega)
      have q2 := hk (show s + 1 ≤ i + (d + 1) by omega)
      have q3 := hk (show s + 1 ≤ i + (d + 1) + 1 by omega)
      have p1 : k (i + (d + 1) + 1) - k (i + 1) ≠ 0 := by
        have : 0 < k (i + (d + 1) + 1) - k (i + 1) := by linarith
        exact this.ne'
      have p2 : k (i + (d + 1)) - k i ≠ 0 := by
        have : 0 < k (i + (d + 1)) - k i := by linarith
        exact this.ne'
      field_simp
      ring
    · rw [insK_mid (by omega)] at *
      rw [insW_zero (by omega), insW_mid (i := i) (by omega) (by omega), insW_zero (by omega)]
      have q0 := hk (show i ≤ s by omega)
      have q2 := hk (show s + 1 ≤ i + (d + 1) by omega)
      have p2 : k (i + (d + 1)) - k i ≠ 0 := by
        have : 0 < k (i + (d + 1)) - k i := by linarith
        exact this.ne'
      field_simp
      ring
    · rw [insK_of_gt (j := i) rfl hs] at *
      rw [insW_zero (by omega), insW_zero (by omega), insW_zero (by omega)]
      simp

/-- Boehm's identity at every level, right of the first knot. -/
theorem boehm (hk : Monotone k) (h1 : k s < τ) (h2 : τ ≤ k (s + 1)) {p : ℕ} {x : K} (hx : k 0 < x)
    (d i : ℕ) :
    cox k p x d i = insW k s τ d i * cox (insK k s τ) p x d i
      + (1 - insW k s τ d (i + 1)) * cox (insK k s τ) p x d (i + 1) := by
  have hm := insK_mono hk h1 h2
  have hx' : insK k s τ 0 < x := by rw [insK_of_le (Nat.zero_le _)]; exact hx
  induction d generalizing i with
  | zero =>
    rw [cox, cox, cox, ind_of_lt hx, ind_of_lt hx', ind_of_lt hx']
    rcases Nat.lt_trichotomy i s with h | h | h
    · rw [insW_one (by omega), insW_one (by omega), insK_of_le (i := i) (by omega),
        insK_of_le (i := i + 1) (by omega)]
      simp
    · subst h
      rw [insW_one (by omega), insW_zero (by omega), insK_of_le le_rfl,
        insK_mid rfl, insK_of_gt (i := i + 1 + 1) (j := i + 1) rfl (by omega)]
      rcases le_or_gt x τ with hxt | hxt
      · simp [hxt, hxt.trans h2, not_lt.2 hxt]
      · simp [hxt, h1.trans hxt, not_le.2 hxt]
    · rw [insW_zero (by omega), insW_zero (by omega),
        insK_of_gt (i := i + 1) (j := i) rfl h, insK_of_gt (i := i + 1 + 1) (j := i + 1) rfl (by omega)]
      simp
  | succ d ih =>
    rw [cox_succ, ih i, ih (i + 1), cox_succ, cox_succ]
    have hA := boehm_A h1 hk d i x
    have hB := boehm_B h1 h2 hk d i x (cox (insK k s τ) p x d (i + 1))
      (fun h => cox_deg_zero hm hx' d (i + 1) (by
        rw [← h]; congr 2; omega))
    have hC := boehm_C h1 h2 hk d i x (cox (insK k s τ) p x d (i + 1 + 1))
      (fun h => cox_deg_zero hm hx' d (i + 1 + 1) (by
        rw [← h]; congr 2; omega))
    have e : i + 1 + (d + 1) = i + (d + 1) + 1 := by omega
    rw [e] at hC ⊢
    linear_combination (cox (insK k s τ) p x d i) * hA + hB + hC

end Verif.Spline
