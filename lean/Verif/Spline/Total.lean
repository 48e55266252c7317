import Verif.Spline.Boehm
import Mathlib.LinearAlgebra.Matrix.Determinant.Basic
import Mathlib.LinearAlgebra.Multilinear.Basic
import Mathlib.Order.Fin.Basic

/-! Helper lemmas: total positivity of B-splines (Schoenberg-Whitney), by knot insertion. -/

set_option linter.unusedSectionVars false

namespace Verif.Spline

open Finset

variable {K : Type*} [Field K] [LinearOrder K] [IsStrictOrderedRing K]

/-- A basis function is positive in its support. -/
theorem cox_pos {k : ℕ → K} (hk : Monotone k) {p : ℕ} {x : K} (hx : k 0 < x) (d i : ℕ) (h1 : k i < x)
    (h2 : x < k (i + d + 1) ∨ x ≤ k (i + 1)) : 0 < cox k p x d i := by
  induction d generalizing i with
  | zero =>
    have h3 : x ≤ k (i + 1) := by
      rcases h2 with h | h
      · exact h.le
      · exact h
    rw [cox, ind_of_lt hx, if_pos ⟨h1, h3⟩]
    exact one_pos
  | succ d ih =>
    rw [cox_succ]
    have n1 : 0 ≤ (x - k i) * cox k p x d i / (k (i + (d + 1)) - k i) :=
      div_nonneg (mul_nonneg (by linarith) (cox_nonneg hk hx d i)) (sub_nonneg.2 (hk (by omega)))
    have n2 : 0 ≤ (k (i + (d + 1) + 1) - x) * cox k p x d (i + 1) / (k (i + (d + 1) + 1) - k (i + 1)) := by
      refine div_nonneg (mul_nonneg ?_ (cox_nonneg hk hx d _)) (sub_nonneg.2 (hk (by omega)))
      rcases h2 with h | h
      · linarith
      · have := h.trans (hk (show i + 1 ≤ i + (d + 1) + 1 by omega)); linarith
    by_cases hc : x < k (i + d + 1) ∨ x ≤ k (i + 1)
    · have hp := ih i h1 hc
      have : k i < k (i + (d + 1)) := by
        rcases hc with h | h
        · exact h1.trans h
        · exact h1.trans_le (h.trans (hk (by omega)))
      have : 0 < (x - k i) * cox k p x d i / (k (i + (d + 1)) - k i) := div_pos (mul_pos (by linarith) hp) (by linarith)
      linarith
    · push Not at hc
      have h2 : x < k (i + (d + 1) + 1) := by
        rcases h2 with h | h
        · exact h
        · exact absurd h (not_le.2 hc.2)
      have hp := ih (i + 1) hc.2 (Or.inl (by rwa [show i + 1 + d + 1 = i + (d + 1) + 1 by omega]))
      have : 0 < (k (i + (d + 1) + 1) - x) * cox k p x d (i + 1) / (k (i + (d + 1) + 1) - k (i + 1)) :=
        div_pos (mul_pos (by linarith) hp) (by linarith [hc.2])
      linarith

/-- At the right end of its support a basis function is positive only if all its other knots are there. -/
theorem cox_right {k : ℕ → K} (hk : Monotone k) {p : ℕ} {x : K} (hx : k 0 < x) (d i : ℕ) (h1 : k (i + 1) < x) (h2 : k (i + d + 1) ≤ x) :
    cox k p x d i = 0 := by
  induction d generalizing i with
  | zero => exact cox_eq_zero hk hx 0 i (Or.inr h1)
  | succ d ih =>
    rw [cox_succ, ih i h1 ((hk (by omega)).trans h2)]
    rcases eq_or_lt_of_le h2 with h | h
    · rw [show i + (d + 1) + 1 = i + (d + 1) + 1 from rfl, h]; simp
    · rw [cox_eq_zero hk hx d (i + 1) (Or.inr (by rwa [show i + 1 + d + 1 = i + (d + 1) + 1 by omega]))]; simp

theorem cox_pos_iff {k : ℕ → K} (hk : Monotone k) {p : ℕ} {x : K} (hx : k 0 < x) (d i : ℕ) :
    0 < cox k p x d i ↔ k i < x ∧ (x < k (i + d + 1) ∨ x ≤ k (i + 1)) := by
  refine ⟨fun h => ?_, fun h => cox_pos hk hx d i h.1 h.2⟩
  constructor
  · by_contra hc
    rw [cox_eq_zero hk hx d i (Or.inl (not_lt.1 hc))] at h
    exact lt_irrefl _ h
  · by_contra hc
    push Not at hc
    rw [cox_right hk hx d i hc.2 hc.1] at h
    exact lt_irrefl _ h

section
variable {m : ℕ}

/-- The values of one basis function in the points. -/
def colV (k : ℕ → K) (p : ℕ) (X : Fin m → K) (i : ℕ) : Fin m → K := fun r => cox k p (X r) p i

/-- A minor of the collocation matrix (transposed). -/
def minor (k : ℕ → K) (p : ℕ) (X : Fin m → K) (I : Fin m → ℕ) : K := Matrix.detRowAlternating fun c => colV k p X (I c)

/-- All minors are non-negative, and positive if their diagonal is. -/
def TN (k : ℕ → K) (p : ℕ) (X : Fin m → K) : Prop :=
  ∀ I : Fin m → ℕ, StrictMono I → 0 ≤ minor k p X I ∧ ((∀ r, 0 < cox k p (X r) p (I r)) → 0 < minor k p X I)

variable {k : ℕ → K} {s : ℕ} {τ : K} {p : ℕ} {X : Fin m → K}

theorem insW_pos (hk : Monotone k) (h1 : k s < τ) (h2 : τ ≤ k (s + 1)) {d i : ℕ} (hi : i ≤ s) : 0 < insW k s τ d i := by
  rcases Nat.lt_or_ge s (i + d) with h | h
  · rw [insW_mid h hi]
    have a := hk hi
    have b := hk (show s + 1 ≤ i + d by omega)
    exact div_pos (by linarith) (by linarith)
  · rw [insW_one h]; exact one_pos

theorem insW_nonneg (hk : Monotone k) (h1 : k s < τ) (h2 : τ ≤ k (s + 1)) (d i : ℕ) : 0 ≤ insW k s τ d i := by
  rcases Nat.lt_or_ge s i with h | h
  · rw [insW_zero h]
  · exact (insW_pos hk h1 h2 h).le

theorem insW_le (hk : Monotone k) (h1 : k s < τ) (h2 : τ ≤ k (s + 1)) (d i : ℕ) : insW k s τ d i ≤ 1 := by
  rcases Nat.lt_or_ge s i with h | hi
  · rw [insW_zero h]; exact zero_le_one
  · rcases Nat.lt_or_ge s (i + d) with h | h
    · rw [insW_mid h hi]
      have a := hk hi
      have b := hk (show s + 1 ≤ i + d by omega)
      rw [div_le_one (by linarith)]
      linarith
    · rw [insW_one h]

/-- One knot insertion. -/
theorem TN.step (hk : Monotone k) (h1 : k s < τ) (h2 : τ ≤ k (s + 1)) (hX : StrictMono X) (hX0 : ∀ r, k 0 < X r)
    (h : TN (insK k s τ) p X) : TN k p X := by
  intro I hI
  have hm := insK_mono hk h1 h2
  have hX' : ∀ r, insK k s τ 0 < X r := fun r => by rw [insK_of_le (Nat.zero_le _)]; exact hX0 r
  set k' := insK k s τ with hk'
  let A : Fin m → K := fun c => insW k s τ p (I c)
  let B : Fin m → K := fun c => 1 - insW k s τ p (I c + 1)
  have hA : ∀ c, 0 ≤ A c := fun c => insW_nonneg hk h1 h2 _ _
  have hB : ∀ c, 0 ≤ B c := fun c => sub_nonneg.2 (insW_le hk h1 h2 _ _)
  let J : Finset (Fin m) → Fin m → ℕ := fun S c => if c ∈ S then I c else I c + 1
  have expand : minor k p X I = ∑ S : Finset (Fin m), (∏ c, if c ∈ S then A c else B c) * minor k' p X (J S) := by
    have e : (fun c => colV k p X (I c)) = (fun c => A c • colV k' p X (I c)) + fun c => B c • colV k' p X (I c + 1) := by
      funext c r
      exact boehm hk h1 h2 (hX0 r) p (I c)
    unfold minor
    rw [e]
    have := (Matrix.detRowAlternating (n := Fin m) (R := K)).toMultilinearMap.map_add_univ
      (fun c => A c • colV k' p X (I c)) fun c => B c • colV k' p X (I c + 1)
    refine this.trans (Finset.sum_congr rfl fun S _ => ?_)
    have e2 : (S.piecewise (fun c => A c • colV k' p X (I c)) fun c => B c • colV k' p X (I c + 1)) =
        fun c => (if c ∈ S then A c else B c) • colV k' p X (J S c) := by
      funext c
      by_cases hc : c ∈ S
      · simp [Finset.piecewise, J, hc]
      · simp [Finset.piecewise, J, hc]
    rw [e2]
    have := (Matrix.detRowAlternating (n := Fin m) (R := K)).toMultilinearMap.map_smul_univ
      (fun c => if c ∈ S then A c else B c) fun c => colV k' p X (J S c)
    refine this.trans ?_
    rw [smul_eq_mul]
    rfl
  have Jzero : ∀ S, ¬ StrictMono (J S) → minor k' p X (J S) = 0 := by
    intro S hS
    obtain ⟨a, b, hab, hle⟩ : ∃ a b, a < b ∧ J S b ≤ J S a := by
      by_contra hc
      push Not at hc
      exact hS fun a b hab => hc a b hab
    have hI' := hI hab
    have e : J S a = J S b := by
      simp only [J] at hle ⊢
      split_ifs at hle ⊢ <;> omega
    refine (Matrix.detRowAlternating (n := Fin m) (R := K)).map_eq_zero_of_eq _ (i := a) (j := b) ?_ hab.ne
    simp only [e]
  have term : ∀ S, 0 ≤ (∏ c, if c ∈ S then A c else B c) * minor k' p X (J S) := by
    intro S
    by_cases hS : StrictMono (J S)
    · refine mul_nonneg (Finset.prod_nonneg fun c _ => ?_) (h _ hS).1
      split_ifs
      exacts [hA c, hB c]
    · rw [Jzero S hS, mul_zero]
  rw [expand]
  refine ⟨Finset.sum_nonneg fun S _ => term S, fun hd => ?_⟩
  -- the choice of columns
  let O0 : Fin m → Prop := fun c => I c ≤ s ∧ 0 < cox k' p (X c) p (I c)
  let O1 : Fin m → Prop := fun c => 0 < B c ∧ 0 < cox k' p (X c) p (I c + 1)
  have hO : ∀ c, O0 c ∨ O1 c := by
    intro c
    by_contra hc
    push Not at hc
    have hc0 : A c * cox k' p (X c) p (I c) ≤ 0 := by
      by_cases hs : I c ≤ s
      · have : cox k' p (X c) p (I c) ≤ 0 := not_lt.1 fun h' => hc.1 ⟨hs, h'⟩
        exact mul_nonpos_of_nonneg_of_nonpos (hA c) this
      · simp only [A, insW_zero (not_le.1 hs), zero_mul, le_refl]
    have hc1 : B c * cox k' p (X c) p (I c + 1) ≤ 0 := by
      by_cases hs : 0 < B c
      · have : cox k' p (X c) p (I c + 1) ≤ 0 := not_lt.1 fun h' => hc.2 ⟨hs, h'⟩
        exact mul_nonpos_of_nonneg_of_nonpos (hB c) this
      · rw [le_antisymm (not_lt.1 hs) (hB c), zero_mul]
    have := hd c
    rw [boehm hk h1 h2 (hX0 c) p (I c)] at this
    linarith
  have key : ∀ a b : Fin m, a ≤ b → I b = I a + (b.1 - a.1) → ¬ O0 a → O1 b := by
    intro a b hab hrun ha
    by_contra hb
    have ha1 := (hO a).resolve_left ha
    have hb0 := (hO b).resolve_right hb
    have hab' : a < b := lt_of_le_of_ne hab fun e => ha (e ▸ hb0)
    have hIab := hI hab'
    have p1 := (cox_pos_iff hm (hX' a) p _).1 ha1.2
    have p2 := (cox_pos_iff hm (hX' b) p _).1 hb0.2
    have q1 : k' (I a + p + 1) ≤ X a := by
      by_contra hc
      refine ha ⟨by have := hb0.1; omega, (cox_pos_iff hm (hX' a) p _).2 ⟨(hm (Nat.le_succ _)).trans_lt p1.1, Or.inl (not_le.1 hc)⟩⟩
    have hsp : s < I a + 1 + p := by
      by_contra hc
      have := ha1.1
      simp only [B, insW_one (not_lt.1 hc), sub_self, lt_irrefl] at this
    have q2 : X b ≤ k' (I b + 1) := by
      by_contra hc
      refine hb ⟨?_, (cox_pos_iff hm (hX' b) p _).2 ⟨not_le.1 hc, Or.inl ?_⟩⟩
      · have hs2 : s < I b + 1 + p := by omega
        by_contra hB0
        have e0 : insW k s τ p (I b + 1) = 1 := le_antisymm (insW_le hk h1 h2 _ _) (by simp only [B] at hB0; linarith)
        have hs3 : I b + 1 ≤ s := by
          by_contra hc
          rw [insW_zero (not_le.1 hc)] at e0
          exact zero_ne_one e0
        rw [insW_mid hs2 hs3] at e0
        have a1 := hk hs3
        have b1 := hk (show s + 1 ≤ I b + 1 + p by omega)
        rw [div_eq_one_iff_eq (by linarith)] at e0
        have e1 : τ = k (s + 1) := by linarith
        have e2 : k (I b + 1 + p) = τ := by linarith
        -- then the weight of `a` vanishes as well
        have hsa : I a + 1 ≤ s := by omega
        have := ha1.1
        simp only [B, insW_mid hsp hsa] at this
        have c1 := hk (show s + 1 ≤ I a + 1 + p by omega)
        have c2 := hk (show I a + 1 + p ≤ I b + 1 + p by omega)
        have c3 := hk hsa
        rw [show k (I a + 1 + p) = τ by linarith, div_self (by linarith), sub_self] at this
        exact lt_irrefl _ this
      · rcases p2.2 with h' | h'
        · exact h'.trans_le (hm (by omega))
        · exact absurd h' hc
    have : I a + p + 1 < I b + 1 := by
      by_contra hc
      have := hm (not_lt.1 hc)
      have := hX hab'
      linarith
    have := hb0.1
    omega
  classical
  let S : Finset (Fin m) := Finset.univ.filter fun c => ¬ ∃ a ≤ c, I c = I a + (c.1 - a.1) ∧ ¬ O0 a
  have inS : ∀ c, c ∈ S → O0 c := by
    intro c hc
    by_contra h0
    exact (Finset.mem_filter.1 hc).2 ⟨c, le_rfl, by omega, h0⟩
  have notS : ∀ c, c ∉ S → ∃ a ≤ c, I c = I a + (c.1 - a.1) ∧ ¬ O0 a := by
    intro c hc
    by_contra h0
    exact hc (Finset.mem_filter.2 ⟨Finset.mem_univ _, h0⟩)
  have hJ : StrictMono (J S) := by
    intro a b hab
    have hIab := hI hab
    simp only [J]
    by_cases ha : a ∈ S
    · by_cases hb : b ∈ S
      · simp only [ha, hb, if_true]; exact hIab
      · simp only [ha, hb, if_true, if_false]; omega
    · by_cases hb : b ∈ S
      · simp only [ha, hb, if_true, if_false]
        by_contra hc
        obtain ⟨e, he, hr, ho⟩ := notS a ha
        have hab1 : b.1 = a.1 + 1 := by
          -- strictly increasing sequences grow by at least one
          have grow : ∀ n (u v : Fin m), v.1 = u.1 + n → I u + n ≤ I v := by
            intro n
            induction n with
            | zero => intro u v e; rw [show v = u from Fin.ext (by omega)]; omega
            | succ n ih =>
              intro u v e
              have hv := v.2
              have := ih u ⟨u.1 + n, by omega⟩ rfl
              have h' := hI (show (⟨u.1 + n, by omega⟩ : Fin m) < v from Fin.lt_def.2 (by simp only; omega))
              omega
          have := grow (b.1 - a.1) a b (by have := Fin.lt_def.1 hab; omega)
          have := Fin.lt_def.1 hab
          omega
        have hea := Fin.le_def.1 he
        exact (Finset.mem_filter.1 hb).2 ⟨e, he.trans hab.le, by omega, ho⟩
      · simp only [ha, hb, if_false]; omega
  refine Finset.sum_pos' (fun S _ => term S) ⟨S, Finset.mem_univ _, mul_pos (Finset.prod_pos fun c _ => ?_) ((h _ hJ).2 fun c => ?_)⟩
  · split_ifs with hc
    · exact insW_pos hk h1 h2 (inS c hc).1
    · obtain ⟨a, ha, hr, ho⟩ := notS c hc
      exact (key a c ha hr ho).1
  · by_cases hc : c ∈ S
    · simp only [J, hc, if_true]; exact (inS c hc).2
    · obtain ⟨a, ha, hr, ho⟩ := notS c hc
      simp only [J, hc, if_false]
      exact (key a c ha hr ho).2

/-- A point that is a knot `n` times. -/
def FullN (k : ℕ → K) (y : K) (n : ℕ) : Prop := ∃ a, k a < y ∧ y ≤ k (a + 1) ∧ ∀ j < n, k (a + 1 + j) = y

theorem FullN.insert_self {y : K} {n : ℕ} (h : FullN k y n) : ∃ s, k s < y ∧ y ≤ k (s + 1) ∧ FullN (insK k s y) y (n + 1) := by
  obtain ⟨a, h1, h2, h3⟩ := h
  refine ⟨a, h1, h2, a, ?_, ?_, fun j hj => ?_⟩
  · rw [insK_of_le le_rfl]; exact h1
  · rw [insK_mid rfl]
  · rcases Nat.eq_zero_or_pos j with rfl | h0
    · rw [insK_mid rfl]
    · rw [insK_of_gt (j := a + 1 + (j - 1)) (by omega) (by omega)]
      exact h3 _ (by omega)

theorem FullN.insert_other (h1 : k s < τ) (h2 : τ ≤ k (s + 1)) {y : K} {n : ℕ} (h : FullN k y n) : FullN (insK k s τ) y n := by
  obtain ⟨a, a1, a2, a3⟩ := h
  rcases Nat.lt_trichotomy s a with h | rfl | h
  · refine ⟨a + 1, ?_, ?_, fun j hj => ?_⟩
    · rw [insK_of_gt (j := a) rfl h]; exact a1
    · rw [insK_of_gt (j := a + 1) rfl (by omega)]; exact a2
    · rw [insK_of_gt (j := a + 1 + j) (by omega) (by omega)]; exact a3 j hj
  · rcases lt_or_ge τ y with ht | ht
    · refine ⟨s + 1, ?_, ?_, fun j hj => ?_⟩
      · rw [insK_mid rfl]; exact ht
      · rw [insK_of_gt (j := s + 1) rfl (by omega)]; exact a2
      · rw [insK_of_gt (j := s + 1 + j) (by omega) (by omega)]; exact a3 j hj
    · refine ⟨s, ?_, ?_, fun j hj => ?_⟩
      · rw [insK_of_le le_rfl]; exact a1
      · rw [insK_mid rfl]; exact ht
      · have e : k (s + 1) = y := a3 0 (by omega)
        have e2 : τ = y := le_antisymm (e ▸ h2) ht
        rcases Nat.eq_zero_or_pos j with rfl | h0
        · rw [insK_mid rfl]; exact e2
        · rw [insK_of_gt (j := s + 1 + (j - 1)) (by omega) (by omega)]
          exact a3 _ (by omega)
  · refine ⟨a, ?_, ?_, fun j hj => ?_⟩
    · rw [insK_of_le h.le]; exact a1
    · rw [insK_of_le (by omega)]; exact a2
    · rcases Nat.lt_or_ge s (a + 1 + j) with hs | hs
      · exfalso
        have e1 := a3 (s - (a + 1)) (by omega)
        rw [show a + 1 + (s - (a + 1)) = s by omega] at e1
        have e2 := a3 (s - a) (by omega)
        rw [show a + 1 + (s - a) = s + 1 by omega] at e2
        linarith
      · rw [insK_of_le hs]; exact a3 j hj

/-- All points are full knots. -/
theorem TN.full (hk : Monotone k) (hX : StrictMono X) (hX0 : ∀ r, k 0 < X r) (h : ∀ r, FullN k (X r) p) : TN k p X := by
  choose a a1 a2 a3 using h
  have only : ∀ r i, cox k p (X r) p i ≠ 0 → i = a r := by
    intro r i hi
    have hp := (cox_pos_iff hk (hX0 r) p i).1 (lt_of_le_of_ne (cox_nonneg hk (hX0 r) p i) hi.symm)
    by_contra hne
    rcases Nat.lt_or_gt_of_ne hne with h | h
    · have hb : k (i + 1) < X r := (hk (by omega)).trans_lt (a1 r)
      have hc := hp.2.resolve_right (not_le.2 hb)
      have : k (i + p + 1) ≤ X r := by
        rcases Nat.lt_or_ge (a r) (i + p + 1) with h' | h'
        · have := a3 r (i + p - a r) (by omega)
          rw [show a r + 1 + (i + p - a r) = i + p + 1 by omega] at this
          exact this.le
        · exact (hk h').trans (a1 r).le
      linarith
    · have : X r ≤ k i := (a2 r).trans (hk (by omega))
      linarith [hp.1]
  have amono : Monotone a := by
    intro r r' hr
    by_contra hc
    have e1 := hk (show a r' + 1 ≤ a r by omega)
    have e2 := a2 r'
    have e3 := a1 r
    have e4 := hX.monotone hr
    linarith
  intro I hI
  have e : minor k p X I = ∏ c, cox k p (X c) p (I c) := by
    show Matrix.det (Matrix.of fun c => colV k p X (I c)) = _
    rw [Matrix.det_apply', Finset.sum_eq_single 1]
    · simp [colV]
    · intro σ _ hσ
      refine mul_eq_zero.2 (Or.inr ?_)
      by_contra hc
      have hc := Finset.prod_ne_zero_iff.1 hc
      have hh : ∀ r, I (σ r) = a r := fun r => only _ _ (hc r (Finset.mem_univ _))
      apply hσ
      have hs : StrictMono σ := by
        intro u v huv
        have : a u ≤ a v := amono huv.le
        rw [← hh, ← hh] at this
        exact lt_of_le_of_ne (hI.le_iff_le.1 this) fun e => huv.ne (σ.injective e)
      ext r
      have := (StrictMono.range_inj hs strictMono_id).1 (by rw [σ.surjective.range_eq, Function.surjective_id.range_eq])
      rw [this]
      rfl
    · simp
  rw [e]
  exact ⟨Finset.prod_nonneg fun c _ => cox_nonneg hk (hX0 c) p _, fun hd => Finset.prod_pos fun c _ => hd c⟩

/-- All minors are non-negative, and positive if their diagonal is. -/
theorem TN.all (hk : Monotone k) (hX : StrictMono X) (hX0 : ∀ r, k 0 < X r) (hX1 : ∀ r, ∃ n, X r ≤ k n) : TN k p X := by
  -- insert the points one after the other
  have fullZero : ∀ {k : ℕ → K} {y : K}, k 0 < y → (∃ n, y ≤ k n) → FullN k y 0 := by
    intro k y h0 h1
    classical
    have hn := Nat.find_spec h1
    have hpos : Nat.find h1 ≠ 0 := by
      intro e
      rw [e] at hn
      exact absurd h0 (not_lt.2 hn)
    obtain ⟨a, ha⟩ := Nat.exists_eq_succ_of_ne_zero hpos
    refine ⟨a, ?_, ?_, by simp⟩
    · by_contra hc
      have := Nat.find_min' h1 (not_lt.1 hc)
      omega
    · rw [ha] at hn; exact hn
  have main : ∀ L : List (Fin m), ∀ k : ℕ → K, Monotone k → (∀ r, k 0 < X r) → (∀ r, FullN k (X r) 0) →
      (∀ r, r ∉ L → FullN k (X r) p) → TN k p X := by
    intro L
    induction L with
    | nil => exact fun k hk h0 _ hf => TN.full hk hX h0 fun r => hf r (by simp)
    | cons y L ih =>
      -- insert `X y` until it is a knot `p` times
      have inner : ∀ n, ∀ k : ℕ → K, Monotone k → (∀ r, k 0 < X r) → (∀ r, FullN k (X r) 0) → FullN k (X y) (p - n) →
          (∀ r, r ∉ y :: L → FullN k (X r) p) → TN k p X := by
        intro n
        induction n with
        | zero =>
          intro k hk h0 hz hy hf
          refine ih k hk h0 hz fun r hr => ?_
          by_cases e : r = y
          · subst e; simpa using hy
          · exact hf r (by simp [e, hr])
        | succ n ihn =>
          intro k hk h0 hz hy hf
          rcases Nat.lt_or_ge n p with hn | hn
          · obtain ⟨s, h1, h2, h3⟩ := hy.insert_self
            refine TN.step hk h1 h2 hX h0 (ihn _ (insK_mono hk h1 h2) (fun r => ?_) (fun r => (hz r).insert_other h1 h2) ?_
              fun r hr => (hf r hr).insert_other h1 h2)
            · rw [insK_of_le (Nat.zero_le _)]; exact h0 r
            · rwa [show p - (n + 1) + 1 = p - n by omega] at h3
          · exact ihn k hk h0 hz (by rwa [show p - n = p - (n + 1) by omega]) hf
      intro k hk h0 hz hf
      exact inner p k hk h0 hz (by rw [Nat.sub_self]; exact hz y) hf
  exact main (List.finRange m) k hk hX0 (fun r => fullZero (hX0 r) (hX1 r)) fun r hr => absurd (List.mem_finRange r) hr

end

end Verif.Spline
