import Verif.Spline.Poly

/-! # Piecewise polynomials are splines (Curry-Schoenberg)

and with it: every spline lives in the bases built for sums and products. -/

set_option linter.unusedSectionVars false

namespace Verif.Spline

open Finset Polynomial

variable {K : Type*} [Field K] [LinearOrder K] [IsStrictOrderedRing K]

theorem k_mem {b : Basis K} (hb : b.Clamped) (i : ℕ) : b.k i ∈ b.knots := by
  have hl := hb.length_eq
  have hlt := hb.lt_len
  rcases Nat.lt_or_ge i b.knots.length with h | h
  · unfold Basis.k; rw [List.getD_eq_getElem _ _ h]; exact List.getElem_mem _
  · rw [hb.last i (by omega), ← hb.last b.len le_rfl]
    have h : b.len < b.knots.length := by omega
    unfold Basis.k; rw [List.getD_eq_getElem _ _ h]; exact List.getElem_mem _

theorem mem_k {b : Basis K} {t : K} (h : t ∈ b.knots) : ∃ i, i < b.knots.length ∧ b.k i = t := by
  obtain ⟨i, hi, rfl⟩ := List.getElem_of_mem h
  exact ⟨i, hi, by unfold Basis.k; rw [List.getD_eq_getElem _ _ hi]⟩

theorem insPos_unique {b : Basis K} (hb : b.Clamped) {y : K} {m : ℕ} (h0 : b.k 0 < y)
    (h1 : y ≤ b.k b.len) (hm : b.k m < y) (hm' : y ≤ b.k (m + 1)) : insPos b y = m := by
  obtain ⟨f1, f2, -⟩ := insert_facts hb h0 h1
  rcases Nat.lt_trichotomy (insPos b y) m with h | h | h
  · exact absurd (f2.trans (hb.mono h)) (not_le.2 hm)
  · exact h
  · exact absurd (hm'.trans (hb.mono h)) (not_le.2 f1)

/-- Polynomial of the spline on the knot interval that ends at or after `y`. -/
noncomputable def BSpline.polyAt (s : BSpline K) (y : K) : K[X] :=
  ∑ i ∈ range s.basis.len, C (s.coeffs.getD i 0) * pieceP s.basis.k (insPos s.basis y) s.basis.degree i

theorem polyAt_natDegree (s : BSpline K) (y : K) : (s.polyAt y).natDegree ≤ s.basis.degree := by
  refine natDegree_sum_le_of_forall_le _ _ fun i _ => ?_
  exact (natDegree_C_mul_le _ _).trans (pieceP_natDegree _ _ _ _)

/-- Values on a piece. -/
theorem eval_polyAt {s : BSpline K} (hb : s.basis.Clamped) (hs : s.WF) {x y : K} (h0 : s.basis.k 0 < x)
    (hxy : x ≤ y) (hy : y ≤ s.basis.k s.basis.len) (hno : ∀ t ∈ s.basis.knots, ¬ (x ≤ t ∧ t < y)) :
    s.eval x = (s.polyAt y).eval x := by
  obtain ⟨f1, f2, -⟩ := insert_facts hb (h0.trans_le hxy) hy
  have hlt : s.basis.k (insPos s.basis y) < x := by
    by_contra h
    push Not at h
    exact hno _ (k_mem hb _) ⟨h, f1⟩
  rw [BSpline.eval_eq hs, BSpline.polyAt, eval_finsetSum]
  refine Finset.sum_congr rfl fun i _ => ?_
  rw [eval_mul, eval_C, pieceP_eval, Basis.fn, cox_piece hb.mono h0 hlt (hxy.trans f2)]

/-- Values at the first knot. -/
theorem eval_polyAt_first {s : BSpline K} (hb : s.basis.Clamped) (hs : s.WF) {y : K}
    (h0 : s.basis.k 0 < y) (hno : ∀ t ∈ s.basis.knots, ¬ (s.basis.k 0 < t ∧ t < y))
    (hy : y ≤ s.basis.k s.basis.len) :
    s.eval (s.basis.k 0) = (s.polyAt y).eval (s.basis.k 0) := by
  have hpos : insPos s.basis y = s.basis.degree := by
    refine insPos_unique hb h0 hy (by rw [hb.k_degree]; exact h0) ?_
    by_contra h
    push Not at h
    exact hno _ (k_mem hb _) ⟨hb.k_degree ▸ hb.start, h⟩
  rw [BSpline.eval_eq hs, BSpline.polyAt, eval_finsetSum, hpos]
  refine Finset.sum_congr rfl fun i _ => ?_
  rw [eval_mul, eval_C, pieceP_eval, Basis.fn]
  congr 1
  rcases Nat.eq_zero_or_pos s.basis.degree with z | z
  · have := cox_first hb.first hb.mono hb.start 0 i (by omega)
    rw [z] at this ⊢
    rw [this, coxB]
    congr 1
    apply propext
    omega
  · obtain ⟨d, hd⟩ : ∃ d, s.basis.degree = d + 1 := ⟨s.basis.degree - 1, by omega⟩
    have := cox_piece_first hb.mono hb.first hb.start d i (by omega)
    rw [← hd] at this
    exact this

/-- Position and multiplicity of a knot value. -/
theorem knot_block {b : Basis K} (hb : b.Clamped) {τ : K} (h0 : b.k 0 < τ) (h1 : τ < b.k b.len) :
    (∀ r, r < b.knots.count τ → b.k (insPos b τ + 1 + r) = τ) ∧
    τ < b.k (insPos b τ + b.knots.count τ + 1) ∧ b.k (insPos b τ + b.knots.count τ) ≤ τ := by
  obtain ⟨f1, f2, f3, f4, -⟩ := insert_facts hb h0 h1.le
  have hl := hb.length_eq
  have F := filter_le_length b.knots τ
  have hlt : (b.knots.filter (· < τ)).length = insPos b τ + 1 := by
    have a1 := (k_lt_iff hb.sorted τ (insPos b τ) (by omega)).1 f1
    have a2 : ¬ insPos b τ + 1 < (b.knots.filter (· < τ)).length := by
      rw [← k_lt_iff hb.sorted τ _ (by omega)]; exact not_lt.2 f2
    omega
  have hle : (b.knots.filter (· ≤ τ)).length ≤ b.len := by
    by_contra h
    push Not at h
    exact absurd ((k_le_iff hb.sorted τ b.len (by omega)).2 h) (not_le.2 h1)
  refine ⟨?_, ?_, ?_⟩
  · intro r hr
    refine le_antisymm ((k_le_iff hb.sorted τ _ (by omega)).2 (by omega)) ?_
    exact f2.trans (hb.mono (by omega))
  · by_contra h
    push Not at h
    have := (k_le_iff hb.sorted τ _ (by omega)).1 h
    omega
  · exact (k_le_iff hb.sorted τ _ (by omega)).2 (by omega)

/-- Neighbouring pieces of a spline match smoothly, depending on the multiplicity. -/
theorem polyAt_smooth {s : BSpline K} (hb : s.basis.Clamped) {τ y : K} (h0 : s.basis.k 0 < τ) (hτy : τ < y)
    (hy : y ≤ s.basis.k s.basis.len) (hno : ∀ t ∈ s.basis.knots, ¬ (τ < t ∧ t < y)) :
    (X - C τ) ^ (s.basis.degree + 1 - s.basis.knots.count τ) ∣ s.polyAt y - s.polyAt τ ∧
    (τ ∉ s.basis.knots → s.polyAt y = s.polyAt τ) := by
  obtain ⟨f1, f2, -⟩ := insert_facts hb h0 (hτy.le.trans hy)
  obtain ⟨b1, b2, b3⟩ := knot_block hb h0 (hτy.trans_le hy)
  have hpos : insPos s.basis y = insPos s.basis τ + s.basis.knots.count τ := by
    refine insPos_unique hb (h0.trans hτy) hy (b3.trans_lt hτy) ?_
    by_contra h
    push Not at h
    exact hno _ (k_mem hb _) ⟨b2, h⟩
  constructor
  · unfold BSpline.polyAt
    rw [hpos, ← Finset.sum_sub_distrib]
    refine Finset.dvd_sum fun i _ => ?_
    rw [← mul_sub]
    exact Dvd.dvd.mul_left (pieceP_smooth hb.mono f1 b1 b2 _ _) _
  · intro h
    unfold BSpline.polyAt
    rw [hpos, List.count_eq_zero_of_not_mem h, Nat.add_zero]

/-- Curry-Schoenberg: polynomials given on the knot intervals, joined as smoothly as the knot
multiplicities ask, are a spline of the basis. -/
theorem curry_schoenberg {b : Basis K} (hb : b.Clamped) (F : K → K[X])
    (hdeg : ∀ y, (F y).natDegree ≤ b.degree)
    (hsm : ∀ τ y, τ ∈ b.knots → y ∈ b.knots → b.k 0 < τ → τ < y → (∀ t ∈ b.knots, ¬ (τ < t ∧ t < y)) →
      (X - C τ) ^ (b.degree + 1 - b.knots.count τ) ∣ F y - F τ) :
    ∃ t : BSpline K, t.basis = b ∧ t.WF ∧ ∀ y ∈ b.knots, b.k 0 < y → t.polyAt y = F y := by
  classical
  have hl := hb.length_eq
  have hlt := hb.lt_len
  set p := b.degree with hp
  -- consistency of the functionals
  have cons : ∀ n i m1 m2, m2 - m1 ≤ n → m1 ≤ m2 → i ≤ m1 → m2 ≤ i + p → p ≤ m1 → m2 < b.len →
      b.k m1 < b.k (m1 + 1) → b.k m2 < b.k (m2 + 1) →
      lam b.k p i (F (b.k (m1 + 1))) = lam b.k p i (F (b.k (m2 + 1))) := by
    intro n
    induction n with
    | zero =>
      intro i m1 m2 h1 h2 _ _ _ _ _ _
      have : m1 = m2 := by omega
      rw [this]
    | succ n ih =>
      intro i m1 m2 h1 h2 h3 h4 h5 h6 h7 h8
      rcases Nat.eq_or_lt_of_le h2 with e | hl12
      · rw [e]
      have hτ0 : b.k 0 < b.k (m1 + 1) := (hb.mono (Nat.zero_le m1)).trans_lt h7
      have hτ1 : b.k (m1 + 1) < b.k b.len :=
        ((hb.mono (by omega : m1 + 1 ≤ m2)).trans_lt h8).trans_le (hb.mono h6)
      have hτpos : insPos b (b.k (m1 + 1)) = m1 := insPos_unique hb hτ0 hτ1.le h7 le_rfl
      obtain ⟨b1, b2, b3⟩ := knot_block hb hτ0 hτ1
      rw [hτpos] at b1 b2 b3
      set τ := b.k (m1 + 1) with hτ
      set M := b.knots.count τ with hM
      have hMpos : 0 < M := List.count_pos_iff.2 (k_mem hb _)
      have hm' : m1 + M ≤ m2 := by
        by_contra hc
        push Not at hc
        have e1 : b.k (m2 + 1) ≤ τ := (hb.mono (by omega : m2 + 1 ≤ m1 + M)).trans b3
        have e2 : τ ≤ b.k m2 := hb.mono (by omega)
        exact absurd h8 (not_lt.2 (e1.trans e2))
      have hno : ∀ t ∈ b.knots, ¬ (τ < t ∧ t < b.k (m1 + M + 1)) := by
        rintro t ht ⟨u1, u2⟩
        obtain ⟨j, -, rfl⟩ := mem_k ht
        rcases Nat.lt_or_ge (m1 + M) j with h | h
        · exact absurd u2 (not_lt.2 (hb.mono h))
        · exact absurd u1 (not_lt.2 ((hb.mono h).trans b3))
      have hd := hsm τ (b.k (m1 + M + 1)) (k_mem hb _) (k_mem hb _) hτ0 b2 hno
      have hz : lam b.k p i (F (b.k (m1 + M + 1)) - F τ) = 0 := by
        refine lam_vanish (M := M) ⟨m1 + 1, by omega, by omega, b1⟩ ?_ hd
        exact (natDegree_sub_le _ _).trans (max_le (hdeg _) (hdeg _))
      rw [lam_sub, sub_eq_zero] at hz
      rw [← hz]
      exact ih i (m1 + M) m2 (by omega) hm' (by omega) h4 (by omega) h6 (b3.trans_lt b2) h8
  let P : ℕ → ℕ → Prop := fun i m => p ≤ m ∧ m < b.len ∧ i ≤ m ∧ m ≤ i + p ∧ b.k m < b.k (m + 1)
  let c : ℕ → K := fun i => if h : ∃ m, P i m then lam b.k p i (F (b.k (Classical.choose h + 1))) else 0
  have hc : ∀ i m, P i m → c i = lam b.k p i (F (b.k (m + 1))) := by
    intro i m hm
    have hex : ∃ m, P i m := ⟨m, hm⟩
    have hsp := Classical.choose_spec hex
    show (if h : ∃ m, P i m then lam b.k p i (F (b.k (Classical.choose h + 1))) else 0) = _
    rw [dif_pos hex]
    obtain ⟨u1, u2, u3, u4, u5⟩ := hsp
    obtain ⟨v1, v2, v3, v4, v5⟩ := hm
    rcases Nat.le_total (Classical.choose hex) m with h | h
    · exact cons _ i _ m le_rfl h u3 v4 u1 v2 u5 v5
    · exact (cons _ i m _ le_rfl h v3 u4 v1 u2 v5 u5).symm
  refine ⟨⟨b, (List.range b.len).map c⟩, rfl, by simp [BSpline.WF], ?_⟩
  intro y hy h0
  have hyl : y ≤ b.k b.len := ((counts_of_clamped hb).2.2 y hy).2
  obtain ⟨f1, f2, f3, f4, -⟩ := insert_facts hb h0 hyl
  -- y is the knot just after its position
  have hyk : b.k (insPos b y + 1) = y := by
    obtain ⟨j, -, hj⟩ := mem_k hy
    refine le_antisymm ?_ f2
    have hle : insPos b y + 1 ≤ j → b.k (insPos b y + 1) ≤ y := fun h => by
      have := hb.mono h
      rwa [hj] at this
    apply hle
    by_contra h
    push Not at h
    have : b.k j ≤ b.k (insPos b y) := hb.mono (by omega)
    rw [hj] at this
    exact absurd f1 (not_lt.2 this)
  have hpiece : b.k (insPos b y) < b.k (insPos b y + 1) := f1.trans_le f2
  have hrep := lam_repro hb.mono hpiece p (b.len - 1) f4 (by omega) (hdeg y)
  rw [show b.len - 1 + 1 = b.len by omega] at hrep
  rw [← hrep]
  unfold BSpline.polyAt
  refine Finset.sum_congr rfl fun i hi => ?_
  have hi := Finset.mem_range.1 hi
  by_cases hsup : i ≤ insPos b y ∧ insPos b y ≤ i + p
  · congr 2
    show ((List.range b.len).map c).getD i 0 = _
    rw [List.getD_eq_getElem _ _ (by simpa using hi), List.getElem_map, List.getElem_range,
      hc i (insPos b y) ⟨f4, f3, hsup.1, hsup.2, hpiece⟩, hyk]
  · have hz := pieceP_zero b.k (insPos b y) p i (by omega)
    show C _ * pieceP b.k (insPos b y) p i = _
    rw [hz]; simp

/-- The spline given by pieces evaluates piecewise. -/
theorem next_knot {b : Basis K} (hb : b.Clamped) {x : K} (h0 : b.k 0 ≤ x) (h1 : x ≤ b.k b.len) :
    ∃ y ∈ b.knots, b.k 0 < y ∧ x ≤ y ∧ (x = b.k 0 ∨ ∀ t ∈ b.knots, ¬ (x ≤ t ∧ t < y)) ∧
      (∀ t ∈ b.knots, ¬ (x < t ∧ t < y)) := by
  rcases h0.eq_or_lt with e | h0
  · refine ⟨b.k (b.degree + 1), k_mem hb _, hb.k_degree ▸ hb.start, ?_, Or.inl e.symm, ?_⟩
    · rw [← e]; exact hb.mono (Nat.zero_le _)
    · rintro t ht ⟨u1, u2⟩
      obtain ⟨j, -, rfl⟩ := mem_k ht
      rcases Nat.lt_or_ge b.degree j with h | h
      · exact absurd u2 (not_lt.2 (hb.mono h))
      · rw [hb.first j h, e] at u1; exact lt_irrefl _ u1
  · obtain ⟨f1, f2, -⟩ := insert_facts hb h0 h1
    have hno : ∀ t ∈ b.knots, ¬ (x ≤ t ∧ t < b.k (insPos b x + 1)) := by
      rintro t ht ⟨u1, u2⟩
      obtain ⟨j, -, rfl⟩ := mem_k ht
      rcases Nat.lt_or_ge (insPos b x) j with h | h
      · exact absurd u2 (not_lt.2 (hb.mono h))
      · exact absurd (u1.trans (hb.mono h)) (not_le.2 f1)
    exact ⟨_, k_mem hb _, h0.trans_le f2, f2, Or.inr hno, fun t ht u => hno t ht ⟨u.1.le, u.2⟩⟩

/-- Every spline of degree `p` is a spline of any basis on the same interval that has degree
`d ≥ p` and repeats each of its interior knots at least `d - p` times more. -/
theorem spans_elevate {c : Basis K} (hc : c.Clamped) {s : BSpline K} (hb : s.basis.Clamped) (hs : s.WF)
    (hd : s.basis.degree ≤ c.degree) (e0 : c.k 0 = s.basis.k 0) (e1 : c.k c.len = s.basis.k s.basis.len)
    (hm : ∀ τ ∈ s.basis.knots, s.basis.k 0 < τ → τ < s.basis.k s.basis.len →
      s.basis.knots.count τ + (c.degree - s.basis.degree) ≤ c.knots.count τ) :
    ∃ t : BSpline K, t.basis = c ∧ t.WF ∧
      ∀ x, s.basis.k 0 ≤ x → x ≤ s.basis.k s.basis.len → t.eval x = s.eval x := by
  have hsub : ∀ τ ∈ s.basis.knots, τ ∈ c.knots := by
    intro τ hτ
    obtain ⟨q1, q2⟩ := (counts_of_clamped hb).2.2 τ hτ
    rcases q1.eq_or_lt with e | l
    · rw [← e, ← e0]; exact k_mem hc _
    · rcases q2.eq_or_lt with e | l'
      · rw [e, ← e1]; exact k_mem hc _
      · have h1 := hm τ hτ l l'
        have h2 := List.count_pos_iff.2 hτ
        exact List.count_pos_iff.1 (by omega)
  have hyl : ∀ y ∈ c.knots, y ≤ s.basis.k s.basis.len := by
    intro y hy; rw [← e1]; exact ((counts_of_clamped hc).2.2 y hy).2
  obtain ⟨t, ht, hwf, hpoly⟩ := curry_schoenberg hc (fun y => s.polyAt y)
    (fun y => (polyAt_natDegree s y).trans hd) (by
      intro τ y hτ hy h0 hτy hno
      rw [e0] at h0
      obtain ⟨d1, d2⟩ := polyAt_smooth hb h0 hτy (hyl y hy) (fun u hu => hno u (hsub u hu))
      by_cases h : τ ∈ s.basis.knots
      · refine dvd_trans (pow_dvd_pow _ ?_) d1
        have := hm τ h h0 (hτy.trans_le (hyl y hy))
        omega
      · rw [d2 h, sub_self]; exact dvd_zero _)
  refine ⟨t, ht, hwf, ?_⟩
  intro x h0 h1
  subst ht
  obtain ⟨y, hy, y0, hxy, hno, hno'⟩ := next_knot hc (x := x) (by rw [e0]; exact h0) (by rw [e1]; exact h1)
  have hp := hpoly y hy y0
  rw [e0] at y0
  rcases h0.eq_or_lt with e | h0'
  · subst e
    have q1 := eval_polyAt_first hb hs (y := y) y0 (fun u hu => hno' u (hsub u hu)) (hyl y hy)
    have q2 := eval_polyAt_first hc hwf (y := y) (by rw [e0]; exact y0) (by rw [e0]; exact hno')
      (by rw [e1]; exact hyl y hy)
    rw [e0, hp] at q2
    rw [q1, q2]
  · have hno : ∀ u ∈ t.basis.knots, ¬ (x ≤ u ∧ u < y) := by
      rcases hno with h | h
      · rw [e0] at h; exact absurd h h0'.ne'
      · exact h
    rw [eval_polyAt hb hs h0' hxy (hyl y hy) (fun u hu => hno u (hsub u hu)),
      eval_polyAt hc hwf (by rw [e0]; exact h0') hxy (by rw [e1]; exact hyl y hy) hno, hp]

/-- Products of splines are splines of any basis with the summed degree and enough multiplicity. -/
theorem spans_product {c : Basis K} (hc : c.Clamped) {s s' : BSpline K} (hb : s.basis.Clamped) (hs : s.WF)
    (hb' : s'.basis.Clamped) (hs' : s'.WF)
    (hd : c.degree = s.basis.degree + s'.basis.degree)
    (e0 : c.k 0 = s.basis.k 0) (e1 : c.k c.len = s.basis.k s.basis.len)
    (e0' : c.k 0 = s'.basis.k 0) (e1' : c.k c.len = s'.basis.k s'.basis.len)
    (hm : ∀ τ ∈ s.basis.knots, s.basis.k 0 < τ → τ < s.basis.k s.basis.len →
      s.basis.knots.count τ + s'.basis.degree ≤ c.knots.count τ)
    (hm' : ∀ τ ∈ s'.basis.knots, s'.basis.k 0 < τ → τ < s'.basis.k s'.basis.len →
      s'.basis.knots.count τ + s.basis.degree ≤ c.knots.count τ) :
    ∃ t : BSpline K, t.basis = c ∧ t.WF ∧
      ∀ x, c.k 0 ≤ x → x ≤ c.k c.len → t.eval x = s.eval x * s'.eval x := by
  have hsub : ∀ r : BSpline K, r.basis.Clamped → c.k 0 = r.basis.k 0 → c.k c.len = r.basis.k r.basis.len →
      (∀ τ ∈ r.basis.knots, r.basis.k 0 < τ → τ < r.basis.k r.basis.len →
        r.basis.knots.count τ ≤ c.knots.count τ) → ∀ τ ∈ r.basis.knots, τ ∈ c.knots := by
    intro r hr e0 e1 hm τ hτ
    obtain ⟨q1, q2⟩ := (counts_of_clamped hr).2.2 τ hτ
    rcases q1.eq_or_lt with e | l
    · rw [← e, ← e0]; exact k_mem hc _
    · rcases q2.eq_or_lt with e | l'
      · rw [e, ← e1]; exact k_mem hc _
      · have h1 := hm τ hτ l l'
        have h2 := List.count_pos_iff.2 hτ
        exact List.count_pos_iff.1 (by omega)
  have hsubA := hsub s hb e0 e1 (fun τ a b c => by have := hm τ a b c; omega)
  have hsubB := hsub s' hb' e0' e1' (fun τ a b c => by have := hm' τ a b c; omega)
  have hyl : ∀ y ∈ c.knots, y ≤ c.k c.len := fun y hy => ((counts_of_clamped hc).2.2 y hy).2
  obtain ⟨t, ht, hwf, hpoly⟩ := curry_schoenberg hc (fun y => s.polyAt y * s'.polyAt y)
    (fun y => natDegree_mul_le.trans (by
      have := polyAt_natDegree s y; have := polyAt_natDegree s' y; omega)) (by
      intro τ y hτ hy h0 hτy hno
      obtain ⟨d1, d2⟩ := polyAt_smooth hb (e0 ▸ h0) hτy (e1 ▸ hyl y hy) (fun u hu => hno u (hsubA u hu))
      obtain ⟨d1', d2'⟩ := polyAt_smooth hb' (e0' ▸ h0) hτy (e1' ▸ hyl y hy) (fun u hu => hno u (hsubB u hu))
      have hsplit : s.polyAt y * s'.polyAt y - s.polyAt τ * s'.polyAt τ
          = (s.polyAt y - s.polyAt τ) * s'.polyAt y + s.polyAt τ * (s'.polyAt y - s'.polyAt τ) := by ring
      rw [hsplit]
      refine dvd_add (Dvd.dvd.mul_right ?_ _) (Dvd.dvd.mul_left ?_ _)
      · by_cases h : τ ∈ s.basis.knots
        · refine dvd_trans (pow_dvd_pow _ ?_) d1
          have := hm τ h (e0 ▸ h0) (e1 ▸ (hτy.trans_le (hyl y hy)))
          omega
        · rw [d2 h, sub_self]; exact dvd_zero _
      · by_cases h : τ ∈ s'.basis.knots
        · refine dvd_trans (pow_dvd_pow _ ?_) d1'
          have := hm' τ h (e0' ▸ h0) (e1' ▸ (hτy.trans_le (hyl y hy)))
          omega
        · rw [d2' h, sub_self]; exact dvd_zero _)
  refine ⟨t, ht, hwf, ?_⟩
  intro x h0 h1
  subst ht
  obtain ⟨y, hy, y0, hxy, hno, hno'⟩ := next_knot hc (x := x) h0 h1
  have hp := hpoly y hy y0
  have hyle := hyl y hy
  rcases h0.eq_or_lt with e | h0'
  · subst e
    have q1 := eval_polyAt_first hb hs (y := y) (e0 ▸ y0) (fun u hu => e0 ▸ hno' u (hsubA u hu)) (e1 ▸ hyle)
    have q1' := eval_polyAt_first hb' hs' (y := y) (e0' ▸ y0) (fun u hu => e0' ▸ hno' u (hsubB u hu)) (e1' ▸ hyle)
    have q2 := eval_polyAt_first hc hwf (y := y) y0 hno' hyle
    rw [← e0] at q1
    rw [← e0'] at q1'
    rw [q1, q1', q2, hp, eval_mul]
  · have hno : ∀ u ∈ t.basis.knots, ¬ (x ≤ u ∧ u < y) := by
      rcases hno with h | h
      · exact absurd h h0'.ne'
      · exact h
    rw [eval_polyAt hb hs (e0 ▸ h0') hxy (e1 ▸ hyle) (fun u hu => hno u (hsubA u hu)),
      eval_polyAt hb' hs' (e0' ▸ h0') hxy (e1' ▸ hyle) (fun u hu => hno u (hsubB u hu)),
      eval_polyAt hc hwf h0' hxy hyle hno, hp, eval_mul]

end Verif.Spline
