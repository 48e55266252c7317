import Verif.Spline.Insert

/-! Helper lemmas for cropping. -/

set_option linter.unusedSectionVars false

namespace Verif.Spline

open Finset

variable {K : Type*} [Field K] [LinearOrder K] [IsStrictOrderedRing K]

theorem cox_shift {k k' : ℕ → K} {m p q : ℕ} {x : K} (h0 : k 0 < x) (h0' : k' 0 < x)
    (d i : ℕ) (h : ∀ j, j ≤ i + d + 1 → k' j = k (m + j)) :
    cox k' q x d i = cox k p x d (m + i) := by
  induction d generalizing i with
  | zero =>
    rw [cox, cox, ind_of_lt h0, ind_of_lt h0', h i (by omega), h (i + 1) (by omega), Nat.add_assoc]
  | succ d ih =>
    rw [cox_succ, cox_succ, ih i (fun j hj => h j (by omega)), ih (i + 1) (fun j hj => h j (by omega)),
      h i (by omega), h (i + 1) (by omega), h (i + (d + 1)) (by omega), h (i + (d + 1) + 1) (by omega)]
    simp only [Nat.add_assoc]

/-- Value at a knot of full multiplicity: only the last function before it is active. -/
theorem cox_full {k : ℕ → K} {p q n : ℕ} (hn : 0 < n) (hmult : ∀ i, i ≤ p → k (n + i) = k n)
    (hk : Monotone k) (hstop : k (n - 1) < k n) (h0 : k 0 < k n) (d i : ℕ) (hd : d ≤ p) :
    cox k q (k n) d i = if i = n - 1 then 1 else 0 := by
  induction d generalizing i with
  | zero =>
    rw [cox, ind_of_lt h0]
    congr 1
    apply propext
    constructor
    · rintro ⟨h1, h2⟩
      by_contra hne
      rcases Nat.lt_or_ge i (n - 1) with l | g
      · exact absurd ((hk (by omega : i + 1 ≤ n - 1)).trans_lt hstop) (not_lt.2 h2)
      · exact absurd (hk (show n ≤ i by omega)) (not_le.2 h1)
    · rintro rfl
      exact ⟨hstop, by rw [Nat.sub_add_cancel hn]⟩
  | succ d ih =>
    rw [cox_succ, ih _ (by omega), ih _ (by omega)]
    by_cases h : i = n - 1
    · have e : i + (d + 1) = n + d := by omega
      rw [if_pos h, if_neg (by omega), e, hmult _ (by omega), h, mul_one, mul_zero,
        zero_div, add_zero, div_self (sub_pos.2 hstop).ne']
    · rw [if_neg h]
      by_cases h' : i + 1 = n - 1
      · have e : i + (d + 1) + 1 = n + d := by omega
        rw [e, hmult _ (by omega)]; simp
      · rw [if_neg h']; simp

theorem filter_eq_takeWhile {l : List K} (hl : l.Pairwise (· ≤ ·)) (P : K → Bool)
    (hP : ∀ a b, a ≤ b → P b = true → P a = true) : l.filter P = l.takeWhile P := by
  induction l with
  | nil => rfl
  | cons a l ih =>
    rw [List.pairwise_cons] at hl
    by_cases h : P a = true
    · rw [List.filter_cons_of_pos h, List.takeWhile_cons_of_pos h, ih hl.2]
    · rw [List.filter_cons_of_neg h, List.takeWhile_cons_of_neg h, List.filter_eq_nil_iff]
      intro y hy hy'
      exact h (hP a y (hl.1 y hy) hy')

theorem getElem_takeWhile_iff {l : List K} (hl : l.Pairwise (· ≤ ·)) (P : K → Bool)
    (hP : ∀ a b, a ≤ b → P b = true → P a = true) (i : ℕ) (hi : i < l.length) :
    P l[i] = true ↔ i < (l.filter P).length := by
  rw [filter_eq_takeWhile hl P hP]
  constructor
  · intro h
    by_contra hc
    have hc : (l.takeWhile P).length ≤ i := not_lt.1 hc
    have hsplit : l.takeWhile P ++ l.dropWhile P = l := List.takeWhile_append_dropWhile
    have hd : 0 < (l.dropWhile P).length := by
      have := congrArg List.length hsplit
      rw [List.length_append] at this; omega
    have hne : l.dropWhile P ≠ [] := by rintro e; rw [e] at hd; simp at hd
    have h1 := List.head_dropWhile_not P hne
    have h2 : (l.dropWhile P).head hne ≤ l[i] := by
      have e : l[i] = (l.dropWhile P)[i - (l.takeWhile P).length]'(by
          have := congrArg List.length hsplit
          rw [List.length_append] at this; omega) := by
        have : l[i] = (l.takeWhile P ++ l.dropWhile P)[i]'(by rw [hsplit]; exact hi) := by
          simp only [hsplit]
        rw [this, List.getElem_append_right hc]
      rw [e, List.head_eq_getElem]
      have hs := hl.sublist (List.dropWhile_sublist P)
      rw [List.pairwise_iff_getElem] at hs
      rcases Nat.eq_zero_or_pos (i - (l.takeWhile P).length) with z | z
      · simp only [z]; exact le_rfl
      · exact hs _ _ _ _ z
    rw [hP _ _ h2 h] at h1
    exact absurd h1 (by simp)
  · intro h
    have e : l[i] = (l.takeWhile P)[i] := by
      have := List.takeWhile_append_dropWhile (p := P) (l := l)
      have h' : l[i] = (l.takeWhile P ++ l.dropWhile P)[i]'(by rw [this]; exact hi) := by
        simp only [this]
      rw [h', List.getElem_append_left h]
    rw [e]
    exact List.mem_takeWhile_imp (List.getElem_mem h)

theorem k_lt_iff {b : Basis K} (hb : b.knots.Pairwise (· ≤ ·)) (a : K) (i : ℕ) (hi : i < b.knots.length) :
    b.k i < a ↔ i < (b.knots.filter (· < a)).length := by
  rw [← getElem_takeWhile_iff hb (fun y => decide (y < a))
    (fun u v h1 h2 => by simp at h2 ⊢; exact h1.trans_lt h2) i hi]
  unfold Basis.k
  rw [List.getD_eq_getElem _ _ hi]; simp

theorem k_le_iff {b : Basis K} (hb : b.knots.Pairwise (· ≤ ·)) (a : K) (i : ℕ) (hi : i < b.knots.length) :
    b.k i ≤ a ↔ i < (b.knots.filter (· ≤ a)).length := by
  rw [← getElem_takeWhile_iff hb (fun y => decide (y ≤ a))
    (fun u v h1 h2 => by simp at h2 ⊢; exact h1.trans h2) i hi]
  unfold Basis.k
  rw [List.getD_eq_getElem _ _ hi]; simp

theorem filter_le_length (l : List K) (a : K) :
    (l.filter (· ≤ a)).length = (l.filter (· < a)).length + l.count a := by
  induction l with
  | nil => simp
  | cons y l ih =>
    rcases lt_trichotomy y a with h | h | h
    · simp [h, h.le, h.ne, ih]; omega
    · subst h; simp [ih]; omega
    · simp [h.not_ge, h.not_gt, h.ne', ih]

theorem insPos_eq {b : Basis K} (hb : b.knots.Pairwise (· ≤ ·)) (a : K) :
    insPos b a = (b.knots.filter (· < a)).length - 1 := by
  unfold insPos
  rw [filter_eq_takeWhile hb (fun y => decide (y < a))
    (fun u v h1 h2 => by simp at h2 ⊢; exact h1.trans_lt h2)]

/-- The cropped spline, abstractly: cut a spline whose border knots have full multiplicity. -/
theorem cut_eval {s : BSpline K} (hb : s.basis.Clamped) (hs : s.WF) {a c : K} (hac : a < c)
    (ha : s.basis.k 0 ≤ a)
    (ca : s.basis.degree + 1 ≤ s.basis.knots.count a)
    (cc : s.basis.degree + 1 ≤ s.basis.knots.count c) :
    let jmin := (s.basis.knots.filter (· < a)).length
    let jmax := (s.basis.knots.filter (· ≤ c)).length
    let t : BSpline K := ⟨⟨(s.basis.knots.take jmax).drop jmin, s.basis.degree⟩,
      (s.coeffs.take (jmax - s.basis.degree - 1)).drop jmin⟩
    t.WF ∧ (∀ x, a < x → x ≤ c → t.eval x = s.eval x) ∧ jmin + 2 * (s.basis.degree + 1) ≤ jmax ∧
    jmax ≤ s.basis.knots.length ∧
    (∀ i, i < jmax - jmin → t.basis.k i = s.basis.k (jmin + i)) ∧
    (∀ i, jmin ≤ i → i ≤ jmin + s.basis.degree → s.basis.k i = a) ∧
    (∀ i, jmax - s.basis.degree - 1 ≤ i → i < jmax → s.basis.k i = c) := by
  intro jmin jmax t
  have hl := hb.length_eq
  have hlt := hb.lt_len
  have hmono := hb.mono
  set p := s.basis.degree with hp
  have hcl : s.coeffs.length = s.basis.len := hs
  -- positions
  have hja : (s.basis.knots.filter (· ≤ a)).length = jmin + s.basis.knots.count a :=
    filter_le_length _ _
  have hjc : jmax = (s.basis.knots.filter (· < c)).length + s.basis.knots.count c :=
    filter_le_length _ _
  have hle1 : (s.basis.knots.filter (· ≤ a)).length ≤ (s.basis.knots.filter (· < c)).length := by
    apply List.Sublist.length_le
    apply List.monotone_filter_right
    intro y hy
    simp at hy ⊢
    exact hy.trans_lt hac
  have hjmax : jmax ≤ s.basis.knots.length := List.length_filter_le _ _
  have hsize : jmin + 2 * (p + 1) ≤ jmax := by omega
  have eqa : ∀ i, jmin ≤ i → i ≤ jmin + p → s.basis.k i = a := by
    intro i h1 h2
    have hi : i < s.basis.knots.length := by omega
    apply le_antisymm
    · rw [k_le_iff hb.sorted a i hi]; omega
    · rw [← not_lt, k_lt_iff hb.sorted a i hi]; exact not_lt.2 h1
  have eqc : ∀ i, jmax - p - 1 ≤ i → i < jmax → s.basis.k i = c := by
    intro i h1 h2
    have hi : i < s.basis.knots.length := by omega
    apply le_antisymm
    · rw [k_le_iff hb.sorted c i hi]; exact h2
    · rw [← not_lt, k_lt_iff hb.sorted c i hi]; omega
  have hk' : ∀ i, i < jmax - jmin → t.basis.k i = s.basis.k (jmin + i) := by
    intro i hi
    have : i < ((s.basis.knots.take jmax).drop jmin).length := by
      rw [List.length_drop, List.length_take]; omega
    unfold Basis.k
    rw [List.getD_eq_getElem _ _ this, List.getD_eq_getElem _ _ (by omega)]
    simp
  have htl : t.basis.len = jmax - jmin - p - 1 := by
    show ((s.basis.knots.take jmax).drop jmin).length - p - 1 = _
    rw [List.length_drop, List.length_take]; omega
  have hWF : t.WF := by
    unfold BSpline.WF
    rw [htl]
    show ((s.coeffs.take (jmax - p - 1)).drop jmin).length = _
    rw [List.length_drop, List.length_take]; omega
  refine ⟨hWF, ?_, hsize, hjmax, hk', eqa, eqc⟩
  intro x hax hxc
  have hx0 : s.basis.k 0 < x := ha.trans_lt hax
  have hx0' : t.basis.k 0 < x := by
    rw [hk' 0 (by omega), eqa _ (by omega) (by omega)]; exact hax
  rw [BSpline.eval_eq hWF, BSpline.eval_eq hs, htl]
  have e1 : ∀ i ∈ range (jmax - jmin - p - 1), t.coeffs.getD i 0 * t.basis.fn i x
      = s.coeffs.getD (jmin + i) 0 * s.basis.fn (jmin + i) x := by
    intro i hi
    have hi := Finset.mem_range.1 hi
    congr 1
    · rw [List.getD_eq_getElem _ _ (by rw [hWF, htl]; exact hi),
        List.getD_eq_getElem _ _ (by rw [hcl]; omega)]
      simp [t]
    · unfold Basis.fn
      exact cox_shift hx0 hx0' _ _ (fun j hj => hk' j (by
        have : j ≤ i + p + 1 := hj
        omega))
  rw [Finset.sum_congr rfl e1]
  have e2 : ∑ i ∈ range s.basis.len, s.coeffs.getD i 0 * s.basis.fn i x
      = ∑ i ∈ Ico jmin (jmax - p - 1), s.coeffs.getD i 0 * s.basis.fn i x := by
    symm
    apply Finset.sum_subset
    · intro i hi
      rw [Finset.mem_Ico] at hi
      rw [Finset.mem_range]; omega
    · intro i hi hni
      rw [Finset.mem_range] at hi
      rw [Finset.mem_Ico, not_and_or] at hni
      have : s.basis.fn i x = 0 := by
        apply cox_eq_zero hmono hx0
        rcases hni with h | h
        · right
          have : s.basis.k (i + p + 1) ≤ a := by
            rw [← eqa (jmin + p) (by omega) le_rfl]; exact hmono (by omega)
          exact this.trans_lt hax
        · left
          have : c ≤ s.basis.k i := by
            rw [← eqc (jmax - p - 1) le_rfl (by omega)]; exact hmono (by omega)
          exact hxc.trans this
      rw [this, mul_zero]
  rw [e2, Finset.sum_Ico_eq_sum_range]
  apply Finset.sum_congr _ (fun _ _ => rfl)
  congr 1; omega

/-- Value of a spline at a knot of full multiplicity. -/
theorem eval_full {s : BSpline K} (hb : s.basis.Clamped) (hs : s.WF) {a : K}
    (ha : s.basis.k 0 < a) (ha' : a ≤ s.basis.k s.basis.len)
    (ca : s.basis.degree + 1 ≤ s.basis.knots.count a) :
    s.eval a = s.coeffs.getD ((s.basis.knots.filter (· < a)).length - 1) 0 := by
  have hl := hb.length_eq
  have hlt := hb.lt_len
  have hja := filter_le_length s.basis.knots a
  generalize hjm : (s.basis.knots.filter (· < a)).length = j at *
  have hle : (s.basis.knots.filter (· ≤ a)).length ≤ s.basis.knots.length := List.length_filter_le _ _
  have eqa : ∀ i, j ≤ i → i ≤ j + s.basis.degree → s.basis.k i = a := by
    intro i h1 h2
    have hi : i < s.basis.knots.length := by omega
    apply le_antisymm
    · rw [k_le_iff hb.sorted a i hi]; omega
    · rw [← not_lt, k_lt_iff hb.sorted a i hi, hjm]; exact not_lt.2 h1
  have hj0 : 0 < j := by
    rw [← hjm, ← k_lt_iff hb.sorted a 0 (by omega)]; exact ha
  have hjlt : s.basis.k (j - 1) < a := by
    rw [k_lt_iff hb.sorted a _ (by omega), hjm]; omega
  have hja' : s.basis.k j = a := eqa j le_rfl (by omega)
  rw [BSpline.eval_eq hs, Finset.sum_eq_single (j - 1)]
  · rw [Basis.fn]
    have := cox_full (q := s.basis.degree) (p := s.basis.degree) hj0
      (fun i hi => by rw [hja']; exact eqa _ (by omega) (by omega)) hb.mono
      (by rw [hja']; exact hjlt) (by rw [hja']; exact ha) s.basis.degree (j - 1) le_rfl
    rw [hja'] at this
    rw [this, if_pos rfl, mul_one]
  · intro i _ hi
    rw [Basis.fn]
    have := cox_full (q := s.basis.degree) (p := s.basis.degree) hj0
      (fun i hi => by rw [hja']; exact eqa _ (by omega) (by omega)) hb.mono
      (by rw [hja']; exact hjlt) (by rw [hja']; exact ha) s.basis.degree i le_rfl
    rw [hja'] at this
    rw [this, if_neg hi, mul_zero]
  · intro h
    exfalso; apply h
    rw [Finset.mem_range]
    by_contra hc
    push Not at hc
    exact absurd (ha'.trans (hb.mono hc)) (not_le.2 hjlt)

theorem insertKnot_coeff {s : BSpline K} (j : ℕ) (hj : j < s.basis.len + 1) (τ : K) :
    (insertKnot s τ).coeffs.getD j 0 =
      (if j ≠ 0 then (1 - insertWeight s.basis τ j) * s.coeffs.getD (j - 1) 0 else 0)
      + (if j ≠ s.basis.len then insertWeight s.basis τ j * s.coeffs.getD j 0 else 0) := by
  rw [List.getD_eq_getElem _ _ (by simp [insertKnot]; omega)]
  simp [insertKnot]

theorem insertKnot_filter (s : BSpline K) (a τ : K) :
    ((insertKnot s τ).basis.knots.filter (· < a)).length
      = (s.basis.knots.filter (· < a)).length + if τ < a then 1 else 0 := by
  have hp : (insertKnot s τ).basis.knots.Perm (s.basis.knots ++ [τ]) := List.perm_insertionSort _ _
  have := (hp.filter (fun y => decide (y < a))).length_eq
  rw [this, List.filter_append, List.length_append]
  congr 1
  split_ifs with h <;> simp [h]

theorem insertKnot_count (s : BSpline K) (a τ : K) :
    (insertKnot s τ).basis.knots.count a = s.basis.knots.count a + if τ = a then 1 else 0 := by
  have hp : (insertKnot s τ).basis.knots.Perm (s.basis.knots ++ [τ]) := List.perm_insertionSort _ _
  rw [hp.count_eq, List.count_append]
  congr 1
  rw [List.count_singleton]
  simp

/-- Coefficients around a knot `a` of full multiplicity are equal: the spline is continuous there. -/
def ContAt (s : BSpline K) (a : K) : Prop :=
  s.coeffs.getD ((s.basis.knots.filter (· < a)).length - 1) 0
    = s.coeffs.getD (s.basis.knots.filter (· < a)).length 0

theorem pos_facts {b : Basis K} (hb : b.Clamped) {a : K} (ha : b.k 0 < a) (ha' : a ≤ b.k b.len) :
    0 < (b.knots.filter (· < a)).length ∧ (b.knots.filter (· < a)).length ≤ b.len := by
  have hl := hb.length_eq
  constructor
  · rw [← k_lt_iff hb.sorted a 0 (by omega)]; exact ha
  · by_contra hc
    push Not at hc
    rw [← k_lt_iff hb.sorted a _ (by omega)] at hc
    exact absurd ha' (not_le.2 hc)

/-- Inserting `a` for the `degree+1`-th time duplicates a coefficient. -/
theorem cont_of_last_insert {s : BSpline K} (hb : s.basis.Clamped) {a : K}
    (ha : s.basis.k 0 < a) (ha' : a ≤ s.basis.k s.basis.len)
    (hc : s.basis.knots.count a = s.basis.degree) : ContAt (insertKnot s a) a := by
  obtain ⟨p1, p2⟩ := pos_facts hb ha ha'
  have hl := hb.length_eq
  have hj := insPos_eq hb.sorted a
  have hja := filter_le_length s.basis.knots a
  obtain ⟨f1, f2, f3, f4, -⟩ := insert_facts hb ha ha'
  unfold ContAt
  rw [insertKnot_filter, if_neg (lt_irrefl a), Nat.add_zero]
  have hjl : (s.basis.knots.filter (· < a)).length < s.basis.len ∨ (s.basis.knots.filter (· < a)).length = s.basis.len := by
    omega
  generalize hjm : (s.basis.knots.filter (· < a)).length = j at *
  rw [insertKnot_coeff (j - 1) (by omega), insertKnot_coeff j (by omega)]
  have w1 : insertWeight s.basis a j = 0 := by
    rw [insertWeight_eq hb ha ha', insW_zero (by omega)]
  have w2 : insertWeight s.basis a (j - 1) = 1 := by
    rw [insertWeight_eq hb ha ha']
    rcases Nat.eq_zero_or_pos s.basis.degree with z | z
    · rw [insW_one (by omega)]
    · rw [insW_mid (by omega) (by omega)]
      have e : s.basis.k (j - 1 + s.basis.degree) = a := by
        have hle : (s.basis.knots.filter (· ≤ a)).length ≤ s.basis.knots.length :=
          List.length_filter_le _ _
        have hi : j - 1 + s.basis.degree < s.basis.knots.length := by omega
        apply le_antisymm
        · rw [k_le_iff hb.sorted a _ hi]; omega
        · rw [← not_lt, k_lt_iff hb.sorted a _ hi, hjm]; omega
      rw [e]
      apply div_self
      rw [hj] at f1
      exact (sub_pos.2 f1).ne'
  have hjne : j ≠ 0 := by omega
  rw [w1, w2, if_pos hjne]
  have : j - 1 ≠ s.basis.len := by omega
  rw [if_pos this]
  simp

/-- Inserting a later knot keeps that. -/
theorem cont_of_later_insert {s : BSpline K} (hb : s.basis.Clamped) {a c : K}
    (ha : s.basis.k 0 < a) (hac : a < c) (hc' : c ≤ s.basis.k s.basis.len)
    (ca : s.basis.degree + 1 ≤ s.basis.knots.count a) (h : ContAt s a) :
    ContAt (insertKnot s c) a := by
  obtain ⟨p1, p2⟩ := pos_facts hb ha (hac.le.trans hc')
  have hl := hb.length_eq
  have hja := filter_le_length s.basis.knots a
  have hle1 : (s.basis.knots.filter (· ≤ a)).length ≤ (s.basis.knots.filter (· < c)).length := by
    apply List.Sublist.length_le
    apply List.monotone_filter_right
    intro y hy
    simp at hy ⊢
    exact hy.trans_lt hac
  have hj := insPos_eq hb.sorted c
  obtain ⟨q1, q2⟩ := pos_facts hb (ha.trans hac) hc'
  unfold ContAt at h ⊢
  rw [insertKnot_filter, if_neg (not_lt.2 hac.le), Nat.add_zero]
  generalize hjm : (s.basis.knots.filter (· < a)).length = j at *
  rw [insertKnot_coeff (j - 1) (by omega), insertKnot_coeff j (by omega)]
  have w1 : insertWeight s.basis c j = 1 := by
    rw [insertWeight_eq hb (ha.trans hac) hc', insW_one (by omega)]
  have w2 : insertWeight s.basis c (j - 1) = 1 := by
    rw [insertWeight_eq hb (ha.trans hac) hc', insW_one (by omega)]
  rw [w1, w2, if_pos (show j - 1 ≠ s.basis.len by omega), if_pos (show j ≠ s.basis.len by omega)]
  simp only [sub_self, zero_mul, ite_self, zero_add, one_mul]
  exact h

theorem insertKnots_append (s : BSpline K) (l₁ l₂ : List K) :
    insertKnots s (l₁ ++ l₂) = insertKnots (insertKnots s l₁) l₂ := by
  simp [insertKnots]

/-- Continuity at the left border after raising its multiplicity. -/
theorem cont_insert {s : BSpline K} (hb : s.basis.Clamped) (hs : s.WF) {a c : K}
    (ha : s.basis.k 0 < a) (hac : a < c) (hc' : c ≤ s.basis.k s.basis.len)
    (hcount : s.basis.knots.count a ≤ s.basis.degree) (m : ℕ) :
    ContAt (insertKnots s (List.replicate (s.basis.degree + 1 - s.basis.knots.count a) a
      ++ List.replicate m c)) a := by
  have hal : a < s.basis.k s.basis.len := hac.trans_le hc'
  obtain ⟨r, hr⟩ : ∃ r, s.basis.degree + 1 - s.basis.knots.count a = r + 1 :=
    ⟨s.basis.degree - s.basis.knots.count a, by omega⟩
  rw [hr, List.replicate_succ', insertKnots_append, insertKnots_append]
  have hin : ∀ τ ∈ List.replicate r a, s.basis.k 0 < τ ∧ τ ≤ s.basis.k s.basis.len := by
    intro τ hτ; rw [List.eq_of_mem_replicate hτ]; exact ⟨ha, hal.le⟩
  obtain ⟨b1, b2, b3, b4, b5, b6, -⟩ := insertKnots_spec hb hs _ hin
  set s1 := insertKnots s (List.replicate r a) with hs1
  have hc1 : s1.basis.knots.count a = s1.basis.degree := by
    rw [b5.count_eq, List.count_append, List.count_replicate_self, b6]; omega
  have c2 : ContAt (insertKnots s1 [a]) a :=
    cont_of_last_insert b1 (by rw [b3]; exact ha) (by rw [b4]; exact hal.le) hc1
  obtain ⟨d1, d2, d3, d4, d5⟩ := insertKnot_clamped b1 (τ := a)
    (by rw [b3]; exact ha) (by rw [b4]; exact hal.le)
  have gen : ∀ m (t : BSpline K), t.basis.Clamped → t.basis.k 0 < a → c ≤ t.basis.k t.basis.len →
      t.basis.degree + 1 ≤ t.basis.knots.count a → ContAt t a →
      ContAt (insertKnots t (List.replicate m c)) a := by
    intro m
    induction m with
    | zero => intro t _ _ _ _ h; exact h
    | succ m ih =>
      intro t t1 t2 t3 t4 t5
      rw [List.replicate_succ]
      obtain ⟨e1, e2, e3, e4, e5⟩ := insertKnot_clamped t1 (t2.trans hac) t3
      refine ih _ e1 (by rw [e4]; exact t2) (by rw [e5]; exact t3) ?_
        (cont_of_later_insert t1 t2 hac t3 t4 t5)
      rw [insertKnot_count]
      have : (insertKnot t c).basis.degree = t.basis.degree := rfl
      omega
  refine gen m (insertKnot s1 a) d1 (by rw [d4, b3]; exact ha) (by rw [d5, b4]; exact hc') ?_ c2
  show s1.basis.degree + 1 ≤ (insertKnot s1 a).basis.knots.count a
  rw [insertKnot_count, if_pos rfl, hc1]

end Verif.Spline
