import Verif.Spline.Boehm
import Mathlib.Data.List.TakeWhile

/-! # Knot insertion and cropping: model and helper lemmas

Mirrors `knot_insertion_T`, `get_interval_T`, `crop_spline` of
`omgtools/basics/spline_extra.py`. -/

set_option linter.unusedSectionVars false

namespace Verif.Spline

open Finset

section Model
variable {K : Type*} [Field K] [LinearOrder K]

/-- The weight `w` of `knot_insertion_T`, spline_extra.py:267-272. -/
def insertWeight (b : Basis K) (τ : K) (j : ℕ) : K :=
  if τ ≤ b.k j then 0
  else if b.k j < τ ∧ τ < b.k (j + b.degree + 1 - 1) then
    (τ - b.k j) / (b.k (j + b.degree + 1 - 1) - b.k j)
  else 1

/-- One pass of the outer loop of `knot_insertion_T`, spline_extra.py:264-279: row `j` of
`_T` has `1-w` in column `j-1` (if `j != 0`) and `w` in column `j` (if `j != N`); the new
knots are `sorted(knots + [knot])`.  Simplification: the matrix `_T` is applied to the
coefficients immediately instead of being accumulated in a product. -/
def insertKnot (s : BSpline K) (τ : K) : BSpline K where
  basis := ⟨(s.basis.knots ++ [τ]).insertionSort (· ≤ ·), s.basis.degree⟩
  coeffs := (List.range (s.basis.len + 1)).map fun j =>
    (if j ≠ 0 then (1 - insertWeight s.basis τ j) * s.coeffs.getD (j - 1) 0 else 0)
    + (if j ≠ s.basis.len then insertWeight s.basis τ j * s.coeffs.getD j 0 else 0)

/-- `knot_insertion_T(basis, knots_to_insert)` applied to the coefficients of a spline,
spline_extra.py:258-280. -/
def insertKnots (s : BSpline K) (τs : List K) : BSpline K := τs.foldl insertKnot s

/-- `crop_spline`, spline_extra.py:298-305, with `get_interval_T`, 283-295:
raise the multiplicity of both borders to `degree+1`, then cut.
`searchsorted(side='left')` counts the knots below, `side='right'` those not above;
negative list repetition is empty (truncated subtraction). -/
def cropSpline (s : BSpline K) (a c : K) : BSpline K :=
  let p := s.basis.degree
  let s2 := insertKnots s (List.replicate (p + 1 - s.basis.knots.count a) a
      ++ List.replicate (p + 1 - s.basis.knots.count c) c)
  let knots2 := s2.basis.knots
  let jmin := (knots2.filter (· < a)).length
  let jmax := (knots2.filter (· ≤ c)).length
  ⟨⟨(knots2.take jmax).drop jmin, p⟩, (s2.coeffs.take (jmax - p - 1)).drop jmin⟩

end Model

variable {K : Type*} [Field K] [LinearOrder K] [IsStrictOrderedRing K]

theorem insertionSort_append_singleton {l : List K} (hl : l.Pairwise (· ≤ ·)) (τ : K) :
    (l ++ [τ]).insertionSort (· ≤ ·)
      = l.takeWhile (· < τ) ++ τ :: l.dropWhile (· < τ) := by
  have hp : List.Perm ((l ++ [τ]).insertionSort (· ≤ ·)) (l.takeWhile (· < τ) ++ τ :: l.dropWhile (· < τ)) := by
    refine (List.perm_insertionSort _ _).trans ?_
    refine List.Perm.trans ?_ List.perm_middle.symm
    rw [List.takeWhile_append_dropWhile]
    exact List.perm_append_singleton _ _
  have hdrop : ∀ y ∈ l.dropWhile (· < τ), τ ≤ y := by
    induction l with
    | nil => simp
    | cons a l ih =>
      rw [List.pairwise_cons] at hl
      by_cases h : a < τ
      · rw [List.dropWhile_cons_of_pos (by simpa using h)]
        exact ih hl.2 (by
          refine (List.perm_insertionSort _ _).trans ?_
          refine List.Perm.trans ?_ List.perm_middle.symm
          rw [List.takeWhile_append_dropWhile]
          exact List.perm_append_singleton _ _)
      · rw [List.dropWhile_cons_of_neg (by simpa using h)]
        intro y hy
        rcases List.mem_cons.1 hy with rfl | hy
        · exact not_lt.1 h
        · exact (not_lt.1 h).trans (hl.1 y hy)
  refine hp.eq_of_pairwise (fun a b _ _ h1 h2 => le_antisymm h1 h2)
    (List.pairwise_insertionSort _ _) ?_
  rw [List.pairwise_append]
  have htake : ∀ y ∈ l.takeWhile (· < τ), y < τ := by
    intro y hy
    simpa using List.mem_takeWhile_imp hy
  refine ⟨hl.sublist (List.takeWhile_sublist _), ?_, ?_⟩
  · rw [List.pairwise_cons]
    exact ⟨hdrop, hl.sublist (List.dropWhile_sublist _)⟩
  · intro y hy z hz
    rcases List.mem_cons.1 hz with rfl | hz
    · exact (htake y hy).le
    · exact (htake y hy).le.trans (hdrop z hz)

theorem dropWhile_ge {l : List K} (hl : l.Pairwise (· ≤ ·)) (τ : K) :
    ∀ y ∈ l.dropWhile (· < τ), τ ≤ y := by
  induction l with
  | nil => simp
  | cons a l ih =>
    rw [List.pairwise_cons] at hl
    by_cases h : a < τ
    · rw [List.dropWhile_cons_of_pos (by simpa using h)]
      exact ih hl.2
    · rw [List.dropWhile_cons_of_neg (by simpa using h)]
      intro y hy
      rcases List.mem_cons.1 hy with rfl | hy
      · exact not_lt.1 h
      · exact (not_lt.1 h).trans (hl.1 y hy)

/-- Position of an inserted knot. -/
def insPos (b : Basis K) (τ : K) : ℕ := (b.knots.takeWhile (· < τ)).length - 1

theorem insert_facts {b : Basis K} (hb : b.Clamped) {τ : K} (h0 : b.k 0 < τ) (h1 : τ ≤ b.k b.len) :
    b.k (insPos b τ) < τ ∧ τ ≤ b.k (insPos b τ + 1) ∧ insPos b τ < b.len ∧ b.degree ≤ insPos b τ ∧
    ∀ p, Basis.k ⟨(b.knots ++ [τ]).insertionSort (· ≤ ·), p⟩ = insK b.k (insPos b τ) τ := by
  have hl := hb.length_eq
  have hlt := hb.lt_len
  have hlen : ∀ j, b.len ≤ j → τ ≤ b.k j := fun j hj => by rw [hb.last j hj]; exact h1
  -- split the knots
  generalize hL : b.knots.takeWhile (· < τ) = L
  generalize hR : b.knots.dropWhile (· < τ) = R
  have hLR : L ++ R = b.knots := by rw [← hL, ← hR]; exact List.takeWhile_append_dropWhile
  have hLlt : ∀ y ∈ L, y < τ := by
    intro y hy; rw [← hL] at hy; simpa using List.mem_takeWhile_imp hy
  have hRge : ∀ y ∈ R, τ ≤ y := by rw [← hR]; exact dropWhile_ge hb.sorted τ
  have hlen' : L.length + R.length = b.knots.length := by rw [← hLR, List.length_append]
  have kL : ∀ i, i < L.length → b.k i < τ := by
    intro i hi
    unfold Basis.k
    rw [List.getD_eq_getElem _ _ (by omega)]
    apply hLlt
    simp only [← hLR]
    rw [List.getElem_append_left hi]
    exact List.getElem_mem _
  have kR : ∀ i, L.length ≤ i → i < b.knots.length → τ ≤ b.k i := by
    intro i hi hi'
    unfold Basis.k
    rw [List.getD_eq_getElem _ _ (by omega)]
    apply hRge
    simp only [← hLR]
    rw [List.getElem_append_right hi]
    exact List.getElem_mem _
  have c1 : L.length ≤ b.len := by
    by_contra hc
    exact absurd (kL b.len (by omega)) (not_lt.2 h1)
  have c2 : b.degree < L.length := by
    by_contra hc
    have := kR b.degree (by omega) (by omega)
    rw [hb.k_degree] at this
    exact absurd h0 (not_lt.2 this)
  have hpos : insPos b τ = L.length - 1 := by unfold insPos; rw [hL]
  rw [hpos]
  refine ⟨kL _ (by omega), kR _ (by omega) (by omega), by omega, by omega, ?_⟩
  intro p
  funext i
  rw [Basis.k]
  simp only
  rw [insertionSort_append_singleton hb.sorted, hL, hR]
  have hRne : R ≠ [] := by rintro rfl; simp at hlen'; omega
  have hlast : (L ++ τ :: R).getLastD 0 = b.knots.getLastD 0 := by
    rw [← hLR, List.getLastD_eq_getLast?, List.getLastD_eq_getLast?]
    simp [List.getLast?_append, List.getLast?_cons]
    cases h : R.getLast? with
    | none => simp at h; exact absurd h hRne
    | some v => simp
  rw [hlast]
  have hd : ∀ j, b.k j = b.knots.getD j (b.knots.getLastD 0) := fun j => rfl
  unfold insK
  simp only [hd, ← hLR]
  generalize (L ++ R).getLastD 0 = z
  by_cases g1 : i ≤ L.length - 1
  · rw [if_pos g1, List.getD_append _ _ _ _ (by omega), List.getD_append _ _ _ _ (by omega)]
  · rw [if_neg g1, List.getD_append_right _ _ _ _ (by omega)]
    by_cases g2 : i = L.length - 1 + 1
    · rw [if_pos g2]
      have : i - L.length = 0 := by omega
      rw [this]; rfl
    · rw [if_neg g2, List.getD_append_right _ _ _ _ (by omega)]
      obtain ⟨m, hm⟩ : ∃ m, i - L.length = m + 1 := ⟨i - L.length - 1, by omega⟩
      rw [hm, List.getD_cons_succ]
      congr 1; omega

theorem insertWeight_eq {b : Basis K} (hb : b.Clamped) {τ : K} (h0 : b.k 0 < τ) (h1 : τ ≤ b.k b.len)
    (j : ℕ) : insertWeight b τ j = insW b.k (insPos b τ) τ b.degree j := by
  obtain ⟨f1, f2, f3, f4, -⟩ := insert_facts hb h0 h1
  have hk := hb.mono
  unfold insertWeight
  rw [Nat.add_sub_cancel]
  rcases Nat.lt_or_ge (insPos b τ) j with h | h
  · rw [insW_zero h, if_pos (f2.trans (hk h))]
  · have hj : b.k j < τ := (hk h).trans_lt f1
    rw [if_neg (not_le.2 hj)]
    rcases Nat.lt_or_ge (insPos b τ) (j + b.degree) with h' | h'
    · rw [insW_mid h' h]
      split_ifs with hc
      · rfl
      · have : b.k (j + b.degree) = τ := by
          apply le_antisymm
          · by_contra hcc; exact hc ⟨hj, not_le.1 hcc⟩
          · exact f2.trans (hk h')
        rw [this, div_self (sub_pos.2 hj).ne']
    · rw [insW_one h', if_neg]
      rintro ⟨-, h2⟩
      exact absurd ((hk h').trans_lt f1) (not_lt.2 h2.le)

theorem insertKnot_clamped {s : BSpline K} (hb : s.basis.Clamped) {τ : K}
    (h0 : s.basis.k 0 < τ) (h1 : τ ≤ s.basis.k s.basis.len) :
    (insertKnot s τ).basis.Clamped ∧ (insertKnot s τ).WF ∧
    (insertKnot s τ).basis.len = s.basis.len + 1 ∧
    (insertKnot s τ).basis.k 0 = s.basis.k 0 ∧
    (insertKnot s τ).basis.k (insertKnot s τ).basis.len = s.basis.k s.basis.len := by
  obtain ⟨f1, f2, f3, f4, f5⟩ := insert_facts hb h0 h1
  have hl := hb.length_eq
  have hlt := hb.lt_len
  have hkn : (insertKnot s τ).basis.k = insK s.basis.k (insPos s.basis τ) τ := f5 _
  have hknots : (insertKnot s τ).basis.knots.length = s.basis.knots.length + 1 := by
    simp [insertKnot, List.length_insertionSort]
  have hdeg : (insertKnot s τ).basis.degree = s.basis.degree := rfl
  have hlen : (insertKnot s τ).basis.len = s.basis.len + 1 := by
    unfold Basis.len; rw [hknots, hdeg]
    have : s.basis.len = s.basis.knots.length - s.basis.degree - 1 := rfl
    omega
  have hk0 : (insertKnot s τ).basis.k 0 = s.basis.k 0 := by rw [hkn, insK_of_le (Nat.zero_le _)]
  have hend : ∀ i, s.basis.len + 1 ≤ i → insK s.basis.k (insPos s.basis τ) τ i = s.basis.k s.basis.len := by
    intro i hi
    rcases Nat.lt_or_ge (insPos s.basis τ + 1) i with h | h
    · rw [insK_of_gt (j := i - 1) (by omega) (by omega), hb.last _ (by omega)]
    · omega
  refine ⟨⟨?_, ?_, ?_, ?_, ?_⟩, ?_, hlen, hk0, ?_⟩
  · exact List.pairwise_insertionSort _ _
  · rw [hknots, hdeg]; have := hb.size; omega
  · intro i hi
    rw [hk0, hkn, insK_of_le (by rw [hdeg] at hi; omega)]
    exact hb.first i hi
  · rw [hkn, hdeg, insK_of_le f4, hb.k_degree]
    rcases Nat.lt_or_ge s.basis.degree (insPos s.basis τ) with h | h
    · rw [insK_of_le h, ← hb.k_degree]; exact hb.start
    · rw [insK_mid (by omega)]; exact h0
  · intro i hi _
    rw [hlen] at hi ⊢
    rw [hkn, hend i hi, hend _ le_rfl]
  · unfold BSpline.WF; rw [hlen]; simp [insertKnot]
  · rw [hlen, hkn, hend _ le_rfl]

/-- One insertion does not change the function. -/
theorem insertKnot_eval {s : BSpline K} (hb : s.basis.Clamped) (hs : s.WF) {τ : K}
    (h0 : s.basis.k 0 < τ) (h1 : τ ≤ s.basis.k s.basis.len) (x : K) :
    (insertKnot s τ).eval x = s.eval x := by
  obtain ⟨f1, f2, f3, f4, f5⟩ := insert_facts hb h0 h1
  obtain ⟨gb, gs, glen, gk0, gkl⟩ := insertKnot_clamped hb h0 h1
  have hlt := hb.lt_len
  have hkn : (insertKnot s τ).basis.k = insK s.basis.k (insPos s.basis τ) τ := f5 _
  have hdeg : (insertKnot s τ).basis.degree = s.basis.degree := rfl
  rw [BSpline.eval_eq gs, BSpline.eval_eq hs, glen]
  have hco : ∀ j, j < s.basis.len + 1 → (insertKnot s τ).coeffs.getD j 0 =
      (if j ≠ 0 then (1 - insertWeight s.basis τ j) * s.coeffs.getD (j - 1) 0 else 0)
      + (if j ≠ s.basis.len then insertWeight s.basis τ j * s.coeffs.getD j 0 else 0) := by
    intro j hj
    rw [List.getD_eq_getElem _ _ (by simp [insertKnot]; omega)]
    simp [insertKnot]
  rcases lt_trichotomy (s.basis.k 0) x with hx | hx | hx
  · -- right of the first knot
    have key : ∀ i, s.basis.fn i x = insertWeight s.basis τ i * (insertKnot s τ).basis.fn i x
        + (1 - insertWeight s.basis τ (i + 1)) * (insertKnot s τ).basis.fn (i + 1) x := by
      intro i
      unfold Basis.fn
      rw [hkn, hdeg, insertWeight_eq hb h0 h1, insertWeight_eq hb h0 h1]
      exact boehm hb.mono f1 f2 hx _ _
    have e1 : ∀ j ∈ range (s.basis.len + 1),
        (insertKnot s τ).coeffs.getD j 0 * (insertKnot s τ).basis.fn j x =
        (if j ≠ 0 then (1 - insertWeight s.basis τ j) * s.coeffs.getD (j - 1) 0 else 0)
            * (insertKnot s τ).basis.fn j x
        + (if j ≠ s.basis.len then insertWeight s.basis τ j * s.coeffs.getD j 0 else 0)
            * (insertKnot s τ).basis.fn j x := by
      intro j hj
      rw [hco j (Finset.mem_range.1 hj), add_mul]
    rw [Finset.sum_congr rfl e1, Finset.sum_add_distrib, Finset.sum_range_succ']
    rw [Finset.sum_range_succ (fun j => (if j ≠ s.basis.len then insertWeight s.basis τ j
      * s.coeffs.getD j 0 else 0) * (insertKnot s τ).basis.fn j x)]
    simp only [ne_eq, Nat.add_eq_zero_iff, one_ne_zero, and_false, not_false_eq_true, if_true,
      not_true_eq_false, if_false, zero_mul, add_zero, Nat.add_sub_cancel]
    rw [← Finset.sum_add_distrib]
    refine Finset.sum_congr rfl fun i hi => ?_
    have : i ≠ s.basis.len := (Finset.mem_range.1 hi).ne
    rw [if_pos this, key]
    ring
  · -- at the first knot
    have z1 : ∀ i, s.basis.fn i x = if i = 0 then 1 else 0 := by
      intro i
      rw [Basis.fn, ← hx, cox_first hb.first hb.mono hb.start _ _ le_rfl]
      congr 1; apply propext; constructor
      · rintro (h | h) <;> omega
      · intro h; left; omega
    have z2 : ∀ i, (insertKnot s τ).basis.fn i x = if i = 0 then 1 else 0 := by
      intro i
      rw [Basis.fn, ← hx, ← gk0, cox_first gb.first gb.mono gb.start _ _ le_rfl]
      congr 1; apply propext; constructor
      · rintro (h | h) <;> omega
      · intro h; left; omega
    simp only [z1, z2, mul_ite, mul_one, mul_zero]
    rw [Finset.sum_ite_eq' (range s.basis.len) 0, Finset.sum_ite_eq' (range (s.basis.len + 1)) 0,
      if_pos (Finset.mem_range.2 (by omega)), if_pos (Finset.mem_range.2 (by omega)),
      hco 0 (by omega), insertWeight_eq hb h0 h1, if_neg (by simp), if_pos (by omega),
      insW_one (by omega)]
    simp
  · rw [Finset.sum_eq_zero, Finset.sum_eq_zero]
    · intro i _; rw [Basis.fn_left hb.sorted i hx, mul_zero]
    · intro i _; rw [Basis.fn_left gb.sorted i (by rw [gk0]; exact hx), mul_zero]

theorem insertKnots_spec {s : BSpline K} (hb : s.basis.Clamped) (hs : s.WF) (τs : List K)
    (h : ∀ τ ∈ τs, s.basis.k 0 < τ ∧ τ ≤ s.basis.k s.basis.len) :
    (insertKnots s τs).basis.Clamped ∧ (insertKnots s τs).WF ∧
    (insertKnots s τs).basis.k 0 = s.basis.k 0 ∧
    (insertKnots s τs).basis.k (insertKnots s τs).basis.len = s.basis.k s.basis.len ∧
    (insertKnots s τs).basis.knots.Perm (s.basis.knots ++ τs) ∧
    (insertKnots s τs).basis.degree = s.basis.degree ∧
    ∀ x, (insertKnots s τs).eval x = s.eval x := by
  induction τs generalizing s with
  | nil => exact ⟨hb, hs, rfl, rfl, by simp [insertKnots], rfl, fun _ => rfl⟩
  | cons τ τs ih =>
    have hτ := h τ (List.mem_cons_self)
    obtain ⟨gb, gs, glen, gk0, gkl⟩ := insertKnot_clamped hb hτ.1 hτ.2
    have := ih gb gs (by
      intro σ hσ
      rw [gk0, gkl]
      exact h σ (List.mem_cons_of_mem _ hσ))
    obtain ⟨i1, i2, i3, i4, i5, i6, i7⟩ := this
    refine ⟨i1, i2, i3.trans gk0, i4.trans gkl, ?_, i6, ?_⟩
    · refine i5.trans ?_
      have : (insertKnot s τ).basis.knots.Perm (s.basis.knots ++ [τ]) := List.perm_insertionSort _ _
      refine (this.append_right τs).trans ?_
      simp
    · intro x
      have := i7 x
      rw [insertKnot_eval hb hs hτ.1 hτ.2] at this
      exact this

end Verif.Spline
