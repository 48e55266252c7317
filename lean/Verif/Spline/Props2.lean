import Verif.Spline.Crop
import Verif.Spline.Props1

/-! # Property C05: knot insertion and cropping -/

set_option linter.unusedSectionVars false

namespace Verif.Spline

open Finset

variable {K : Type*} [Field K] [LinearOrder K] [IsStrictOrderedRing K]

theorem headD_eq_k {b : Basis K} (hb : b.Clamped) : b.knots.headD 0 = b.k 0 := by
  have hl := hb.length_eq
  unfold Basis.k
  rw [List.getD_eq_getElem _ _ (by omega), List.headD_eq_head?_getD, List.head?_eq_getElem?,
    List.getElem?_eq_getElem (by omega), Option.getD_some]

theorem getLastD_eq_k {b : Basis K} (hb : b.Clamped) : b.knots.getLastD 0 = b.k b.len := by
  have hl := hb.length_eq
  rw [← hb.last b.knots.length (by omega)]
  unfold Basis.k
  rw [List.getD_eq_default _ _ le_rfl]

/-- **C05** Inserting any list of knots that lie after the first knot and not after the last
one gives a spline that evaluates to the same number at *every* `x`; the new knot
vector is the sorted union of old and inserted knots. -/
theorem C05_insert (s : BSpline K) (hb : s.basis.Clamped) (hs : s.WF) (τs : List K)
    (h : ∀ τ ∈ τs, s.basis.knots.headD 0 < τ ∧ τ ≤ s.basis.knots.getLastD 0) :
    (∀ x, (insertKnots s τs).eval x = s.eval x) ∧
    (insertKnots s τs).basis.knots.Perm (s.basis.knots ++ τs) ∧
    (insertKnots s τs).basis.knots.Pairwise (· ≤ ·) ∧
    (insertKnots s τs).basis.degree = s.basis.degree ∧
    (insertKnots s τs).coeffs.length = s.coeffs.length + τs.length := by
  rw [headD_eq_k hb, getLastD_eq_k hb] at h
  obtain ⟨h1, h2, -, -, h5, h6, h7⟩ := insertKnots_spec hb hs τs h
  refine ⟨h7, h5, h1.sorted, h6, ?_⟩
  have e1 : (insertKnots s τs).coeffs.length = (insertKnots s τs).basis.len := h2
  have e2 : s.coeffs.length = s.basis.len := hs
  have e3 := h5.length_eq
  rw [h1.length_eq, List.length_append, hb.length_eq, h6] at e3
  omega

example : (insertKnots ⟨exBasis, [1, 2, 4, 3]⟩ [1/4, 1/2, 1/2]).eval (1/3)
    = (BSpline.mk exBasis [1, 2, 4, 3]).eval (1/3) :=
  (C05_insert ⟨exBasis, [1, 2, 4, 3]⟩ exBasis_clamped (by rfl) [1/4, 1/2, 1/2]
    (by norm_num [exBasis])).1 _

/-- The guard of `C05_insert` is needed: inserting the *first* knot once more makes the
spline evaluate to zero there instead of to its first coefficient. -/
theorem C05_insert_first_knot_violated :
    (BSpline.mk exBasis [1, 2, 4, 3]).eval 0 = 1 ∧
    (insertKnots ⟨exBasis, [1, 2, 4, 3]⟩ [0]).eval 0 = 0 := by
  have hr : List.range exBasis.len = [0, 1, 2, 3] := by rfl
  have hr5 : List.range (exBasis.len + 1) = [0, 1, 2, 3, 4] := by rfl
  constructor
  · simp only [BSpline.eval, Basis.eval, hr, List.map, Basis.fn]
    simp only [exBasis, Basis.k, cox, ind]
    norm_num
  · have hk : (insertKnots ⟨exBasis, [1, 2, 4, 3]⟩ [0]).basis = ⟨[0, 0, 0, 0, 1/2, 1, 1, 1], 2⟩ := by
      simp only [insertKnots, List.foldl, insertKnot, exBasis]
      congr 1
      norm_num [List.insertionSort, List.orderedInsert]
    have hr' : List.range (insertKnots ⟨exBasis, [1, 2, 4, 3]⟩ [0]).basis.len = [0, 1, 2, 3, 4] := by
      rw [hk]; rfl
    have he : (insertKnots ⟨exBasis, [1, 2, 4, 3]⟩ [0]).basis.eval 0 = [0, 0, 0, 0, 0] := by
      unfold Basis.eval
      rw [hr', hk]
      simp only [List.map, Basis.fn, Basis.k, cox, ind]
      norm_num
    unfold BSpline.eval
    rw [he]
    simp [insertKnots, insertKnot, hr5]

/-- Everything about `crop_spline`: the result is a clamped spline of the same degree whose domain is
`[a, c]`, and it agrees with `s`. -/
theorem crop_spec (s : BSpline K) (hb : s.basis.Clamped) (hs : s.WF) (a c : K)
    (ha : s.basis.k 0 ≤ a) (hac : a < c) (hc : c ≤ s.basis.k s.basis.len)
    (ma : s.basis.knots.count a ≤ s.basis.degree + 1) :
    (cropSpline s a c).basis.Clamped ∧ (cropSpline s a c).WF ∧
    (cropSpline s a c).basis.degree = s.basis.degree ∧
    (cropSpline s a c).basis.k 0 = a ∧
    (cropSpline s a c).basis.k (cropSpline s a c).basis.len = c ∧
    ∀ x, a ≤ x → x ≤ c → (x = a → a = s.basis.k 0 ∨ s.basis.knots.count a ≤ s.basis.degree) →
      (cropSpline s a c).eval x = s.eval x := by
  have hl := hb.length_eq
  have hlt := hb.lt_len
  -- multiplicity of the first knot
  have hfirst : a = s.basis.k 0 → s.basis.degree + 1 ≤ s.basis.knots.count a := by
    intro e
    have f := filter_le_length s.basis.knots a
    have z : (s.basis.knots.filter (· < a)).length = 0 := by
      by_contra hne
      have := (k_lt_iff hb.sorted a 0 (by omega)).2 (Nat.pos_of_ne_zero hne)
      rw [e] at this; exact lt_irrefl _ this
    have := (k_le_iff hb.sorted a s.basis.degree (by omega)).1 (by rw [hb.k_degree, e])
    omega
  set l := List.replicate (s.basis.degree + 1 - s.basis.knots.count a) a
      ++ List.replicate (s.basis.degree + 1 - s.basis.knots.count c) c with hlist
  have hin : ∀ τ ∈ l, s.basis.k 0 < τ ∧ τ ≤ s.basis.k s.basis.len := by
    intro τ hτ
    rw [hlist, List.mem_append] at hτ
    rcases hτ with hτ | hτ
    · have e := List.eq_of_mem_replicate hτ
      subst e
      refine ⟨lt_of_le_of_ne ha ?_, (hac.le.trans hc)⟩
      intro e
      have := hfirst e.symm
      rw [Nat.sub_eq_zero_of_le this] at hτ
      simp at hτ
    · have e := List.eq_of_mem_replicate hτ
      subst e
      exact ⟨ha.trans_lt hac, hc⟩
  obtain ⟨b1, b2, b3, b4, b5, b6, b7⟩ := insertKnots_spec hb hs l hin
  have ca : (insertKnots s l).basis.degree + 1 ≤ (insertKnots s l).basis.knots.count a := by
    rw [b5.count_eq, b6, hlist, List.count_append, List.count_append, List.count_replicate_self]
    omega
  have cc : (insertKnots s l).basis.degree + 1 ≤ (insertKnots s l).basis.knots.count c := by
    rw [b5.count_eq, b6, hlist, List.count_append, List.count_append, List.count_replicate_self]
    omega
  have hcut := cut_eval b1 b2 hac (by rw [b3]; exact ha) ca cc
  have hcrop : cropSpline s a c =
      ⟨⟨((insertKnots s l).basis.knots.take ((insertKnots s l).basis.knots.filter (· ≤ c)).length).drop
          ((insertKnots s l).basis.knots.filter (· < a)).length, (insertKnots s l).basis.degree⟩,
        ((insertKnots s l).coeffs.take
          (((insertKnots s l).basis.knots.filter (· ≤ c)).length - (insertKnots s l).basis.degree - 1)).drop
          ((insertKnots s l).basis.knots.filter (· < a)).length⟩ := by
    rw [b6]; rfl
  rw [hcrop]
  dsimp only at hcut
  obtain ⟨wf, hev, hsize, hjl, hk', eqa, eqc⟩ := hcut
  set jmin := ((insertKnots s l).basis.knots.filter (· < a)).length with hjmin
  set jmax := ((insertKnots s l).basis.knots.filter (· ≤ c)).length with hjmax
  set t : BSpline K := ⟨⟨((insertKnots s l).basis.knots.take jmax).drop jmin,
      (insertKnots s l).basis.degree⟩, ((insertKnots s l).coeffs.take
        (jmax - (insertKnots s l).basis.degree - 1)).drop jmin⟩ with ht
  have hcl : (insertKnots s l).coeffs.length = (insertKnots s l).basis.len := b2
  have hbl := b1.length_eq
  have htl : t.basis.len = jmax - jmin - (insertKnots s l).basis.degree - 1 := by
    show (((insertKnots s l).basis.knots.take jmax).drop jmin).length
      - (insertKnots s l).basis.degree - 1 = _
    rw [List.length_drop, List.length_take]; omega
  have htk : t.basis.knots.length = jmax - jmin := by
    show (((insertKnots s l).basis.knots.take jmax).drop jmin).length = _
    rw [List.length_drop, List.length_take]; omega
  have hcount : (insertKnots s l).basis.knots.count a = (insertKnots s l).basis.degree + 1 := by
    rw [b5.count_eq, b6, hlist, List.count_append, List.count_append, List.count_replicate_self,
      List.count_replicate, if_neg (by simpa using hac.ne')]
    omega
  have tclamped : t.basis.Clamped := by
    have hd : t.basis.degree = (insertKnots s l).basis.degree := rfl
    have ft := filter_le_length (insertKnots s l).basis.knots a
    rw [← hjmin, hcount] at ft
    refine ⟨?_, ?_, ?_, ?_, ?_⟩
    · exact (b1.sorted.sublist (List.take_sublist _ _)).sublist (List.drop_sublist _ _)
    · rw [htk, hd]; omega
    · intro i hi
      rw [hd] at hi
      rw [hk' i (by omega), hk' 0 (by omega), eqa _ (by omega) (by omega), eqa _ (by omega) (by omega)]
    · rw [hd, hk' _ (by omega), hk' _ (by omega), eqa _ (by omega) (by omega)]
      by_contra hcon
      push Not at hcon
      rw [k_le_iff b1.sorted a _ (by omega)] at hcon
      omega
    · intro i hi hi'
      rw [htk] at hi'
      rw [htl] at hi ⊢
      rw [hk' _ hi', hk' _ (by omega), eqc _ (by omega) (by omega), eqc _ (by omega) (by omega)]
  refine ⟨tclamped, wf, b6, by rw [hk' 0 (by omega), eqa _ (by omega) (by omega)],
    by rw [htl, hk' _ (by omega), eqc _ (by omega) (by omega)], ?_⟩
  intro x h0 h1 hjump
  rcases h0.lt_or_eq with hx | hx
  · rw [hev x hx h1, b7]
  -- the left border
  subst hx
  have hval : t.eval a = (insertKnots s l).coeffs.getD jmin 0 := by
    rw [BSpline.eval_eq wf, Finset.sum_eq_single 0]
    · have e0 : t.basis.k 0 = a := by rw [hk' 0 (by omega), eqa _ (by omega) (by omega)]
      have hc1 := cox_first tclamped.first tclamped.mono tclamped.start t.basis.degree 0 le_rfl
      rw [e0, if_pos (by omega)] at hc1
      rw [Basis.fn, hc1, mul_one]
      have hwl : t.coeffs.length = t.basis.len := wf
      have hlt0 : 0 < t.coeffs.length := by rw [hwl, htl]; omega
      rw [List.getD_eq_getElem _ _ hlt0, List.getD_eq_getElem _ _ (by omega)]
      simp [ht]
    · intro i _ hi
      have e0 : t.basis.k 0 = a := by rw [hk' 0 (by omega), eqa _ (by omega) (by omega)]
      have hc1 := cox_first tclamped.first tclamped.mono tclamped.start t.basis.degree i le_rfl
      rw [e0, if_neg (by omega)] at hc1
      rw [Basis.fn, hc1, mul_zero]
    · intro h; exact absurd (Finset.mem_range.2 (by omega)) h
  rw [hval]
  rcases hjump rfl with e | hct
  · -- first knot of the domain
    have hj0 : jmin = 0 := by
      rw [hjmin]
      by_contra hne
      have := (k_lt_iff b1.sorted a 0 (by omega)).2 (Nat.pos_of_ne_zero hne)
      rw [b3, e] at this; exact lt_irrefl _ this
    rw [hj0, ← b7, BSpline.eval_eq b2, Finset.sum_eq_single 0]
    · have hc1 := cox_first b1.first b1.mono b1.start (insertKnots s l).basis.degree 0 le_rfl
      rw [b3, ← e, if_pos (by omega)] at hc1
      rw [Basis.fn, hc1, mul_one]
    · intro i _ hi
      have hc1 := cox_first b1.first b1.mono b1.start (insertKnots s l).basis.degree i le_rfl
      rw [b3, ← e, if_neg (by omega)] at hc1
      rw [Basis.fn, hc1, mul_zero]
    · intro h
      exact absurd (Finset.mem_range.2 (by omega)) h
  · have ha' : s.basis.k 0 < a := by
      refine lt_of_le_of_ne ha ?_
      intro e
      have := hfirst e.symm
      omega
    have hcont : ContAt (insertKnots s l) a := cont_insert hb hs ha' hac hc hct _
    have hfull := eval_full b1 b2 (a := a) (by rw [b3]; exact ha') (by rw [b4]; exact hac.le.trans hc) ca
    unfold ContAt at hcont
    rw [hcont, ← hjmin] at hfull
    rw [← hfull, b7]

/-- **C05** `crop_spline(s, a, c)` is the spline `s` on the interval: it evaluates to the same
number at every `x` with `a < x ≤ c`, and also at `x = a` unless `s` may jump there
(`a` is an interior knot repeated more than `degree` times); its domain is `[a, c]`. -/
theorem C05_crop (s : BSpline K) (hb : s.basis.Clamped) (hs : s.WF) (a c : K)
    (ha : s.basis.knots.headD 0 ≤ a) (hac : a < c) (hc : c ≤ s.basis.knots.getLastD 0)
    (ma : s.basis.knots.count a ≤ s.basis.degree + 1) :
    (cropSpline s a c).basis.knots.headD 0 = a ∧ (cropSpline s a c).basis.knots.getLastD 0 = c ∧
    ∀ x, a ≤ x → x ≤ c →
      (x = a → a = s.basis.knots.headD 0 ∨ s.basis.knots.count a ≤ s.basis.degree) →
      (cropSpline s a c).eval x = s.eval x := by
  rw [headD_eq_k hb] at *
  rw [getLastD_eq_k hb] at *
  obtain ⟨h1, -, -, h4, h5, h6⟩ := crop_spec s hb hs a c ha hac hc ma
  rw [headD_eq_k h1, getLastD_eq_k h1]
  exact ⟨h4, h5, h6⟩

example : ∀ x : ℚ, 1/4 ≤ x → x ≤ 3/4 →
    (cropSpline ⟨exBasis, [1, 2, 4, 3]⟩ (1/4) (3/4)).eval x
      = (BSpline.mk exBasis [1, 2, 4, 3]).eval x := by
  intro x h0 h1
  have hcnt : exBasis.knots.count (1/4 : ℚ) = 0 := by
    rw [List.count_eq_zero]; norm_num [exBasis]
  exact (C05_crop ⟨exBasis, [1, 2, 4, 3]⟩ exBasis_clamped (by rfl) (1/4) (3/4)
    (by norm_num [exBasis]) (by norm_num) (by norm_num [exBasis])
    (by show exBasis.knots.count (1/4 : ℚ) ≤ _; rw [hcnt]; exact Nat.zero_le _)).2.2 x h0 h1
    (fun _ => Or.inr (by show exBasis.knots.count (1/4 : ℚ) ≤ _; rw [hcnt]; exact Nat.zero_le _))

end Verif.Spline
