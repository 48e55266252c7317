import Verif.Spline.Arith

/-! # Property C09: spline arithmetic is pointwise arithmetic -/

set_option linter.unusedSectionVars false

namespace Verif.Spline

open Finset

variable {K : Type*} [Field K] [LinearOrder K] [IsStrictOrderedRing K]

/-- `x` is a time of the horizon on which the basis lives. -/
def Basis.InDomain (b : Basis K) (x : K) : Prop := b.knots.headD 0 ≤ x ∧ x ≤ b.knots.getLastD 0

/-- The two bases live on the same horizon. -/
def Basis.SameDomain (a b : Basis K) : Prop :=
  a.knots.headD 0 = b.knots.headD 0 ∧ a.knots.getLastD 0 = b.knots.getLastD 0

/-- **C09** Negation and multiplication by a number are pointwise, at every time. -/
theorem C09_neg_mul (s : BSpline K) (a x : K) :
    s.neg.eval x = - s.eval x ∧ (s.mulNum a).eval x = a * s.eval x := by
  unfold BSpline.neg BSpline.mulNum BSpline.eval
  dsimp only
  generalize s.basis.eval x = l
  generalize s.coeffs = c
  induction l generalizing c with
  | nil => simp
  | cons u l ih =>
    cases c with
    | nil => simp
    | cons v c =>
      obtain ⟨h1, h2⟩ := ih c
      simp only [List.map_cons, List.zipWith_cons_cons, List.sum_cons, h1, h2]
      constructor <;> ring

/-- **C09** Adding a number to a spline, subtracting one, and subtracting a spline from a number
are pointwise on the horizon. -/
theorem C09_num (s : BSpline K) (hb : s.basis.Clamped) (hs : s.WF) (a x : K) (hx : s.basis.InDomain x) :
    (s.addNum a).eval x = s.eval x + a ∧ (s.subNum a).eval x = s.eval x - a ∧
    (s.rsubNum a).eval x = a - s.eval x := by
  obtain ⟨h0, h1⟩ := hx
  rw [headD_eq_k hb] at h0
  rw [getLastD_eq_k hb] at h1
  have key : ∀ (t : BSpline K) (c : K), t.basis = s.basis → t.WF → (t.addNum c).eval x = t.eval x + c := by
    intro t c ht hw
    have hw' : (t.addNum c).WF := by simpa [BSpline.WF, BSpline.addNum] using hw
    rw [BSpline.eval_eq hw', BSpline.eval_eq hw]
    have : ∀ i ∈ range t.basis.len, (t.addNum c).coeffs.getD i 0 * (t.addNum c).basis.fn i x
        = t.coeffs.getD i 0 * t.basis.fn i x + c * t.basis.fn i x := by
      intro i hi
      have hi : i < t.coeffs.length := by rw [hw]; exact Finset.mem_range.1 hi
      show (t.coeffs.map (· + c)).getD i 0 * t.basis.fn i x = _
      rw [List.getD_eq_getElem _ _ (by simpa using hi), List.getElem_map, List.getD_eq_getElem _ _ hi]
      ring
    show ∑ i ∈ range t.basis.len, _ = _
    rw [Finset.sum_congr rfl this, Finset.sum_add_distrib, ← Finset.mul_sum, ht, Basis.sum_fn hb h0 h1, mul_one]
  refine ⟨key s a rfl hs, ?_, ?_⟩
  · unfold BSpline.subNum
    rw [key s _ rfl hs, sub_eq_add_neg]
  · unfold BSpline.rsubNum
    rw [key s.neg a rfl (by simpa [BSpline.WF, BSpline.neg] using hs), (C09_neg_mul s a x).1]
    ring

/-- Facts about the union bases in terms of the knot function. -/
theorem combine_facts {a b : Basis K} (ha : a.Clamped) (hb : b.Clamped) (hd : a.SameDomain b) {d : ℕ}
    (had : a.degree ≤ d) (hbd : b.degree ≤ d) :
    (a.combine b d).Clamped ∧ (a.combine b d).k 0 = a.k 0 ∧
    (a.combine b d).k (a.combine b d).len = a.k a.len ∧ a.k 0 = b.k 0 ∧ a.k a.len = b.k b.len ∧
    (∀ τ ∈ a.knots, a.knots.count τ + (d - a.degree) ≤ (a.combine b d).knots.count τ) ∧
    (∀ τ ∈ b.knots, b.knots.count τ + (d - b.degree) ≤ (a.combine b d).knots.count τ) := by
  obtain ⟨h1, h2, h3⟩ := C08_clamped a b ha hb d had hbd hd.1 hd.2
  obtain ⟨-, -, hm⟩ := C08_multiplicity a b d had hbd
  obtain ⟨d0, d1⟩ := hd
  rw [headD_eq_k h1, headD_eq_k ha] at h2
  rw [getLastD_eq_k h1, getLastD_eq_k ha] at h3
  rw [headD_eq_k ha, headD_eq_k hb] at d0
  rw [getLastD_eq_k ha, getLastD_eq_k hb] at d1
  refine ⟨h1, h2, h3, d0, d1, ?_, ?_⟩ <;> intro τ hτ <;> rw [hm, neededMult]
  · rw [if_pos hτ]; exact le_max_left _ _
  · rw [if_pos hτ]; exact le_max_right _ _

/-- **C09** The sum of two splines on the same horizon is the pointwise sum, up to the threshold
`tol` (`1e-10` in the code) below which entries of the transformation matrices are dropped. -/
theorem C09_add (s t : BSpline K) (hb : s.basis.Clamped) (hs : s.WF) (hb' : t.basis.Clamped) (ht : t.WF)
    (hd : s.basis.SameDomain t.basis) (tol : K) (htol : 0 ≤ tol) (Ts Tt : ℕ → ℕ → K)
    (hTs : Solves (s.basis.add t.basis) s.basis.fn s.basis.len Ts)
    (hTt : Solves (s.basis.add t.basis) t.basis.fn t.basis.len Tt) (x : K) (hx : s.basis.InDomain x) :
    |(s.addT t tol Ts Tt).eval x - (s.eval x + t.eval x)|
      ≤ tol * ((∑ j ∈ range s.basis.len, |s.coeffs.getD j 0|)
          + ∑ j ∈ range t.basis.len, |t.coeffs.getD j 0|) := by
  obtain ⟨h0, h1⟩ := hx
  rw [headD_eq_k hb] at h0
  rw [getLastD_eq_k hb] at h1
  unfold Basis.add at hTs hTt
  obtain ⟨c1, c2, c3, c4, c5, c6, c7⟩ := combine_facts hb hb' hd (le_max_left _ _) (le_max_right _ _)
  have e := eval_zipWith_add (s.basis.add t.basis) (applyT tol Ts (s.basis.add t.basis).len s.coeffs)
    (applyT tol Tt (s.basis.add t.basis).len t.coeffs) (by simp [applyT]) x
  have r1 := transform_eval c1 hb hs (le_max_left _ _) c2 c3 (fun τ hτ _ _ => c6 τ hτ) htol hTs
    (x := x) (by rw [c2]; exact h0) (by rw [c3]; exact h1)
  have r2 := transform_eval c1 hb' ht (le_max_right _ _) (c2.trans c4) (c3.trans c5) (fun τ hτ _ _ => c7 τ hτ) htol hTt
    (x := x) (by rw [c2]; exact h0) (by rw [c3]; exact h1)
  show |(BSpline.mk (s.basis.add t.basis) _).eval x - _| ≤ _
  rw [e, mul_add]
  refine le_trans ?_ (add_le_add r1 r2)
  rw [show ∀ a b c d : K, a + b - (c + d) = (a - c) + (b - d) from fun a b c d => by ring]
  exact abs_add_le _ _

/-- **C09** The difference of two splines (`self + (-other)`) is the pointwise difference. -/
theorem C09_sub (s t : BSpline K) (hb : s.basis.Clamped) (hs : s.WF) (hb' : t.basis.Clamped) (ht : t.WF)
    (hd : s.basis.SameDomain t.basis) (tol : K) (htol : 0 ≤ tol) (Ts Tt : ℕ → ℕ → K)
    (hTs : Solves (s.basis.add t.basis) s.basis.fn s.basis.len Ts)
    (hTt : Solves (s.basis.add t.basis) t.basis.fn t.basis.len Tt) (x : K) (hx : s.basis.InDomain x) :
    |(s.addT t.neg tol Ts Tt).eval x - (s.eval x - t.eval x)|
      ≤ tol * ((∑ j ∈ range s.basis.len, |s.coeffs.getD j 0|)
          + ∑ j ∈ range t.basis.len, |t.coeffs.getD j 0|) := by
  have := C09_add s t.neg hb hs hb' (by simpa [BSpline.WF, BSpline.neg] using ht) hd tol htol Ts Tt hTs hTt x hx
  rw [(C09_neg_mul t 0 x).1, ← sub_eq_add_neg] at this
  refine this.trans (le_of_eq ?_)
  congr 2
  refine Finset.sum_congr rfl fun j hj => ?_
  have hj : j < t.coeffs.length := by rw [ht]; exact Finset.mem_range.1 hj
  show |(t.coeffs.map (- ·)).getD j 0| = _
  rw [List.getD_eq_getElem _ _ (by simpa using hj), List.getElem_map, abs_neg, List.getD_eq_getElem _ _ hj]

/-- **C09** The product of two splines on the same horizon is the pointwise product, up to the
threshold `tol`. -/
theorem C09_mul (s t : BSpline K) (hb : s.basis.Clamped) (hb' : t.basis.Clamped) (hs : s.WF) (ht : t.WF)
    (hd : s.basis.SameDomain t.basis) (tol : K) (htol : 0 ≤ tol) (T : ℕ → ℕ → K)
    (hT : Solves (s.basis.mul t.basis) (pairFn s.basis t.basis) (s.basis.pairs t.basis).length T)
    (x : K) (hx : s.basis.InDomain x) :
    |(s.mulT t tol T).eval x - s.eval x * t.eval x|
      ≤ tol * ((s.basis.pairs t.basis).map fun q => |s.coeffs.getD q.1 0 * t.coeffs.getD q.2 0|).sum := by
  obtain ⟨h0, h1⟩ := hx
  rw [headD_eq_k hb] at h0
  rw [getLastD_eq_k hb] at h1
  unfold Basis.mul at hT
  obtain ⟨c1, c2, c3, c4, c5, c6, c7⟩ := combine_facts hb hb' hd (Nat.le_add_right _ _) (Nat.le_add_left _ _)
  have x0 : (s.basis.combine t.basis (s.basis.degree + t.basis.degree)).k 0 ≤ x := by rw [c2]; exact h0
  have x1 : x ≤ (s.basis.combine t.basis (s.basis.degree + t.basis.degree)).k
    (s.basis.combine t.basis (s.basis.degree + t.basis.degree)).len := by rw [c3]; exact h1
  have key := applyT_eval c1 tol htol T
    ((s.basis.pairs t.basis).map fun q => s.coeffs.getD q.1 0 * t.coeffs.getD q.2 0) x0 x1
  have getP : ∀ l, l < (s.basis.pairs t.basis).length → ∀ f : ℕ × ℕ → K,
      ((s.basis.pairs t.basis).map f).getD l 0 = f ((s.basis.pairs t.basis).getD l (0, 0)) := by
    intro l hl f
    rw [List.getD_eq_getElem _ _ (by simpa using hl), List.getElem_map, List.getD_eq_getElem _ _ hl]
  have toSum : ∀ f : ℕ × ℕ → K, ((s.basis.pairs t.basis).map f).sum
      = ∑ l ∈ range (s.basis.pairs t.basis).length, f ((s.basis.pairs t.basis).getD l (0, 0)) := by
    intro f
    rw [← sum_map_range]
    congr 1
    apply List.ext_getElem (by simp)
    intro i i1 i2
    have : i < (s.basis.pairs t.basis).length := by simpa using i1
    simp [this]
  rw [List.length_map] at key
  have hv : ∑ j ∈ range (s.basis.pairs t.basis).length,
      (∑ i ∈ range (s.basis.combine t.basis (s.basis.degree + t.basis.degree)).len,
        (s.basis.combine t.basis (s.basis.degree + t.basis.degree)).fn i x * T i j)
      * ((s.basis.pairs t.basis).map fun q => s.coeffs.getD q.1 0 * t.coeffs.getD q.2 0).getD j 0
      = s.eval x * t.eval x := by
    rw [BSpline.eval_eq hs, BSpline.eval_eq ht, ← sum_pairs hb hb' c4 _ _ h0, toSum]
    refine Finset.sum_congr rfl fun l hl => ?_
    have hl := Finset.mem_range.1 hl
    rw [getP l hl, transform_exact c1 hT (fun j hj => ?_) hl x0 x1]
    · rfl
    · have hq := pairs_lt (a := s.basis) (b := t.basis) (q := (s.basis.pairs t.basis).getD j (0, 0)) (by
        rw [List.getD_eq_getElem _ _ hj]; exact List.getElem_mem _)
      obtain ⟨r, r1, r2, r3⟩ := spans_product c1
        (s := unitSpline s.basis ((s.basis.pairs t.basis).getD j (0, 0)).1)
        (s' := unitSpline t.basis ((s.basis.pairs t.basis).getD j (0, 0)).2) hb (unitSpline_wf _ _) hb'
        (unitSpline_wf _ _) rfl c2 c3 (c2.trans c4) (c3.trans c5)
        (fun τ hτ _ _ => by
          have := c6 τ hτ; rw [Nat.add_sub_cancel_left] at this; exact this)
        (fun τ hτ _ _ => by
          have := c7 τ hτ; rw [Nat.add_sub_cancel] at this; exact this)
      refine ⟨r, r1, r2, fun y y0 y1 => ?_⟩
      rw [r3 y y0 y1, unitSpline_eval _ _ hq.1, unitSpline_eval _ _ hq.2]
      rfl
  rw [hv] at key
  refine key.trans (le_of_eq ?_)
  rw [toSum fun q => |s.coeffs.getD q.1 0 * t.coeffs.getD q.2 0|]
  congr 1
  refine Finset.sum_congr rfl fun l hl => ?_
  rw [getP l (Finset.mem_range.1 hl)]

theorem powT_basis (s : BSpline K) (hb : s.basis.Clamped) (hs : s.WF) (tol : K) (T : ℕ → ℕ → ℕ → K) (n : ℕ) :
    (s.powT tol T n).basis.Clamped ∧ (s.powT tol T n).WF ∧ (s.powT tol T n).basis.SameDomain s.basis := by
  match n with
  | 0 => exact ⟨hb, hs, rfl, rfl⟩
  | 1 => exact ⟨hb, hs, rfl, rfl⟩
  | n + 2 =>
    obtain ⟨h1, h2, h3⟩ := powT_basis s hb hs tol T (n + 1)
    obtain ⟨c1, c2, c3⟩ := C08_clamped _ _ h1 hb _ (Nat.le_add_right _ _) (Nat.le_add_left _ _) h3.1 h3.2
    refine ⟨c1, ?_, c2.trans h3.1, c3.trans h3.2⟩
    simp [BSpline.powT, BSpline.mulT, BSpline.WF, applyT]

/-- **C09** `s ** n` for `n ≥ 1` is the pointwise power (stated without the dropping of small matrix
entries, i.e. for `tol = 0`; each factor otherwise adds the error bound of `C09_mul`). -/
theorem C09_pow (s : BSpline K) (hb : s.basis.Clamped) (hs : s.WF) (T : ℕ → ℕ → ℕ → K) (n : ℕ)
    (hT : ∀ m, m + 2 ≤ n + 1 → Solves ((s.powT 0 T (m + 1)).basis.mul s.basis)
      (pairFn (s.powT 0 T (m + 1)).basis s.basis) ((s.powT 0 T (m + 1)).basis.pairs s.basis).length (T m))
    (x : K) (hx : s.basis.InDomain x) :
    (s.powT 0 T (n + 1)).eval x = s.eval x ^ (n + 1) := by
  induction n with
  | zero => simp [BSpline.powT]
  | succ n ih =>
    have ih := ih (fun m hm => hT m (by omega))
    obtain ⟨h1, h2, h3⟩ := powT_basis s hb hs 0 T (n + 1)
    have := C09_mul (s.powT 0 T (n + 1)) s h1 hb h2 hs h3 0 le_rfl (T n) (hT n le_rfl) x
      ⟨h3.1.trans_le hx.1, hx.2.trans h3.2.ge⟩
    rw [zero_mul, ih] at this
    show ((s.powT 0 T (n + 1)).mulT s 0 (T n)).eval x = _
    rw [sub_eq_zero.1 (abs_nonpos_iff.1 this), pow_succ (s.eval x) (n + 1)]

theorem count_insertKnots (b : Basis K) (ts : List K) (τ : K) :
    (b.insertKnots ts).knots.count τ
      = if τ ∈ b.knots then b.knots.count τ else if τ ∈ ts then 1 else 0 := by
  unfold Basis.insertKnots
  dsimp only
  rw [(List.mergeSort_perm _ _).count_eq, List.count_append]
  split_ifs with h1 h2
  · rw [List.count_eq_zero_of_not_mem (l := (ts.filter (· ∉ b.knots)).dedup) (by simp [h1]), add_zero]
  · rw [List.count_eq_zero_of_not_mem h1, zero_add, List.count_eq_one_of_mem (List.nodup_dedup _)]
    simp [h1, h2]
  · rw [List.count_eq_zero_of_not_mem h1, zero_add, List.count_eq_zero_of_not_mem]
    simp [h2]

theorem insertKnots_sorted (b : Basis K) (ts : List K) : (b.insertKnots ts).knots.Pairwise (· ≤ ·) := by
  have := List.pairwise_mergeSort (le := fun x y : K => decide (x ≤ y))
    (by intro x y z; simp only [decide_eq_true_eq]; exact le_trans)
    (by intro x y; simpa using le_total x y)
    (b.knots ++ (ts.filter (· ∉ b.knots)).dedup)
  unfold Basis.insertKnots
  simpa using this

/-- **C09** `insert_knots` (any list of knots inside the horizon) keeps the function, up to the
threshold `tol`; the new knots are in the result. -/
theorem C09_insert_knots (s : BSpline K) (hb : s.basis.Clamped) (hs : s.WF) (ts : List K)
    (hts : ∀ τ ∈ ts, s.basis.InDomain τ) (tol : K) (htol : 0 ≤ tol) (T : ℕ → ℕ → K)
    (hT : Solves (s.basis.insertKnots ts) s.basis.fn s.basis.len T) :
    (∀ τ, τ ∈ (s.insertKnotsT ts tol T).basis.knots ↔ τ ∈ s.basis.knots ∨ τ ∈ ts) ∧
    ∀ x, s.basis.InDomain x → |(s.insertKnotsT ts tol T).eval x - s.eval x|
      ≤ tol * ∑ j ∈ range s.basis.len, |s.coeffs.getD j 0| := by
  have hmem : ∀ τ, τ ∈ (s.insertKnotsT ts tol T).basis.knots ↔ τ ∈ s.basis.knots ∨ τ ∈ ts := by
    intro τ
    have e := count_insertKnots s.basis ts τ
    rw [← List.count_pos_iff]
    show 0 < (s.basis.insertKnots ts).knots.count τ ↔ _
    rw [e]
    split_ifs with h1 h2
    · simp [h1]
    · simp [h2]
    · simp [h1, h2]
  refine ⟨hmem, fun x hx => ?_⟩
  obtain ⟨p1, p2, p3⟩ := counts_of_clamped hb
  obtain ⟨h0, h1⟩ := hx
  rw [headD_eq_k hb] at h0
  rw [getLastD_eq_k hb] at h1
  have m0 : s.basis.k 0 ∈ s.basis.knots := List.count_pos_iff.1 (by omega)
  have m1 : s.basis.k s.basis.len ∈ s.basis.knots := List.count_pos_iff.1 (by omega)
  obtain ⟨c1, c2, c3⟩ := clamped_of_counts (c := s.basis.insertKnots ts) hb.first_lt_last
    (insertKnots_sorted _ _) (by rw [count_insertKnots, if_pos m0, p1]; rfl)
    (by rw [count_insertKnots, if_pos m1]; exact p2)
    (by
      intro τ hτ
      rcases (hmem τ).1 hτ with h | h
      · exact p3 τ h
      · have := hts τ h
        unfold Basis.InDomain at this
        rwa [headD_eq_k hb, getLastD_eq_k hb] at this)
  exact transform_eval c1 hb hs le_rfl c2 c3
    (fun τ hτ _ _ => by
      rw [count_insertKnots, if_pos hτ]
      show s.basis.knots.count τ + (s.basis.degree - s.basis.degree) ≤ _
      omega) htol hT (by rw [c2]; exact h0) (by rw [c3]; exact h1)

/-! ## Concrete cases -/

/-- The linear basis on `[0,1]`. -/
def exLin : Basis ℚ := ⟨[0, 0, 1, 1], 1⟩

theorem exLin_clamped : exLin.Clamped :=
  ⟨by norm_num [exLin], by decide,
    by intro i hi; have : i ≤ 1 := hi; interval_cases i <;> rfl,
    by norm_num [exLin, Basis.k],
    by intro i h1 h2; have a : 2 ≤ i := h1; have b : i < 4 := h2; interval_cases i <;> rfl⟩

example : (BSpline.mk exLin [1, 3]).neg.eval (1/2) = - (BSpline.mk exLin [1, 3]).eval (1/2) :=
  (C09_neg_mul _ 0 _).1

example : ((BSpline.mk exLin [1, 3]).rsubNum 5).eval (1/2) = 5 - (BSpline.mk exLin [1, 3]).eval (1/2) :=
  (C09_num (BSpline.mk exLin [1, 3]) exLin_clamped rfl _ _ (by norm_num [Basis.InDomain, exLin])).2.2

theorem argmaxOn_ge (f : K → K) (l : List K) {y : K} (hy : y ∈ l) : f y ≤ f (argmaxOn f l) := by
  cases l with
  | nil => simp at hy
  | cons x xs =>
    have : ∀ (ys : List K) (z : K), ∀ y ∈ z :: ys,
        f y ≤ f (ys.foldl (fun best y => if f best < f y then y else best) z) := by
      intro ys
      induction ys with
      | nil => intro z y hy; simp at hy; simp [hy]
      | cons w ys ih =>
        intro z y hy
        rw [List.foldl_cons]
        have h1 := ih (if f z < f w then w else z)
        rw [List.mem_cons, List.mem_cons] at hy
        rcases hy with h | h | h
        · refine le_trans ?_ (h1 _ List.mem_cons_self)
          subst h
          split_ifs with hh
          · exact hh.le
          · exact le_rfl
        · refine le_trans ?_ (h1 _ List.mem_cons_self)
          subst h
          split_ifs with hh
          · exact le_rfl
          · exact not_lt.1 hh
        · exact h1 y (List.mem_cons_of_mem _ h)
    exact this xs x y hy

/-- The quadratic basis on `[0,1]`. -/
def exQuad : Basis ℚ := ⟨[0, 0, 0, 1, 1, 1], 2⟩

theorem exQuad_clamped : exQuad.Clamped :=
  ⟨by norm_num [exQuad], by decide,
    by intro i hi; have : i ≤ 2 := hi; interval_cases i <;> rfl,
    by norm_num [exQuad, Basis.k],
    by intro i h1 h2; have a : 3 ≤ i := h1; have b : i < 6 := h2; interval_cases i <;> rfl⟩

theorem exLin_fn {x : ℚ} (h0 : 0 ≤ x) (h1 : x ≤ 1) : exLin.fn 0 x = 1 - x ∧ exLin.fn 1 x = x := by
  by_cases h : x = 0
  · subst h; norm_num [exLin, Basis.fn, cox, ind, Basis.k]
  · have : 0 < x := lt_of_le_of_ne h0 (Ne.symm h)
    constructor <;> norm_num [exLin, Basis.fn, cox, ind, Basis.k, h0, h1, this]

theorem exQuad_fn {x : ℚ} (h0 : 0 ≤ x) (h1 : x ≤ 1) :
    exQuad.fn 0 x = (1 - x) ^ 2 ∧ exQuad.fn 1 x = 2 * x * (1 - x) ∧ exQuad.fn 2 x = x ^ 2 := by
  by_cases h : x = 0
  · subst h; norm_num [exQuad, Basis.fn, cox, ind, Basis.k]
  · have : 0 < x := lt_of_le_of_ne h0 (Ne.symm h)
    refine ⟨?_, ?_, ?_⟩ <;> norm_num [exQuad, Basis.fn, cox, ind, Basis.k, h0, h1, this] <;> ring

theorem exGrid_mem (b : Basis ℚ) (h0 : b.knots.headD 0 = 0) (h1 : b.knots.getLastD 0 = 1) (j : ℕ) (hj : j ≤ 500) :
    (j : ℚ) / 500 ∈ b.grid := by
  unfold Basis.grid
  rw [h0, h1]
  exact List.mem_map.2 ⟨j, List.mem_range.2 (by omega), by ring⟩

theorem exLin_xmax : exLin.xmax = [0, 1] := by
  have key : ∀ i, argmaxOn (exLin.fn i) exLin.grid ∈ exLin.grid := fun i =>
    argmaxOn_mem _ _ (by intro h; simp [Basis.grid] at h)
  have dom : ∀ i, 0 ≤ argmaxOn (exLin.fn i) exLin.grid ∧ argmaxOn (exLin.fn i) exLin.grid ≤ 1 := fun i =>
    grid_mem exLin_clamped (key i)
  have g0 := argmaxOn_ge (exLin.fn 0) exLin.grid (exGrid_mem exLin rfl rfl 0 (by omega))
  have g1 := argmaxOn_ge (exLin.fn 1) exLin.grid (exGrid_mem exLin rfl rfl 500 (by omega))
  rw [(exLin_fn (dom 0).1 (dom 0).2).1, (exLin_fn (by norm_num) (by norm_num)).1] at g0
  rw [(exLin_fn (dom 1).1 (dom 1).2).2, (exLin_fn (by norm_num) (by norm_num)).2] at g1
  have a0 : argmaxOn (exLin.fn 0) exLin.grid = 0 := by
    have := (dom 0).1; norm_num at g0; linarith
  have a1 : argmaxOn (exLin.fn 1) exLin.grid = 1 := by
    have := (dom 1).2; norm_num at g1; linarith
  show [argmaxOn (exLin.fn 0) exLin.grid, argmaxOn (exLin.fn 1) exLin.grid] = _
  rw [a0, a1]

theorem exQuad_xmax : exQuad.xmax = [0, 1/2, 1] := by
  have key : ∀ i, argmaxOn (exQuad.fn i) exQuad.grid ∈ exQuad.grid := fun i =>
    argmaxOn_mem _ _ (by intro h; simp [Basis.grid] at h)
  have dom : ∀ i, 0 ≤ argmaxOn (exQuad.fn i) exQuad.grid ∧ argmaxOn (exQuad.fn i) exQuad.grid ≤ 1 := fun i =>
    grid_mem exQuad_clamped (key i)
  have g0 := argmaxOn_ge (exQuad.fn 0) exQuad.grid (exGrid_mem exQuad rfl rfl 0 (by omega))
  have g1 := argmaxOn_ge (exQuad.fn 1) exQuad.grid (exGrid_mem exQuad rfl rfl 250 (by omega))
  have g2 := argmaxOn_ge (exQuad.fn 2) exQuad.grid (exGrid_mem exQuad rfl rfl 500 (by omega))
  rw [(exQuad_fn (dom 0).1 (dom 0).2).1, (exQuad_fn (by norm_num) (by norm_num)).1] at g0
  rw [(exQuad_fn (dom 1).1 (dom 1).2).2.1, (exQuad_fn (by norm_num) (by norm_num)).2.1] at g1
  rw [(exQuad_fn (dom 2).1 (dom 2).2).2.2, (exQuad_fn (by norm_num) (by norm_num)).2.2] at g2
  have a0 : argmaxOn (exQuad.fn 0) exQuad.grid = 0 := by
    have := dom 0; norm_num at g0; rw [abs_of_nonneg (by linarith)] at g0; linarith
  have a1 : argmaxOn (exQuad.fn 1) exQuad.grid = 1 / 2 := by
    norm_num at g1
    have : (argmaxOn (exQuad.fn 1) exQuad.grid - 1 / 2) ^ 2 ≤ 0 := by nlinarith
    have := pow_eq_zero_iff (n := 2) (by norm_num) |>.1 (le_antisymm this (sq_nonneg _))
    linarith
  have a2 : argmaxOn (exQuad.fn 2) exQuad.grid = 1 := by
    have := dom 2; norm_num at g2; rw [abs_of_nonneg this.1] at g2; linarith
  show [argmaxOn (exQuad.fn 0) exQuad.grid, argmaxOn (exQuad.fn 1) exQuad.grid,
    argmaxOn (exQuad.fn 2) exQuad.grid] = _
  rw [a0, a1, a2]

theorem exLin_add : exLin.add exLin = exLin := C08_idem _ exLin_clamped.sorted

theorem exLin_mul : exLin.mul exLin = exQuad := by
  obtain ⟨h1, h2, h3⟩ := C08_multiplicity exLin exLin 2 (by decide) (by decide)
  have hk : (exLin.combine exLin 2).knots = exQuad.knots := by
    refine sorted_ext h2 exQuad_clamped.sorted fun t => ?_
    rw [h3]
    simp only [neededMult, exLin, exQuad, List.count_cons, List.count_nil, List.mem_cons, List.not_mem_nil]
    by_cases e0 : t = 0
    · subst e0; norm_num
    · by_cases e1 : t = 1
      · subst e1; norm_num
      · simp [e0, e1, Ne.symm e0, Ne.symm e1]
  calc exLin.mul exLin = ⟨(exLin.combine exLin 2).knots, 2⟩ := rfl
    _ = exQuad := by rw [hk]; rfl

/-- The hypotheses of `C09_add` are met by two lines: the matrix is the identity. -/
theorem exLin_solves : Solves (exLin.add exLin) exLin.fn exLin.len (fun i j => if i = j then 1 else 0) := by
  rw [exLin_add]
  constructor
  · intro c hc i hi
    rw [exLin_xmax] at hc
    have c0 := hc 0 (by simp)
    have c1 := hc 1 (by simp)
    rw [show exLin.len = 2 from rfl, Finset.sum_range_succ, Finset.sum_range_one] at c0 c1
    rw [(exLin_fn le_rfl (by norm_num)).1, (exLin_fn le_rfl (by norm_num)).2] at c0
    rw [(exLin_fn (by norm_num) le_rfl).1, (exLin_fn (by norm_num) le_rfl).2] at c1
    have hi : i < 2 := hi
    interval_cases i
    · linarith
    · linarith
  · intro x _ j hj
    have hj : j < 2 := hj
    rw [show exLin.len = 2 from rfl, Finset.sum_range_succ, Finset.sum_range_one]
    interval_cases j <;> simp

example (x : ℚ) (hx : exLin.InDomain x) :
    |((BSpline.mk exLin [1, 3]).addT (BSpline.mk exLin [2, 0]) (1/10^10) (fun i j => if i = j then 1 else 0)
      (fun i j => if i = j then 1 else 0)).eval x
      - ((BSpline.mk exLin [1, 3]).eval x + (BSpline.mk exLin [2, 0]).eval x)| ≤ 6/10^10 := by
  refine (C09_add (BSpline.mk exLin [1, 3]) (BSpline.mk exLin [2, 0]) exLin_clamped rfl exLin_clamped rfl
    ⟨rfl, rfl⟩ (1/10^10) (by norm_num) _ _ exLin_solves exLin_solves x hx).trans ?_
  simp [show exLin.len = 2 from rfl, Finset.sum_range_succ]
  norm_num

theorem exLin_pairs : exLin.pairs exLin = [(0, 0), (0, 1), (1, 0), (1, 1)] := by
  norm_num [Basis.pairs, exLin, Basis.len, overlaps, Basis.support, List.range_succ, List.flatMap_cons]

/-- The matrix of the product of two lines in the quadratic basis. -/
def exT (i j : ℕ) : ℚ :=
  if i = 0 ∧ j = 0 then 1 else if i = 1 ∧ (j = 1 ∨ j = 2) then 1/2 else if i = 2 ∧ j = 3 then 1 else 0

theorem exT_solves : Solves (exLin.mul exLin) (pairFn exLin exLin) (exLin.pairs exLin).length exT := by
  rw [exLin_mul]
  constructor
  · intro c hc i hi
    rw [exQuad_xmax] at hc
    have c0 := hc 0 (by simp)
    have c1 := hc (1/2) (by simp)
    have c2 := hc 1 (by simp)
    rw [show exQuad.len = 3 from rfl, Finset.sum_range_succ, Finset.sum_range_succ, Finset.sum_range_one] at c0 c1 c2
    obtain ⟨e0, e1, e2⟩ := exQuad_fn (x := 0) le_rfl (by norm_num)
    rw [e0, e1, e2] at c0
    obtain ⟨e0, e1, e2⟩ := exQuad_fn (x := 1/2) (by norm_num) (by norm_num)
    rw [e0, e1, e2] at c1
    obtain ⟨e0, e1, e2⟩ := exQuad_fn (x := 1) (by norm_num) (by norm_num)
    rw [e0, e1, e2] at c2
    have hi : i < 3 := hi
    interval_cases i <;> linarith
  · intro x hx j hj
    have hx := xmax_mem exQuad_clamped hx
    have h0 : 0 ≤ x := hx.1
    have h1 : x ≤ 1 := hx.2
    obtain ⟨e0, e1, e2⟩ := exQuad_fn h0 h1
    obtain ⟨l0, l1⟩ := exLin_fn h0 h1
    rw [exLin_pairs] at hj
    have hj : j < 4 := hj
    rw [show exQuad.len = 3 from rfl, Finset.sum_range_succ, Finset.sum_range_succ, Finset.sum_range_one,
      e0, e1, e2]
    unfold pairFn
    rw [exLin_pairs]
    interval_cases j <;> norm_num [exT, l0, l1] <;> ring

example (x : ℚ) (hx : exLin.InDomain x) :
    ((BSpline.mk exLin [1, 3]).mulT (BSpline.mk exLin [2, 0]) 0 exT).eval x
      = (BSpline.mk exLin [1, 3]).eval x * (BSpline.mk exLin [2, 0]).eval x := by
  have := C09_mul (BSpline.mk exLin [1, 3]) (BSpline.mk exLin [2, 0]) exLin_clamped exLin_clamped rfl rfl
    ⟨rfl, rfl⟩ 0 le_rfl _ exT_solves x hx
  rw [zero_mul] at this
  exact sub_eq_zero.1 (abs_nonpos_iff.1 this)

example (x : ℚ) (hx : exLin.InDomain x) :
    ((BSpline.mk exLin [1, 3]).powT 0 (fun _ => exT) 2).eval x = (BSpline.mk exLin [1, 3]).eval x ^ 2 :=
  C09_pow (BSpline.mk exLin [1, 3]) exLin_clamped rfl _ 1 (by
    intro m hm
    have : m = 0 := by omega
    subst this
    exact exT_solves) x hx

example (x : ℚ) (hx : exLin.InDomain x) :
    ((BSpline.mk exLin [1, 3]).insertKnotsT [0, 1] 0 (fun i j => if i = j then 1 else 0)).eval x
      = (BSpline.mk exLin [1, 3]).eval x := by
  have e : exLin.insertKnots [0, 1] = exLin := by
    have hk : (exLin.insertKnots [0, 1]).knots = exLin.knots := by
      refine sorted_ext (insertKnots_sorted _ _) exLin_clamped.sorted fun t => ?_
      rw [count_insertKnots]
      by_cases h : t ∈ exLin.knots
      · rw [if_pos h]
      · rw [if_neg h, List.count_eq_zero_of_not_mem h, if_neg]
        simpa [exLin] using h
    calc exLin.insertKnots [0, 1] = ⟨(exLin.insertKnots [0, 1]).knots, 1⟩ := rfl
      _ = exLin := by rw [hk]; rfl
  have := (C09_insert_knots (BSpline.mk exLin [1, 3]) exLin_clamped rfl [0, 1]
    (by intro τ hτ; simp at hτ; rcases hτ with h | h <;> subst h <;> norm_num [Basis.InDomain, exLin])
    0 le_rfl (fun i j => if i = j then 1 else 0) (by
      show Solves (exLin.insertKnots [0, 1]) exLin.fn exLin.len _
      rw [e, ← exLin_add]
      have := exLin_solves
      rw [exLin_add] at this ⊢
      exact this)).2 x hx
  rw [zero_mul] at this
  exact sub_eq_zero.1 (abs_nonpos_iff.1 this)

/-- The code returns the spline itself for power `0`, so the pointwise power law fails there. -/
theorem C09_pow_zero_violated :
    ∃ (s : BSpline ℚ) (x : ℚ), s.basis.Clamped ∧ s.WF ∧ s.basis.InDomain x ∧
      ∀ tol T, (s.powT tol T 0).eval x ≠ s.eval x ^ 0 := by
  refine ⟨⟨exLin, [3, 3]⟩, 0, exLin_clamped, rfl, by norm_num [Basis.InDomain, exLin], fun tol T => ?_⟩
  rw [BSpline.powT, pow_zero]
  rw [BSpline.eval_eq (s := ⟨exLin, [3, 3]⟩) rfl, show (BSpline.mk exLin [3, 3]).basis.len = 2 from rfl,
    Finset.sum_range_succ, Finset.sum_range_one]
  show ([3, 3] : List ℚ).getD 0 0 * exLin.fn 0 0 + ([3, 3] : List ℚ).getD 1 0 * exLin.fn 1 0 ≠ 1
  rw [(exLin_fn le_rfl (by norm_num)).1, (exLin_fn le_rfl (by norm_num)).2]
  norm_num

end Verif.Spline
