import Verif.Spline.Regular
import Verif.Spline.ShiftVeh
import Verif.Spline.Concat

/-! # The linear systems of extrapolation and concatenation are regular (C119, C120, C121)

Uses total positivity (Total.lean) to show that `np.linalg.solve` in `extrapolate_T` (spline_extra.py:152) and `la.solve` in `concat_splines`
(spline_extra.py:389) never meet a singular matrix, and bounds what the rounding of small entries (spline_extra.py:153) can do. -/

set_option linter.unusedSectionVars false

namespace Verif.Spline

open Finset Polynomial

variable {K : Type*} [Field K] [LinearOrder K] [IsStrictOrderedRing K]

/-! ## Lemmas: extrapolation -/

theorem derMat_above (κ : ℕ → K) (deg M : ℕ) : ∀ (i j q : ℕ), j + i < q → derMat κ deg M i j q = 0 := by
  intro i
  induction i with
  | zero => intro j q h; unfold derMat; rw [if_neg (by omega)]
  | succ i ih => intro j q h; unfold derMat; rw [ih j q (by omega), ih (j + 1) q (by omega), mul_zero, mul_zero, add_zero]

theorem derMat_diag {κ : ℕ → K} {deg M : ℕ} (hκ : ∀ a c, M ≤ a → c < M → κ c < κ a) (hM : deg ≤ M) :
    ∀ (i j : ℕ), j + i ≤ deg → derMat κ deg M i j (j + i) ≠ 0 := by
  intro i
  induction i with
  | zero => intro j _; unfold derMat; rw [if_pos (by omega)]; exact one_ne_zero
  | succ i ih =>
    intro j h
    unfold derMat
    rw [derMat_above κ deg M i j _ (by omega), mul_zero, zero_add, show j + (i + 1) = j + 1 + i by omega]
    refine mul_ne_zero (div_ne_zero ?_ (sub_pos.2 (hκ _ _ (by omega) (by omega))).ne') (ih (j + 1) (by omega))
    exact_mod_cast (show deg - i ≠ 0 by omega)

theorem k_pre_last {b : Basis K} (hb : b.Clamped) (hcnt : ∀ τ, b.knots.count τ ≤ b.degree + 1) : b.k (b.len - 1) < b.k b.len := by
  have hl := hb.length_eq
  have hlt := hb.lt_len
  have := k_lt_of_count hb.sorted hcnt (b.len - 1) (by omega)
  rwa [hb.last (b.len - 1 + (b.degree + 1)) (by omega)] at this

theorem evalPoint_eq {b : Basis K} (hb : b.Clamped) {m r : ℕ} (hm : 1 ≤ m) (hr : r < b.degree + 1 - m) :
    evalPoint b m r = (∑ i ∈ range b.degree, b.k (b.len - (b.degree + 1 - m) + r + 1 + i)) / (b.degree : K) := by
  have hlt := hb.lt_len
  unfold evalPoint Basis.greville
  rw [List.getD_eq_getElem _ _ (by simp; omega), List.getElem_map, List.getElem_range, sum_map_range, one_div, inv_mul_eq_div]

/-- The matrix of the extrapolation is regular. -/
theorem extA_det {b : Basis K} (hb : b.Clamped) (hcnt : ∀ τ, b.knots.count τ ≤ b.degree + 1) {m : ℕ} (hm1 : 1 ≤ m) (hm2 : m ≤ b.degree + 1)
    (hmb : m < b.len) {te : K} (hte : 0 < te) : (extA b m te).det ≠ 0 := by
  have hlt := hb.lt_len
  obtain ⟨hc, hcl⟩ := extend_clamped hb m hte
  have hek := extend_k hb m te
  have hpre := k_pre_last hb hcnt
  intro hdet
  obtain ⟨v, hv, h0⟩ := Matrix.exists_mulVec_eq_zero_iff.2 hdet
  have hrow : ∀ r, r < b.degree + 1 → ∑ q ∈ range (b.degree + 1), extAe b m te r q * (fun q => if h : q < b.degree + 1 then v ⟨q, h⟩ else 0) q = 0 := by
    intro r hr
    have := congrFun h0 ⟨r, hr⟩
    rw [Finset.sum_range]
    refine Eq.trans (Finset.sum_congr rfl fun q _ => ?_) this
    dsimp only
    rw [dif_pos q.2]
    rfl
  set w : ℕ → K := fun q => if h : q < b.degree + 1 then v ⟨q, h⟩ else 0 with hw
  -- the evaluation rows
  have hE : ∀ q, q < b.degree + 1 - m → w q = 0 := by
    rcases Nat.eq_zero_or_pos (b.degree + 1 - m) with hz | hz
    · intro q hq; omega
    · have hp : 1 ≤ b.degree := by omega
      have hp' : (0 : K) < b.degree := by exact_mod_cast hp
      have hX : StrictMono fun r : Fin (b.degree + 1 - m) => evalPoint b m r := by
        intro r r' hr
        have hr : r.1 < r'.1 := hr
        show evalPoint b m r < evalPoint b m r'
        rw [evalPoint_eq hb hm1 r.2, evalPoint_eq hb hm1 r'.2]
        refine div_lt_div_of_pos_right ?_ hp'
        refine Finset.sum_lt_sum (fun i _ => hb.mono (by omega)) ?_
        -- the first index from which the later one has reached the end
        refine ⟨b.len - (b.len - (b.degree + 1 - m) + r' + 1), Finset.mem_range.2 (by omega), ?_⟩
        have := r'.2
        rw [hb.last (b.len - (b.degree + 1 - m) + r' + 1 + (b.len - (b.len - (b.degree + 1 - m) + r' + 1))) (by omega)]
        exact (hb.mono (by omega)).trans_lt hpre
      have hd := (basis_total hc (X := fun r : Fin (b.degree + 1 - m) => evalPoint b m r)
        (I := fun c : Fin (b.degree + 1 - m) => b.len - (b.degree + 1) + m + c) hX (fun a c hac => Nat.add_lt_add_left hac _)
        (fun r => by rw [hek, if_pos (by omega)]; exact (evalPoint_range hb hm1 r.2).1.le)
        (fun r => by
          rw [hcl, hek, if_neg (by omega), if_neg (by omega)]
          exact (evalPoint_range hb hm1 r.2).2.trans (le_add_of_nonneg_right hte.le))).2 (fun r => by
            have hr := r.2
            refine (cox_pos_iff hc.mono ?_ _ _).2 ⟨?_, Or.inl ?_⟩
            · rw [hek, if_pos (by omega)]; exact (evalPoint_range hb hm1 r.2).1
            · rw [hek, if_pos (by omega), evalPoint_eq hb hm1 r.2, lt_div_iff₀ hp']
              have e : b.k (b.len - (b.degree + 1) + m + r) * (b.degree : K) = ∑ _i ∈ range b.degree, b.k (b.len - (b.degree + 1) + m + r) := by
                rw [Finset.sum_const, Finset.card_range, nsmul_eq_mul, mul_comm]
              rw [e]
              refine Finset.sum_lt_sum (fun i _ => hb.mono (by omega)) ⟨b.degree - 1, Finset.mem_range.2 (by omega), ?_⟩
              rw [hb.last (b.len - (b.degree + 1 - m) + r + 1 + (b.degree - 1)) (by omega)]
              exact (hb.mono (by omega)).trans_lt hpre
            · have hdeg : (b.extend m te).degree = b.degree := rfl
              rw [hek, hdeg, if_neg (by omega), if_neg (by omega)]
              exact (evalPoint_range hb hm1 r.2).2.trans_lt (lt_add_of_pos_right _ hte))
      intro q hq
      have := Matrix.eq_zero_of_vecMul_eq_zero hd.ne' (v := fun c : Fin (b.degree + 1 - m) => w c) (funext fun r => by
        have h1 := hrow r (by omega)
        have hspl : ∀ f : ℕ → K, ∑ x ∈ range (b.degree + 1), f x
            = ∑ x ∈ range (b.degree + 1 - m), f x + ∑ x ∈ range m, f (b.degree + 1 - m + x) := fun f => by
          rw [← Finset.sum_range_add]; congr 2; omega
        rw [hspl] at h1
        have hz2 : ∑ x ∈ range m, extAe b m te r (b.degree + 1 - m + x) * w (b.degree + 1 - m + x) = 0 :=
          Finset.sum_eq_zero fun x _ => by
            unfold extAe
            rw [if_pos r.2, if_neg (by omega), zero_mul]
        rw [hz2, add_zero, Finset.sum_range] at h1
        show ∑ c : Fin (b.degree + 1 - m), w c * (b.extend m te).fn (b.len - (b.degree + 1) + m + c) (evalPoint b m r) = 0
        refine Eq.trans (Finset.sum_congr rfl fun c _ => ?_) h1
        unfold extAe
        rw [if_pos r.2, if_pos c.2, mul_comm])
      exact congrFun this ⟨q, hq⟩
  -- the derivative rows
  have hκ : ∀ a c, b.len + m ≤ a → c < b.len + m → (b.extend m te).k c < (b.extend m te).k a := by
    intro a c ha hcm
    rw [hek a, if_neg (by omega), if_neg (by omega), hek c]
    split_ifs
    · exact (hb.mono (by omega : c ≤ b.len)).trans_lt (lt_add_of_pos_right _ hte)
    · exact lt_add_of_pos_right _ hte
  have hall : ∀ q, q < b.degree + 1 → w q = 0 := by
    intro q
    induction q using Nat.strong_induction_on with
    | _ q ih =>
      intro hq
      rcases Nat.lt_or_ge q (b.degree + 1 - m) with h | h
      · exact hE q h
      · have h1 := hrow q hq
        rw [Finset.sum_eq_single q] at h1
        · refine (mul_eq_zero.1 h1).resolve_left ?_
          unfold extAe
          rw [if_neg (by omega)]
          split_ifs with h2 h3
          · exact one_ne_zero
          · omega
          · have := derMat_diag hκ (by omega : b.degree ≤ b.len + m) q 0 (by omega)
            rwa [zero_add] at this
        · intro j hj hne
          rcases Nat.lt_or_ge j q with l | g
          · rw [ih j l (by omega), mul_zero]
          · unfold extAe
            rw [if_neg (by omega)]
            split_ifs with h2 h3
            · omega
            · rw [zero_mul]
            · rw [derMat_above _ _ _ _ _ _ (by omega), zero_mul]
        · intro hn; exact absurd (Finset.mem_range.2 hq) hn
  refine hv (funext fun q => ?_)
  have := hall q q.2
  rw [hw] at this
  dsimp only at this
  rwa [dif_pos q.2] at this

theorem lastMult_some {b : Basis K} (hb : b.Clamped) (h : b.degree + 1 < b.len) :
    ∃ m, lastMult b = some m := by
  have : (lastMult b).isSome := by
    unfold lastMult
    rw [Option.isSome_map, List.find?_isSome]
    refine ⟨b.len - 2, List.mem_range.2 (by omega), ?_⟩
    rw [decide_eq_true_eq, show b.len - 1 - (b.len - 2 + 1) = 0 by omega, ← hb.k_degree]
    exact hb.start.trans_le (hb.mono (by omega))
  exact Option.isSome_iff_exists.1 this

theorem extrapolateTAt_some {b : Basis K} (hb : b.Clamped) (hcnt : ∀ τ, b.knots.count τ ≤ b.degree + 1) (h : b.degree + 1 < b.len) {te : K} (hte : 0 < te) :
    ∃ m X, lastMult b = some m ∧ npSolve (extA b m te) (extB b m te) = some X := by
  obtain ⟨m, hm⟩ := lastMult_some hb h
  obtain ⟨m1, m2, m3, -⟩ := lastMult_spec hb hcnt hm
  exact ⟨m, (extA b m te)⁻¹ * extB b m te, hm, if_neg (extA_det hb hcnt m1 m2 m3 hte)⟩

theorem chopAt_close {tol : K} (h : 0 ≤ tol) (x : K) : |chopAt tol x - x| ≤ tol := by
  unfold chopAt
  split_ifs with hc
  · rw [zero_sub, abs_neg]; exact hc.le
  · rw [sub_self, abs_zero]; exact h

/-- The matrices with and without rounding differ by at most the threshold. -/
theorem extrapolateTAt_close {b : Basis K} (hb : b.Clamped) (hcnt : ∀ τ, b.knots.count τ ≤ b.degree + 1) (h : b.degree + 1 < b.len) {te : K}
    (hte : 0 < te) {tol : K} (htol : 0 ≤ tol) :
    ∃ m T T0, lastMult b = some m ∧ extrapolateTAt tol b te = some (m, T) ∧ extrapolateTAt 0 b te = some (m, T0) ∧ ∀ i j, |T i j - T0 i j| ≤ tol := by
  obtain ⟨m, X, hm, hX⟩ := extrapolateTAt_some hb hcnt h hte
  refine ⟨m, _, _, hm, by unfold extrapolateTAt; rw [hm, Option.bind_some, hX, Option.map_some], by
    unfold extrapolateTAt; rw [hm, Option.bind_some, hX, Option.map_some], fun i j => ?_⟩
  by_cases hc : b.len + m - (b.degree + 1) ≤ i ∧ b.len - (b.degree + 1) ≤ j ∧
      i - (b.len + m - (b.degree + 1)) < b.degree + 1 ∧ j - (b.len - (b.degree + 1)) < b.degree + 1
  · rw [dif_pos hc, dif_pos hc, chop_eq (tol := 0) (Or.inr (abs_nonneg _))]
    exact chopAt_close htol _
  · rw [dif_neg hc, dif_neg hc, sub_self, abs_zero]; exact htol

/-- Rows that differ by at most `tol` give results that differ by at most `tol` times the sum of the coefficients. -/
theorem row_close {tol : K} {T T0 : ℕ → K} (h : ∀ j, |T j - T0 j| ≤ tol) (c : ℕ → K) (n : ℕ) :
    |∑ j ∈ range n, T j * c j - ∑ j ∈ range n, T0 j * c j| ≤ tol * ∑ j ∈ range n, |c j| := by
  rw [← Finset.sum_sub_distrib, Finset.mul_sum]
  refine (Finset.abs_sum_le_sum_abs _ _).trans (Finset.sum_le_sum fun j _ => ?_)
  rw [← sub_mul, abs_mul]
  exact mul_le_mul_of_nonneg_right (h j) (abs_nonneg _)

theorem eval_close {s t : BSpline K} (hb : s.basis.Clamped) (he : t.basis = s.basis) (hs : s.WF) (ht : t.WF) {ε : K}
    (h : ∀ i, i < s.basis.len → |t.coeffs.getD i 0 - s.coeffs.getD i 0| ≤ ε) {x : K} (h0 : s.basis.k 0 ≤ x) (h1 : x ≤ s.basis.k s.basis.len) :
    |t.eval x - s.eval x| ≤ ε := by
  rw [BSpline.eval_eq ht, BSpline.eval_eq hs, he, ← Finset.sum_sub_distrib]
  refine (Finset.abs_sum_le_sum_abs _ _).trans ?_
  have : ∑ i ∈ range s.basis.len, ε * s.basis.fn i x = ε := by rw [← Finset.mul_sum, Basis.sum_fn hb h0 h1, mul_one]
  rw [← this]
  refine Finset.sum_le_sum fun i hi => ?_
  rw [← sub_mul, abs_mul, abs_of_nonneg (Basis.fn_nonneg hb i x)]
  exact mul_le_mul_of_nonneg_right (h i (Finset.mem_range.1 hi)) (Basis.fn_nonneg hb i x)

/-- Sum of the absolute coefficients. -/
theorem sum_coeffs (c : List K) : ∑ j ∈ range c.length, |c.getD j 0| = (c.map fun v => |v|).sum := by
  rw [Finset.sum_range, ← List.sum_ofFn]
  congr 1
  refine List.ext_getElem (by simp) fun i h1 h2 => ?_
  simp

theorem extrapolateAt_getD {tol : K} {s s' : BSpline K} {te : K} {m : ℕ} {T : ℕ → ℕ → K} (hT : extrapolateTAt tol s.basis te = some (m, T))
    (h : extrapolateAt tol s te = some s') {i : ℕ} (hi : i < s.basis.len + m) :
    s'.coeffs.getD i 0 = ∑ j ∈ range s.basis.len, T i j * s.coeffs.getD j 0 := by
  unfold extrapolateAt at h
  rw [hT, Option.map_some, Option.some.injEq] at h
  rw [← h]
  dsimp only
  rw [List.getD_eq_getElem _ _ (by simpa using hi), List.getElem_map, List.getElem_range, sum_map_range]

/-! ## Properties -/

/-- **C119** Extrapolation is defined for every basis with an interior knot: the system never is singular. -/
theorem C119_defined (s : BSpline K) (hb : s.basis.Clamped) (hcnt : ∀ τ, s.basis.knots.count τ ≤ s.basis.degree + 1) (te : K) (hte : 0 < te) :
    (∃ s', extrapolate s te = some s') ↔ s.basis.degree + 1 < s.basis.len := by
  constructor
  · rintro ⟨s', h⟩
    by_contra hn
    have := hb.lt_len
    rw [C119_single_interval_violated s hb (by omega) te] at h
    cases h
  · intro h
    obtain ⟨m, T, T0, -, h1, -, -⟩ := extrapolateTAt_close hb hcnt h hte (tol := 1 / 10 ^ 10) (by positivity)
    unfold extrapolate extrapolateAt
    rw [h1]
    exact ⟨_, rfl⟩

/-- **C119** Extrapolating a trajectory with an interior knot keeps it on its own interval and on the added interval continues the polynomial of its
last piece, up to `1e-10` times the sum of the absolute coefficients. -/
theorem C119_close_partial (s : BSpline K) (hb : s.basis.Clamped) (hs : s.WF) (hcnt : ∀ τ, s.basis.knots.count τ ≤ s.basis.degree + 1)
    (hlen : s.basis.degree + 1 < s.basis.len) (te : K) (hte : 0 < te) :
    ∃ s', extrapolate s te = some s' ∧ s'.basis.Clamped ∧ s'.WF ∧ s'.basis.degree = s.basis.degree ∧
    s'.basis.knots.headD 0 = s.basis.knots.headD 0 ∧
    s'.basis.knots.getLastD 0 = s.basis.knots.getLastD 0 + te ∧
    (∀ x, s.basis.knots.headD 0 ≤ x → x ≤ s.basis.knots.getLastD 0 → |s'.eval x - s.eval x| ≤ 1 / 10 ^ 10 * (s.coeffs.map fun v => |v|).sum) ∧
    ∃ q : K[X], q.natDegree ≤ s.basis.degree ∧
      (∀ τ ∈ s.basis.knots, (∀ y ∈ s.basis.knots, y ≤ τ ∨ y = s.basis.knots.getLastD 0) →
        ∀ x, τ < x → x ≤ s.basis.knots.getLastD 0 → s.eval x = q.eval x) ∧
      ∀ x, s.basis.knots.getLastD 0 ≤ x → x ≤ s.basis.knots.getLastD 0 + te →
        |s'.eval x - q.eval x| ≤ 1 / 10 ^ 10 * (s.coeffs.map fun v => |v|).sum := by
  obtain ⟨m, T, T0, hm, hT, hT0, hcl⟩ := extrapolateTAt_close hb hcnt hlen hte (tol := 1 / 10 ^ 10) (by positivity)
  have e0 : ∃ s0, extrapolateAt 0 s te = some s0 := by unfold extrapolateAt; rw [hT0]; exact ⟨_, rfl⟩
  have e1 : ∃ s', extrapolate s te = some s' := (C119_defined s hb hcnt te hte).2 hlen
  obtain ⟨s0, e0⟩ := e0
  obtain ⟨s', e1⟩ := e1
  obtain ⟨a1, a2, a3, a4, a5, a6, q, a7, a8, a9⟩ := extrapolateAt_eval s hb hs hcnt te hte (noTinyAt_zero _ _) s0 e0
  have b0 : s0.basis = s.basis.extend m te := by
    have := e0; unfold extrapolateAt at this; rw [hT0, Option.map_some, Option.some.injEq] at this; rw [← this]
  have b1 : s'.basis = s.basis.extend m te := by
    have := e1; unfold extrapolate extrapolateAt at this; rw [hT, Option.map_some, Option.some.injEq] at this; rw [← this]
  have hl := extend_len hb m te
  have w1 : s'.WF := by
    have := e1; unfold extrapolate extrapolateAt at this; rw [hT, Option.map_some, Option.some.injEq] at this; rw [← this]
    unfold BSpline.WF
    dsimp only
    rw [hl]; simp
  have hbb : s'.basis = s0.basis := b1.trans b0.symm
  have key : ∀ x, s.basis.knots.headD 0 ≤ x → x ≤ s.basis.knots.getLastD 0 + te → |s'.eval x - s0.eval x| ≤ 1 / 10 ^ 10 * (s.coeffs.map fun v => |v|).sum := by
    intro x h0 h1
    refine eval_close a1 hbb a2 w1 (fun i hi => ?_) (by rw [← headD_eq_k a1, a4]; exact h0) (by rw [← getLastD_eq_k a1, a5]; exact h1)
    rw [b0, hl] at hi
    rw [extrapolateAt_getD hT e1 hi, extrapolateAt_getD hT0 e0 hi, ← sum_coeffs, show s.coeffs.length = s.basis.len from hs]
    exact row_close (hcl i) _ _
  have hht : s.basis.knots.headD 0 ≤ s.basis.knots.getLastD 0 := by
    rw [headD_eq_k hb, getLastD_eq_k hb]; exact hb.mono (Nat.zero_le _)
  refine ⟨s', e1, by rw [hbb]; exact a1, w1, by rw [hbb]; exact a3, by rw [hbb]; exact a4, by rw [hbb]; exact a5, fun x h0 h1 => ?_, q, a7, a8,
    fun x h0 h1 => ?_⟩
  · rw [← a6 x h0 h1]; exact key x h0 (h1.trans (le_add_of_nonneg_right hte.le))
  · rw [← a9 x h0 h1]; exact key x (hht.trans h0) h1

/-! ## Shifting over a knot -/

theorem overKnots_clamped {b : Basis K} (hb : b.Clamped) {te : K} (hte : 0 < te) (hL : b.degree + 2 ≤ b.len)
    (hf : b.k (b.degree + 1) < b.k (b.degree + 2)) : (b.overKnots te).Clamped := by
  obtain ⟨hc, hcl⟩ := extend_clamped hb 1 hte
  have hk := overKnots_k hb hte
  have hl := overKnots_len hb hte
  have hd : (b.overKnots te).degree = b.degree := rfl
  have hde : (b.extend 1 te).degree = b.degree := rfl
  have hlen : (b.overKnots te).knots.length = b.len + b.degree + 1 := by
    have h1 := hc.length_eq
    unfold Basis.overKnots
    dsimp only
    rw [List.length_append, List.length_replicate, List.length_drop]
    omega
  have he : (b.extend 1 te).k (b.degree + 2) = b.k (b.degree + 2) := by
    rw [extend_k hb]
    by_cases h : b.degree + 2 < b.len
    · rw [if_pos h]
    · rw [if_neg h, if_pos (by omega), hb.last (b.degree + 2) (by omega)]
  have hmono : ∀ i, (b.overKnots te).k i ≤ (b.overKnots te).k (i + 1) := by
    intro i
    rw [hk, hk]
    by_cases h1 : i + 1 ≤ b.degree
    · rw [if_pos h1, if_pos (by omega)]
    · rw [if_neg h1]
      by_cases h2 : i ≤ b.degree
      · rw [if_pos h2, show i + 1 + 1 = b.degree + 2 by omega, he]; exact hf.le
      · rw [if_neg h2]; exact hc.mono (by omega)
  refine ⟨?_, by rw [hlen, hd]; omega, fun i hi => ?_, ?_, fun i h1 h2 => ?_⟩
  · rw [← List.isChain_iff_pairwise, List.isChain_iff_getElem]
    intro i hi
    have := hmono i
    unfold Basis.k at this
    rwa [List.getD_eq_getElem _ _ (by omega), List.getD_eq_getElem _ _ (by omega)] at this
  · rw [hd] at hi
    rw [hk, hk, if_pos hi, if_pos (by omega)]
  · rw [hd, hk, hk, if_pos le_rfl, if_neg (by omega), he]; exact hf
  · rw [hl] at h1 ⊢
    rw [hk, hk, if_neg (by omega), if_neg (by omega), hc.last (i + 1) (by omega), hc.last (b.len + 1) (by omega)]

/-- The results with and without rounding. -/
theorem shiftOverAt_close (s : BSpline K) (hb : s.basis.Clamped) (hs : s.WF) (hcnt : ∀ τ, s.basis.knots.count τ ≤ s.basis.degree + 1)
    (hlen : s.basis.degree + 1 < s.basis.len) {tol : K} (htol : 0 ≤ tol) :
    ∃ c c0, shiftOverAt tol s = some c ∧ shiftOverAt 0 s = some c0 ∧ c.length = s.basis.len ∧ c0.length = s.basis.len ∧
      ∀ i, i < s.basis.len → |c.getD i 0 - c0.getD i 0| ≤ tol * (s.coeffs.map fun v => |v|).sum := by
  have hte : 0 < s.basis.knots.getLastD 0 - s.basis.k (s.basis.len - 1) := by
    rw [getLastD_eq_k hb]; exact sub_pos.2 (k_pre_last hb hcnt)
  obtain ⟨m, T, T0, -, hT, hT0, hcl⟩ := extrapolateTAt_close hb hcnt hlen hte htol
  refine ⟨_, _, by unfold shiftOverAt; rw [hT, Option.map_some], by unfold shiftOverAt; rw [hT0, Option.map_some], dotT_length _ _ _, dotT_length _ _ _,
    fun i hi => ?_⟩
  rw [dotT_getD _ _ _ _ hi, dotT_getD _ _ _ _ hi, ← sum_coeffs, show s.coeffs.length = s.basis.len from hs]
  refine row_close (fun j => ?_) _ _
  dsimp only
  unfold overT
  split_ifs
  · exact hcl _ _
  · rw [sub_self, abs_zero]; exact htol
  · rw [sub_self, abs_zero]; exact htol
  · rw [sub_self, abs_zero]; exact htol

/-- **C120** Shifting over a knot is defined for every basis with an interior knot. -/
theorem C120_defined (s : BSpline K) (hb : s.basis.Clamped) (hs : s.WF) (hcnt : ∀ τ, s.basis.knots.count τ ≤ s.basis.degree + 1) :
    (∃ c, shiftOver s = some c) ↔ s.basis.degree + 1 < s.basis.len := by
  constructor
  · rintro ⟨c, h⟩
    by_contra hn
    have := hb.lt_len
    rw [C120_single_interval_violated s hb (by omega)] at h
    cases h
  · intro h
    obtain ⟨c, -, hc, -⟩ := shiftOverAt_close s hb hs hcnt h (tol := 1 / 10 ^ 10) (by positivity)
    exact ⟨c, hc⟩

/-- **C120** After shifting over a knot the coefficients, on the knots moved up by one interval, give the old trajectory from the end of its first
interval on; in the interval that is added at the end they continue the polynomial of the last piece; up to `1e-10` times the sum of the absolute
coefficients.

Partial: knots from zero, simple first and last interior knots and at least `degree` intervals are needed, see the violations. -/
theorem C120_close_partial (s : BSpline K) (hb : s.basis.Clamped) (hs : s.WF) (hd : 1 ≤ s.basis.degree)
    (hcnt : ∀ τ, s.basis.knots.count τ ≤ s.basis.degree + 1) (h0 : s.basis.k 0 = 0)
    (hL : 2 * s.basis.degree ≤ s.basis.len) (hL2 : s.basis.degree + 2 ≤ s.basis.len)
    (hf : s.basis.k (s.basis.degree + 1) < s.basis.k (s.basis.degree + 2))
    (hl : s.basis.k (s.basis.len - 2) < s.basis.k (s.basis.len - 1)) :
    ∃ (c : List K) (s' : BSpline K), shiftOver s = some c ∧ s' = ⟨s.basis.overKnots (s.basis.k s.basis.len - s.basis.k (s.basis.len - 1)), c⟩ ∧ s'.WF ∧
    (∀ x, s.basis.k (s.basis.degree + 1) ≤ x → x ≤ s.basis.k s.basis.len →
      |s'.eval x - s.eval x| ≤ 1 / 10 ^ 10 * (s.coeffs.map fun v => |v|).sum) ∧
    ∃ q : K[X], q.natDegree ≤ s.basis.degree ∧
      (∀ x, s.basis.k (s.basis.len - 1) < x → x ≤ s.basis.k s.basis.len → s.eval x = q.eval x) ∧
      ∀ x, s.basis.k s.basis.len ≤ x →
        x ≤ s.basis.k s.basis.len + (s.basis.k s.basis.len - s.basis.k (s.basis.len - 1)) →
        |s'.eval x - q.eval x| ≤ 1 / 10 ^ 10 * (s.coeffs.map fun v => |v|).sum := by
  have hlN := k_pre_last hb hcnt
  have hte : 0 < s.basis.k s.basis.len - s.basis.k (s.basis.len - 1) := sub_pos.2 hlN
  obtain ⟨c, c0, e1, e0, l1, l0, hcl⟩ := shiftOverAt_close s hb hs hcnt (by omega) (tol := 1 / 10 ^ 10) (by positivity)
  obtain ⟨w0, a1, q, a2, a3, a4⟩ := shiftOverAt_values s hb hs hd hcnt h0 hL hL2 hf hl hlN (noTinyAt_zero _ _) c0 e0 _ rfl
  have ol := overKnots_len hb hte
  have oc := overKnots_clamped hb hte hL2 hf
  have oz : (s.basis.overKnots (s.basis.k s.basis.len - s.basis.k (s.basis.len - 1))).k 0 = s.basis.k (s.basis.degree + 1) := by
    rw [overKnots_k hb hte, if_pos (Nat.zero_le _)]
  have oe : (s.basis.overKnots (s.basis.k s.basis.len - s.basis.k (s.basis.len - 1))).k s.basis.len
      = s.basis.k s.basis.len + (s.basis.k s.basis.len - s.basis.k (s.basis.len - 1)) := by
    rw [overKnots_k hb hte, if_neg (by omega), extend_k hb, if_neg (by omega), if_neg (by omega)]
  have w1 : (BSpline.mk (s.basis.overKnots (s.basis.k s.basis.len - s.basis.k (s.basis.len - 1))) c).WF := l1.trans ol.symm
  have key : ∀ x, s.basis.k (s.basis.degree + 1) ≤ x → x ≤ s.basis.k s.basis.len + (s.basis.k s.basis.len - s.basis.k (s.basis.len - 1)) →
      |(BSpline.mk (s.basis.overKnots (s.basis.k s.basis.len - s.basis.k (s.basis.len - 1))) c).eval x
        - (BSpline.mk (s.basis.overKnots (s.basis.k s.basis.len - s.basis.k (s.basis.len - 1))) c0).eval x|
        ≤ 1 / 10 ^ 10 * (s.coeffs.map fun v => |v|).sum := by
    intro x x0 x1
    refine eval_close (s := ⟨s.basis.overKnots (s.basis.k s.basis.len - s.basis.k (s.basis.len - 1)), c0⟩)
      (t := ⟨s.basis.overKnots (s.basis.k s.basis.len - s.basis.k (s.basis.len - 1)), c⟩) oc rfl w0 w1
      (fun i hi => hcl i (lt_of_lt_of_eq hi ol)) (oz.le.trans x0) ?_
    show x ≤ (s.basis.overKnots (s.basis.k s.basis.len - s.basis.k (s.basis.len - 1))).k
      (s.basis.overKnots (s.basis.k s.basis.len - s.basis.k (s.basis.len - 1))).len
    rw [ol, oe]; exact x1
  refine ⟨c, _, e1, rfl, w1, fun x x0 x1 => ?_, q, a2, a3, fun x x0 x1 => ?_⟩
  · rw [← a1 x x0 x1]; exact key x x0 (x1.trans (le_add_of_nonneg_right hte.le))
  · rw [← a4 x x0 x1]; exact key x ((hb.mono (by omega)).trans x0) x1

theorem exBasis_count (τ : ℚ) : exBasis.knots.count τ ≤ exBasis.degree + 1 := by
  by_cases h : τ ∈ exBasis.knots
  · revert τ; decide +kernel
  · exact (List.count_eq_zero_of_not_mem h).trans_le (Nat.zero_le _)

/-- Non-vacuity: a quadratic spline on `[0, 1]` with a knot in the middle. -/
example : ∃ s', extrapolate ⟨exBasis, [1, 2, 4, 3]⟩ (1/2) = some s' :=
  (C119_defined ⟨exBasis, [1, 2, 4, 3]⟩ exBasis_clamped exBasis_count (1/2) (by norm_num)).2 (by decide +kernel)
example := C119_close_partial ⟨exBasis, [1, 2, 4, 3]⟩ exBasis_clamped rfl exBasis_count (by decide +kernel) (1/2) (by norm_num)
example : ∃ c', shiftOver ⟨exBasis, [1, 2, 4, 3]⟩ = some c' :=
  (C120_defined ⟨exBasis, [1, 2, 4, 3]⟩ exBasis_clamped rfl exBasis_count).2 (by decide +kernel)
example := C120_close_partial ⟨exBasis, [1, 2, 4, 3]⟩ exBasis_clamped rfl (by decide +kernel) exBasis_count (by decide +kernel)
  (by decide +kernel) (by decide +kernel) (by decide +kernel) (by decide +kernel)

end Verif.Spline

namespace Verif.Vehicles

open Verif.Spline Polynomial

/-- **C120** For the knots of a vehicle (degree `d`, `n` intervals on `[0, 1]`) shifting always succeeds, and the new coefficients describe, on the
same knots, the trajectory as seen one interval later; the new last interval continues the polynomial of the old last piece; up to `1e-10` times the
sum of the absolute coefficients. -/
theorem C120_vehicle_close (d n : ℕ) (hd : 1 ≤ d) (hn : 2 ≤ n) (hnd : d ≤ n) (c : List ℝ) (hc : c.length = n + d) :
    ∃ c' : List ℝ, shiftOver ⟨vehBasis d n, c⟩ = some c' ∧ c'.length = c.length ∧
    (∀ x : ℝ, 0 ≤ x → x ≤ 1 - 1 / n →
      |(BSpline.mk (vehBasis d n) c').eval x - (BSpline.mk (vehBasis d n) c).eval (x + 1 / n)| ≤ 1 / 10 ^ 10 * (c.map fun v => |v|).sum) ∧
    ∃ q : ℝ[X], q.natDegree ≤ d ∧
      (∀ x : ℝ, 1 - 1 / n < x → x ≤ 1 → (BSpline.mk (vehBasis d n) c).eval x = q.eval x) ∧
      ∀ x : ℝ, 1 - 1 / n ≤ x → x ≤ 1 →
        |(BSpline.mk (vehBasis d n) c').eval x - q.eval (x + 1 / n)| ≤ 1 / 10 ^ 10 * (c.map fun v => |v|).sum := by
  have hn0 : (0 : ℝ) < n := by positivity
  have hb := vehBasis_clamped (d := d) (n := n) (by omega)
  have hlen := vehBasis_len d n
  have hwf : (BSpline.mk (vehBasis d n) c).WF := hc.trans hlen.symm
  obtain ⟨c1, c0, e1, e0, l1, l0, hcl⟩ := shiftOverAt_close ⟨vehBasis d n, c⟩ hb hwf (vehBasis_count_le (by omega))
    (by show d + 1 < (vehBasis d n).len; omega) (tol := 1 / 10 ^ 10) (by positivity)
  obtain ⟨-, a1, q, a2, a3, a4⟩ := shiftVehAt d n hd hn hnd c hc (noTinyAt_zero _ _) c0 e0
  have k0 : (vehBasis d n).k 0 = 0 := by rw [vehBasis_k (by omega)]; simp
  have k1 : (vehBasis d n).k (vehBasis d n).len = 1 := by
    rw [hlen, vehBasis_k (by omega), show min (n + d - d) n = n by omega, div_self hn0.ne']
  have key : ∀ x : ℝ, 0 ≤ x → x ≤ 1 → |(BSpline.mk (vehBasis d n) c1).eval x - (BSpline.mk (vehBasis d n) c0).eval x|
      ≤ 1 / 10 ^ 10 * (c.map fun v => |v|).sum := by
    intro x x0 x1
    exact eval_close (s := ⟨vehBasis d n, c0⟩) (t := ⟨vehBasis d n, c1⟩) hb rfl l0 l1 hcl (k0.le.trans x0) (x1.trans k1.ge)
  have h1n : (0 : ℝ) ≤ 1 - 1 / n := by
    rw [sub_nonneg, div_le_one hn0]; exact_mod_cast (by omega : 1 ≤ n)
  refine ⟨c1, e1, l1.trans (hlen.trans hc.symm), fun x x0 x1 => ?_, q, a2, a3, fun x x0 x1 => ?_⟩
  · rw [← a1 x x0 x1]; exact key x x0 (x1.trans (sub_le_self _ (by positivity)))
  · rw [← a4 x x0 x1]; exact key x (h1n.trans x0) x1

/-- Non-vacuity: a cubic with ten intervals. -/
example : ∃ c' : List ℝ, shiftOver ⟨vehBasis 3 10, List.replicate 13 1⟩ = some c' ∧ c'.length = 13 := by
  obtain ⟨c', h1, h2, -⟩ := C120_vehicle_close 3 10 (by norm_num) (by norm_num) (by norm_num) (List.replicate 13 1) rfl
  exact ⟨c', h1, h2⟩

end Verif.Vehicles
