import Verif.Spline.Affine
import Mathlib.Analysis.Calculus.Deriv.MeanValue
import Mathlib.Analysis.Calculus.Deriv.Pow
import Mathlib.LinearAlgebra.FiniteDimensional.Basic
import Mathlib.Algebra.Polynomial.Roots

/-! # Concrete runs: polynomial splines

Splines without interior knots are polynomials in Bernstein form.  For these the linear systems solved
by the operators of `BSpline` are regular (up to degree 250), so every expression over them evaluates.
This is what the concrete cases next to the theorems about constraints use. -/

set_option linter.unusedSectionVars false

namespace Verif.Spline

open Finset

/-- The basis of degree `p` on `[0,1]` without interior knots. -/
def Bz (p : ℕ) : Basis ℝ := ⟨List.replicate (p + 1) 0 ++ List.replicate (p + 1) 1, p⟩

theorem Bz_k (p i : ℕ) : (Bz p).k i = if i ≤ p then 0 else 1 := by
  have hlast : (Bz p).knots.getLastD 0 = 1 := by
    unfold Bz; rw [List.getLastD_eq_getLast?]; simp [List.getLast?_append, List.getLast?_replicate]
  unfold Basis.k
  rw [hlast]
  unfold Bz
  dsimp only
  rw [List.getD_eq_getElem?_getD, List.getElem?_append, List.length_replicate]
  split_ifs with h h1 h1
  · rw [List.getElem?_replicate, if_pos h]; rfl
  · omega
  · omega
  · rw [List.getElem?_replicate]; split_ifs <;> rfl

theorem Bz_len (p : ℕ) : (Bz p).len = p + 1 := by
  simp [Bz, Basis.len]; omega

theorem Bz_mono (p : ℕ) : Monotone (Bz p).k := by
  intro i j hij
  rw [Bz_k, Bz_k]
  split_ifs <;> first | omega | norm_num

theorem Bz_clamped (p : ℕ) : (Bz p).Clamped where
  sorted := by
    rw [List.pairwise_iff_getElem]
    intro i j hi hj hij
    have := Bz_mono p hij.le
    unfold Basis.k at this
    rwa [List.getD_eq_getElem _ _ hi, List.getD_eq_getElem _ _ hj] at this
  size := by simp [Bz]; omega
  first := by
    intro i hi
    have hi : i ≤ p := hi
    rw [Bz_k, Bz_k, if_pos hi, if_pos (Nat.zero_le _)]
  start := by
    show (Bz p).k p < (Bz p).k (p + 1)
    rw [Bz_k, Bz_k, if_pos le_rfl, if_neg (by omega)]; norm_num
  ends := by
    intro i hi hi'
    rw [Bz_len] at *
    rw [Bz_k, Bz_k, if_neg (by omega), if_neg (by omega)]

theorem Bz_first (p : ℕ) : (Bz p).knots.headD 0 = 0 := by
  rw [headD_eq_k (Bz_clamped p), Bz_k, if_pos (Nat.zero_le _)]

theorem Bz_last (p : ℕ) : (Bz p).knots.getLastD 0 = 1 := by
  rw [getLastD_eq_k (Bz_clamped p), Bz_len, Bz_k, if_neg (by omega)]

theorem Bz_cox {p : ℕ} {x : ℝ} (h0 : 0 < x) (h1 : x ≤ 1) (d i : ℕ) :
    cox (Bz p).k p x d i =
      if p ≤ i + d ∧ i ≤ p then (d.choose (i + d - p) : ℝ) * x ^ (i + d - p) * (1 - x) ^ (p - i) else 0 := by
  induction d generalizing i with
  | zero =>
    rw [cox, ind_of_lt (by rw [Bz_k, if_pos (Nat.zero_le _)]; exact h0)]
    rcases Nat.lt_trichotomy i p with h | h | h
    · rw [if_neg (show ¬ (p ≤ i + 0 ∧ i ≤ p) by omega), if_neg]
      rw [Bz_k p (i + 1), if_pos (show i + 1 ≤ p by omega)]
      intro hh; linarith [hh.2]
    · subst h
      rw [if_pos (show i ≤ i + 0 ∧ i ≤ i by omega), if_pos]
      · simp
      · rw [Bz_k, Bz_k, if_pos le_rfl, if_neg (by omega)]; exact ⟨h0, h1⟩
    · rw [if_neg (show ¬ (p ≤ i + 0 ∧ i ≤ p) by omega), if_neg]
      rw [Bz_k p i, if_neg (show ¬ i ≤ p by omega)]
      intro hh; linarith [hh.1]
  | succ d ih =>
    rw [cox_succ, ih, ih]
    by_cases hc : p ≤ i + (d + 1) ∧ i ≤ p
    · rw [if_pos hc]
      have k1 : (Bz p).k i = 0 := by rw [Bz_k, if_pos hc.2]
      have k2 : (Bz p).k (i + (d + 1) + 1) = 1 := by rw [Bz_k, if_neg (by omega)]
      rw [k1, k2]
      by_cases hA : i + (d + 1) ≤ p
      · -- leftmost entry
        have e : i + (d + 1) = p := by omega
        have k3 : (Bz p).k (i + 1) = 0 := by rw [Bz_k, if_pos (by omega)]
        rw [k3, if_neg (show ¬ (p ≤ i + d ∧ i ≤ p) by omega), if_pos (show p ≤ i + 1 + d ∧ i + 1 ≤ p by omega)]
        have e1 : i + 1 + d - p = 0 := by omega
        have e2 : i + (d + 1) - p = 0 := by omega
        have e3 : p - i = p - (i + 1) + 1 := by omega
        rw [e1, e2, e3, pow_succ]
        simp
        ring
      · have k4 : (Bz p).k (i + (d + 1)) = 1 := by rw [Bz_k, if_neg hA]
        rw [k4, if_pos (show p ≤ i + d ∧ i ≤ p by omega)]
        by_cases hB : i + 1 ≤ p
        · have k3 : (Bz p).k (i + 1) = 0 := by rw [Bz_k, if_pos (by omega)]
          rw [k3, if_pos (show p ≤ i + 1 + d ∧ i + 1 ≤ p by omega)]
          obtain ⟨m, hm⟩ : ∃ m, i + d - p = m := ⟨_, rfl⟩
          have e1 : i + 1 + d - p = m + 1 := by omega
          have e2 : i + (d + 1) - p = m + 1 := by omega
          have e3 : p - i = p - (i + 1) + 1 := by omega
          rw [e1, e2, hm, e3, Nat.choose_succ_succ]
          push_cast
          ring
        · have e : i = p := by omega
          subst e
          rw [if_neg (show ¬ (i ≤ i + 1 + d ∧ i + 1 ≤ i) by omega)]
          have e1 : i + d - i = d := by omega
          have e2 : i + (d + 1) - i = d + 1 := by omega
          rw [e1, e2]
          simp
          ring
    · rw [if_neg hc]
      rcases not_and_or.1 hc with h | h
      · rw [if_neg (show ¬ (p ≤ i + d ∧ i ≤ p) by omega), if_neg (show ¬ (p ≤ i + 1 + d ∧ i + 1 ≤ p) by omega)]; simp
      · rw [if_neg (show ¬ (p ≤ i + d ∧ i ≤ p) by omega), if_neg (show ¬ (p ≤ i + 1 + d ∧ i + 1 ≤ p) by omega)]; simp

/-- Bernstein polynomials. -/
noncomputable def bern (p i : ℕ) (x : ℝ) : ℝ := (p.choose i : ℝ) * x ^ i * (1 - x) ^ (p - i)

theorem Bz_fn {p i : ℕ} (hi : i ≤ p) {x : ℝ} (h0 : 0 ≤ x) (h1 : x ≤ 1) : (Bz p).fn i x = bern p i x := by
  rcases h0.lt_or_eq with h | h
  · show cox (Bz p).k p x p i = _
    rw [Bz_cox h h1, if_pos (by omega), Nat.add_sub_cancel]
    rfl
  · subst h
    show cox (Bz p).k p 0 p i = _
    have := cox_first (k := (Bz p).k) (p := p) (Bz_clamped p).first (Bz_mono p) (Bz_clamped p).start p i le_rfl
    rw [show (Bz p).k 0 = 0 by rw [Bz_k, if_pos (Nat.zero_le _)]] at this
    rw [this]
    unfold bern
    by_cases hz : i = 0
    · subst hz; simp
    · rw [if_neg (by omega)]; simp [hz]

theorem Bz_eval {p : ℕ} {c : List ℝ} (hc : c.length = p + 1) {x : ℝ} (h0 : 0 ≤ x) (h1 : x ≤ 1) :
    (⟨Bz p, c⟩ : BSpline ℝ).eval x = ∑ i ∈ range (p + 1), c.getD i 0 * bern p i x := by
  rw [BSpline.eval_eq (s := ⟨Bz p, c⟩) (by show c.length = (Bz p).len; rw [hc, Bz_len])]
  show ∑ i ∈ range (Bz p).len, c.getD i 0 * (Bz p).fn i x = _
  rw [Bz_len]
  refine Finset.sum_congr rfl fun i hi => ?_
  rw [Bz_fn (by have := mem_range.1 hi; omega) h0 h1]

/-! ## Where the Bernstein polynomials are largest -/

theorem bern_hasDerivAt (p i : ℕ) (x : ℝ) : HasDerivAt (bern p i)
    ((p.choose i : ℝ) * ((i : ℝ) * x ^ (i - 1) * (1 - x) ^ (p - i)
      - x ^ i * (((p - i : ℕ) : ℝ) * (1 - x) ^ (p - i - 1)))) x := by
  have h1 := (hasDerivAt_id x).pow i
  have h2 := ((hasDerivAt_id x).const_sub 1).pow (p - i)
  have h3 := (h1.mul h2).const_mul (p.choose i : ℝ)
  have hf : bern p i = fun y => (p.choose i : ℝ) * (y ^ i * (1 - y) ^ (p - i)) := by
    funext y; unfold bern; ring
  rw [hf]
  refine h3.congr_deriv ?_
  simp only [id, Pi.pow_apply]
  ring

theorem bern_deriv_mul {p i : ℕ} (hi : i ≤ p) (x : ℝ) :
    (p.choose i : ℝ) * ((i : ℝ) * x ^ (i - 1) * (1 - x) ^ (p - i)
      - x ^ i * (((p - i : ℕ) : ℝ) * (1 - x) ^ (p - i - 1))) * (x * (1 - x)) = bern p i x * (i - p * x) := by
  unfold bern
  have e1 : (i : ℝ) * x ^ (i - 1) * x = i * x ^ i := by
    cases i with
    | zero => simp
    | succ i => rw [Nat.add_sub_cancel, mul_assoc, ← pow_succ]
  have e2 : ((p - i : ℕ) : ℝ) * (1 - x) ^ (p - i - 1) * (1 - x) = ((p - i : ℕ) : ℝ) * (1 - x) ^ (p - i) := by
    cases h : p - i with
    | zero => simp
    | succ m => rw [Nat.add_sub_cancel, mul_assoc, ← pow_succ]
  calc _ = (p.choose i : ℝ) * ((i : ℝ) * x ^ (i - 1) * x * (1 - x) ^ (p - i) * (1 - x)
      - x ^ i * x * (((p - i : ℕ) : ℝ) * (1 - x) ^ (p - i - 1) * (1 - x))) := by ring
    _ = _ := by rw [e1, e2, Nat.cast_sub hi]; ring

theorem bern_pos {p i : ℕ} (hi : i ≤ p) {x : ℝ} (h0 : 0 < x) (h1 : x < 1) : 0 < bern p i x := by
  have : 0 < p.choose i := Nat.choose_pos hi
  have h2 : 0 < 1 - x := by linarith
  unfold bern
  positivity

theorem bern_strictMonoOn {p i : ℕ} (hp : 1 ≤ p) (hi : i ≤ p) :
    StrictMonoOn (bern p i) (Set.Icc 0 ((i : ℝ) / p)) := by
  have hp' : (0 : ℝ) < p := by positivity
  have hle : (i : ℝ) / p ≤ 1 := (div_le_one hp').2 (by exact_mod_cast hi)
  refine strictMonoOn_of_deriv_pos (convex_Icc _ _)
    (fun x _ => (bern_hasDerivAt p i x).continuousAt.continuousWithinAt) fun x hx => ?_
  rw [interior_Icc] at hx
  have hx1 : x < 1 := hx.2.trans_le hle
  rw [(bern_hasDerivAt p i x).deriv]
  have hm := bern_deriv_mul hi x
  have hpos := bern_pos hi hx.1 hx1
  have h3 : 0 < (i : ℝ) - p * x := by have := (lt_div_iff₀ hp').1 hx.2; linarith
  have h4 : 0 < x * (1 - x) := mul_pos hx.1 (by linarith)
  exact pos_of_mul_pos_left (hm ▸ mul_pos hpos h3) h4.le

theorem bern_strictAntiOn {p i : ℕ} (hp : 1 ≤ p) (hi : i ≤ p) :
    StrictAntiOn (bern p i) (Set.Icc ((i : ℝ) / p) 1) := by
  have hp' : (0 : ℝ) < p := by positivity
  have hge : 0 ≤ (i : ℝ) / p := by positivity
  refine strictAntiOn_of_deriv_neg (convex_Icc _ _)
    (fun x _ => (bern_hasDerivAt p i x).continuousAt.continuousWithinAt) fun x hx => ?_
  rw [interior_Icc] at hx
  have hx0 : 0 < x := hge.trans_lt hx.1
  rw [(bern_hasDerivAt p i x).deriv]
  have hm := bern_deriv_mul hi x
  have hpos := bern_pos hi hx0 hx.2
  have h3 : (i : ℝ) - p * x < 0 := by have := (div_lt_iff₀ hp').1 hx.1; linarith
  have h4 : 0 < x * (1 - x) := mul_pos hx0 (by linarith [hx.2])
  have h5 := mul_neg_of_pos_of_neg hpos h3
  rw [← hm] at h5
  exact neg_of_mul_neg_left h5 h4.le

theorem Bz_grid (p : ℕ) : (Bz p).grid = (List.range 501).map fun j : ℕ => (j : ℝ) / 500 := by
  unfold Basis.grid
  rw [Bz_first, Bz_last]
  refine List.map_congr_left fun j _ => ?_
  ring

/-- The grid point where basis function `i` is largest. -/
noncomputable def xm (p i : ℕ) : ℝ := argmaxOn ((Bz p).fn i) (Bz p).grid

theorem xm_grid (p i : ℕ) : ∃ j : ℕ, j ≤ 500 ∧ xm p i = (j : ℝ) / 500 := by
  have := argmaxOn_mem ((Bz p).fn i) (Bz p).grid (by intro h; simp [Basis.grid] at h)
  rw [Bz_grid] at this
  obtain ⟨j, hj, h⟩ := List.mem_map.1 this
  have hj' := List.mem_range.1 hj
  refine ⟨j, by omega, ?_⟩
  rw [xm, Bz_grid]; exact h.symm

theorem xm_max {p i : ℕ} (hi : i ≤ p) (j : ℕ) (hj : j ≤ 500) : bern p i ((j : ℝ) / 500) ≤ bern p i (xm p i) := by
  have hm : (j : ℝ) / 500 ∈ (Bz p).grid := by
    rw [Bz_grid]; exact List.mem_map.2 ⟨j, List.mem_range.2 (by omega), rfl⟩
  have := argmaxOn_ge ((Bz p).fn i) (Bz p).grid hm
  obtain ⟨l, hl, e⟩ := xm_grid p i
  have b : ∀ m : ℕ, m ≤ 500 → 0 ≤ (m : ℝ) / 500 ∧ (m : ℝ) / 500 ≤ 1 := by
    intro m hm
    have : (m : ℝ) ≤ 500 := by exact_mod_cast hm
    exact ⟨div_nonneg (Nat.cast_nonneg _) (by norm_num), by linarith⟩
  rw [Bz_fn hi (b j hj).1 (b j hj).2] at this
  rw [show argmaxOn ((Bz p).fn i) (Bz p).grid = xm p i from rfl] at this
  rwa [Bz_fn hi (e ▸ (b l hl).1) (e ▸ (b l hl).2)] at this

theorem xm_near {p i : ℕ} (hp : 1 ≤ p) (hi : i ≤ p) :
    (i : ℝ) / p - 1 / 500 < xm p i ∧ xm p i < (i : ℝ) / p + 1 / 500 := by
  have hp' : (0 : ℝ) < p := by positivity
  have hge : 0 ≤ (i : ℝ) / p := by positivity
  have hle : (i : ℝ) / p ≤ 1 := (div_le_one hp').2 (by exact_mod_cast hi)
  obtain ⟨l, hl, e⟩ := xm_grid p i
  have hl0 : (0 : ℝ) ≤ (l : ℝ) := Nat.cast_nonneg l
  constructor
  · by_contra hcon
    push Not at hcon
    have hlt : l + 1 ≤ 500 := by
      rw [e] at hcon
      have : (l : ℝ) < 500 := by linarith
      have : l < 500 := by exact_mod_cast this
      omega
    have hm := xm_max hi (l + 1) hlt
    refine absurd hm (not_le.2 ?_)
    rw [e] at hcon ⊢
    refine bern_strictMonoOn hp hi ⟨div_nonneg hl0 (by norm_num), by linarith⟩
      ⟨div_nonneg (Nat.cast_nonneg _) (by norm_num), ?_⟩ ?_
    · push_cast; linarith
    · push_cast; linarith
  · by_contra hcon
    push Not at hcon
    have hlt : 1 ≤ l := by
      rw [e] at hcon
      have : (0 : ℝ) < l := by linarith
      exact_mod_cast this
    obtain ⟨q, rfl⟩ : ∃ q, l = q + 1 := ⟨l - 1, by omega⟩
    have hm := xm_max hi q (by omega)
    refine absurd hm (not_le.2 ?_)
    rw [e] at hcon ⊢
    have h5 : ((q + 1 : ℕ) : ℝ) ≤ 500 := by exact_mod_cast hl
    push_cast at hcon h5 ⊢
    refine bern_strictAntiOn hp hi ⟨by linarith, by linarith⟩ ⟨by linarith, by linarith⟩ (by linarith)

theorem xm_last {p : ℕ} (hp : 1 ≤ p) : xm p p = 1 := by
  have hp' : (p : ℝ) ≠ 0 := by positivity
  obtain ⟨l, hl, e⟩ := xm_grid p p
  have := (xm_near hp le_rfl).1
  rw [div_self hp', e] at this
  have : (499 : ℝ) < l := by linarith
  have : 499 < l := by exact_mod_cast this
  have : l = 500 := by omega
  rw [e, this]; norm_num

theorem xm_lt {p : ℕ} (hp : p ≤ 250) {i j : ℕ} (hij : i < j) (hj : j ≤ p) : xm p i < xm p j := by
  have hp1 : 1 ≤ p := by omega
  have hp' : (0 : ℝ) < p := by positivity
  have h1 := (xm_near hp1 (show i ≤ p by omega)).2
  have h2 := (xm_near hp1 hj).1
  have h3 : (i : ℝ) / p + 1 / 250 ≤ (j : ℝ) / p := by
    have : (i : ℝ) + 1 ≤ j := by exact_mod_cast hij
    have h250 : (p : ℝ) ≤ 250 := by exact_mod_cast hp
    rw [div_add' _ _ _ hp'.ne', div_le_div_iff_of_pos_right hp']
    linarith
  linarith

/-- The collocation matrix is regular. -/
theorem Bz_regular {p : ℕ} (hp : p ≤ 250) (c : ℕ → ℝ)
    (h : ∀ x ∈ (Bz p).xmax, ∑ i ∈ range (Bz p).len, c i * (Bz p).fn i x = 0) (i : ℕ) (hi : i < (Bz p).len) :
    c i = 0 := by
  have hx : ∀ r, r ≤ p → ∑ i ∈ range (p + 1), c i * bern p i (xm p r) = 0 := by
    intro r hr
    have := h (xm p r) (List.mem_map.2 ⟨r, by rw [Bz_len]; exact List.mem_range.2 (by omega), rfl⟩)
    rw [Bz_len] at this
    rw [← this]
    refine Finset.sum_congr rfl fun i hi => ?_
    obtain ⟨l, hl, e⟩ := xm_grid p r
    have : (l : ℝ) ≤ 500 := by exact_mod_cast hl
    rw [Bz_fn (by have := mem_range.1 hi; omega) (by rw [e]; exact div_nonneg (Nat.cast_nonneg _) (by norm_num)) (by rw [e]; linarith)]
  rw [Bz_len] at hi
  by_cases hp0 : p = 0
  · subst hp0
    have := hx 0 le_rfl
    simp [bern] at this
    obtain rfl : i = 0 := by omega
    exact this
  have hp1 : 1 ≤ p := by omega
  have hlast : c p = 0 := by
    have := hx p le_rfl
    rw [xm_last hp1, Finset.sum_range_succ, Finset.sum_eq_zero] at this
    · simpa [bern] using this
    · intro j hj
      have : p - j ≠ 0 := by have := mem_range.1 hj; omega
      simp [bern, this]
  by_cases hip : i = p
  · rw [hip, hlast]
  -- the remaining coefficients are those of a polynomial with too many roots
  let P : Polynomial ℝ := ∑ j ∈ range p, Polynomial.C (c j * (p.choose j : ℝ)) * Polynomial.X ^ j
  have hlt1 : ∀ r, r < p → xm p r < 1 := fun r hr => xm_last hp1 ▸ xm_lt hp hr le_rfl
  have hroot : ∀ r : Fin p, P.eval (xm p r / (1 - xm p r)) = 0 := by
    intro r
    have h1 := hlt1 r r.2
    have hne : 1 - xm p r ≠ 0 := by linarith
    have := hx r r.2.le
    rw [Finset.sum_range_succ, hlast, zero_mul, add_zero] at this
    have e : P.eval (xm p r / (1 - xm p r)) * (1 - xm p r) ^ p
        = ∑ j ∈ range p, c j * bern p j (xm p r) := by
      simp only [P, Polynomial.eval_finsetSum, Polynomial.eval_mul, Polynomial.eval_C, Polynomial.eval_pow,
        Polynomial.eval_X, Finset.sum_mul]
      refine Finset.sum_congr rfl fun j hj => ?_
      have hj := mem_range.1 hj
      have : (1 - xm p r) ^ p = (1 - xm p r) ^ j * (1 - xm p r) ^ (p - j) := by
        rw [← pow_add]; congr 1; omega
      rw [this, div_pow, bern]
      have : (1 - xm p r) ^ j ≠ 0 := pow_ne_zero _ hne
      field_simp
    rw [this] at e
    exact (mul_eq_zero.1 e).resolve_right (pow_ne_zero _ hne)
  have hdeg : P.natDegree < Fintype.card (Fin p) := by
    rw [Fintype.card_fin]
    refine lt_of_le_of_lt (Polynomial.natDegree_sum_le_of_forall_le (n := p - 1) _ _ fun j hj => ?_) (by omega)
    refine (Polynomial.natDegree_C_mul_X_pow_le _ _).trans ?_
    have := mem_range.1 hj
    omega
  have hinj : Function.Injective fun r : Fin p => xm p r / (1 - xm p r) := by
    intro a b hab
    have ha := hlt1 a a.2
    have hb := hlt1 b b.2
    have ha' : 1 - xm p a ≠ 0 := by linarith
    have hb' : 1 - xm p b ≠ 0 := by linarith
    have : xm p a = xm p b := by
      have hab : xm p a / (1 - xm p a) = xm p b / (1 - xm p b) := hab
      rw [div_eq_div_iff ha' hb'] at hab
      linarith
    by_contra hne
    rcases lt_or_gt_of_ne (fun h => hne (Fin.ext h) : (a : ℕ) ≠ b) with hl | hl
    · exact absurd this (xm_lt hp hl b.2.le).ne
    · exact absurd this (xm_lt hp hl a.2.le).ne'
  have hP := Polynomial.eq_zero_of_natDegree_lt_card_of_eval_eq_zero P hinj hroot hdeg
  have hc : P.coeff i = c i * (p.choose i : ℝ) := by
    simp only [P, Polynomial.finsetSum_coeff, Polynomial.coeff_C_mul_X_pow]
    rw [Finset.sum_eq_single i]
    · rw [if_pos rfl]
    · intro j _ hj; rw [if_neg (Ne.symm hj)]
    · intro hn; exact absurd (mem_range.2 (by omega)) hn
  rw [hP, Polynomial.coeff_zero] at hc
  have : (p.choose i : ℝ) ≠ 0 := by
    have := Nat.choose_pos (show i ≤ p by omega)
    positivity
  exact (mul_eq_zero.1 hc.symm).resolve_right this

/-- Every linear system with the collocation matrix can be solved. -/
theorem Bz_solves {p : ℕ} (hp : p ≤ 250) (g : ℕ → ℝ → ℝ) (nc : ℕ) : ∃ T, Solves (Bz p) g nc T := by
  let A : (Fin (p + 1) → ℝ) →ₗ[ℝ] (Fin (p + 1) → ℝ) :=
    { toFun := fun c r => ∑ i : Fin (p + 1), c i * (Bz p).fn i (xm p r)
      map_add' := by intro a b; funext r; simp [add_mul, Finset.sum_add_distrib]
      map_smul' := by intro a b; funext r; simp [mul_assoc, Finset.mul_sum] }
  have hinj : Function.Injective A := by
    rw [← LinearMap.ker_eq_bot, LinearMap.ker_eq_bot']
    intro c hc
    funext i
    have := Bz_regular hp (fun j => if h : j < p + 1 then c ⟨j, h⟩ else 0) (fun x hx => by
      obtain ⟨r, hr, rfl⟩ := List.mem_map.1 hx
      rw [Bz_len] at hr ⊢
      have hr := List.mem_range.1 hr
      have := congrFun hc ⟨r, hr⟩
      rw [← Fin.sum_univ_eq_sum_range (fun j => (if h : j < p + 1 then c ⟨j, h⟩ else 0) * (Bz p).fn j _)]
      refine Eq.trans (Finset.sum_congr rfl fun j _ => ?_) this
      rw [dif_pos j.2]; rfl) i (by rw [Bz_len]; exact i.2)
    rwa [dif_pos i.2] at this
  have hsurj := LinearMap.injective_iff_surjective.1 hinj
  choose sol hsol using fun j => hsurj (fun r : Fin (p + 1) => g j (xm p r))
  refine ⟨fun i j => if h : i < p + 1 then sol j ⟨i, h⟩ else 0, fun c hc i hi => Bz_regular hp c hc i hi,
    fun x hx j _ => ?_⟩
  obtain ⟨r, hr, rfl⟩ := List.mem_map.1 hx
  rw [Bz_len] at hr ⊢
  have hr := List.mem_range.1 hr
  have := congrFun (hsol j) ⟨r, hr⟩
  rw [← Fin.sum_univ_eq_sum_range (fun i => (Bz p).fn i _ * (if h : i < p + 1 then sol j ⟨i, h⟩ else 0))]
  refine Eq.trans (Finset.sum_congr rfl fun i _ => ?_) this
  rw [dif_pos i.2, mul_comm]; rfl

theorem Bz_count (p : ℕ) (t : ℝ) : (Bz p).knots.count t = if t = 0 ∨ t = 1 then p + 1 else 0 := by
  unfold Bz
  rw [List.count_append, List.count_replicate, List.count_replicate]
  by_cases e0 : t = 0
  · subst e0; simp
  · by_cases e1 : t = 1
    · subst e1; simp
    · simp [e0, e1, Ne.symm e0, Ne.symm e1]

theorem Bz_mem (p : ℕ) (t : ℝ) : t ∈ (Bz p).knots ↔ t = 0 ∨ t = 1 := by
  simp [Bz]

theorem Bz_combine (a b d : ℕ) (ha : a ≤ d) (hb : b ≤ d) : (Bz a).combine (Bz b) d = Bz d := by
  refine combine_eq _ _ _ _ ha hb rfl (Bz_clamped d).sorted fun t => ?_
  unfold neededMult
  rw [Bz_count, Bz_count, Bz_count]
  simp only [Bz_mem]
  show max (if t = 0 ∨ t = 1 then _ + (d - a) else 0) (if t = 0 ∨ t = 1 then _ + (d - b) else 0) = _
  split_ifs
  · omega
  · rfl

theorem Bz_add (a b : ℕ) : (Bz a).add (Bz b) = Bz (max a b) :=
  Bz_combine a b _ (le_max_left _ _) (le_max_right _ _)

theorem Bz_mul (a b : ℕ) : (Bz a).mul (Bz b) = Bz (a + b) :=
  Bz_combine a b _ (Nat.le_add_right _ _) (Nat.le_add_left _ _)

/-! ## Expressions over polynomial splines -/

/-- Degree of the spline an expression evaluates to; `none` for a number. -/
def Expr.bdeg : Expr ℝ → Option ℕ
  | .num _ => none
  | .spl s => some s.basis.degree
  | .neg e => e.bdeg
  | .add e f => match e.bdeg, f.bdeg with
    | none, o => o
    | o, none => o
    | some a, some b => some (max a b)
  | .mul e f => match e.bdeg, f.bdeg with
    | none, o => o
    | o, none => o
    | some a, some b => some (a + b)

/-- All splines in the expression are polynomials in Bernstein form. -/
def Expr.AllBz : Expr ℝ → Prop
  | .num _ => True
  | .spl s => s.basis = Bz s.basis.degree ∧ s.coeffs.length = s.basis.degree + 1
  | .neg e => e.AllBz
  | .add e f => e.AllBz ∧ f.AllBz
  | .mul e f => e.AllBz ∧ f.AllBz

theorem Bz_on {p : ℕ} {c : List ℝ} (hc : c.length = p + 1) : (Expr.spl (⟨Bz p, c⟩ : BSpline ℝ)).On 0 1 :=
  ⟨Bz_clamped p, by show c.length = (Bz p).len; rw [hc, Bz_len], Bz_first p, Bz_last p⟩

theorem Expr.AllBz.on {e : Expr ℝ} (h : e.AllBz) : e.On 0 1 := by
  induction e with
  | num c => trivial
  | spl s =>
    have h1 := h.1
    have h2 := h.2
    refine ⟨h1 ▸ Bz_clamped _, ?_, ?_, ?_⟩
    · show s.coeffs.length = s.basis.len; rw [h2, h1, Bz_len]; rfl
    · rw [h1, Bz_first]
    · rw [h1, Bz_last]
  | neg e ih => exact ih h
  | add e f ih1 ih2 => exact ⟨ih1 h.1, ih2 h.2⟩
  | mul e f ih1 ih2 => exact ⟨ih1 h.1, ih2 h.2⟩

/-- The Python value of an expression over polynomial splines exists. -/
theorem Expr.AllBz.runs {e : Expr ℝ} (h : e.AllBz) :
    (e.bdeg = none → ∃ c, e.Runs (.num c)) ∧
    (∀ D, e.bdeg = some D → D ≤ 250 → ∃ s, e.Runs (.spl s) ∧ s.basis = Bz D) := by
  induction e with
  | num c => exact ⟨fun _ => ⟨c, .num c⟩, fun D hD => by simp [Expr.bdeg] at hD⟩
  | spl s =>
    refine ⟨fun hn => by simp [Expr.bdeg] at hn, fun D hD _ => ⟨s, .spl s, ?_⟩⟩
    simp only [Expr.bdeg, Option.some.injEq] at hD
    rw [← hD]; exact h.1
  | neg e ih =>
    obtain ⟨i1, i2⟩ := ih h
    refine ⟨fun hn => ?_, fun D hD hl => ?_⟩
    · obtain ⟨c, hc⟩ := i1 hn; exact ⟨_, .negNum hc⟩
    · obtain ⟨s, hs, hb⟩ := i2 D hD hl; exact ⟨_, .negSpl hs, hb⟩
  | add e f ih1 ih2 =>
    obtain ⟨i1, i2⟩ := ih1 h.1
    obtain ⟨j1, j2⟩ := ih2 h.2
    cases he : e.bdeg with
    | none =>
      obtain ⟨c, hc⟩ := i1 he
      cases hf : f.bdeg with
      | none =>
        obtain ⟨d, hd⟩ := j1 hf
        exact ⟨fun _ => ⟨_, .addNN hc hd⟩, fun D hD => by simp [Expr.bdeg, he, hf] at hD⟩
      | some b =>
        refine ⟨fun hn => by simp [Expr.bdeg, he, hf] at hn, fun D hD hl => ?_⟩
        simp only [Expr.bdeg, he, hf, Option.some.injEq] at hD
        subst hD
        obtain ⟨s, hs, hb⟩ := j2 b hf hl
        exact ⟨_, .addNS hc hs, hb⟩
    | some a =>
      cases hf : f.bdeg with
      | none =>
        obtain ⟨d, hd⟩ := j1 hf
        refine ⟨fun hn => by simp [Expr.bdeg, he, hf] at hn, fun D hD hl => ?_⟩
        simp only [Expr.bdeg, he, hf, Option.some.injEq] at hD
        subst hD
        obtain ⟨s, hs, hb⟩ := i2 a he hl
        exact ⟨_, .addSN hs hd, hb⟩
      | some b =>
        refine ⟨fun hn => by simp [Expr.bdeg, he, hf] at hn, fun D hD hl => ?_⟩
        simp only [Expr.bdeg, he, hf, Option.some.injEq] at hD
        subst hD
        obtain ⟨s, hs, hb⟩ := i2 a he (by omega)
        obtain ⟨s', hs', hb'⟩ := j2 b hf (by omega)
        have hbas : s.basis.add s'.basis = Bz (max a b) := by rw [hb, hb', Bz_add]
        obtain ⟨T1, hT1⟩ := Bz_solves hl s.basis.fn s.basis.len
        obtain ⟨T2, hT2⟩ := Bz_solves hl s'.basis.fn s'.basis.len
        exact ⟨_, .addSS hs hs' (hbas ▸ hT1) (hbas ▸ hT2), hbas⟩
  | mul e f ih1 ih2 =>
    obtain ⟨i1, i2⟩ := ih1 h.1
    obtain ⟨j1, j2⟩ := ih2 h.2
    cases he : e.bdeg with
    | none =>
      obtain ⟨c, hc⟩ := i1 he
      cases hf : f.bdeg with
      | none =>
        obtain ⟨d, hd⟩ := j1 hf
        exact ⟨fun _ => ⟨_, .mulNN hc hd⟩, fun D hD => by simp [Expr.bdeg, he, hf] at hD⟩
      | some b =>
        refine ⟨fun hn => by simp [Expr.bdeg, he, hf] at hn, fun D hD hl => ?_⟩
        simp only [Expr.bdeg, he, hf, Option.some.injEq] at hD
        subst hD
        obtain ⟨s, hs, hb⟩ := j2 b hf hl
        exact ⟨_, .mulNS hc hs, hb⟩
    | some a =>
      cases hf : f.bdeg with
      | none =>
        obtain ⟨d, hd⟩ := j1 hf
        refine ⟨fun hn => by simp [Expr.bdeg, he, hf] at hn, fun D hD hl => ?_⟩
        simp only [Expr.bdeg, he, hf, Option.some.injEq] at hD
        subst hD
        obtain ⟨s, hs, hb⟩ := i2 a he hl
        exact ⟨_, .mulSN hs hd, hb⟩
      | some b =>
        refine ⟨fun hn => by simp [Expr.bdeg, he, hf] at hn, fun D hD hl => ?_⟩
        simp only [Expr.bdeg, he, hf, Option.some.injEq] at hD
        subst hD
        obtain ⟨s, hs, hb⟩ := i2 a he (by omega)
        obtain ⟨s', hs', hb'⟩ := j2 b hf (by omega)
        have hbas : s.basis.mul s'.basis = Bz (a + b) := by rw [hb, hb', Bz_mul]
        obtain ⟨T, hT⟩ := Bz_solves hl (pairFn s.basis s'.basis) (s.basis.pairs s'.basis).length
        exact ⟨_, .mulSS hs hs' (hbas ▸ hT), hbas⟩

/-- To show that a constraint over polynomial splines is satisfied it suffices to write its value in
Bernstein form with coefficients below the bound. -/
theorem Expr.AllBz.imposed {e : Expr ℝ} (h : e.AllBz) {D : ℕ} (hd : e.bdeg = some D) (hD : D ≤ 250)
    (c : List ℝ) (hv : ∀ x, 0 ≤ x → x ≤ 1 → e.val x = ∑ i ∈ range (D + 1), c.getD i 0 * bern D i x)
    {ub : ℝ} (hub : ∀ i, i ≤ D → c.getD i 0 ≤ ub) : e.Imposed ub := by
  obtain ⟨s, hs, hb⟩ := (h.runs).2 D hd hD
  refine ⟨_, hs, ?_⟩
  obtain ⟨g1, g2, g3, g4, g5⟩ := Expr.runs_means hs h.on
  have hlen : s.coeffs.length = D + 1 := by
    have : s.coeffs.length = s.basis.len := g2
    rw [this, hb, Bz_len]
  have key : ∀ i, i < (Bz D).len → s.coeffs.getD i 0 - c.getD i 0 = 0 := by
    refine fun i hi => Bz_regular hD (fun i => s.coeffs.getD i 0 - c.getD i 0) (fun x hx => ?_) i hi
    have hx' := xmax_mem (Bz_clamped D) hx
    rw [Bz_len, Bz_k, Bz_k, if_pos (Nat.zero_le _), if_neg (by omega)] at hx'
    have e1 := g5 x hx'.1 hx'.2
    rw [hv x hx'.1 hx'.2, BSpline.eval_eq g2, hb, Bz_len] at e1
    rw [Bz_len]
    simp only [sub_mul, Finset.sum_sub_distrib]
    rw [e1, sub_eq_zero]
    refine Finset.sum_congr rfl fun i hi => ?_
    rw [Bz_fn (by have := mem_range.1 hi; omega) hx'.1 hx'.2]
  intro a ha
  obtain ⟨i, hi, rfl⟩ := List.getElem_of_mem ha
  have := key i (by rw [Bz_len]; omega)
  rw [List.getD_eq_getElem _ _ hi] at this
  have := hub i (by omega)
  linarith

/-- Derivative of a polynomial in Bernstein form. -/
theorem Bz_derivative {p : ℕ} {c : List ℝ} (hc : c.length = p + 2) :
    (⟨Bz (p + 1), c⟩ : BSpline ℝ).derivative 1
      = ⟨Bz p, (List.range (p + 1)).map fun j => ((p + 1 : ℕ) : ℝ) * (c.getD (j + 1) 0 - c.getD j 0)⟩ := by
  unfold BSpline.derivative
  rw [if_neg one_ne_zero]
  have hkn2 : ((Bz (p + 1)).knots.drop 1).dropLast = (Bz p).knots := by
    have : (Bz (p + 1)).knots.drop 1 = (Bz p).knots ++ [1] := by
      have e : (1 : ℝ) :: List.replicate p 1 = List.replicate p 1 ++ [1] := by
        rw [← List.replicate_succ, List.replicate_succ']
      simp only [Bz, List.replicate_succ, List.cons_append, List.drop_succ_cons, List.drop_zero, List.append_assoc]
      rw [e]
    rw [this, List.dropLast_concat]
  have hkn : ((Bz (p + 1)).knots.drop 1).take ((Bz (p + 1)).knots.length - 2 * 1) = (Bz p).knots := by
    rw [← hkn2, List.dropLast_eq_take]; congr 1
  simp only [List.range_one, List.foldl_cons, List.foldl_nil]
  rw [hkn]
  unfold derivStep
  simp only [hkn2]
  have hdeg : (Bz (p + 1)).degree = p + 1 := rfl
  rw [hdeg]
  congr 1
  rw [hc]
  refine List.map_congr_left fun j hj => ?_
  have hj : j < p + 1 := List.mem_range.1 hj
  have k1 : ((Bz p).knots.drop (p + 1 - 0)).getD j 0 = 1 := by
    simp [Bz, List.getD_eq_getElem?_getD, hj]
  have k0 : (Bz p).knots.getD j 0 = 0 := by
    simp [Bz, List.getD_eq_getElem?_getD, List.getElem?_append, hj]
  rw [k1, k0]
  simp
  left; ring

/-- Powers of `1 - x` in Bernstein form. -/
theorem pow_eq_bern {D j : ℕ} (hj : j ≤ D) (x : ℝ) :
    (1 - x) ^ j = ∑ i ∈ range (D + 1), ((D - j).choose i : ℝ) / (D.choose i : ℝ) * bern D i x := by
  have h1 : (1 - x) ^ j = (1 - x) ^ j * (x + (1 - x)) ^ (D - j) := by simp
  rw [h1, add_pow, Finset.mul_sum]
  have e : D + 1 = (D - j + 1) + j := by omega
  conv_rhs => rw [e, Finset.sum_range_add]
  have z : ∑ i ∈ range j, ((D - j).choose (D - j + 1 + i) : ℝ) / (D.choose (D - j + 1 + i) : ℝ)
      * bern D (D - j + 1 + i) x = 0 := by
    refine Finset.sum_eq_zero fun i _ => ?_
    rw [Nat.choose_eq_zero_of_lt (by omega)]; simp
  rw [z, add_zero]
  refine Finset.sum_congr rfl fun i hi => ?_
  have hi := mem_range.1 hi
  have hp : (D.choose i : ℝ) ≠ 0 := by
    have : 0 < D.choose i := Nat.choose_pos (by omega)
    positivity
  unfold bern
  have : D - i = j + (D - j - i) := by omega
  rw [this, pow_add]
  field_simp

/-- A constraint over polynomial splines written in powers of `1 - x` is satisfied when the sum of its
coefficients against every decreasing sequence of weights is below the bound. -/
theorem Expr.AllBz.imposed_pow {e : Expr ℝ} (h : e.AllBz) {D : ℕ} (hd : e.bdeg = some D) (hD : D ≤ 250)
    (a : ℕ → ℝ) (hv : ∀ x, 0 ≤ x → x ≤ 1 → e.val x = ∑ j ∈ range (D + 1), a j * (1 - x) ^ j)
    {ub : ℝ} (hub : ∀ w : ℕ → ℝ, w 0 = 1 → (∀ j, 0 ≤ w j) → (∀ j, w (j + 1) ≤ w j) →
      ∑ j ∈ range (D + 1), a j * w j ≤ ub) : e.Imposed ub := by
  refine h.imposed hd hD ((List.range (D + 1)).map fun i => ∑ j ∈ range (D + 1),
    a j * (((D - j).choose i : ℝ) / (D.choose i : ℝ))) (fun x h0 h1 => ?_) fun i hi => ?_
  · rw [hv x h0 h1]
    have e1 : ∀ j ∈ range (D + 1), a j * (1 - x) ^ j
        = ∑ i ∈ range (D + 1), a j * (((D - j).choose i : ℝ) / (D.choose i : ℝ)) * bern D i x := by
      intro j hj
      rw [pow_eq_bern (show j ≤ D by have := mem_range.1 hj; omega), Finset.mul_sum]
      exact Finset.sum_congr rfl fun i _ => by ring
    rw [Finset.sum_congr rfl e1, Finset.sum_comm]
    refine Finset.sum_congr rfl fun i hi => ?_
    have hi := mem_range.1 hi
    rw [List.getD_eq_getElem _ _ (by simpa using hi), List.getElem_map, List.getElem_range, Finset.sum_mul]
  · rw [List.getD_eq_getElem _ _ (by simp; omega), List.getElem_map, List.getElem_range]
    refine hub (fun j => ((D - j).choose i : ℝ) / (D.choose i : ℝ)) ?_ (fun j => by positivity) fun j => ?_
    · have : 0 < D.choose i := Nat.choose_pos hi
      simp only [Nat.sub_zero]
      exact div_self (by positivity)
    · have : (D - (j + 1)).choose i ≤ (D - j).choose i := Nat.choose_le_choose i (by omega)
      have : ((D - (j + 1)).choose i : ℝ) ≤ (D - j).choose i := by exact_mod_cast this
      exact div_le_div_of_nonneg_right this (by positivity)

end Verif.Spline
