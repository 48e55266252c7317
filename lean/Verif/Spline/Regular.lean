import Verif.Spline.Total
import Verif.Spline.Bernstein
import Mathlib.LinearAlgebra.Matrix.NonsingularInverse
import Mathlib.LinearAlgebra.Matrix.ToLinearEquiv
import Mathlib.Data.Rat.Cast.Order
import Mathlib.Tactic.FinCases

/-! # Which sums and products of splines can be computed (C136)

`BSplineBasis.transform` (spline.py:283-308) solves a linear system with the values of the basis functions in the grid points where they
are largest.  Here it is shown, by total positivity of B-splines, when this system is regular. -/

set_option linter.unusedSectionVars false

namespace Verif.Spline

open Finset

variable {K : Type*} [Field K] [LinearOrder K] [IsStrictOrderedRing K]

/-! ## Lemmas -/

section
variable {b : Basis K}

theorem fn_first (hb : b.Clamped) (i : ℕ) : b.fn i (b.k 0) = if i = 0 then 1 else 0 := by
  unfold Basis.fn
  rw [cox_first hb.first hb.mono hb.start _ _ le_rfl]
  rcases Nat.eq_zero_or_pos i with rfl | h
  · simp
  · rw [if_neg (by omega), if_neg (by omega)]

/-- Total positivity on the whole horizon. -/
theorem basis_total (hb : b.Clamped) {m : ℕ} {X : Fin m → K} {I : Fin m → ℕ} (hX : StrictMono X) (hI : StrictMono I)
    (h0 : ∀ r, b.k 0 ≤ X r) (h1 : ∀ r, X r ≤ b.k b.len) :
    0 ≤ Matrix.det (Matrix.of fun c r => b.fn (I c) (X r)) ∧
      ((∀ r, 0 < b.fn (I r) (X r)) → 0 < Matrix.det (Matrix.of fun c r => b.fn (I c) (X r))) := by
  have inner : ∀ {m : ℕ} {X : Fin m → K} {I : Fin m → ℕ}, StrictMono X → StrictMono I → (∀ r, b.k 0 < X r) → (∀ r, X r ≤ b.k b.len) →
      0 ≤ Matrix.det (Matrix.of fun c r => b.fn (I c) (X r)) ∧
        ((∀ r, 0 < b.fn (I r) (X r)) → 0 < Matrix.det (Matrix.of fun c r => b.fn (I c) (X r))) :=
    fun {m X I} hX hI h0 h1 => TN.all (p := b.degree) hb.mono hX h0 (fun r => ⟨_, h1 r⟩) I hI
  cases m with
  | zero => simp
  | succ m =>
    rcases eq_or_lt_of_le (h0 0) with h | h
    · have hsub := inner (X := fun r => X r.succ) (I := fun c => I c.succ) (fun a c hac => hX (Fin.succ_lt_succ_iff.2 hac))
        (fun a c hac => hI (Fin.succ_lt_succ_iff.2 hac)) (fun r => h ▸ hX (Fin.succ_pos r)) fun r => h1 _
      by_cases hI0 : I 0 = 0
      · have e : Matrix.det (Matrix.of fun c r => b.fn (I c) (X r)) =
            Matrix.det (Matrix.of fun (c r : Fin m) => b.fn (I c.succ) (X r.succ)) := by
          rw [Matrix.det_succ_column_zero, Finset.sum_eq_single 0]
          · rw [Matrix.of_apply, ← h, fn_first hb, if_pos hI0]
            simp only [Fin.val_zero, pow_zero, one_mul, Fin.succAbove_zero]
            rfl
          · intro c _ hc
            have : 0 < I c := hI0 ▸ hI (Fin.pos_iff_ne_zero.2 hc)
            rw [Matrix.of_apply, ← h, fn_first hb, if_neg (by omega)]
            simp
          · simp
        rw [e]
        exact ⟨hsub.1, fun hd => hsub.2 fun r => hd r.succ⟩
      · have e : Matrix.det (Matrix.of fun c r => b.fn (I c) (X r)) = 0 := by
          refine Matrix.det_eq_zero_of_column_eq_zero 0 fun c => ?_
          have : I 0 ≤ I c := hI.monotone (Fin.zero_le c)
          rw [Matrix.of_apply, ← h, fn_first hb, if_neg (by omega)]
        refine ⟨e.ge, fun hd => ?_⟩
        have := hd 0
        rw [← h, fn_first hb, if_neg hI0] at this
        exact absurd this (lt_irrefl _)
    · exact inner hX hI (fun r => h.trans_le (hX.monotone (Fin.zero_le r))) h1

/-- Two basis functions: the ratio of the later to the earlier one does not decrease. -/
theorem fn_ratio (hb : b.Clamped) {i j : ℕ} (hij : i < j) {x y : K} (hxy : x < y) (hx : b.k 0 ≤ x) (hy : y ≤ b.k b.len) :
    b.fn i y * b.fn j x ≤ b.fn i x * b.fn j y := by
  have := (basis_total hb (X := ![x, y]) (I := ![i, j]) (fun a c hac => ?_) (fun a c hac => ?_) (fun r => ?_) fun r => ?_).1
  · rw [Matrix.det_fin_two] at this
    simp only [Matrix.of_apply, Matrix.cons_val_zero, Matrix.cons_val_one] at this
    linarith
  · have ha : a = 0 := by have := c.2; ext; simp only [Fin.lt_def] at hac; simp; omega
    have hc : c = 1 := by have := c.2; ext; simp only [Fin.lt_def] at hac; simp; omega
    subst ha hc
    exact hxy
  · have ha : a = 0 := by have := c.2; ext; simp only [Fin.lt_def] at hac; simp; omega
    have hc : c = 1 := by have := c.2; ext; simp only [Fin.lt_def] at hac; simp; omega
    subst ha hc
    exact hij
  · fin_cases r
    · exact hx
    · exact hx.trans hxy.le
  · fin_cases r
    · exact hxy.le.trans hy
    · exact hy

/-- `np.argmax` takes the first of the largest values. -/
theorem argmaxOn_first (f : K → K) (l : List K) (hl : l.Pairwise (· < ·)) {y : K} (hy : y ∈ l) (h : y < argmaxOn f l) : f y < f (argmaxOn f l) := by
  cases l with
  | nil => simp at hy
  | cons x xs =>
    have key : ∀ (ys : List K) (z : K) (zs : List K), (zs ++ ys).Pairwise (· < ·) → (∀ w ∈ zs, w < z → f w < f z) → z ∈ zs → (∀ w ∈ zs, z < w → f w ≤ f z) →
        ∀ w ∈ zs ++ ys, w < ys.foldl (fun best y => if f best < f y then y else best) z →
          f w < f (ys.foldl (fun best y => if f best < f y then y else best) z) := by
      intro ys
      induction ys with
      | nil => intro z zs _ h1 _ _ w hw hlt; rw [List.append_nil] at hw; exact h1 w hw hlt
      | cons y ys ih =>
        intro z zs hp h1 hz h2 w hw hlt
        rw [List.foldl_cons] at hlt ⊢
        have hzy : ∀ w ∈ zs, w < y := fun w hw => (List.pairwise_append.1 hp).2.2 w hw y (by simp)
        refine ih _ (zs ++ [y]) (by simpa using hp) ?_ ?_ ?_ w (by simpa using hw) hlt
        · intro w hw hwl
          split_ifs at hwl ⊢ with hc
          · rcases List.mem_append.1 hw with hw | hw
            · rcases lt_trichotomy w z with h | h | h
              · exact (h1 w hw h).trans hc
              · rw [h]; exact hc
              · exact (h2 w hw h).trans_lt hc
            · rw [List.mem_singleton.1 hw] at hwl; exact absurd hwl (lt_irrefl _)
          · rcases List.mem_append.1 hw with hw | hw
            · exact h1 w hw hwl
            · rw [List.mem_singleton.1 hw] at hwl
              exact absurd hwl (hzy z hz).not_gt
        · split_ifs
          · simp
          · simp [hz]
        · intro w hw hwl
          split_ifs at hwl ⊢ with hc
          · rcases List.mem_append.1 hw with hw | hw
            · exact absurd hwl (hzy w hw).not_gt
            · rw [List.mem_singleton.1 hw] at hwl; exact absurd hwl (lt_irrefl _)
          · rcases List.mem_append.1 hw with hw | hw
            · exact h2 w hw hwl
            · rw [List.mem_singleton.1 hw]; exact not_lt.1 hc
    exact key xs x [x] (by simpa using hl) (by simp) (by simp) (by simp) y (by simpa using hy) h

theorem grid_sorted (hb : b.Clamped) : b.grid.Pairwise (· < ·) := by
  unfold Basis.grid
  rw [headD_eq_k hb, getLastD_eq_k hb, List.pairwise_map]
  refine List.Pairwise.imp (fun {i j} hij => ?_) List.pairwise_lt_range
  have hd : 0 < b.k b.len - b.k 0 := sub_pos.2 hb.first_lt_last
  have : (i : K) < j := by exact_mod_cast hij
  have := mul_lt_mul_of_pos_left this hd
  linarith

/-- The point used for basis function `i`. -/
def Basis.peak (b : Basis K) (i : ℕ) : K := argmaxOn (b.fn i) b.grid

theorem grid_ne (b : Basis K) : b.grid ≠ [] := by simp [Basis.grid]

theorem grid_length (b : Basis K) : b.grid.length = 501 := by simp [Basis.grid]

theorem xmax_eq (b : Basis K) : b.xmax = (List.range b.len).map b.peak := rfl

theorem peak_mem (b : Basis K) (i : ℕ) : b.peak i ∈ b.grid := argmaxOn_mem _ _ (grid_ne b)

theorem peak_mono (hb : b.Clamped) {i j : ℕ} (hij : i < j) (hj : 0 < b.fn j (b.peak j)) : b.peak i ≤ b.peak j := by
  by_contra h
  have h := not_le.1 h
  have h1 := fn_ratio hb hij h (grid_mem hb (peak_mem b j)).1 (grid_mem hb (peak_mem b i)).2
  have h2 := argmaxOn_first (b.fn i) b.grid (grid_sorted hb) (peak_mem b j) h
  have h3 : b.fn j (b.peak i) ≤ b.fn j (b.peak j) := argmaxOn_ge _ _ (peak_mem b i)
  have h4 := mul_le_mul_of_nonneg_left h3 (Basis.fn_nonneg hb i (b.peak j))
  have h5 := mul_lt_mul_of_pos_right h2 hj
  exact absurd (h5.trans_le (h1.trans h4)) (lt_irrefl _)

/-- The matrix of the linear system. -/
def Basis.colloc (b : Basis K) : Matrix (Fin b.len) (Fin b.len) K := Matrix.of fun c r => b.fn c (b.peak r)

theorem colloc_sum (b : Basis K) (c : ℕ → K) (r : Fin b.len) :
    Matrix.vecMul (fun i : Fin b.len => c i) b.colloc r = ∑ i ∈ range b.len, c i * b.fn i (b.peak r) := by
  rw [← Fin.sum_univ_eq_sum_range (fun i => c i * b.fn i (b.peak r))]
  rfl

end

/-! ## The specification -/

/-- The grid of 501 points tells the basis functions apart: every basis function is positive in some grid point, and no two of them are largest in
the same grid point. -/
def Basis.Resolved (b : Basis K) : Prop :=
  (∀ i, i < b.len → ∃ x ∈ b.grid, 0 < b.fn i x) ∧
    ∀ i j, i < b.len → j < b.len → argmaxOn (b.fn i) b.grid = argmaxOn (b.fn j) b.grid → i = j

/-! ## Properties -/

section
variable {b : Basis K}

theorem resolved_det (hb : b.Clamped) (h : b.Resolved) : 0 < b.colloc.det := by
  have hpos : ∀ i, i < b.len → 0 < b.fn i (b.peak i) := fun i hi => by
    obtain ⟨x, hx, hp⟩ := h.1 i hi
    exact hp.trans_le (argmaxOn_ge _ _ hx)
  refine (basis_total hb (X := fun r : Fin b.len => b.peak r) (I := fun c : Fin b.len => (c : ℕ)) (fun i j hij => ?_) (fun i j hij => hij)
    (fun r => (grid_mem hb (peak_mem b r)).1) fun r => (grid_mem hb (peak_mem b r)).2).2 fun r => hpos r r.2
  refine lt_of_le_of_ne (peak_mono hb hij (hpos j j.2)) fun e => ?_
  exact absurd (h.2 i j i.2 j.2 e) (Nat.ne_of_lt hij)

/-- **C136** The linear system behind sums, products and knot insertion is regular exactly when the grid tells the basis functions apart. -/
theorem C136_regular_iff (hb : b.Clamped) :
    (∀ c : ℕ → K, (∀ x ∈ b.xmax, ∑ i ∈ range b.len, c i * b.fn i x = 0) → ∀ i, i < b.len → c i = 0) ↔ b.Resolved := by
  constructor
  · intro h
    refine ⟨fun i hi => ?_, fun i j hi hj e => ?_⟩
    · by_contra hn
      push Not at hn
      have := h (fun j => if j = i then 1 else 0) (fun x hx => ?_) i hi
      · simp at this
      · rw [Finset.sum_eq_single i]
        · rw [if_pos rfl, one_mul]
          exact le_antisymm (hn x (by rw [xmax_eq] at hx; obtain ⟨r, _, rfl⟩ := List.mem_map.1 hx; exact peak_mem b r)) (Basis.fn_nonneg hb i x)
        · intro j _ hj; rw [if_neg hj, zero_mul]
        · intro hn; exact absurd (mem_range.2 hi) hn
    · by_contra hne
      have hdet : b.colloc.det = 0 := by
        refine Matrix.det_zero_of_column_eq (i := ⟨i, hi⟩) (j := ⟨j, hj⟩) (by simpa using hne) fun k => ?_
        show b.fn k (b.peak i) = b.fn k (b.peak j)
        rw [show b.peak i = b.peak j from e]
      obtain ⟨v, hv, h0⟩ := Matrix.exists_vecMul_eq_zero_iff.2 hdet
      refine hv (funext fun k => ?_)
      have := h (fun n => if hn : n < b.len then v ⟨n, hn⟩ else 0) (fun x hx => ?_) k k.2
      · rwa [dif_pos k.2] at this
      · rw [xmax_eq] at hx
        obtain ⟨r, hr, rfl⟩ := List.mem_map.1 hx
        have hr := List.mem_range.1 hr
        rw [← colloc_sum b _ ⟨r, hr⟩]
        have e : (fun i : Fin b.len => (fun n => if hn : n < b.len then v ⟨n, hn⟩ else 0) (i : ℕ)) = v := by
          funext i; exact dif_pos i.2
        rw [e, h0]; rfl
  · intro h c hc i hi
    have := Matrix.eq_zero_of_vecMul_eq_zero (resolved_det hb h).ne' (v := fun i : Fin b.len => c i) (funext fun r => by
      rw [colloc_sum]
      exact hc _ (List.mem_map.2 ⟨r, List.mem_range.2 r.2, rfl⟩))
    exact congrFun this ⟨i, hi⟩

/-- **C136** … in which case there is a solution, whatever is on the right-hand side, and only one. -/
theorem C136_solve (hb : b.Clamped) (g : ℕ → K → K) (nc : ℕ) : (∃ T, Solves b g nc T) ↔ b.Resolved := by
  refine ⟨fun ⟨T, h⟩ => (C136_regular_iff hb).1 h.regular, fun h => ?_⟩
  have hdet : IsUnit b.colloc.transpose.det := by
    rw [Matrix.det_transpose]; exact (resolved_det hb h).ne'.isUnit
  refine ⟨fun i j => if hi : i < b.len then Matrix.mulVec b.colloc.transpose⁻¹ (fun r => g j (b.peak r)) ⟨i, hi⟩ else 0,
    (C136_regular_iff hb).2 h, fun x hx j _ => ?_⟩
  rw [xmax_eq] at hx
  obtain ⟨r, hr, rfl⟩ := List.mem_map.1 hx
  have hr := List.mem_range.1 hr
  have h1 : Matrix.mulVec b.colloc.transpose (Matrix.mulVec b.colloc.transpose⁻¹ fun r : Fin b.len => g j (b.peak r)) ⟨r, hr⟩ = g j (b.peak r) := by
    rw [Matrix.mulVec_mulVec, Matrix.mul_nonsing_inv _ hdet, Matrix.one_mulVec]
  rw [← h1, ← Fin.sum_univ_eq_sum_range (fun i => b.fn i (b.peak r) * _)]
  refine Finset.sum_congr rfl fun i _ => ?_
  rw [dif_pos i.2]
  rfl

theorem C136_unique {g : ℕ → K → K} {nc : ℕ} {T T' : ℕ → ℕ → K} (h : Solves b g nc T) (h' : Solves b g nc T') {i j : ℕ} (hi : i < b.len) (hj : j < nc) :
    T i j = T' i j := by
  refine sub_eq_zero.1 (h.regular (fun n => T n j - T' n j) (fun x hx => ?_) i hi)
  have h1 := h.solves x hx j hj
  have h2 := h'.solves x hx j hj
  have h3 : ∑ n ∈ range b.len, (T n j - T' n j) * b.fn n x =
      ∑ n ∈ range b.len, b.fn n x * T n j - ∑ n ∈ range b.len, b.fn n x * T' n j := by
    rw [← Finset.sum_sub_distrib]
    exact Finset.sum_congr rfl fun n _ => by ring
  rw [h3, h1, h2, sub_self]

end

/-- Two splines on the same horizon. -/
structure SameHorizon (s t : BSpline K) : Prop where
  left : s.basis.Clamped
  right : t.basis.Clamped
  head : s.basis.knots.headD 0 = t.basis.knots.headD 0
  tail : s.basis.knots.getLastD 0 = t.basis.knots.getLastD 0

/-- **C136** The sum of two splines on the same horizon is defined exactly when the grid tells the functions of the common basis apart. -/
theorem C136_add {s t : BSpline K} (h : SameHorizon s t) : (∃ v, Expr.Runs (.add (.spl s) (.spl t)) v) ↔ (s.basis.add t.basis).Resolved := by
  have hc := (C08_clamped _ _ h.left h.right _ (le_max_left _ _) (le_max_right _ _) h.head h.tail).1
  constructor
  · rintro ⟨v, hv⟩
    cases hv with
    | addSN _ h2 => cases h2
    | addNS h1 _ => cases h1
    | addNN h1 _ => cases h1
    | addSS h1 h2 h3 h4 =>
      cases h1; cases h2
      exact (C136_solve hc _ _).1 ⟨_, h3⟩
  · intro hr
    obtain ⟨Ts, hs⟩ := (C136_solve hc s.basis.fn s.basis.len).2 hr
    obtain ⟨Tt, ht⟩ := (C136_solve hc t.basis.fn t.basis.len).2 hr
    exact ⟨_, .addSS (.spl s) (.spl t) hs ht⟩

/-- **C136** The product likewise. -/
theorem C136_mul {s t : BSpline K} (h : SameHorizon s t) : (∃ v, Expr.Runs (.mul (.spl s) (.spl t)) v) ↔ (s.basis.mul t.basis).Resolved := by
  have hc := (C08_clamped _ _ h.left h.right _ (Nat.le_add_right _ _) (Nat.le_add_left _ _) h.head h.tail).1
  constructor
  · rintro ⟨v, hv⟩
    cases hv with
    | mulSN _ h2 => cases h2
    | mulNS h1 _ => cases h1
    | mulNN h1 _ => cases h1
    | mulSS h1 h2 h3 =>
      cases h1; cases h2
      exact (C136_solve hc _ _).1 ⟨_, h3⟩
  · intro hr
    obtain ⟨T, hT⟩ := (C136_solve hc (pairFn s.basis t.basis) (s.basis.pairs t.basis).length).2 hr
    exact ⟨_, .mulSS (.spl s) (.spl t) hT⟩

theorem applyT_congr {tol : K} {T T' : ℕ → ℕ → K} {n : ℕ} {c : List K} (h : ∀ i, i < n → ∀ j, j < c.length → T i j = T' i j) :
    applyT tol T n c = applyT tol T' n c := by
  unfold applyT
  refine List.map_congr_left fun i hi => Finset.sum_congr rfl fun j hj => ?_
  rw [h i (List.mem_range.1 hi) j (mem_range.1 hj)]

/-- **C136** An expression of splines on one horizon has at most one value. -/
theorem C136_deterministic {lo hi : K} {e : Expr K} (he : e.On lo hi) {v v' : PyVal K} (h : e.Runs v) (h' : e.Runs v') : v = v' := by
  induction h generalizing v' with
  | num c => cases h'; rfl
  | spl s => cases h'; rfl
  | negNum _ ih =>
    cases h' with
    | negNum h2 => cases ih he h2; rfl
    | negSpl h2 => cases ih he h2
  | negSpl _ ih =>
    cases h' with
    | negNum h2 => cases ih he h2
    | negSpl h2 => cases ih he h2; rfl
  | addNN _ _ ih1 ih2 =>
    cases h' with
    | addNN h2 h3 => cases ih1 he.1 h2; cases ih2 he.2 h3; rfl
    | addSN h2 h3 => cases ih1 he.1 h2
    | addNS h2 h3 => cases ih2 he.2 h3
    | addSS h2 h3 _ _ => cases ih1 he.1 h2
  | addSN _ _ ih1 ih2 =>
    cases h' with
    | addNN h2 h3 => cases ih1 he.1 h2
    | addSN h2 h3 => cases ih1 he.1 h2; cases ih2 he.2 h3; rfl
    | addNS h2 h3 => cases ih1 he.1 h2
    | addSS h2 h3 _ _ => cases ih2 he.2 h3
  | addNS _ _ ih1 ih2 =>
    cases h' with
    | addNN h2 h3 => cases ih2 he.2 h3
    | addSN h2 h3 => cases ih1 he.1 h2
    | addNS h2 h3 => cases ih1 he.1 h2; cases ih2 he.2 h3; rfl
    | addSS h2 h3 _ _ => cases ih1 he.1 h2
  | addSS r1 r2 h4 h5 ih1 ih2 =>
    cases h' with
    | addNN h2 h3 => cases ih1 he.1 h2
    | addSN h2 h3 => cases ih2 he.2 h3
    | addNS h2 h3 => cases ih1 he.1 h2
    | addSS h2 h3 h6 h7 =>
      cases ih1 he.1 h2; cases ih2 he.2 h3
      have w1 := (Expr.runs_means r1 he.1).2.1
      have w2 := (Expr.runs_means r2 he.2).2.1
      simp only [BSpline.addT]
      rw [applyT_congr fun i hi j hj => C136_unique h4 h6 hi (w1 ▸ hj), applyT_congr fun i hi j hj => C136_unique h5 h7 hi (w2 ▸ hj)]
  | mulNN _ _ ih1 ih2 =>
    cases h' with
    | mulNN h2 h3 => cases ih1 he.1 h2; cases ih2 he.2 h3; rfl
    | mulSN h2 h3 => cases ih1 he.1 h2
    | mulNS h2 h3 => cases ih2 he.2 h3
    | mulSS h2 h3 _ => cases ih1 he.1 h2
  | mulSN _ _ ih1 ih2 =>
    cases h' with
    | mulNN h2 h3 => cases ih1 he.1 h2
    | mulSN h2 h3 => cases ih1 he.1 h2; cases ih2 he.2 h3; rfl
    | mulNS h2 h3 => cases ih1 he.1 h2
    | mulSS h2 h3 _ => cases ih2 he.2 h3
  | mulNS _ _ ih1 ih2 =>
    cases h' with
    | mulNN h2 h3 => cases ih2 he.2 h3
    | mulSN h2 h3 => cases ih1 he.1 h2
    | mulNS h2 h3 => cases ih1 he.1 h2; cases ih2 he.2 h3; rfl
    | mulSS h2 h3 _ => cases ih1 he.1 h2
  | mulSS r1 r2 h4 ih1 ih2 =>
    cases h' with
    | mulNN h2 h3 => cases ih1 he.1 h2
    | mulSN h2 h3 => cases ih2 he.2 h3
    | mulNS h2 h3 => cases ih1 he.1 h2
    | mulSS h2 h3 h6 =>
      cases ih1 he.1 h2; cases ih2 he.2 h3
      simp only [BSpline.mulT]
      rw [applyT_congr fun i hi j hj => C136_unique h4 h6 hi (by simpa using hj)]

/-- **C136** (violated) A sum or product whose basis has more than 501 functions is never defined: each function needs its own grid point. -/
theorem C136_many_violated {s t : BSpline K} (h : SameHorizon s t) :
    (501 < (s.basis.add t.basis).len → ¬ ∃ v, Expr.Runs (.add (.spl s) (.spl t)) v) ∧
      (501 < (s.basis.mul t.basis).len → ¬ ∃ v, Expr.Runs (.mul (.spl s) (.spl t)) v) := by
  have key : ∀ b : Basis K, 501 < b.len → ¬ b.Resolved := by
    intro b hl hr
    have hnd : ((List.range b.len).map b.peak).Nodup :=
      (List.nodup_range).map_on fun i hi j hj e => hr.2 i j (List.mem_range.1 hi) (List.mem_range.1 hj) e
    have := (hnd.subperm (l₂ := b.grid) fun x hx => by
      obtain ⟨i, _, rfl⟩ := List.mem_map.1 hx
      exact peak_mem b i).length_le
    rw [grid_length, List.length_map, List.length_range] at this
    omega
  exact ⟨fun hl hv => key _ hl ((C136_add h).1 hv), fun hl hv => key _ hl ((C136_mul h).1 hv)⟩

/-- **C136** (violated) Nor is a sum whose basis has a function that lies between two neighbouring grid points. -/
theorem C136_fine_violated {s t : BSpline K} (h : SameHorizon s t) (i : ℕ) (hi : i < (s.basis.add t.basis).len)
    (hg : ∀ x ∈ (s.basis.add t.basis).grid,
      ¬ ((s.basis.add t.basis).k i ≤ x ∧ x ≤ (s.basis.add t.basis).k (i + (s.basis.add t.basis).degree + 1))) :
    ¬ ∃ v, Expr.Runs (.add (.spl s) (.spl t)) v := by
  rw [C136_add h]
  intro hr
  obtain ⟨x, hx, hp⟩ := hr.1 i hi
  have hc : (s.basis.add t.basis).Clamped := (C08_clamped _ _ h.left h.right _ (le_max_left _ _) (le_max_right _ _) h.head h.tail).1
  have hd := grid_mem hc hx
  rcases eq_or_lt_of_le hd.1 with h0 | h0
  · rw [← h0, fn_first hc] at hp
    have : i = 0 := by by_contra hne; rw [if_neg hne] at hp; exact absurd hp (lt_irrefl _)
    exact hg x hx ⟨by rw [this]; exact hd.1, by rw [← h0]; exact hc.mono (Nat.zero_le _)⟩
  · unfold Basis.fn at hp
    have := (cox_pos_iff hc.mono h0 _ _).1 hp
    exact hg x hx ⟨this.1.le, this.2.elim (fun h => h.le) fun h => h.trans (hc.mono (by omega))⟩

theorem nearest (n : ℕ) {y : K} (h0 : 0 ≤ y) (h1 : y ≤ n) : ∃ j : ℕ, j ≤ n ∧ |(j : K) - y| ≤ 1 / 2 := by
  induction n with
  | zero =>
    have : y = 0 := le_antisymm (by simpa using h1) h0
    exact ⟨0, le_rfl, by simp [this]⟩
  | succ n ih =>
    rcases le_total y n with h | h
    · obtain ⟨j, hj, h⟩ := ih h
      exact ⟨j, by omega, h⟩
    · push_cast at h1
      rcases le_total y (n + 1 / 2) with h2 | h2
      · exact ⟨n, by omega, abs_le.2 ⟨by linarith, by linarith⟩⟩
      · exact ⟨n + 1, le_rfl, abs_le.2 ⟨by push_cast; linarith, by push_cast; linarith⟩⟩

/-- A basis whose functions all exceed one half in some grid point is resolved. -/
theorem resolved_of_half {b : Basis K} (hb : b.Clamped) (h : ∀ i, i < b.len → ∃ x ∈ b.grid, 1 / 2 < b.fn i x) : b.Resolved := by
  have hp : ∀ i, i < b.len → 1 / 2 < b.fn i (b.peak i) := fun i hi => by
    obtain ⟨x, hx, hh⟩ := h i hi
    exact hh.trans_le (argmaxOn_ge _ _ hx)
  refine ⟨fun i hi => ?_, fun i j hi hj e => ?_⟩
  · obtain ⟨x, hx, hh⟩ := h i hi
    exact ⟨x, hx, lt_trans (by norm_num) hh⟩
  · by_contra hne
    have e : b.peak i = b.peak j := e
    have h1 := hp i hi
    have h2 := hp j hj
    rw [← e] at h2
    have hm := grid_mem hb (peak_mem b i)
    have hs := Basis.sum_fn hb hm.1 hm.2
    have : b.fn i (b.peak i) + b.fn j (b.peak i) ≤ ∑ n ∈ range b.len, b.fn n (b.peak i) := by
      rw [← Finset.sum_pair (f := fun n => b.fn n (b.peak i)) hne]
      refine Finset.sum_le_sum_of_subset_of_nonneg ?_ fun n _ _ => Basis.fn_nonneg hb n _
      intro n hn
      rcases Finset.mem_insert.1 hn with rfl | hn
      · exact mem_range.2 hi
      · rw [Finset.mem_singleton.1 hn]; exact mem_range.2 hj
    rw [hs] at this
    linarith

/-- **C136** Piecewise linear splines, whose breakpoints together lie more than one grid step (a five-hundredth of the horizon) apart, can always be
added. -/
theorem C136_linear {s t : BSpline K} (h : SameHorizon s t) (hs : s.basis.degree = 1) (ht : t.basis.degree = 1)
    (hk : ∀ i, 1 ≤ i → i < (s.basis.add t.basis).len →
      (s.basis.knots.getLastD 0 - s.basis.knots.headD 0) / 500 < (s.basis.add t.basis).k (i + 1) - (s.basis.add t.basis).k i) :
    ∃ v, Expr.Runs (.add (.spl s) (.spl t)) v := by
  rw [C136_add h]
  obtain ⟨hc, e0, e1⟩ : (s.basis.add t.basis).Clamped ∧ (s.basis.add t.basis).knots.headD 0 = s.basis.knots.headD 0 ∧
    (s.basis.add t.basis).knots.getLastD 0 = s.basis.knots.getLastD 0 := C08_clamped _ _ h.left h.right _ (le_max_left _ _) (le_max_right _ _) h.head h.tail
  have hd : (s.basis.add t.basis).degree = 1 := by simp [Basis.add, Basis.combine, hs, ht]
  rw [← e0, ← e1] at hk
  generalize s.basis.add t.basis = b at hc hk hd
  rw [headD_eq_k hc, getLastD_eq_k hc] at hk
  have hpos : 0 < (b.k b.len - b.k 0) / 500 := div_pos (sub_pos.2 hc.first_lt_last) (by norm_num)
  set δ := (b.k b.len - b.k 0) / 500 with hδ
  refine resolved_of_half hc fun i hi => ?_
  -- the grid point nearest to the breakpoint
  have hy0 : 0 ≤ (b.k (i + 1) - b.k 0) / δ := div_nonneg (sub_nonneg.2 (hc.mono (Nat.zero_le _))) hpos.le
  have hy1 : (b.k (i + 1) - b.k 0) / δ ≤ (500 : ℕ) := by
    rw [div_le_iff₀ hpos, hδ]
    have := hc.mono (show i + 1 ≤ b.len by omega)
    push_cast
    linarith
  obtain ⟨j, hj, hn⟩ := nearest 500 hy0 hy1
  have hxg : b.k 0 + δ * j ∈ b.grid := by
    unfold Basis.grid
    rw [headD_eq_k hc, getLastD_eq_k hc]
    exact List.mem_map.2 ⟨j, List.mem_range.2 (by omega), by rw [hδ]; ring⟩
  refine ⟨_, hxg, ?_⟩
  have hx := grid_mem hc hxg
  have hnear : |b.k 0 + δ * j - b.k (i + 1)| ≤ δ / 2 := by
    have e : b.k 0 + δ * j - b.k (i + 1) = δ * (j - (b.k (i + 1) - b.k 0) / δ) := by field_simp; ring
    rw [e, abs_mul, abs_of_pos hpos]
    have := mul_le_mul_of_nonneg_left hn hpos.le
    linarith
  have hnear := abs_le.1 hnear
  generalize b.k 0 + δ * j = x at hx hnear
  rcases eq_or_lt_of_le hx.1 with h0 | h0
  · -- the first grid point
    rw [← h0, fn_first hc]
    by_cases e : i = 0
    · rw [if_pos e]; norm_num
    · have h1 := hk i (by omega) hi
      have h2 := hc.mono (Nat.zero_le i)
      rw [← h0] at hnear
      exfalso
      linarith [hnear.1]
  · unfold Basis.fn
    rw [hd]
    rcases lt_or_ge (b.k (i + 1)) x with hr | hl
    · -- right of the breakpoint
      have hi1 : i + 1 < b.len := by
        by_contra hge
        have : i + 1 = b.len := by omega
        rw [this] at hr
        exact absurd hx.2 (not_le.2 hr)
      have h1 := hk (i + 1) (by omega) hi1
      have hx2 : x ≤ b.k (i + 1 + 1) := by linarith [hnear.2]
      have c0 : cox b.k 1 x 0 i = 0 := by
        show ind b.k 1 i x = 0
        rw [ind_of_lt h0, if_neg fun hh => absurd hh.2 (not_le.2 hr)]
      have c1 : cox b.k 1 x 0 (i + 1) = 1 := by
        show ind b.k 1 (i + 1) x = 1
        rw [ind_of_lt h0, if_pos ⟨hr, hx2⟩]
      have hg : 0 < b.k (i + (0 + 1) + 1) - b.k (i + 1) := hpos.trans h1
      rw [cox, c0, c1, mul_zero, zero_div, ite_self, zero_add, if_pos hg.ne', mul_one, lt_div_iff₀ hg]
      show 1 / 2 * (b.k (i + 1 + 1) - b.k (i + 1)) < b.k (i + 1 + 1) - x
      linarith [hnear.2]
    · -- left of it
      have hi1 : 1 ≤ i := by
        by_contra hlt
        have : i = 0 := by omega
        rw [this, hc.first 1 (by rw [hd])] at hl
        exact absurd h0 (not_lt.2 hl)
      have h1 := hk i hi1 hi
      have c0 : cox b.k 1 x 0 i = 1 := by
        show ind b.k 1 i x = 1
        rw [ind_of_lt h0, if_pos ⟨by linarith [hnear.1], hl⟩]
      have c1 : cox b.k 1 x 0 (i + 1) = 0 := by
        show ind b.k 1 (i + 1) x = 0
        rw [ind_of_lt h0, if_neg fun hh => absurd hh.1 (not_lt.2 hl)]
      have hg : 0 < b.k (i + (0 + 1)) - b.k i := hpos.trans h1
      rw [cox, c0, c1, mul_zero, zero_div, ite_self, add_zero, if_pos hg.ne', mul_one, lt_div_iff₀ hg]
      show 1 / 2 * (b.k (i + 1) - b.k i) < x - b.k i
      linarith [hnear.1]

/-! ## Concrete cases -/

/-- A common basis can be recognised by looking at the knots. -/
theorem add_eq (a b c : Basis K) (hd : c.degree = max a.degree b.degree) (hs : c.knots.Pairwise (· ≤ ·))
    (h : ∀ t ∈ a.knots ++ b.knots ++ c.knots, neededMult a b (max a.degree b.degree) t = c.knots.count t) : a.add b = c := by
  refine combine_eq _ _ _ _ (le_max_left _ _) (le_max_right _ _) hd hs fun t => ?_
  by_cases ht : t ∈ a.knots ++ b.knots ++ c.knots
  · exact h t ht
  · rw [List.mem_append, List.mem_append] at ht
    push Not at ht
    unfold neededMult
    rw [List.count_eq_zero_of_not_mem ht.2, if_neg ht.1.1, if_neg ht.1.2]
    rfl

/-- Piecewise linear splines with breakpoints `1/2` and `1/3`. -/
def exHalf : BSpline ℚ := ⟨⟨[0, 0, 1/2, 1, 1], 1⟩, [0, 1, 4]⟩
def exThird : BSpline ℚ := ⟨⟨[0, 0, 1/3, 1, 1], 1⟩, [2, 1, 5]⟩

theorem exHalf_clamped : exHalf.basis.Clamped :=
  ⟨by decide +kernel, by decide,
    by intro i hi; have : i ≤ 1 := hi; interval_cases i <;> rfl,
    by decide +kernel,
    by intro i h1 h2; have a : 3 ≤ i := h1; have b : i < 5 := h2; interval_cases i <;> rfl⟩

theorem exThird_clamped : exThird.basis.Clamped :=
  ⟨by decide +kernel, by decide,
    by intro i hi; have : i ≤ 1 := hi; interval_cases i <;> rfl,
    by decide +kernel,
    by intro i h1 h2; have a : 3 ≤ i := h1; have b : i < 5 := h2; interval_cases i <;> rfl⟩

example : ∃ v, Expr.Runs (.add (.spl exHalf) (.spl exThird)) v := by
  have e : exHalf.basis.add exThird.basis = ⟨[0, 0, 1/3, 1/2, 1, 1], 1⟩ :=
    add_eq _ _ _ rfl (by decide +kernel) (by decide +kernel)
  refine C136_linear ⟨exHalf_clamped, exThird_clamped, rfl, rfl⟩ rfl rfl fun i h1 h2 => ?_
  rw [e] at h2 ⊢
  have h2 : i < 4 := h2
  interval_cases i <;> decide +kernel

/-- Piecewise constant splines that step at `0.0005` and at `0.001`. -/
def exStep1 : BSpline ℚ := ⟨⟨[0, 1/2000, 1], 0⟩, [3, 1]⟩
def exStep2 : BSpline ℚ := ⟨⟨[0, 1/1000, 1], 0⟩, [0, 2]⟩

theorem exStep1_clamped : exStep1.basis.Clamped :=
  ⟨by decide +kernel, by decide,
    by intro i hi; have : i ≤ 0 := hi; interval_cases i; rfl,
    by decide +kernel,
    by intro i h1 h2; have a : 2 ≤ i := h1; have b : i < 3 := h2; interval_cases i; rfl⟩

theorem exStep2_clamped : exStep2.basis.Clamped :=
  ⟨by decide +kernel, by decide,
    by intro i hi; have : i ≤ 0 := hi; interval_cases i; rfl,
    by decide +kernel,
    by intro i h1 h2; have a : 2 ≤ i := h1; have b : i < 3 := h2; interval_cases i; rfl⟩

/-- Each of the two is perfectly usable, their sum is not. -/
example : ¬ ∃ v, Expr.Runs (.add (.spl exStep1) (.spl exStep2)) v := by
  have e : exStep1.basis.add exStep2.basis = ⟨[0, 1/2000, 1/1000, 1], 0⟩ :=
    add_eq _ _ _ rfl (by decide +kernel) (by decide +kernel)
  refine C136_fine_violated ⟨exStep1_clamped, exStep2_clamped, rfl, rfl⟩ 1 ?_ ?_
  · rw [e]; decide
  · rw [e]; decide +kernel

/-- One basis that is resolved, and one that is not. -/
example : exLin.Resolved :=
  resolved_of_half exLin_clamped fun i hi => by
    have h : i < 2 := hi
    interval_cases i
    · exact ⟨0, by decide +kernel, by decide +kernel⟩
    · exact ⟨1, by decide +kernel, by decide +kernel⟩

example : ∃ T, Solves exLin (fun _ x => x ^ 2) 1 T := by
  refine (C136_solve exLin_clamped _ _).2 (resolved_of_half exLin_clamped fun i hi => ?_)
  have h : i < 2 := hi
  interval_cases i
  · exact ⟨0, by decide +kernel, by decide +kernel⟩
  · exact ⟨1, by decide +kernel, by decide +kernel⟩

/-- Polynomials of degree `p` and `q` cannot be multiplied when `p + q > 500` (but each can be added to itself up to degree 250, `Bz_solves`). -/
theorem product_out_of_reach (p q : ℕ) (h : 500 < p + q) (c d : List ℝ) : ¬ ∃ v, Expr.Runs (.mul (.spl ⟨Bz p, c⟩) (.spl ⟨Bz q, d⟩)) v := by
  refine (C136_many_violated ⟨Bz_clamped _, Bz_clamped _, ?_, ?_⟩).2 ?_
  · exact (Bz_first p).trans (Bz_first q).symm
  · exact (Bz_last p).trans (Bz_last q).symm
  · show 501 < ((Bz p).mul (Bz q)).len
    rw [Bz_mul, Bz_len]
    omega

example (c d : List ℝ) : ¬ ∃ v, Expr.Runs (.mul (.spl ⟨Bz 300, c⟩) (.spl ⟨Bz 300, d⟩)) v := product_out_of_reach 300 300 (by norm_num) c d

end Verif.Spline
