import Verif.Spline.Piece
import Verif.Spline.Shift

/-! # Property C119: extrapolation over an extra knot interval

Mirrors `extrapolate_T` and `extrapolate` of `omgtools/basics/spline_extra.py`. -/

set_option linter.unusedSectionVars false

namespace Verif.Spline

open Finset Polynomial

section Model
variable {K : Type*} [Field K] [LinearOrder K]

/-- `Basis.greville`, spline.py:196-199. -/
def Basis.greville (b : Basis K) : List K :=
  (List.range b.len).map fun k => 1 / (b.degree : K) * ((List.range b.degree).map fun r => b.k (k + 1 + r)).sum

/-- The counter `m` of spline_extra.py:113-115: the first `m ≥ 1` with
`knots[-deg-2-m] < knots[-deg-2]`; `none` is the `IndexError` when there is no such knot.  (There are
`len+deg+1` knots, so `knots[-deg-2]` has index `len-1`.) -/
def lastMult (b : Basis K) : Option ℕ :=
  ((List.range (b.len - 1)).find? fun r => decide (b.k (b.len - 1 - (r + 1)) < b.k (b.len - 1))).map (· + 1)

/-- `knots2`, `basis2`, spline_extra.py:116-118. -/
def Basis.extend (b : Basis K) (m : ℕ) (te : K) : Basis K :=
  ⟨b.knots.take b.len ++ List.replicate m (b.k b.len)
    ++ List.replicate (b.degree + 1) (b.knots.getLastD 0 + te), b.degree⟩

/-- The matrices `A1`, `B1` after `i` passes, spline_extra.py:136-145; `M` is `N+m` with the new knots
and `N` with the old ones. -/
def derMat (κ : ℕ → K) (deg M : ℕ) : ℕ → ℕ → ℕ → K
  | 0, j, q => if j = q then 1 else 0
  | i + 1, j, q => -((deg - i : ℕ) : K) / (κ (j + M) - κ (j + M - deg + i)) * derMat κ deg M i j q
      + ((deg - i : ℕ) : K) / (κ (j + M) - κ (j + M - deg + i)) * derMat κ deg M i (j + 1) q

/-- The point of row `r`: one of the last `deg+1-m` Greville points, spline_extra.py:124. -/
def evalPoint (b : Basis K) (m r : ℕ) : K := b.greville.getD (b.len - (b.degree + 1 - m) + r) 0

/-- Entry `[r, q]` of the matrix `A`, spline_extra.py:119-150: evaluation rows, then derivative rows. -/
def extAe (b : Basis K) (m : ℕ) (te : K) (r q : ℕ) : K :=
  if r < b.degree + 1 - m then
    (if q < b.degree + 1 - m then (b.extend m te).fn (b.len - (b.degree + 1) + m + q) (evalPoint b m r) else 0)
  else if b.degree + 1 ≤ m ∧ r = 0 then (if q = 0 then 1 else 0)
  else derMat (b.extend m te).k b.degree (b.len + m) r 0 q

/-- Entry `[r, q]` of the matrix `B`, spline_extra.py:119-150. -/
def extBe (b : Basis K) (m : ℕ) (te : K) (r q : ℕ) : K :=
  if r < b.degree + 1 - m then
    (if q < m then b.fn (b.len - (b.degree + 1) + q) (evalPoint b m r)
        - (b.extend m te).fn (b.len - (b.degree + 1) + q) (evalPoint b m r)
     else b.fn (b.len - (b.degree + 1) + q) (evalPoint b m r))
  else if b.degree + 1 ≤ m ∧ r = 0 then (if q = b.degree then 1 else 0)
  else derMat b.k b.degree b.len r (b.degree - r) q

/-- The matrix `A`. -/
def extA (b : Basis K) (m : ℕ) (te : K) : Matrix (Fin (b.degree + 1)) (Fin (b.degree + 1)) K :=
  Matrix.of fun r q => extAe b m te r.1 q.1

/-- The matrix `B`. -/
def extB (b : Basis K) (m : ℕ) (te : K) : Matrix (Fin (b.degree + 1)) (Fin (b.degree + 1)) K :=
  Matrix.of fun r q => extBe b m te r.1 q.1

/-- `np.linalg.solve`: `none` (`LinAlgError`) for a singular matrix. -/
noncomputable def npSolve {n : ℕ} (A B : Matrix (Fin n) (Fin n) K) : Option (Matrix (Fin n) (Fin n) K) :=
  if A.det = 0 then none else some (A⁻¹ * B)

/-- `_T[abs(_T) < tol] = 0.`, spline_extra.py:153. -/
def chopAt (tol x : K) : K := if |x| < tol then 0 else x

/-- `extrapolate_T(basis, t_extra)`, spline_extra.py:107-157: the number `m` of new rows and the
entries of the `(N+m) × N` matrix, for any threshold `tol`. -/
noncomputable def extrapolateTAt (tol : K) (b : Basis K) (te : K) : Option (ℕ × (ℕ → ℕ → K)) :=
  (lastMult b).bind fun m => (npSolve (extA b m te) (extB b m te)).map fun X =>
    (m, fun i j =>
      if h : b.len + m - (b.degree + 1) ≤ i ∧ b.len - (b.degree + 1) ≤ j ∧
          i - (b.len + m - (b.degree + 1)) < b.degree + 1 ∧ j - (b.len - (b.degree + 1)) < b.degree + 1 then
        chopAt tol (X ⟨i - (b.len + m - (b.degree + 1)), h.2.2.1⟩ ⟨j - (b.len - (b.degree + 1)), h.2.2.2⟩)
      else if i = j then 1 else 0)

/-- `extrapolate(coeffs, t_extra, basis)`, spline_extra.py:102-104: the coefficients on the extended
knots, together with these, for any threshold. -/
noncomputable def extrapolateAt (tol : K) (s : BSpline K) (te : K) : Option (BSpline K) :=
  (extrapolateTAt tol s.basis te).map fun mT => ⟨s.basis.extend mT.1 te,
    (List.range (s.basis.len + mT.1)).map fun i =>
      ((List.range s.basis.len).map fun j => mT.2 i j * s.coeffs.getD j 0).sum⟩

/-- The threshold in the code, spline_extra.py:153. -/
def chop (x : K) : K := chopAt (1 / 10 ^ 10) x

/-- `extrapolate_T(basis, t_extra)`, spline_extra.py:107-157. -/
noncomputable def extrapolateT (b : Basis K) (te : K) : Option (ℕ × (ℕ → ℕ → K)) := extrapolateTAt (1 / 10 ^ 10) b te

/-- `extrapolate(coeffs, t_extra, basis)`, spline_extra.py:102-104. -/
noncomputable def extrapolate (s : BSpline K) (te : K) : Option (BSpline K) := extrapolateAt (1 / 10 ^ 10) s te

end Model

variable {K : Type*} [Field K] [LinearOrder K] [IsStrictOrderedRing K]

theorem k_lt_of_count {b : Basis K} (hb : b.knots.Pairwise (· ≤ ·)) {M : ℕ} (h : ∀ τ, b.knots.count τ ≤ M)
    (i : ℕ) (hi : i + M < b.knots.length) : b.k i < b.k (i + M) := by
  rcases (Basis.k_mono hb (by omega : i ≤ i + M)).lt_or_eq with l | e
  · exact l
  · exfalso
    have f := filter_le_length b.knots (b.k i)
    have g1 := (k_le_iff hb (b.k i) (i + M) hi).1 e.ge
    have g2 : ¬ i < (b.knots.filter (· < b.k i)).length := fun hc =>
      lt_irrefl _ ((k_lt_iff hb (b.k i) i (by omega)).2 hc)
    have := h (b.k i)
    omega

theorem exists_piece {k : ℕ → K} {j p : ℕ} (h : k j < k (j + p + 1)) :
    ∃ m, j ≤ m ∧ m ≤ j + p ∧ k m < k (m + 1) := by
  by_contra hc
  push Not at hc
  have : ∀ r, r ≤ p + 1 → k (j + r) ≤ k j := by
    intro r
    induction r with
    | zero => intro _; exact le_rfl
    | succ r ih => intro hr; exact (hc (j + r) (by omega) (by omega)).trans (ih (by omega))
  exact absurd h (not_lt.2 (this (p + 1) le_rfl))

theorem lam_congr {k k' : ℕ → K} {p i : ℕ} (h : ∀ r, r < p → k (i + 1 + r) = k' (i + 1 + r)) (f : K[X]) :
    lam k p i f = lam k' p i f := by
  have : Psi k p i = Psi k' p i := by
    unfold Psi
    exact Finset.prod_congr rfl fun r hr => by rw [h r (Finset.mem_range.1 hr)]
  unfold lam fixL
  rw [this]

theorem extend_k {b : Basis K} (hb : b.Clamped) (m : ℕ) (te : K) (i : ℕ) :
    (b.extend m te).k i = if i < b.len then b.k i else if i < b.len + m then b.k b.len
      else b.k b.len + te := by
  have hl := hb.length_eq
  have hlast : (b.extend m te).knots.getLastD 0 = b.k b.len + te := by
    unfold Basis.extend
    dsimp only
    rw [List.replicate_succ', ← List.append_assoc, List.getLastD_concat, getLastD_eq_k hb]
  have hlast' : b.knots.getLastD 0 = b.k b.len := getLastD_eq_k hb
  have : (b.extend m te).k i = (b.extend m te).knots.getD i (b.k b.len + te) := by
    change (b.extend m te).knots.getD i ((b.extend m te).knots.getLastD 0) = _
    rw [hlast]
  rw [this]
  unfold Basis.extend
  dsimp only
  rw [hlast']
  by_cases h1 : i < b.len
  · rw [if_pos h1, List.getD_append _ _ _ _ (by simp; omega), List.getD_append _ _ _ _ (by simp; omega),
      List.getD_eq_getElem _ _ (by simp; omega), List.getElem_take]
    unfold Basis.k
    rw [List.getD_eq_getElem _ _ (by omega)]
  · rw [if_neg h1]
    by_cases h2 : i < b.len + m
    · rw [if_pos h2, List.getD_append _ _ _ _ (by simp; omega), List.getD_append_right _ _ _ _ (by simp; omega),
        List.getD_eq_getElem _ _ (by simp; omega), List.getElem_replicate]
    · rw [if_neg h2, List.getD_append_right _ _ _ _ (by simp; omega)]
      rcases Nat.lt_or_ge (i - (b.len + m)) (b.degree + 1) with h3 | h3
      · rw [List.getD_eq_getElem _ _ (by simp; omega), List.getElem_replicate]
      · rw [List.getD_eq_default _ _ (by simp; omega)]

theorem mem_extend {b : Basis K} (hb : b.Clamped) {m : ℕ} (hm : 1 ≤ m) (te x : K) :
    x ∈ (b.extend m te).knots ↔ x ∈ b.knots ∨ x = b.k b.len + te := by
  have hl := hb.length_eq
  have hlast' : b.knots.getLastD 0 = b.k b.len := getLastD_eq_k hb
  have hx : x ∈ b.knots ↔ x ∈ b.knots.take b.len ∨ x = b.k b.len := by
    constructor
    · intro h
      obtain ⟨j, hj, rfl⟩ := mem_k h
      rcases Nat.lt_or_ge j b.len with l | g
      · left
        rw [List.mem_iff_getElem]
        refine ⟨j, by simp; omega, ?_⟩
        rw [List.getElem_take]; unfold Basis.k; rw [List.getD_eq_getElem]
      · right; exact hb.last j g
    · rintro (h | h)
      · exact List.mem_of_mem_take h
      · rw [h]; exact k_mem hb _
  unfold Basis.extend
  dsimp only
  rw [List.mem_append, List.mem_append, List.mem_replicate, List.mem_replicate, hlast', hx]
  constructor
  · rintro ((h | h) | h)
    · exact Or.inl (Or.inl h)
    · exact Or.inl (Or.inr h.2)
    · exact Or.inr h.2
  · rintro ((h | h) | h)
    · exact Or.inl (Or.inl h)
    · exact Or.inl (Or.inr ⟨by omega, h⟩)
    · exact Or.inr ⟨by omega, h⟩

theorem count_extend {b : Basis K} (hb : b.Clamped) (m : ℕ) {te : K} (hte : 0 < te) {x : K}
    (hx : x < b.k b.len) : (b.extend m te).knots.count x = b.knots.count x := by
  have hl := hb.length_eq
  have hlast' : b.knots.getLastD 0 = b.k b.len := getLastD_eq_k hb
  unfold Basis.extend
  dsimp only
  rw [List.count_append, List.count_append, List.count_replicate, List.count_replicate, hlast']
  have e1 : (b.k b.len == x) = false := by simpa using hx.ne'
  have e2 : (b.k b.len + te == x) = false := by simpa using (hx.trans (lt_add_of_pos_right _ hte)).ne'
  rw [e1, e2]
  have hsplit : b.knots.count x = (b.knots.take b.len).count x + (b.knots.drop b.len).count x := by
    rw [← List.count_append, List.take_append_drop]
  rw [hsplit]
  have : (b.knots.drop b.len).count x = 0 := by
    rw [List.count_eq_zero]
    intro h
    obtain ⟨j, hj, e⟩ := List.getElem_of_mem h
    rw [List.getElem_drop] at e
    have : b.k (b.len + j) = x := by
      unfold Basis.k; rw [List.getD_eq_getElem _ _ (by simp at hj; omega)]; exact e
    rw [hb.last _ (by omega)] at this
    exact hx.ne' this
  rw [this]
  simp

theorem extend_clamped {b : Basis K} (hb : b.Clamped) (m : ℕ) {te : K} (hte : 0 < te) :
    (b.extend m te).Clamped ∧ (b.extend m te).len = b.len + m := by
  have hl := hb.length_eq
  have hlt := hb.lt_len
  have hlast' : b.knots.getLastD 0 = b.k b.len := getLastD_eq_k hb
  have hlen : (b.extend m te).knots.length = b.len + m + (b.degree + 1) := by
    simp [Basis.extend]; omega
  have hlen' : (b.extend m te).len = b.len + m := by
    unfold Basis.len; rw [hlen]; change b.len + m + (b.degree + 1) - b.degree - 1 = _; omega
  have hmono : ∀ i, i + 1 < (b.extend m te).knots.length → (b.extend m te).k i ≤ (b.extend m te).k (i + 1) := by
    intro i _
    rw [extend_k hb, extend_k hb]
    have hpos : b.k b.len ≤ b.k b.len + te := (lt_add_of_pos_right _ hte).le
    by_cases h1 : i + 1 < b.len
    · rw [if_pos h1, if_pos (by omega)]; exact hb.mono (by omega)
    · rw [if_neg h1]
      by_cases h2 : i + 1 < b.len + m
      · rw [if_pos h2]
        by_cases h3 : i < b.len
        · rw [if_pos h3]; exact hb.mono (by omega)
        · rw [if_neg h3, if_pos (by omega)]
      · rw [if_neg h2]
        by_cases h3 : i < b.len
        · rw [if_pos h3]; exact (hb.mono (by omega)).trans hpos
        · rw [if_neg h3]
          split_ifs
          · exact hpos
          · exact le_rfl
  refine ⟨⟨?_, ?_, ?_, ?_, ?_⟩, hlen'⟩
  · rw [← List.isChain_iff_pairwise, List.isChain_iff_getElem]
    intro i hi
    have := hmono i (by omega)
    unfold Basis.k at this
    rwa [List.getD_eq_getElem _ _ (by omega), List.getD_eq_getElem _ _ (by omega)] at this
  · rw [hlen]; change 2 * (b.degree + 1) ≤ _; omega
  · intro i hi
    have hi : i ≤ b.degree := hi
    rw [extend_k hb, extend_k hb, if_pos (by omega), if_pos (by omega)]
    exact hb.first i hi
  · rw [extend_k hb, extend_k hb]
    change (if b.degree < b.len then b.k b.degree else _) < (if b.degree + 1 < b.len then b.k (b.degree + 1) else _)
    rw [if_pos hlt]
    by_cases h : b.degree + 1 < b.len
    · rw [if_pos h]; exact hb.start
    · rw [if_neg h]
      have e : b.k (b.degree + 1) = b.k b.len := by congr 1; omega
      have h1 : b.k b.degree < b.k b.len := e ▸ hb.start
      change b.k b.degree < (if b.degree + 1 < b.len + m then b.k b.len else b.k b.len + te)
      split_ifs
      · exact h1
      · exact h1.trans (lt_add_of_pos_right _ hte)
  · intro i h1 h2
    rw [hlen'] at h1 ⊢
    rw [extend_k hb, extend_k hb, if_neg (by omega), if_neg (by omega), if_neg (by omega), if_neg (by omega)]

/-- The trajectory that continues with the last polynomial is a spline on the extended knots. -/
theorem exists_extension {s : BSpline K} (hb : s.basis.Clamped) {m : ℕ} (hm : 1 ≤ m) {te : K} (hte : 0 < te) :
    ∃ t : BSpline K, t.basis = s.basis.extend m te ∧ t.WF ∧
      (∀ y ∈ s.basis.knots, s.basis.k 0 < y → t.polyAt y = s.polyAt y) ∧
      t.polyAt (s.basis.k s.basis.len + te) = s.polyAt (s.basis.k s.basis.len) := by
  classical
  obtain ⟨cb, cl⟩ := extend_clamped hb m hte
  have hlt := hb.lt_len
  have k0 : (s.basis.extend m te).k 0 = s.basis.k 0 := by
    rw [extend_k hb, if_pos (by omega)]
  have hpos : s.basis.k s.basis.len < s.basis.k s.basis.len + te := lt_add_of_pos_right _ hte
  obtain ⟨t, ht, hw, hF⟩ := curry_schoenberg cb
    (fun y => if y ≤ s.basis.k s.basis.len then s.polyAt y else s.polyAt (s.basis.k s.basis.len))
    (by intro y; split_ifs <;> exact polyAt_natDegree _ _)
    (by
      intro τ y hτ hy h0 hτy hno
      rw [k0] at h0
      by_cases hyl : y ≤ s.basis.k s.basis.len
      · have hτl := hτy.trans_le hyl
        rw [if_pos hyl, if_pos hτl.le, count_extend hb m hte hτl]
        exact (polyAt_smooth hb h0 hτy hyl (fun u hu h => hno u ((mem_extend hb hm te u).2 (Or.inl hu)) h)).1
      · have hlm : s.basis.k s.basis.len ∈ (s.basis.extend m te).knots :=
          (mem_extend hb hm te _).2 (Or.inl (k_mem hb _))
        have h1 : s.basis.k s.basis.len ≤ τ := by
          by_contra hc
          exact hno _ hlm ⟨not_le.1 hc, not_le.1 hyl⟩
        have h2 : τ = s.basis.k s.basis.len := by
          rcases (mem_extend hb hm te τ).1 hτ with h | h
          · obtain ⟨j, -, rfl⟩ := mem_k h
            rcases Nat.lt_or_ge j s.basis.len with l | g
            · exact le_antisymm (hb.mono l.le) h1
            · exact hb.last j g
          · exfalso
            rcases (mem_extend hb hm te y).1 hy with h' | h'
            · obtain ⟨j, -, rfl⟩ := mem_k h'
              refine hyl ?_
              rcases Nat.lt_or_ge j s.basis.len with l | g
              · exact hb.mono l.le
              · exact (hb.last j g).le
            · rw [h, h'] at hτy; exact lt_irrefl _ hτy
        rw [if_neg hyl, if_pos h2.le, h2, sub_self]
        exact dvd_zero _)
  refine ⟨t, ht, hw, ?_, ?_⟩
  · intro y hy h0
    rw [hF y ((mem_extend hb hm te y).2 (Or.inl hy)) (by rw [k0]; exact h0), if_pos]
    obtain ⟨j, -, rfl⟩ := mem_k hy
    rcases Nat.lt_or_ge j s.basis.len with l | g
    · exact hb.mono l.le
    · exact (hb.last j g).le
  · rw [hF _ ((mem_extend hb hm te _).2 (Or.inr rfl)) (by rw [k0]; exact hb.first_lt_last.trans hpos),
      if_neg (not_le.2 hpos)]

/-! ## The linear system -/

/-- Repeated differences: `derMat` applied to a vector. -/
def derVec (κ : ℕ → K) (deg M : ℕ) (v : ℕ → K) : ℕ → ℕ → K
  | 0, j => v j
  | i + 1, j => ((deg - i : ℕ) : K) / (κ (j + M) - κ (j + M - deg + i))
      * (derVec κ deg M v i (j + 1) - derVec κ deg M v i j)

theorem derMat_sum (κ : ℕ → K) (deg M : ℕ) (v : ℕ → K) (i j : ℕ) (h : i + j ≤ deg) :
    ∑ q ∈ range (deg + 1), derMat κ deg M i j q * v q = derVec κ deg M v i j := by
  induction i generalizing j with
  | zero =>
    rw [derVec, Finset.sum_eq_single j]
    · rw [derMat, if_pos rfl, one_mul]
    · intro q _ hq; rw [derMat, if_neg (Ne.symm hq), zero_mul]
    · intro h'; exact absurd (Finset.mem_range.2 (by omega)) h'
  | succ i ih =>
    rw [derVec, ← ih j (by omega), ← ih (j + 1) (by omega), ← Finset.sum_sub_distrib, Finset.mul_sum]
    refine Finset.sum_congr rfl fun q _ => ?_
    rw [derMat]; ring

theorem pieceSum_congr {k : ℕ → K} {m d : ℕ} {c c' : ℕ → K} (h : ∀ j, j ≤ d → c j = c' j) :
    pieceSum k m d c = pieceSum k m d c' := by
  unfold pieceSum
  refine Finset.sum_congr rfl fun j hj => ?_
  rw [h j (by rw [Finset.mem_range] at hj; omega)]

theorem derivative_pieceSum {κ : ℕ → K} (hk : Monotone κ) {deg M : ℕ} (hM : deg + 1 ≤ M) (v : ℕ → K) (i : ℕ)
    (hi : i ≤ deg) :
    derivative^[i] (pieceSum κ (M - 1) deg v) = pieceSum κ (M - 1) (deg - i) (derVec κ deg M v i) := by
  induction i with
  | zero => rfl
  | succ i ih =>
    obtain ⟨d, hd⟩ : ∃ d, deg - i = d + 1 := ⟨deg - i - 1, by omega⟩
    rw [Function.iterate_succ_apply', ih (by omega), hd, pieceSum_derivative hk d (by omega),
      show deg - (i + 1) = d by omega]
    refine pieceSum_congr fun j hj => ?_
    unfold diffC
    rw [derVec, hd, show M - 1 + 1 + j = j + M by omega, show M - 1 - d + j = j + M - deg + i by omega]
    push_cast
    rfl

theorem pieceSum_eval_right {κ : ℕ → K} {m : ℕ} (hm : κ m < κ (m + 1)) (d : ℕ) (hd : d ≤ m)
    (h : ∀ r, r < d → κ (m + 1 + r) = κ (m + 1)) (c : ℕ → K) : (pieceSum κ m d c).eval (κ (m + 1)) = c d := by
  unfold pieceSum
  rw [eval_finsetSum, Finset.sum_eq_single d]
  · rw [eval_mul, eval_C, pieceP_right hm d h, if_pos (by omega), mul_one]
  · intro j hj hne
    rw [Finset.mem_range] at hj
    rw [eval_mul, pieceP_right hm d h, if_neg (by omega), mul_zero]
  · intro h'; exact absurd (Finset.mem_range.2 (by omega)) h'

theorem pieceSum_eval_left {κ : ℕ → K} {m : ℕ} (hm : κ m < κ (m + 1)) (d : ℕ) (hd : d ≤ m)
    (h : ∀ r, r < d → κ (m - r) = κ m) (c : ℕ → K) : (pieceSum κ m d c).eval (κ m) = c 0 := by
  unfold pieceSum
  rw [eval_finsetSum, Finset.sum_eq_single 0]
  · rw [eval_mul, eval_C, pieceP_left hm d hd h, if_pos (by omega), mul_one]
  · intro j hj hne
    rw [eval_mul, pieceP_left hm d hd h, if_neg (by omega), mul_zero]
  · intro h'; exact absurd (Finset.mem_range.2 (by omega)) h'

/-- Position of a piece that ends in the knot `m+1`. -/
theorem polyAt_piece {s : BSpline K} (hb : s.basis.Clamped) {m : ℕ} (hm : s.basis.k m < s.basis.k (m + 1))
    (hN : m < s.basis.len) :
    s.polyAt (s.basis.k (m + 1))
      = ∑ i ∈ range s.basis.len, C (s.coeffs.getD i 0) * pieceP s.basis.k m s.basis.degree i := by
  unfold BSpline.polyAt
  have : insPos s.basis (s.basis.k (m + 1)) = m :=
    insPos_unique hb ((hb.mono (Nat.zero_le m)).trans_lt hm) (hb.mono (by omega)) hm le_rfl
  rw [this]

theorem piece_bounds {b : Basis K} (hb : b.Clamped) {m : ℕ} (hm : b.k m < b.k (m + 1)) :
    b.degree ≤ m ∧ m < b.len := by
  constructor
  · by_contra h
    rw [hb.first m (by omega), hb.first (m + 1) (by omega)] at hm
    exact lt_irrefl _ hm
  · by_contra h
    rw [hb.last m (by omega), hb.last (m + 1) (by omega)] at hm
    exact lt_irrefl _ hm

/-- The coefficients that keep their support. -/
theorem extension_coeff {s t : BSpline K} (hb : s.basis.Clamped) {m : ℕ} (hm' : m ≤ s.basis.degree + 1)
    {te : K} (hte : 0 < te) (hcnt : ∀ τ, s.basis.knots.count τ ≤ s.basis.degree + 1)
    (ht : t.basis = s.basis.extend m te)
    (hp : ∀ y ∈ s.basis.knots, s.basis.k 0 < y → t.polyAt y = s.polyAt y) (j : ℕ)
    (hj : j + s.basis.degree + 1 < s.basis.len + m) :
    t.coeffs.getD j 0 = s.coeffs.getD j 0 := by
  have hl := hb.length_eq
  obtain ⟨cb, cl⟩ := extend_clamped hb m hte
  obtain ⟨mm, h1, h2, h3⟩ := exists_piece (k := s.basis.k) (j := j) (p := s.basis.degree)
    (k_lt_of_count hb.sorted hcnt j (by omega))
  obtain ⟨g1, g2⟩ := piece_bounds hb h3
  have hk2 : ∀ i, i < s.basis.len + m → (s.basis.extend m te).k i = s.basis.k i := by
    intro i hi
    rw [extend_k hb]
    by_cases h : i < s.basis.len
    · rw [if_pos h]
    · rw [if_neg h, if_pos hi, hb.last i (by omega)]
  have hmm : mm + 1 < s.basis.len + m := by omega
  have h3' : t.basis.k mm < t.basis.k (mm + 1) := by
    rw [ht, hk2 mm (by omega), hk2 (mm + 1) hmm]; exact h3
  have cb' : t.basis.Clamped := ht ▸ cb
  have cl' : t.basis.len = s.basis.len + m := by rw [ht]; exact cl
  have cd' : t.basis.degree = s.basis.degree := by rw [ht]; rfl
  have e1 := coeff_eq_lam hb.mono h3 g1 g2 (fun i => s.coeffs.getD i 0) j h1 h2
  have e2 := coeff_eq_lam cb'.mono h3' (p := t.basis.degree) (N := t.basis.len) (by omega) (by omega)
    (fun i => t.coeffs.getD i 0) j h1 (by omega)
  rw [← polyAt_piece hb h3 g2] at e1
  rw [← polyAt_piece cb' h3' (by omega)] at e2
  rw [e1, e2, ht, hk2 (mm + 1) hmm, hp _ (k_mem hb _) ((hb.mono (Nat.zero_le _)).trans_lt h3)]
  exact lam_congr (fun r hr => hk2 _ (by have : r < s.basis.degree := hr; omega)) _

/-- Values of the extension. -/
theorem extension_eval {s t : BSpline K} (hb : s.basis.Clamped) (hs : s.WF) {m : ℕ} (hm : 1 ≤ m)
    {te : K} (hte : 0 < te) (ht : t.basis = s.basis.extend m te) (hw : t.WF)
    (hp : ∀ y ∈ s.basis.knots, s.basis.k 0 < y → t.polyAt y = s.polyAt y)
    (hE : t.polyAt (s.basis.k s.basis.len + te) = s.polyAt (s.basis.k s.basis.len)) :
    (∀ x, s.basis.k 0 ≤ x → x ≤ s.basis.k s.basis.len → t.eval x = s.eval x) ∧
    (∀ x, s.basis.k s.basis.len < x → x ≤ s.basis.k s.basis.len + te →
      t.eval x = (s.polyAt (s.basis.k s.basis.len)).eval x) := by
  have hlt := hb.lt_len
  obtain ⟨cb, cl⟩ := extend_clamped hb m hte
  have cb' : t.basis.Clamped := ht ▸ cb
  have k0 : t.basis.k 0 = s.basis.k 0 := by rw [ht, extend_k hb, if_pos (by omega)]
  have kl : t.basis.k t.basis.len = s.basis.k s.basis.len + te := by
    rw [ht, cl, extend_k hb, if_neg (by omega), if_neg (by omega)]
  have hpos : s.basis.k s.basis.len < s.basis.k s.basis.len + te := lt_add_of_pos_right _ hte
  have hno' : ∀ x y, x ≤ y → y ≤ s.basis.k s.basis.len → (∀ u ∈ s.basis.knots, ¬ (x ≤ u ∧ u < y)) →
      ∀ u ∈ t.basis.knots, ¬ (x ≤ u ∧ u < y) := by
    intro x y _ hy h u hu hc
    rw [ht] at hu
    rcases (mem_extend hb hm te u).1 hu with h' | h'
    · exact h u h' hc
    · rw [h'] at hc; exact absurd (hc.2.trans_le hy) (not_lt.2 hpos.le)
  refine ⟨fun x h0 h1 => ?_, fun x h0 h1 => ?_⟩
  · obtain ⟨y, hy, hy0, hxy, hc, hno⟩ := next_knot hb h0 h1
    have hyl : y ≤ s.basis.k s.basis.len := by
      obtain ⟨j, -, rfl⟩ := mem_k hy
      rcases Nat.lt_or_ge j s.basis.len with l | g
      · exact hb.mono l.le
      · exact (hb.last j g).le
    rcases h0.eq_or_lt with e | h0
    · subst e
      rw [eval_polyAt_first hb hs hy0 hno hyl, ← hp y hy hy0]
      have := eval_polyAt_first cb' hw (y := y) (by rw [k0]; exact hy0) (by
        intro u hu hc
        rw [k0] at hc
        rw [ht] at hu
        rcases (mem_extend hb hm te u).1 hu with h' | h'
        · exact hno u h' hc
        · rw [h'] at hc; exact absurd (hc.2.trans_le hyl) (not_lt.2 hpos.le)) (by rw [kl]; exact hyl.trans hpos.le)
      rw [k0] at this
      exact this
    · have hno2 : ∀ u ∈ s.basis.knots, ¬ (x ≤ u ∧ u < y) := by
        rcases hc with h | h
        · exact absurd h h0.ne'
        · exact h
      rw [eval_polyAt hb hs h0 hxy hyl hno2, ← hp y hy hy0]
      exact eval_polyAt cb' hw (by rw [k0]; exact h0) hxy (by rw [kl]; exact hyl.trans hpos.le)
        (hno' x y hxy hyl hno2)
  · rw [← hE]
    refine eval_polyAt cb' hw (by rw [k0]; exact hb.first_lt_last.trans h0) h1 kl.ge ?_
    intro u hu hc
    rw [ht] at hu
    rcases (mem_extend hb hm te u).1 hu with h' | h'
    · obtain ⟨j, -, rfl⟩ := mem_k h'
      have : s.basis.k j ≤ s.basis.k s.basis.len := by
        rcases Nat.lt_or_ge j s.basis.len with l | g
        · exact hb.mono l.le
        · exact (hb.last j g).le
      exact absurd (hc.1.trans this) (not_le.2 h0)
    · rw [h'] at hc; exact lt_irrefl _ hc.2

theorem evalPoint_range {b : Basis K} (hb : b.Clamped) {m r : ℕ} (hm : 1 ≤ m) (hr : r < b.degree + 1 - m) :
    b.k 0 < evalPoint b m r ∧ evalPoint b m r ≤ b.k b.len := by
  have hlt := hb.lt_len
  have hp : 1 ≤ b.degree := by omega
  have hp' : (0 : K) < b.degree := by exact_mod_cast hp
  have e : evalPoint b m r
      = (∑ i ∈ range b.degree, b.k (b.len - (b.degree + 1 - m) + r + 1 + i)) / (b.degree : K) := by
    unfold evalPoint Basis.greville
    rw [List.getD_eq_getElem _ _ (by simp; omega), List.getElem_map, List.getElem_range, sum_map_range,
      one_div, inv_mul_eq_div]
  have hle : ∀ i, b.k i ≤ b.k b.len := by
    intro i
    rcases Nat.lt_or_ge i b.len with l | g
    · exact hb.mono l.le
    · exact (hb.last i g).le
  rw [e, lt_div_iff₀ hp', div_le_iff₀ hp']
  constructor
  · have : b.k 0 * (b.degree : K) = ∑ _i ∈ range b.degree, b.k 0 := by
      rw [Finset.sum_const, Finset.card_range, nsmul_eq_mul, mul_comm]
    rw [this]
    refine Finset.sum_lt_sum (fun i _ => hb.mono (Nat.zero_le _)) ⟨b.degree - 1, Finset.mem_range.2 (by omega), ?_⟩
    rw [hb.last (b.len - (b.degree + 1 - m) + r + 1 + (b.degree - 1)) (by omega)]
    exact hb.first_lt_last
  · have : b.k b.len * (b.degree : K) = ∑ _i ∈ range b.degree, b.k b.len := by
      rw [Finset.sum_const, Finset.card_range, nsmul_eq_mul, mul_comm]
    rw [this]
    exact Finset.sum_le_sum fun i _ => hle _

/-- A sum over `range (a + n)` from `a` on. -/
theorem sum_range_from (a n : ℕ) (f : ℕ → K) :
    ∑ i ∈ range (a + n), f i = ∑ i ∈ range a, f i + ∑ q ∈ range n, f (a + q) := by
  rw [Finset.sum_range_add]

/-- The coefficients of the extension solve the system of `extrapolate_T`. -/
theorem extension_system {s t : BSpline K} (hb : s.basis.Clamped) (hs : s.WF) {m : ℕ} (hm : 1 ≤ m)
    (hm' : m ≤ s.basis.degree + 1) {te : K} (hte : 0 < te)
    (hcnt : ∀ τ, s.basis.knots.count τ ≤ s.basis.degree + 1)
    (ht : t.basis = s.basis.extend m te) (hw : t.WF)
    (hp : ∀ y ∈ s.basis.knots, s.basis.k 0 < y → t.polyAt y = s.polyAt y)
    (hE : t.polyAt (s.basis.k s.basis.len + te) = s.polyAt (s.basis.k s.basis.len))
    (r : ℕ) (hr : r < s.basis.degree + 1) :
    ∑ q ∈ range (s.basis.degree + 1), extAe s.basis m te r q
        * t.coeffs.getD (s.basis.len + m - (s.basis.degree + 1) + q) 0
      = ∑ q ∈ range (s.basis.degree + 1), extBe s.basis m te r q
        * s.coeffs.getD (s.basis.len - (s.basis.degree + 1) + q) 0 := by
  have hl := hb.length_eq
  have hlt := hb.lt_len
  obtain ⟨cb, cl⟩ := extend_clamped hb m hte
  have cb' : t.basis.Clamped := ht ▸ cb
  have cl' : t.basis.len = s.basis.len + m := by rw [ht]; exact cl
  have cd' : t.basis.degree = s.basis.degree := by rw [ht]; rfl
  have hpos : s.basis.k s.basis.len < s.basis.k s.basis.len + te := lt_add_of_pos_right _ hte
  have hcoef := extension_coeff hb hm' hte hcnt ht hp
  -- derivatives at the old end
  have hder : ∀ i, i ≤ s.basis.degree → s.basis.degree + 1 ≤ m + i →
      derVec (s.basis.extend m te).k s.basis.degree (s.basis.len + m)
          (fun q => t.coeffs.getD (s.basis.len + m - (s.basis.degree + 1) + q) 0) i 0
        = derVec s.basis.k s.basis.degree s.basis.len
          (fun q => s.coeffs.getD (s.basis.len - (s.basis.degree + 1) + q) 0) i (s.basis.degree - i) := by
    intro i hi him
    have hlastlt : s.basis.k (s.basis.len - 1) < s.basis.k (s.basis.len - 1 + 1) := by
      have := k_lt_of_count hb.sorted hcnt (s.basis.len - 1) (by omega)
      rw [Nat.sub_add_cancel (by omega)]
      rwa [hb.last (s.basis.len - 1 + (s.basis.degree + 1)) (by omega)] at this
    have p1 := polyAt_piece hb hlastlt (by omega)
    rw [Nat.sub_add_cancel (by omega), sum_eq_pieceSum s.basis.k (by omega) (by omega)] at p1
    have h2 : t.basis.k (s.basis.len + m - 1) < t.basis.k (s.basis.len + m - 1 + 1) := by
      rw [ht, extend_k hb, extend_k hb, if_neg (by omega), if_pos (by omega), if_neg (by omega), if_neg (by omega)]
      exact hpos
    have p2 := polyAt_piece cb' h2 (by omega)
    have e2 : t.basis.k (s.basis.len + m - 1 + 1) = s.basis.k s.basis.len + te := by
      rw [ht, extend_k hb, if_neg (by omega), if_neg (by omega)]
    rw [e2, sum_eq_pieceSum t.basis.k (by omega) (by omega), hE, p1] at p2
    have p3 := congrArg (fun f => eval (s.basis.k s.basis.len) (derivative^[i] f)) p2
    rw [derivative_pieceSum hb.mono (by omega) _ i hi, cd',
      derivative_pieceSum cb'.mono (by omega) _ i (by omega)] at p3
    have r1 := pieceSum_eval_right hlastlt (s.basis.degree - i) (by omega)
      (by intro r _; rw [Nat.sub_add_cancel (by omega), hb.last _ (by omega)])
      (derVec s.basis.k s.basis.degree s.basis.len
        (fun j => s.coeffs.getD (s.basis.len - 1 - s.basis.degree + j) 0) i)
    rw [Nat.sub_add_cancel (by omega)] at r1
    have kl : ∀ r, r < m → t.basis.k (s.basis.len + m - 1 - r) = s.basis.k s.basis.len := by
      intro r hr
      rw [ht, extend_k hb, if_neg (by omega), if_pos (by omega)]
    have r2 := pieceSum_eval_left h2 (s.basis.degree - i) (by omega)
      (by intro r hr; rw [kl r (by omega), ← kl 0 (by omega), Nat.sub_zero])
      (derVec t.basis.k s.basis.degree (s.basis.len + m)
        (fun j => t.coeffs.getD (s.basis.len + m - 1 - s.basis.degree + j) 0) i)
    have k0' : t.basis.k (s.basis.len + m - 1) = s.basis.k s.basis.len := kl 0 (by omega)
    rw [k0'] at r2
    rw [r1, r2] at p3
    rw [ht] at p3
    rw [show s.basis.len + m - (s.basis.degree + 1) = s.basis.len + m - 1 - s.basis.degree by omega,
      show s.basis.len - (s.basis.degree + 1) = s.basis.len - 1 - s.basis.degree by omega]
    exact p3.symm
  by_cases h1 : r < s.basis.degree + 1 - m
  · -- evaluation rows
    obtain ⟨g0, g1⟩ := evalPoint_range hb hm h1
    set g := evalPoint s.basis m r with hg
    have hev := (extension_eval hb hs hm hte ht hw hp hE).1 g g0.le g1
    rw [BSpline.eval_eq hs, BSpline.eval_eq hw, cl'] at hev
    set a := s.basis.len - (s.basis.degree + 1) with ha
    have hN : s.basis.len = a + (s.basis.degree + 1) := by omega
    have hfn : ∀ j, t.basis.fn j g = (s.basis.extend m te).fn j g := by intro j; rw [ht]
    have hsame : ∀ j, j < a → (s.basis.extend m te).fn j g = s.basis.fn j g := by
      intro j hj
      refine cox_congr g _ j ?_ ?_
      · rw [extend_k hb, if_pos (by omega)]
      · intro i _ hi
        have hi : i ≤ j + s.basis.degree + 1 := hi
        rw [extend_k hb, if_pos (by omega)]
    have hzero : ∀ q, (s.basis.extend m te).fn (s.basis.len + q) g = 0 := by
      intro q
      refine cox_eq_zero cb.mono ?_ _ _ (Or.inl ?_)
      · rw [extend_k hb, if_pos (by omega)]; exact g0
      · rw [extend_k hb, if_neg (by omega)]
        split_ifs
        · exact g1
        · exact g1.trans hpos.le
    rw [sum_range_from s.basis.len m] at hev
    rw [Finset.sum_eq_zero (s := range m) (fun q _ => by rw [hfn, hzero, mul_zero]), add_zero] at hev
    rw [hN, sum_range_from a, sum_range_from a] at hev
    have hhead : ∑ j ∈ range a, t.coeffs.getD j 0 * t.basis.fn j g
        = ∑ j ∈ range a, s.coeffs.getD j 0 * s.basis.fn j g :=
      Finset.sum_congr rfl fun j hj => by
        rw [Finset.mem_range] at hj
        rw [hfn, hsame j hj, hcoef j (by omega)]
    rw [hhead] at hev
    have hev := add_left_cancel hev
    -- split off the known coefficients
    have hsplit : s.basis.degree + 1 = m + (s.basis.degree + 1 - m) := by omega
    have hA : ∑ q ∈ range (s.basis.degree + 1), extAe s.basis m te r q
          * t.coeffs.getD (s.basis.len + m - (s.basis.degree + 1) + q) 0
        = ∑ q ∈ range (s.basis.degree + 1 - m), t.coeffs.getD (a + (m + q)) 0 * t.basis.fn (a + (m + q)) g := by
      rw [show s.basis.degree + 1 = (s.basis.degree + 1 - m) + m by omega, sum_range_from _ m,
        Nat.add_sub_cancel, Finset.sum_eq_zero (s := range m), add_zero]
      · refine Finset.sum_congr rfl fun q hq => ?_
        rw [Finset.mem_range] at hq
        unfold extAe
        rw [if_pos h1, if_pos hq, hfn, ← hg, ← ha, mul_comm,
          show s.basis.len + m - (s.basis.degree + 1 - m + m) + q = a + (m + q) by omega,
          show a + m + q = a + (m + q) by omega]
      · intro q _
        unfold extAe
        rw [if_pos h1, if_neg (by omega), zero_mul]
    have hB : ∑ q ∈ range (s.basis.degree + 1), extBe s.basis m te r q * s.coeffs.getD (a + q) 0
        = ∑ q ∈ range (s.basis.degree + 1), s.coeffs.getD (a + q) 0 * s.basis.fn (a + q) g
          - ∑ q ∈ range m, t.coeffs.getD (a + q) 0 * t.basis.fn (a + q) g := by
      rw [eq_sub_iff_add_eq]
      conv_lhs => rw [hsplit]
      conv_rhs => rw [hsplit]
      rw [sum_range_from m, sum_range_from m, add_right_comm, ← Finset.sum_add_distrib]
      congr 1
      · refine Finset.sum_congr rfl fun q hq => ?_
        rw [Finset.mem_range] at hq
        unfold extBe
        rw [if_pos h1, if_pos hq, hfn, ← hg, ← ha, hcoef (a + q) (by omega)]
        ring
      · refine Finset.sum_congr rfl fun q hq => ?_
        unfold extBe
        rw [if_pos h1, if_neg (by omega), ← hg, ← ha, mul_comm]
    rw [hA, hB, ← hev, eq_sub_iff_add_eq, add_comm, ← sum_range_from m _
      (fun q => t.coeffs.getD (a + q) 0 * t.basis.fn (a + q) g), ← hsplit]
  · by_cases h2 : s.basis.degree + 1 ≤ m ∧ r = 0
    · have := hder 0 (by omega) (by omega)
      rw [derVec, derVec, Nat.sub_zero] at this
      rw [Finset.sum_eq_single 0, Finset.sum_eq_single s.basis.degree]
      · unfold extAe extBe
        rw [if_neg h1, if_pos h2, if_pos rfl, if_neg h1, if_pos h2, if_pos rfl, one_mul, one_mul]
        exact this
      · intro q _ hq; unfold extBe; rw [if_neg h1, if_pos h2, if_neg hq, zero_mul]
      · intro h; exact absurd (Finset.mem_range.2 (by omega)) h
      · intro q _ hq; unfold extAe; rw [if_neg h1, if_pos h2, if_neg hq, zero_mul]
      · intro h; exact absurd (Finset.mem_range.2 (by omega)) h
    · have := hder r (by omega) (by omega)
      rw [← derMat_sum _ _ _ _ _ _ (by omega), ← derMat_sum _ _ _ _ _ _ (by omega)] at this
      unfold extAe extBe
      simp only [if_neg h1, if_neg h2]
      exact this

theorem lastMult_spec {b : Basis K} (hb : b.Clamped) (hcnt : ∀ τ, b.knots.count τ ≤ b.degree + 1) {m : ℕ}
    (h : lastMult b = some m) : 1 ≤ m ∧ m ≤ b.degree + 1 ∧ m < b.len ∧ b.k (b.len - 1 - m) < b.k (b.len - 1) ∧
      ∀ r, r < m → b.k (b.len - 1 - r) = b.k (b.len - 1) := by
  have hl := hb.length_eq
  unfold lastMult at h
  rw [Option.map_eq_some_iff] at h
  obtain ⟨r, hr, rfl⟩ := h
  rw [List.find?_range_eq_some] at hr
  obtain ⟨h1, h2, h3⟩ := hr
  rw [List.mem_range] at h2
  have h1 := of_decide_eq_true h1
  have heq : ∀ q, q < r + 1 → b.k (b.len - 1 - q) = b.k (b.len - 1) := by
    intro q hq
    rcases Nat.eq_zero_or_pos q with z | z
    · rw [z, Nat.sub_zero]
    · have := h3 (q - 1) (by omega)
      rw [Bool.not_eq_true', decide_eq_false_iff_not, Nat.sub_add_cancel z] at this
      exact le_antisymm (hb.mono (by omega)) (not_lt.1 this)
  refine ⟨by omega, ?_, by omega, h1, heq⟩
  by_contra hc
  have := k_lt_of_count hb.sorted hcnt (b.len - 1 - (b.degree + 1)) (by omega)
  rw [heq _ (by omega), show b.len - 1 - (b.degree + 1) + (b.degree + 1) = b.len - 1 by omega] at this
  exact lt_irrefl _ this

theorem npSolve_spec {n : ℕ} {A B X : Matrix (Fin n) (Fin n) K} (h : npSolve A B = some X) (x c : ℕ → K)
    (hx : ∀ r : Fin n, ∑ q : Fin n, A r q * x q = ∑ q : Fin n, B r q * c q) (r : Fin n) :
    x r = ∑ q : Fin n, X r q * c q := by
  unfold npSolve at h
  split_ifs at h with hd
  injection h with h
  have e : A.mulVec (fun q : Fin n => x q) = B.mulVec (fun q : Fin n => c q) := funext hx
  have e2 := congrArg (A⁻¹).mulVec e
  rw [Matrix.mulVec_mulVec, Matrix.mulVec_mulVec, Matrix.nonsing_inv_mul _ (isUnit_iff_ne_zero.2 hd),
    Matrix.one_mulVec, h] at e2
  exact congrFun e2 r

/-- The solution has no entry that the rounding of spline_extra.py:153 changes. -/
def NoTinyAt (tol : K) (b : Basis K) (te : K) : Prop :=
  ∀ m X, lastMult b = some m → npSolve (extA b m te) (extB b m te) = some X →
    ∀ i j, X i j = 0 ∨ tol ≤ |X i j|

def NoTiny (b : Basis K) (te : K) : Prop := NoTinyAt (1 / 10 ^ 10) b te

theorem noTinyAt_zero (b : Basis K) (te : K) : NoTinyAt 0 b te := fun _ _ _ _ _ _ => Or.inr (abs_nonneg _)

theorem chop_eq {tol x : K} (h : x = 0 ∨ tol ≤ |x|) : chopAt tol x = x := by
  unfold chopAt
  rcases h with h | h
  · rw [h]; split_ifs <;> rfl
  · rw [if_neg (not_lt.2 h)]

/-- The coefficients computed by `extrapolate` are those of the extension. -/
theorem extrapolate_coeff {s : BSpline K} (hb : s.basis.Clamped) (hs : s.WF)
    (hcnt : ∀ τ, s.basis.knots.count τ ≤ s.basis.degree + 1) {te : K} (hte : 0 < te)
    {tol : K} (hno : NoTinyAt tol s.basis te) {m : ℕ} {T : ℕ → ℕ → K} (h : extrapolateTAt tol s.basis te = some (m, T)) {t : BSpline K}
    (ht : t.basis = s.basis.extend m te) (hw : t.WF)
    (hp : ∀ y ∈ s.basis.knots, s.basis.k 0 < y → t.polyAt y = s.polyAt y)
    (hE : t.polyAt (s.basis.k s.basis.len + te) = s.polyAt (s.basis.k s.basis.len)) (i : ℕ)
    (hi : i < s.basis.len + m) :
    ∑ j ∈ range s.basis.len, T i j * s.coeffs.getD j 0 = t.coeffs.getD i 0 := by
  have hlt := hb.lt_len
  unfold extrapolateTAt at h
  rw [Option.bind_eq_some_iff] at h
  obtain ⟨m', hm, h⟩ := h
  rw [Option.map_eq_some_iff] at h
  obtain ⟨X, hX, h⟩ := h
  have e1 := congrArg Prod.fst h
  have e2 := congrArg Prod.snd h
  dsimp only at e1 e2
  subst e1
  obtain ⟨m1, m2, m3, -⟩ := lastMult_spec hb hcnt hm
  clear h
  have hT : ∀ i j, ¬(s.basis.len + m' - (s.basis.degree + 1) ≤ i ∧ s.basis.len - (s.basis.degree + 1) ≤ j ∧
      i - (s.basis.len + m' - (s.basis.degree + 1)) < s.basis.degree + 1 ∧
      j - (s.basis.len - (s.basis.degree + 1)) < s.basis.degree + 1) → T i j = if i = j then 1 else 0 := by
    intro i j hh
    rw [← e2]
    exact dif_neg hh
  have hT' : ∀ r q : Fin (s.basis.degree + 1), T (s.basis.len + m' - (s.basis.degree + 1) + r)
      (s.basis.len - (s.basis.degree + 1) + q) = X r q := by
    intro r q
    rw [← e2]
    refine (dif_pos ⟨by omega, by omega, by omega, by omega⟩).trans ?_
    refine (chop_eq (hno m' X hm hX _ _)).trans ?_
    congr 1 <;> exact Fin.ext (by dsimp only; omega)
  clear e2
  rcases Nat.lt_or_ge i (s.basis.len + m' - (s.basis.degree + 1)) with l | g
  · rw [Finset.sum_eq_single i]
    · rw [hT _ _ (by omega), if_pos rfl, one_mul, extension_coeff hb m2 hte hcnt ht hp i (by omega)]
    · intro j _ hj; rw [hT _ _ (by omega), if_neg (Ne.symm hj), zero_mul]
    · intro h; exact absurd (Finset.mem_range.2 (by omega)) h
  · obtain ⟨r, rfl⟩ : ∃ r, i = s.basis.len + m' - (s.basis.degree + 1) + r := ⟨_, (Nat.add_sub_cancel' g).symm⟩
    have hr : r < s.basis.degree + 1 := by omega
    have hsol := npSolve_spec hX
      (fun q => t.coeffs.getD (s.basis.len + m' - (s.basis.degree + 1) + q) 0)
      (fun q => s.coeffs.getD (s.basis.len - (s.basis.degree + 1) + q) 0) (by
        intro r
        have := extension_system hb hs m1 m2 hte hcnt ht hw hp hE r.1 r.2
        rw [Finset.sum_range, Finset.sum_range] at this
        exact this) ⟨r, hr⟩
    dsimp only at hsol
    rw [hsol]
    have hn : s.basis.len = s.basis.len - (s.basis.degree + 1) + (s.basis.degree + 1) := by omega
    have hsplit : ∀ f : ℕ → K, (∀ j, j < s.basis.len - (s.basis.degree + 1) → f j = 0) →
        ∑ j ∈ range s.basis.len, f j
          = ∑ q : Fin (s.basis.degree + 1), f (s.basis.len - (s.basis.degree + 1) + q) := by
      intro f hf
      rw [Finset.sum_range (fun q => f (s.basis.len - (s.basis.degree + 1) + q))|>.symm]
      conv_lhs => rw [hn]
      rw [Finset.sum_range_add, Finset.sum_eq_zero fun j hj => hf j (Finset.mem_range.1 hj), zero_add]
    rw [hsplit]
    · exact Finset.sum_congr rfl fun q _ => by rw [← hT' ⟨r, hr⟩ q]
    · intro j hj
      rw [hT _ _ (by omega), if_neg (by omega), zero_mul]

theorem extend_len {b : Basis K} (hb : b.Clamped) (m : ℕ) (te : K) : (b.extend m te).len = b.len + m := by
  have hl := hb.length_eq
  have : (b.extend m te).knots.length = b.len + m + (b.degree + 1) := by
    unfold Basis.extend
    dsimp only
    simp only [List.length_append, List.length_take, List.length_replicate]
    omega
  unfold Basis.len
  rw [this]
  change b.len + m + (b.degree + 1) - b.degree - 1 = _
  omega

/-- `extrapolate` returns the extension that continues the last polynomial piece. -/
theorem extrapolate_eq {s : BSpline K} (hb : s.basis.Clamped) (hs : s.WF)
    (hcnt : ∀ τ, s.basis.knots.count τ ≤ s.basis.degree + 1) {te : K} (hte : 0 < te)
    {tol : K} (hno : NoTinyAt tol s.basis te) {s' : BSpline K} (h : extrapolateAt tol s te = some s') :
    ∃ m, lastMult s.basis = some m ∧ 1 ≤ m ∧ m ≤ s.basis.degree + 1 ∧ s'.basis = s.basis.extend m te ∧ s'.WF ∧
      (∀ y ∈ s.basis.knots, s.basis.k 0 < y → s'.polyAt y = s.polyAt y) ∧
      s'.polyAt (s.basis.k s.basis.len + te) = s.polyAt (s.basis.k s.basis.len) := by
  unfold extrapolateAt at h
  rw [Option.map_eq_some_iff] at h
  obtain ⟨⟨m, T⟩, hT, rfl⟩ := h
  have hm : lastMult s.basis = some m := by
    unfold extrapolateTAt at hT
    rw [Option.bind_eq_some_iff] at hT
    obtain ⟨m', hm, h⟩ := hT
    rw [Option.map_eq_some_iff] at h
    obtain ⟨X, hX, h⟩ := h
    have e1 := congrArg Prod.fst h
    dsimp only at e1
    rw [← e1]; exact hm
  obtain ⟨m1, m2, -⟩ := lastMult_spec hb hcnt hm
  obtain ⟨t, ht, hw, hp, hE⟩ := exists_extension hb m1 hte
  have hcoef := extrapolate_coeff hb hs hcnt hte hno hT ht hw hp hE
  have : (⟨s.basis.extend m te, (List.range (s.basis.len + m)).map fun i =>
      ((List.range s.basis.len).map fun j => T i j * s.coeffs.getD j 0).sum⟩ : BSpline K) = t := by
    obtain ⟨tb, tc⟩ := t
    dsimp only at ht
    subst ht
    have hlen : tc.length = s.basis.len + m := hw.trans (extend_len hb m te)
    congr 1
    refine List.ext_getElem (by rw [List.length_map, List.length_range, hlen]) fun i h1 h2 => ?_
    rw [List.getElem_map, List.getElem_range]
    have := hcoef i (by omega)
    rw [List.getD_eq_getElem _ _ h2] at this
    rw [← this, Finset.sum_range, ← List.sum_ofFn]
    congr 1
    refine List.ext_getElem (by simp) fun j _ _ => by simp
  exact ⟨m, hm, m1, m2, rfl, this ▸ hw, this ▸ hp, this ▸ hE⟩

/-- The same in terms of values, for any threshold. -/
theorem extrapolateAt_eval {tol : K} (s : BSpline K) (hb : s.basis.Clamped) (hs : s.WF)
    (hcnt : ∀ τ, s.basis.knots.count τ ≤ s.basis.degree + 1) (te : K) (hte : 0 < te)
    (hno : NoTinyAt tol s.basis te) (s' : BSpline K) (h : extrapolateAt tol s te = some s') :
    s'.basis.Clamped ∧ s'.WF ∧ s'.basis.degree = s.basis.degree ∧
    s'.basis.knots.headD 0 = s.basis.knots.headD 0 ∧
    s'.basis.knots.getLastD 0 = s.basis.knots.getLastD 0 + te ∧
    (∀ x, s.basis.knots.headD 0 ≤ x → x ≤ s.basis.knots.getLastD 0 → s'.eval x = s.eval x) ∧
    ∃ q : K[X], q.natDegree ≤ s.basis.degree ∧
      (∀ τ ∈ s.basis.knots, (∀ y ∈ s.basis.knots, y ≤ τ ∨ y = s.basis.knots.getLastD 0) →
        ∀ x, τ < x → x ≤ s.basis.knots.getLastD 0 → s.eval x = q.eval x) ∧
      ∀ x, s.basis.knots.getLastD 0 ≤ x → x ≤ s.basis.knots.getLastD 0 + te → s'.eval x = q.eval x := by
  obtain ⟨m, hm, m1, m2, hbe, hw, hp, hE⟩ := extrapolate_eq hb hs hcnt hte hno h
  have hlt := hb.lt_len
  have hc : s'.basis.Clamped := hbe ▸ (extend_clamped hb m hte).1
  obtain ⟨e1, e2⟩ := extension_eval hb hs m1 hte hbe hw hp hE
  have hlast : ∀ τ ∈ s.basis.knots, (∀ y ∈ s.basis.knots, y ≤ τ ∨ y = s.basis.k s.basis.len) →
        ∀ x, τ < x → x ≤ s.basis.k s.basis.len → s.eval x = (s.polyAt (s.basis.k s.basis.len)).eval x := by
    intro τ hτ hy x h1 h2
    refine eval_polyAt hb hs ?_ h2 le_rfl (fun u hu hxu => ?_)
    · refine lt_of_le_of_lt ?_ h1
      obtain ⟨i, hi, e⟩ := List.getElem_of_mem hτ
      have : s.basis.k i = τ := by unfold Basis.k; rw [List.getD_eq_getElem _ _ hi, e]
      rw [← this]; exact hb.mono (Nat.zero_le _)
    · rcases hy u hu with l | e
      · exact absurd (l.trans_lt h1) (not_lt.2 hxu.1)
      · exact hxu.2.ne e
  rw [headD_eq_k hb, headD_eq_k hc, getLastD_eq_k hb, getLastD_eq_k hc]
  have hx : s.eval (s.basis.k s.basis.len) = (s.polyAt (s.basis.k s.basis.len)).eval (s.basis.k s.basis.len) :=
    eval_polyAt hb hs (by rw [← hb.k_degree]; exact hb.start.trans_le (hb.mono (by omega))) le_rfl le_rfl
      (fun u _ h => not_lt.2 h.1 h.2)
  refine ⟨hc, hw, by rw [hbe]; rfl, ?_, ?_, e1, _, polyAt_natDegree s _, hlast, fun x h1 h2 => ?_⟩
  · rw [hbe, extend_k hb, if_pos (by omega)]
  · rw [hbe, extend_k hb, extend_len hb, if_neg (by omega), if_neg (by omega)]
  · rcases h1.lt_or_eq with l | e
    · exact e2 x l h2
    · subst e
      rw [e1 _ (hb.mono (Nat.zero_le _)) le_rfl, hx]

/-! ## Property theorems -/

/-- **C119** Extrapolating a trajectory by `te > 0` keeps it on its own interval, and on the added
interval continues the polynomial of its last piece.

Partial: assumes that the linear system was solved (`extrapolate` returned), and that no entry of the
solution is so small that it is rounded to zero. -/
theorem C119_extrapolate_partial (s : BSpline K) (hb : s.basis.Clamped) (hs : s.WF)
    (hcnt : ∀ τ, s.basis.knots.count τ ≤ s.basis.degree + 1) (te : K) (hte : 0 < te)
    (hno : NoTiny s.basis te) (s' : BSpline K) (h : extrapolate s te = some s') :
    s'.basis.Clamped ∧ s'.WF ∧ s'.basis.degree = s.basis.degree ∧
    s'.basis.knots.headD 0 = s.basis.knots.headD 0 ∧
    s'.basis.knots.getLastD 0 = s.basis.knots.getLastD 0 + te ∧
    (∀ x, s.basis.knots.headD 0 ≤ x → x ≤ s.basis.knots.getLastD 0 → s'.eval x = s.eval x) ∧
    ∃ q : K[X], q.natDegree ≤ s.basis.degree ∧
      (∀ τ ∈ s.basis.knots, (∀ y ∈ s.basis.knots, y ≤ τ ∨ y = s.basis.knots.getLastD 0) →
        ∀ x, τ < x → x ≤ s.basis.knots.getLastD 0 → s.eval x = q.eval x) ∧
      ∀ x, s.basis.knots.getLastD 0 ≤ x → x ≤ s.basis.knots.getLastD 0 + te → s'.eval x = q.eval x :=
  extrapolateAt_eval s hb hs hcnt te hte hno s' h

/-- **C119** is violated for a basis without interior knots: looking for the previous knot reads past
the knot vector (`IndexError`). -/
theorem C119_single_interval_violated (s : BSpline K) (hb : s.basis.Clamped)
    (h : s.basis.len = s.basis.degree + 1) (te : K) : extrapolate s te = none := by
  have : lastMult s.basis = none := by
    unfold lastMult
    rw [Option.map_eq_none_iff, List.find?_eq_none]
    intro r hr
    rw [decide_eq_true_eq, not_lt, h, Nat.add_sub_cancel, hb.k_degree]
    exact hb.mono (Nat.zero_le _)
  unfold extrapolate extrapolateAt extrapolateTAt
  rw [this]
  rfl

/-- A matrix equation that shows what `np.linalg.solve` returns. -/
theorem npSolve_eq {n : ℕ} {A B X Ai : Matrix (Fin n) (Fin n) K} (h : A * Ai = 1) (hX : Ai * B = X) :
    npSolve A B = some X := by
  have hd : IsUnit A.det := Matrix.isUnit_det_of_right_inverse h
  unfold npSolve
  rw [if_neg hd.ne_zero, Matrix.inv_eq_right_inv h, hX]

/-- The system of the quadratic with one interior knot. -/
theorem exBasis_solve : npSolve (extA exBasis 1 (1/2)) (extB exBasis 1 (1/2))
    = some (!![0, 1, 0; 0, -1, 2; 1/2, -7/2, 4] : Matrix (Fin 3) (Fin 3) ℚ) := by
  have hA : extA exBasis 1 (1/2) = (!![3/4, 1/8, 0; 1/2, 1/2, 0; 4, -12, 8] : Matrix (Fin 3) (Fin 3) ℚ) := by
    have : ∀ i j : Fin 3, extAe exBasis 1 (1/2) i j
        = (![![3/4, 1/8, 0], ![1/2, 1/2, 0], ![4, -12, 8]] : Fin 3 → Fin 3 → ℚ) i j := by decide +kernel
    exact Matrix.ext this
  have hB : extB exBasis 1 (1/2) = (!![0, 5/8, 1/4; 0, 0, 1; 4, -12, 8] : Matrix (Fin 3) (Fin 3) ℚ) := by
    have : ∀ i j : Fin 3, extBe exBasis 1 (1/2) i j
        = (![![0, 5/8, 1/4], ![0, 0, 1], ![4, -12, 8]] : Fin 3 → Fin 3 → ℚ) i j := by decide +kernel
    exact Matrix.ext this
  rw [hA, hB]
  exact npSolve_eq (n := 3) (Ai := !![8/5, -2/5, 0; -8/5, 12/5, 0; -16/5, 19/5, 1/8])
    (by decide +kernel) (by decide +kernel)

theorem exBasis_noTiny : NoTiny exBasis (1/2) := by
  intro m X hm hX
  have e : lastMult exBasis = some 1 := by decide +kernel
  rw [e] at hm
  injection hm with hm
  subst hm
  rw [exBasis_solve] at hX
  injection hX with hX
  subst hX
  have : ∀ i j : Fin 3, (![![0, 1, 0], ![0, -1, 2], ![1/2, -7/2, 4]] : Fin 3 → Fin 3 → ℚ) i j = 0 ∨
      1 / 10 ^ 10 ≤ |(![![0, 1, 0], ![0, -1, 2], ![1/2, -7/2, 4]] : Fin 3 → Fin 3 → ℚ) i j| := by
    decide +kernel
  exact this

/-- Non-vacuity: the quadratic of C118 extrapolated by `1/2`. -/
theorem exBasis_extrapolate : extrapolate ⟨exBasis, [1, 2, 4, 3]⟩ (1/2)
    = some ⟨⟨[0, 0, 0, 1/2, 1, 3/2, 3/2, 3/2], 2⟩, [1, 2, 4, 2, -1]⟩ := by
  have e : lastMult exBasis = some 1 := by decide +kernel
  unfold extrapolate extrapolateAt extrapolateTAt
  dsimp only
  rw [e]
  simp only [Option.bind_some, exBasis_solve]
  refine congrArg some ?_
  refine congrArg₂ BSpline.mk (show exBasis.extend 1 (1/2) = _ by decide +kernel) ?_
  · change (List.map (fun i => ((List.range 4).map fun j =>
        (if h : 2 ≤ i ∧ 1 ≤ j ∧ i - 2 < 3 ∧ j - 1 < 3 then
          chop ((![![0, 1, 0], ![0, -1, 2], ![1/2, -7/2, 4]] : Fin 3 → Fin 3 → ℚ) ⟨i - 2, h.2.2.1⟩ ⟨j - 1, h.2.2.2⟩)
        else if i = j then (1 : ℚ) else 0) * [1, 2, 4, 3].getD j 0).sum) (List.range 5)) = _
    decide +kernel

example : ∃ q : ℚ[X], q.natDegree ≤ 2 ∧
    (∀ x, 1/2 < x → x ≤ 1 → (BSpline.mk exBasis [1, 2, 4, 3]).eval x = q.eval x) ∧
    ∀ x, 1 ≤ x → x ≤ 3/2 →
      (BSpline.mk ⟨[0, 0, 0, 1/2, 1, 3/2, 3/2, 3/2], 2⟩ [1, 2, 4, 2, -1] : BSpline ℚ).eval x = q.eval x := by
  obtain ⟨-, -, -, -, -, -, q, hq, h1, h2⟩ := C119_extrapolate_partial ⟨exBasis, [1, 2, 4, 3]⟩ exBasis_clamped rfl
    (by
      intro τ
      by_cases h : τ ∈ exBasis.knots
      · revert τ; decide +kernel
      · exact (List.count_eq_zero_of_not_mem h).trans_le (Nat.zero_le _))
    (1/2) (by norm_num) exBasis_noTiny _ exBasis_extrapolate
  refine ⟨q, hq, h1 (1/2) (by decide +kernel) (by decide +kernel), fun x a b => h2 x a ?_⟩
  exact b.trans (by decide +kernel)

/-- Witness of the violation: degree 2 on one interval. -/
example : extrapolate ⟨⟨[0, 0, 0, 1, 1, 1], 2⟩, [1, 2, 4]⟩ (1/2 : ℚ) = none :=
  C119_single_interval_violated _ (by
    refine ⟨by decide +kernel, by decide +kernel, ?_, by decide +kernel, ?_⟩
    · intro i hi
      have : i ≤ 2 := hi
      interval_cases i <;> rfl
    · intro i h1 h2
      have a : 3 ≤ i := h1
      have b : i < 6 := h2
      interval_cases i <;> rfl) rfl _

end Verif.Spline
