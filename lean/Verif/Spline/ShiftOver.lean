import Verif.Spline.Extrapolate

/-! # Property C120: shifting the horizon over one knot interval

Mirrors `shiftoverknot_T` and `shift_over_knot` of `omgtools/basics/spline_extra.py`. -/

set_option linter.unusedSectionVars false

namespace Verif.Spline

open Finset Polynomial

section Model
variable {K : Type*} [Field K] [LinearOrder K]

/-- The matrix `T` of `shiftoverknot_T`, spline_extra.py:175-190: the entries of the `m`-th upper
diagonal, overwritten by the rows of the knot insertion and then by the last rows of the
extrapolation. -/
def overT (b : Basis K) (m : ℕ) (Te : ℕ → ℕ → K) (i j : ℕ) : K :=
  if b.len - (b.degree + 1) ≤ i ∧ b.len - (b.degree + 1) ≤ j then Te (i + m) j
  else if i < b.degree ∧ j < b.degree + 1 then
    shiftAcc b (b.k (b.degree + 1) - b.k 0) b.degree (b.degree + 1 + i) j
  else if j = i + m then 1 else 0

/-- `shift_over_knot(coeffs, basis)`, spline_extra.py:160-191, for any threshold; `none` when the extrapolation fails. -/
noncomputable def shiftOverAt (tol : K) (s : BSpline K) : Option (List K) :=
  (extrapolateTAt tol s.basis (s.basis.knots.getLastD 0 - s.basis.k (s.basis.len - 1))).map fun mT =>
    dotT s.basis.len (overT s.basis mT.1 mT.2) s.coeffs

/-- `shift_over_knot(coeffs, basis)`, spline_extra.py:160-191. -/
noncomputable def shiftOver (s : BSpline K) : Option (List K) := shiftOverAt (1 / 10 ^ 10) s

end Model

variable {K : Type*} [Field K] [LinearOrder K] [IsStrictOrderedRing K]

theorem shiftAcc_congr {b b' : Basis K} (t : K) (hd : b'.degree = b.degree)
    (hk : ∀ i, i ≤ 2 * b.degree → b'.k i = b.k i) (k : ℕ) (j i : ℕ) :
    shiftAcc b' t k j i = shiftAcc b t k j i := by
  induction k generalizing j with
  | zero => rfl
  | succ k ih =>
    rw [shiftAcc, shiftAcc, hd]
    refine Finset.sum_congr rfl fun m _ => ?_
    rw [ih]
    congr 1
    unfold shiftStep
    rw [hd]
    by_cases h1 : b.degree + 1 ≤ j
    · rw [if_pos h1, if_pos h1]
    · rw [if_neg h1, if_neg h1]
      by_cases h2 : j ≤ k
      · rw [if_pos h2, if_pos h2]
      · rw [if_neg h2, if_neg h2, hk j (by omega), hk (j + b.degree - k) (by omega)]

/-- The row that is only moved down. -/
theorem shiftAcc_last {b : Basis K} (t : K) (k j : ℕ) :
    shiftAcc b t k (b.degree + k) j = if j = b.degree then 1 else 0 := by
  induction k with
  | zero => rw [shiftAcc, Nat.add_zero]
  | succ k ih => rw [shiftAcc_rec t k b.degree j (by omega), if_pos (by omega), ih]

/-- Dropping the first interval by inserting its end until it is a border. -/
theorem crop_first_interval {s : BSpline K} (hb : s.basis.Clamped) (hs : s.WF) (hd : 1 ≤ s.basis.degree)
    (hk : s.basis.k (s.basis.degree + 1) < s.basis.k (s.basis.degree + 2)) {u : BSpline K}
    (hu : u.WF) (ud : u.basis.degree = s.basis.degree) (ul : u.basis.len + 1 = s.basis.len)
    (uk : ∀ i, u.basis.k i = if i ≤ s.basis.degree then s.basis.k (s.basis.degree + 1) else s.basis.k (i + 1))
    (uc : ∀ i, i < u.basis.len → u.coeffs.getD i 0 = if i < s.basis.degree then
      ∑ m ∈ range (s.basis.degree + 1), shiftAcc s.basis (s.basis.k (s.basis.degree + 1)) s.basis.degree
        (s.basis.degree + 1 + i) m * s.coeffs.getD m 0 else s.coeffs.getD (i + 1) 0)
    (x : K) (hx : s.basis.k (s.basis.degree + 1) ≤ x) (hx' : x ≤ s.basis.k s.basis.len) :
    u.eval x = s.eval x := by
  have hl := hb.length_eq
  have hlt := hb.lt_len
  set t := s.basis.k (s.basis.degree + 1) with ht
  have h0 : s.basis.k 0 < t := hb.k_degree ▸ hb.start
  have hlt2 : s.basis.degree + 2 ≤ s.basis.len := by
    by_contra h
    have e : s.basis.degree + 1 = s.basis.len := by omega
    rw [ht, e, show s.basis.degree + 2 = s.basis.len + 1 by omega, hb.last (s.basis.len + 1) (by omega)] at hk
    exact lt_irrefl _ hk
  have hend : t < s.basis.k s.basis.len := hk.trans_le (hb.mono hlt2)
  have hcount : s.basis.knots.count t = 1 := by
    have f := filter_le_length s.basis.knots t
    have a1 := (k_le_iff hb.sorted t (s.basis.degree + 1) (by omega)).1 le_rfl
    have a2 : ¬ s.basis.degree + 2 < (s.basis.knots.filter (· ≤ t)).length := fun h =>
      absurd ((k_le_iff hb.sorted t (s.basis.degree + 2) (by omega)).2 h) (not_le.2 hk)
    have a3 := (k_lt_iff hb.sorted t s.basis.degree (by omega)).1 (by rw [hb.k_degree]; exact h0)
    have a4 : ¬ s.basis.degree + 1 < (s.basis.knots.filter (· < t)).length := fun h =>
      lt_irrefl _ ((k_lt_iff hb.sorted t (s.basis.degree + 1) (by omega)).2 h)
    omega
  have hcl : s.basis.degree + 1 ≤ s.basis.knots.count (s.basis.k s.basis.len) := by
    have f := filter_le_length s.basis.knots (s.basis.k s.basis.len)
    have g1 : ¬ s.basis.len < (s.basis.knots.filter (· < s.basis.k s.basis.len)).length := by
      intro h
      have := (k_lt_iff hb.sorted (s.basis.k s.basis.len) s.basis.len (by omega)).2 h
      exact lt_irrefl _ this
    have g2 := (k_le_iff hb.sorted (s.basis.k s.basis.len) (s.basis.len + s.basis.degree) (by omega)).1
      (hb.last _ (by omega)).le
    omega
  obtain ⟨cb, cs, cd, ck0, ckl, ce⟩ := crop_spec s hb hs t (s.basis.k s.basis.len) h0.le hend le_rfl (by omega)
  rw [← ce x hx hx' (fun _ => Or.inr (by omega))]
  obtain ⟨ik, il, id, ic⟩ := insert_first hb hs h0 le_rfl s.basis.degree (by omega)
  have hsp := insertKnots_spec hb hs (List.replicate s.basis.degree t) (by
    intro τ hτ; rw [List.eq_of_mem_replicate hτ]; exact ⟨h0, hend.le⟩)
  have hcrop : cropSpline s t (s.basis.k s.basis.len)
      = ⟨⟨(insertKnots s (List.replicate s.basis.degree t)).basis.knots.drop (s.basis.degree + 1),
          s.basis.degree⟩,
        (insertKnots s (List.replicate s.basis.degree t)).coeffs.drop (s.basis.degree + 1)⟩ := by
    unfold cropSpline
    dsimp only
    rw [hcount, Nat.sub_eq_zero_of_le hcl, List.replicate_zero, List.append_nil, Nat.add_sub_cancel]
    set S := insertKnots s (List.replicate s.basis.degree t) with hS
    obtain ⟨gb, gs, gk0, gkl, -⟩ := hsp
    have gl := gb.length_eq
    have jmin : (S.basis.knots.filter (· < t)).length = s.basis.degree + 1 := by
      have u1 := (k_lt_iff gb.sorted t s.basis.degree (by omega)).1 (by
        rw [ik, if_pos le_rfl, hb.k_degree]; exact h0)
      have u2 : ¬ s.basis.degree + 1 < (S.basis.knots.filter (· < t)).length := by
        intro h
        have := (k_lt_iff gb.sorted t (s.basis.degree + 1) (by omega)).2 h
        rw [ik, if_neg (by omega), if_pos (by omega)] at this
        exact lt_irrefl _ this
      omega
    have jmax : (S.basis.knots.filter (· ≤ s.basis.k s.basis.len)).length = S.basis.knots.length := by
      have u1 := (k_le_iff gb.sorted (s.basis.k s.basis.len) (S.basis.knots.length - 1) (by omega)).1 (by
        rw [← gkl]
        exact (gb.last _ (by omega)).le)
      have := List.length_filter_le (fun y => decide (y ≤ s.basis.k s.basis.len)) S.basis.knots
      omega
    rw [jmin, jmax, List.take_of_length_le le_rfl]
    have gs' : S.coeffs.length = S.basis.len := gs
    rw [List.take_of_length_le (by omega)]
  rw [hcrop] at cb cs cd ⊢
  set S := insertKnots s (List.replicate s.basis.degree t) with hS
  obtain ⟨gb, gs, gk0, gkl, -⟩ := hsp
  have gl := gb.length_eq
  have hdropk : ∀ i, Basis.k ⟨S.basis.knots.drop (s.basis.degree + 1), s.basis.degree⟩ i
      = S.basis.k (s.basis.degree + 1 + i) := by
    intro i
    unfold Basis.k
    dsimp only
    rw [List.getD_eq_getElem?_getD, List.getElem?_drop, List.getD_eq_getElem?_getD]
    congr 1
    rw [List.getLastD_eq_getLast?, List.getLastD_eq_getLast?, List.getLast?_drop, if_neg (by omega)]
  have hlen : Basis.len ⟨S.basis.knots.drop (s.basis.degree + 1), s.basis.degree⟩ = u.basis.len := by
    unfold Basis.len at ul il ⊢
    dsimp only
    rw [List.length_drop]
    omega
  refine eval_congr cs hu ud ?_ hlen.symm ?_ x
  · intro i
    rw [uk]
    change _ = Basis.k ⟨S.basis.knots.drop (s.basis.degree + 1), s.basis.degree⟩ i
    rw [hdropk, ik, if_neg (show ¬ s.basis.degree + 1 + i ≤ s.basis.degree by omega)]
    by_cases h : i ≤ s.basis.degree
    · rw [if_pos h]
      by_cases h' : s.basis.degree + 1 + i ≤ s.basis.degree + s.basis.degree
      · rw [if_pos h']
      · rw [if_neg h', ht]; congr 1
        omega
    · rw [if_neg h, if_neg (by omega)]; congr 1
      omega
  · intro i hi
    change i < Basis.len ⟨S.basis.knots.drop (s.basis.degree + 1), s.basis.degree⟩ at hi
    rw [hlen] at hi
    rw [uc i hi]
    change _ = (S.coeffs.drop (s.basis.degree + 1)).getD i 0
    rw [List.getD_eq_getElem?_getD (l := S.coeffs.drop _), List.getElem?_drop,
      ← List.getD_eq_getElem?_getD, ic]
    by_cases h : i < s.basis.degree
    · rw [if_pos h, if_pos (by omega)]
    · rw [if_neg h, if_neg (by omega)]; congr 1
      omega

/-- One more coefficient that the extension by one knot keeps. -/
theorem extension_coeff_one {s t : BSpline K} (hb : s.basis.Clamped) {te : K} (hte : 0 < te)
    (hd : 1 ≤ s.basis.degree)
    (hcnt : ∀ τ, s.basis.knots.count τ ≤ s.basis.degree + 1) (ht : t.basis = s.basis.extend 1 te)
    (hp : ∀ y ∈ s.basis.knots, s.basis.k 0 < y → t.polyAt y = s.polyAt y) (j : ℕ)
    (hj : j + s.basis.degree ≤ s.basis.len) :
    t.coeffs.getD j 0 = s.coeffs.getD j 0 := by
  have hl := hb.length_eq
  obtain ⟨cb, cl⟩ := extend_clamped hb 1 hte
  obtain ⟨mm, h1, h2, h3⟩ := exists_piece (k := s.basis.k) (j := j) (p := s.basis.degree)
    (k_lt_of_count hb.sorted hcnt j (by omega))
  obtain ⟨g1, g2⟩ := piece_bounds hb h3
  have hk2 : ∀ i, i < s.basis.len + 1 → (s.basis.extend 1 te).k i = s.basis.k i := by
    intro i hi
    rw [extend_k hb]
    by_cases h : i < s.basis.len
    · rw [if_pos h]
    · rw [if_neg h, if_pos hi, hb.last i (by omega)]
  have hmm : mm + 1 < s.basis.len + 1 := by omega
  have h3' : t.basis.k mm < t.basis.k (mm + 1) := by
    rw [ht, hk2 mm (by omega), hk2 (mm + 1) hmm]; exact h3
  have cb' : t.basis.Clamped := ht ▸ cb
  have cl' : t.basis.len = s.basis.len + 1 := by rw [ht]; exact cl
  have cd' : t.basis.degree = s.basis.degree := by rw [ht]; rfl
  have e1 := coeff_eq_lam hb.mono h3 g1 g2 (fun i => s.coeffs.getD i 0) j h1 h2
  have e2 := coeff_eq_lam cb'.mono h3' (p := t.basis.degree) (N := t.basis.len) (by omega) (by omega)
    (fun i => t.coeffs.getD i 0) j h1 (by omega)
  rw [← polyAt_piece hb h3 g2] at e1
  rw [← polyAt_piece cb' h3' (by omega)] at e2
  rw [e1, e2, ht, hk2 (mm + 1) hmm, hp _ (k_mem hb _) ((hb.mono (Nat.zero_le _)).trans_lt h3)]
  exact lam_congr (fun r hr => hk2 _ (by have : r < s.basis.degree := hr; omega)) _

/-- The knots after the shift: the first `degree+1` at the end of the first interval, one more interval
at the end. -/
def Basis.overKnots (b : Basis K) (te : K) : Basis K :=
  ⟨List.replicate (b.degree + 1) (b.k (b.degree + 1)) ++ (b.extend 1 te).knots.drop (b.degree + 2), b.degree⟩

theorem overKnots_k {b : Basis K} (hb : b.Clamped) {te : K} (hte : 0 < te) (i : ℕ) :
    (b.overKnots te).k i = if i ≤ b.degree then b.k (b.degree + 1) else (b.extend 1 te).k (i + 1) := by
  have hlt := hb.lt_len
  obtain ⟨cb, cl⟩ := extend_clamped hb 1 hte
  have hl := cb.length_eq
  have hd : (b.extend 1 te).degree = b.degree := rfl
  have hlast : (List.replicate (b.degree + 1) (b.k (b.degree + 1)) ++ (b.extend 1 te).knots.drop (b.degree + 2)).getLastD 0
      = (b.extend 1 te).knots.getLastD 0 := by
    rw [List.getLastD_eq_getLast?, List.getLastD_eq_getLast?, List.getLast?_append,
      List.getLast?_drop, if_neg (by omega)]
    rcases h : (b.extend 1 te).knots.getLast? with _ | v
    · rw [List.getLast?_eq_none_iff] at h; rw [h] at hl; simp at hl
    · simp
  unfold Basis.overKnots
  generalize b.k (b.degree + 1) = v at hlast ⊢
  unfold Basis.k
  dsimp only
  rw [hlast]
  by_cases h : i ≤ b.degree
  · rw [if_pos h, List.getD_append _ _ _ _ (by simp; omega),
      List.getD_eq_getElem _ _ (by simp; omega), List.getElem_replicate]
  · rw [if_neg h, List.getD_append_right _ _ _ _ (by simp; omega), List.length_replicate,
      List.getD_eq_getElem?_getD, List.getElem?_drop, List.getD_eq_getElem?_getD]
    congr 2
    omega

theorem overKnots_len {b : Basis K} (hb : b.Clamped) {te : K} (hte : 0 < te) :
    (b.overKnots te).len = b.len := by
  have hlt := hb.lt_len
  obtain ⟨cb, cl⟩ := extend_clamped hb 1 hte
  have hl := cb.length_eq
  have hd : (b.extend 1 te).degree = b.degree := rfl
  have h2 : (b.overKnots te).knots.length = b.len + b.degree + 1 := by
    unfold Basis.overKnots
    dsimp only
    rw [List.length_append, List.length_replicate, List.length_drop]
    omega
  have h3 : (b.overKnots te).degree = b.degree := rfl
  unfold Basis.len at h2 ⊢
  omega

/-- The rows of `T` applied to the coefficients. -/
theorem over_rows {s : BSpline K} (hb : s.basis.Clamped) (hs : s.WF) (hd : 1 ≤ s.basis.degree)
    (hcnt : ∀ τ, s.basis.knots.count τ ≤ s.basis.degree + 1) (h0 : s.basis.k 0 = 0)
    (hL : 2 * s.basis.degree ≤ s.basis.len) {te : K} (hte : 0 < te) {tol : K} (hno : NoTinyAt tol s.basis te)
    {Te : ℕ → ℕ → K} (h : extrapolateTAt tol s.basis te = some (1, Te)) {t : BSpline K}
    (ht : t.basis = s.basis.extend 1 te) (hw : t.WF)
    (hp : ∀ y ∈ s.basis.knots, s.basis.k 0 < y → t.polyAt y = s.polyAt y)
    (hE : t.polyAt (s.basis.k s.basis.len + te) = s.polyAt (s.basis.k s.basis.len)) (i : ℕ)
    (hi : i < s.basis.len) :
    (dotT s.basis.len (overT s.basis 1 Te) s.coeffs).getD i 0
      = if i < s.basis.degree then
          ∑ m ∈ range (s.basis.degree + 1), shiftAcc s.basis (s.basis.k (s.basis.degree + 1)) s.basis.degree
            (s.basis.degree + 1 + i) m * t.coeffs.getD m 0
        else t.coeffs.getD (i + 1) 0 := by
  have hlt := hb.lt_len
  have hcoef := extrapolate_coeff hb hs hcnt hte hno h ht hw hp hE
  have hkeep := extension_coeff_one hb hte hd hcnt ht hp
  rw [dotT_getD _ _ _ _ hi]
  have hdi : i < s.basis.degree → i + 1 = s.basis.degree ∨ i + 1 < s.basis.degree := by omega
  by_cases c1 : s.basis.len - (s.basis.degree + 1) ≤ i
  · -- a row of the extrapolation
    have hz : ∀ j, j < s.basis.len - (s.basis.degree + 1) → overT s.basis 1 Te i j = 0 := by
      intro j hj
      unfold overT
      rw [if_neg (by omega)]
      by_cases c2 : i < s.basis.degree ∧ j < s.basis.degree + 1
      · rw [if_pos c2]
        have : s.basis.degree + 1 + i = s.basis.degree + s.basis.degree := by omega
        rw [this, shiftAcc_last, if_neg (by omega)]
      · rw [if_neg c2, if_neg (by omega)]
    have hTz : ∀ j, j < s.basis.len - (s.basis.degree + 1) → Te (i + 1) j = 0 := by
      intro j hj
      unfold extrapolateTAt at h
      rw [Option.bind_eq_some_iff] at h
      obtain ⟨m', hm, h⟩ := h
      rw [Option.map_eq_some_iff] at h
      obtain ⟨X, hX, h⟩ := h
      have e1 := congrArg Prod.fst h
      have e2 := congrFun (congrFun (congrArg Prod.snd h) (i + 1)) j
      dsimp only at e1 e2
      subst e1
      rw [← e2, dif_neg (by omega), if_neg (by omega)]
    have hrow : ∑ j ∈ range s.basis.len, overT s.basis 1 Te i j * s.coeffs.getD j 0
        = ∑ j ∈ range s.basis.len, Te (i + 1) j * s.coeffs.getD j 0 := by
      refine Finset.sum_congr rfl fun j _ => ?_
      rcases Nat.lt_or_ge j (s.basis.len - (s.basis.degree + 1)) with l | g
      · rw [hz j l, hTz j l]
      · unfold overT
        rw [if_pos ⟨c1, g⟩]
    rw [hrow, hcoef (i + 1) (by omega)]
    by_cases c2 : i < s.basis.degree
    · rw [if_pos c2]
      have e : s.basis.degree + 1 + i = s.basis.degree + s.basis.degree := by omega
      rw [Finset.sum_eq_single s.basis.degree]
      · rw [e, shiftAcc_last, if_pos rfl, one_mul]
        congr 1
        omega
      · intro j _ hj
        rw [e, shiftAcc_last, if_neg hj, zero_mul]
      · intro h'; exact absurd (Finset.mem_range.2 (by omega)) h'
    · rw [if_neg c2]
  · by_cases c2 : i < s.basis.degree
    · rw [if_pos c2]
      rw [← Finset.sum_subset (s₁ := range (s.basis.degree + 1)) (Finset.range_subset_range.2 (by omega))]
      · refine Finset.sum_congr rfl fun m hm => ?_
        rw [Finset.mem_range] at hm
        unfold overT
        rw [if_neg (fun h => c1 h.1), if_pos ⟨c2, hm⟩, h0, sub_zero, hkeep m (by omega)]
      · intro m _ hm
        rw [Finset.mem_range] at hm
        unfold overT
        rw [if_neg (fun h => c1 h.1), if_neg (by omega), if_neg (by omega), zero_mul]
    · rw [if_neg c2, hkeep (i + 1) (by omega), Finset.sum_eq_single (i + 1)]
      · unfold overT
        rw [if_neg (fun h => c1 h.1), if_neg (fun h => c2 h.1), if_pos rfl, one_mul]
      · intro j _ hj
        unfold overT
        rw [if_neg (fun h => c1 h.1), if_neg (fun h => c2 h.1), if_neg hj, zero_mul]
      · intro h'; exact absurd (Finset.mem_range.2 (by omega)) h'

/-- The shifted coefficients on the shifted knots are the extrapolated trajectory. -/
theorem shiftOver_eval {s : BSpline K} (hb : s.basis.Clamped) (hs : s.WF) (hd : 1 ≤ s.basis.degree)
    (hcnt : ∀ τ, s.basis.knots.count τ ≤ s.basis.degree + 1) (h0 : s.basis.k 0 = 0)
    (hL : 2 * s.basis.degree ≤ s.basis.len) (hL2 : s.basis.degree + 2 ≤ s.basis.len)
    (hf : s.basis.k (s.basis.degree + 1) < s.basis.k (s.basis.degree + 2))
    (hl : s.basis.k (s.basis.len - 2) < s.basis.k (s.basis.len - 1))
    (hlN : s.basis.k (s.basis.len - 1) < s.basis.k s.basis.len)
    {tol : K} (hno : NoTinyAt tol s.basis (s.basis.k s.basis.len - s.basis.k (s.basis.len - 1)))
    {c : List K} (h : shiftOverAt tol s = some c) :
    c.length = s.basis.len ∧ ∃ t, extrapolateAt tol s (s.basis.k s.basis.len - s.basis.k (s.basis.len - 1)) = some t ∧
      ∀ x, s.basis.k (s.basis.degree + 1) ≤ x →
        x ≤ s.basis.k s.basis.len + (s.basis.k s.basis.len - s.basis.k (s.basis.len - 1)) →
        (BSpline.mk (s.basis.overKnots (s.basis.k s.basis.len - s.basis.k (s.basis.len - 1))) c).eval x = t.eval x := by
  set te := s.basis.k s.basis.len - s.basis.k (s.basis.len - 1) with hte'
  have hte : 0 < te := sub_pos.2 hlN
  unfold shiftOverAt at h
  rw [getLastD_eq_k hb, ← hte', Option.map_eq_some_iff] at h
  obtain ⟨⟨m, Te⟩, hT, rfl⟩ := h
  dsimp only
  have hex : ∃ t, extrapolateAt tol s te = some t := by
    unfold extrapolateAt
    rw [hT]; exact ⟨_, rfl⟩
  obtain ⟨t, ht⟩ := hex
  obtain ⟨m', hm, m1, m2, hbe, hw, hp, hE⟩ := extrapolate_eq hb hs hcnt hte hno ht
  have hm1 : m' = 1 := by
    obtain ⟨-, -, -, -, h5⟩ := lastMult_spec hb hcnt hm
    by_contra hne
    have := h5 1 (by omega)
    rw [show s.basis.len - 1 - 1 = s.basis.len - 2 by omega] at this
    exact hl.ne this
  have hmm : m = m' := by
    unfold extrapolateTAt at hT
    rw [Option.bind_eq_some_iff] at hT
    obtain ⟨m'', hm'', hT⟩ := hT
    rw [Option.map_eq_some_iff] at hT
    obtain ⟨X, hX, hT⟩ := hT
    have e1 := congrArg Prod.fst hT
    dsimp only at e1
    rw [hm] at hm''
    injection hm'' with e
    omega
  rw [hm1] at hmm
  subst hmm
  rw [hm1] at hbe
  refine ⟨dotT_length _ _ _, t, ht, fun x hx hx' => ?_⟩
  obtain ⟨cb, cl⟩ := extend_clamped hb 1 hte
  have hk2 : ∀ i, i < s.basis.len + 1 → (s.basis.extend 1 te).k i = s.basis.k i := by
    intro i hi
    rw [extend_k hb]
    by_cases h : i < s.basis.len
    · rw [if_pos h]
    · rw [if_neg h, if_pos hi, hb.last i (by omega)]
  have hrows := over_rows hb hs hd hcnt h0 hL hte hno hT hbe hw hp hE
  have tb : t.basis.Clamped := hbe ▸ cb
  have tl : t.basis.len = s.basis.len + 1 := by rw [hbe]; exact cl
  have td : t.basis.degree = s.basis.degree := by rw [hbe]; rfl
  have tk : t.basis.k = (s.basis.extend 1 te).k := by rw [hbe]
  have ol := overKnots_len hb hte
  refine crop_first_interval tb hw (u := ⟨s.basis.overKnots te, dotT s.basis.len (overT s.basis 1 Te) s.coeffs⟩)
    (by omega) ?_ ?_ td.symm ?_ ?_ ?_ x ?_ ?_
  · rw [td, tk, hk2 _ (by omega), hk2 _ (by omega)]; exact hf
  · unfold BSpline.WF
    rw [ol]; exact dotT_length _ _ _
  · change (s.basis.overKnots te).len + 1 = _
    omega
  · intro i
    change (s.basis.overKnots te).k i = _
    rw [overKnots_k hb hte, td, tk, hk2 (s.basis.degree + 1) (by omega)]
  · intro i hi
    change i < (s.basis.overKnots te).len at hi
    rw [ol] at hi
    change (dotT _ _ _).getD i 0 = _
    rw [hrows i hi, td, tk, hk2 (s.basis.degree + 1) (by omega)]
    split_ifs
    · refine Finset.sum_congr rfl fun q _ => ?_
      rw [shiftAcc_congr (b := s.basis) (b' := t.basis) _ td]
      intro j hj
      rw [tk, hk2 j (by omega)]
    · rfl
  · rw [td, tk, hk2 _ (by omega)]; exact hx
  · rw [tl, tk, extend_k hb, if_neg (by omega), if_neg (by omega)]; exact hx'

/-- The same in terms of values, for any threshold. -/
theorem shiftOverAt_values {tol : K} (s : BSpline K) (hb : s.basis.Clamped) (hs : s.WF) (hd : 1 ≤ s.basis.degree)
    (hcnt : ∀ τ, s.basis.knots.count τ ≤ s.basis.degree + 1) (h0 : s.basis.k 0 = 0)
    (hL : 2 * s.basis.degree ≤ s.basis.len) (hL2 : s.basis.degree + 2 ≤ s.basis.len)
    (hf : s.basis.k (s.basis.degree + 1) < s.basis.k (s.basis.degree + 2))
    (hl : s.basis.k (s.basis.len - 2) < s.basis.k (s.basis.len - 1))
    (hlN : s.basis.k (s.basis.len - 1) < s.basis.k s.basis.len)
    (hno : NoTinyAt tol s.basis (s.basis.k s.basis.len - s.basis.k (s.basis.len - 1)))
    (c : List K) (h : shiftOverAt tol s = some c) (s' : BSpline K)
    (hs' : s' = ⟨s.basis.overKnots (s.basis.k s.basis.len - s.basis.k (s.basis.len - 1)), c⟩) :
    s'.WF ∧
    (∀ x, s.basis.k (s.basis.degree + 1) ≤ x → x ≤ s.basis.k s.basis.len → s'.eval x = s.eval x) ∧
    ∃ q : K[X], q.natDegree ≤ s.basis.degree ∧
      (∀ x, s.basis.k (s.basis.len - 1) < x → x ≤ s.basis.k s.basis.len → s.eval x = q.eval x) ∧
      ∀ x, s.basis.k s.basis.len ≤ x →
        x ≤ s.basis.k s.basis.len + (s.basis.k s.basis.len - s.basis.k (s.basis.len - 1)) →
        s'.eval x = q.eval x := by
  subst hs'
  have hte : 0 < s.basis.k s.basis.len - s.basis.k (s.basis.len - 1) := sub_pos.2 hlN
  obtain ⟨hc, t, ht, he⟩ := shiftOver_eval hb hs hd hcnt h0 hL hL2 hf hl hlN hno h
  obtain ⟨-, -, -, -, -, e1, q, hq, e2, e3⟩ := extrapolateAt_eval s hb hs hcnt _ hte hno t ht
  rw [headD_eq_k hb] at e1
  rw [getLastD_eq_k hb] at e1 e2 e3
  refine ⟨?_, ?_, q, hq, ?_, ?_⟩
  · unfold BSpline.WF
    rw [overKnots_len hb hte]
    exact hc
  · intro x h1 h2
    rw [he x h1 (h2.trans (le_add_of_nonneg_right hte.le)),
      e1 x ((hb.mono (Nat.zero_le _)).trans h1) h2]
  · refine e2 _ (k_mem hb _) fun y hy => ?_
    obtain ⟨i, hi, e⟩ := List.getElem_of_mem hy
    have : s.basis.k i = y := by unfold Basis.k; rw [List.getD_eq_getElem _ _ hi, e]
    rw [← this]
    rcases Nat.lt_or_ge i s.basis.len with l | g
    · exact Or.inl (hb.mono (by omega))
    · exact Or.inr (hb.last i g)
  · intro x h1 h2
    rw [he x ((hb.mono (by omega)).trans h1) h2, e3 x h1 h2]

/-! ## Property theorems -/

/-- **C120** After shifting over a knot the coefficients, on the knots moved up by one interval, give
the old trajectory from the end of its first interval on; in the interval that is added at the end they
continue the polynomial of the last piece.

Partial: assumes knots that start in `0`, a simple first and a simple last interior knot, at least
`degree` intervals, and a solvable system without entries that are rounded away (as C119). -/
theorem C120_shift_partial (s : BSpline K) (hb : s.basis.Clamped) (hs : s.WF) (hd : 1 ≤ s.basis.degree)
    (hcnt : ∀ τ, s.basis.knots.count τ ≤ s.basis.degree + 1) (h0 : s.basis.k 0 = 0)
    (hL : 2 * s.basis.degree ≤ s.basis.len) (hL2 : s.basis.degree + 2 ≤ s.basis.len)
    (hf : s.basis.k (s.basis.degree + 1) < s.basis.k (s.basis.degree + 2))
    (hl : s.basis.k (s.basis.len - 2) < s.basis.k (s.basis.len - 1))
    (hlN : s.basis.k (s.basis.len - 1) < s.basis.k s.basis.len)
    (hno : NoTiny s.basis (s.basis.k s.basis.len - s.basis.k (s.basis.len - 1)))
    (c : List K) (h : shiftOver s = some c) (s' : BSpline K)
    (hs' : s' = ⟨s.basis.overKnots (s.basis.k s.basis.len - s.basis.k (s.basis.len - 1)), c⟩) :
    s'.WF ∧
    (∀ x, s.basis.k (s.basis.degree + 1) ≤ x → x ≤ s.basis.k s.basis.len → s'.eval x = s.eval x) ∧
    ∃ q : K[X], q.natDegree ≤ s.basis.degree ∧
      (∀ x, s.basis.k (s.basis.len - 1) < x → x ≤ s.basis.k s.basis.len → s.eval x = q.eval x) ∧
      ∀ x, s.basis.k s.basis.len ≤ x →
        x ≤ s.basis.k s.basis.len + (s.basis.k s.basis.len - s.basis.k (s.basis.len - 1)) →
        s'.eval x = q.eval x :=
  shiftOverAt_values s hb hs hd hcnt h0 hL hL2 hf hl hlN hno c h s' hs'

/-- What `shift_over_knot` returns, from the solution of the system. -/
theorem shiftOver_of_solve {s : BSpline K} {m n : ℕ} (hn : s.basis.degree + 1 = n) (X : ℕ → ℕ → K)
    (hm : lastMult s.basis = some m) (Ai : Matrix (Fin n) (Fin n) K)
    (hA : (Matrix.of fun r q : Fin n => extAe s.basis m
      (s.basis.knots.getLastD 0 - s.basis.k (s.basis.len - 1)) r.1 q.1) * Ai = 1)
    (hX : Ai * (Matrix.of fun r q : Fin n => extBe s.basis m
      (s.basis.knots.getLastD 0 - s.basis.k (s.basis.len - 1)) r.1 q.1) = Matrix.of fun r q : Fin n => X r.1 q.1) :
    shiftOver s = some (dotT s.basis.len (overT s.basis m fun i j =>
      if s.basis.len + m - n ≤ i ∧ s.basis.len - n ≤ j ∧ i - (s.basis.len + m - n) < n ∧ j - (s.basis.len - n) < n then
        chop (X (i - (s.basis.len + m - n)) (j - (s.basis.len - n)))
      else if i = j then 1 else 0) s.coeffs) := by
  subst hn
  unfold shiftOver shiftOverAt extrapolateTAt
  rw [hm, Option.bind_some, npSolve_eq (A := extA _ _ _) (B := extB _ _ _) hA hX, Option.map_some, Option.map_some]
  rfl

/-- Non-vacuity: the quadratic with one interior knot, shifted over its first interval. -/
theorem exBasis_shiftOver : shiftOver ⟨exBasis, [1, 2, 4, 3]⟩ = some [3, 4, 2, -1] := by
  rw [shiftOver_of_solve (n := 3) (m := 1) rfl
    (fun i j => ([[0, 1, 0], [0, -1, 2], [1/2, -7/2, 4]].getD i []).getD j 0) (by decide +kernel)
    !![8/5, -2/5, 0; -8/5, 12/5, 0; -16/5, 19/5, 1/8] (by decide +kernel) (by decide +kernel)]
  exact congrArg some (by decide +kernel)

theorem exBasis_over : (⟨[1/2, 1/2, 1/2, 1, 3/2, 3/2, 3/2], 2⟩ : Basis ℚ)
    = exBasis.overKnots (exBasis.k exBasis.len - exBasis.k (exBasis.len - 1)) := by decide +kernel

example (x : ℚ) (h : 1/2 ≤ x) (h' : x ≤ 1) :
    (BSpline.mk ⟨[1/2, 1/2, 1/2, 1, 3/2, 3/2, 3/2], 2⟩ [3, 4, 2, -1]).eval x
      = (BSpline.mk exBasis [1, 2, 4, 3]).eval x := by
  refine (C120_shift_partial ⟨exBasis, [1, 2, 4, 3]⟩ exBasis_clamped rfl (by decide +kernel)
    (by
      intro τ
      by_cases h : τ ∈ exBasis.knots
      · revert τ; decide +kernel
      · exact (List.count_eq_zero_of_not_mem h).trans_le (Nat.zero_le _))
    (by decide +kernel) (by decide +kernel) (by decide +kernel) (by decide +kernel) (by decide +kernel)
    (by decide +kernel) ?_ _ exBasis_shiftOver _
    (congrArg (BSpline.mk · [3, 4, 2, -1]) exBasis_over)).2.1 x h h'
  have e : exBasis.k exBasis.len - exBasis.k (exBasis.len - 1) = 1/2 := by decide +kernel
  dsimp only
  rw [e]
  exact exBasis_noTiny

/-- **C120** is violated for knots that do not start in `0`: the end of the first interval is compared
with knots it is not relative to.  The shifted trajectory starts in `1` instead of `3`. -/
theorem C120_offset_violated :
    shiftOver (⟨⟨[1, 1, 1, 3/2, 2, 2, 2], 2⟩, [1, 2, 4, 3]⟩ : BSpline ℚ) = some [1, 4, 2, -1] ∧
    (⟨⟨[1, 1, 1, 3/2, 2, 2, 2], 2⟩, [1, 2, 4, 3]⟩ : BSpline ℚ).eval (3/2) = 3 ∧
    (⟨⟨[3/2, 3/2, 3/2, 2, 5/2, 5/2, 5/2], 2⟩, [1, 4, 2, -1]⟩ : BSpline ℚ).eval (3/2) = 1 := by
  refine ⟨?_, by decide +kernel, by decide +kernel⟩
  rw [shiftOver_of_solve (n := 3) (m := 1) rfl
    (fun i j => ([[0, 1, 0], [0, -1, 2], [1/2, -7/2, 4]].getD i []).getD j 0) (by decide +kernel)
    !![8/5, -2/5, 0; -8/5, 12/5, 0; -16/5, 19/5, 1/8] (by decide +kernel) (by decide +kernel)]
  exact congrArg some (by decide +kernel)

/-- **C120** is violated for repeated interior knots: entries of the diagonal remain next to the rows
of the knot insertion.  The second coefficient is the sum of two old ones. -/
theorem C120_repeated_knot_violated :
    shiftOver (⟨⟨[0, 0, 0, 1, 1, 2, 2, 2], 2⟩, [1, 2, 4, 3, 0]⟩ : BSpline ℚ) = some [4, 7, 0, -3, -8] ∧
    (⟨⟨[0, 0, 0, 1, 1, 2, 2, 2], 2⟩, [1, 2, 4, 3, 0]⟩ : BSpline ℚ).eval (3/2) = 5/2 ∧
    (⟨⟨[1, 1, 1, 2, 2, 3, 3, 3], 2⟩, [4, 7, 0, -3, -8]⟩ : BSpline ℚ).eval (3/2) = 9/2 := by
  refine ⟨?_, by decide +kernel, by decide +kernel⟩
  rw [shiftOver_of_solve (n := 3) (m := 2) rfl
    (fun i j => ([[0, 0, 1], [0, -1, 2], [1, -4, 4]].getD i []).getD j 0) (by decide +kernel)
    !![1, 0, 0; 1, 1/2, 0; 1, 1, 1/2] (by decide +kernel) (by decide +kernel)]
  exact congrArg some (by decide +kernel)

/-- **C120** is violated with fewer intervals than the degree: the rows of the extrapolation overwrite
rows of the knot insertion. -/
theorem C120_short_horizon_violated :
    shiftOver (⟨⟨[0, 0, 0, 0, 1, 2, 2, 2, 2], 3⟩, [1, 2, 4, 3, 0]⟩ : BSpline ℚ)
      = some [13/4, 4, 5/2, -17/2, -73/4] ∧
    (⟨⟨[0, 0, 0, 0, 1, 2, 2, 2, 2], 3⟩, [1, 2, 4, 3, 0]⟩ : BSpline ℚ).eval 2 = 0 ∧
    (⟨⟨[1, 1, 1, 1, 2, 3, 3, 3, 3], 3⟩, [13/4, 4, 5/2, -17/2, -73/4]⟩ : BSpline ℚ).eval 2 = 1/8 := by
  refine ⟨?_, by decide +kernel, by decide +kernel⟩
  rw [shiftOver_of_solve (n := 4) (m := 1) rfl
    (fun i j => ([[0, 1, 0, 0], [0, -1/2, 3/2, 0], [0, 1/2, -7/2, 4], [-1/4, 5/2, -37/4, 8]].getD i []).getD j 0)
    (by decide +kernel)
    !![61/27, -1, 8/27, 0; -103/54, 7/2, -28/27, 0; 53/18, -15/2, 56/9, 0; 131/18, -33/2, 107/9, 1/6]
    (by decide +kernel) (by decide +kernel)]
  exact congrArg some (by decide +kernel)

/-- **C120** is violated for a basis without interior knots, which cannot be extrapolated (C119). -/
theorem C120_single_interval_violated (s : BSpline K) (hb : s.basis.Clamped)
    (h : s.basis.len = s.basis.degree + 1) : shiftOver s = none := by
  have h1 := C119_single_interval_violated s hb h (s.basis.knots.getLastD 0 - s.basis.k (s.basis.len - 1))
  unfold extrapolate extrapolateAt at h1
  rw [Option.map_eq_none_iff] at h1
  unfold shiftOver shiftOverAt
  rw [h1]
  rfl

/-- Witness of the last violation. -/
example : shiftOver (⟨⟨[0, 0, 0, 1, 1, 1], 2⟩, [1, 2, 4]⟩ : BSpline ℚ) = none :=
  C120_single_interval_violated _ (by
    refine ⟨by decide +kernel, by decide +kernel, ?_, by decide +kernel, ?_⟩
    · intro i hi
      have : i ≤ 2 := hi
      interval_cases i <;> rfl
    · intro i h1 h2
      have a : 3 ≤ i := h1
      have b : i < 6 := h2
      interval_cases i <;> rfl) rfl

end Verif.Spline
