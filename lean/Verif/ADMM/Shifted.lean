import Verif.Spline.Shift
import Verif.Spline.Props1
import Mathlib.Tactic.Positivity
import Mathlib.Tactic.Ring
import Mathlib.Tactic.Linarith

/-! # The remaining part of the splines in the distributed updates (C138)

Between two knots the updaters are to compare only the part of the shared splines that is still ahead ("only consider future
piece of spline", admm.py:85, dualdecomposition.py:88): the shared variables are moved with `shift_knot1_fwd` by
`_transform_spline`. -/

set_option linter.unusedSectionVars false

namespace Verif.Shifted

open Verif.Spline

/-! ## Model -/

section Model
variable {K : Type*} [Field K] [LinearOrder K]

/-- The loop of `_transform_spline` over one variable, dualmethod.py:165-177: `L` is `len(basis)`, `ind` the (sorted) entries of the
variable that are shared, `v` their values. For `l` in `range(L)`, when all entries `l*L, …, (l+1)*L - 1` are shared, the slice
that begins at `l*L - ind[0]` is replaced. -/
def transformName (tf : List K → List K) (L : ℕ) (ind : List ℕ) (v : List K) : List K :=
  (List.range L).foldl (fun v l =>
    if (List.range L).all fun i => ind.contains (l * L + i) then
      v.take (l * L - ind.headD 0) ++ tf ((v.drop (l * L - ind.headD 0)).take L) ++ v.drop (l * L - ind.headD 0 + L)
    else v) v

/-- A shared variable as the caller holds it, dualmethod.py:149-177: a plain dictionary (`_get_x_variables(symbolic=True)`, 135-147),
or a casadi structure (`q_i_struct(…)`). -/
inductive Held (K : Type*)
  | dict (v : List K)
  | struct (v : List K)

/-- The entries of a held variable. -/
def Held.values : Held K → List K
  | .dict v => v
  | .struct v => v

/-- The argument of `_transform_spline` after the call: a dictionary is written in place (176), of a structure a dictionary of
copies is made first (155, 83-104), and the structure itself stays as it was. -/
def Held.afterTransform (tf : List K → List K) (L : ℕ) (ind : List ℕ) : Held K → Held K
  | .dict v => .dict (transformName tf L ind v)
  | .struct v => .struct v

/-- The value that `_transform_spline` returns. -/
def Held.transformed (tf : List K → List K) (L : ℕ) (ind : List ℕ) : Held K → Held K
  | .dict v => .dict (transformName tf L ind v)
  | .struct v => .struct (transformName tf L ind v)

/-- `mtimes(u.T, v)`. -/
def dot (u v : List K) : K := (List.zipWith (· * ·) u v).sum

/-- `u - v`. -/
def diff (u v : List K) : List K := List.zipWith (· - ·) u v

/-- The terms of one copy `z` with price `l` in the objective of the x-update, admm.py:92-102 (without `AMA`). -/
def copyCost (ρ : K) (x : List K) (zl : List K × List K) : K :=
  dot zl.2 (diff x zl.1) + ρ / 2 * dot (diff x zl.1) (diff x zl.1)

/-- The terms of the x-update that are added to the own objective, admm.py:80-103: the own copy and those of the neighbours, `copies`,
in structures; `x` in a dictionary. The results of `_transform_spline` are not used. -/
def sharedCost (b : Basis K) (t ρ : K) (ind : List ℕ) (x : List K) (copies : List (List K × List K)) : K :=
  let tf := fun c => shiftKnot1Fwd c b t
  let x' := ((Held.dict x).afterTransform tf b.len ind).values
  (copies.map fun zl => copyCost ρ x'
    (((Held.struct zl.1).afterTransform tf b.len ind).values, ((Held.struct zl.2).afterTransform tf b.len ind).values)).sum

/-- The coupling constraint "both centers are equal" in dual decomposition, dualdecomposition.py:87-91 and 108-139: the own splines
`x` from a dictionary, the copies `z` of the splines of the neighbour from a structure; what has to vanish. -/
def couplingDD (b : Basis K) (t : K) (ind : List ℕ) (x z : List K) : List K :=
  let tf := fun c => shiftKnot1Fwd c b t
  diff ((Held.dict x).afterTransform tf b.len ind).values ((Held.struct z).afterTransform tf b.len ind).values

end Model

/-! ## Lemmas -/

variable {K : Type*} [Field K] [LinearOrder K] [IsStrictOrderedRing K]

theorem flatten_length (L : ℕ) (xs : List (List K)) (h : ∀ x ∈ xs, x.length = L) : xs.flatten.length = xs.length * L := by
  induction xs with
  | nil => simp
  | cons x xs ih =>
    rw [List.flatten_cons, List.length_append, ih fun y hy => h y (List.mem_cons_of_mem _ hy), h x (List.mem_cons_self ..),
      List.length_cons]
    ring

/-- The loop on consecutive splines `a, …, a + m - 1`. -/
theorem transform_loop (tf : List K → List K) (L : ℕ) (hL : 0 < L) (htf : ∀ x : List K, x.length = L → (tf x).length = L) (a : ℕ)
    (xs : List (List K)) (hxs : ∀ x ∈ xs, x.length = L) (n : ℕ) :
    (List.range n).foldl (fun v l =>
      if (List.range L).all fun i => (List.range' (a * L) (xs.length * L)).contains (l * L + i) then
        v.take (l * L - (List.range' (a * L) (xs.length * L)).headD 0) ++
          tf ((v.drop (l * L - (List.range' (a * L) (xs.length * L)).headD 0)).take L) ++
          v.drop (l * L - (List.range' (a * L) (xs.length * L)).headD 0 + L)
      else v) xs.flatten = ((xs.take (n - a)).map tf ++ xs.drop (n - a)).flatten := by
  induction n with
  | zero => simp
  | succ n ih =>
    rw [List.range_succ, List.foldl_append, ih]
    simp only [List.foldl_cons, List.foldl_nil]
    have hcond : ((List.range L).all fun i => (List.range' (a * L) (xs.length * L)).contains (n * L + i)) = true ↔
        a ≤ n ∧ n < a + xs.length := by
      rw [List.all_eq_true]
      simp only [List.mem_range, List.contains_iff_mem, List.mem_range'_1]
      rw [← Nat.add_mul]
      constructor
      · intro h
        have h0 := h 0 hL
        refine ⟨Nat.le_of_mul_le_mul_right h0.1 hL, Nat.lt_of_mul_lt_mul_right (a := L) (by simpa using h0.2)⟩
      · rintro ⟨h1, h2⟩ i hi
        have e1 : a * L ≤ n * L := Nat.mul_le_mul_right _ h1
        have e2 : (n + 1) * L ≤ (a + xs.length) * L := Nat.mul_le_mul_right _ h2
        rw [Nat.add_mul, Nat.one_mul] at e2
        omega
    by_cases hc : a ≤ n ∧ n < a + xs.length
    · rw [if_pos (hcond.2 hc)]
      obtain ⟨h1, h2⟩ := hc
      have hhead : (List.range' (a * L) (xs.length * L)).headD 0 = a * L := by
        have : 0 < xs.length * L := Nat.mul_pos (by omega) hL
        rw [show xs.length * L = (xs.length * L - 1) + 1 by omega, List.range'_succ]; rfl
      rw [hhead, ← Nat.sub_mul]
      have hk : n - a < xs.length := by omega
      rw [show n + 1 - a = (n - a) + 1 by omega]
      generalize n - a = k at hk ⊢
      have hA : ((xs.take k).map tf).flatten.length = k * L := by
        rw [flatten_length L, List.length_map, List.length_take, Nat.min_eq_left hk.le]
        intro x hx
        obtain ⟨y, hy, rfl⟩ := List.mem_map.1 hx
        exact htf y (hxs y (List.mem_of_mem_take hy))
      have hx : (xs[k]).length = L := hxs _ (List.getElem_mem _)
      have hdrop : xs.drop k = xs[k] :: xs.drop (k + 1) := List.drop_eq_getElem_cons hk
      have htake : xs.take (k + 1) = xs.take k ++ [xs[k]] := by rw [List.take_succ_eq_append_getElem hk]
      rw [hdrop, htake, List.map_append, List.flatten_append, List.flatten_cons]
      rw [List.take_left' hA, List.drop_left' hA, List.take_left' hx]
      rw [← List.drop_drop, List.drop_left' hA, List.drop_left' hx]
      simp
    · rw [if_neg (fun h => hc (hcond.1 h))]
      by_cases h1 : a ≤ n
      · have h2 : xs.length ≤ n - a := by omega
        rw [List.take_of_length_le h2, List.take_of_length_le (by omega), List.drop_of_length_le h2, List.drop_of_length_le (by omega)]
      · rw [show n + 1 - a = 0 by omega, show n - a = 0 by omega]

theorem transform_eq (tf : List K → List K) (L : ℕ) (hL : 0 < L) (htf : ∀ x : List K, x.length = L → (tf x).length = L) (a : ℕ)
    (xs : List (List K)) (hxs : ∀ x ∈ xs, x.length = L) :
    transformName tf L (List.range' (a * L) (xs.length * L)) xs.flatten = ((xs.take (L - a)).map tf ++ xs.drop (L - a)).flatten :=
  transform_loop tf L hL htf a xs hxs L

theorem dot_self_nonneg (u : List K) : 0 ≤ dot u u := by
  unfold dot
  refine List.sum_nonneg fun x hx => ?_
  obtain ⟨i, hi, rfl⟩ := List.mem_iff_getElem.1 hx
  rw [List.getElem_zipWith]
  exact mul_self_nonneg _

theorem dot_self_eq_zero (u : List K) (h : dot u u = 0) : ∀ x ∈ u, x = 0 := by
  induction u with
  | nil => simp
  | cons x u ih =>
    have e : dot (x :: u) (x :: u) = x * x + dot u u := by simp [dot]
    rw [e] at h
    have h1 := mul_self_nonneg x
    have h2 := dot_self_nonneg u
    intro y hy
    rcases List.mem_cons.1 hy with rfl | hy
    · exact mul_self_eq_zero.1 (by linarith)
    · exact ih (by linarith) y hy

theorem diff_eq_zero {u v : List K} (hl : u.length = v.length) (h : ∀ x ∈ diff u v, x = 0) : u = v := by
  refine List.ext_getElem hl fun i h1 h2 => ?_
  have := h ((diff u v)[i]'(by simp [diff]; omega)) (List.getElem_mem _)
  rw [show (diff u v)[i]'(by simp [diff]; omega) = u[i] - v[i] by simp [diff]] at this
  linarith

theorem diff_self (u : List K) : ∀ x ∈ diff u u, x = 0 := by
  intro x hx
  obtain ⟨i, hi, rfl⟩ := List.mem_iff_getElem.1 hx
  simp [diff]

theorem dot_zero_right (u v : List K) (h : ∀ x ∈ v, x = 0) : dot u v = 0 := by
  unfold dot
  refine List.sum_eq_zero fun x hx => ?_
  obtain ⟨i, hi, rfl⟩ := List.mem_iff_getElem.1 hx
  rw [List.getElem_zipWith, h _ (List.getElem_mem _), mul_zero]

theorem dot_zero_left (u v : List K) (h : ∀ x ∈ u, x = 0) : dot u v = 0 := by
  unfold dot
  refine List.sum_eq_zero fun x hx => ?_
  obtain ⟨i, hi, rfl⟩ := List.mem_iff_getElem.1 hx
  rw [List.getElem_zipWith, h _ (List.getElem_mem _), zero_mul]

theorem fwd_length (c : List K) (b : Basis K) (t : K) : (shiftKnot1Fwd c b t).length = b.len := dotT_length _ _ _

theorem fwd_start {b : Basis K} (hb : b.Clamped) (c : List K) (hc : c.length = b.len) : shiftKnot1Fwd c b (b.k 0) = c := by
  have hlt := hb.lt_len
  refine List.ext_getElem (by rw [fwd_length, hc]) fun i h1 h2 => ?_
  have := shiftFwd_getD hb c (b.k 0) i (by omega)
  rw [List.getD_eq_getElem _ _ h1] at this
  rw [this]
  split_ifs with h
  · rw [Finset.sum_eq_single i]
    · rw [Nat.add_comm (b.degree + 1) i, shiftAcc_start hb _ i i h, if_pos rfl, one_mul, List.getD_eq_getElem _ _ h2]
    · intro m _ hm
      rw [Nat.add_comm (b.degree + 1) i, shiftAcc_start hb _ i m h, if_neg hm, zero_mul]
    · intro h'; exact absurd (Finset.mem_range.2 h) h'
  · rw [List.getD_eq_getElem _ _ h2]

/-- A spline on clamped knots begins at its first coefficient. -/
theorem eval_begin {s : BSpline K} (hb : s.basis.Clamped) (hs : s.WF) : s.eval (s.basis.k 0) = s.coeffs.headD 0 := by
  have hlt := hb.lt_len
  rw [BSpline.eval_eq hs, Finset.sum_eq_single 0]
  · rw [Basis.fn, cox_first hb.first hb.mono hb.start _ _ le_rfl, if_pos (by omega), mul_one,
      List.headD_eq_head?_getD, List.head?_eq_getElem?, List.getD_eq_getElem?_getD]
  · intro i _ hi
    rw [Basis.fn, cox_first hb.first hb.mono hb.start _ _ le_rfl, if_neg (by omega), mul_zero]
  · intro h; exact absurd (Finset.mem_range.2 (by omega)) h

/-- The first coefficient after moving is the value at `t`. -/
theorem fwd_head {b : Basis K} (hb : b.Clamped) {c : List K} (hc : c.length = b.len) {t : K} (h0 : b.knots.headD 0 ≤ t)
    (h1 : ∀ τ ∈ b.knots, b.knots.headD 0 < τ → t < τ) : (shiftKnot1Fwd c b t).headD 0 = (BSpline.mk b c).eval t := by
  have hlt := hb.lt_len
  have hl := hb.length_eq
  have hs : (BSpline.mk b c).WF := hc
  rw [headD_eq_k hb] at h0 h1
  have ht : t < b.k (b.degree + 1) := by
    refine h1 _ ?_ (hb.k_degree ▸ hb.start)
    unfold Basis.k
    rw [List.getD_eq_getElem _ _ (by omega)]
    exact List.getElem_mem _
  obtain ⟨mc, ml⟩ := moveFirst_clamped hb ht
  have e := shiftFwd_eval (s := BSpline.mk b c) hb hs h0 ht t le_rfl (ht.le.trans (hb.mono (show b.degree + 1 ≤ b.len by omega)))
  rw [← e]
  have e2 := eval_begin (s := BSpline.mk (b.moveFirst t) (shiftKnot1Fwd c b t)) mc (by
    show (shiftKnot1Fwd c b t).length = (b.moveFirst t).len
    rw [ml, fwd_length])
  rw [show (BSpline.mk (b.moveFirst t) (shiftKnot1Fwd c b t)).basis.k 0 = t from by
    show (b.moveFirst t).k 0 = t
    rw [moveFirst_k hb, if_pos (by omega)]] at e2
  exact e2.symm

/-- The x-update's shared terms for consecutive splines. -/
theorem sharedCost_eq (b : Basis K) (hb : b.Clamped) (t ρ : K) (a : ℕ) (xs : List (List K)) (hxs : ∀ x ∈ xs, x.length = b.len)
    (hn : a + xs.length ≤ b.len) (copies : List (List K × List K)) :
    sharedCost b t ρ (List.range' (a * b.len) (xs.length * b.len)) xs.flatten copies =
      (copies.map (copyCost ρ (xs.map fun c => shiftKnot1Fwd c b t).flatten)).sum := by
  have hlt := hb.lt_len
  unfold sharedCost Held.afterTransform Held.values
  simp only
  rw [transform_eq (fun c => shiftKnot1Fwd c b t) b.len (by omega) (fun x _ => fwd_length x b t) a xs hxs,
    List.take_of_length_le (by omega), List.drop_of_length_le (by omega), List.append_nil]

theorem flatten_inj (L : ℕ) {xs ys : List (List K)} (hl : xs.length = ys.length) (hx : ∀ x ∈ xs, x.length = L) (hy : ∀ y ∈ ys, y.length = L)
    (h : xs.flatten = ys.flatten) : xs = ys := by
  induction xs generalizing ys with
  | nil => cases ys with
    | nil => rfl
    | cons y ys => simp at hl
  | cons x xs ih =>
    cases ys with
    | nil => simp at hl
    | cons y ys =>
      rw [List.flatten_cons, List.flatten_cons] at h
      have hxy : x.length = y.length := by rw [hx x (List.mem_cons_self ..), hy y (List.mem_cons_self ..)]
      obtain ⟨h1, h2⟩ := List.append_inj h hxy
      rw [h1, ih (by simpa using hl) (fun z hz => hx z (List.mem_cons_of_mem _ hz)) (fun z hz => hy z (List.mem_cons_of_mem _ hz)) h2]

theorem agree_cost (ρ : K) (x z : List K) (n : ℕ) (hl : x.length = z.length) (hρ : 0 < ρ) :
    0 ≤ ((List.replicate (n + 1) (z, z.map fun _ => 0)).map (copyCost ρ x)).sum ∧
      (((List.replicate (n + 1) (z, z.map fun _ => (0 : K))).map (copyCost ρ x)).sum = 0 ↔ x = z) := by
  rw [List.map_replicate, List.sum_replicate, nsmul_eq_mul]
  have e : copyCost ρ x (z, z.map fun _ => 0) = ρ / 2 * dot (diff x z) (diff x z) := by
    unfold copyCost
    rw [dot_zero_left _ _ (by simp), zero_add]
  rw [e]
  have h1 := dot_self_nonneg (diff x z)
  have h2 : (0 : K) < ((n + 1 : ℕ) : K) := by exact_mod_cast Nat.succ_pos n
  refine ⟨by positivity, ?_, ?_⟩
  · intro h
    have h3 : dot (diff x z) (diff x z) = 0 := by
      rcases mul_eq_zero.1 h with h | h
      · exact absurd h h2.ne'
      · rcases mul_eq_zero.1 h with h | h
        · exact absurd h (by positivity)
        · exact h
    exact diff_eq_zero hl (dot_self_eq_zero _ h3)
  · rintro rfl
    rw [dot_zero_left _ _ (diff_self x), mul_zero, mul_zero]

/-! ## Property -/

/-- **C138** (which splines) When complete, consecutive splines of a vehicle are shared, and they are not numbered higher than the
basis has functions, then the transformation of a dictionary moves every one of them (for every transformation that keeps the
number of coefficients). -/
theorem C138_transform_partial (b : Basis K) (hb : b.Clamped) (tf : List K → List K) (htf : ∀ x : List K, x.length = b.len → (tf x).length = b.len)
    (a : ℕ) (xs : List (List K)) (hxs : ∀ x ∈ xs, x.length = b.len) (hn : a + xs.length ≤ b.len) :
    ((Held.dict xs.flatten).afterTransform tf b.len (List.range' (a * b.len) (xs.length * b.len))).values = (xs.map tf).flatten := by
  have hlt := hb.lt_len
  unfold Held.afterTransform Held.values
  simp only
  rw [transform_eq tf b.len (by omega) htf a xs hxs, List.take_of_length_le (by omega), List.drop_of_length_le (by omega),
    List.append_nil]

/-- **C138** (which splines, refuted) With more splines than basis functions, those that are numbered higher are not moved: the loop
counts basis functions instead of splines. -/
theorem C138_transform_violated (b : Basis K) (hb : b.Clamped) (tf : List K → List K) (htf : ∀ x : List K, x.length = b.len → (tf x).length = b.len)
    (xs : List (List K)) (hxs : ∀ x ∈ xs, x.length = b.len) :
    ((Held.dict xs.flatten).afterTransform tf b.len (List.range' 0 (xs.length * b.len))).values =
      ((xs.take b.len).map tf).flatten ++ (xs.drop b.len).flatten := by
  have hlt := hb.lt_len
  unfold Held.afterTransform Held.values
  simp only
  have := transform_eq tf b.len (by omega) htf 0 xs hxs
  rw [Nat.zero_mul, Nat.sub_zero] at this
  rw [this, List.flatten_append]

/-- **C138** (at a knot) When the update begins at a knot, the x-update compares the splines with the copies as they are, and so does
the coupling constraint of dual decomposition. -/
theorem C138_start_partial (b : Basis K) (hb : b.Clamped) (ρ : K) (a : ℕ) (xs : List (List K)) (hxs : ∀ x ∈ xs, x.length = b.len)
    (hn : a + xs.length ≤ b.len) (copies : List (List K × List K)) (z : List K) :
    sharedCost b (b.knots.headD 0) ρ (List.range' (a * b.len) (xs.length * b.len)) xs.flatten copies =
      (copies.map (copyCost ρ xs.flatten)).sum ∧
    couplingDD b (b.knots.headD 0) (List.range' (a * b.len) (xs.length * b.len)) xs.flatten z = diff xs.flatten z := by
  have e : xs.map (fun c => shiftKnot1Fwd c b (b.knots.headD 0)) = xs := by
    rw [headD_eq_k hb]
    conv_rhs => rw [← List.map_id xs]
    exact List.map_congr_left fun x hx => fwd_start hb x (hxs x hx)
  refine ⟨by rw [sharedCost_eq b hb _ _ a xs hxs hn, e], ?_⟩
  have := C138_transform_partial b hb (fun c => shiftKnot1Fwd c b (b.knots.headD 0)) (fun x _ => fwd_length x b _) a xs hxs hn
  unfold couplingDD
  simp only
  rw [this, e]
  rfl

/-- **C138** (between knots, refuted) Own copy and copies of the neighbours are the very splines of the vehicle, the prices are zero.
If one of the splines has moved since the last knot, the x-update still charges the vehicle for the difference. -/
theorem C138_agree_violated (b : Basis K) (hb : b.Clamped) (ρ : K) (hρ : 0 < ρ) (t : K) (h0 : b.knots.headD 0 ≤ t)
    (h1 : ∀ τ ∈ b.knots, b.knots.headD 0 < τ → t < τ) (a : ℕ) (xs : List (List K)) (hxs : ∀ x ∈ xs, x.length = b.len)
    (hn : a + xs.length ≤ b.len) (n : ℕ) (x : List K) (hx : x ∈ xs)
    (hmove : (BSpline.mk b x).eval t ≠ (BSpline.mk b x).eval (b.knots.headD 0)) :
    0 < sharedCost b t ρ (List.range' (a * b.len) (xs.length * b.len)) xs.flatten
      (List.replicate (n + 1) (xs.flatten, xs.flatten.map fun _ => 0)) := by
  rw [sharedCost_eq b hb t ρ a xs hxs hn]
  have hl : ((xs.map fun c => shiftKnot1Fwd c b t).flatten).length = xs.flatten.length := by
    rw [flatten_length b.len xs hxs, flatten_length b.len, List.length_map]
    intro y hy
    obtain ⟨c, -, rfl⟩ := List.mem_map.1 hy
    exact fwd_length c b t
  obtain ⟨p1, p2⟩ := agree_cost ρ (xs.map fun c => shiftKnot1Fwd c b t).flatten xs.flatten n hl hρ
  refine lt_of_le_of_ne p1 fun h => hmove ?_
  have e := flatten_inj b.len (by simp) (by
    intro y hy
    obtain ⟨c, -, rfl⟩ := List.mem_map.1 hy
    exact fwd_length c b t) hxs (p2.1 h.symm)
  have ex : shiftKnot1Fwd x b t = x := by
    obtain ⟨i, hi, rfl⟩ := List.mem_iff_getElem.1 hx
    have := List.getElem_of_eq e (i := i) (by simpa using hi)
    rwa [List.getElem_map] at this
  have hbegin := eval_begin (s := BSpline.mk b x) hb (hxs x hx)
  rw [← fwd_head hb (hxs x hx) h0 h1, ex, headD_eq_k hb]
  exact hbegin.symm

/-- **C138** (between knots, refuted) What the x-update asks for: the terms vanish exactly for splines that are at time `t` where the
copies were at the last knot; such splines exist. (`zs` are the copies of all, the prices are zero.) -/
theorem C138_pull_violated (b : Basis K) (hb : b.Clamped) (ρ : K) (hρ : 0 < ρ) (t : K) (h0 : b.knots.headD 0 ≤ t)
    (h1 : ∀ τ ∈ b.knots, b.knots.headD 0 < τ → t < τ) (hN : b.degree + 1 < b.len ∨ b.degree = 0) (a : ℕ) (zs : List (List K))
    (hzs : ∀ z ∈ zs, z.length = b.len) (hn : a + zs.length ≤ b.len) (n : ℕ) :
    (∃ ys : List (List K), ys.length = zs.length ∧ (∀ y ∈ ys, y.length = b.len) ∧
      sharedCost b t ρ (List.range' (a * b.len) (zs.length * b.len)) ys.flatten
        (List.replicate (n + 1) (zs.flatten, zs.flatten.map fun _ => 0)) = 0) ∧
    ∀ ys : List (List K), ys.length = zs.length → (∀ y ∈ ys, y.length = b.len) →
      0 ≤ sharedCost b t ρ (List.range' (a * b.len) (zs.length * b.len)) ys.flatten
        (List.replicate (n + 1) (zs.flatten, zs.flatten.map fun _ => 0)) ∧
      (sharedCost b t ρ (List.range' (a * b.len) (zs.length * b.len)) ys.flatten
        (List.replicate (n + 1) (zs.flatten, zs.flatten.map fun _ => 0)) = 0 →
      ∀ i (hi : i < ys.length) (hi' : i < zs.length),
        (BSpline.mk b ys[i]).eval t = (BSpline.mk b zs[i]).eval (b.knots.headD 0)) := by
  have hcost : ∀ ys : List (List K), ys.length = zs.length → (∀ y ∈ ys, y.length = b.len) →
      0 ≤ sharedCost b t ρ (List.range' (a * b.len) (zs.length * b.len)) ys.flatten
        (List.replicate (n + 1) (zs.flatten, zs.flatten.map fun _ => 0)) ∧
      (sharedCost b t ρ (List.range' (a * b.len) (zs.length * b.len)) ys.flatten
        (List.replicate (n + 1) (zs.flatten, zs.flatten.map fun _ => 0)) = 0 ↔ ys.map (fun c => shiftKnot1Fwd c b t) = zs) := by
    intro ys hl hy
    have hfl : ∀ y ∈ ys.map (fun c => shiftKnot1Fwd c b t), y.length = b.len := by
      intro y hy
      obtain ⟨c, -, rfl⟩ := List.mem_map.1 hy
      exact fwd_length c b t
    have := agree_cost ρ (ys.map fun c => shiftKnot1Fwd c b t).flatten zs.flatten n (by
      rw [flatten_length b.len zs hzs, flatten_length b.len _ hfl, List.length_map, hl]) hρ
    rw [← hl, sharedCost_eq b hb t ρ a ys hy (by omega)]
    refine ⟨this.1, this.2.trans ⟨fun h => flatten_inj b.len (by simpa using hl) hfl hzs h, fun h => by rw [h]⟩⟩
  refine ⟨?_, fun ys hl hy => ⟨(hcost ys hl hy).1, fun h i hi hi' => ?_⟩⟩
  · have hex : ∀ z : List K, z.length = b.len → ∃ d : List K, d.length = b.len ∧ shiftKnot1Fwd d b t = z := by
      intro z hz
      obtain ⟨-, d, hd, hfd⟩ := C118_roundtrip_partial b hb z hz t h1 hN
      refine ⟨d, ?_, hfd⟩
      unfold shiftKnot1Bwd at hd
      split_ifs at hd
      rw [← Option.some.inj hd]
      exact dotT_length _ _ _
    have : ∃ ys : List (List K), (∀ y ∈ ys, y.length = b.len) ∧ ys.map (fun c => shiftKnot1Fwd c b t) = zs := by
      clear hn hcost
      induction zs with
      | nil => exact ⟨[], by simp, rfl⟩
      | cons z zs ih =>
        obtain ⟨ys, hy, he⟩ := ih fun w hw => hzs w (List.mem_cons_of_mem _ hw)
        obtain ⟨d, hd, hdz⟩ := hex z (hzs z (List.mem_cons_self ..))
        refine ⟨d :: ys, ?_, by rw [List.map_cons, he, hdz]⟩
        intro y h
        rcases List.mem_cons.1 h with rfl | h
        · exact hd
        · exact hy y h
    obtain ⟨ys, hy, he⟩ := this
    have hl : ys.length = zs.length := by rw [← he, List.length_map]
    exact ⟨ys, hl, hy, (hcost ys hl hy).2.2 he⟩
  · have e := (hcost ys hl hy).2.1 h
    have hg := List.getElem_of_eq e (i := i) (by simpa using hi)
    rw [List.getElem_map] at hg
    have hyi : (ys[i]).length = b.len := hy _ (List.getElem_mem _)
    have hzi : (zs[i]).length = b.len := hzs _ (List.getElem_mem _)
    rw [← fwd_head hb hyi h0 h1, hg, headD_eq_k hb]
    exact (eval_begin (s := BSpline.mk b zs[i]) hb hzi).symm

/-- **C138** (dual decomposition between knots, refuted) The coupling constraint "same center" is satisfied exactly when the copies
are at the last knot where the vehicle is at time `t`; two vehicles with the same moving center do not satisfy it. -/
theorem C138_dd_violated (b : Basis K) (hb : b.Clamped) (t : K) (h0 : b.knots.headD 0 ≤ t)
    (h1 : ∀ τ ∈ b.knots, b.knots.headD 0 < τ → t < τ) (a : ℕ) (xs zs : List (List K))
    (hxs : ∀ x ∈ xs, x.length = b.len) (hzs : ∀ z ∈ zs, z.length = b.len) (hl : xs.length = zs.length) (hn : a + xs.length ≤ b.len)
    (h : ∀ r ∈ couplingDD b t (List.range' (a * b.len) (xs.length * b.len)) xs.flatten zs.flatten, r = 0)
    (i : ℕ) (hi : i < xs.length) (hi' : i < zs.length) :
    (BSpline.mk b zs[i]).eval (b.knots.headD 0) = (BSpline.mk b xs[i]).eval t := by
  have e := C138_transform_partial b hb (fun c => shiftKnot1Fwd c b t) (fun x _ => fwd_length x b _) a xs hxs hn
  unfold couplingDD at h
  simp only at h
  rw [e] at h
  have hfl : ∀ y ∈ xs.map (fun c => shiftKnot1Fwd c b t), y.length = b.len := by
    intro y hy
    obtain ⟨c, -, rfl⟩ := List.mem_map.1 hy
    exact fwd_length c b t
  have hz : (xs.map fun c => shiftKnot1Fwd c b t).flatten = zs.flatten := diff_eq_zero (by
    show _ = zs.flatten.length
    rw [flatten_length b.len zs hzs, flatten_length b.len _ hfl, List.length_map, hl]) h
  have e2 := flatten_inj b.len (by simpa using hl) hfl hzs hz
  have hg := List.getElem_of_eq e2 (i := i) (by simpa using hi)
  rw [List.getElem_map] at hg
  have hxi : (xs[i]).length = b.len := hxs _ (List.getElem_mem _)
  have hzi : (zs[i]).length = b.len := hzs _ (List.getElem_mem _)
  rw [← fwd_head hb hxi h0 h1, hg, headD_eq_k hb]
  exact eval_begin (s := BSpline.mk b zs[i]) hb hzi

/-! ### Examples -/

/-- A quadratic with one interior knot, a quarter of the horizon after the last knot: with copies equal to the spline itself the
x-update charges `5/8`, and nothing at the knot. -/
example : sharedCost exBasis (1/4) 1 (List.range' 0 4) [1, 2, 4, 3] [([1, 2, 4, 3], [0, 0, 0, 0])] = 5/8 ∧
    sharedCost exBasis 0 1 (List.range' 0 4) [1, 2, 4, 3] [([1, 2, 4, 3], [0, 0, 0, 0])] = 0 := by
  constructor <;> decide +kernel

/-- The hypotheses of the refutations are met by this spline: it has moved. -/
example : (BSpline.mk exBasis [1, 2, 4, 3]).eval (1/4) ≠ (BSpline.mk exBasis [1, 2, 4, 3]).eval (exBasis.knots.headD 0) := by
  decide +kernel

example : exBasis.knots.headD 0 ≤ 1/4 ∧ (∀ τ ∈ exBasis.knots, exBasis.knots.headD 0 < τ → 1/4 < τ) ∧
    (exBasis.degree + 1 < exBasis.len ∨ exBasis.degree = 0) ∧ (0 : ℕ) + [[1, 2, 4, 3], [0, 0, 0, (0 : ℚ)]].length ≤ exBasis.len := by
  decide +kernel

/-- Three splines on a basis of two functions: the third is not moved. -/
example : ((Held.dict [0, 1, 0, 1, 0, (1 : ℚ)]).afterTransform (fun c => shiftKnot1Fwd c ⟨[0, 0, 1, 1], 1⟩ (1/2)) 2
    (List.range' 0 6)).values = [1/2, 1, 1/2, 1, 0, 1] := by
  decide +kernel

/-- Two consecutive splines, beginning with the second. -/
example : ((Held.dict [1, 2, 4, 3, 1, 2, 4, (3 : ℚ)]).afterTransform (fun c => shiftKnot1Fwd c exBasis (1/4)) 4
    (List.range' 4 8)).values = [2, 5/2, 4, 3, 2, 5/2, 4, 3] := by
  decide +kernel

/-- Dual decomposition: copies that satisfy the constraint. -/
example : couplingDD exBasis (1/4) (List.range' 0 4) [1, 2, 4, 3] [2, 5/2, 4, 3] = [0, 0, 0, 0] ∧
    couplingDD exBasis (1/4) (List.range' 0 4) [1, 2, 4, 3] [1, 2, 4, 3] = [1, 1/2, 0, 0] := by
  constructor <;> decide +kernel

end Verif.Shifted
