import Verif.Spline.Crop
import Mathlib.Analysis.Calculus.Deriv.Basic
import Mathlib.Analysis.Calculus.Deriv.Add
import Mathlib.Analysis.Calculus.Deriv.Mul
import Mathlib.Analysis.Calculus.IteratedDeriv.Defs

/-! # Derivative of a spline: model and helper lemmas

Mirrors `BSplineBasis.derivative` and `BSpline.derivative` of `omgtools/basics/spline.py`. -/

set_option linter.unusedSectionVars false

namespace Verif.Spline

open Finset

section Model
variable {K : Type*} [Field K] [LinearOrder K]

/-- One pass of the loop in `BSplineBasis.derivative`, spline.py:251-259, with loop index `i`:
`knots = knots[1:-1]`, `delta_knots = knots[degree-i:] - knots[:-degree+i]`, row `j` of `T` has
`-1/delta` in column `j` and `1/delta` in column `j+1`, `P = (degree-i)*T.P`.
Simplification: the matrix is applied to the coefficients `c` at once (the code accumulates
the product and applies it in `BSpline.derivative`, 464-469).  A zero `delta` gives `inf` in
numpy; the theorems exclude it. -/
def derivStep (degree : ℕ) (st : List K × List K) (i : ℕ) : List K × List K :=
  let knots := (st.1.drop 1).dropLast
  (knots, (List.range (st.2.length - 1)).map fun j =>
    let delta := (knots.drop (degree - i)).getD j 0 - knots.getD j 0
    ((degree - i : ℕ) : K) * (-1 / delta * st.2.getD j 0 + 1 / delta * st.2.getD (j + 1) 0))

/-- `BSpline.derivative(o)`, spline.py:464-469: the spline itself for `o = 0`, otherwise basis
`(knots[o:-o], degree-o)` (line 249) and the coefficients produced by the loop. -/
def BSpline.derivative (s : BSpline K) (o : ℕ) : BSpline K :=
  if o = 0 then s else
    ⟨⟨(s.basis.knots.drop o).take (s.basis.knots.length - 2 * o), s.basis.degree - o⟩,
      ((List.range o).foldl (derivStep s.basis.degree) (s.basis.knots, s.coeffs)).2⟩

/-- All entries `delta_knots` met in the passes of `derivative(o)` (spline.py:254) are non-zero. -/
def BSpline.deltasOK (s : BSpline K) (o : ℕ) : Bool :=
  (List.range o).all fun i =>
    let knots := (s.basis.knots.drop (i + 1)).take (s.basis.knots.length - 2 * (i + 1))
    (List.range (s.basis.len - 1 - i)).all fun j =>
      decide ((knots.drop (s.basis.degree - i)).getD j 0 - knots.getD j 0 ≠ 0)

/-- `BSpline.derivative(o)` with its failures: no result when `o` exceeds the degree (the slices
have the wrong size) or when a division by zero fills the coefficients with `inf`/`nan`. -/
def BSpline.derivative? (s : BSpline K) (o : ℕ) : Option (BSpline K) :=
  if o ≤ s.basis.degree ∧ s.deltasOK o = true then some (s.derivative o) else none

end Model

section Field
variable {K : Type*} [Field K] [LinearOrder K]

/-- Cox-de Boor recursion from arbitrary level-0 values. -/
def coxB (k : ℕ → K) (base : ℕ → K) (x : K) : ℕ → ℕ → K
  | 0, i => base i
  | d + 1, i => (x - k i) * coxB k base x d i / (k (i + (d + 1)) - k i)
        + (k (i + (d + 1) + 1) - x) * coxB k base x d (i + 1)
            / (k (i + (d + 1) + 1) - k (i + 1))

variable [IsStrictOrderedRing K]

theorem cox_eq_coxB (k : ℕ → K) (p : ℕ) (x : K) (d i : ℕ) :
    cox k p x d i = coxB k (fun i => ind k p i x) x d i := by
  induction d generalizing i with
  | zero => rw [cox, coxB]
  | succ d ih => rw [cox_succ, coxB, ih, ih]

theorem coxB_deg {k base : ℕ → K} (hk : Monotone k) (hbase : ∀ i, k i = k (i + 1) → base i = 0)
    (x : K) (d i : ℕ) (h : k (i + d + 1) = k i) : coxB k base x d i = 0 := by
  induction d generalizing i with
  | zero => exact hbase i h.symm
  | succ d ih =>
    have h1 : k (i + d + 1) = k i :=
      le_antisymm (h ▸ hk (by omega)) (hk (by omega))
    have h2 : k (i + 1 + d + 1) = k (i + 1) := by
      have e : i + 1 + d + 1 = i + (d + 1) + 1 := by omega
      rw [e, h]
      exact le_antisymm (hk (by omega)) (h ▸ hk (by omega))
    rw [coxB, ih i h1, ih (i + 1) h2]; simp

theorem coxB_congr {k base base' : ℕ → K} (x : K) (d i : ℕ)
    (h : ∀ j, i ≤ j → j ≤ i + d → base j = base' j) : coxB k base x d i = coxB k base' x d i := by
  induction d generalizing i with
  | zero => exact h i le_rfl (by omega)
  | succ d ih =>
    rw [coxB, coxB, ih i (fun j h1 h2 => h j h1 (by omega)),
      ih (i + 1) (fun j h1 h2 => h j (by omega) (by omega))]

/-- Values on the piece number `j`. -/
theorem cox_piece {k : ℕ → K} (hk : Monotone k) {p j : ℕ} {x : K} (h0 : k 0 < x)
    (h1 : k j < x) (h2 : x ≤ k (j + 1)) (d i : ℕ) :
    cox k p x d i = coxB k (fun i => if i = j then 1 else 0) x d i := by
  rw [cox_eq_coxB]
  apply coxB_congr
  intro m _ _
  rw [ind_of_lt h0]
  congr 1
  apply propext
  constructor
  · rintro ⟨a, b⟩
    rcases Nat.lt_trichotomy m j with l | l | l
    · exact absurd (h1.trans_le (b.trans (hk l))) (lt_irrefl _)
    · exact l
    · exact absurd (a.trans_le (h2.trans (hk l))) (lt_irrefl _)
  · rintro rfl; exact ⟨h1, h2⟩

/-- At the first knot of a clamped basis, levels of positive degree agree with the first piece. -/
theorem cox_piece_first {k : ℕ → K} (hk : Monotone k) {p : ℕ} (hfirst : ∀ i, i ≤ p → k i = k 0)
    (hstart : k p < k (p + 1)) (d i : ℕ) (hd : d + 1 ≤ p) :
    cox k p (k 0) (d + 1) i = coxB k (fun i => if i = p then 1 else 0) (k 0) (d + 1) i := by
  have h0 : ∀ i, p < i → k 0 < k i := fun i hi =>
    (hfirst p le_rfl ▸ hstart).trans_le (hk hi)
  have key : ∀ d, d ≤ p → ∀ i, coxB k (fun i => if i = p then 1 else 0) (k 0) d i
      = if i + d = p then 1 else 0 := by
    intro d
    induction d with
    | zero => intro _ i; rw [coxB]; rfl
    | succ d ih =>
      intro hd i
      rw [coxB, ih (by omega), ih (by omega)]
      have z1 : (k 0 - k i) * (if i + d = p then (1 : K) else 0) = 0 := by
        split_ifs with h
        · rw [hfirst i (by omega)]; simp
        · simp
      rw [z1, zero_div, zero_add]
      by_cases h : i + (d + 1) = p
      · have hpos := h0 (i + (d + 1) + 1) (by omega)
        rw [if_pos (by omega), if_pos h, hfirst (i + 1) (by omega), mul_one, div_self]
        exact (sub_pos.2 hpos).ne'
      · rw [if_neg h, if_neg (by omega)]; simp
  rw [cox_first hfirst hk hstart _ _ hd, key _ hd]
  simp

end Field

/-- Derivative of every piece, at every point. -/
theorem coxB_hasDerivAt {k base : ℕ → ℝ} (hk : Monotone k) (d i : ℕ) (x : ℝ) :
    HasDerivAt (fun y => coxB k base y (d + 1) i)
      ((d + 1 : ℕ) * (coxB k base x d i / (k (i + d + 1) - k i)
        - coxB k base x d (i + 1) / (k (i + d + 2) - k (i + 1)))) x := by
  induction d generalizing i with
  | zero =>
    simp only [coxB]
    have h1 : HasDerivAt (fun y => (y - k i) * base i / (k (i + (0 + 1)) - k i))
        (1 * base i / (k (i + (0 + 1)) - k i)) x :=
      (((hasDerivAt_id x).sub_const (k i)).mul_const (base i)).div_const _
    have h2 : HasDerivAt (fun y => (k (i + (0 + 1) + 1) - y) * base (i + 1)
        / (k (i + (0 + 1) + 1) - k (i + 1)))
        (-1 * base (i + 1) / (k (i + (0 + 1) + 1) - k (i + 1))) x :=
      (((hasDerivAt_id x).const_sub _).mul_const (base (i + 1))).div_const _
    refine (h1.add h2).congr_deriv ?_
    push_cast
    simp only [Nat.add_zero]
    have e : i + 2 = i + 1 + 1 := rfl
    rw [e]
    ring
  | succ d ih =>
    have hA := ih i
    have hB := ih (i + 1)
    have h1 : HasDerivAt (fun y => (y - k i) * coxB k base y (d + 1) i / (k (i + (d + 1 + 1)) - k i))
        ((1 * coxB k base x (d + 1) i + (x - k i) * ((d + 1 : ℕ) * (coxB k base x d i / (k (i + d + 1) - k i)
        - coxB k base x d (i + 1) / (k (i + d + 2) - k (i + 1))))) / (k (i + (d + 1 + 1)) - k i)) x :=
      (((hasDerivAt_id x).sub_const (k i)).mul hA).div_const _
    have h2 : HasDerivAt (fun y => (k (i + (d + 1 + 1) + 1) - y) * coxB k base y (d + 1) (i + 1)
          / (k (i + (d + 1 + 1) + 1) - k (i + 1)))
        ((-1 * coxB k base x (d + 1) (i + 1) + (k (i + (d + 1 + 1) + 1) - x)
          * ((d + 1 : ℕ) * (coxB k base x d (i + 1) / (k (i + 1 + d + 1) - k (i + 1))
        - coxB k base x d (i + 1 + 1) / (k (i + 1 + d + 2) - k (i + 1 + 1)))))
          / (k (i + (d + 1 + 1) + 1) - k (i + 1))) x :=
      (((hasDerivAt_id x).const_sub _).mul hB).div_const _
    have hsum := h1.add h2
    have hfun : (fun y => coxB k base y (d + 1 + 1) i)
        = fun y => (y - k i) * coxB k base y (d + 1) i / (k (i + (d + 1 + 1)) - k i)
          + (k (i + (d + 1 + 1) + 1) - y) * coxB k base y (d + 1) (i + 1)
          / (k (i + (d + 1 + 1) + 1) - k (i + 1)) := by
      funext y; rw [coxB]
    rw [hfun]
    refine hsum.congr_deriv ?_
    -- algebra
    have n1 : i + 1 + d + 1 = i + d + 2 := by omega
    have n2 : i + 1 + d + 2 = i + d + 3 := by omega
    have n3 : i + (d + 1 + 1) + 1 = i + d + 3 := by omega
    have n4 : i + (d + 1 + 1) = i + d + 2 := by omega
    have n5 : i + (d + 1) + 1 = i + d + 2 := by omega
    have n6 : i + (d + 1) + 2 = i + d + 3 := by omega
    have n7 : i + (d + 1) = i + d + 1 := by omega
    have n8 : i + 1 + (d + 1) = i + d + 2 := by omega
    have n9 : i + d + 2 + 1 = i + d + 3 := by omega
    have na : i + d + 1 + 1 = i + d + 2 := by omega
    rw [n1, n2, n3, n4, n5, n6]
    have e1 : coxB k base x (d + 1) i = (x - k i) * coxB k base x d i / (k (i + d + 1) - k i)
        + (k (i + d + 2) - x) * coxB k base x d (i + 1) / (k (i + d + 2) - k (i + 1)) := by
      rw [coxB, n7, na]
    have e2 : coxB k base x (d + 1) (i + 1) = (x - k (i + 1)) * coxB k base x d (i + 1) / (k (i + d + 2) - k (i + 1))
        + (k (i + d + 3) - x) * coxB k base x d (i + 2) / (k (i + d + 3) - k (i + 2)) := by
      rw [coxB, n8, n9]
    rw [e1, e2]
    -- the middle function vanishes when one of the outer differences does
    have key : coxB k base x d (i + 1) / (k (i + d + 2) - k (i + 1)) *
        ((k (i + d + 2) - k i) / (k (i + d + 2) - k i)
          - (k (i + d + 3) - k (i + 1)) / (k (i + d + 3) - k (i + 1))) = 0 := by
      by_cases hz : k (i + d + 2) = k (i + 1)
      · rw [hz]; simp
      · have l1 : k (i + 1) < k (i + d + 2) := lt_of_le_of_ne (hk (by omega)) (Ne.symm hz)
        have l2 : k i ≤ k (i + 1) := hk (by omega)
        have l3 : k (i + d + 2) ≤ k (i + d + 3) := hk (by omega)
        rw [div_self (sub_pos.2 (l2.trans_lt l1)).ne', div_self (sub_pos.2 (l1.trans_le l3)).ne']
        simp
    push_cast
    linear_combination (-(d + 1 : ℝ)) * key

section Lists
variable {K : Type*} [Field K] [LinearOrder K] [IsStrictOrderedRing K]

theorem fold_fst (deg o : ℕ) (knots c : List K) :
    ((List.range o).foldl (derivStep deg) (knots, c)).1 = (knots.drop o).take (knots.length - 2 * o) := by
  induction o with
  | zero => simp
  | succ o ih =>
    rw [List.range_succ, List.foldl_append, List.foldl_cons, List.foldl_nil, derivStep]
    simp only
    rw [ih]
    apply List.ext_getElem
    · simp; omega
    · intro i h1 h2
      simp
      congr 1; omega

theorem derivative_succ (s : BSpline K) (o : ℕ) :
    s.derivative (o + 1) = (s.derivative o).derivative 1 := by
  have hk : (s.derivative o).basis.knots = (s.basis.knots.drop o).take (s.basis.knots.length - 2 * o) := by
    unfold BSpline.derivative
    split_ifs with h
    · subst h; simp
    · rfl
  have hd : (s.derivative o).basis.degree = s.basis.degree - o := by
    unfold BSpline.derivative
    split_ifs with h
    · subst h; simp
    · rfl
  have hc : (s.derivative o).coeffs
      = ((List.range o).foldl (derivStep s.basis.degree) (s.basis.knots, s.coeffs)).2 := by
    unfold BSpline.derivative
    split_ifs with h
    · subst h; simp
    · rfl
  conv_rhs => rw [BSpline.derivative, if_neg one_ne_zero, hk, hd, hc]
  rw [BSpline.derivative, if_neg (by omega)]
  congr 1
  · congr 1
    apply List.ext_getElem
    · simp; omega
    · intro i h1 h2
      simp
      congr 1; omega
  · rw [List.range_succ, List.foldl_append, List.foldl_cons, List.foldl_nil]
    have hr : List.range 1 = [0] := rfl
    rw [hr, List.foldl_cons, List.foldl_nil, derivStep, derivStep, fold_fst]
    simp only [Nat.sub_zero]

/-- What one differentiation does, on a clamped basis of positive degree. -/
theorem derivative_one_spec {s : BSpline K} (hb : s.basis.Clamped) (hs : s.WF)
    (hp : 1 ≤ s.basis.degree) :
    (∀ i, (s.derivative 1).basis.k i = s.basis.k (i + 1)) ∧
    (s.derivative 1).basis.degree = s.basis.degree - 1 ∧
    (s.derivative 1).basis.len = s.basis.len - 1 ∧
    (s.derivative 1).WF ∧ (s.derivative 1).basis.Clamped ∧
    ∀ j, j < s.basis.len - 1 → (s.derivative 1).coeffs.getD j 0 =
      (s.basis.degree : K) * (s.coeffs.getD (j + 1) 0 - s.coeffs.getD j 0)
        / (s.basis.k (j + s.basis.degree + 1) - s.basis.k (j + 1)) := by
  have hl := hb.length_eq
  have hlt := hb.lt_len
  have hcl : s.coeffs.length = s.basis.len := hs
  have hknots : (s.derivative 1).basis.knots = (s.basis.knots.drop 1).take (s.basis.knots.length - 2) := rfl
  have hdeg : (s.derivative 1).basis.degree = s.basis.degree - 1 := rfl
  have hkl : (s.derivative 1).basis.knots.length = s.basis.knots.length - 2 := by
    rw [hknots, List.length_take, List.length_drop]; omega
  have hlen : (s.derivative 1).basis.len = s.basis.len - 1 := by
    unfold Basis.len; rw [hkl, hdeg]; omega
  have hk : ∀ i, (s.derivative 1).basis.k i = s.basis.k (i + 1) := by
    intro i
    have inr : ∀ i, i < s.basis.knots.length - 2 → (s.derivative 1).basis.k i = s.basis.k (i + 1) := by
      intro i hi
      unfold Basis.k
      rw [List.getD_eq_getElem _ _ (by omega), List.getD_eq_getElem _ _ (by omega)]
      simp only [hknots, List.getElem_take, List.getElem_drop]
      congr 1; omega
    rcases Nat.lt_or_ge i (s.basis.knots.length - 2) with h | h
    · exact inr i h
    · have e : (s.derivative 1).basis.k i = (s.derivative 1).basis.k (s.basis.knots.length - 2 - 1) := by
        have hne : (s.derivative 1).basis.knots ≠ [] := by
          intro e; rw [e] at hkl; simp at hkl; omega
        unfold Basis.k
        rw [List.getD_eq_default _ _ (by omega), List.getD_eq_getElem _ _ (by omega),
          List.getLastD_eq_getLast?, List.getLast?_eq_some_getLast hne, Option.getD_some,
          List.getLast_eq_getElem]
        simp only [hkl]
      rw [e, inr _ (by omega), hb.last _ (by omega), hb.last (i + 1) (by omega)]
  have hWF : (s.derivative 1).WF := by
    unfold BSpline.WF
    rw [hlen]
    unfold BSpline.derivative
    rw [if_neg one_ne_zero]
    have hr : List.range 1 = [0] := rfl
    rw [hr, List.foldl_cons, List.foldl_nil, derivStep]
    simp [hcl]
  refine ⟨hk, hdeg, hlen, hWF, ⟨?_, ?_, ?_, ?_, ?_⟩, ?_⟩
  · rw [hknots]
    exact (hb.sorted.sublist (List.drop_sublist _ _)).sublist (List.take_sublist _ _)
  · rw [hkl, hdeg]; have := hb.size; omega
  · intro i hi
    rw [hdeg] at hi
    rw [hk, hk, hb.first (i + 1) (by omega), hb.first (0 + 1) (by omega)]
  · rw [hdeg, hk, hk, Nat.sub_add_cancel hp]; exact hb.start
  · intro i hi _
    rw [hlen] at hi ⊢
    rw [hk, hk, hb.last (i + 1) (by omega), hb.last (s.basis.len - 1 + 1) (by omega)]
  · intro j hj
    have hr : List.range 1 = [0] := rfl
    have : (s.derivative 1).coeffs = (derivStep s.basis.degree (s.basis.knots, s.coeffs) 0).2 := by
      unfold BSpline.derivative
      rw [if_neg one_ne_zero, hr, List.foldl_cons, List.foldl_nil]
    rw [this, derivStep]
    simp only [Nat.sub_zero]
    rw [List.getD_eq_getElem _ _ (by simp; omega), List.getElem_map, List.getElem_range]
    have g1 : ((s.basis.knots.drop 1).dropLast.drop s.basis.degree).getD j 0
        = s.basis.k (j + s.basis.degree + 1) := by
      unfold Basis.k
      rw [List.getD_eq_getElem _ _ (by simp; omega), List.getD_eq_getElem _ _ (by omega)]
      simp
      congr 1; omega
    have g2 : (s.basis.knots.drop 1).dropLast.getD j 0 = s.basis.k (j + 1) := by
      unfold Basis.k
      rw [List.getD_eq_getElem _ _ (by simp; omega), List.getD_eq_getElem _ _ (by omega)]
      simp
    rw [g1, g2]
    ring

/-- Summation by parts. -/
theorem sum_deriv {k : ℕ → K} {p n : ℕ} (hn : p < n) (hp : 1 ≤ p) (hfirst : k p = k 0)
    (hlast : k (n + p) = k n) (c C : ℕ → K) :
    ∑ i ∈ range n, c i * ((p : K) * (C i / (k (i + p) - k i) - C (i + 1) / (k (i + p + 1) - k (i + 1))))
      = ∑ j ∈ range (n - 1), (p : K) * (c (j + 1) - c j) / (k (j + p + 1) - k (j + 1)) * C (j + 1) := by
  obtain ⟨m, rfl⟩ : ∃ m, n = m + 1 := ⟨n - 1, by omega⟩
  rw [Nat.add_sub_cancel]
  have e1 : ∀ i, c i * ((p : K) * (C i / (k (i + p) - k i) - C (i + 1) / (k (i + p + 1) - k (i + 1))))
      = c i * (p : K) * (C i / (k (i + p) - k i))
        - c i * (p : K) * (C (i + 1) / (k (i + p + 1) - k (i + 1))) := by intro i; ring
  rw [Finset.sum_congr rfl (fun i _ => e1 i), Finset.sum_sub_distrib, Finset.sum_range_succ',
    Finset.sum_range_succ (fun i => c i * (p : K) * (C (i + 1) / (k (i + p + 1) - k (i + 1))))]
  have z1 : k (0 + p) - k 0 = 0 := by rw [zero_add, hfirst, sub_self]
  have z2 : k (m + p + 1) - k (m + 1) = 0 := by
    have : m + p + 1 = m + 1 + p := by omega
    rw [this, hlast, sub_self]
  rw [z1, z2, div_zero, div_zero, mul_zero, mul_zero, add_zero, add_zero, ← Finset.sum_sub_distrib]
  refine Finset.sum_congr rfl fun j _ => ?_
  have : j + 1 + p = j + p + 1 := by omega
  rw [this]
  ring

end Lists

/-- The derivative of a spline on one piece; `S` is the set of approach. -/
theorem eval_hasDerivWithinAt {s : BSpline ℝ} (hb : s.basis.Clamped) (hs : s.WF)
    (hp : 1 ≤ s.basis.degree) {m : ℕ} {S : Set ℝ} {x : ℝ} (hxS : x ∈ S)
    (heq : ∀ᶠ y in nhdsWithin x S, ∀ i,
      s.basis.fn i y = coxB s.basis.k (fun i => if i = m then 1 else 0) y s.basis.degree i)
    (hder : ∀ j, (s.derivative 1).basis.fn j x
      = coxB s.basis.k (fun i => if i = m then 1 else 0) x (s.basis.degree - 1) (j + 1)) :
    HasDerivWithinAt s.eval ((s.derivative 1).eval x) S x := by
  obtain ⟨hk, hdeg, hlen, hWF, hcl, hco⟩ := derivative_one_spec hb hs hp
  obtain ⟨d, hd⟩ : ∃ d, s.basis.degree = d + 1 := ⟨s.basis.degree - 1, by omega⟩
  set base : ℕ → ℝ := fun i => if i = m then 1 else 0
  have hpoly : HasDerivAt (fun y => ∑ i ∈ range s.basis.len, s.coeffs.getD i 0
      * coxB s.basis.k base y s.basis.degree i) ((s.derivative 1).eval x) x := by
    rw [BSpline.eval_eq hWF, hlen]
    have h1 : HasDerivAt (fun y => ∑ i ∈ range s.basis.len, s.coeffs.getD i 0
        * coxB s.basis.k base y (d + 1) i)
        (∑ i ∈ range s.basis.len, s.coeffs.getD i 0 * (((d + 1 : ℕ) : ℝ)
          * (coxB s.basis.k base x d i / (s.basis.k (i + d + 1) - s.basis.k i)
            - coxB s.basis.k base x d (i + 1) / (s.basis.k (i + d + 2) - s.basis.k (i + 1))))) x := by
      apply HasDerivAt.fun_sum
      intro i _
      exact (coxB_hasDerivAt hb.mono d i x).const_mul _
    rw [hd]
    refine h1.congr_deriv ?_
    have hparts := sum_deriv (k := s.basis.k) (p := s.basis.degree) (n := s.basis.len) hb.lt_len hp
      hb.k_degree (hb.last _ (by omega)) (fun i => s.coeffs.getD i 0)
      (fun i => coxB s.basis.k base x d i)
    rw [hd] at hparts
    rw [show (∑ j ∈ range (s.basis.len - 1), (s.derivative 1).coeffs.getD j 0 * (s.derivative 1).basis.fn j x)
      = ∑ j ∈ range (s.basis.len - 1), ((d + 1 : ℕ) : ℝ) * (s.coeffs.getD (j + 1) 0 - s.coeffs.getD j 0)
        / (s.basis.k (j + (d + 1) + 1) - s.basis.k (j + 1)) * coxB s.basis.k base x d (j + 1) from ?_]
    · exact hparts
    · refine Finset.sum_congr rfl fun j hj => ?_
      rw [hco j (Finset.mem_range.1 hj), hder j, hd, Nat.add_sub_cancel]
  have hev : ∀ y, (∀ i, s.basis.fn i y = coxB s.basis.k base y s.basis.degree i) →
      s.eval y = ∑ i ∈ range s.basis.len, s.coeffs.getD i 0 * coxB s.basis.k base y s.basis.degree i := by
    intro y hy
    rw [BSpline.eval_eq hs]
    exact Finset.sum_congr rfl fun i _ => by rw [hy]
  refine hpoly.hasDerivWithinAt.congr_of_eventuallyEq ?_ ?_
  · filter_upwards [heq] with y hy using hev y hy
  · exact hev x (heq.self_of_nhdsWithin hxS)

end Verif.Spline
