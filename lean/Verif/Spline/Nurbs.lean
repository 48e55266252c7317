import Verif.Spline.Regular
import Verif.Spline.Props3
import Mathlib.Analysis.Calculus.Deriv.Inv

/-! # Rational splines (C172)

Mirrors `BSpline.__div__`, `NurbsBasis` and `Nurbs` of `omgtools/basics/spline.py`.  Numbers are exact; a division by zero, which numpy
answers with `inf` or `nan`, is the missing value `none`. -/

set_option linter.unusedSectionVars false

namespace Verif.Spline

open Finset

section Model
variable {K : Type*} [Field K] [LinearOrder K]

/-- A `Nurbs`, spline.py:509-513: a `NurbsBasis` (a B-spline basis and weights, 328-331) and coefficients. -/
structure Nurbs (K : Type*) where
  basis : Basis K
  weights : List K
  coeffs : List K

/-- As many weights and coefficients as basis functions. -/
def Nurbs.WF (s : Nurbs K) : Prop := s.weights.length = s.basis.len ∧ s.coeffs.length = s.basis.len

/-- `self.num`, spline.py:512. -/
def Nurbs.num (s : Nurbs K) : BSpline K := ⟨s.basis, s.coeffs.zipWith (· * ·) s.weights⟩

/-- `self.denom`, spline.py:513. -/
def Nurbs.denom (s : Nurbs K) : BSpline K := ⟨s.basis, s.weights⟩

/-- `NurbsBasis.eval_basis`, spline.py:333-340: `((B*weights).T/denom).T` with `denom = B.dot(weights)`. -/
def Nurbs.evalBasis (s : Nurbs K) (x : K) : Option (List K) :=
  let B := (s.basis.eval x).zipWith (· * ·) s.weights
  if B.sum = 0 then none else some (B.map (· / B.sum))

/-- `Spline.__call__` of a `Nurbs`, spline.py:373-374: `basis(x).dot(coeffs)`. -/
def Nurbs.eval? (s : Nurbs K) (x : K) : Option K :=
  (s.evalBasis x).map fun B => (B.zipWith (· * ·) s.coeffs).sum

/-- `BSpline.__div__`, spline.py:458-462, given the matrices returned by `basis.transform`; `python` is the major version.  Only Python 2
calls `__div__` for `/`, Python 3 asks for `__truediv__` and raises `TypeError`.  One zero among the weights puts an `inf` or `nan` into the
coefficients, and any evaluation then multiplies it with the zero weight: `nan` everywhere. -/
def BSpline.div? (python : ℕ) (s t : BSpline K) (tol : K) (Ts Tt : ℕ → ℕ → K) : Option (Nurbs K) :=
  let basis := s.basis.add t.basis
  let weights := applyT tol Tt basis.len t.coeffs
  if 3 ≤ python ∨ (0 : K) ∈ weights then none
  else some ⟨basis, weights, (applyT tol Ts basis.len s.coeffs).zipWith (· / ·) weights⟩

/-- `Nurbs.__mul__` with a spline, spline.py:515-517: `num = self.num*other`, `num/self.denom`. -/
def Nurbs.mul? (python : ℕ) (s : Nurbs K) (o : BSpline K) (tol : K) (T Ts Tt : ℕ → ℕ → K) : Option (Nurbs K) :=
  (s.num.mulT o tol T).div? python s.denom tol Ts Tt

/-- `Nurbs.insert_knots`, spline.py:558-564: weights and coefficients are transformed each for itself. -/
def Nurbs.insertKnotsT (s : Nurbs K) (ts : List K) (tol : K) (T : ℕ → ℕ → K) : Nurbs K :=
  let b := s.basis.insertKnots ts
  ⟨b, applyT tol T b.len s.weights, applyT tol T b.len s.coeffs⟩

/-- `Nurbs.derivative`, spline.py:527-548, given the matrix `Td` of the product `denom*denom` and the matrix `T` of the products of the basis
functions and those of the derivative basis: both in the basis of `denom**2`. -/
def Nurbs.derivative? (s : Nurbs K) (tol : K) (Td T : ℕ → ℕ → K) : Option (Nurbs K) :=
  let denom2 := s.denom.powT tol (fun _ => Td) 2
  let dnum := s.num.derivative 1
  let ddenom := s.denom.derivative 1
  let product := (s.basis.pairs dnum.basis).map fun q =>
    dnum.coeffs.getD q.2 0 * s.denom.coeffs.getD q.1 0 - s.num.coeffs.getD q.1 0 * ddenom.coeffs.getD q.2 0
  if (0 : K) ∈ denom2.coeffs then none
  else some ⟨denom2.basis, denom2.coeffs, (applyT tol T denom2.basis.len product).zipWith (· / ·) denom2.coeffs⟩

end Model

/-! ## Helpers -/

variable {K : Type*} [Field K] [LinearOrder K] [IsStrictOrderedRing K]

theorem sum_map_div (l : List K) (d : K) (c : List K) :
    ((l.map (· / d)).zipWith (· * ·) c).sum = (l.zipWith (· * ·) c).sum / d := by
  induction l generalizing c with
  | nil => simp
  | cons a l ih =>
    cases c with
    | nil => simp
    | cons u c =>
      simp only [List.map_cons, List.zipWith_cons_cons, List.sum_cons, ih]
      ring

theorem zipWith_assoc_comm (l w c : List K) :
    ((l.zipWith (· * ·) w).zipWith (· * ·) c) = l.zipWith (· * ·) (c.zipWith (· * ·) w) := by
  induction l generalizing w c with
  | nil => simp
  | cons a l ih =>
    cases w with
    | nil => cases c <;> simp
    | cons u w =>
      cases c with
      | nil => simp
      | cons v c => simp only [List.zipWith_cons_cons, ih]; congr 1; ring

/-- A rational spline is the quotient of its numerator and its denominator. -/
theorem Nurbs.eval_eq (s : Nurbs K) (x : K) :
    s.eval? x = if s.denom.eval x = 0 then none else some (s.num.eval x / s.denom.eval x) := by
  unfold Nurbs.eval? Nurbs.evalBasis
  have h : ((s.basis.eval x).zipWith (· * ·) s.weights).sum = s.denom.eval x := rfl
  dsimp only
  rw [h]
  split_ifs with hz
  · rfl
  · rw [Option.map_some, sum_map_div, zipWith_assoc_comm]
    rfl

theorem zipWith_div_mul (c w : List K) (h : c.length = w.length) (hw : (0 : K) ∉ w) :
    (c.zipWith (· / ·) w).zipWith (· * ·) w = c := by
  induction c generalizing w with
  | nil => simp
  | cons a c ih =>
    cases w with
    | nil => simp at h
    | cons u w =>
      simp only [List.mem_cons, not_or] at hw
      simp only [List.zipWith_cons_cons]
      rw [ih w (by simpa using h) hw.2, div_mul_cancel₀ _ (Ne.symm hw.1)]

/-- The value of a quotient of two lists of coefficients. -/
theorem eval_quot (b : Basis K) (c w : List K) (h : c.length = w.length) (hw : (0 : K) ∉ w) (x : K) :
    (⟨b, w, c.zipWith (· / ·) w⟩ : Nurbs K).eval? x
      = if (⟨b, w⟩ : BSpline K).eval x = 0 then none else some ((⟨b, c⟩ : BSpline K).eval x / (⟨b, w⟩ : BSpline K).eval x) := by
  rw [Nurbs.eval_eq]
  unfold Nurbs.num Nurbs.denom
  dsimp only
  rw [zipWith_div_mul c w h hw]

theorem pairs_sum (P : List (ℕ × ℕ)) (f : ℕ × ℕ → K) : (P.map f).sum = ∑ l ∈ range P.length, f (P.getD l (0, 0)) := by
  rw [← sum_map_range]
  congr 1
  apply List.ext_getElem (by simp)
  intro i i1 i2
  have : i < P.length := by simpa using i1
  simp [this]

/-- The derivative basis lives on the same interval. -/
theorem deriv_domain {s : BSpline K} (hb : s.basis.Clamped) (hs : s.WF) (hp : 1 ≤ s.basis.degree) :
    s.basis.SameDomain (s.derivative 1).basis ∧ ∀ τ ∈ (s.derivative 1).basis.knots, τ ∈ s.basis.knots := by
  obtain ⟨h1, h2, h3, h4, h5, -⟩ := derivative_one_spec hb hs hp
  refine ⟨⟨?_, ?_⟩, fun τ hτ => ?_⟩
  · rw [headD_eq_k hb, headD_eq_k h5, h1]
    exact (hb.first 1 hp).symm
  · rw [getLastD_eq_k hb, getLastD_eq_k h5, h1, h3]
    congr 1
    have := hb.lt_len
    omega
  · exact List.mem_of_mem_drop (List.mem_of_mem_take hτ)

/-- Without interior knots the numerator of the quotient rule is found exactly. -/
theorem deriv_num (n d : BSpline K) (hnd : n.basis = d.basis) (hb : d.basis.Clamped) (hn : n.WF) (hdw : d.WF) (hp : 1 ≤ d.basis.degree)
    (hno : ∀ τ ∈ d.basis.knots, τ = d.basis.k 0 ∨ τ = d.basis.k d.basis.len) (T : ℕ → ℕ → K)
    (hT : Solves (d.basis.mul d.basis) (pairFn d.basis (d.derivative 1).basis) (d.basis.pairs (d.derivative 1).basis).length T)
    {x : K} (h0 : d.basis.k 0 ≤ x) (h1 : x ≤ d.basis.k d.basis.len) :
    (⟨d.basis.mul d.basis, applyT 0 T (d.basis.mul d.basis).len ((d.basis.pairs (n.derivative 1).basis).map fun q =>
      (n.derivative 1).coeffs.getD q.2 0 * d.coeffs.getD q.1 0 - n.coeffs.getD q.1 0 * (d.derivative 1).coeffs.getD q.2 0)⟩ : BSpline K).eval x
      = (n.derivative 1).eval x * d.eval x - n.eval x * (d.derivative 1).eval x := by
  have hnb : n.basis.Clamped := by rw [hnd]; exact hb
  have hbb : (n.derivative 1).basis = (d.derivative 1).basis := by
    unfold BSpline.derivative
    rw [if_neg (by omega), if_neg (by omega)]
    dsimp only
    rw [hnd]
  obtain ⟨-, a2, -, a4, a5, -⟩ := derivative_one_spec hb hdw hp
  have b4 : (n.derivative 1).WF := (derivative_one_spec hnb hn (by rw [hnd]; exact hp)).2.2.2.1
  obtain ⟨sd, sub⟩ := deriv_domain hb hdw hp
  rw [hbb]
  set db := (d.derivative 1).basis with hdb
  obtain ⟨c1, c2, c3, c4, c5, c6, c7⟩ := combine_facts hb hb ⟨rfl, rfl⟩ (d := d.basis.degree + d.basis.degree)
    (Nat.le_add_right _ _) (Nat.le_add_left _ _)
  obtain ⟨e1, e2, e3, e4, e5, e6, e7⟩ := combine_facts hb a5 sd (d := d.basis.degree + db.degree)
    (Nat.le_add_right _ _) (Nat.le_add_left _ _)
  have x0 : (d.basis.mul d.basis).k 0 ≤ x := by
    show (d.basis.combine d.basis (d.basis.degree + d.basis.degree)).k 0 ≤ x
    rw [c2]; exact h0
  have x1 : x ≤ (d.basis.mul d.basis).k (d.basis.mul d.basis).len := by
    show x ≤ (d.basis.combine d.basis (d.basis.degree + d.basis.degree)).k (d.basis.combine d.basis (d.basis.degree + d.basis.degree)).len
    rw [c3]; exact h1
  have key := applyT_eval (b := d.basis.mul d.basis) c1 0 le_rfl T ((d.basis.pairs db).map fun q =>
      (n.derivative 1).coeffs.getD q.2 0 * d.coeffs.getD q.1 0 - n.coeffs.getD q.1 0 * (d.derivative 1).coeffs.getD q.2 0) x0 x1
  rw [zero_mul] at key
  rw [sub_eq_zero.1 (abs_nonpos_iff.1 key), List.length_map]
  have ex : ∀ l, l < (d.basis.pairs db).length →
      ∑ i ∈ range (d.basis.mul d.basis).len, (d.basis.mul d.basis).fn i x * T i l = pairFn d.basis db l x := by
    intro l hl
    refine transform_exact (b := d.basis.mul d.basis) c1 hT (fun j hj => ?_) hl x0 x1
    have hq := pairs_lt (a := d.basis) (b := db) (q := (d.basis.pairs db).getD j (0, 0)) (by
      rw [List.getD_eq_getElem _ _ hj]; exact List.getElem_mem _)
    obtain ⟨r, r1, r2, r3⟩ := spans_product e1
      (s := unitSpline d.basis ((d.basis.pairs db).getD j (0, 0)).1)
      (s' := unitSpline db ((d.basis.pairs db).getD j (0, 0)).2) hb (unitSpline_wf _ _) a5
      (unitSpline_wf _ _) rfl e2 e3 (e2.trans e4) (e3.trans e5)
      (fun τ hτ _ _ => by
        have := e6 τ hτ; rw [Nat.add_sub_cancel_left] at this; exact this)
      (fun τ hτ _ _ => by
        have := e7 τ hτ; rw [Nat.add_sub_cancel] at this; exact this)
    obtain ⟨t, t1, t2, t3⟩ := spans_elevate (c := d.basis.mul d.basis) c1 (s := r) (by rw [r1]; exact e1) r2
      (by
        rw [r1]
        show d.basis.degree + db.degree ≤ d.basis.degree + d.basis.degree
        rw [a2]; omega)
      (by rw [r1, e2]; exact c2) (by rw [r1, e3]; exact c3)
      (by
        rw [r1, e2, e3]
        intro τ hτ g0 g1
        have hτ : τ ∈ d.basis.knots := by
          rcases (C08_breaks d.basis db τ).2.1 hτ with h | h
          · exact h
          · exact sub τ h
        rcases hno τ hτ with h | h
        · exact absurd g0 (by rw [h]; exact lt_irrefl _)
        · exact absurd g1 (by rw [h]; exact lt_irrefl _))
    refine ⟨t, t1, t2, fun y y0 y1 => ?_⟩
    have y0 : d.basis.k 0 ≤ y := by rw [← c2]; exact y0
    have y1 : y ≤ d.basis.k d.basis.len := by rw [← c3]; exact y1
    rw [t3 y (by rw [r1, e2]; exact y0) (by rw [r1, e3]; exact y1), r3 y (by rw [e2]; exact y0) (by rw [e3]; exact y1),
      unitSpline_eval _ _ hq.1, unitSpline_eval _ _ hq.2]
    rfl
  have s1 := sum_pairs hb a5 e4 (fun i => d.coeffs.getD i 0) (fun j => (n.derivative 1).coeffs.getD j 0) h0
  have s2 := sum_pairs hb a5 e4 (fun i => n.coeffs.getD i 0) (fun j => (d.derivative 1).coeffs.getD j 0) h0
  rw [BSpline.eval_eq hdw, BSpline.eval_eq hn, BSpline.eval_eq a4, BSpline.eval_eq b4, hnd, hbb, ← hdb,
    mul_comm (∑ i ∈ range db.len, (n.derivative 1).coeffs.getD i 0 * db.fn i x), ← s1, ← s2, pairs_sum, pairs_sum,
    ← Finset.sum_sub_distrib]
  refine Finset.sum_congr rfl fun l hl => ?_
  have hl := Finset.mem_range.1 hl
  rw [ex l hl, List.getD_eq_getElem _ _ (by simpa using hl), List.getElem_map]
  unfold pairFn
  dsimp only
  rw [List.getD_eq_getElem _ _ hl]
  ring

/-! ## Properties -/

/-- **C172** (partial: Python 2 and no zero among the weights, see the `_violated` theorems) The quotient of two splines on the same horizon
is the pointwise quotient: where the divisor is not zero, the value `v` of the quotient satisfies `v * t = s`, up to the threshold `tol`. -/
theorem C172_quotient_partial (s t : BSpline K) (hb : s.basis.Clamped) (hs : s.WF) (hb' : t.basis.Clamped) (ht : t.WF)
    (hd : s.basis.SameDomain t.basis) (tol : K) (htol : 0 ≤ tol) (Ts Tt : ℕ → ℕ → K)
    (hTs : Solves (s.basis.add t.basis) s.basis.fn s.basis.len Ts)
    (hTt : Solves (s.basis.add t.basis) t.basis.fn t.basis.len Tt) (q : Nurbs K)
    (hq : s.div? 2 t tol Ts Tt = some q) (x : K) (hx : s.basis.InDomain x)
    (hpos : tol * ∑ j ∈ range t.basis.len, |t.coeffs.getD j 0| < |t.eval x|) :
    ∃ v, q.eval? x = some v ∧ |v * t.eval x - s.eval x|
      ≤ tol * ((∑ j ∈ range s.basis.len, |s.coeffs.getD j 0|) + |v| * ∑ j ∈ range t.basis.len, |t.coeffs.getD j 0|) := by
  obtain ⟨h0, h1⟩ := hx
  rw [headD_eq_k hb] at h0
  rw [getLastD_eq_k hb] at h1
  unfold BSpline.div? at hq
  dsimp only at hq
  split_ifs at hq with hw
  push Not at hw
  obtain ⟨-, hw⟩ := hw
  have hq := (Option.some.inj hq).symm
  unfold Basis.add at hTs hTt
  obtain ⟨c1, c2, c3, c4, c5, c6, c7⟩ := combine_facts hb hb' hd (le_max_left _ _) (le_max_right _ _)
  have r1 := transform_eval c1 hb hs (le_max_left _ _) c2 c3 (fun τ hτ _ _ => c6 τ hτ) htol hTs
    (x := x) (by rw [c2]; exact h0) (by rw [c3]; exact h1)
  have r2 := transform_eval c1 hb' ht (le_max_right _ _) (c2.trans c4) (c3.trans c5) (fun τ hτ _ _ => c7 τ hτ) htol hTt
    (x := x) (by rw [c2]; exact h0) (by rw [c3]; exact h1)
  have e := eval_quot (s.basis.add t.basis) (applyT tol Ts (s.basis.add t.basis).len s.coeffs)
    (applyT tol Tt (s.basis.add t.basis).len t.coeffs) (by simp [applyT]) hw x
  rw [← hq] at e
  set n := (BSpline.mk (s.basis.add t.basis) (applyT tol Ts (s.basis.add t.basis).len s.coeffs)).eval x
  set d := (BSpline.mk (s.basis.add t.basis) (applyT tol Tt (s.basis.add t.basis).len t.coeffs)).eval x
  have r1 : |n - s.eval x| ≤ tol * ∑ j ∈ range s.basis.len, |s.coeffs.getD j 0| := r1
  have r2 : |d - t.eval x| ≤ tol * ∑ j ∈ range t.basis.len, |t.coeffs.getD j 0| := r2
  have hd0 : d ≠ 0 := by
    intro hz
    rw [hz, zero_sub, abs_neg] at r2
    exact absurd (hpos.trans_le r2) (lt_irrefl _)
  rw [if_neg hd0] at e
  refine ⟨n / d, e, ?_⟩
  have k1 : n / d * t.eval x - s.eval x = (n - s.eval x) + n / d * (t.eval x - d) := by
    field_simp; ring
  rw [k1]
  refine (abs_add_le _ _).trans ?_
  rw [abs_mul, abs_sub_comm (t.eval x), mul_add]
  refine add_le_add r1 ?_
  calc |n / d| * |d - t.eval x| ≤ |n / d| * (tol * ∑ j ∈ range t.basis.len, |t.coeffs.getD j 0|) :=
        mul_le_mul_of_nonneg_left r2 (abs_nonneg _)
    _ = _ := by ring

/-- **C172** Without the threshold it is the pointwise quotient. -/
theorem C172_quotient_exact_partial (s t : BSpline K) (hb : s.basis.Clamped) (hs : s.WF) (hb' : t.basis.Clamped) (ht : t.WF)
    (hd : s.basis.SameDomain t.basis) (Ts Tt : ℕ → ℕ → K)
    (hTs : Solves (s.basis.add t.basis) s.basis.fn s.basis.len Ts)
    (hTt : Solves (s.basis.add t.basis) t.basis.fn t.basis.len Tt) (q : Nurbs K)
    (hq : s.div? 2 t 0 Ts Tt = some q) (x : K) (hx : s.basis.InDomain x) (h0 : t.eval x ≠ 0) :
    q.eval? x = some (s.eval x / t.eval x) := by
  obtain ⟨v, h1, h2⟩ := C172_quotient_partial s t hb hs hb' ht hd 0 le_rfl Ts Tt hTs hTt q hq x hx
    (by rw [zero_mul]; exact abs_pos.2 h0)
  rw [zero_mul] at h2
  have h2 := sub_eq_zero.1 (abs_nonpos_iff.1 h2)
  rw [h1, ← h2, mul_div_cancel_right₀ _ h0]

/-- **C172** The product of a rational spline and a spline is the pointwise product (same guards). -/
theorem C172_product_partial (s : Nurbs K) (o : BSpline K) (hb : s.basis.Clamped) (hs : s.WF) (hb' : o.basis.Clamped) (ho : o.WF)
    (hd : s.basis.SameDomain o.basis) (T Ts Tt : ℕ → ℕ → K)
    (hT : Solves (s.basis.mul o.basis) (pairFn s.basis o.basis) (s.basis.pairs o.basis).length T)
    (hTs : Solves ((s.basis.mul o.basis).add s.basis) (s.basis.mul o.basis).fn (s.basis.mul o.basis).len Ts)
    (hTt : Solves ((s.basis.mul o.basis).add s.basis) s.basis.fn s.basis.len Tt) (q : Nurbs K)
    (hq : s.mul? 2 o 0 T Ts Tt = some q) (x v : K) (hx : s.basis.InDomain x) (hv : s.eval? x = some v) :
    q.eval? x = some (v * o.eval x) := by
  obtain ⟨w1, w2⟩ := hs
  have hn : s.num.WF := by simp [Nurbs.num, BSpline.WF, w1, w2]
  have hdn : s.denom.WF := w1
  obtain ⟨c1, c2, c3⟩ := C08_clamped s.basis o.basis hb hb' (s.basis.degree + o.basis.degree) (Nat.le_add_right _ _)
    (Nat.le_add_left _ _) hd.1 hd.2
  have m := C09_mul s.num o hb hb' hn ho hd 0 le_rfl T hT x hx
  rw [zero_mul] at m
  have m := sub_eq_zero.1 (abs_nonpos_iff.1 m)
  rw [Nurbs.eval_eq] at hv
  split_ifs at hv with hz
  have hv := Option.some.inj hv
  have hx' : (s.num.mulT o 0 T).basis.InDomain x := ⟨(le_of_eq c2).trans hx.1, hx.2.trans (le_of_eq c3.symm)⟩
  rw [C172_quotient_exact_partial (s.num.mulT o 0 T) s.denom c1 (by simp [BSpline.WF, BSpline.mulT, applyT]) hb hdn
    ⟨c2, c3⟩ Ts Tt hTs hTt q hq x hx' hz, m, ← hv]
  congr 1
  ring

/-- **C172** A spline with constant weights stays the same function when knots are inserted. -/
theorem C172_insert_knots_partial (s : Nurbs K) (hb : s.basis.Clamped) (hs : s.WF) (w : K) (hw : w ≠ 0) (hc : ∀ a ∈ s.weights, a = w)
    (ts : List K) (hts : ∀ τ ∈ ts, s.basis.InDomain τ) (T : ℕ → ℕ → K) (hT : Solves (s.basis.insertKnots ts) s.basis.fn s.basis.len T)
    (x : K) (hx : s.basis.InDomain x) : (s.insertKnotsT ts 0 T).eval? x = s.eval? x ∧ (s.eval? x).isSome := by
  obtain ⟨w1, w2⟩ := hs
  have clamped : (s.basis.insertKnots ts).Clamped ∧ (s.basis.insertKnots ts).k 0 = s.basis.k 0
      ∧ (s.basis.insertKnots ts).k (s.basis.insertKnots ts).len = s.basis.k s.basis.len := by
    obtain ⟨p1, p2, p3⟩ := counts_of_clamped hb
    have m0 : s.basis.k 0 ∈ s.basis.knots := List.count_pos_iff.1 (by omega)
    have m1 : s.basis.k s.basis.len ∈ s.basis.knots := List.count_pos_iff.1 (by omega)
    refine clamped_of_counts (c := s.basis.insertKnots ts) hb.first_lt_last
      (insertKnots_sorted _ _) (by rw [count_insertKnots, if_pos m0, p1]; rfl)
      (by rw [count_insertKnots, if_pos m1]; exact p2) ?_
    intro τ hτ
    have := (C09_insert_knots s.denom hb w1 ts hts 0 le_rfl T hT).1 τ
    rcases this.1 hτ with h | h
    · exact p3 τ h
    · have := hts τ h
      unfold Basis.InDomain at this
      rwa [headD_eq_k hb, getLastD_eq_k hb] at this
  obtain ⟨c1, c2, c3⟩ := clamped
  have one : ∀ (b : Basis K), b.Clamped → ∀ y, b.k 0 ≤ y → y ≤ b.k b.len → ∀ l : List K, l.length = b.len → (∀ a ∈ l, a = w) →
      (⟨b, l⟩ : BSpline K).eval y = w := by
    intro b hb y y0 y1 l hl hlw
    rw [BSpline.eval_eq (s := ⟨b, l⟩) hl]
    show ∑ i ∈ range b.len, l.getD i 0 * b.fn i y = w
    have : ∀ i ∈ range b.len, l.getD i 0 * b.fn i y = w * b.fn i y := by
      intro i hi
      have hi : i < l.length := by rw [hl]; exact Finset.mem_range.1 hi
      rw [List.getD_eq_getElem _ _ hi, hlw _ (List.getElem_mem hi)]
    rw [Finset.sum_congr rfl this, ← Finset.mul_sum, Basis.sum_fn hb y0 y1, mul_one]
  -- the transformed weights are constant, too
  have tw : ∀ a ∈ applyT 0 T (s.basis.insertKnots ts).len s.weights, a = w := by
    have hreg := hT.regular
      (fun i => (applyT 0 T (s.basis.insertKnots ts).len s.weights).getD i 0 - w) (by
        intro y hy
        obtain ⟨y0, y1⟩ := xmax_mem c1 hy
        have e := (C09_insert_knots s.denom hb w1 ts hts 0 le_rfl T hT).2 y
          (show s.basis.InDomain y from
            ⟨by rw [headD_eq_k hb, ← c2]; exact y0, by rw [getLastD_eq_k hb, ← c3]; exact y1⟩)
        rw [zero_mul] at e
        have e := sub_eq_zero.1 (abs_nonpos_iff.1 e)
        rw [show s.denom.eval y = w from one s.basis hb y (by rw [← c2]; exact y0) (by rw [← c3]; exact y1) s.weights w1 hc,
          BSpline.eval_eq (by simp [BSpline.WF, BSpline.insertKnotsT, applyT])] at e
        simp only [sub_mul, Finset.sum_sub_distrib, ← Finset.mul_sum, Basis.sum_fn c1 y0 y1, mul_one]
        exact sub_eq_zero.2 e)
    intro a ha
    obtain ⟨i, hi, rfl⟩ := List.getElem_of_mem ha
    have := hreg i (by simpa [applyT] using hi)
    rw [List.getD_eq_getElem _ _ hi] at this
    exact sub_eq_zero.1 this
  have h0 : s.basis.k 0 ≤ x := by rw [← headD_eq_k hb]; exact hx.1
  have h1 : x ≤ s.basis.k s.basis.len := by rw [← getLastD_eq_k hb]; exact hx.2
  have numw : ∀ (b : Basis K) (c l : List K), l.length = c.length → (∀ a ∈ l, a = w) → ∀ y,
      (⟨b, c.zipWith (· * ·) l⟩ : BSpline K).eval y = w * (⟨b, c⟩ : BSpline K).eval y := by
    intro b c l hl hlw y
    have : c.zipWith (· * ·) l = c.map (w * ·) := by
      induction c generalizing l with
      | nil => simp
      | cons a c ih =>
        cases l with
        | nil => simp at hl
        | cons u l =>
          simp only [List.zipWith_cons_cons, List.map_cons]
          rw [ih l (by simpa using hl) (fun a ha => hlw a (List.mem_cons_of_mem _ ha)), hlw u List.mem_cons_self, mul_comm]
    rw [this]
    exact (C09_neg_mul (⟨b, c⟩ : BSpline K) w y).2
  have e := (C09_insert_knots ⟨s.basis, s.coeffs⟩ hb w2 ts hts 0 le_rfl T hT).2 x hx
  rw [zero_mul] at e
  have e := sub_eq_zero.1 (abs_nonpos_iff.1 e)
  have hden : (s.insertKnotsT ts 0 T).denom.eval x = w :=
    one (s.basis.insertKnots ts) c1 x (by rw [c2]; exact h0) (by rw [c3]; exact h1) _
      (by simp [Nurbs.insertKnotsT, applyT]) tw
  have hden' : s.denom.eval x = w := one s.basis hb x h0 h1 s.weights w1 hc
  have hn : (s.insertKnotsT ts 0 T).num.eval x = w * (⟨s.basis, s.coeffs⟩ : BSpline K).eval x :=
    (numw (s.basis.insertKnots ts) _ _ (by simp [Nurbs.insertKnotsT, applyT]) tw x).trans (by rw [← e]; rfl)
  have hn' : s.num.eval x = w * (⟨s.basis, s.coeffs⟩ : BSpline K).eval x := numw s.basis _ _ (by rw [w1, w2]) hc x
  rw [Nurbs.eval_eq, Nurbs.eval_eq, hden, hden', hn, hn', if_neg hw]
  exact ⟨rfl, rfl⟩

/-- **C172** (partial: no interior knots) The derivative of a rational spline is its derivative. -/
theorem C172_derivative_partial (s : Nurbs ℝ) (hb : s.basis.Clamped) (hs : s.WF) (hp : 1 ≤ s.basis.degree)
    (hno : ∀ τ ∈ s.basis.knots, τ = s.basis.knots.headD 0 ∨ τ = s.basis.knots.getLastD 0) (Td T : ℕ → ℕ → ℝ)
    (hTd : Solves (s.basis.mul s.basis) (pairFn s.basis s.basis) (s.basis.pairs s.basis).length Td)
    (hT : Solves (s.basis.mul s.basis) (pairFn s.basis (s.denom.derivative 1).basis)
      (s.basis.pairs (s.denom.derivative 1).basis).length T) (r : Nurbs ℝ) (hr : s.derivative? 0 Td T = some r)
    (x : ℝ) (h0 : s.basis.knots.headD 0 < x) (h1 : x < s.basis.knots.getLastD 0) (hd : (s.eval? x).isSome) :
    ∃ (v : ℝ) (f : ℝ → ℝ), r.eval? x = some v ∧ (∀ᶠ y in nhds x, s.eval? y = some (f y)) ∧ HasDerivAt f v x := by
  obtain ⟨w1, w2⟩ := hs
  have hn : s.num.WF := by simp [Nurbs.num, BSpline.WF, w1, w2]
  have hdn : s.denom.WF := w1
  have hden : s.denom.eval x ≠ 0 := by
    intro h
    rw [Nurbs.eval_eq, if_pos h] at hd
    simp at hd
  have hxk : x ∉ s.basis.knots := by
    intro h
    rcases hno x h with e | e <;> linarith
  have hin : s.basis.InDomain x := ⟨h0.le, h1.le⟩
  rw [headD_eq_k hb] at h0 hno
  rw [getLastD_eq_k hb] at h1 hno
  have d1 := hasDerivAt_one (s := s.num) hb hn hp h0 h1 hxk
  have d2 := hasDerivAt_one (s := s.denom) hb hdn hp h0 h1 hxk
  have hq := d1.fun_div d2 hden
  refine ⟨_, _, ?_, ?_, hq⟩
  · unfold Nurbs.derivative? at hr
    dsimp only at hr
    split_ifs at hr with hw
    have hr := (Option.some.inj hr).symm
    have e := eval_quot (s.denom.powT 0 (fun _ => Td) 2).basis (applyT 0 T (s.denom.powT 0 (fun _ => Td) 2).basis.len
      ((s.basis.pairs (s.num.derivative 1).basis).map fun q =>
        (s.num.derivative 1).coeffs.getD q.2 0 * s.denom.coeffs.getD q.1 0
          - s.num.coeffs.getD q.1 0 * (s.denom.derivative 1).coeffs.getD q.2 0))
      (s.denom.powT 0 (fun _ => Td) 2).coeffs (by simp [applyT, BSpline.powT, BSpline.mulT]) hw x
    rw [← hr] at e
    have m := C09_mul s.denom s.denom hb hb hdn hdn ⟨rfl, rfl⟩ 0 le_rfl Td hTd x hin
    rw [zero_mul] at m
    have m := sub_eq_zero.1 (abs_nonpos_iff.1 m)
    have nn := deriv_num s.num s.denom rfl hb hn hdn hp hno T hT h0.le h1.le
    have m : (⟨(s.denom.powT 0 (fun _ => Td) 2).basis, (s.denom.powT 0 (fun _ => Td) 2).coeffs⟩ : BSpline ℝ).eval x
      = s.denom.eval x * s.denom.eval x := m
    rw [m, if_neg (mul_ne_zero hden hden)] at e
    rw [e, pow_two]
    congr 2
  · filter_upwards [d2.continuousAt.eventually_ne hden] with y hy
    rw [Nurbs.eval_eq, if_neg hy]

/-- **C172** violated: with Python 3 no two splines can be divided, and no rational spline can be multiplied. -/
theorem C172_python3_violated (python : ℕ) (hp : 3 ≤ python) (s t : BSpline K) (r : Nurbs K) (tol : K) (T Ts Tt : ℕ → ℕ → K) :
    s.div? python t tol Ts Tt = none ∧ r.mul? python t tol T Ts Tt = none := by
  constructor
  · unfold BSpline.div?; simp [hp]
  · unfold Nurbs.mul? BSpline.div?; simp [hp]

theorem half_fn_left {x : ℚ} (h0 : 0 ≤ x) (h1 : x ≤ 1 / 2) :
    exHalf.basis.fn 0 x = 1 - 2 * x ∧ exHalf.basis.fn 1 x = 2 * x ∧ exHalf.basis.fn 2 x = 0 := by
  by_cases h : x = 0
  · subst h; norm_num [exHalf, Basis.fn, cox, ind, Basis.k]
  · have h2 : 0 < x := lt_of_le_of_ne h0 (Ne.symm h)
    have h3 : x ≤ 1 := by linarith
    have h4 : ¬ 1 / 2 < x := not_lt.2 h1
    have h4' : ¬ 2⁻¹ < x := by rw [← one_div]; exact h4
    have h1' : x ≤ 2⁻¹ := by rw [← one_div]; exact h1
    refine ⟨?_, ?_, ?_⟩ <;> norm_num [exHalf, Basis.fn, cox, ind, Basis.k, h0, h1, h2, h3, h4, h4', h1'] <;> ring

theorem half_fn_right {x : ℚ} (h0 : 1 / 2 < x) (h1 : x ≤ 1) :
    exHalf.basis.fn 0 x = 0 ∧ exHalf.basis.fn 1 x = 2 - 2 * x ∧ exHalf.basis.fn 2 x = 2 * x - 1 := by
  have h2 : 0 < x := by linarith
  have h4 : ¬ x ≤ 1 / 2 := not_le.2 h0
  have h4' : ¬ x ≤ 2⁻¹ := by rw [← one_div]; exact h4
  have h0' : 2⁻¹ < x := by rw [← one_div]; exact h0
  refine ⟨?_, ?_, ?_⟩ <;> norm_num [exHalf, Basis.fn, cox, ind, Basis.k, h0, h1, h2, h4, h4', h0'] <;> ring

/-- The basis of the square of a piecewise linear function with a break at `1/2`. -/
def exHalf2 : Basis ℚ := ⟨[0, 0, 0, 1/2, 1/2, 1, 1, 1], 2⟩

theorem half_mul : exHalf.basis.mul exHalf.basis = exHalf2 := by
  refine combine_eq _ _ _ _ (by decide) (by decide) rfl (by decide +kernel) fun t => ?_
  by_cases h0 : t = 0
  · subst h0; decide +kernel
  · by_cases h1 : t = 1
    · subst h1; decide +kernel
    · by_cases h2 : t = 1 / 2
      · subst h2; decide +kernel
      · have a : t ∉ exHalf.basis.knots := by simp [exHalf, h0, h1]; simpa using h2
        have b : t ∉ exHalf2.knots := by simp [exHalf2, h0, h1]; simpa using h2
        rw [List.count_eq_zero_of_not_mem b]
        simp [neededMult, a]

theorem half_resolved : exHalf.basis.Resolved := by
  have e : exHalf.basis.add exHalf.basis = exHalf.basis := C08_idem _ exHalf_clamped.sorted
  rw [← e]
  refine (C136_add ⟨exHalf_clamped, exHalf_clamped, rfl, rfl⟩).1
    (C136_linear ⟨exHalf_clamped, exHalf_clamped, rfl, rfl⟩ rfl rfl fun i h1 h2 => ?_)
  rw [e] at h2 ⊢
  have h2 : i < 3 := h2
  interval_cases i <;> decide +kernel

/-- The roof `min (2x) (2 - 2x)`, written as a rational spline with all weights one. -/
def exRoof : Nurbs ℚ := ⟨exHalf.basis, [1, 1, 1], [0, 1, 0]⟩

theorem exRoof_eval : (∀ x, 0 ≤ x → x ≤ 1 / 2 → exRoof.eval? x = some (2 * x)) ∧
    ∀ x, 1 / 2 < x → x ≤ 1 → exRoof.eval? x = some (2 - 2 * x) := by
  have hn : exRoof.num.WF := rfl
  have hd : exRoof.denom.WF := rfl
  constructor
  · intro x h0 h1
    obtain ⟨a, b, c⟩ := half_fn_left h0 h1
    have e1 : exRoof.denom.eval x = 1 := by
      rw [BSpline.eval_eq hd]
      show ∑ i ∈ range 3, ([1, 1, 1] : List ℚ).getD i 0 * exHalf.basis.fn i x = 1
      simp [Finset.sum_range_succ, a, b, c]
    have e2 : exRoof.num.eval x = 2 * x := by
      rw [BSpline.eval_eq hn]
      show ∑ i ∈ range 3, ([0 * 1, 1 * 1, 0 * 1] : List ℚ).getD i 0 * exHalf.basis.fn i x = _
      simp [Finset.sum_range_succ, a, b, c]
    rw [Nurbs.eval_eq, e1, e2]; simp
  · intro x h0 h1
    obtain ⟨a, b, c⟩ := half_fn_right h0 h1
    have e1 : exRoof.denom.eval x = 1 := by
      rw [BSpline.eval_eq hd]
      show ∑ i ∈ range 3, ([1, 1, 1] : List ℚ).getD i 0 * exHalf.basis.fn i x = 1
      simp [Finset.sum_range_succ, a, b, c]
      norm_num
    have e2 : exRoof.num.eval x = 2 - 2 * x := by
      rw [BSpline.eval_eq hn]
      show ∑ i ∈ range 3, ([0 * 1, 1 * 1, 0 * 1] : List ℚ).getD i 0 * exHalf.basis.fn i x = _
      simp [Finset.sum_range_succ, a, b, c]
    rw [Nurbs.eval_eq, e1, e2]; simp

/-- **C172** violated: the derivative of a rational spline with interior knots is computed in a basis of continuous functions, whatever the
matrices are; so it is not the derivative of the roof, which jumps from `2` to `-2`. -/
theorem C172_derivative_violated :
    (∀ x, 0 ≤ x → x ≤ 1 / 2 → exRoof.eval? x = some (2 * x)) ∧ (∀ x, 1 / 2 < x → x ≤ 1 → exRoof.eval? x = some (2 - 2 * x)) ∧
    ∀ (tol : ℚ) (Td T : ℕ → ℕ → ℚ) (r : Nurbs ℚ), exRoof.derivative? tol Td T = some r →
      ¬ ((∀ x, 0 < x → x < 1 / 2 → r.eval? x = some 2) ∧ ∀ x, 1 / 2 < x → x < 1 → r.eval? x = some (-2)) := by
  refine ⟨exRoof_eval.1, exRoof_eval.2, fun tol Td T r hr ⟨hl, hright⟩ => ?_⟩
  unfold Nurbs.derivative? at hr
  dsimp only at hr
  split_ifs at hr with hw
  have hr := (Option.some.inj hr).symm
  have hbas : (exRoof.denom.powT tol (fun _ => Td) 2).basis = exHalf2 := half_mul
  rw [hbas] at hr
  set w := (exRoof.denom.powT tol (fun _ => Td) 2).coeffs with hwd
  have hwl : w.length = 5 := by
    have : w.length = (exHalf.basis.mul exHalf.basis).len := by simp [hwd, BSpline.powT, BSpline.mulT, applyT]; rfl
    rw [this, half_mul]; rfl
  set N := applyT tol T exHalf2.len ((exRoof.basis.pairs (exRoof.num.derivative 1).basis).map fun q =>
    (exRoof.num.derivative 1).coeffs.getD q.2 0 * exRoof.denom.coeffs.getD q.1 0
      - exRoof.num.coeffs.getD q.1 0 * (exRoof.denom.derivative 1).coeffs.getD q.2 0) with hN
  have hNl : N.length = 5 := by rw [hN]; simp [applyT]; rfl
  have key : ∀ x v, r.eval? x = some v → (⟨exHalf2, N⟩ : BSpline ℚ).eval x = v * (⟨exHalf2, w⟩ : BSpline ℚ).eval x := by
    intro x v h
    rw [hr, eval_quot exHalf2 N w (by rw [hNl, hwl]) hw x] at h
    split_ifs at h with hz
    rw [← Option.some.inj h, div_mul_cancel₀ _ hz]
  have w2 : w.getD 2 0 ≠ 0 := by
    intro h
    rw [List.getD_eq_getElem _ _ (by rw [hwl]; decide)] at h
    exact hw (h ▸ List.getElem_mem _)
  have ev : ∀ (c : List ℚ), c.length = 5 → ∀ x, (⟨exHalf2, c⟩ : BSpline ℚ).eval x
      = c.getD 0 0 * exHalf2.fn 0 x + c.getD 1 0 * exHalf2.fn 1 x + c.getD 2 0 * exHalf2.fn 2 x + c.getD 3 0 * exHalf2.fn 3 x
        + c.getD 4 0 * exHalf2.fn 4 x := by
    intro c hc x
    rw [BSpline.eval_eq (s := ⟨exHalf2, c⟩) hc]
    show ∑ i ∈ range 5, c.getD i 0 * exHalf2.fn i x = _
    simp only [Finset.sum_range_succ, Finset.sum_range_zero, zero_add]
  have a1 := key (1/8) 2 (hl _ (by norm_num) (by norm_num))
  have a2 := key (1/4) 2 (hl _ (by norm_num) (by norm_num))
  have a3 := key (3/8) 2 (hl _ (by norm_num) (by norm_num))
  have b1 := key (5/8) (-2) (hright _ (by norm_num) (by norm_num))
  have b2 := key (3/4) (-2) (hright _ (by norm_num) (by norm_num))
  have b3 := key (7/8) (-2) (hright _ (by norm_num) (by norm_num))
  rw [ev N hNl, ev w hwl] at a1 a2 a3 b1 b2 b3
  generalize N.getD 0 0 = n0 at *
  generalize N.getD 1 0 = n1 at *
  generalize N.getD 2 0 = n2 at *
  generalize N.getD 3 0 = n3 at *
  generalize N.getD 4 0 = n4 at *
  generalize w.getD 0 0 = u0 at *
  generalize w.getD 1 0 = u1 at *
  generalize w.getD 2 0 = u2 at *
  generalize w.getD 3 0 = u3 at *
  generalize w.getD 4 0 = u4 at *
  norm_num [exHalf2, Basis.fn, cox, ind, Basis.k] at a1 a2 a3 b1 b2 b3
  apply w2
  linarith

theorem lin_insert : exLin.insertKnots [1 / 2] = exHalf.basis := by
  have hk : (exLin.insertKnots [1 / 2]).knots = exHalf.basis.knots := by
    refine sorted_ext (insertKnots_sorted _ _) exHalf_clamped.sorted fun t => ?_
    rw [count_insertKnots]
    by_cases h0 : t = 0
    · subst h0; decide +kernel
    · by_cases h1 : t = 1
      · subst h1; decide +kernel
      · by_cases h2 : t = 1 / 2
        · subst h2; decide +kernel
        · have a : t ∉ exHalf.basis.knots := by simp [exHalf, h0, h1]; simpa using h2
          have b : t ∉ exLin.knots := by simp [exLin, h0, h1]
          rw [List.count_eq_zero_of_not_mem a, if_neg b, if_neg (by simpa using h2)]
  calc exLin.insertKnots [1 / 2] = ⟨(exLin.insertKnots [1 / 2]).knots, 1⟩ := rfl
    _ = exHalf.basis := by rw [hk]; rfl

/-- The function `6x / (1 + x)` on `[0, 1]`. -/
def exRat : Nurbs ℚ := ⟨exLin, [1, 2], [0, 3]⟩

/-- **C172** violated: inserting a knot, which is documented to return an equivalent spline, changes a rational spline: the matrix exists,
and whichever is returned, `6x / (1 + x)` has the value `2` in the middle, and `3/2` after a knot is inserted there. -/
theorem C172_insert_knots_violated :
    (∃ T, Solves (exRat.basis.insertKnots [1 / 2]) exRat.basis.fn exRat.basis.len T) ∧
    ∀ T, Solves (exRat.basis.insertKnots [1 / 2]) exRat.basis.fn exRat.basis.len T →
      exRat.eval? (1 / 2) = some 2 ∧ (exRat.insertKnotsT [1 / 2] 0 T).eval? (1 / 2) = some (3 / 2) := by
  have hcl : exRat.basis.insertKnots [1 / 2] = exHalf.basis := lin_insert
  refine ⟨by rw [hcl]; exact (C136_solve exHalf_clamped _ _).2 half_resolved, fun T hT => ⟨?_, ?_⟩⟩
  · rw [Nurbs.eval_eq]
    have e1 : exRat.denom.eval (1 / 2) = 3 / 2 := by
      rw [BSpline.eval_eq (show exRat.denom.WF from rfl)]
      show ∑ i ∈ range 2, ([1, 2] : List ℚ).getD i 0 * exLin.fn i (1 / 2) = _
      obtain ⟨a, b⟩ := exLin_fn (x := 1 / 2) (by norm_num) (by norm_num)
      rw [Finset.sum_range_succ, Finset.sum_range_one, a, b]
      norm_num
    have e2 : exRat.num.eval (1 / 2) = 3 := by
      rw [BSpline.eval_eq (show exRat.num.WF from rfl)]
      show ∑ i ∈ range 2, ([0 * 1, 3 * 2] : List ℚ).getD i 0 * exLin.fn i (1 / 2) = _
      obtain ⟨a, b⟩ := exLin_fn (x := 1 / 2) (by norm_num) (by norm_num)
      rw [Finset.sum_range_succ, Finset.sum_range_one, a, b]
      norm_num
    rw [e1, e2]; norm_num
  · have hdom : ∀ τ ∈ ([1 / 2] : List ℚ), exLin.InDomain τ := by
      intro τ hτ
      simp only [List.mem_singleton] at hτ
      subst hτ
      norm_num [Basis.InDomain, exLin]
    have mid : ∀ c0 c1 : ℚ, (applyT 0 T (exRat.basis.insertKnots [1 / 2]).len [c0, c1]).getD 1 0 = (c0 + c1) / 2 := by
      intro c0 c1
      have e := (C09_insert_knots ⟨exLin, [c0, c1]⟩ exLin_clamped rfl [1 / 2] hdom 0 le_rfl T hT).2 (1 / 2)
        (by norm_num [Basis.InDomain, exLin])
      rw [zero_mul] at e
      have e := sub_eq_zero.1 (abs_nonpos_iff.1 e)
      rw [BSpline.eval_eq (by simp [BSpline.WF, BSpline.insertKnotsT, applyT]), BSpline.eval_eq (s := ⟨exLin, [c0, c1]⟩) rfl] at e
      unfold BSpline.insertKnotsT at e
      dsimp only at e
      have hcl' : exLin.insertKnots [1 / 2] = exHalf.basis := lin_insert
      rw [hcl'] at e
      obtain ⟨a, b, c⟩ := half_fn_left (x := 1 / 2) (by norm_num) le_rfl
      obtain ⟨a', b'⟩ := exLin_fn (x := 1 / 2) (by norm_num) (by norm_num)
      rw [show exHalf.basis.len = 3 from rfl, show exLin.len = 2 from rfl] at e
      simp only [Finset.sum_range_succ, Finset.sum_range_zero, a, b, c, a', b'] at e
      rw [hcl]
      show (applyT 0 T 3 [c0, c1]).getD 1 0 = _
      simp at e ⊢
      linarith
    rw [Nurbs.eval_eq]
    have half : ∀ c : List ℚ, c.length = 3 → (⟨exHalf.basis, c⟩ : BSpline ℚ).eval (1 / 2) = c.getD 1 0 := by
      intro c hc
      rw [BSpline.eval_eq (s := ⟨exHalf.basis, c⟩) hc]
      obtain ⟨a, b, c'⟩ := half_fn_left (x := 1 / 2) (by norm_num) le_rfl
      show ∑ i ∈ range 3, c.getD i 0 * exHalf.basis.fn i (1 / 2) = _
      simp only [Finset.sum_range_succ, Finset.sum_range_zero, a, b, c']
      ring
    have len3 : (exRat.basis.insertKnots [1 / 2]).len = 3 := by rw [hcl]; rfl
    have m1 := mid 1 2
    have m2 := mid 0 3
    have lw : (exRat.insertKnotsT [1 / 2] 0 T).weights.length = 3 := by
      show (applyT 0 T (exRat.basis.insertKnots [1 / 2]).len _).length = 3
      rw [len3]; simp [applyT]
    have lc : (exRat.insertKnotsT [1 / 2] 0 T).coeffs.length = 3 := by
      show (applyT 0 T (exRat.basis.insertKnots [1 / 2]).len _).length = 3
      rw [len3]; simp [applyT]
    have hb' : (exRat.insertKnotsT [1 / 2] 0 T).basis = exHalf.basis := hcl
    have e1 : (exRat.insertKnotsT [1 / 2] 0 T).denom.eval (1 / 2) = 3 / 2 := by
      show (⟨(exRat.insertKnotsT [1 / 2] 0 T).basis, _⟩ : BSpline ℚ).eval (1 / 2) = _
      rw [hb', half _ lw]
      exact m1.trans (by norm_num)
    have e2 : (exRat.insertKnotsT [1 / 2] 0 T).num.eval (1 / 2) = 9 / 4 := by
      show (⟨(exRat.insertKnotsT [1 / 2] 0 T).basis, _⟩ : BSpline ℚ).eval (1 / 2) = _
      rw [hb', half _ (by rw [List.length_zipWith, lc, lw]; rfl)]
      have : ∀ a b : List ℚ, a.length = 3 → b.length = 3 → (a.zipWith (· * ·) b).getD 1 0 = a.getD 1 0 * b.getD 1 0 := by
        intro a b ha hb
        rw [List.getD_eq_getElem _ _ (by simp [ha, hb]), List.getD_eq_getElem _ _ (by simp [ha]), List.getD_eq_getElem _ _ (by simp [hb]),
          List.getElem_zipWith]
      rw [this _ _ lc lw]
      rw [show (exRat.insertKnotsT [1 / 2] 0 T).coeffs.getD 1 0 = 3 / 2 from m2.trans (by norm_num),
        show (exRat.insertKnotsT [1 / 2] 0 T).weights.getD 1 0 = 3 / 2 from m1.trans (by norm_num)]
      norm_num
    rw [e1, e2]; norm_num

/-- **C172** violated: a divisor that is nowhere zero can have a zero among its coefficients: `x / ((1-x)² + x²)` is `nan` everywhere. -/
theorem C172_zero_weight_violated :
    (∀ x, 0 ≤ x → x ≤ 1 → (⟨exQuad, [1, 0, 1]⟩ : BSpline ℚ).eval x = (1 - x) ^ 2 + x ^ 2) ∧
    ∀ (s : BSpline ℚ), s.basis = exQuad → ∀ tol Ts Tt, Solves (exQuad.add exQuad) exQuad.fn exQuad.len Tt →
      s.div? 2 ⟨exQuad, [1, 0, 1]⟩ tol Ts Tt = none := by
  have ev : ∀ a b c x, 0 ≤ x → x ≤ 1 → (⟨exQuad, [a, b, c]⟩ : BSpline ℚ).eval x = a * (1 - x) ^ 2 + b * (2 * x * (1 - x)) + c * x ^ 2 := by
    intro a b c x h0 h1
    rw [BSpline.eval_eq (s := ⟨exQuad, [a, b, c]⟩) rfl]
    obtain ⟨u, v, w⟩ := exQuad_fn h0 h1
    show ∑ i ∈ range 3, ([a, b, c] : List ℚ).getD i 0 * exQuad.fn i x = _
    simp only [Finset.sum_range_succ, Finset.sum_range_zero, u, v, w]
    simp
  refine ⟨fun x h0 h1 => by rw [ev 1 0 1 x h0 h1]; ring, fun s hs tol Ts Tt hTt => ?_⟩
  have hadd : exQuad.add exQuad = exQuad := C08_idem _ exQuad_clamped.sorted
  rw [hadd] at hTt
  have hid : ∀ i j, i < 3 → j < 3 → Tt i j = if i = j then 1 else 0 := by
    intro i j hi hj
    have := hTt.regular (fun i => Tt i j - if i = j then 1 else 0) (by
      intro y hy
      have := hTt.solves y hy j hj
      simp only [sub_mul, Finset.sum_sub_distrib]
      rw [sub_eq_zero]
      refine (Finset.sum_congr rfl fun i _ => mul_comm _ _).trans (this.trans ?_)
      rw [Finset.sum_eq_single j]
      · simp
      · intro b _ hb; simp [hb]
      · intro h; exact absurd (Finset.mem_range.2 hj) h) i hi
    exact sub_eq_zero.1 this
  unfold BSpline.div?
  dsimp only
  rw [hs, hadd, if_pos]
  right
  show (0 : ℚ) ∈ (List.range 3).map _
  refine List.mem_map.2 ⟨1, by decide, ?_⟩
  show ∑ j ∈ range 3, thr tol (Tt 1 j) * ([1, 0, 1] : List ℚ).getD j 0 = 0
  have t0 : thr tol (0 : ℚ) = 0 := by unfold thr; split_ifs <;> rfl
  simp [Finset.sum_range_succ, hid, t0]

/-! ## Concrete cases -/

/-- `2 / (1 + x)` on the linear basis. -/
example (x : ℚ) (h0 : 0 ≤ x) (h1 : x ≤ 1) :
    ∃ q, (⟨exLin, [2, 2]⟩ : BSpline ℚ).div? 2 ⟨exLin, [1, 2]⟩ 0 (fun i j => if i = j then 1 else 0)
      (fun i j => if i = j then 1 else 0) = some q ∧ q.eval? x = some (2 / (1 + x)) := by
  have hq : (⟨exLin, [2, 2]⟩ : BSpline ℚ).div? 2 ⟨exLin, [1, 2]⟩ 0 (fun i j => if i = j then 1 else 0)
      (fun i j => if i = j then 1 else 0) = some ⟨exLin, [1, 2], [2, 1]⟩ := by
    unfold BSpline.div?
    dsimp only
    rw [exLin_add, show exLin.len = 2 from rfl]
    norm_num [applyT, thr, Finset.sum_range_succ, List.range_succ]
  have ev : ∀ a b : ℚ, (⟨exLin, [a, b]⟩ : BSpline ℚ).eval x = a * (1 - x) + b * x := by
    intro a b
    rw [BSpline.eval_eq (s := ⟨exLin, [a, b]⟩) rfl]
    obtain ⟨u, v⟩ := exLin_fn h0 h1
    show ∑ i ∈ range 2, ([a, b] : List ℚ).getD i 0 * exLin.fn i x = _
    simp only [Finset.sum_range_succ, Finset.sum_range_zero, u, v]
    simp
  refine ⟨_, hq, ?_⟩
  rw [C172_quotient_exact_partial ⟨exLin, [2, 2]⟩ ⟨exLin, [1, 2]⟩ exLin_clamped rfl exLin_clamped rfl ⟨rfl, rfl⟩ _ _ exLin_solves exLin_solves
    _ hq x ⟨h0, h1⟩ (by rw [ev]; intro h; linarith), ev, ev]
  congr 2 <;> ring

/-- `6x / (1 + x)` over the reals: the derivative exists and is right, e.g. at `x = 1/2`. -/
example : ∃ (Td T : ℕ → ℕ → ℝ) (r : Nurbs ℝ) (v : ℝ) (f : ℝ → ℝ), (⟨Bz 1, [1, 2], [0, 3]⟩ : Nurbs ℝ).derivative? 0 Td T = some r ∧
    r.eval? (1 / 2) = some v ∧ (∀ᶠ y in nhds (1 / 2 : ℝ), (⟨Bz 1, [1, 2], [0, 3]⟩ : Nurbs ℝ).eval? y = some (f y)) ∧ HasDerivAt f v (1 / 2) := by
  set s : Nurbs ℝ := ⟨Bz 1, [1, 2], [0, 3]⟩ with hs
  have hm : s.basis.mul s.basis = Bz 2 := Bz_mul 1 1
  obtain ⟨Td, hTd⟩ := Bz_solves (p := 2) (by omega) (pairFn s.basis s.basis) (s.basis.pairs s.basis).length
  obtain ⟨T, hT⟩ := Bz_solves (p := 2) (by omega) (pairFn s.basis (s.denom.derivative 1).basis)
    (s.basis.pairs (s.denom.derivative 1).basis).length
  rw [← hm] at hTd hT
  have hev : ∀ x : ℝ, 0 ≤ x → x ≤ 1 → s.denom.eval x = 1 + x := by
    intro x h0 h1
    rw [show s.denom = ⟨Bz 1, [1, 2]⟩ from rfl, Bz_eval rfl h0 h1]
    simp [Finset.sum_range_succ, bern]
    ring
  have c : s.basis.Clamped := Bz_clamped 1
  have wd : s.denom.WF := rfl
  have hsq : ∀ x : ℝ, 0 ≤ x → x ≤ 1 → (s.denom.mulT s.denom 0 Td).eval x = (1 + x) * (1 + x) := by
    intro x h0 h1
    have := C09_mul s.denom s.denom c c wd wd ⟨rfl, rfl⟩ 0 le_rfl Td hTd x
      ⟨by rw [show s.denom.basis = Bz 1 from rfl, Bz_first]; exact h0, by rw [show s.denom.basis = Bz 1 from rfl, Bz_last]; exact h1⟩
    rw [zero_mul] at this
    rw [sub_eq_zero.1 (abs_nonpos_iff.1 this), hev x h0 h1]
  have hlen : (s.denom.mulT s.denom 0 Td).coeffs.length = 3 := by
    show (applyT 0 Td (s.basis.mul s.basis).len _).length = 3
    rw [hm]; simp [applyT, Bz_len]
  obtain ⟨c0, c1, c2, hc⟩ : ∃ c0 c1 c2, (s.denom.mulT s.denom 0 Td).coeffs = [c0, c1, c2] := by
    match h : (s.denom.mulT s.denom 0 Td).coeffs, hlen with
    | [c0, c1, c2], _ => exact ⟨c0, c1, c2, rfl⟩
  have hbz : s.denom.mulT s.denom 0 Td = ⟨Bz 2, [c0, c1, c2]⟩ := by
    rw [← hc, ← hm]; rfl
  have e0 := hsq 0 le_rfl (by norm_num)
  have e1 := hsq (1 / 2) (by norm_num) (by norm_num)
  have e2 := hsq 1 (by norm_num) le_rfl
  rw [hbz, Bz_eval rfl (by norm_num) (by norm_num)] at e0 e1 e2
  simp [Finset.sum_range_succ, bern] at e0 e1 e2
  have hw : (0 : ℝ) ∉ (s.denom.powT 0 (fun _ => Td) 2).coeffs := by
    show (0 : ℝ) ∉ (s.denom.mulT s.denom 0 Td).coeffs
    rw [hc]
    simp only [List.mem_cons, List.not_mem_nil, or_false, not_or]
    norm_num at e1
    refine ⟨?_, ?_, ?_⟩ <;> intro h <;> linarith
  have hr : ∃ r, s.derivative? 0 Td T = some r := by
    unfold Nurbs.derivative?
    dsimp only
    rw [if_neg hw]
    exact ⟨_, rfl⟩
  obtain ⟨r, hr⟩ := hr
  obtain ⟨v, f, h1, h2, h3⟩ := C172_derivative_partial s c ⟨rfl, rfl⟩ le_rfl (by
      intro τ hτ
      rw [show s.basis = Bz 1 from rfl] at hτ ⊢
      rw [Bz_first, Bz_last]
      exact (Bz_mem 1 τ).1 hτ) Td T hTd hT r hr (1 / 2)
    (by rw [show s.basis = Bz 1 from rfl, Bz_first]; norm_num) (by rw [show s.basis = Bz 1 from rfl, Bz_last]; norm_num)
    (by
      rw [Nurbs.eval_eq, hev _ (by norm_num) (by norm_num)]
      norm_num)
  exact ⟨Td, T, r, v, f, hr, h1, h2, h3⟩

/-- A knot inserted into the line from `1` to `3`, written with both weights two. -/
example (x : ℚ) (h0 : 0 ≤ x) (h1 : x ≤ 1) :
    ∃ T, ((⟨exLin, [2, 2], [1, 3]⟩ : Nurbs ℚ).insertKnotsT [1 / 2] 0 T).eval? x = (⟨exLin, [2, 2], [1, 3]⟩ : Nurbs ℚ).eval? x := by
  obtain ⟨T, hT⟩ := C172_insert_knots_violated.1
  exact ⟨T, (C172_insert_knots_partial ⟨exLin, [2, 2], [1, 3]⟩ exLin_clamped ⟨rfl, rfl⟩ 2 (by norm_num) (by simp) [1 / 2]
    (by intro τ hτ; simp only [List.mem_singleton] at hτ; subst hτ; norm_num [Basis.InDomain, exLin]) T hT x ⟨h0, h1⟩).1⟩

/-- `6x / (1 + x)` times the line `1 + x`. -/
example : ∃ (T Ts Tt : ℕ → ℕ → ℝ) (q : Nurbs ℝ), (⟨Bz 1, [1, 2], [0, 3]⟩ : Nurbs ℝ).mul? 2 ⟨Bz 1, [1, 2]⟩ 0 T Ts Tt = some q ∧
    ∀ x v, 0 ≤ x → x ≤ 1 → (⟨Bz 1, [1, 2], [0, 3]⟩ : Nurbs ℝ).eval? x = some v →
      q.eval? x = some (v * (⟨Bz 1, [1, 2]⟩ : BSpline ℝ).eval x) := by
  set s : Nurbs ℝ := ⟨Bz 1, [1, 2], [0, 3]⟩ with hs
  set o : BSpline ℝ := ⟨Bz 1, [1, 2]⟩ with ho
  have hm : s.basis.mul o.basis = Bz 2 := Bz_mul 1 1
  have ha : (s.basis.mul o.basis).add s.basis = Bz 2 := by rw [hm]; exact Bz_add 2 1
  obtain ⟨T, hT⟩ := Bz_solves (p := 2) (by omega) (pairFn s.basis o.basis) (s.basis.pairs o.basis).length
  obtain ⟨Ts, hTs⟩ := Bz_solves (p := 2) (by omega) (s.basis.mul o.basis).fn (s.basis.mul o.basis).len
  obtain ⟨Tt, hTt⟩ := Bz_solves (p := 2) (by omega) s.basis.fn s.basis.len
  have c : s.basis.Clamped := Bz_clamped 1
  have wd : s.denom.WF := rfl
  have hTt' := hTt
  rw [← hm] at hT
  rw [← ha] at hTs hTt
  have hev : ∀ x : ℝ, 0 ≤ x → x ≤ 1 → s.denom.eval x = 1 + x := by
    intro x h0 h1
    rw [show s.denom = ⟨Bz 1, [1, 2]⟩ from rfl, Bz_eval rfl h0 h1]
    simp [Finset.sum_range_succ, bern]
    ring
  have k0 : ∀ p, (Bz p).k 0 = 0 := fun p => by rw [← headD_eq_k (Bz_clamped p), Bz_first]
  have k1 : ∀ p, (Bz p).k (Bz p).len = 1 := fun p => by rw [← getLastD_eq_k (Bz_clamped p), Bz_last]
  have hel : ∀ x : ℝ, 0 ≤ x → x ≤ 1 → (⟨Bz 2, applyT 0 Tt (Bz 2).len [1, 2]⟩ : BSpline ℝ).eval x = 1 + x := by
    intro x h0 h1
    have := transform_eval (c := Bz 2) (Bz_clamped 2) (s := s.denom) c wd (show (1 : ℕ) ≤ 2 by omega)
      ((k0 2).trans (k0 1).symm) ((k1 2).trans (k1 1).symm) (by
        intro τ hτ g0 g1
        have g0 : (Bz 1).k 0 < τ := g0
        have g1 : τ < (Bz 1).k (Bz 1).len := g1
        rw [k0] at g0
        rw [k1] at g1
        rcases (Bz_mem 1 τ).1 hτ with h | h
        · exact absurd h g0.ne'
        · exact absurd h g1.ne) (le_refl (0 : ℝ)) hTt' (x := x)
      (by rw [k0]; exact h0) (by rw [k1]; exact h1)
    rw [zero_mul, hev x h0 h1] at this
    exact sub_eq_zero.1 (abs_nonpos_iff.1 this)
  obtain ⟨c0, c1, c2, hc⟩ : ∃ c0 c1 c2, applyT 0 Tt (Bz 2).len [1, 2] = [c0, c1, c2] := by
    have hlen : (applyT 0 Tt (Bz 2).len [1, 2]).length = 3 := by simp [applyT, Bz_len]
    match h : applyT 0 Tt (Bz 2).len [1, 2], hlen with
    | [c0, c1, c2], _ => exact ⟨c0, c1, c2, rfl⟩
  have e0 := hel 0 le_rfl (by norm_num)
  have e1 := hel (1 / 2) (by norm_num) (by norm_num)
  have e2 := hel 1 (by norm_num) le_rfl
  rw [hc, Bz_eval rfl (by norm_num) (by norm_num)] at e0 e1 e2
  simp [Finset.sum_range_succ, bern] at e0 e1 e2
  have hw : (0 : ℝ) ∉ applyT 0 Tt (Bz 2).len [1, 2] := by
    rw [hc]
    simp only [List.mem_cons, List.not_mem_nil, or_false, not_or]
    norm_num at e1
    refine ⟨?_, ?_, ?_⟩ <;> intro h <;> linarith
  have hq : ∃ q, s.mul? 2 o 0 T Ts Tt = some q := by
    unfold Nurbs.mul? BSpline.div?
    dsimp only
    rw [if_neg]
    · exact ⟨_, rfl⟩
    · push Not
      refine ⟨by omega, ?_⟩
      have : ((s.num.mulT o 0 T).basis.add s.denom.basis) = Bz 2 := ha
      rw [this]
      exact hw
  obtain ⟨q, hq⟩ := hq
  refine ⟨T, Ts, Tt, q, hq, fun x v h0 h1 hv => ?_⟩
  exact C172_product_partial s o c ⟨rfl, rfl⟩ (Bz_clamped 1) rfl ⟨rfl, rfl⟩ T Ts Tt hT hTs hTt q hq x v
    ⟨by rw [show s.basis = Bz 1 from rfl, Bz_first]; exact h0, by rw [show s.basis = Bz 1 from rfl, Bz_last]; exact h1⟩ hv

end Verif.Spline
