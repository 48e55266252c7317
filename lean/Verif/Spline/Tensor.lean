import Verif.Spline.ArithProps
import Verif.Spline.Integral

/-! # Splines of several variables (C173)

Mirrors `TensorBSpline` of `omgtools/basics/spline.py`: evaluation, arithmetic with numbers, integral. -/

set_option linter.unusedSectionVars false

namespace Verif.Spline.Tensor

open Finset

section Model
variable {K : Type*} [Field K] [LinearOrder K]

/-- A numpy array: its shape and its entries. -/
structure Arr (K : Type*) where
  shape : List ℕ
  get : List ℕ → K

/-- `np.inner(A, B)`: the last axes are contracted, the other axes of `A` come first; arrays whose last axes differ in length raise
`ValueError`. -/
def inner (A B : Arr K) : Option (Arr K) :=
  match A.shape.getLast?, B.shape.getLast? with
  | some n, some m =>
    if n = m then
      some ⟨A.shape.dropLast ++ B.shape.dropLast, fun I =>
        ∑ j ∈ range n, A.get (I.take (A.shape.length - 1) ++ [j]) * B.get (I.drop (A.shape.length - 1) ++ [j])⟩
    else none
  | _, _ => none

/-- `TensorBSpline`, spline.py:589-594: bases and an array of coefficients (the names of the variables only decide which sums are allowed). -/
structure TSpline (K : Type*) where
  basis : List (Basis K)
  coeffs : Arr K

/-- The array of coefficients has one axis per basis. -/
def TSpline.WF (s : TSpline K) : Prop := s.coeffs.shape = s.basis.map Basis.len

/-- `self.basis[i](x[i]).toarray()`: one row per point. -/
def rows (b : Basis K) (x : List K) : Arr K :=
  ⟨[x.length, b.len], fun I => b.fn (I.getD 1 0) (x.getD (I.getD 0 0) 0)⟩

/-- `TensorBSpline.__call__`, spline.py:612-619: the last axis of the coefficients is contracted first, then, going down, the last axis of
what is left. -/
def evalAll : List (Basis K) → List (List K) → Arr K → Option (Arr K)
  | b :: bs, x :: xs, c => (evalAll bs xs c).bind (inner (rows b x))
  | [], [], c => some c
  | _, _, _ => none

def TSpline.eval (s : TSpline K) (xs : List (List K)) : Option (Arr K) :=
  if s.basis = [] then none else evalAll s.basis xs s.coeffs

/-- `TensorBSpline.__add__` with a number, spline.py:640-645. -/
def TSpline.addNum (s : TSpline K) (a : K) : TSpline K := ⟨s.basis, s.coeffs.shape, fun I => s.coeffs.get I + a⟩

/-- `TensorBSpline.__neg__`, spline.py:649-650. -/
def TSpline.neg (s : TSpline K) : TSpline K := ⟨s.basis, s.coeffs.shape, fun I => - s.coeffs.get I⟩

/-- `TensorBSpline.__mul__` with a number, spline.py:674-679. -/
def TSpline.mulNum (s : TSpline K) (a : K) : TSpline K := ⟨s.basis, s.coeffs.shape, fun I => s.coeffs.get I * a⟩

/-- `TensorBSpline.__sub__` with a number, spline.py:652-653. -/
def TSpline.subNum (s : TSpline K) (a : K) : TSpline K := s.addNum (-a)

/-- `__rsub__ = __sub__`, spline.py:655: what `a - s` calls. -/
def TSpline.rsubNum (s : TSpline K) (a : K) : TSpline K := s.subNum a

/-- `K` in `integral`, spline.py:694-695: `(k[d+1:] - k[:-(d+1)])/(d+1)`. -/
def weightsOf (b : Basis K) : Arr K :=
  ⟨[b.len], fun I => (b.k (b.degree + I.getD 0 0 + 1) - b.k (I.getD 0 0)) / ((b.degree + 1 : ℕ) : K)⟩

/-- `TensorBSpline.integral`, spline.py:684-702: two variables use `cvxopt`, which is not imported (line 22: `NameError`); otherwise the last
axis is contracted with the last weights, then the last axes of what is left with the weights of the first, second, … variable. -/
def TSpline.integral (s : TSpline K) : Option (Arr K) :=
  if s.basis.length = 2 then none
  else
    match s.basis.getLast? with
    | none => none
    | some b => s.basis.dropLast.foldl (fun acc b => acc.bind (inner (weightsOf b))) (inner (weightsOf b) s.coeffs)

end Model

/-! ## Specification -/

section Spec
variable {K : Type*} [Field K] [LinearOrder K]

/-- The sum over all indices of the coefficient times one factor per variable: `∑ j₁ … jₙ, f₁ j₁ ⋯ fₙ jₙ * c [j₁, …, jₙ]`. -/
def multiSum : List (ℕ × (ℕ → K)) → (List ℕ → K) → K
  | [], c => c []
  | (n, f) :: r, c => ∑ j ∈ range n, f j * multiSum r fun J => c (j :: J)

/-- The value of the spline at a point. -/
def TSpline.value (s : TSpline K) (x : List K) : K :=
  multiSum (s.basis.zipWith (fun b y => (b.len, fun j => b.fn j y)) x) s.coeffs.get

end Spec

/-! ## Helpers -/

variable {K : Type*} [Field K] [LinearOrder K] [IsStrictOrderedRing K]

theorem evalAll_spec (bs : List (Basis K)) : ∀ (xs : List (List K)) (c : Arr K) (S : List ℕ), xs.length = bs.length →
    c.shape = S ++ bs.map Basis.len →
    ∃ r, evalAll bs xs c = some r ∧ r.shape = xs.map List.length ++ S ∧
      ∀ (P J : List ℕ), P.length = bs.length → J.length = S.length →
        r.get (P ++ J) = multiSum (bs.zipWith (fun b y => (b.len, fun j => b.fn j y)) (xs.zipWith (fun x p => x.getD p 0) P))
          fun L => c.get (J ++ L) := by
  induction bs with
  | nil =>
    intro xs c S hx hc
    have : xs = [] := List.length_eq_zero_iff.1 hx
    subst this
    refine ⟨c, rfl, by simpa using hc, fun P J hP hJ => ?_⟩
    have : P = [] := List.length_eq_zero_iff.1 hP
    subst this
    simp [multiSum]
  | cons b bs ih =>
    intro xs c S hx hc
    cases xs with
    | nil => simp at hx
    | cons x xs =>
      have hx : xs.length = bs.length := by simpa using hx
      obtain ⟨r, h1, h2, h3⟩ := ih xs c (S ++ [b.len]) hx (by rw [hc]; simp)
      have hlast : r.shape.getLast? = some b.len := by rw [h2, ← List.append_assoc, List.getLast?_append]; simp
      have hin : inner (rows b x) r = some ⟨[x.length] ++ r.shape.dropLast, fun I =>
          ∑ j ∈ range b.len, (rows b x).get (I.take 1 ++ [j]) * r.get (I.drop 1 ++ [j])⟩ := by
        unfold inner
        rw [hlast]
        simp [rows]
      refine ⟨⟨[x.length] ++ r.shape.dropLast, _⟩, by unfold evalAll; rw [h1]; exact hin, ?_, ?_⟩
      · show [x.length] ++ r.shape.dropLast = _
        rw [h2, ← List.append_assoc, List.dropLast_concat]
        simp
      · intro P J hP hJ
        cases P with
        | nil => simp at hP
        | cons p P =>
          have hP : P.length = bs.length := by simpa using hP
          show ∑ j ∈ range b.len, (rows b x).get (((p :: P) ++ J).take 1 ++ [j]) * r.get (((p :: P) ++ J).drop 1 ++ [j]) = _
          simp only [List.zipWith_cons_cons, multiSum]
          refine Finset.sum_congr rfl fun j _ => ?_
          have e : ((p :: P) ++ J).drop 1 ++ [j] = P ++ (J ++ [j]) := by simp
          rw [e, h3 P (J ++ [j]) hP (by simp [hJ])]
          congr 1
          · congr 1
            funext L
            simp

theorem multiSum_add (l : List (ℕ × (ℕ → K))) : ∀ (c d : List ℕ → K),
    multiSum l (fun J => c J + d J) = multiSum l c + multiSum l d := by
  induction l with
  | nil => intro c d; rfl
  | cons a l ih =>
    intro c d
    obtain ⟨n, f⟩ := a
    simp only [multiSum, ← Finset.sum_add_distrib]
    refine Finset.sum_congr rfl fun j _ => ?_
    rw [ih, mul_add]

theorem multiSum_mul (l : List (ℕ × (ℕ → K))) (a : K) : ∀ (c : List ℕ → K),
    multiSum l (fun J => c J * a) = multiSum l c * a := by
  induction l with
  | nil => intro c; rfl
  | cons p l ih =>
    intro c
    obtain ⟨n, f⟩ := p
    simp only [multiSum, Finset.sum_mul]
    refine Finset.sum_congr rfl fun j _ => ?_
    rw [ih]; ring

theorem multiSum_const (l : List (ℕ × (ℕ → K))) (h : ∀ p ∈ l, ∑ j ∈ range p.1, p.2 j = 1) (a : K) :
    multiSum l (fun _ => a) = a := by
  induction l with
  | nil => rfl
  | cons p l ih =>
    obtain ⟨n, f⟩ := p
    simp only [multiSum]
    rw [ih (fun p hp => h p (List.mem_cons_of_mem _ hp)), ← Finset.sum_mul, h (n, f) List.mem_cons_self, one_mul]

/-- A point lies in the domain of all bases. -/
def InBox : List (Basis K) → List K → Prop
  | b :: bs, y :: ys => b.Clamped ∧ b.InDomain y ∧ InBox bs ys
  | [], [] => True
  | _, _ => False

theorem inBox_one : ∀ (bs : List (Basis K)) (ys : List K), InBox bs ys →
    ∀ p ∈ bs.zipWith (fun b y => (b.len, fun j => b.fn j y)) ys, ∑ j ∈ range p.1, p.2 j = 1
  | [], _, _ => by simp
  | b :: bs, [], h => by simp
  | b :: bs, y :: ys, h => by
    intro p hp
    simp only [List.zipWith_cons_cons, List.mem_cons] at hp
    obtain ⟨h1, h2, h3⟩ := h
    rcases hp with rfl | hp
    · exact Basis.sum_fn h1 (by rw [← headD_eq_k h1]; exact h2.1) (by rw [← getLastD_eq_k h1]; exact h2.2)
    · exact inBox_one bs ys h3 p hp

/-! ## Properties -/

/-- **C173** Evaluation on a grid, in any number of variables: entry `[p₁, …, pₙ]` is the value of the spline in the point with coordinates
`x₁[p₁], …, xₙ[pₙ]`. -/
theorem C173_eval (s : TSpline K) (hs : s.WF) (hne : s.basis ≠ []) (xs : List (List K)) (hx : xs.length = s.basis.length) :
    ∃ r, s.eval xs = some r ∧ r.shape = xs.map List.length ∧
      ∀ P : List ℕ, P.length = s.basis.length → r.get P = s.value (xs.zipWith (fun x p => x.getD p 0) P) := by
  obtain ⟨r, h1, h2, h3⟩ := evalAll_spec s.basis xs s.coeffs [] hx (by rw [List.nil_append]; exact hs)
  refine ⟨r, by unfold TSpline.eval; rw [if_neg hne]; exact h1, by simpa using h2, fun P hP => ?_⟩
  have := h3 P [] hP rfl
  rw [List.append_nil] at this
  rw [this]
  simp only [List.nil_append]
  rfl

/-- **C173** Arithmetic with numbers, except for `a - s`, is pointwise. -/
theorem C173_number_partial (s : TSpline K) (a : K) (x : List K) :
    (InBox s.basis x → (s.addNum a).value x = s.value x + a ∧ (s.subNum a).value x = s.value x - a) ∧
    s.neg.value x = - s.value x ∧ (s.mulNum a).value x = s.value x * a := by
  have add : ∀ a, InBox s.basis x → (s.addNum a).value x = s.value x + a := by
    intro a h
    show multiSum (s.basis.zipWith (fun b y => (b.len, fun j => b.fn j y)) x) (fun I => s.coeffs.get I + a) = _
    rw [multiSum_add, multiSum_const _ (inBox_one s.basis x h)]
    rfl
  refine ⟨fun h => ⟨add a h, ?_⟩, ?_, ?_⟩
  · rw [sub_eq_add_neg]; exact add (-a) h
  · have : s.neg.value x = multiSum (s.basis.zipWith (fun b y => (b.len, fun j => b.fn j y)) x) (fun I => s.coeffs.get I * (-1)) := by
      unfold TSpline.value TSpline.neg
      congr 1
      funext I
      ring
    rw [this, multiSum_mul]
    show s.value x * -1 = _
    ring
  · show multiSum _ (fun I => s.coeffs.get I * a) = _
    rw [multiSum_mul]
    rfl

/-- **C173** violated: `a - s` has the values of `s - a`; right only where `s = a`. -/
theorem C173_rsub_violated (s : TSpline K) (a : K) (x : List K) (h : InBox s.basis x) :
    (s.rsubNum a).value x = s.value x - a ∧ ((s.rsubNum a).value x = a - s.value x ↔ s.value x = a) := by
  have e : (s.rsubNum a).value x = s.value x - a := ((C173_number_partial s a x).1 h).2
  refine ⟨e, ?_⟩
  rw [e]
  constructor
  · intro h; linarith
  · intro h; rw [h]

/-- **C173** One variable: the integral is the weighted sum of the coefficients (the integral of the spline, see C06). -/
theorem C173_integral_one_partial (b : Basis K) (c : List K) (hb : b.Clamped) (hc : c.length = b.len) :
    ∃ r, (⟨[b], [b.len], fun I => c.getD (I.getD 0 0) 0⟩ : TSpline K).integral = some r ∧ r.shape = [] ∧
      r.get [] = (⟨b, c⟩ : BSpline K).integral := by
  refine ⟨⟨[], fun I => ∑ j ∈ range b.len, (weightsOf b).get (I.take 0 ++ [j]) * c.getD ((I.drop 0 ++ [j]).getD 0 0) 0⟩, ?_, rfl, ?_⟩
  · unfold TSpline.integral inner
    simp [weightsOf]
  · rw [integral_eq_sum (s := ⟨b, c⟩) hb hc]
    rfl

/-- **C173** violated: a spline of two variables has no integral (`NameError`). -/
theorem C173_integral_two_violated (s : TSpline K) (h : s.basis.length = 2) : s.integral = none := by
  unfold TSpline.integral; rw [if_pos h]

/-- **C173** violated: a spline of three variables whose first two bases differ in length has no integral (`ValueError`). -/
theorem C173_integral_three_violated (b0 b1 b2 : Basis K) (c : Arr K) (hc : c.shape = [b0.len, b1.len, b2.len]) (h : b0.len ≠ b1.len) :
    (⟨[b0, b1, b2], c⟩ : TSpline K).integral = none := by
  unfold TSpline.integral
  simp [inner, weightsOf, hc, h]

/-- **C173** violated: … and when they do not differ in length, the first two weights are swapped. -/
theorem C173_integral_order_violated (b0 b1 b2 : Basis K) (c : Arr K) (hc : c.shape = [b0.len, b1.len, b2.len]) (h : b0.len = b1.len) :
    ∃ r, (⟨[b0, b1, b2], c⟩ : TSpline K).integral = some r ∧ r.shape = [] ∧
      r.get [] = ∑ i ∈ range b0.len, ∑ j ∈ range b0.len, ∑ l ∈ range b2.len,
        (weightsOf b1).get [i] * ((weightsOf b0).get [j] * ((weightsOf b2).get [l] * c.get [i, j, l])) := by
  refine ⟨⟨[], fun I => ∑ i ∈ range b1.len, (weightsOf b1).get (I.take 0 ++ [i]) *
    ∑ j ∈ range b0.len, (weightsOf b0).get ((I.drop 0 ++ [i]).take 0 ++ [j]) *
      ∑ l ∈ range b2.len, (weightsOf b2).get ((((I.drop 0 ++ [i]).drop 0 ++ [j]).take 0) ++ [l])
        * c.get ((((I.drop 0 ++ [i]).drop 0 ++ [j]).drop 0) ++ [l])⟩, ?_, rfl, ?_⟩
  · unfold TSpline.integral
    simp [inner, weightsOf, hc, h]
  · simp only [h, Finset.mul_sum]
    rfl

/-! ## Concrete cases -/

/-- The function `x * y` on the unit square. -/
def exXY : TSpline ℚ := ⟨[exLin, exLin], ⟨[2, 2], fun I => if I = [1, 1] then 1 else 0⟩⟩

example : exXY.WF := rfl

theorem exXY_value (x y : ℚ) (h0 : 0 ≤ x) (h1 : x ≤ 1) (g0 : 0 ≤ y) (g1 : y ≤ 1) : exXY.value [x, y] = x * y := by
  obtain ⟨a, b⟩ := exLin_fn h0 h1
  obtain ⟨c, d⟩ := exLin_fn g0 g1
  simp [TSpline.value, exXY, multiSum, show exLin.len = 2 from rfl, Finset.sum_range_succ, b, d]

example : ∃ r, exXY.eval [[0, 1/2], [1/4, 1/2, 1]] = some r ∧ r.shape = [2, 3] ∧ r.get [1, 0] = 1 / 8 := by
  obtain ⟨r, h1, h2, h3⟩ := C173_eval exXY rfl (by simp [exXY]) [[0, 1/2], [1/4, 1/2, 1]] rfl
  refine ⟨r, h1, h2, (h3 [1, 0] rfl).trans ?_⟩
  show exXY.value [1/2, 1/4] = _
  rw [exXY_value _ _ (by norm_num) (by norm_num) (by norm_num) (by norm_num)]
  norm_num

example : (exXY.rsubNum 1).value [1/2, 1/2] = - (3 / 4) := by
  rw [(C173_rsub_violated exXY 1 [1/2, 1/2]
    ⟨exLin_clamped, by norm_num [Basis.InDomain, exLin], exLin_clamped, by norm_num [Basis.InDomain, exLin], trivial⟩).1,
    exXY_value _ _ (by norm_num) (by norm_num) (by norm_num) (by norm_num)]
  norm_num

/-- Three variables, breaks at `1/4` and at `1/2`: the integral of the basis function `[0, 1, 0]` is `1/8 * 1/2 * 1/2`, the result is
`1/4 * 1/2 * 1/2`. -/
example : ∃ r, (⟨[⟨[0, 0, 1/4, 1, 1], 1⟩, ⟨[0, 0, 1/2, 1, 1], 1⟩, exLin], ⟨[3, 3, 2], fun I => if I = [0, 1, 0] then 1 else 0⟩⟩ : TSpline ℚ).integral
    = some r ∧ r.get [] = 1 / 16 := by
  obtain ⟨r, h1, -, h3⟩ := C173_integral_order_violated (K := ℚ) ⟨[0, 0, 1/4, 1, 1], 1⟩ ⟨[0, 0, 1/2, 1, 1], 1⟩ exLin
    ⟨[3, 3, 2], fun I => if I = [0, 1, 0] then 1 else 0⟩ rfl rfl
  refine ⟨r, h1, h3.trans ?_⟩
  norm_num [Finset.sum_range_succ, weightsOf, Basis.len, Basis.k, exLin]

end Verif.Spline.Tensor
