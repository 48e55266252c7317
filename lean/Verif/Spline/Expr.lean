import Verif.Spline.ArithProps

/-! # Expressions of splines and numbers

Constraints in omg-tools are built by writing Python expressions over splines and numbers; the
overloaded operators of `BSpline` compute a spline, and `define_constraint` hands its *coefficients*
to the solver.  This file models that pipeline and proves that it is sound: if the coefficients
satisfy the bound, the expression satisfies it pointwise, at every time of the horizon. -/

set_option linter.unusedSectionVars false

namespace Verif.Spline

section Model
variable (K : Type*)

/-- A Python expression over splines and numbers. -/
inductive Expr where
  | num (c : K)
  | spl (s : BSpline K)
  | neg (e : Expr)
  | add (e f : Expr)
  | mul (e f : Expr)

/-- The Python object an expression evaluates to: a number or a `BSpline`. -/
inductive PyVal where
  | num (c : K)
  | spl (s : BSpline K)

variable {K}
variable [Field K] [LinearOrder K]

/-- `e - f`: for splines `BSpline.__sub__`/`__rsub__` compute `e + (-f)`, spline.py:413-417. -/
def Expr.sub (e f : Expr K) : Expr K := e.add f.neg

/-- `e ** 2`: for splines `BSpline.__pow__` computes `e * e`, spline.py:448-456. -/
def Expr.sq (e : Expr K) : Expr K := e.mul e

/-- The pointwise meaning of an expression at time `x` (this is the specification). -/
def Expr.val : Expr K → K → K
  | .num c, _ => c
  | .spl s, x => s.eval x
  | .neg e, x => - e.val x
  | .add e f, x => e.val x + f.val x
  | .mul e f, x => e.val x * f.val x

/-- What the Python operators compute (spline.py:396-441).  For two splines the transformation
matrices are any solutions of the linear systems solved in `BSplineBasis.transform` (`Solves`);
the dropping of entries below `1e-10` is left out (`tol = 0`, see `C09_add`/`C09_mul` for its size). -/
inductive Expr.Runs : Expr K → PyVal K → Prop where
  | num (c) : Runs (.num c) (.num c)
  | spl (s) : Runs (.spl s) (.spl s)
  | negNum {e c} : Runs e (.num c) → Runs (.neg e) (.num (-c))
  | negSpl {e s} : Runs e (.spl s) → Runs (.neg e) (.spl s.neg)
  | addNN {e f c d} : Runs e (.num c) → Runs f (.num d) → Runs (.add e f) (.num (c + d))
  | addSN {e f s d} : Runs e (.spl s) → Runs f (.num d) → Runs (.add e f) (.spl (s.addNum d))
  | addNS {e f c t} : Runs e (.num c) → Runs f (.spl t) → Runs (.add e f) (.spl (t.addNum c))
  | addSS {e f s t Ts Tt} : Runs e (.spl s) → Runs f (.spl t) →
      Solves (s.basis.add t.basis) s.basis.fn s.basis.len Ts →
      Solves (s.basis.add t.basis) t.basis.fn t.basis.len Tt →
      Runs (.add e f) (.spl (s.addT t 0 Ts Tt))
  | mulNN {e f c d} : Runs e (.num c) → Runs f (.num d) → Runs (.mul e f) (.num (c * d))
  | mulSN {e f s d} : Runs e (.spl s) → Runs f (.num d) → Runs (.mul e f) (.spl (s.mulNum d))
  | mulNS {e f c t} : Runs e (.num c) → Runs f (.spl t) → Runs (.mul e f) (.spl (t.mulNum c))
  | mulSS {e f s t T} : Runs e (.spl s) → Runs f (.spl t) →
      Solves (s.basis.mul t.basis) (pairFn s.basis t.basis) (s.basis.pairs t.basis).length T →
      Runs (.mul e f) (.spl (s.mulT t 0 T))

/-- All splines in the expression are well formed and live on the horizon `[lo, hi]`. -/
def Expr.On (lo hi : K) : Expr K → Prop
  | .num _ => True
  | .spl s => s.basis.Clamped ∧ s.WF ∧ s.basis.knots.headD 0 = lo ∧ s.basis.knots.getLastD 0 = hi
  | .neg e => e.On lo hi
  | .add e f => e.On lo hi ∧ f.On lo hi
  | .mul e f => e.On lo hi ∧ f.On lo hi

/-- The expression mentions at least one spline. -/
def Expr.hasSpline : Expr K → Prop
  | .num _ => False
  | .spl _ => True
  | .neg e => e.hasSpline
  | .add e f => e.hasSpline ∨ f.hasSpline
  | .mul e f => e.hasSpline ∨ f.hasSpline

/-- `define_constraint(expr, -inf, ub)`, optilayer.py:634-666, without `skip`: for a spline the
coefficients are bounded by `ub`; for a plain Python number the method returns without adding a
constraint. -/
def PyVal.Imposed (v : PyVal K) (ub : K) : Prop :=
  match v with
  | .num _ => True
  | .spl s => ∀ c ∈ s.coeffs, c ≤ ub

/-- The constraint `expr <= ub`, as handed to the solver for a Python expression, is satisfied. -/
def Expr.Imposed (e : Expr K) (ub : K) : Prop := ∃ v, e.Runs v ∧ v.Imposed ub

end Model

variable {K : Type*} [Field K] [LinearOrder K] [IsStrictOrderedRing K]

/-- Facts kept by every operator: the result is the pointwise value on the horizon. -/
def PyVal.Means (v : PyVal K) (lo hi : K) (f : K → K) : Prop :=
  match v with
  | .num c => ∀ x, f x = c
  | .spl s => s.basis.Clamped ∧ s.WF ∧ s.basis.knots.headD 0 = lo ∧ s.basis.knots.getLastD 0 = hi ∧
      ∀ x, lo ≤ x → x ≤ hi → s.eval x = f x

theorem Expr.runs_means {lo hi : K} {e : Expr K} {v : PyVal K} (hr : e.Runs v) (he : e.On lo hi) :
    v.Means lo hi e.val := by
  induction hr with
  | num c => intro x; rfl
  | spl s => exact ⟨he.1, he.2.1, he.2.2.1, he.2.2.2, fun x _ _ => rfl⟩
  | negNum _ ih => intro x; simp only [Expr.val, ih he x]
  | negSpl _ ih =>
    obtain ⟨h1, h2, h3, h4, h5⟩ := ih he
    refine ⟨h1, by simpa [BSpline.WF, BSpline.neg] using h2, h3, h4, fun x x0 x1 => ?_⟩
    rw [(C09_neg_mul _ 0 x).1, h5 x x0 x1]; rfl
  | addNN _ _ ih1 ih2 => intro x; simp only [Expr.val, ih1 he.1 x, ih2 he.2 x]
  | addSN _ _ ih1 ih2 =>
    obtain ⟨h1, h2, h3, h4, h5⟩ := ih1 he.1
    refine ⟨h1, by simpa [BSpline.WF, BSpline.addNum] using h2, h3, h4, fun x x0 x1 => ?_⟩
    rw [(C09_num _ h1 h2 _ x ⟨h3.trans_le x0, x1.trans h4.ge⟩).1, h5 x x0 x1]
    simp only [Expr.val, ih2 he.2 x]
  | addNS _ _ ih1 ih2 =>
    obtain ⟨h1, h2, h3, h4, h5⟩ := ih2 he.2
    refine ⟨h1, by simpa [BSpline.WF, BSpline.addNum] using h2, h3, h4, fun x x0 x1 => ?_⟩
    rw [(C09_num _ h1 h2 _ x ⟨h3.trans_le x0, x1.trans h4.ge⟩).1, h5 x x0 x1]
    simp only [Expr.val, ih1 he.1 x]
    ring
  | addSS _ _ hTs hTt ih1 ih2 =>
    obtain ⟨h1, h2, h3, h4, h5⟩ := ih1 he.1
    obtain ⟨g1, g2, g3, g4, g5⟩ := ih2 he.2
    obtain ⟨c1, c2, c3⟩ := C08_clamped _ _ h1 g1 _ (le_max_left _ _) (le_max_right _ _)
      (h3.trans g3.symm) (h4.trans g4.symm)
    refine ⟨c1, by simp [BSpline.WF, BSpline.addT, applyT], c2.trans h3, c3.trans h4, fun x x0 x1 => ?_⟩
    have := C09_add _ _ h1 h2 g1 g2 ⟨h3.trans g3.symm, h4.trans g4.symm⟩ 0 le_rfl _ _ hTs hTt x
      ⟨h3.trans_le x0, x1.trans h4.ge⟩
    rw [zero_mul] at this
    rw [sub_eq_zero.1 (abs_nonpos_iff.1 this), h5 x x0 x1, g5 x x0 x1]; rfl
  | mulNN _ _ ih1 ih2 => intro x; simp only [Expr.val, ih1 he.1 x, ih2 he.2 x]
  | mulSN _ _ ih1 ih2 =>
    obtain ⟨h1, h2, h3, h4, h5⟩ := ih1 he.1
    refine ⟨h1, by simpa [BSpline.WF, BSpline.mulNum] using h2, h3, h4, fun x x0 x1 => ?_⟩
    rw [(C09_neg_mul _ _ x).2, h5 x x0 x1]
    simp only [Expr.val, ih2 he.2 x]
    ring
  | mulNS _ _ ih1 ih2 =>
    obtain ⟨h1, h2, h3, h4, h5⟩ := ih2 he.2
    refine ⟨h1, by simpa [BSpline.WF, BSpline.mulNum] using h2, h3, h4, fun x x0 x1 => ?_⟩
    rw [(C09_neg_mul _ _ x).2, h5 x x0 x1]
    simp only [Expr.val, ih1 he.1 x]
  | mulSS _ _ hT ih1 ih2 =>
    obtain ⟨h1, h2, h3, h4, h5⟩ := ih1 he.1
    obtain ⟨g1, g2, g3, g4, g5⟩ := ih2 he.2
    obtain ⟨c1, c2, c3⟩ := C08_clamped _ _ h1 g1 _ (Nat.le_add_right _ _) (Nat.le_add_left _ _)
      (h3.trans g3.symm) (h4.trans g4.symm)
    refine ⟨c1, by simp [BSpline.WF, BSpline.mulT, applyT], c2.trans h3, c3.trans h4, fun x x0 x1 => ?_⟩
    have := C09_mul _ _ h1 g1 h2 g2 ⟨h3.trans g3.symm, h4.trans g4.symm⟩ 0 le_rfl _ hT x
      ⟨h3.trans_le x0, x1.trans h4.ge⟩
    rw [zero_mul] at this
    rw [sub_eq_zero.1 (abs_nonpos_iff.1 this), h5 x x0 x1, g5 x x0 x1]; rfl

theorem Expr.runs_spline {e : Expr K} {v : PyVal K} (hr : e.Runs v) (he : e.hasSpline) :
    ∃ s, v = .spl s := by
  induction hr with
  | num c => exact he.elim
  | spl s => exact ⟨s, rfl⟩
  | negNum _ ih => obtain ⟨s, h⟩ := ih he; cases h
  | addNN _ _ ih1 ih2 | mulNN _ _ ih1 ih2 =>
    rcases he with he | he
    · obtain ⟨s, h⟩ := ih1 he; cases h
    · obtain ⟨s, h⟩ := ih2 he; cases h
  | _ => exact ⟨_, rfl⟩

/-- **C53** A constraint on the coefficients of a spline expression enforces the constraint on the
expression at *every* time of the horizon. -/
theorem C53_imposed {lo hi : K} (e : Expr K) (he : e.On lo hi) (hs : e.hasSpline) (ub : K)
    (h : e.Imposed ub) (x : K) (h0 : lo ≤ x) (h1 : x ≤ hi) : e.val x ≤ ub := by
  obtain ⟨v, hr, hv⟩ := h
  obtain ⟨s, rfl⟩ := Expr.runs_spline hr hs
  obtain ⟨g1, g2, g3, g4, g5⟩ := Expr.runs_means hr he
  rw [← g5 x h0 h1, BSpline.eval_eq g2]
  have h0' : s.basis.k 0 ≤ x := by rw [← headD_eq_k g1]; exact g3.trans_le h0
  have h1' : x ≤ s.basis.k s.basis.len := by rw [← getLastD_eq_k g1]; exact h1.trans g4.ge
  calc ∑ i ∈ Finset.range s.basis.len, s.coeffs.getD i 0 * s.basis.fn i x
      ≤ ∑ i ∈ Finset.range s.basis.len, ub * s.basis.fn i x := by
        refine Finset.sum_le_sum fun i hi => ?_
        have hi : i < s.coeffs.length := by rw [g2]; exact Finset.mem_range.1 hi
        refine mul_le_mul_of_nonneg_right ?_ (Basis.fn_nonneg g1 i x)
        rw [List.getD_eq_getElem _ _ hi]
        exact hv _ (List.getElem_mem _)
    _ = ub := by rw [← Finset.mul_sum, Basis.sum_fn g1 h0' h1', mul_one]

/-- A plain number is silently accepted, whatever its value: nothing is imposed. -/
theorem C53_number_not_imposed : (Expr.num (5 : ℚ)).Imposed 0 ∧ ¬ (Expr.num (5 : ℚ)).val 0 ≤ 0 :=
  ⟨⟨_, .num _, trivial⟩, by norm_num [Expr.val]⟩

/-- `(1 - 3 t) * (2 - 2 t) <= 2` on `[0,1]`: a case with a genuine product. -/
def exExpr : Expr ℚ := .mul (.spl ⟨exLin, [1, -2]⟩) (.spl ⟨exLin, [2, 0]⟩)

theorem exExpr_on : exExpr.On 0 1 := by
  refine ⟨⟨exLin_clamped, rfl, ?_, ?_⟩, ⟨exLin_clamped, rfl, ?_, ?_⟩⟩ <;> norm_num [exLin]

theorem exExpr_imposed : exExpr.Imposed 2 := by
  refine ⟨_, .mulSS (.spl _) (.spl _) exT_solves, ?_⟩
  intro c hc
  have e : ((BSpline.mk exLin [1, -2]).mulT (BSpline.mk exLin [2, 0]) 0 exT).coeffs = [2, -2, 0] := by
    show applyT 0 exT (exLin.mul exLin).len ((exLin.pairs exLin).map _) = _
    rw [exLin_mul, exLin_pairs]
    norm_num [exQuad, Basis.len, applyT, List.range_succ, Finset.sum_range_succ, exT, thr]
  rw [e] at hc
  simp only [List.mem_cons, List.not_mem_nil, or_false] at hc
  rcases hc with h | h | h <;> subst h <;> norm_num

example (x : ℚ) (h0 : 0 ≤ x) (h1 : x ≤ 1) : exExpr.val x ≤ 2 :=
  C53_imposed exExpr exExpr_on (Or.inl trivial) 2 exExpr_imposed x h0 h1

end Verif.Spline
