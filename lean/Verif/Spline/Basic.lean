import Mathlib.Algebra.Order.Field.Basic
import Mathlib.Algebra.BigOperators.Group.Finset.Basic
import Mathlib.Algebra.BigOperators.Intervals
import Mathlib.Algebra.BigOperators.Ring.Finset
import Mathlib.Algebra.Order.BigOperators.Group.Finset
import Mathlib.Data.List.Sort
import Mathlib.Tactic.Ring
import Mathlib.Tactic.FieldSimp
import Mathlib.Tactic.Linarith
import Mathlib.Tactic.NormNum
import Mathlib.Tactic.LinearCombination
import Mathlib.Tactic.IntervalCases
import Mathlib.Tactic.Positivity
import Mathlib.Data.List.GetD

/-!
# B-spline bases and splines: model

Mirrors `omgtools/basics/spline.py`.  Numbers are elements of an arbitrary
linearly ordered field `K` (floats are idealised, no rounding).
-/

namespace Verif.Spline

/-- `Basis.__init__`, spline.py:120-123.  A knot vector and a degree.  The
cached evaluation grid `_x` (line 123) only serves `transform`. -/
structure Basis (K : Type*) where
  knots : List K
  degree : ℕ
deriving DecidableEq

section
variable {K : Type*} [Field K] [LinearOrder K]

/-- `self.knots[i]`.  For indices past the end (where Python raises
`IndexError`; none of the functions below reads there) the last knot. -/
def Basis.k (b : Basis K) (i : ℕ) : K := b.knots.getD i (b.knots.getLastD 0)

/-- `Basis.__len__`, spline.py:125-126. -/
def Basis.len (b : Basis K) : ℕ := b.knots.length - b.degree - 1

/-- `Basis._ind`, spline.py:131-136: indicator between `knots[i]` and
`knots[i+1]`; closed on the left for the copies of the first knot. -/
def ind (k : ℕ → K) (p i : ℕ) (x : K) : K :=
  if i < p + 1 ∧ k 0 = k i then
    (if k i ≤ x ∧ x ≤ k (i + 1) then 1 else 0)
  else
    (if k i < x ∧ x ≤ k (i + 1) then 1 else 0)

/-- The table `basis[d][i]` filled by `BSplineBasis.eval_basis`,
spline.py:221-232 (and by `evalspline`, spline_extra.py:36-51, which is the
same loop): Cox-de Boor recursion with guarded divisions. `p` is the degree of
the basis (used by `_ind`), `d` the current level. -/
def cox (k : ℕ → K) (p : ℕ) (x : K) : ℕ → ℕ → K
  | 0, i => ind k p i x
  | d + 1, i =>
    (if k (i + (d + 1)) - k i ≠ 0 then
        (x - k i) * cox k p x d i / (k (i + (d + 1)) - k i) else 0)
    + (if k (i + (d + 1) + 1) - k (i + 1) ≠ 0 then
        (k (i + (d + 1) + 1) - x) * cox k p x d (i + 1) / (k (i + (d + 1) + 1) - k (i + 1))
       else 0)

/-- One column of `BSplineBasis.eval_basis(x)` (spline.py:214-234): value of the
`i`-th basis function at `x`. -/
def Basis.fn (b : Basis K) (i : ℕ) (x : K) : K := cox b.k b.degree x b.degree i

/-- `BSplineBasis.eval_basis(x)` for one point `x` (spline.py:214-234): the row
of values of all basis functions. -/
def Basis.eval (b : Basis K) (x : K) : List K :=
  (List.range b.len).map (fun i => b.fn i x)

/-- `BSplineBasis.support`, spline.py:262-267: pairs `(knots[i], knots[i+degree+1])`. -/
def Basis.support (b : Basis K) : List (K × K) :=
  (b.knots.take (b.knots.length - (b.degree + 1))).zip (b.knots.drop (b.degree + 1))

/-- `Spline.__init__`, spline.py:366-369. -/
structure BSpline (K : Type*) where
  basis : Basis K
  coeffs : List K

/-- `Spline.__call__`, spline.py:373-374: `basis(x).dot(coeffs)`. -/
def BSpline.eval (s : BSpline K) (x : K) : K :=
  ((s.basis.eval x).zipWith (· * ·) s.coeffs).sum

/-- The knot vectors the toolbox works with: non-decreasing, the first and the
last knot repeated `degree+1` times, and a first interval of positive length. This
is what `define_knots`/`Basis` users build (`np.r_[0.]*degree, linspace, ...`). -/
structure Basis.Clamped (b : Basis K) : Prop where
  sorted : b.knots.Pairwise (· ≤ ·)
  size : 2 * (b.degree + 1) ≤ b.knots.length
  first : ∀ i, i ≤ b.degree → b.k i = b.k 0
  start : b.k b.degree < b.k (b.degree + 1)
  ends : ∀ i, b.len ≤ i → i < b.knots.length → b.k i = b.k b.len

/-- A spline with as many coefficients as basis functions. -/
def BSpline.WF (s : BSpline K) : Prop := s.coeffs.length = s.basis.len

end
end Verif.Spline
