import Verif.ADMM.ZUpdate
import Mathlib.Analysis.Calculus.MeanValue
import Mathlib.Analysis.Calculus.Deriv.Mul
import Mathlib.Analysis.SpecialFunctions.Trigonometric.Deriv
import Mathlib.Analysis.SpecialFunctions.Trigonometric.Basic

/-! # C175: the coupling constraints are given to the z-update as they were written

`ADMM._check_for_lineq` looks at the constraints between vehicles, decides whether they are linear equations and computes the matrix and the
right hand side of the system that the z-update works with (C24). -/

set_option linter.unusedSectionVars false

namespace Verif.ADMM.LinEq
open Matrix Verif.ADMM

variable {n p : Type} [Fintype n] [DecidableEq n]

/-! ## Model -/

/-- The expression of a constraint over the numbers shared with neighbours (`n`: the entries of `q_i` and `q_ij`, which are exactly the entries
the constraints depend on, distributedproblem.py:26-33 and 130-170) and global parameters (`p`).  `fn` stands for a function like `sin` with its
derivative. -/
inductive Ex (n p : Type) where
  | const (c : ℝ)
  | var (i : n)
  | par (j : p)
  | add (a b : Ex n p)
  | sub (a b : Ex n p)
  | mul (a b : Ex n p)
  | fn (f f' : ℝ → ℝ) (a : Ex n p)

/-- The value of an expression. -/
def Ex.eval (z : n → ℝ) (q : p → ℝ) : Ex n p → ℝ
  | .const c => c
  | .var i => z i
  | .par j => q j
  | .add a b => a.eval z q + b.eval z q
  | .sub a b => a.eval z q - b.eval z q
  | .mul a b => a.eval z q * b.eval z q
  | .fn f _ a => f (a.eval z q)

/-- The functions that occur come with their derivatives. -/
def Ex.OK : Ex n p → Prop
  | .add a b | .sub a b | .mul a b => a.OK ∧ b.OK
  | .fn f f' a => (∀ x, HasDerivAt f (f' x) x) ∧ a.OK
  | _ => True

open Classical in
/-- CasADi simplifies sums with zero. -/
noncomputable def mkAdd (a b : Ex n p) : Ex n p := if a = .const 0 then b else if b = .const 0 then a else .add a b

open Classical in
noncomputable def mkSub (a b : Ex n p) : Ex n p := if b = .const 0 then a else .sub a b

open Classical in
/-- CasADi simplifies products with zero and one. -/
noncomputable def mkMul (a b : Ex n p) : Ex n p :=
  if a = .const 0 ∨ b = .const 0 then .const 0 else if a = .const 1 then b else if b = .const 1 then a else .mul a b

/-- One column of `jacobian(g, var)`, admm.py:327 and 334. -/
noncomputable def jac (i : n) : Ex n p → Ex n p
  | .const _ => .const 0
  | .var j => if i = j then .const 1 else .const 0
  | .par _ => .const 0
  | .add a b => mkAdd (jac i a) (jac i b)
  | .sub a b => mkSub (jac i a) (jac i b)
  | .mul a b => mkAdd (mkMul (jac i a) b) (mkMul a (jac i b))
  | .fn _ f' a => mkMul (jac i a) (.fn f' (fun _ => 0) a)

/-- `symvar`: shared numbers (`inl`) and parameters (`inr`) that occur. -/
def symvar : Ex n p → List (n ⊕ p)
  | .const _ => []
  | .var i => [.inl i]
  | .par j => [.inr j]
  | .add a b | .sub a b | .mul a b => symvar a ++ symvar b
  | .fn _ _ a => symvar a

/-- A row of a constraint between vehicles: expression, lower and upper bound. -/
structure Row (n p : Type) where
  expr : Ex n p
  lb : ℝ
  ub : ℝ

/-- The matrix and, for each value of the parameters, the right hand side. -/
structure System (rows : List (Row n p)) where
  A : Matrix (Fin rows.length) n ℝ
  b : (p → ℝ) → Fin rows.length → ℝ

open Classical in
/-- `_check_for_lineq`, admm.py:313-354, as it is used in `construct_upd_z`, admm.py:123-126, over the rows of all constraints.  `none` when an
exception is raised: different bounds (321-323) or shared numbers in the Jacobian (337-339) make it return `False`, and `construct_upd_z` refuses;
with a parameter in the Jacobian the loop variable in 337 has replaced the list `sym`, so 342 iterates over a CasADi symbol, which raises.
Otherwise all shared numbers are set to zero in `-g` (342-344) and the parameters stay. -/
noncomputable def check (rows : List (Row n p)) : Option (System rows) :=
  if ∃ r ∈ rows, r.lb ≠ r.ub then none
  else if ∃ r ∈ rows, ∃ i, symvar (jac i r.expr) ≠ [] then none
  else some ⟨fun k i => (jac i rows[k].expr).eval 0 (fun _ => 0), fun q k => -(rows[k].expr.eval 0 q - rows[k].lb)⟩

/-! ## Specification -/

/-- The constraints between vehicles hold for the shared numbers `z` and parameters `q`. -/
def Holds (rows : List (Row n p)) (z : n → ℝ) (q : p → ℝ) : Prop := ∀ r ∈ rows, r.lb ≤ r.expr.eval z q ∧ r.expr.eval z q ≤ r.ub

/-- Linear with numbers as coefficients: sums and differences of shared numbers, multiples of them, and anything without shared numbers. -/
inductive Lin : Ex n p → Prop
  | var (i) : Lin (.var i)
  | const (c) : Lin (.const c)
  | par (j) : Lin (.par j)
  | add {a b} : Lin a → Lin b → Lin (.add a b)
  | sub {a b} : Lin a → Lin b → Lin (.sub a b)
  | smul (c) {a} : Lin a → Lin (.mul (.const c) a)

/-! ## Helpers -/

theorem mkAdd_eval (a b : Ex n p) (z : n → ℝ) (q : p → ℝ) : (mkAdd a b).eval z q = a.eval z q + b.eval z q := by
  unfold mkAdd
  split_ifs with h1 h2
  · rw [h1]; simp [Ex.eval]
  · rw [h2]; simp [Ex.eval]
  · rfl

theorem mkSub_eval (a b : Ex n p) (z : n → ℝ) (q : p → ℝ) : (mkSub a b).eval z q = a.eval z q - b.eval z q := by
  unfold mkSub
  split_ifs with h1
  · rw [h1]; simp [Ex.eval]
  · rfl

theorem mkMul_eval (a b : Ex n p) (z : n → ℝ) (q : p → ℝ) : (mkMul a b).eval z q = a.eval z q * b.eval z q := by
  unfold mkMul
  split_ifs with h1 h2 h3
  · rcases h1 with h | h <;> rw [h] <;> simp [Ex.eval]
  · rw [h2]; simp [Ex.eval]
  · rw [h3]; simp [Ex.eval]
  · rfl

/-- Along a line through the origin the Jacobian gives the derivative. -/
theorem hasDerivAt_line (e : Ex n p) (he : e.OK) (z : n → ℝ) (q : p → ℝ) (s : ℝ) :
    HasDerivAt (fun s => e.eval (s • z) q) (∑ i, (jac i e).eval (s • z) q * z i) s := by
  induction e with
  | const c => simpa [jac, Ex.eval] using hasDerivAt_const s c
  | var j =>
    have h1 : (∑ i, (jac i (Ex.var j : Ex n p)).eval (s • z) q * z i) = z j := by
      rw [Finset.sum_eq_single j]
      · simp [jac, Ex.eval]
      · intro i _ hi; simp [jac, hi, Ex.eval]
      · intro h; exact absurd (Finset.mem_univ j) h
    rw [h1]
    simpa [Ex.eval] using (hasDerivAt_id s).mul_const (z j)
  | par j => simpa [jac, Ex.eval] using hasDerivAt_const s (q j)
  | add a b iha ihb =>
    refine ((iha he.1).fun_add (ihb he.2)).congr_deriv ?_
    rw [← Finset.sum_add_distrib]
    exact Finset.sum_congr rfl fun i _ => by simp only [jac, mkAdd_eval, add_mul]
  | sub a b iha ihb =>
    refine ((iha he.1).fun_sub (ihb he.2)).congr_deriv ?_
    rw [← Finset.sum_sub_distrib]
    exact Finset.sum_congr rfl fun i _ => by simp only [jac, mkSub_eval, sub_mul]
  | mul a b iha ihb =>
    refine ((iha he.1).fun_mul (ihb he.2)).congr_deriv ?_
    rw [Finset.sum_mul, Finset.mul_sum, ← Finset.sum_add_distrib]
    refine Finset.sum_congr rfl fun i _ => ?_
    simp only [jac, mkAdd_eval, mkMul_eval]
    ring
  | fn f f' a iha =>
    refine ((he.1 (a.eval (s • z) q)).comp s (iha he.2)).congr_deriv ?_
    rw [Finset.mul_sum]
    refine Finset.sum_congr rfl fun i _ => ?_
    simp only [jac, mkMul_eval, Ex.eval]
    ring

/-- Without symbols an expression has one value. -/
theorem eval_const_of_symvar (e : Ex n p) (h : symvar e = []) (z z' : n → ℝ) (q q' : p → ℝ) : e.eval z q = e.eval z' q' := by
  induction e with
  | const c => rfl
  | var i => simp [symvar] at h
  | par j => simp [symvar] at h
  | add a b iha ihb => simp only [symvar, List.append_eq_nil_iff] at h; simp only [Ex.eval, iha h.1, ihb h.2]
  | sub a b iha ihb => simp only [symvar, List.append_eq_nil_iff] at h; simp only [Ex.eval, iha h.1, ihb h.2]
  | mul a b iha ihb => simp only [symvar, List.append_eq_nil_iff] at h; simp only [Ex.eval, iha h.1, ihb h.2]
  | fn f f' a iha => simp only [symvar] at h; simp only [Ex.eval, iha h]

/-- If no symbol is left in the Jacobian, the expression is its value at zero plus the Jacobian times the shared numbers. -/
theorem eval_affine (e : Ex n p) (he : e.OK) (h : ∀ i, symvar (jac i e) = []) (z : n → ℝ) (q : p → ℝ) :
    e.eval z q = e.eval 0 q + ∑ i, (jac i e).eval 0 (fun _ => 0) * z i := by
  set c := ∑ i, (jac i e).eval 0 (fun _ => 0) * z i with hc
  have hd : ∀ s, HasDerivAt (fun s => e.eval (s • z) q - s * c) 0 s := by
    intro s
    have h1 := hasDerivAt_line e he z q s
    have h2 : (∑ i, (jac i e).eval (s • z) q * z i) = c :=
      Finset.sum_congr rfl fun i _ => by rw [eval_const_of_symvar _ (h i) (s • z) 0 q (fun _ => 0)]
    rw [h2] at h1
    exact (h1.fun_sub ((hasDerivAt_id s).mul_const c)).congr_deriv (by simp)
  have := is_const_of_deriv_eq_zero (fun s => (hd s).differentiableAt) (fun s => (hd s).deriv) 1 0
  simp only [one_smul, zero_smul, one_mul, zero_mul, sub_zero] at this
  linarith

theorem check_some {rows : List (Row n p)} {S : System rows} (h : check rows = some S) :
    (∀ r ∈ rows, r.lb = r.ub) ∧ (∀ r ∈ rows, ∀ i, symvar (jac i r.expr) = []) ∧
      S = ⟨fun k i => (jac i rows[k].expr).eval 0 (fun _ => 0), fun q k => -(rows[k].expr.eval 0 q - rows[k].lb)⟩ := by
  unfold check at h
  split_ifs at h with h1 h2
  push Not at h1 h2
  exact ⟨h1, h2, (Option.some.inj h).symm⟩

theorem symvar_jac_lin (i : n) {e : Ex n p} (h : Lin e) : symvar (jac i e) = [] := by
  induction h with
  | var j => unfold jac; split_ifs <;> rfl
  | const c => rfl
  | par j => rfl
  | add _ _ iha ihb =>
    unfold jac mkAdd
    split_ifs
    · exact ihb
    · exact iha
    · simp [symvar, iha, ihb]
  | sub _ _ iha ihb =>
    unfold jac mkSub
    split_ifs
    · exact iha
    · simp [symvar, iha, ihb]
  | @smul c a _ iha =>
    have h0 : mkMul (.const 0 : Ex n p) a = .const 0 := by unfold mkMul; rw [if_pos (Or.inl rfl)]
    show symvar (mkAdd (mkMul (.const 0) a) (mkMul (.const c) (jac i a))) = []
    rw [h0]
    unfold mkAdd
    rw [if_pos rfl]
    unfold mkMul
    split_ifs
    · rfl
    · exact iha
    · rfl
    · simp [symvar, iha]

/-! ## Theorems -/

/-- **C175** When the z-update is built at all, its equations say exactly what the constraints between the vehicles say, for every value of the
shared numbers and of the parameters. -/
theorem C175_exact (rows : List (Row n p)) (hok : ∀ r ∈ rows, r.expr.OK) (S : System rows) (h : check rows = some S) (z : n → ℝ) (q : p → ℝ) :
    S.A *ᵥ z = S.b q ↔ Holds rows z q := by
  obtain ⟨h1, h2, rfl⟩ := check_some h
  have key : ∀ k : Fin rows.length, ((fun (k : Fin rows.length) i => (jac i rows[k].expr).eval 0 (fun _ => 0)) *ᵥ z) k
      = rows[k].expr.eval z q - rows[k].expr.eval 0 q := by
    intro k
    rw [eval_affine rows[k].expr (hok _ (List.getElem_mem _)) (h2 _ (List.getElem_mem _)) z q]
    show (∑ i, (jac i rows[k].expr).eval 0 (fun _ => 0) * z i) = _
    ring
  constructor
  · intro hz r hr
    obtain ⟨k, hk, rfl⟩ := List.getElem_of_mem hr
    have := congrFun hz ⟨k, hk⟩
    rw [key] at this
    have h3 : rows[k].expr.eval z q = rows[k].lb := by
      have h4 : rows[(⟨k, hk⟩ : Fin rows.length)] = rows[k] := rfl
      simp only [h4] at this
      linarith
    rw [h3, ← h1 _ hr]
    exact ⟨le_rfl, le_rfl⟩
  · intro hz
    funext k
    rw [key]
    have h3 := hz _ (List.getElem_mem k.2)
    rw [← h1 _ (List.getElem_mem k.2)] at h3
    have h4 := le_antisymm h3.2 h3.1
    show rows[k].expr.eval z q - rows[k].expr.eval 0 q = -(rows[k].expr.eval 0 q - rows[k].lb)
    have h5 : rows[k].expr.eval z q = rows[k].lb := h4
    rw [h5]; ring

/-- **C175** The numbers that result from the z-update satisfy the constraints between the vehicles as written, and among all numbers that do so
they minimise the augmented Lagrangian. -/
theorem C175_update {ni nj : Type} [Fintype ni] [Fintype nj] [DecidableEq ni] [DecidableEq nj] (rows : List (Row (ni ⊕ nj) p))
    (hok : ∀ r ∈ rows, r.expr.OK) (S : System rows) (h : check rows = some S) (q : p → ℝ) (ρ : ℝ) (hρ : 0 < ρ)
    (x_i l_i z_i : ni → ℝ) (x_j l_ij z_ij : nj → ℝ) (hz : ZUpdate ρ S.A (S.b q) x_i l_i x_j l_ij z_i z_ij) :
    Holds rows (Sum.elim z_i z_ij) q ∧ ∀ w_i w_ij, Holds rows (Sum.elim w_i w_ij) q →
      Spec.lagr ρ x_i l_i z_i + Spec.lagr ρ x_j l_ij z_ij ≤ Spec.lagr ρ x_i l_i w_i + Spec.lagr ρ x_j l_ij w_ij := by
  refine ⟨(C175_exact rows hok S h _ q).1 (C24_feasible ρ S.A (S.b q) x_i l_i x_j l_ij z_i z_ij hz), fun w_i w_ij hw => ?_⟩
  exact (C24_optimal ρ hρ S.A (S.b q) x_i l_i x_j l_ij z_i z_ij hz w_i w_ij ((C175_exact rows hok S h _ q).2 hw)).1

/-- **C175** Inequalities between vehicles and constraints that are not affine are refused instead of being solved wrongly. -/
theorem C175_refused (rows : List (Row n p)) (hok : ∀ r ∈ rows, r.expr.OK) (r : Row n p) (hr : r ∈ rows)
    (hbad : r.lb ≠ r.ub ∨ ¬ ∃ a : n → ℝ, ∀ z q, r.expr.eval z q = r.expr.eval 0 q + ∑ i, a i * z i) : check rows = none := by
  by_contra hne
  obtain ⟨S, hS⟩ := Option.ne_none_iff_exists'.1 hne
  obtain ⟨h1, h2, -⟩ := check_some hS
  rcases hbad with hb | hb
  · exact hb (h1 r hr)
  · exact hb ⟨fun i => (jac i r.expr).eval 0 (fun _ => 0), fun z q => eval_affine r.expr (hok r hr) (h2 r hr) z q⟩

/-- **C175**, under the guard that the coefficients are numbers: linear equations are accepted. -/
theorem C175_accepted_partial (rows : List (Row n p)) (hb : ∀ r ∈ rows, r.lb = r.ub) (hl : ∀ r ∈ rows, Lin r.expr) :
    ∃ S, check rows = some S := by
  refine ⟨_, by
    unfold check
    rw [if_neg (by push Not; exact hb), if_neg (by push Not; exact fun r hr i => symvar_jac_lin i (hl r hr))]⟩

/-- Linear equations with a parameter as coefficient, `par j * var i + rest = bound`, are never accepted, although for each value of the parameter
they are linear. -/
theorem C175_parameter_violated (i : n) (j : p) (c : ℝ) :
    (∀ q : p → ℝ, ∃ a : n → ℝ, ∀ z, (Ex.mul (.par j) (.var i) : Ex n p).eval z q = ∑ k, a k * z k) ∧
      check [(⟨.mul (.par j) (.var i), c, c⟩ : Row n p)] = none := by
  constructor
  · intro q
    refine ⟨Pi.single i (q j), fun z => ?_⟩
    rw [Finset.sum_eq_single i]
    · simp [Ex.eval]
    · intro k _ hk; simp [hk]
    · intro h; exact absurd (Finset.mem_univ i) h
  · unfold check
    rw [if_neg (by simp), if_pos]
    refine ⟨_, List.mem_singleton.2 rfl, i, ?_⟩
    have h1 : mkMul (.const 0 : Ex n p) (.var i) = .const 0 := by unfold mkMul; rw [if_pos (Or.inl rfl)]
    have h2 : mkMul (.par j : Ex n p) (.const 1) = .par j := by
      unfold mkMul; rw [if_neg (by simp), if_neg (by simp), if_pos rfl]
    show symvar (mkAdd (mkMul (.const 0) (.var i)) (mkMul (.par j) (if i = i then .const 1 else .const 0))) ≠ []
    rw [if_pos rfl, h1, h2]
    unfold mkAdd
    rw [if_pos rfl]
    simp [symvar]

/-- Two vehicles that have to be `rel` apart (a parameter), each with one shared number: accepted, with the equation `x₀ - x₁ = -rel`. -/
example : ∃ S : System [(⟨.sub (.add (.var (0 : Fin 2)) (.par ())) (.var 1), 0, 0⟩ : Row (Fin 2) Unit)],
    check [(⟨.sub (.add (.var (0 : Fin 2)) (.par ())) (.var 1), 0, 0⟩ : Row (Fin 2) Unit)] = some S ∧
      ∀ z q, S.A *ᵥ z = S.b q ↔ z 0 + q () = z 1 := by
  obtain ⟨S, hS⟩ := C175_accepted_partial [(⟨.sub (.add (.var (0 : Fin 2)) (.par ())) (.var 1), 0, 0⟩ : Row (Fin 2) Unit)] (by simp)
    (by simp only [List.mem_singleton, forall_eq]; exact .sub (.add (.var 0) (.par ())) (.var 1))
  refine ⟨S, hS, fun z q => ?_⟩
  rw [C175_exact _ (by simp [Ex.OK]) S hS z q]
  simp only [Holds, List.mem_singleton, forall_eq, Ex.eval]
  constructor
  · rintro ⟨h1, h2⟩; linarith
  · intro h; constructor <;> linarith

/-- A circle between two vehicles is refused. -/
example : check [(⟨.add (.mul (.var (0 : Fin 2)) (.var 0)) (.mul (.var 1) (.var 1)), 1, 1⟩ : Row (Fin 2) Unit)] = none := by
  refine C175_refused _ (by simp [Ex.OK]) _ (List.mem_singleton.2 rfl) (Or.inr ?_)
  rintro ⟨a, h⟩
  have h1 := h ![1, 0] (fun _ => 0)
  have h2 := h ![-1, 0] (fun _ => 0)
  simp [Ex.eval, Fin.sum_univ_two] at h1 h2
  linarith

/-- With a function: `sin` of a shared number is refused. -/
example : check [(⟨.fn Real.sin Real.cos (.var (0 : Fin 1)), 0, 0⟩ : Row (Fin 1) Unit)] = none := by
  refine C175_refused _ (by simp only [List.mem_singleton, forall_eq]; exact ⟨Real.hasDerivAt_sin, trivial⟩) _ (List.mem_singleton.2 rfl) (Or.inr ?_)
  rintro ⟨a, h⟩
  have h1 := h ![Real.pi] (fun _ => 0)
  have h2 := h ![Real.pi / 2] (fun _ => 0)
  simp only [Ex.eval, Fin.sum_univ_one, Matrix.cons_val_fin_one, Real.sin_pi, Real.sin_pi_div_two, Pi.zero_apply, Real.sin_zero] at h1 h2
  linarith

end Verif.ADMM.LinEq
