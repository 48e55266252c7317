import Verif.Problems.Mission
import Verif.Vehicles.QuadrotorSimple
import Mathlib.LinearAlgebra.Matrix.NonsingularInverse

/-! # Whether a path can be followed slowly

The optimisation problem of a vehicle with free end time chooses the path and the motion time.  If there is a path, is there a motion time? -/

set_option linter.unusedSectionVars false

namespace Verif.Problems

open Verif.Spline Verif.Vehicles Verif.Collision

/-! ## Values determine coefficients -/

/-- On one basis: the coefficients of a spline are at most a constant times its values. -/
theorem coeffs_bound {b : Basis ℝ} (cl : b.Clamped) (res : b.Resolved) : ∃ C : ℝ, 0 ≤ C ∧ ∀ (c : ℕ → ℝ) (δ : ℝ),
    (∀ r, r < b.len → |∑ i ∈ Finset.range b.len, c i * b.fn i (b.peak r)| ≤ δ) → ∀ i, i < b.len → |c i| ≤ C * δ := by
  have hdet := resolved_det cl res
  have hu : IsUnit b.colloc.det := isUnit_iff_ne_zero.2 hdet.ne'
  refine ⟨∑ i, ∑ r, |b.colloc⁻¹ r i|, Finset.sum_nonneg fun _ _ => Finset.sum_nonneg fun _ _ => abs_nonneg _, fun c δ h i hi => ?_⟩
  set cv : Fin b.len → ℝ := fun i => c i with hcv
  have e : Matrix.vecMul (Matrix.vecMul cv b.colloc) b.colloc⁻¹ = cv := by
    rw [Matrix.vecMul_vecMul, Matrix.mul_nonsing_inv _ hu, Matrix.vecMul_one]
  have hi' : c i = ∑ r : Fin b.len, Matrix.vecMul cv b.colloc r * b.colloc⁻¹ r ⟨i, hi⟩ := by
    have := congrFun e ⟨i, hi⟩
    exact this.symm
  have hδ : ∀ r : Fin b.len, |Matrix.vecMul cv b.colloc r| ≤ δ := fun r => by
    rw [hcv, colloc_sum]; exact h r r.2
  rw [hi']
  calc |∑ r : Fin b.len, Matrix.vecMul cv b.colloc r * b.colloc⁻¹ r ⟨i, hi⟩|
      ≤ ∑ r : Fin b.len, |Matrix.vecMul cv b.colloc r * b.colloc⁻¹ r ⟨i, hi⟩| := Finset.abs_sum_le_sum_abs _ _
    _ ≤ ∑ r : Fin b.len, |b.colloc⁻¹ r ⟨i, hi⟩| * δ := Finset.sum_le_sum fun r _ => by
        rw [abs_mul, mul_comm]; exact mul_le_mul_of_nonneg_left (hδ r) (abs_nonneg _)
    _ = (∑ r : Fin b.len, |b.colloc⁻¹ r ⟨i, hi⟩|) * δ := by rw [Finset.sum_mul]
    _ ≤ (∑ i, ∑ r, |b.colloc⁻¹ r i|) * δ := by
        have δ0 : 0 ≤ δ := (abs_nonneg _).trans (hδ ⟨i, hi⟩)
        exact mul_le_mul_of_nonneg_right (Finset.single_le_sum (f := fun i => ∑ r, |b.colloc⁻¹ r i|)
          (fun _ _ => Finset.sum_nonneg fun _ _ => abs_nonneg _) (Finset.mem_univ (⟨i, hi⟩ : Fin b.len))) δ0

/-- The same for all bases on which expressions of one degree are computed. -/
theorem coeffs_bound_all {D n : ℕ} (hn : 1 ≤ n) (hn' : n ≤ 200) (hd : D ≤ 8) (hdn : D * n ≤ 200) : ∃ C : ℝ, 0 ≤ C ∧ ∀ m, 1 ≤ m → m ≤ D + 1 →
    ∀ (c : ℕ → ℝ) (δ : ℝ), (∀ r, r < (uni D m n : Basis ℝ).len → |∑ i ∈ Finset.range (uni D m n : Basis ℝ).len,
      c i * (uni D m n : Basis ℝ).fn i ((uni D m n : Basis ℝ).peak r)| ≤ δ) → ∀ i, i < (uni D m n : Basis ℝ).len → |c i| ≤ C * δ := by
  have one : ∀ m, ∃ C : ℝ, 0 ≤ C ∧ (1 ≤ m → m ≤ D + 1 → ∀ (c : ℕ → ℝ) (δ : ℝ), (∀ r, r < (uni D m n : Basis ℝ).len →
      |∑ i ∈ Finset.range (uni D m n : Basis ℝ).len, c i * (uni D m n : Basis ℝ).fn i ((uni D m n : Basis ℝ).peak r)| ≤ δ) →
      ∀ i, i < (uni D m n : Basis ℝ).len → |c i| ≤ C * δ) := fun m => by
    by_cases hm : 1 ≤ m ∧ m ≤ D + 1
    · obtain ⟨C, h0, h⟩ := coeffs_bound (uni_clamped (K := ℝ) (D := D) hm.1 hn) (uni_resolved hm.1 hm.2 hn hd hn' hdn)
      exact ⟨C, h0, fun _ _ => h⟩
    · exact ⟨0, le_rfl, fun h1 h2 => absurd ⟨h1, h2⟩ hm⟩
  choose C h0 h using one
  refine ⟨∑ m ∈ Finset.range (D + 2), C m, Finset.sum_nonneg fun _ _ => h0 _, fun m h1 h2 c δ hc i hi => ?_⟩
  have δ0 : 0 ≤ δ := (abs_nonneg _).trans (hc i hi)
  exact (h m h1 h2 c δ hc i hi).trans (mul_le_mul_of_nonneg_right
    (Finset.single_le_sum (f := C) (fun _ _ => h0 _) (Finset.mem_range.2 (by omega))) δ0)

/-- An expression that is nearly constant is computed with nearly constant coefficients. -/
theorem near_imposed {D n : ℕ} (hn : 1 ≤ n) (hn' : n ≤ 200) (hd : D ≤ 8) (hdn : D * n ≤ 200) : ∃ C : ℝ, 0 ≤ C ∧
    ∀ (e : Expr ℝ), e.OnIntervals n → e.totalDegree = D → e.hasSpline → ∀ v δ ub : ℝ, (∀ x, 0 ≤ x → x ≤ 1 → |e.val x - v| ≤ δ) → v + C * δ ≤ ub →
      e.Imposed ub := by
  obtain ⟨C, C0, hC⟩ := coeffs_bound_all hn hn' hd hdn
  refine ⟨C, C0, fun e h hD hs v δ ub hv hub => ?_⟩
  subst hD
  obtain ⟨w, r, hb⟩ := runs_uni hn hn' e h hd hdn
  obtain ⟨s, rfl⟩ := Expr.runs_spline r hs
  obtain ⟨m, m1, m2, hbas⟩ := hb s rfl
  have mean := Expr.runs_means r (OnIntervals.on hn h)
  set b : Basis ℝ := uni e.totalDegree m n with hbdef
  have cl : b.Clamped := uni_clamped m1 hn
  have ends := uni_ends (K := ℝ) (D := e.totalDegree) (m := m) (n := n) m1 hn
  rw [← hbdef, headD_eq_k cl, getLastD_eq_k cl] at ends
  have coef := hC m m1 m2 (fun i => s.coeffs.getD i 0 - v) δ (fun r hr => by
    have hg := Verif.Spline.grid_mem cl (Verif.Spline.peak_mem b r)
    have x0 : 0 ≤ b.peak r := by rw [← ends.1]; exact hg.1
    have x1 : b.peak r ≤ 1 := by rw [← ends.2]; exact hg.2
    have v1 := mean.2.2.2.2 _ x0 x1
    rw [BSpline.eval_eq mean.2.1, hbas] at v1
    have one := Basis.sum_fn cl hg.1 hg.2
    simp only [sub_mul, Finset.sum_sub_distrib, ← Finset.mul_sum]
    rw [v1, one, mul_one]
    exact hv _ x0 x1)
  refine ⟨_, r, fun c hc => ?_⟩
  obtain ⟨i, hi, rfl⟩ := List.mem_iff_getElem.1 hc
  have := coef i (by rw [← hbdef, ← hbas]; have : _ = _ := mean.2.1; omega)
  rw [List.getD_eq_getElem _ _ hi] at this
  linarith [(abs_le.1 this).2]

/-- An expression in which a negative power of the motion time prevails is imposed if the motion time is long. -/
theorem slow_imposed {D n : ℕ} (hn : 1 ≤ n) (hn' : n ≤ 200) (hd : D ≤ 8) (hdn : D * n ≤ 200) {e : ℝ → Expr ℝ} (h : ∀ T, (e T).OnIntervals n)
    (hD : ∀ T, (e T).totalDegree = D) (hs : ∀ T, (e T).hasSpline) {κ K : ℝ} (hκ : 0 < κ) (p : ℕ)
    (hv : ∀ T, 1 ≤ T → ∀ x, 0 ≤ x → x ≤ 1 → |(e T).val x + κ * T ^ (p + 1)| ≤ K * T ^ p) : ∃ T0, 1 ≤ T0 ∧ ∀ T, T0 ≤ T → (e T).Imposed 0 := by
  obtain ⟨C, C0, hC⟩ := near_imposed (D := D) hn hn' hd hdn
  refine ⟨max 1 (C * K / κ), le_max_left _ _, fun T hT => ?_⟩
  have T1 : 1 ≤ T := (le_max_left _ _).trans hT
  have T2 : C * K ≤ κ * T := by
    have := (le_max_right _ _).trans hT
    rw [div_le_iff₀ hκ] at this
    linarith
  refine hC (e T) (h T) (hD T) (hs T) (-(κ * T ^ (p + 1))) (K * T ^ p) 0 (fun x x0 x1 => by rw [sub_neg_eq_add]; exact hv T T1 x x0 x1) ?_
  have : C * K * T ^ p ≤ κ * T * T ^ p := mul_le_mul_of_nonneg_right T2 (by positivity)
  rw [pow_succ]
  nlinarith [this]

theorem slow_all {α : Type} {P : ℝ → α → Prop} : ∀ (l : List α), (∀ a ∈ l, ∃ T0, 1 ≤ T0 ∧ ∀ T, T0 ≤ T → P T a) →
    ∃ T0, 1 ≤ T0 ∧ ∀ T, T0 ≤ T → ∀ a ∈ l, P T a
  | [], _ => ⟨1, le_rfl, fun _ _ a ha => by simp at ha⟩
  | a :: l, h => by
    obtain ⟨T1, h1, h2⟩ := h a (by simp)
    obtain ⟨T2, h3, h4⟩ := slow_all l fun b hb => h b (List.mem_cons_of_mem _ hb)
    refine ⟨max T1 T2, h1.trans (le_max_left _ _), fun T hT b hb => ?_⟩
    rcases List.mem_cons.1 hb with rfl | hb
    · exact h2 T ((le_max_left _ _).trans hT)
    · exact h4 T ((le_max_right _ _).trans hT) b hb

/-- The values of a spline of a vehicle and of its derivatives are bounded. -/
theorem deriv_bounded {d n o : ℕ} (hn : 1 ≤ n) (ho : o ≤ d) {x : BSpline ℝ} (hx : ∃ c, c.length = n + d ∧ x = ⟨vehBasis d n, c⟩) :
    (Expr.spl (x.derivative o)).OnIntervals n ∧ (x.derivative o).basis.degree = d - o ∧
    ∃ U : ℝ, ∀ t, 0 ≤ t → t ≤ 1 → |(x.derivative o).eval t| ≤ U := by
  obtain ⟨c, hc, rfl⟩ := hx
  obtain ⟨w, hb⟩ := deriv_uni hn o (s := ⟨vehBasis d n, c⟩) (p := d) (by show c.length = _; rw [hc, vehBasis_len]) (vehBasis_uni hn) ho
  refine ⟨⟨w, d - o, 1, le_rfl, by omega, hb⟩, by rw [hb]; rfl, ?_⟩
  obtain ⟨U, -, hU⟩ := list_bound ((⟨vehBasis d n, c⟩ : BSpline ℝ).derivative o).coeffs
  set s := (⟨vehBasis d n, c⟩ : BSpline ℝ).derivative o
  have cl : s.basis.Clamped := hb ▸ uni_clamped le_rfl hn
  have ends := uni_ends (K := ℝ) (D := d - o) (m := 1) (n := n) le_rfl hn
  rw [← hb, headD_eq_k cl, getLastD_eq_k cl] at ends
  refine ⟨U, fun t h0 h1 => ?_⟩
  rw [BSpline.eval_eq w]
  have one := Basis.sum_fn cl (x := t) (by rw [ends.1]; exact h0) (by rw [ends.2]; exact h1)
  calc |∑ i ∈ Finset.range s.basis.len, s.coeffs.getD i 0 * s.basis.fn i t|
      ≤ ∑ i ∈ Finset.range s.basis.len, |s.coeffs.getD i 0 * s.basis.fn i t| := Finset.abs_sum_le_sum_abs _ _
    _ ≤ ∑ i ∈ Finset.range s.basis.len, U * s.basis.fn i t := Finset.sum_le_sum fun i hi => by
        have w' : s.coeffs.length = s.basis.len := w
        rw [abs_mul, abs_of_nonneg (Basis.fn_nonneg cl i t), List.getD_eq_getElem _ _ (by rw [w']; exact Finset.mem_range.1 hi)]
        exact mul_le_mul_of_nonneg_right (hU _ (List.getElem_mem _)) (Basis.fn_nonneg cl i t)
    _ = U := by rw [← Finset.mul_sum, one, mul_one]


/-! ## Specification -/

/-- A spline as the vehicle defines it, vehicle.py:94-99. -/
def OfVehicle (d n : ℕ) (x : BSpline ℝ) : Prop := ∃ c, c.length = n + d ∧ x = ⟨vehBasis d n, c⟩

/-- With every motion time from some time on, all constraints are met. -/
def Spec.Slowly (cons : ℝ → List (Expr ℝ)) : Prop := ∃ T0, 0 < T0 ∧ ∀ T, T0 ≤ T → ∀ e ∈ cons T, e.Imposed 0

/-! ## Lemmas -/

section Quad

theorem term_le {a M T : ℝ} (h : |a| ≤ M) (hT : 1 ≤ T) {i p : ℕ} (hi : i ≤ p) : |a * T ^ i| ≤ M * T ^ p := by
  have T0 : 0 ≤ T := by linarith
  rw [abs_mul, abs_of_nonneg (pow_nonneg T0 i)]
  exact mul_le_mul h (pow_le_pow_right₀ hT hi) (pow_nonneg T0 i) ((abs_nonneg a).trans h)

theorem mul_bound {a b U V : ℝ} (ha : |a| ≤ U) (hb : |b| ≤ V) : |a * b| ≤ U * V := by
  rw [abs_mul]; exact mul_le_mul ha hb (abs_nonneg b) ((abs_nonneg a).trans ha)

theorem terms_le {a b M N T : ℝ} {p : ℕ} (h1 : |a| ≤ M * T ^ p) (h2 : |b| ≤ N * T ^ p) : |a + b| ≤ (M + N) * T ^ p := by
  rw [add_mul]; exact (abs_add_le _ _).trans (add_le_add h1 h2)

theorem slowly_of (cons : List (ℝ → Expr ℝ)) (h : ∀ e ∈ cons, ∃ T0, 1 ≤ T0 ∧ ∀ T, T0 ≤ T → (e T).Imposed 0) :
    Spec.Slowly fun T => cons.map fun e => e T := by
  obtain ⟨T0, h1, h2⟩ := slow_all (P := fun T (e : ℝ → Expr ℝ) => (e T).Imposed 0) cons h
  refine ⟨T0, by linarith, fun T hT e he => ?_⟩
  obtain ⟨f, hf, rfl⟩ := List.mem_map.1 he
  exact h2 T hT f hf

end Quad

/-! ## Properties -/

/-- **C181** A quadrotor in the plane follows every path if it takes enough time, provided that it can hover (the weight is strictly between the limits of the
thrust) and may turn both ways; for at most 50 knot intervals. -/
theorem C181_quadrotor (b : Bounds) {n : ℕ} (hn : 1 ≤ n) (hn' : n ≤ 50) (x y : BSpline ℝ) (hx : OfVehicle 4 n x) (hy : OfVehicle 4 n y)
    (h1 : lim b "u1min" 2 ^ 2 < quadG ^ 2) (h2 : quadG ^ 2 < lim b "u1max" 15 ^ 2) (h3 : lim b "u2min" (-8) < 0) (h4 : 0 < lim b "u2max" 8) :
    Spec.Slowly (quadC b x y) := by
  have hg : (0 : ℝ) < quadG := by unfold quadG; norm_num
  obtain ⟨ax, dx2, Ux, bx⟩ := deriv_bounded (o := 2) hn (by norm_num) hx
  obtain ⟨ay, dy2, Uy, by'⟩ := deriv_bounded (o := 2) hn (by norm_num) hy
  obtain ⟨ax3, dx3, Ux3, bx3⟩ := deriv_bounded (o := 3) hn (by norm_num) hx
  obtain ⟨ay3, dy3, Uy3, by3⟩ := deriv_bounded (o := 3) hn (by norm_num) hy
  norm_num at dx2 dy2 dx3 dy3
  have A2 : ∀ t, 0 ≤ t → t ≤ 1 → |(x.derivative 2).eval t * (x.derivative 2).eval t + (y.derivative 2).eval t * (y.derivative 2).eval t| ≤ Ux * Ux + Uy * Uy :=
    fun t a c => (abs_add_le _ _).trans (add_le_add (mul_bound (bx t a c) (bx t a c)) (mul_bound (by' t a c) (by' t a c)))
  refine slowly_of [_, _, _, _] ?_
  simp only [List.forall_mem_cons, List.not_mem_nil, false_imp_iff, implies_true, and_true]
  refine ⟨?_, ?_, ?_, ?_⟩
  · refine slow_imposed (D := 4) hn (by omega) (by norm_num) (by omega) (fun T => ?_) (fun T => ?_) (fun T => ?_) (κ := quadG ^ 2 - lim b "u1min" 2 ^ 2)
      (K := (Ux * Ux + Uy * Uy) + 2 * quadG * Uy) (by linarith) 3 (fun T hT t a c => ?_)
    · exact ⟨⟨⟨ax, ax⟩, ⟨ay, trivial⟩, ay, trivial⟩, trivial⟩
    · simp [Expr.totalDegree, thrustE, Expr.sq, dx2, dy2]
    · simp [Expr.hasSpline, thrustE, Expr.sq]
    · have e : (Expr.add (.neg (thrustE x y T)) (.num (T ^ 4 * lim b "u1min" 2 ^ 2))).val t + (quadG ^ 2 - lim b "u1min" 2 ^ 2) * T ^ (3 + 1) =
          -((x.derivative 2).eval t * (x.derivative 2).eval t + (y.derivative 2).eval t * (y.derivative 2).eval t) * T ^ 0 +
          -(2 * quadG * (y.derivative 2).eval t) * T ^ 2 := by
        simp only [Expr.val, thrustE, Expr.sq]; ring
      rw [e]
      refine terms_le (term_le (by rw [abs_neg]; exact A2 t a c) hT (by norm_num)) (term_le ?_ hT (by norm_num))
      rw [abs_neg]
      exact mul_bound (abs_of_pos (by linarith)).le (by' t a c)
  · refine slow_imposed (D := 4) hn (by omega) (by norm_num) (by omega) (fun T => ?_) (fun T => ?_) (fun T => ?_) (κ := lim b "u1max" 15 ^ 2 - quadG ^ 2)
      (K := (Ux * Ux + Uy * Uy) + 2 * quadG * Uy) (by linarith) 3 (fun T hT t a c => ?_)
    · exact ⟨⟨⟨ax, ax⟩, ⟨ay, trivial⟩, ay, trivial⟩, trivial⟩
    · simp [Expr.totalDegree, thrustE, Expr.sub, Expr.sq, dx2, dy2]
    · simp [Expr.hasSpline, thrustE, Expr.sub, Expr.sq]
    · have e : (Expr.sub (thrustE x y T) (.num (T ^ 4 * lim b "u1max" 15 ^ 2))).val t + (lim b "u1max" 15 ^ 2 - quadG ^ 2) * T ^ (3 + 1) =
          ((x.derivative 2).eval t * (x.derivative 2).eval t + (y.derivative 2).eval t * (y.derivative 2).eval t) * T ^ 0 +
          (2 * quadG * (y.derivative 2).eval t) * T ^ 2 := by
        simp only [Expr.val, thrustE, Expr.sub, Expr.sq]; ring
      rw [e]
      refine terms_le (term_le (A2 t a c) hT (by norm_num)) (term_le ?_ hT (by norm_num))
      exact mul_bound (abs_of_pos (by linarith)).le (by' t a c)
  · refine slow_imposed (D := 4) hn (by omega) (by norm_num) (by omega) (fun T => ?_) (fun T => ?_) (fun T => ?_) (κ := quadG ^ 2 * -lim b "u2min" (-8))
      (K := (Ux * Uy3 + Ux3 * Uy) + quadG * Ux3 + (Ux * Ux + Uy * Uy) * |lim b "u2min" (-8)| + 2 * quadG * Uy * |lim b "u2min" (-8)|)
      (mul_pos (by positivity) (by linarith)) 4 (fun T hT t a c => ?_)
    · exact ⟨⟨⟨ax3, ay, trivial⟩, ax, ay3⟩, ⟨⟨ax, ax⟩, ⟨ay, trivial⟩, ay, trivial⟩, trivial⟩
    · simp [Expr.totalDegree, thrustE, spinE, Expr.sub, Expr.sq, dx2, dy2, dx3, dy3]
    · simp [Expr.hasSpline, thrustE, spinE, Expr.sub, Expr.sq]
    · have e : (Expr.add (.neg (spinE x y T)) (.mul (thrustE x y T) (.num (T * lim b "u2min" (-8))))).val t + quadG ^ 2 * -lim b "u2min" (-8) * T ^ (4 + 1) =
          ((x.derivative 2).eval t * (y.derivative 3).eval t - (x.derivative 3).eval t * (y.derivative 2).eval t) * T ^ 0 +
          -(quadG * (x.derivative 3).eval t) * T ^ 2 +
          ((x.derivative 2).eval t * (x.derivative 2).eval t + (y.derivative 2).eval t * (y.derivative 2).eval t) * lim b "u2min" (-8) * T ^ 1 +
          (2 * quadG * (y.derivative 2).eval t) * lim b "u2min" (-8) * T ^ 3 := by
        simp only [Expr.val, thrustE, spinE, Expr.sub, Expr.sq]; ring
      rw [e]
      refine terms_le (terms_le (terms_le (term_le ?_ hT (by norm_num)) (term_le ?_ hT (by norm_num))) (term_le ?_ hT (by norm_num)))
        (term_le ?_ hT (by norm_num))
      · exact (abs_sub _ _).trans (add_le_add (mul_bound (bx t a c) (by3 t a c)) (mul_bound (bx3 t a c) (by' t a c)))
      · rw [abs_neg]; exact mul_bound (abs_of_pos hg).le (bx3 t a c)
      · exact mul_bound (A2 t a c) le_rfl
      · exact mul_bound (mul_bound (abs_of_pos (by linarith)).le (by' t a c)) le_rfl
  · refine slow_imposed (D := 4) hn (by omega) (by norm_num) (by omega) (fun T => ?_) (fun T => ?_) (fun T => ?_) (κ := quadG ^ 2 * lim b "u2max" 8)
      (K := (Ux * Uy3 + Ux3 * Uy) + quadG * Ux3 + (Ux * Ux + Uy * Uy) * |lim b "u2max" 8| + 2 * quadG * Uy * |lim b "u2max" 8|)
      (mul_pos (by positivity) h4) 4 (fun T hT t a c => ?_)
    · exact ⟨⟨⟨ax3, ay, trivial⟩, ax, ay3⟩, ⟨⟨ax, ax⟩, ⟨ay, trivial⟩, ay, trivial⟩, trivial⟩
    · simp [Expr.totalDegree, thrustE, spinE, Expr.sub, Expr.sq, dx2, dy2, dx3, dy3]
    · simp [Expr.hasSpline, thrustE, spinE, Expr.sub, Expr.sq]
    · have e : (Expr.sub (spinE x y T) (.mul (thrustE x y T) (.num (T * lim b "u2max" 8)))).val t + quadG ^ 2 * lim b "u2max" 8 * T ^ (4 + 1) =
          -((x.derivative 2).eval t * (y.derivative 3).eval t - (x.derivative 3).eval t * (y.derivative 2).eval t) * T ^ 0 +
          (quadG * (x.derivative 3).eval t) * T ^ 2 +
          -(((x.derivative 2).eval t * (x.derivative 2).eval t + (y.derivative 2).eval t * (y.derivative 2).eval t) * lim b "u2max" 8) * T ^ 1 +
          -((2 * quadG * (y.derivative 2).eval t) * lim b "u2max" 8) * T ^ 3 := by
        simp only [Expr.val, thrustE, spinE, Expr.sub, Expr.sq]; ring
      rw [e]
      refine terms_le (terms_le (terms_le (term_le ?_ hT (by norm_num)) (term_le ?_ hT (by norm_num))) (term_le ?_ hT (by norm_num)))
        (term_le ?_ hT (by norm_num))
      · rw [abs_neg]; exact (abs_sub _ _).trans (add_le_add (mul_bound (bx t a c) (by3 t a c)) (mul_bound (bx3 t a c) (by' t a c)))
      · exact mul_bound (abs_of_pos hg).le (bx3 t a c)
      · rw [abs_neg]; exact mul_bound (A2 t a c) le_rfl
      · rw [abs_neg]; exact mul_bound (mul_bound (abs_of_pos (by linarith)).le (by' t a c)) le_rfl

set_option maxHeartbeats 1600000 in
/-- **C181** The same for the quadrotor in space without yaw; it must be allowed to lean and turn in all directions. -/
theorem C181_simple (L : Quad3Lim) {n : ℕ} (hn : 1 ≤ n) (hn' : n ≤ 50) (x y z : BSpline ℝ) (hx : OfVehicle 4 n x) (hy : OfVehicle 4 n y) (hz : OfVehicle 4 n z)
    (h1 : L.u1min ^ 2 < quadG ^ 2) (h2 : quadG ^ 2 < L.u1max ^ 2) (h3 : L.u2min < 0) (h4 : 0 < L.u2max) (h5 : L.u3min < 0) (h6 : 0 < L.u3max)
    (h7 : L.phimin < 0) (h8 : 0 < L.phimax) (h9 : L.thetamin < 0) (h10 : 0 < L.thetamax) : Spec.Slowly (simpleC L x y z) := by
  have hg : (0 : ℝ) < quadG := by unfold quadG; norm_num
  obtain ⟨ax, dx2, Ux, bx⟩ := deriv_bounded (o := 2) hn (by norm_num) hx
  obtain ⟨ay, dy2, Uy, by'⟩ := deriv_bounded (o := 2) hn (by norm_num) hy
  obtain ⟨az, dz2, Uz, bz⟩ := deriv_bounded (o := 2) hn (by norm_num) hz
  obtain ⟨ax3, dx3, Ux3, bx3⟩ := deriv_bounded (o := 3) hn (by norm_num) hx
  obtain ⟨ay3, dy3, Uy3, by3⟩ := deriv_bounded (o := 3) hn (by norm_num) hy
  obtain ⟨az3, dz3, Uz3, bz3⟩ := deriv_bounded (o := 3) hn (by norm_num) hz
  norm_num at dx2 dy2 dz2 dx3 dy3 dz3
  have A2 : ∀ t, 0 ≤ t → t ≤ 1 → |(x.derivative 2).eval t * (x.derivative 2).eval t + (y.derivative 2).eval t * (y.derivative 2).eval t + (z.derivative 2).eval t * (z.derivative 2).eval t| ≤ Ux * Ux + Uy * Uy + Uz * Uz := fun t a c =>
    (abs_add_le _ _).trans (add_le_add ((abs_add_le _ _).trans (add_le_add (mul_bound (bx t a c) (bx t a c)) (mul_bound (by' t a c) (by' t a c))))
      (mul_bound (bz t a c) (bz t a c)))
  refine slowly_of [_, _, _, _, _, _, _, _, _, _] ?_
  simp only [List.forall_mem_cons, List.not_mem_nil, false_imp_iff, implies_true, and_true]
  refine ⟨?_, ?_, ?_, ?_, ?_, ?_, ?_, ?_, ?_, ?_⟩
  · refine slow_imposed (D := 4) hn (by omega) (by norm_num) (by omega) (fun T => ?_) (fun T => ?_) (fun T => ?_) (κ := (quadG ^ 2 - L.u1min ^ 2))
      (K := (Ux * Ux + Uy * Uy + Uz * Uz) + 2 * quadG * Uz) (by linarith) 3 (fun T hT t a c => ?_)
    · exact ⟨⟨⟨⟨ax, ax⟩, ay, ay⟩, ⟨az, trivial⟩, az, trivial⟩, trivial⟩
    · simp [Expr.totalDegree, thrust3E, liftE, Expr.sub, Expr.sq, dx2, dy2, dz2, dx3, dy3, dz3]
    · simp [Expr.hasSpline, thrust3E, liftE, Expr.sub, Expr.sq]
    · have e : (Expr.add (.neg (thrust3E x y z T)) (.num (T ^ 4 * L.u1min ^ 2))).val t + (quadG ^ 2 - L.u1min ^ 2) * T ^ (3 + 1) =
          (-((x.derivative 2).eval t * (x.derivative 2).eval t + (y.derivative 2).eval t * (y.derivative 2).eval t + (z.derivative 2).eval t * (z.derivative 2).eval t)) * T ^ 0 +
          (-(2 * quadG * (z.derivative 2).eval t)) * T ^ 2 := by
        simp only [Expr.val, thrust3E, liftE, Expr.sub, Expr.sq]; ring
      rw [e]
      refine terms_le (term_le ?_ hT (by norm_num)) (term_le ?_ hT (by norm_num))
      · rw [abs_neg]; exact A2 t a c
      · rw [abs_neg]; exact mul_bound (abs_of_pos (by linarith)).le (bz t a c)
  · refine slow_imposed (D := 4) hn (by omega) (by norm_num) (by omega) (fun T => ?_) (fun T => ?_) (fun T => ?_) (κ := (L.u1max ^ 2 - quadG ^ 2))
      (K := (Ux * Ux + Uy * Uy + Uz * Uz) + 2 * quadG * Uz) (by linarith) 3 (fun T hT t a c => ?_)
    · exact ⟨⟨⟨⟨ax, ax⟩, ay, ay⟩, ⟨az, trivial⟩, az, trivial⟩, trivial⟩
    · simp [Expr.totalDegree, thrust3E, liftE, Expr.sub, Expr.sq, dx2, dy2, dz2, dx3, dy3, dz3]
    · simp [Expr.hasSpline, thrust3E, liftE, Expr.sub, Expr.sq]
    · have e : (Expr.sub (thrust3E x y z T) (.num (T ^ 4 * L.u1max ^ 2))).val t + (L.u1max ^ 2 - quadG ^ 2) * T ^ (3 + 1) =
          ((x.derivative 2).eval t * (x.derivative 2).eval t + (y.derivative 2).eval t * (y.derivative 2).eval t + (z.derivative 2).eval t * (z.derivative 2).eval t) * T ^ 0 +
          (2 * quadG * (z.derivative 2).eval t) * T ^ 2 := by
        simp only [Expr.val, thrust3E, liftE, Expr.sub, Expr.sq]; ring
      rw [e]
      refine terms_le (term_le ?_ hT (by norm_num)) (term_le ?_ hT (by norm_num))
      · exact A2 t a c
      · exact mul_bound (abs_of_pos (by linarith)).le (bz t a c)
  · refine slow_imposed (D := 4) hn (by omega) (by norm_num) (by omega) (fun T => ?_) (fun T => ?_) (fun T => ?_) (κ := (quadG ^ 2 * L.u2max))
      (K := (Uy3 * Uz + Uz3 * Uy) + quadG * Uy3 + Uz * Uz * |L.u2max| + 2 * quadG * Uz * |L.u2max|) (mul_pos (by positivity) (by linarith)) 4 (fun T hT t a c => ?_)
    · exact ⟨⟨⟨ay3, ⟨az, trivial⟩⟩, az3, ay⟩, ⟨⟨⟨az, trivial⟩, ⟨az, trivial⟩⟩, trivial⟩, trivial⟩
    · simp [Expr.totalDegree, thrust3E, liftE, Expr.sub, Expr.sq, dx2, dy2, dz2, dx3, dy3, dz3]
    · simp [Expr.hasSpline, thrust3E, liftE, Expr.sub, Expr.sq]
    · have e : (Expr.sub (.add (.mul (.neg (.spl (y.derivative 3))) (liftE z T)) (.mul (.spl (z.derivative 3)) (.spl (y.derivative 2)))) (.mul (.mul (.sq (liftE z T)) (.num T)) (.num L.u2max))).val t + (quadG ^ 2 * L.u2max) * T ^ (4 + 1) =
          (-((y.derivative 3).eval t * (z.derivative 2).eval t - (z.derivative 3).eval t * (y.derivative 2).eval t)) * T ^ 0 +
          (-(quadG * (y.derivative 3).eval t)) * T ^ 2 +
          (-((z.derivative 2).eval t * (z.derivative 2).eval t * L.u2max)) * T ^ 1 +
          (-(2 * quadG * (z.derivative 2).eval t * L.u2max)) * T ^ 3 := by
        simp only [Expr.val, thrust3E, liftE, Expr.sub, Expr.sq]; ring
      rw [e]
      refine terms_le (terms_le (terms_le (term_le ?_ hT (by norm_num)) (term_le ?_ hT (by norm_num))) (term_le ?_ hT (by norm_num))) (term_le ?_ hT (by norm_num))
      · rw [abs_neg]; exact (abs_sub _ _).trans (add_le_add (mul_bound (by3 t a c) (bz t a c)) (mul_bound (bz3 t a c) (by' t a c)))
      · rw [abs_neg]; exact mul_bound (abs_of_pos hg).le (by3 t a c)
      · rw [abs_neg]; exact mul_bound (mul_bound (bz t a c) (bz t a c)) le_rfl
      · rw [abs_neg]; exact mul_bound (mul_bound (abs_of_pos (by linarith)).le (bz t a c)) le_rfl
  · refine slow_imposed (D := 4) hn (by omega) (by norm_num) (by omega) (fun T => ?_) (fun T => ?_) (fun T => ?_) (κ := (quadG ^ 2 * -L.u2min))
      (K := (Uy3 * Uz + Uz3 * Uy) + quadG * Uy3 + Uz * Uz * |L.u2min| + 2 * quadG * Uz * |L.u2min|) (mul_pos (by positivity) (by linarith)) 4 (fun T hT t a c => ?_)
    · exact ⟨⟨⟨ay3, ⟨az, trivial⟩⟩, az3, ay⟩, ⟨⟨⟨az, trivial⟩, ⟨az, trivial⟩⟩, trivial⟩, trivial⟩
    · simp [Expr.totalDegree, thrust3E, liftE, Expr.sub, Expr.sq, dx2, dy2, dz2, dx3, dy3, dz3]
    · simp [Expr.hasSpline, thrust3E, liftE, Expr.sub, Expr.sq]
    · have e : (Expr.add (.sub (.mul (.spl (y.derivative 3)) (liftE z T)) (.mul (.spl (z.derivative 3)) (.spl (y.derivative 2)))) (.mul (.mul (.sq (liftE z T)) (.num T)) (.num L.u2min))).val t + (quadG ^ 2 * -L.u2min) * T ^ (4 + 1) =
          ((y.derivative 3).eval t * (z.derivative 2).eval t - (z.derivative 3).eval t * (y.derivative 2).eval t) * T ^ 0 +
          (quadG * (y.derivative 3).eval t) * T ^ 2 +
          ((z.derivative 2).eval t * (z.derivative 2).eval t * L.u2min) * T ^ 1 +
          (2 * quadG * (z.derivative 2).eval t * L.u2min) * T ^ 3 := by
        simp only [Expr.val, thrust3E, liftE, Expr.sub, Expr.sq]; ring
      rw [e]
      refine terms_le (terms_le (terms_le (term_le ?_ hT (by norm_num)) (term_le ?_ hT (by norm_num))) (term_le ?_ hT (by norm_num))) (term_le ?_ hT (by norm_num))
      · exact (abs_sub _ _).trans (add_le_add (mul_bound (by3 t a c) (bz t a c)) (mul_bound (bz3 t a c) (by' t a c)))
      · exact mul_bound (abs_of_pos hg).le (by3 t a c)
      · exact mul_bound (mul_bound (bz t a c) (bz t a c)) le_rfl
      · exact mul_bound (mul_bound (abs_of_pos (by linarith)).le (bz t a c)) le_rfl
  · refine slow_imposed (D := 4) hn (by omega) (by norm_num) (by omega) (fun T => ?_) (fun T => ?_) (fun T => ?_) (κ := (quadG ^ 2 * L.u3max))
      (K := (Ux3 * Uz + Uz3 * Ux) + quadG * Ux3 + Uz * Uz * |L.u3max| + 2 * quadG * Uz * |L.u3max|) (mul_pos (by positivity) (by linarith)) 4 (fun T hT t a c => ?_)
    · exact ⟨⟨⟨ax3, ⟨az, trivial⟩⟩, az3, ax⟩, ⟨⟨⟨az, trivial⟩, ⟨az, trivial⟩⟩, trivial⟩, trivial⟩
    · simp [Expr.totalDegree, thrust3E, liftE, Expr.sub, Expr.sq, dx2, dy2, dz2, dx3, dy3, dz3]
    · simp [Expr.hasSpline, thrust3E, liftE, Expr.sub, Expr.sq]
    · have e : (Expr.sub (.sub (.mul (.spl (x.derivative 3)) (liftE z T)) (.mul (.spl (z.derivative 3)) (.spl (x.derivative 2)))) (.mul (.mul (.sq (liftE z T)) (.num T)) (.num L.u3max))).val t + (quadG ^ 2 * L.u3max) * T ^ (4 + 1) =
          ((x.derivative 3).eval t * (z.derivative 2).eval t - (z.derivative 3).eval t * (x.derivative 2).eval t) * T ^ 0 +
          (quadG * (x.derivative 3).eval t) * T ^ 2 +
          (-((z.derivative 2).eval t * (z.derivative 2).eval t * L.u3max)) * T ^ 1 +
          (-(2 * quadG * (z.derivative 2).eval t * L.u3max)) * T ^ 3 := by
        simp only [Expr.val, thrust3E, liftE, Expr.sub, Expr.sq]; ring
      rw [e]
      refine terms_le (terms_le (terms_le (term_le ?_ hT (by norm_num)) (term_le ?_ hT (by norm_num))) (term_le ?_ hT (by norm_num))) (term_le ?_ hT (by norm_num))
      · exact (abs_sub _ _).trans (add_le_add (mul_bound (bx3 t a c) (bz t a c)) (mul_bound (bz3 t a c) (bx t a c)))
      · exact mul_bound (abs_of_pos hg).le (bx3 t a c)
      · rw [abs_neg]; exact mul_bound (mul_bound (bz t a c) (bz t a c)) le_rfl
      · rw [abs_neg]; exact mul_bound (mul_bound (abs_of_pos (by linarith)).le (bz t a c)) le_rfl
  · refine slow_imposed (D := 4) hn (by omega) (by norm_num) (by omega) (fun T => ?_) (fun T => ?_) (fun T => ?_) (κ := (quadG ^ 2 * -L.u3min))
      (K := (Ux3 * Uz + Uz3 * Ux) + quadG * Ux3 + Uz * Uz * |L.u3min| + 2 * quadG * Uz * |L.u3min|) (mul_pos (by positivity) (by linarith)) 4 (fun T hT t a c => ?_)
    · exact ⟨⟨⟨ax3, ⟨az, trivial⟩⟩, az3, ax⟩, ⟨⟨⟨az, trivial⟩, ⟨az, trivial⟩⟩, trivial⟩, trivial⟩
    · simp [Expr.totalDegree, thrust3E, liftE, Expr.sub, Expr.sq, dx2, dy2, dz2, dx3, dy3, dz3]
    · simp [Expr.hasSpline, thrust3E, liftE, Expr.sub, Expr.sq]
    · have e : (Expr.add (.add (.mul (.neg (.spl (x.derivative 3))) (liftE z T)) (.mul (.spl (z.derivative 3)) (.spl (x.derivative 2)))) (.mul (.mul (.sq (liftE z T)) (.num T)) (.num L.u3min))).val t + (quadG ^ 2 * -L.u3min) * T ^ (4 + 1) =
          (-((x.derivative 3).eval t * (z.derivative 2).eval t - (z.derivative 3).eval t * (x.derivative 2).eval t)) * T ^ 0 +
          (-(quadG * (x.derivative 3).eval t)) * T ^ 2 +
          ((z.derivative 2).eval t * (z.derivative 2).eval t * L.u3min) * T ^ 1 +
          (2 * quadG * (z.derivative 2).eval t * L.u3min) * T ^ 3 := by
        simp only [Expr.val, thrust3E, liftE, Expr.sub, Expr.sq]; ring
      rw [e]
      refine terms_le (terms_le (terms_le (term_le ?_ hT (by norm_num)) (term_le ?_ hT (by norm_num))) (term_le ?_ hT (by norm_num))) (term_le ?_ hT (by norm_num))
      · rw [abs_neg]; exact (abs_sub _ _).trans (add_le_add (mul_bound (bx3 t a c) (bz t a c)) (mul_bound (bz3 t a c) (bx t a c)))
      · rw [abs_neg]; exact mul_bound (abs_of_pos hg).le (bx3 t a c)
      · exact mul_bound (mul_bound (bz t a c) (bz t a c)) le_rfl
      · exact mul_bound (mul_bound (abs_of_pos (by linarith)).le (bz t a c)) le_rfl
  · refine slow_imposed (D := 2) hn (by omega) (by norm_num) (by omega) (fun T => ?_) (fun T => ?_) (fun T => ?_) (κ := (quadG * L.phimax))
      (K := Uy + Uz * |L.phimax|) (mul_pos hg (by linarith)) 1 (fun T hT t a c => ?_)
    · exact ⟨ay, ⟨az, trivial⟩, trivial⟩
    · simp [Expr.totalDegree, thrust3E, liftE, Expr.sub, Expr.sq, dx2, dy2, dz2, dx3, dy3, dz3]
    · simp [Expr.hasSpline, thrust3E, liftE, Expr.sub, Expr.sq]
    · have e : (Expr.sub (.neg (.spl (y.derivative 2))) (.mul (liftE z T) (.num L.phimax))).val t + (quadG * L.phimax) * T ^ (1 + 1) =
          (-(y.derivative 2).eval t - (z.derivative 2).eval t * L.phimax) * T ^ 0 := by
        simp only [Expr.val, thrust3E, liftE, Expr.sub, Expr.sq]; ring
      rw [e]
      refine term_le ?_ hT (by norm_num)
      · exact (abs_sub _ _).trans (add_le_add (by rw [abs_neg]; exact by' t a c) (mul_bound (bz t a c) le_rfl))
  · refine slow_imposed (D := 2) hn (by omega) (by norm_num) (by omega) (fun T => ?_) (fun T => ?_) (fun T => ?_) (κ := (quadG * -L.phimin))
      (K := Uy + Uz * |L.phimin|) (mul_pos hg (by linarith)) 1 (fun T hT t a c => ?_)
    · exact ⟨ay, ⟨az, trivial⟩, trivial⟩
    · simp [Expr.totalDegree, thrust3E, liftE, Expr.sub, Expr.sq, dx2, dy2, dz2, dx3, dy3, dz3]
    · simp [Expr.hasSpline, thrust3E, liftE, Expr.sub, Expr.sq]
    · have e : (Expr.add (.spl (y.derivative 2)) (.mul (liftE z T) (.num L.phimin))).val t + (quadG * -L.phimin) * T ^ (1 + 1) =
          ((y.derivative 2).eval t + (z.derivative 2).eval t * L.phimin) * T ^ 0 := by
        simp only [Expr.val, thrust3E, liftE, Expr.sub, Expr.sq]; ring
      rw [e]
      refine term_le ?_ hT (by norm_num)
      · exact (abs_add_le _ _).trans (add_le_add (by' t a c) (mul_bound (bz t a c) le_rfl))
  · refine slow_imposed (D := 2) hn (by omega) (by norm_num) (by omega) (fun T => ?_) (fun T => ?_) (fun T => ?_) (κ := (quadG * L.thetamax))
      (K := Ux + Uz * |L.thetamax|) (mul_pos hg (by linarith)) 1 (fun T hT t a c => ?_)
    · exact ⟨ax, ⟨az, trivial⟩, trivial⟩
    · simp [Expr.totalDegree, thrust3E, liftE, Expr.sub, Expr.sq, dx2, dy2, dz2, dx3, dy3, dz3]
    · simp [Expr.hasSpline, thrust3E, liftE, Expr.sub, Expr.sq]
    · have e : (Expr.sub (.spl (x.derivative 2)) (.mul (liftE z T) (.num L.thetamax))).val t + (quadG * L.thetamax) * T ^ (1 + 1) =
          ((x.derivative 2).eval t - (z.derivative 2).eval t * L.thetamax) * T ^ 0 := by
        simp only [Expr.val, thrust3E, liftE, Expr.sub, Expr.sq]; ring
      rw [e]
      refine term_le ?_ hT (by norm_num)
      · exact (abs_sub _ _).trans (add_le_add (bx t a c) (mul_bound (bz t a c) le_rfl))
  · refine slow_imposed (D := 2) hn (by omega) (by norm_num) (by omega) (fun T => ?_) (fun T => ?_) (fun T => ?_) (κ := (quadG * -L.thetamin))
      (K := Ux + Uz * |L.thetamin|) (mul_pos hg (by linarith)) 1 (fun T hT t a c => ?_)
    · exact ⟨ax, ⟨az, trivial⟩, trivial⟩
    · simp [Expr.totalDegree, thrust3E, liftE, Expr.sub, Expr.sq, dx2, dy2, dz2, dx3, dy3, dz3]
    · simp [Expr.hasSpline, thrust3E, liftE, Expr.sub, Expr.sq]
    · have e : (Expr.add (.neg (.spl (x.derivative 2))) (.mul (liftE z T) (.num L.thetamin))).val t + (quadG * -L.thetamin) * T ^ (1 + 1) =
          (-(x.derivative 2).eval t + (z.derivative 2).eval t * L.thetamin) * T ^ 0 := by
        simp only [Expr.val, thrust3E, liftE, Expr.sub, Expr.sq]; ring
      rw [e]
      refine term_le ?_ hT (by norm_num)
      · exact (abs_add_le _ _).trans (add_le_add (by rw [abs_neg]; exact bx t a c) (mul_bound (bz t a c) le_rfl))

/-- **C181** A holonomic vehicle that starts from rest can take any longer time for a plan: with limits that allow standing still, all constraints are met with
every longer motion time as well (the obstacles being described by the same expressions, as those that do not move are). -/
theorem C181_longer (S : Setup) (u : Upd) (h : Solves S u) (rest : u.start.input = fun _ => 0)
    (hx : holoLim S.bounds "vxmin" "vmin" (-(1 / 2)) ≤ 0 ∧ 0 ≤ holoLim S.bounds "vxmax" "vmax" (1 / 2) ∧
      holoLim S.bounds "axmin" "amin" (-1) ≤ 0 ∧ 0 ≤ holoLim S.bounds "axmax" "amax" 1)
    (hy : holoLim S.bounds "vymin" "vmin" (-(1 / 2)) ≤ 0 ∧ 0 ≤ holoLim S.bounds "vymax" "vmax" (1 / 2) ∧
      holoLim S.bounds "aymin" "amin" (-1) ≤ 0 ∧ 0 ≤ holoLim S.bounds "aymax" "amax" 1)
    (T : ℝ) (hT : u.T ≤ T) : Solves S { u with T := T } := by
  have h0 : 0 ≤ u.T := by linarith [h.positive]
  have h2 : u.T ^ 2 ≤ T ^ 2 := pow_le_pow_left₀ h0 hT 2
  have ge : ∀ {s : BSpline ℝ} {a b : ℝ}, (geC s a).Imposed 0 → b ≤ a → (geC s b).Imposed 0 := fun {s a b} ⟨v, r, hv⟩ hab => by
    refine geC_imposed fun c hc => ?_
    cases r with
    | addSN r1 r2 =>
      cases r1 with
      | negSpl r1 =>
        cases r1; cases r2
        have := hv (-c + a) (by simp only [BSpline.addNum, BSpline.neg, List.map_map, List.mem_map, Function.comp]; exact ⟨c, hc, rfl⟩)
        linarith
    | addNN r1 r2 => cases r1 with | negNum r1 => cases r1
    | addNS r1 r2 => cases r1 with | negNum r1 => cases r1
    | addSS r1 r2 => cases r2
  have le : ∀ {s : BSpline ℝ} {a b : ℝ}, (leC s a).Imposed 0 → a ≤ b → (leC s b).Imposed 0 := fun {s a b} ⟨v, r, hv⟩ hab => by
    refine leC_imposed fun c hc => ?_
    cases r with
    | addSN r1 r2 =>
      cases r1
      cases r2 with
      | negNum r2 =>
        cases r2
        have := hv (c + -a) (by simp only [BSpline.addNum, List.mem_map]; exact ⟨c, hc, rfl⟩)
        linarith
    | addNN r1 r2 => cases r1
    | addNS r1 r2 => cases r1
    | addSS r1 r2 => cases r2 with | negSpl r2 => cases r2
  have ax : ∀ {s : BSpline ℝ} {a b c d : ℝ}, a ≤ 0 → 0 ≤ b → c ≤ 0 → 0 ≤ d → (∀ e ∈ axisC s u.T a b c d, e.Imposed 0) →
      ∀ e ∈ axisC s T a b c d, e.Imposed 0 := fun {s a b c d} ha hb hc hd he => by
    simp only [axisC, List.forall_mem_cons, List.not_mem_nil, false_imp_iff, implies_true, and_true] at he ⊢
    exact ⟨ge he.1 (mul_le_mul_of_nonpos_right hT ha), le he.2.1 (mul_le_mul_of_nonneg_right hT hb),
      ge he.2.2.1 (mul_le_mul_of_nonpos_right h2 hc), le he.2.2.2 (mul_le_mul_of_nonneg_right h2 hd)⟩
  refine ⟨by show -T ≤ 0; linarith, h.form, h.lines, h.slacks, ?_, h.avoid, h.inside, ?_, h.ends⟩
  · have hl := h.limits
    simp only [holoInf, List.forall_mem_append] at hl ⊢
    exact ⟨ax hx.1 hx.2.1 hx.2.2.1 hx.2.2.2 hl.1, ax hy.1 hy.2.1 hy.2.2.1 hy.2.2.2 hl.2⟩
  · have hs := h.starts
    simp only [MeetsInit, holoInit, List.forall_mem_append, zero_div] at hs ⊢
    refine ⟨hs.1, fun c hc => ?_⟩
    obtain ⟨i, rfl⟩ := List.mem_ofFn.1 hc
    have := hs.2 _ (List.mem_ofFn.2 ⟨i, rfl⟩)
    simp only [rest, mul_zero] at this ⊢
    exact this

/-- **C181** A vehicle with a heading cannot follow every path: the bound on the turn rate is imposed on the coefficients of `1 + tg_ha**2`, which may be negative.
Here the tangent of half the heading goes linearly from `-2` to `2`, on one knot interval.  If the motion takes long enough, the turn rate is within the limit at
every instant; yet whatever the motion time, the velocity and the limit, the constraints are not met. -/
theorem C181_turn_violated (b : Bounds) (hw : 0 < lim b "wmax" (Real.pi / 6)) :
    let tg : BSpline ℝ := ⟨vehBasis 2 1, [-2, 0, 2]⟩
    (∃ T0, 0 < T0 ∧ ∀ T, T0 ≤ T → ∀ t, 0 ≤ t → t ≤ 1 → 2 * ((tg.derivative 1).eval t / T) / (1 + tg.eval t ^ 2) ≤ lim b "wmax" (Real.pi / 6)) ∧
    ∀ (v : BSpline ℝ) (T : ℝ), 0 ≤ T → ¬ ∀ e ∈ dubinsC b v tg T, e.Imposed 0 := by
  intro tg
  have hd' : tg.derivative 1 = ⟨Bz 1, [4, 4]⟩ := by
    have : tg = ⟨Bz 2, [-2, 0, 2]⟩ := by simp [tg, vehBasis, Bz, List.range_succ, List.replicate_succ]
    rw [this, Bz_derivative rfl]; norm_num [List.range_succ]
  refine ⟨⟨8 / lim b "wmax" (Real.pi / 6), by positivity, fun T hT t h0 h1 => ?_⟩, fun v T hT h => ?_⟩
  · have T0 : 0 < T := lt_of_lt_of_le (by positivity) hT
    have e1 : (⟨Bz 1, [4, 4]⟩ : BSpline ℝ).eval t = 4 := by rw [Bz_eval rfl h0 h1]; simp [Finset.sum_range_succ, bern]; ring
    rw [div_le_iff₀ hw] at hT
    rw [hd', e1, div_le_iff₀ (by positivity), mul_div_assoc', div_le_iff₀ T0]
    nlinarith [mul_nonneg (mul_nonneg T0.le hw.le) (sq_nonneg (tg.eval t))]
  have hb : vehBasis 2 1 = Bz 2 := by simp [vehBasis, Bz, List.range_succ, List.replicate_succ]
  rw [show tg = ⟨vehBasis 2 1, [-2, 0, 2]⟩ from rfl, hb] at h
  have hd : (⟨Bz 2, [-2, 0, 2]⟩ : BSpline ℝ).derivative 1 = ⟨Bz 1, [4, 4]⟩ := by
    rw [Bz_derivative rfl]; norm_num [List.range_succ]
  obtain ⟨w, r, hi⟩ := h (.sub (.mul (.num 2) (.spl ((⟨Bz 2, [-2, 0, 2]⟩ : BSpline ℝ).derivative 1)))
      (.mul (.mul (denE ⟨Bz 2, [-2, 0, 2]⟩) (.num T)) (.num (lim b "wmax" (Real.pi / 6))))) (by simp [dubinsC, turnC])
  rw [hd] at r
  set W := lim b "wmax" (Real.pi / 6)
  set e : Expr ℝ := .sub (.mul (.num 2) (.spl ⟨Bz 1, [4, 4]⟩)) (.mul (.mul (denE ⟨Bz 2, [-2, 0, 2]⟩) (.num T)) (.num W)) with he
  have all : e.AllBz := by simp [he, Expr.AllBz, Expr.sub, Expr.sq, denE, Bz]
  have on : e.On 0 1 := ⟨⟨trivial, Bz_on rfl⟩, ⟨⟨⟨trivial, Bz_on rfl, Bz_on rfl⟩, trivial⟩, trivial⟩⟩
  obtain ⟨s, rs, sb⟩ := (Expr.AllBz.runs all).2 4 (by simp [he, Expr.bdeg, Expr.sub, Expr.sq, denE, Bz]) (by norm_num)
  obtain rfl := C136_deterministic on r rs
  have mean := Expr.runs_means rs on
  have val : ∀ t, 0 ≤ t → t ≤ 1 → s.eval t = 8 - (1 + (4 * t - 2) ^ 2) * T * W := fun t h0 h1 => by
    have m : s.eval t = e.val t := mean.2.2.2.2 t h0 h1
    have e1 : (⟨Bz 1, [4, 4]⟩ : BSpline ℝ).eval t = 4 := by rw [Bz_eval rfl h0 h1]; simp [Finset.sum_range_succ, bern]; ring
    have e2 : (⟨Bz 2, [-2, 0, 2]⟩ : BSpline ℝ).eval t = 4 * t - 2 := by rw [Bz_eval rfl h0 h1]; simp [Finset.sum_range_succ, bern]; ring
    rw [m, he]
    simp only [Expr.val, Expr.sub, Expr.sq, denE, e1, e2]
    ring
  have hl : s.coeffs.length = 5 := by have : s.coeffs.length = s.basis.len := mean.2.1; rw [this, sb, Bz_len]
  obtain ⟨bs, cs⟩ := s
  obtain rfl : bs = Bz 4 := sb
  match cs, hl with
  | [c0, c1, c2, c3, c4], _ =>
    have k := hi c2 (by simp)
    have v0 := val 0 le_rfl zero_le_one
    have v1 := val (1 / 4) (by norm_num) (by norm_num)
    have v2 := val (1 / 2) (by norm_num) (by norm_num)
    have v3 := val (3 / 4) (by norm_num) (by norm_num)
    have v4 := val 1 zero_le_one le_rfl
    rw [Bz_eval rfl (by norm_num) (by norm_num)] at v0 v1 v2 v3 v4
    simp [Finset.sum_range_succ, bern] at v0 v1 v2 v3 v4
    norm_num [Nat.choose] at v0 v1 v2 v3 v4
    have : 0 ≤ T * W := mul_nonneg hT hw.le
    linarith

/-! ### Cases -/

/-- A quadrotor with the default limits and number of knot intervals, along any path. -/
example (cx cy : List ℝ) (hx : cx.length = 14) (hy : cy.length = 14) : Spec.Slowly (quadC (fun _ => none) ⟨vehBasis 4 10, cx⟩ ⟨vehBasis 4 10, cy⟩) := by
  refine C181_quadrotor _ (by norm_num) (by norm_num) _ _ ⟨cx, hx, rfl⟩ ⟨cy, hy, rfl⟩ ?_ ?_ ?_ ?_ <;> norm_num [lim, quadG]

/-- The same in space. -/
example (cx cy cz : List ℝ) (hx : cx.length = 14) (hy : cy.length = 14) (hz : cz.length = 14) :
    Spec.Slowly (simpleC (quad3Lim fun _ => none) ⟨vehBasis 4 10, cx⟩ ⟨vehBasis 4 10, cy⟩ ⟨vehBasis 4 10, cz⟩) := by
  have := Real.pi_pos
  refine C181_simple _ (by norm_num) (by norm_num) _ _ _ ⟨cx, hx, rfl⟩ ⟨cy, hy, rfl⟩ ⟨cz, hz, rfl⟩ ?_ ?_ ?_ ?_ ?_ ?_ ?_ ?_ ?_ ?_ <;>
    simp only [quad3Lim, lim, Option.getD_none, quadG] <;> first | linarith | norm_num

/-- The disc that drives past a disc, with twice the time. -/
example : ∃ T, 0 < T ∧ Solves (caseS 0) (caseU 0 T) ∧ Solves (caseS 0) (caseU 0 (2 * T)) := by
  obtain ⟨T, hT, h⟩ := case_solves
  have h := h 0 le_rfl (by norm_num) T le_rfl
  refine ⟨T, hT, h, ?_⟩
  have := C181_longer (caseS 0) (caseU 0 T) h rfl (by norm_num [caseS, holoLim]) (by norm_num [caseS, holoLim]) (2 * T)
    (by show T ≤ 2 * T; linarith)
  exact this

end Verif.Problems
