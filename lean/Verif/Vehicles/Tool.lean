import Verif.Vehicles.Holonomic
import Verif.OptiLayer.Constraints

/-! # Limits of the machine tool (C134)

`Tool.define_trajectory_constraints` (vehicles/tool.py:83-126) with the `skip` that `GCodeProblem.construct` gives (problems/gcodeproblem.py:74-80). -/

set_option linter.unusedSectionVars false

namespace Verif.Vehicles

open Verif.Spline Finset

/-! ## Model -/

/-- The limits of the three axes. -/
structure ToolLim where
  vmin : Fin 3 → ℝ
  vmax : Fin 3 → ℝ
  amin : Fin 3 → ℝ
  amax : Fin 3 → ℝ
  jmin : Fin 3 → ℝ
  jmax : Fin 3 → ℝ

/-- `Tool.__init__`, tool.py:44-77: the common velocities replace those of the first two axes only. -/
noncomputable def toolLim (b : Bounds) : ToolLim where
  vmin := ![holoLim b "vxmin" "vmin" (-(1 / 2)), holoLim b "vymin" "vmin" (-(1 / 2)), lim b "vzmin" (-(1 / 2))]
  vmax := ![holoLim b "vxmax" "vmax" (1 / 2), holoLim b "vymax" "vmax" (1 / 2), lim b "vzmax" (1 / 2)]
  amin := ![holoLim b "axmin" "amin" (-1), holoLim b "aymin" "amin" (-1), holoLim b "azmin" "amin" (-1)]
  amax := ![holoLim b "axmax" "amax" 1, holoLim b "aymax" "amax" 1, holoLim b "azmax" "amax" 1]
  jmin := ![holoLim b "jxmin" "jmin" (-2), holoLim b "jymin" "jmin" (-2), holoLim b "jzmin" "jmin" (-2)]
  jmax := ![holoLim b "jxmax" "jmax" 2, holoLim b "jymax" "jmax" 2, holoLim b "jzmax" "jmax" 2]

/-- The option `vel_limit`. -/
inductive VelLimit where
  | machining
  | axes

open Classical in
/-- The constraints on the velocity, tool.py:90-109. -/
noncomputable def toolVel (m : VelLimit) (L : ToolLim) (s : Fin 3 → BSpline ℝ) (T : ℝ) : List (Expr ℝ) :=
  match m with
  | .machining =>
    if L.vmax 0 ≠ 0 then
      [.sub (.add (.sq (.spl ((s 0).derivative 1))) (.sq (.spl ((s 1).derivative 1)))) (.num (T ^ 2 * L.vmax 0 ^ 2))]
    else [.sub (.sq (.spl ((s 2).derivative 1))) (.num (T ^ 2 * L.vmax 2 ^ 2))]
  | .axes => (List.finRange 3).map (fun i => geC ((s i).derivative 1) (T * L.vmin i)) ++
      (List.finRange 3).map fun i => leC ((s i).derivative 1) (T * L.vmax i)

/-- The constraints on the acceleration, tool.py:114-119. -/
noncomputable def toolAcc (L : ToolLim) (s : Fin 3 → BSpline ℝ) (T : ℝ) : List (Expr ℝ) :=
  (List.finRange 3).map (fun i => geC ((s i).derivative 2) (T ^ 2 * L.amin i)) ++
    (List.finRange 3).map fun i => leC ((s i).derivative 2) (T ^ 2 * L.amax i)

/-- The constraints on the jerk, tool.py:121-126. -/
noncomputable def toolJerk (L : ToolLim) (s : Fin 3 → BSpline ℝ) (T : ℝ) : List (Expr ℝ) :=
  (List.finRange 3).map (fun i => geC ((s i).derivative 3) (T ^ 3 * L.jmin i)) ++
    (List.finRange 3).map fun i => leC ((s i).derivative 3) (T ^ 3 * L.jmax i)

/-- `define_constraint(expr, -inf, ub, skip=skip)`, optilayer.py:634-666: some of the coefficients are left out (`kept`). -/
def Imposes (e : Expr ℝ) (skip : Option (ℤ × ℤ)) (ub : ℝ) : Prop :=
  ∃ v, e.Runs v ∧ match v with
    | .num _ => True
    | .spl r => ∀ c ∈ OptiLayer.kept r.coeffs skip, c ≤ ub

/-- The `skip` for segment `k` of `n`, gcodeproblem.py:74-80. -/
def segSkip (n k : ℕ) : Option (ℤ × ℤ) := if k = 0 then some (1, 0) else if k + 1 = n then some (0, 1) else none

/-- The solution satisfies the constraints of `define_trajectory_constraints` for a segment; the jerk is constrained without `skip`. -/
def ToolOk (m : VelLimit) (L : ToolLim) (s : Fin 3 → BSpline ℝ) (T : ℝ) (skip : Option (ℤ × ℤ)) : Prop :=
  (∀ e ∈ toolVel m L s T ++ toolAcc L s T, Imposes e skip 0) ∧ ∀ e ∈ toolJerk L s T, Imposes e none 0

/-! ## Specification -/

/-- The position of an axis at time `t` of a segment that takes the time `T`. -/
noncomputable def pos (s : BSpline ℝ) (T : ℝ) : ℝ → ℝ := fun t => s.eval (t / T)

/-- The velocity is within the limit of the machining process (of the z-axis, when the first two axes may not move). -/
def Spec.velOk (m : VelLimit) (L : ToolLim) (p : Fin 3 → ℝ → ℝ) (t : ℝ) : Prop :=
  match m with
  | .machining => (L.vmax 0 ≠ 0 → √(deriv (p 0) t ^ 2 + deriv (p 1) t ^ 2) ≤ |L.vmax 0|) ∧ (L.vmax 0 = 0 → |deriv (p 2) t| ≤ |L.vmax 2|)
  | .axes => ∀ i, L.vmin i ≤ deriv (p i) t ∧ deriv (p i) t ≤ L.vmax i

/-- The accelerations are within the limits. -/
def Spec.accOk (L : ToolLim) (p : Fin 3 → ℝ → ℝ) (t : ℝ) : Prop :=
  ∀ i, L.amin i ≤ iteratedDeriv 2 (p i) t ∧ iteratedDeriv 2 (p i) t ≤ L.amax i

/-- The jerks are within the limits. -/
def Spec.jerkOk (L : ToolLim) (p : Fin 3 → ℝ → ℝ) (t : ℝ) : Prop :=
  ∀ i, L.jmin i ≤ iteratedDeriv 3 (p i) t ∧ iteratedDeriv 3 (p i) t ≤ L.jmax i

/-! ## Lemmas -/

/-- A break point of a spline in the expression. -/
def Breaks (τ : ℝ) : Expr ℝ → Prop
  | .num _ => False
  | .spl s => τ ∈ s.basis.knots
  | .neg e => Breaks τ e
  | .add e f => Breaks τ e ∨ Breaks τ f
  | .mul e f => Breaks τ e ∨ Breaks τ f

theorem Breaks.hasSpline {τ : ℝ} {e : Expr ℝ} (h : Breaks τ e) : e.hasSpline := by
  induction e with
  | num c => exact h
  | spl s => trivial
  | neg e ih => exact ih h
  | add e f ih1 ih2 => exact Or.imp ih1 ih2 h
  | mul e f ih1 ih2 => exact Or.imp ih1 ih2 h

theorem runs_breaks {e : Expr ℝ} {v : PyVal ℝ} (hr : e.Runs v) {τ : ℝ} (h : Breaks τ e) : ∃ r, v = .spl r ∧ τ ∈ r.basis.knots := by
  have key : ∀ {e : Expr ℝ} {v : PyVal ℝ}, e.Runs v → Breaks τ e → match v with
      | .num _ => False
      | .spl r => τ ∈ r.basis.knots := by
    intro e v hr
    induction hr with
    | num c => exact id
    | spl s => exact id
    | negNum _ ih => exact ih
    | negSpl _ ih => exact ih
    | addNN _ _ ih1 ih2 => rintro (h | h); exacts [ih1 h, ih2 h]
    | mulNN _ _ ih1 ih2 => rintro (h | h); exacts [ih1 h, ih2 h]
    | addSN _ _ ih1 ih2 => rintro (h | h); exacts [ih1 h, (ih2 h).elim]
    | mulSN _ _ ih1 ih2 => rintro (h | h); exacts [ih1 h, (ih2 h).elim]
    | addNS _ _ ih1 ih2 => rintro (h | h); exacts [(ih1 h).elim, ih2 h]
    | mulNS _ _ ih1 ih2 => rintro (h | h); exacts [(ih1 h).elim, ih2 h]
    | addSS _ _ _ _ ih1 ih2 => exact fun h => (C08_breaks _ _ τ).1.2 (h.imp ih1 ih2)
    | mulSS _ _ _ ih1 ih2 => exact fun h => (C08_breaks _ _ τ).2.2 (h.imp ih1 ih2)
  have := key hr h
  cases v with
  | num c => exact this.elim
  | spl r => exact ⟨r, rfl, this⟩

theorem fn_support {b : Basis ℝ} (hb : b.Clamped) {i : ℕ} (hi : i < b.len) {x : ℝ} (hx : x < b.k i ∨ b.k (i + b.degree + 1) < x) :
    b.fn i x = 0 := by
  have hl := hb.length_eq
  refine C02_support b hb i (b.k i) (b.k (i + b.degree + 1)) x _ ?_ ?_ hx
  · unfold Basis.support Basis.k
    rw [List.getElem?_eq_some_iff]
    refine ⟨by simp; omega, ?_⟩
    rw [List.getElem_zip, List.getD_eq_getElem _ _ (by omega), List.getD_eq_getElem _ _ (by omega)]
    simp only [List.getElem_take, List.getElem_drop, Prod.mk.injEq, true_and]
    congr 1; omega
  · unfold Basis.eval
    rw [List.getElem?_map, List.getElem?_range hi]; rfl

/-- Bounds on some of the coefficients are bounds where the other basis functions vanish. -/
theorem eval_le_of {s : BSpline ℝ} (hb : s.basis.Clamped) (hs : s.WF) {ub x : ℝ} (h0 : s.basis.knots.headD 0 ≤ x)
    (h1 : x ≤ s.basis.knots.getLastD 0) (h : ∀ i, i < s.basis.len → s.basis.fn i x = 0 ∨ s.coeffs.getD i 0 ≤ ub) : s.eval x ≤ ub := by
  have hone := C01_sum_one s.basis hb x h0 h1
  unfold Basis.eval at hone
  rw [sum_map_range] at hone
  rw [BSpline.eval_eq hs]
  calc _ ≤ ∑ i ∈ range s.basis.len, ub * s.basis.fn i x := Finset.sum_le_sum fun i hi => by
        rcases h i (Finset.mem_range.1 hi) with e | e
        · rw [e, mul_zero, mul_zero]
        · exact mul_le_mul_of_nonneg_right e (Basis.fn_nonneg hb i x)
    _ = ub := by rw [← Finset.mul_sum, hone, mul_one]

/-- The times at which skipped coefficients have no influence: after a break point when the first one is skipped, before one when the last one is
skipped. -/
def Free (skip : Option (ℤ × ℤ)) (τ x : ℝ) : Prop :=
  skip = none ∨ skip = some (1, 0) ∧ 0 < τ ∧ τ < x ∨ skip = some (0, 1) ∧ τ < 1 ∧ x < τ

theorem imposes_le {e : Expr ℝ} {skip : Option (ℤ × ℤ)} {ub : ℝ} (h : Imposes e skip ub) (ho : e.On 0 1) {τ x : ℝ}
    (hs : e.hasSpline) (hk : skip ≠ none → Breaks τ e) (h0 : 0 ≤ x) (h1 : x ≤ 1) (hf : Free skip τ x) : e.val x ≤ ub := by
  obtain ⟨v, hr, hv⟩ := h
  obtain ⟨r, rfl⟩ := Expr.runs_spline hr hs
  obtain ⟨g1, g2, g3, g4, g5⟩ := Expr.runs_means hr ho
  have hlen : r.coeffs.length = r.basis.len := g2
  have hlt := g1.lt_len
  rw [← g5 x h0 h1]
  refine eval_le_of g1 g2 (by rw [g3]; exact h0) (by rw [g4]; exact h1) fun i hi => ?_
  rcases hf with rfl | ⟨rfl, t0, t1⟩ | ⟨rfl, t0, t1⟩
  · right
    rw [List.getD_eq_getElem _ _ (by omega)]
    exact hv _ (List.getElem_mem _)
  · obtain ⟨r', e', hτ⟩ := runs_breaks hr (hk (by simp))
    cases e'
    simp only at hv
    rw [show (some ((1 : ℤ), (0 : ℤ))) = some (((1 : ℕ) : ℤ), ((0 : ℕ) : ℤ)) by simp, OptiLayer.kept_spec _ 1 0 (by omega)] at hv
    rcases Nat.eq_zero_or_pos i with rfl | hp
    · left
      refine fn_support g1 hi (Or.inr (lt_of_le_of_lt ?_ t1))
      obtain ⟨j, hj, e⟩ := List.getElem_of_mem hτ
      have ej : r.basis.k j = τ := by unfold Basis.k; rw [List.getD_eq_getElem _ _ hj, e]
      have : r.basis.degree < j := by
        by_contra hc
        rw [g1.first j (by omega), ← headD_eq_k g1, g3] at ej
        linarith
      rw [← ej]
      exact g1.mono (by omega)
    · right
      rw [List.getD_eq_getElem _ _ (by omega)]
      refine hv _ ?_
      rw [Nat.sub_zero, List.take_length, List.mem_iff_getElem]
      exact ⟨i - 1, by simp; omega, by rw [List.getElem_drop]; congr 1; omega⟩
  · obtain ⟨r', e', hτ⟩ := runs_breaks hr (hk (by simp))
    cases e'
    simp only at hv
    rw [show (some ((0 : ℤ), (1 : ℤ))) = some (((0 : ℕ) : ℤ), ((1 : ℕ) : ℤ)) by simp, OptiLayer.kept_spec _ 0 1 (by omega)] at hv
    rcases Nat.lt_or_ge (i + 1) r.basis.len with hp | hp
    · right
      rw [List.getD_eq_getElem _ _ (by omega)]
      refine hv _ ?_
      rw [List.drop_zero, List.mem_iff_getElem]
      exact ⟨i, by simp; omega, by rw [List.getElem_take]⟩
    · left
      refine fn_support g1 hi (Or.inl (lt_of_lt_of_le t1 ?_))
      obtain ⟨j, hj, e⟩ := List.getElem_of_mem hτ
      have ej : r.basis.k j = τ := by unfold Basis.k; rw [List.getD_eq_getElem _ _ hj, e]
      have : j < r.basis.len := by
        by_contra hc
        rw [g1.ends j (by omega) hj, ← getLastD_eq_k g1, g4] at ej
        linarith
      rw [← ej]
      exact g1.mono (by omega)

/-- Break points of a spline inside the horizon are break points of its derivatives. -/
theorem mem_knots_derivative {s : BSpline ℝ} {n : ℕ} (h : Traj s n) {τ : ℝ} (h0 : 0 < τ) (h1 : τ < 1) (hτ : τ ∈ s.basis.knots) (o : ℕ)
    (ho : o ≤ s.basis.degree) : τ ∈ (s.derivative o).basis.knots := by
  obtain ⟨g1, g2, g3, g4, g5⟩ := clamped_derivative h.clamped h.wf o ho
  obtain ⟨j, hj, e⟩ := List.getElem_of_mem hτ
  have ej : s.basis.k j = τ := by unfold Basis.k; rw [List.getD_eq_getElem _ _ hj, e]
  have l1 : s.basis.degree < j := by
    by_contra hc
    rw [h.clamped.first j (by omega), ← headD_eq_k h.clamped, h.first] at ej
    linarith
  have l2 : j < s.basis.len := by
    by_contra hc
    rw [h.clamped.ends j (by omega) hj, ← getLastD_eq_k h.clamped, h.last] at ej
    linarith
  have e2 := g4 (j - o)
  rw [Nat.sub_add_cancel (by omega), ej] at e2
  have hl := g1.length_eq
  unfold Basis.k at e2
  rw [List.getD_eq_getElem _ _ (by omega)] at e2
  rw [← e2]
  exact List.getElem_mem _

theorem derivative_on {s : BSpline ℝ} {n : ℕ} (h : Traj s n) (o : ℕ) (ho : o ≤ s.basis.degree) : (Expr.spl (s.derivative o)).On 0 1 := by
  obtain ⟨g1, g2, g3, g4, g5⟩ := clamped_derivative h.clamped h.wf o ho
  have hlt := h.clamped.lt_len
  refine ⟨g1, g2, ?_, ?_⟩
  · rw [headD_eq_k g1, g4, h.clamped.first _ (by omega), ← headD_eq_k h.clamped, h.first]
  · rw [getLastD_eq_k g1, g4, g5, Nat.sub_add_cancel (by omega), ← getLastD_eq_k h.clamped, h.last]

/-- The jerk of a cubic segment between the knots. -/
theorem jerk_eq {s : BSpline ℝ} (h : Traj s 2) (hd : s.basis.degree = 3) {T t : ℝ} (hT : 0 < T) (h0 : 0 < t) (h1 : t < T)
    (hk : t / T ∉ s.basis.knots) : iteratedDeriv 3 (pos s T) t = (s.derivative 3).eval (t / T) / T ^ 3 := by
  obtain ⟨g1, g2, g3, g4, g5⟩ := clamped_derivative h.clamped h.wf 2 (by omega)
  obtain ⟨-, -, o1, o2⟩ := derivative_on h 2 (by omega)
  obtain ⟨a, b⟩ := phys_mem hT h0 h1
  have sub : (s.derivative 2).basis.knots.count (t / T) = 0 := by
    rw [List.count_eq_zero]
    intro hm
    obtain ⟨j, hj, e⟩ := List.getElem_of_mem hm
    have e2 := g4 j
    have l1 := g1.length_eq
    have l2 := h.clamped.length_eq
    have hlt := h.clamped.lt_len
    unfold Basis.k at e2
    rw [List.getD_eq_getElem _ _ hj, List.getD_eq_getElem _ _ (by omega), e] at e2
    exact hk (e2 ▸ List.getElem_mem _)
  have key : (iteratedDeriv 2 (pos s T)) =ᶠ[nhds t] fun t => (s.derivative 2).eval (t / T) / T ^ 2 := by
    filter_upwards [Ioo_mem_nhds h0 h1] with u hu
    exact h.iteratedDeriv hT hu.1 hu.2
  rw [iteratedDeriv_succ, key.deriv_eq]
  have hder := C51_hasDerivAt (s.derivative 2) g1 g2 (t / T) (by rw [o1]; exact a) (by rw [o2]; exact b) (by rw [sub, g3]; omega)
  have := ((hder.comp t ((hasDerivAt_id t).div_const T)).div_const (T ^ 2)).deriv
  simp only [Function.comp_def, id] at this
  rw [this, ← derivative_succ]
  field_simp

section
variable {m : VelLimit} {L : ToolLim} {s : Fin 3 → BSpline ℝ} {T t τ : ℝ} {skip : Option (ℤ × ℤ)}

theorem tool_geC {s : BSpline ℝ} {n : ℕ} (h : Traj s n) (o : ℕ) (ho : o ≤ s.basis.degree) {c : ℝ} (hi : Imposes (geC (s.derivative o) c) skip 0)
    (hk : skip ≠ none → 0 < τ ∧ τ < 1 ∧ τ ∈ s.basis.knots) (hT : 0 < T) (h0 : 0 < t) (h1 : t < T) (hf : Free skip τ (t / T)) :
    c ≤ (s.derivative o).eval (t / T) := by
  obtain ⟨a, b⟩ := phys_mem hT h0 h1
  have := imposes_le hi ⟨derivative_on h o ho, trivial⟩ (Or.inl trivial)
    (fun hs => Or.inl (mem_knots_derivative h (hk hs).1 (hk hs).2.1 (hk hs).2.2 o ho)) a.le b.le hf
  simp only [geC, Expr.val] at this
  linarith

theorem tool_leC {s : BSpline ℝ} {n : ℕ} (h : Traj s n) (o : ℕ) (ho : o ≤ s.basis.degree) {c : ℝ} (hi : Imposes (leC (s.derivative o) c) skip 0)
    (hk : skip ≠ none → 0 < τ ∧ τ < 1 ∧ τ ∈ s.basis.knots) (hT : 0 < T) (h0 : 0 < t) (h1 : t < T) (hf : Free skip τ (t / T)) :
    (s.derivative o).eval (t / T) ≤ c := by
  obtain ⟨a, b⟩ := phys_mem hT h0 h1
  have := imposes_le hi ⟨derivative_on h o ho, trivial⟩ (Or.inl trivial)
    (fun hs => Or.inl (mem_knots_derivative h (hk hs).1 (hk hs).2.1 (hk hs).2.2 o ho)) a.le b.le hf
  simp only [leC, Expr.val, Expr.sub] at this
  linarith

theorem tool_vel (ht : ∀ i, Traj (s i) 2) (hc : ∀ e ∈ toolVel m L s T, Imposes e skip 0)
    (hk : skip ≠ none → 0 < τ ∧ τ < 1 ∧ ∀ i, τ ∈ (s i).basis.knots) (hT : 0 < T) (h0 : 0 < t) (h1 : t < T) (hf : Free skip τ (t / T)) :
    Spec.velOk m L (fun i => pos (s i) T) t := by
  obtain ⟨a, b⟩ := phys_mem hT h0 h1
  have hd : ∀ i, 1 ≤ (s i).basis.degree := fun i => by have := (ht i).deg; omega
  have hv : ∀ i, deriv (pos (s i) T) t = ((s i).derivative 1).eval (t / T) / T := fun i => (ht i).deriv_phys hT h0 h1
  have ho : ∀ i, (Expr.spl ((s i).derivative 1)).On 0 1 := fun i => derivative_on (ht i) 1 (hd i)
  have hb : skip ≠ none → ∀ i, τ ∈ ((s i).derivative 1).basis.knots :=
    fun hs i => mem_knots_derivative (ht i) (hk hs).1 (hk hs).2.1 ((hk hs).2.2 i) 1 (hd i)
  cases m with
  | machining =>
    unfold toolVel at hc
    constructor
    · intro hz
      simp only [hz, ne_eq, not_false_eq_true, if_true, List.forall_mem_cons] at hc
      have := imposes_le hc.1 ⟨⟨⟨ho 0, ho 0⟩, ho 1, ho 1⟩, trivial⟩ (Or.inl (Or.inl (Or.inl trivial)))
        (fun hs => Or.inl (Or.inl (Or.inl (hb hs 0)))) a.le b.le hf
      simp only [Expr.val, Expr.sub, Expr.sq] at this
      rw [hv, hv]
      refine Real.sqrt_le_iff.2 ⟨abs_nonneg _, ?_⟩
      rw [sq_abs, div_pow, div_pow, ← add_div, div_le_iff₀ (by positivity)]
      linarith
    · intro hz
      simp only [hz, ne_eq, not_true_eq_false, if_false, List.forall_mem_cons] at hc
      have := imposes_le hc.1 ⟨⟨ho 2, ho 2⟩, trivial⟩ (Or.inl (Or.inl trivial))
        (fun hs => Or.inl (Or.inl (hb hs 2))) a.le b.le hf
      simp only [Expr.val, Expr.sub, Expr.sq] at this
      rw [hv]
      refine sq_le_sq.1 ?_
      rw [div_pow, div_le_iff₀ (by positivity)]
      linarith
  | axes =>
    intro i
    simp only [toolVel, List.forall_mem_append, List.forall_mem_map] at hc
    have h1' := tool_geC (ht i) 1 (hd i) (hc.1 i (List.mem_finRange i)) (fun hs => ⟨(hk hs).1, (hk hs).2.1, (hk hs).2.2 i⟩) hT h0 h1 hf
    have h2' := tool_leC (ht i) 1 (hd i) (hc.2 i (List.mem_finRange i)) (fun hs => ⟨(hk hs).1, (hk hs).2.1, (hk hs).2.2 i⟩) hT h0 h1 hf
    rw [hv, le_div_iff₀ hT, div_le_iff₀ hT]
    exact ⟨by linarith, by linarith⟩

theorem tool_acc (ht : ∀ i, Traj (s i) 2) (hc : ∀ e ∈ toolAcc L s T, Imposes e skip 0)
    (hk : skip ≠ none → 0 < τ ∧ τ < 1 ∧ ∀ i, τ ∈ (s i).basis.knots) (hT : 0 < T) (h0 : 0 < t) (h1 : t < T) (hf : Free skip τ (t / T)) :
    Spec.accOk L (fun i => pos (s i) T) t := by
  intro i
  simp only [toolAcc, List.forall_mem_append, List.forall_mem_map] at hc
  have h1' := tool_geC (ht i) 2 (ht i).deg (hc.1 i (List.mem_finRange i)) (fun hs => ⟨(hk hs).1, (hk hs).2.1, (hk hs).2.2 i⟩) hT h0 h1 hf
  have h2' := tool_leC (ht i) 2 (ht i).deg (hc.2 i (List.mem_finRange i)) (fun hs => ⟨(hk hs).1, (hk hs).2.1, (hk hs).2.2 i⟩) hT h0 h1 hf
  have e : iteratedDeriv 2 (pos (s i) T) t = ((s i).derivative 2).eval (t / T) / T ^ 2 := (ht i).iteratedDeriv hT h0 h1
  rw [e, le_div_iff₀ (by positivity), div_le_iff₀ (by positivity)]
  exact ⟨by linarith, by linarith⟩

theorem tool_jerk (ht : ∀ i, Traj (s i) 2) (hd : ∀ i, (s i).basis.degree = 3) (hc : ∀ e ∈ toolJerk L s T, Imposes e none 0) (hT : 0 < T)
    (h0 : 0 < t) (h1 : t < T) (hn : ∀ i, t / T ∉ (s i).basis.knots) : Spec.jerkOk L (fun i => pos (s i) T) t := by
  intro i
  simp only [toolJerk, List.forall_mem_append, List.forall_mem_map] at hc
  have h1' := tool_geC (τ := 0) (ht i) 3 (hd i).ge (hc.1 i (List.mem_finRange i)) (fun hs => (hs rfl).elim) hT h0 h1 (Or.inl rfl)
  have h2' := tool_leC (τ := 0) (ht i) 3 (hd i).ge (hc.2 i (List.mem_finRange i)) (fun hs => (hs rfl).elim) hT h0 h1 (Or.inl rfl)
  have e := jerk_eq (ht i) (hd i) hT h0 h1 (hn i)
  simp only [e]
  rw [le_div_iff₀ (by positivity), div_le_iff₀ (by positivity)]
  exact ⟨by linarith, by linarith⟩

end

/-! ## The skipped coefficients are the values at the ends -/

/-- No spline of the expression has more knots at the end than needed. -/
def Tail : Expr ℝ → Prop
  | .num _ => True
  | .spl s => s.basis.knots.count 1 ≤ s.basis.degree + 1
  | .neg e => Tail e
  | .add e f => Tail e ∧ Tail f
  | .mul e f => Tail e ∧ Tail f

theorem runs_tail {e : Expr ℝ} {v : PyVal ℝ} (hr : e.Runs v) (h : Tail e) :
    match v with
    | .num _ => True
    | .spl r => r.basis.knots.count 1 ≤ r.basis.degree + 1 := by
  have comb : ∀ (a b : Basis ℝ) (d : ℕ), a.degree ≤ d → b.degree ≤ d → a.knots.count 1 ≤ a.degree + 1 → b.knots.count 1 ≤ b.degree + 1 →
      (a.combine b d).knots.count 1 ≤ d + 1 := by
    intro a b d ha hb h1 h2
    rw [(C08_multiplicity a b d ha hb).2.2]
    unfold neededMult
    split_ifs <;> omega
  induction hr with
  | num c => trivial
  | spl s => exact h
  | negNum _ ih => trivial
  | negSpl _ ih => exact ih h
  | addNN _ _ ih1 ih2 => trivial
  | mulNN _ _ ih1 ih2 => trivial
  | addSN _ _ ih1 ih2 => exact ih1 h.1
  | mulSN _ _ ih1 ih2 => exact ih1 h.1
  | addNS _ _ ih1 ih2 => exact ih2 h.2
  | mulNS _ _ ih1 ih2 => exact ih2 h.2
  | addSS _ _ _ _ ih1 ih2 => exact comb _ _ _ (le_max_left _ _) (le_max_right _ _) (ih1 h.1) (ih2 h.2)
  | mulSS _ _ _ ih1 ih2 => exact comb _ _ _ (Nat.le_add_right _ _) (Nat.le_add_left _ _) (ih1 h.1) (ih2 h.2)

theorem stop_of_count {b : Basis ℝ} (hb : b.Clamped) (hl : b.knots.getLastD 0 = 1) (hc : b.knots.count 1 ≤ b.degree + 1) :
    b.k (b.len - 1) < b.k b.len := by
  have hlt := hb.lt_len
  have hlen := hb.length_eq
  refine lt_of_le_of_ne (hb.mono (by omega)) fun e => ?_
  have h1 : b.k b.len = 1 := by rw [← getLastD_eq_k hb, hl]
  have hd : b.knots.drop (b.len - 1) = List.replicate (b.degree + 2) 1 := by
    rw [List.eq_replicate_iff]
    refine ⟨by simp; omega, fun a ha => ?_⟩
    obtain ⟨j, hj, rfl⟩ := List.getElem_of_mem ha
    rw [List.length_drop] at hj
    rw [List.getElem_drop]
    have : b.k (b.len - 1 + j) = 1 := by
      rcases Nat.eq_zero_or_pos j with rfl | hp
      · rw [add_zero, e, h1]
      · rw [hb.ends _ (by omega) (by omega), h1]
    unfold Basis.k at this
    rwa [List.getD_eq_getElem _ _ (by omega)] at this
  have : b.degree + 2 ≤ b.knots.count 1 := by
    have h2 := (List.drop_sublist (b.len - 1) b.knots).count_le 1
    rwa [hd, List.count_replicate_self] at h2
  omega

/-- The constraint with a skipped coefficient, and the value at that end, give the constraint. -/
theorem imposes_all {e : Expr ℝ} {skip : Option (ℤ × ℤ)} {ub : ℝ} (h : Imposes e skip ub) (ho : e.On 0 1) (hs : e.hasSpline) (ht : Tail e)
    (hsk : skip = none ∨ skip = some (1, 0) ∧ e.val 0 ≤ ub ∨ skip = some (0, 1) ∧ e.val 1 ≤ ub) : Imposes e none ub := by
  obtain ⟨v, hr, hv⟩ := h
  obtain ⟨r, rfl⟩ := Expr.runs_spline hr hs
  obtain ⟨g1, g2, g3, g4, g5⟩ := Expr.runs_means hr ho
  have hlen : r.coeffs.length = r.basis.len := g2
  have hlt := g1.lt_len
  obtain ⟨c0, c1⟩ := C03_endpoints r g1 g2 (stop_of_count g1 g4 (runs_tail hr ht))
  rw [g3, g5 0 le_rfl zero_le_one] at c0
  rw [g4, g5 1 zero_le_one le_rfl] at c1
  refine ⟨_, hr, fun c hc => ?_⟩
  simp only [OptiLayer.kept] at hc
  rcases hsk with rfl | ⟨rfl, hval⟩ | ⟨rfl, hval⟩
  · exact hv c hc
  · simp only at hv
    rw [show (some ((1 : ℤ), (0 : ℤ))) = some (((1 : ℕ) : ℤ), ((0 : ℕ) : ℤ)) by simp, OptiLayer.kept_spec _ 1 0 (by omega), Nat.sub_zero,
      List.take_length] at hv
    cases hcs : r.coeffs with
    | nil => rw [hcs] at hc; simp at hc
    | cons a l =>
      rw [hcs] at hc hv c0
      rcases List.mem_cons.1 hc with rfl | hm
      · simp only [List.headD_cons] at c0
        rwa [c0] at hval
      · exact hv c hm
  · simp only at hv
    rw [show (some ((0 : ℤ), (1 : ℤ))) = some (((0 : ℕ) : ℤ), ((1 : ℕ) : ℤ)) by simp, OptiLayer.kept_spec _ 0 1 (by omega), List.drop_zero,
      ← List.dropLast_eq_take] at hv
    have hne : r.coeffs ≠ [] := fun e => by rw [e] at hc; simp at hc
    rw [← List.dropLast_append_getLast hne, List.mem_append, List.mem_singleton] at hc
    rcases hc with hm | rfl
    · exact hv c hm
    · rw [List.getLastD_eq_getLast?, List.getLast?_eq_some_getLast hne] at c1
      simp only [Option.getD_some] at c1
      rwa [c1] at hval

/-- The values of velocities and accelerations at `x` are within the limits. -/
def EndOk (m : VelLimit) (L : ToolLim) (v a : Fin 3 → ℝ) : Prop :=
  (match m with
    | .machining => (L.vmax 0 ≠ 0 → v 0 ^ 2 + v 1 ^ 2 ≤ L.vmax 0 ^ 2) ∧ (L.vmax 0 = 0 → |v 2| ≤ |L.vmax 2|)
    | .axes => ∀ i, L.vmin i ≤ v i ∧ v i ≤ L.vmax i) ∧
  ∀ i, L.amin i ≤ a i ∧ a i ≤ L.amax i

theorem Traj.count_derivative {s : BSpline ℝ} {n : ℕ} (h : Traj s n) (o : ℕ) (ho : o ≤ n) :
    (s.derivative o).basis.knots.count 1 ≤ (s.derivative o).basis.degree + 1 :=
  (Traj.iterate (n := o) (m := n - o) (by rw [Nat.add_sub_cancel' ho]; exact h)).tail

theorem tool_full {m : VelLimit} {L : ToolLim} {s : Fin 3 → BSpline ℝ} {T : ℝ} {skip : Option (ℤ × ℤ)} (ht : ∀ i, Traj (s i) 2)
    (hT : 0 < T) (hc : ∀ e ∈ toolVel m L s T ++ toolAcc L s T, Imposes e skip 0) {x : ℝ}
    (hx : skip = some (1, 0) ∧ x = 0 ∨ skip = some (0, 1) ∧ x = 1)
    (he : EndOk m L (fun i => ((s i).derivative 1).eval x / T) (fun i => ((s i).derivative 2).eval x / T ^ 2)) :
    ∀ e ∈ toolVel m L s T ++ toolAcc L s T, Imposes e none 0 := by
  have main : ∀ e : Expr ℝ, Imposes e skip 0 → e.On 0 1 → e.hasSpline → Tail e → e.val x ≤ 0 → Imposes e none 0 := by
    intro e h1 h2 h3 h4 h5
    refine imposes_all h1 h2 h3 h4 ?_
    rcases hx with ⟨h, rfl⟩ | ⟨h, rfl⟩
    · exact Or.inr (Or.inl ⟨h, h5⟩)
    · exact Or.inr (Or.inr ⟨h, h5⟩)
  have hd : ∀ i, 2 ≤ (s i).basis.degree := fun i => (ht i).deg
  have ho : ∀ i, (Expr.spl ((s i).derivative 1)).On 0 1 := fun i => derivative_on (ht i) 1 (by have := hd i; omega)
  have ho2 : ∀ i, (Expr.spl ((s i).derivative 2)).On 0 1 := fun i => derivative_on (ht i) 2 (hd i)
  have c1 : ∀ i, Tail (Expr.spl ((s i).derivative 1)) := fun i => (ht i).count_derivative 1 (by omega)
  have c2 : ∀ i, Tail (Expr.spl ((s i).derivative 2)) := fun i => (ht i).count_derivative 2 le_rfl
  rw [List.forall_mem_append] at hc ⊢
  constructor
  · have hv := he.1
    have hc := hc.1
    cases m with
    | machining =>
      unfold toolVel at hc ⊢
      by_cases hz : L.vmax 0 = 0
      · simp only [hz, ne_eq, not_true_eq_false, if_false, List.forall_mem_cons, List.not_mem_nil, false_imp_iff, implies_true, and_true] at hc ⊢
        refine main _ hc ⟨⟨ho 2, ho 2⟩, trivial⟩ (Or.inl (Or.inl trivial)) ⟨⟨c1 2, c1 2⟩, trivial⟩ ?_
        have := sq_le_sq.2 (hv.2 hz)
        rw [div_pow, div_le_iff₀ (by positivity)] at this
        simp only [Expr.val, Expr.sub, Expr.sq]
        linarith
      · simp only [hz, ne_eq, not_false_eq_true, if_true, List.forall_mem_cons, List.not_mem_nil, false_imp_iff, implies_true, and_true] at hc ⊢
        refine main _ hc ⟨⟨⟨ho 0, ho 0⟩, ho 1, ho 1⟩, trivial⟩ (Or.inl (Or.inl (Or.inl trivial))) ⟨⟨⟨c1 0, c1 0⟩, c1 1, c1 1⟩, trivial⟩ ?_
        have := hv.1 hz
        rw [div_pow, div_pow, ← add_div, div_le_iff₀ (by positivity)] at this
        simp only [Expr.val, Expr.sub, Expr.sq]
        linarith
    | axes =>
      simp only [toolVel, List.forall_mem_append, List.forall_mem_map] at hc ⊢
      refine ⟨fun i hi => main _ (hc.1 i hi) ⟨ho i, trivial⟩ (Or.inl trivial) ⟨c1 i, trivial⟩ ?_,
        fun i hi => main _ (hc.2 i hi) ⟨ho i, trivial⟩ (Or.inl trivial) ⟨c1 i, trivial⟩ ?_⟩
      · have := (hv i).1
        rw [le_div_iff₀ hT] at this
        simp only [geC, Expr.val]
        linarith
      · have := (hv i).2
        rw [div_le_iff₀ hT] at this
        simp only [leC, Expr.val, Expr.sub]
        linarith
  · have hc := hc.2
    simp only [toolAcc, List.forall_mem_append, List.forall_mem_map] at hc ⊢
    refine ⟨fun i hi => main _ (hc.1 i hi) ⟨ho2 i, trivial⟩ (Or.inl trivial) ⟨c2 i, trivial⟩ ?_,
      fun i hi => main _ (hc.2 i hi) ⟨ho2 i, trivial⟩ (Or.inl trivial) ⟨c2 i, trivial⟩ ?_⟩
    · have := (he.2 i).1
      rw [le_div_iff₀ (by positivity)] at this
      simp only [geC, Expr.val]
      linarith
    · have := (he.2 i).2
      rw [div_le_iff₀ (by positivity)] at this
      simp only [leC, Expr.val, Expr.sub]
      linarith

/-! ## Properties -/

/-- A segment of a plan: the splines of the three axes and the motion time. -/
structure ToolSeg where
  s : Fin 3 → BSpline ℝ
  T : ℝ

/-- The splines have degree three and no repeated interior knots (tool.py:41-42, vehicle.py:80-87), and the motion time is positive. -/
def ToolSeg.Good (g : ToolSeg) : Prop := (∀ i, Traj (g.s i) 2 ∧ (g.s i).basis.degree = 3) ∧ 0 < g.T

/-- Velocity and acceleration of an axis at the dimensionless time `x` of a segment. -/
noncomputable def ToolSeg.vel (g : ToolSeg) (x : ℝ) (i : Fin 3) : ℝ := ((g.s i).derivative 1).eval x / g.T
noncomputable def ToolSeg.acc (g : ToolSeg) (x : ℝ) (i : Fin 3) : ℝ := ((g.s i).derivative 2).eval x / g.T ^ 2

/-- The plan satisfies the constraints of all segments, gcodeproblem.py:74-80. -/
def PlanOk (m : VelLimit) (L : ToolLim) (plan : List ToolSeg) : Prop :=
  ∀ k (h : k < plan.length), ToolOk m L plan[k].s plan[k].T (segSkip plan.length k)

/-- **C134** (partial: the velocity in the sense of `Spec.velOk`, which leaves out the z-axis during machining).  If the tool starts with velocity and
acceleration within the limits, and the last of several segments ends at rest, then at every time of every segment velocity and acceleration are within the
limits, and so is the jerk at all times between the knots. -/
theorem C134_limits_partial (m : VelLimit) (L : ToolLim) (plan : List ToolSeg) (hg : ∀ g ∈ plan, g.Good) (hp : PlanOk m L plan)
    (hstart : ∀ g, plan.head? = some g → EndOk m L (g.vel 0) (g.acc 0))
    (hend : ∀ g, plan.getLast? = some g → (∀ i, g.vel 1 i = 0) ∧ ∀ i, g.acc 1 i = 0)
    (hv : m = .axes → ∀ i, L.vmin i ≤ 0 ∧ 0 ≤ L.vmax i) (ha : ∀ i, L.amin i ≤ 0 ∧ 0 ≤ L.amax i) :
    ∀ g ∈ plan, ∀ t, 0 < t → t < g.T → Spec.velOk m L (fun i => pos (g.s i) g.T) t ∧ Spec.accOk L (fun i => pos (g.s i) g.T) t ∧
      ((∀ i, t / g.T ∉ (g.s i).basis.knots) → Spec.jerkOk L (fun i => pos (g.s i) g.T) t) := by
  intro g hm t h0 h1
  obtain ⟨k, hk, rfl⟩ := List.getElem_of_mem hm
  have hG := hg _ hm
  have ht : ∀ i, Traj (plan[k].s i) 2 := fun i => (hG.1 i).1
  have hc := hp k hk
  have full : ∀ e ∈ toolVel m L plan[k].s plan[k].T ++ toolAcc L plan[k].s plan[k].T, Imposes e none 0 := by
    unfold segSkip at hc
    by_cases hk0 : k = 0
    · subst hk0
      rw [if_pos rfl] at hc
      exact tool_full ht hG.2 hc.1 (Or.inl ⟨rfl, rfl⟩) (hstart plan[0] (by rw [List.head?_eq_getElem?, List.getElem?_eq_getElem hk]))
    · rw [if_neg hk0] at hc
      by_cases hl : k + 1 = plan.length
      · rw [if_pos hl] at hc
        refine tool_full ht hG.2 hc.1 (Or.inr ⟨rfl, rfl⟩) ?_
        obtain ⟨e1, e2⟩ := hend plan[k] (by rw [List.getLast?_eq_getElem?, ← hl, Nat.add_sub_cancel, List.getElem?_eq_getElem hk])
        have f1 : (fun i => ((plan[k].s i).derivative 1).eval 1 / plan[k].T) = fun _ => 0 := funext e1
        have f2 : (fun i => ((plan[k].s i).derivative 2).eval 1 / plan[k].T ^ 2) = fun _ => 0 := funext e2
        rw [f1, f2]
        refine ⟨?_, ha⟩
        cases m with
        | machining => exact ⟨fun _ => by norm_num; positivity, fun _ => by rw [abs_zero]; exact abs_nonneg _⟩
        | axes => exact hv rfl
      · rw [if_neg hl] at hc
        exact hc.1
  rw [List.forall_mem_append] at full
  exact ⟨tool_vel (τ := 0) ht full.1 (fun h => (h rfl).elim) hG.2 h0 h1 (Or.inl rfl),
    tool_acc (τ := 0) ht full.2 (fun h => (h rfl).elim) hG.2 h0 h1 (Or.inl rfl),
    fun hn => tool_jerk ht (fun i => (hG.1 i).2) hc.2 hG.2 h0 h1 hn⟩

/-- **C134** (partial: without assumptions on the start).  In the segments between the first and the last one, and in the first one after a break point of the
splines, velocity and acceleration are within the limits; the jerk always is, between the knots. -/
theorem C134_later_partial (m : VelLimit) (L : ToolLim) (plan : List ToolSeg) (hg : ∀ g ∈ plan, g.Good) (hp : PlanOk m L plan)
    (k : ℕ) (hk : k < plan.length) (τ : ℝ) (hτ : k = 0 → 0 < τ ∧ τ < 1 ∧ ∀ i, τ ∈ (plan[k].s i).basis.knots)
    (hl : k ≠ 0 → k + 1 ≠ plan.length) (t : ℝ) (h0 : 0 < t) (h1 : t < plan[k].T) :
    ((k = 0 → τ < t / plan[k].T) →
      Spec.velOk m L (fun i => pos (plan[k].s i) plan[k].T) t ∧ Spec.accOk L (fun i => pos (plan[k].s i) plan[k].T) t) ∧
    ((∀ i, t / plan[k].T ∉ (plan[k].s i).basis.knots) → Spec.jerkOk L (fun i => pos (plan[k].s i) plan[k].T) t) := by
  have hG := hg _ (List.getElem_mem hk)
  have ht : ∀ i, Traj (plan[k].s i) 2 := fun i => (hG.1 i).1
  have hc := hp k hk
  refine ⟨fun hx => ?_, fun hn => tool_jerk ht (fun i => (hG.1 i).2) hc.2 hG.2 h0 h1 hn⟩
  have hc1 := hc.1
  rw [List.forall_mem_append] at hc1
  have hf : Free (segSkip plan.length k) τ (t / plan[k].T) := by
    unfold segSkip
    by_cases hk0 : k = 0
    · rw [if_pos hk0]; exact Or.inr (Or.inl ⟨rfl, (hτ hk0).1, hx hk0⟩)
    · rw [if_neg hk0, if_neg (hl hk0)]; exact Or.inl rfl
  have hb : segSkip plan.length k ≠ none → 0 < τ ∧ τ < 1 ∧ ∀ i, τ ∈ (plan[k].s i).basis.knots := by
    intro hs
    by_cases hk0 : k = 0
    · exact hτ hk0
    · unfold segSkip at hs
      rw [if_neg hk0, if_neg (hl hk0)] at hs
      exact (hs rfl).elim
  exact ⟨tool_vel ht hc1.1 hb hG.2 h0 h1 hf, tool_acc ht hc1.2 hb hG.2 h0 h1 hf⟩

/-- **C134** The limits come from the bounds of the user: a common bound holds for all axes (a common velocity for the first two only), otherwise each axis has
its own one. -/
theorem C134_bounds (b : Bounds) :
    (∀ v, b "vmin" = some v → (toolLim b).vmin 0 = v ∧ (toolLim b).vmin 1 = v) ∧
    (∀ v, b "vmax" = some v → (toolLim b).vmax 0 = v ∧ (toolLim b).vmax 1 = v) ∧
    (∀ v, b "amin" = some v → ∀ i, (toolLim b).amin i = v) ∧ (∀ v, b "amax" = some v → ∀ i, (toolLim b).amax i = v) ∧
    (∀ v, b "jmin" = some v → ∀ i, (toolLim b).jmin i = v) ∧ (∀ v, b "jmax" = some v → ∀ i, (toolLim b).jmax i = v) ∧
    (∀ v, b "vzmin" = some v → (toolLim b).vmin 2 = v) ∧ (∀ v, b "vzmax" = some v → (toolLim b).vmax 2 = v) ∧
    (b "vmin" = none → (∀ v, b "vxmin" = some v → (toolLim b).vmin 0 = v) ∧ ∀ v, b "vymin" = some v → (toolLim b).vmin 1 = v) ∧
    (b "vmax" = none → (∀ v, b "vxmax" = some v → (toolLim b).vmax 0 = v) ∧ ∀ v, b "vymax" = some v → (toolLim b).vmax 1 = v) ∧
    (b "amin" = none → (∀ v, b "axmin" = some v → (toolLim b).amin 0 = v) ∧ (∀ v, b "aymin" = some v → (toolLim b).amin 1 = v) ∧
      ∀ v, b "azmin" = some v → (toolLim b).amin 2 = v) ∧
    (b "amax" = none → (∀ v, b "axmax" = some v → (toolLim b).amax 0 = v) ∧ (∀ v, b "aymax" = some v → (toolLim b).amax 1 = v) ∧
      ∀ v, b "azmax" = some v → (toolLim b).amax 2 = v) ∧
    (b "jmin" = none → (∀ v, b "jxmin" = some v → (toolLim b).jmin 0 = v) ∧ (∀ v, b "jymin" = some v → (toolLim b).jmin 1 = v) ∧
      ∀ v, b "jzmin" = some v → (toolLim b).jmin 2 = v) ∧
    (b "jmax" = none → (∀ v, b "jxmax" = some v → (toolLim b).jmax 0 = v) ∧ (∀ v, b "jymax" = some v → (toolLim b).jmax 1 = v) ∧
      ∀ v, b "jzmax" = some v → (toolLim b).jmax 2 = v) := by
  refine ⟨?_, ?_, ?_, ?_, ?_, ?_, ?_, ?_, ?_, ?_, ?_, ?_, ?_, ?_⟩
  · intro v h; simp [toolLim, holoLim, h]
  · intro v h; simp [toolLim, holoLim, h]
  · intro v h i; fin_cases i <;> simp [toolLim, holoLim, h]
  · intro v h i; fin_cases i <;> simp [toolLim, holoLim, h]
  · intro v h i; fin_cases i <;> simp [toolLim, holoLim, h]
  · intro v h i; fin_cases i <;> simp [toolLim, holoLim, h]
  · intro v h; simp [toolLim, lim, h]
  · intro v h; simp [toolLim, lim, h]
  · intro h; exact ⟨fun v e => by simp [toolLim, holoLim, h, e], fun v e => by simp [toolLim, holoLim, h, e]⟩
  · intro h; exact ⟨fun v e => by simp [toolLim, holoLim, h, e], fun v e => by simp [toolLim, holoLim, h, e]⟩
  all_goals
    intro h
    exact ⟨fun v e => by simp [toolLim, holoLim, h, e], fun v e => by simp [toolLim, holoLim, h, e],
      fun v e => by simp [toolLim, holoLim, h, e]⟩

/-! ### Violations -/

theorem imposes_none {e : Expr ℝ} {ub : ℝ} : Imposes e none ub ↔ e.Imposed ub := by
  constructor
  · rintro ⟨v, h1, h2⟩
    exact ⟨v, h1, by cases v <;> exact h2⟩
  · rintro ⟨v, h1, h2⟩
    exact ⟨v, h1, by cases v <;> exact h2⟩

theorem imposes_skip {e : Expr ℝ} {ub : ℝ} (h : e.Imposed ub) (n k : ℕ) : Imposes e (segSkip n k) ub := by
  obtain ⟨v, h1, h2⟩ := h
  refine ⟨v, h1, ?_⟩
  cases v with
  | num c => trivial
  | spl r =>
    intro c hc
    refine h2 c ?_
    unfold segSkip at hc
    split_ifs at hc
    · rw [show (some ((1 : ℤ), (0 : ℤ))) = some (((1 : ℕ) : ℤ), ((0 : ℕ) : ℤ)) by simp, OptiLayer.kept_spec _ 1 0 (by omega)] at hc
      exact List.mem_of_mem_take (List.mem_of_mem_drop hc)
    · rw [show (some ((0 : ℤ), (1 : ℤ))) = some (((0 : ℕ) : ℤ), ((1 : ℕ) : ℤ)) by simp, OptiLayer.kept_spec _ 0 1 (by omega)] at hc
      exact List.mem_of_mem_take (List.mem_of_mem_drop hc)
    · exact hc

/-- An axis that moves with constant speed. -/
noncomputable def line3 (c : ℝ) : BSpline ℝ := ⟨Bz 3, [0, c / 3, 2 * c / 3, c]⟩

theorem line3_d1 (c : ℝ) : (line3 c).derivative 1 = ⟨Bz 2, [c, c, c]⟩ := by
  unfold line3
  rw [Bz_derivative rfl]
  simp only [List.range_succ, List.range_zero, List.nil_append, List.map_cons, List.map_nil, List.cons_append,
    List.getD_cons_succ, List.getD_cons_zero]
  congr 2
  · push_cast; ring
  · congr 1
    · push_cast; ring
    · congr 1; push_cast; ring

theorem line3_d2 (c : ℝ) : (line3 c).derivative 2 = ⟨Bz 1, [0, 0]⟩ := by
  rw [derivative_succ, line3_d1, Bz_derivative rfl]
  norm_num [List.range_succ]

theorem line3_d3 (c : ℝ) : (line3 c).derivative 3 = ⟨Bz 0, [0]⟩ := by
  rw [derivative_succ, line3_d2, Bz_derivative rfl]
  norm_num [List.range_succ]

/-- **C134** is violated during machining: for any limits, also for the z-axis, a plan that meets all constraints can move the z-axis at any speed. -/
theorem C134_z_violated (L : ToolLim) (hx : L.vmax 0 ≠ 0) (ha : ∀ i, L.amin i ≤ 0 ∧ 0 ≤ L.amax i) (hj : ∀ i, L.jmin i ≤ 0 ∧ 0 ≤ L.jmax i)
    (c : ℝ) : ∃ plan, (∀ g ∈ plan, g.Good) ∧ PlanOk .machining L plan ∧ plan ≠ [] ∧
      ∀ g ∈ plan, ∀ t, 0 < t → t < g.T → deriv (pos (g.s 2) g.T) t = c := by
  have tr : ∀ c, Traj (line3 c) 2 := fun c => (Bz_traj rfl : Traj (line3 c) 3).mono (by omega)
  refine ⟨[⟨![line3 0, line3 0, line3 c], 1⟩], ?_, ?_, by simp, ?_⟩
  · simp only [List.forall_mem_cons, List.not_mem_nil, false_imp_iff, implies_true, and_true]
    refine ⟨fun i => ?_, one_pos⟩
    fin_cases i <;> exact ⟨tr _, rfl⟩
  · intro k hk
    simp only [List.length_singleton, Nat.lt_one_iff] at hk
    subst hk
    have d2 : ∀ i, ((![line3 0, line3 0, line3 c] : Fin 3 → BSpline ℝ) i).derivative 2 = ⟨Bz 1, [0, 0]⟩ := by
      intro i; fin_cases i <;> exact line3_d2 _
    have d3 : ∀ i, ((![line3 0, line3 0, line3 c] : Fin 3 → BSpline ℝ) i).derivative 3 = ⟨Bz 0, [0]⟩ := by
      intro i; fin_cases i <;> exact line3_d3 _
    refine ⟨fun e he => imposes_skip ?_ _ _, fun e he => imposes_none.2 ?_⟩
    · rcases List.mem_append.1 he with he | he
      · simp only [toolVel, hx, ne_eq, not_false_eq_true, if_true, List.mem_singleton, List.getElem_cons_zero, Matrix.cons_val_zero,
          Matrix.cons_val_one, line3_d1] at he
        subst he
        refine Expr.AllBz.imposed_pow (D := 4) ?_ rfl (by norm_num) (fun j => if j = 0 then -(L.vmax 0 ^ 2) else 0) (fun x h0 h1 => ?_) fun w w0 w1 w2 => ?_
        · exact ⟨⟨⟨⟨rfl, rfl⟩, rfl, rfl⟩, ⟨rfl, rfl⟩, rfl, rfl⟩, trivial⟩
        · simp only [Expr.val, Expr.sub, Expr.sq, Bz_eval (p := 2) (c := [0, 0, 0]) rfl h0 h1]
          norm_num [Finset.sum_range_succ]
        · simp only [Finset.sum_range_succ, Finset.range_zero, Finset.sum_empty]
          norm_num [w0]
          positivity
      · simp only [toolAcc, List.mem_append, List.mem_map, List.mem_finRange, true_and, List.getElem_cons_zero, d2] at he
        rcases he with ⟨i, rfl⟩ | ⟨i, rfl⟩
        · exact geC_imposed (by have := ha i; simp; linarith)
        · exact leC_imposed (by have := ha i; simp; linarith)
    · simp only [toolJerk, List.mem_append, List.mem_map, List.mem_finRange, true_and, List.getElem_cons_zero, d3] at he
      rcases he with ⟨i, rfl⟩ | ⟨i, rfl⟩
      · exact geC_imposed (by have := hj i; simp; linarith)
      · exact leC_imposed (by have := hj i; simp; linarith)
  · simp only [List.forall_mem_cons, List.not_mem_nil, false_imp_iff, implies_true, and_true]
    intro t h0 h1
    have := (tr c).deriv_phys one_pos h0 h1
    show deriv (pos (line3 c) 1) t = c
    unfold pos
    rw [this, line3_d1, div_one, div_one, Bz_eval rfl h0.le h1.le]
    simp only [Finset.sum_range_succ, Finset.range_zero, Finset.sum_empty, bern]
    norm_num [Nat.choose]
    ring

/-- An axis that starts with acceleration `3/2`. -/
noncomputable def hard : BSpline ℝ := ⟨Bz 3, [0, -(1 / 12), 1 / 12, 1 / 6]⟩

theorem hard_d1 : hard.derivative 1 = ⟨Bz 2, [-(1 / 4), 1 / 2, 1 / 4]⟩ := by
  unfold hard; rw [Bz_derivative rfl]; norm_num [List.range_succ]

theorem hard_d2 : hard.derivative 2 = ⟨Bz 1, [3 / 2, -(1 / 2)]⟩ := by
  rw [derivative_succ, hard_d1, Bz_derivative rfl]; norm_num [List.range_succ]

theorem hard_d3 : hard.derivative 3 = ⟨Bz 0, [-2]⟩ := by
  rw [derivative_succ, hard_d2, Bz_derivative rfl]; norm_num [List.range_succ]

/-- The plan with this axis. -/
noncomputable def hardSeg : ToolSeg := ⟨![hard, line3 0, line3 0], 1⟩

theorem hardSeg_good : hardSeg.Good := by
  refine ⟨fun i => ?_, one_pos⟩
  fin_cases i
  · exact ⟨(Bz_traj rfl : Traj hard 3).mono (by omega), rfl⟩
  · exact ⟨(Bz_traj rfl : Traj (line3 0) 3).mono (by omega), rfl⟩
  · exact ⟨(Bz_traj rfl : Traj (line3 0) 3).mono (by omega), rfl⟩

theorem hardSeg_ok : PlanOk .machining (toolLim fun _ => none) [hardSeg] := by
  have k2 : ∀ i, (toolLim fun _ => none).amin i = -1 ∧ (toolLim fun _ => none).amax i = 1 ∧ (toolLim fun _ => none).jmin i = -2 ∧
      (toolLim fun _ => none).jmax i = 2 := by
    intro i; fin_cases i <;> simp [toolLim, holoLim]
  have k0 : (toolLim fun _ => none).vmax 0 = 1 / 2 := by simp [toolLim, holoLim]
  intro k hk
  simp only [List.length_singleton, Nat.lt_one_iff] at hk
  subst hk
  refine ⟨fun e he => ?_, fun e he => imposes_none.2 ?_⟩
  · rcases List.mem_append.1 he with he | he
    · refine imposes_skip ?_ _ _
      have hz : (toolLim fun _ => none).vmax 0 ≠ 0 := by rw [k0]; norm_num
      unfold toolVel at he
      simp only at he
      rw [if_pos hz] at he
      simp only [List.mem_singleton, List.getElem_cons_zero, hardSeg, Matrix.cons_val_zero, Matrix.cons_val_one, line3_d1, hard_d1, k0] at he
      subst he
      refine Expr.AllBz.imposed (D := 4) ?_ rfl (by norm_num) [-(3 / 16), -(3 / 8), -(5 / 48), -(1 / 8), -(3 / 16)] (fun x h0 h1 => ?_) fun i hi => ?_
      · exact ⟨⟨⟨⟨rfl, rfl⟩, rfl, rfl⟩, ⟨rfl, rfl⟩, rfl, rfl⟩, trivial⟩
      · simp only [Expr.val, Expr.sub, Expr.sq, Bz_eval (p := 2) (c := [0, 0, 0]) rfl h0 h1,
          Bz_eval (p := 2) (c := [-(1 / 4), 1 / 2, 1 / 4]) rfl h0 h1]
        simp only [Finset.sum_range_succ, Finset.range_zero, Finset.sum_empty, bern]
        norm_num [Nat.choose]
        ring
      · have : i = 0 ∨ i = 1 ∨ i = 2 ∨ i = 3 ∨ i = 4 := by omega
        rcases this with rfl | rfl | rfl | rfl | rfl <;> norm_num
    · have lin : ∀ i : Fin 3, i ≠ 0 → ((hardSeg.s i).derivative 2) = ⟨Bz 1, [0, 0]⟩ := by
        intro i hi; fin_cases i
        · exact (hi rfl).elim
        · exact line3_d2 0
        · exact line3_d2 0
      have first : (hardSeg.s 0).derivative 2 = ⟨Bz 1, [3 / 2, -(1 / 2)]⟩ := hard_d2
      simp only [toolAcc, List.mem_append, List.mem_map, List.mem_finRange, true_and, List.getElem_cons_zero, (k2 _).1, (k2 _).2.1] at he
      rcases he with ⟨i, rfl⟩ | ⟨i, rfl⟩
      · refine imposes_skip ?_ _ _
        by_cases hi : i = 0
        · subst hi; rw [first]; exact geC_imposed (by simp only [hardSeg]; norm_num)
        · rw [lin i hi]; exact geC_imposed (by simp only [hardSeg]; norm_num)
      · by_cases hi : i = 0
        · subst hi; rw [first]
          refine ⟨_, .addSN (.spl _) (.negNum (.num _)), fun c hc => ?_⟩
          simp only [segSkip, if_true] at hc
          rw [show (some ((1 : ℤ), (0 : ℤ))) = some (((1 : ℕ) : ℤ), ((0 : ℕ) : ℤ)) by simp, OptiLayer.kept_spec _ 1 0 (by omega)] at hc
          simp [BSpline.addNum, hardSeg] at hc
          rw [hc]; norm_num
        · refine imposes_skip ?_ _ _
          rw [lin i hi]; exact leC_imposed (by simp only [hardSeg]; norm_num)
  · have d3 : ∀ i : Fin 3, ((hardSeg.s i).derivative 3) = ⟨Bz 0, [if i = 0 then -2 else 0]⟩ := by
      intro i; fin_cases i
      · exact hard_d3
      · exact line3_d3 0
      · exact line3_d3 0
    simp only [toolJerk, List.mem_append, List.mem_map, List.mem_finRange, true_and, List.getElem_cons_zero, (k2 _).2.2.1, (k2 _).2.2.2, d3] at he
    rcases he with ⟨i, rfl⟩ | ⟨i, rfl⟩
    · refine geC_imposed ?_
      by_cases hi : i = 0 <;> simp [hi, hardSeg]
    · refine leC_imposed ?_
      by_cases hi : i = 0 <;> simp [hi, hardSeg]

/-- **C134** is violated at the start: with the default limits a plan that meets all constraints accelerates beyond the limit during a quarter of the time. -/
theorem C134_start_violated : ∃ g : ToolSeg, g.Good ∧ PlanOk .machining (toolLim fun _ => none) [g] ∧
    ∀ t, 0 < t → t < g.T / 4 → (toolLim fun _ => none).amax 0 < iteratedDeriv 2 (pos (g.s 0) g.T) t := by
  refine ⟨hardSeg, hardSeg_good, hardSeg_ok, fun t h0 h1 => ?_⟩
  have h1' : t < 1 / 4 := h1
  have e : iteratedDeriv 2 (pos (hardSeg.s 0) hardSeg.T) t = (hard.derivative 2).eval (t / 1) / 1 ^ 2 :=
    (hardSeg_good.1 0).1.iteratedDeriv one_pos h0 (show t < 1 by linarith)
  rw [e, hard_d2, div_one, Bz_eval rfl h0.le (by linarith)]
  simp only [Finset.sum_range_succ, Finset.range_zero, Finset.sum_empty, bern]
  norm_num [Nat.choose, toolLim, holoLim]
  linarith

/-! ### Examples -/

/-- An axis that comes to rest. -/
noncomputable def brake : BSpline ℝ := ⟨Bz 3, [0, 1, 1, 1]⟩

theorem brake_d1 : brake.derivative 1 = ⟨Bz 2, [3, 0, 0]⟩ := by
  unfold brake; rw [Bz_derivative rfl]; norm_num [List.range_succ]

theorem brake_d2 : brake.derivative 2 = ⟨Bz 1, [-6, 0]⟩ := by
  rw [derivative_succ, brake_d1, Bz_derivative rfl]; norm_num [List.range_succ]

theorem brake_d3 : brake.derivative 3 = ⟨Bz 0, [6]⟩ := by
  rw [derivative_succ, brake_d2, Bz_derivative rfl]; norm_num [List.range_succ]

/-- Braking in ten seconds, from speed 0.3, in both directions of the plane. -/
noncomputable def brakeSeg : ToolSeg := ⟨![brake, brake, line3 0], 10⟩

theorem brakeSeg_good : brakeSeg.Good := by
  refine ⟨fun i => ?_, by norm_num [brakeSeg]⟩
  fin_cases i
  · exact ⟨(Bz_traj rfl : Traj brake 3).mono (by omega), rfl⟩
  · exact ⟨(Bz_traj rfl : Traj brake 3).mono (by omega), rfl⟩
  · exact ⟨(Bz_traj rfl : Traj (line3 0) 3).mono (by omega), rfl⟩

theorem brakeSeg_d (i : Fin 3) : (brakeSeg.s i).derivative 1 = ⟨Bz 2, [if i = 2 then 0 else 3, 0, 0]⟩ ∧
    (brakeSeg.s i).derivative 2 = ⟨Bz 1, [if i = 2 then 0 else -6, 0]⟩ ∧ (brakeSeg.s i).derivative 3 = ⟨Bz 0, [if i = 2 then 0 else 6]⟩ := by
  fin_cases i
  · exact ⟨brake_d1, brake_d2, brake_d3⟩
  · exact ⟨brake_d1, brake_d2, brake_d3⟩
  · exact ⟨line3_d1 0, line3_d2 0, line3_d3 0⟩

theorem brakeSeg_ok (n : ℕ) : PlanOk .machining (toolLim fun _ => none) (List.replicate n brakeSeg) := by
  have k2 : ∀ i, (toolLim fun _ => none).amin i = -1 ∧ (toolLim fun _ => none).amax i = 1 ∧ (toolLim fun _ => none).jmin i = -2 ∧
      (toolLim fun _ => none).jmax i = 2 := by
    intro i; fin_cases i <;> simp [toolLim, holoLim]
  have k0 : (toolLim fun _ => none).vmax 0 = 1 / 2 := by simp [toolLim, holoLim]
  have hT : brakeSeg.T = 10 := rfl
  intro k hk
  rw [List.getElem_replicate]
  refine ⟨fun e he => imposes_skip ?_ _ _, fun e he => imposes_none.2 ?_⟩
  · rcases List.mem_append.1 he with he | he
    · have hz : (toolLim fun _ => none).vmax 0 ≠ 0 := by rw [k0]; norm_num
      unfold toolVel at he
      simp only at he
      rw [if_pos hz] at he
      have n0 : ¬ ((0 : Fin 3) = 2) := by decide
      have n1 : ¬ ((1 : Fin 3) = 2) := by decide
      simp only [List.mem_singleton, (brakeSeg_d _).1, hT, k0, n0, n1, if_false] at he
      subst he
      refine Expr.AllBz.imposed (D := 4) ?_ rfl (by norm_num) [18 - 25, -25, -25, -25, -25] (fun x h0 h1 => ?_) fun i hi => ?_
      · exact ⟨⟨⟨⟨rfl, rfl⟩, rfl, rfl⟩, ⟨rfl, rfl⟩, rfl, rfl⟩, trivial⟩
      · simp only [Expr.val, Expr.sub, Expr.sq]
        rw [Bz_eval (p := 2) rfl h0 h1]
        simp only [Finset.sum_range_succ, Finset.range_zero, Finset.sum_empty, bern]
        norm_num [Nat.choose]
        ring
      · have : i = 0 ∨ i = 1 ∨ i = 2 ∨ i = 3 ∨ i = 4 := by omega
        rcases this with rfl | rfl | rfl | rfl | rfl <;> norm_num
    · simp only [toolAcc, List.mem_append, List.mem_map, List.mem_finRange, true_and, (k2 _).1, (k2 _).2.1, (brakeSeg_d _).2.1, hT] at he
      rcases he with ⟨i, rfl⟩ | ⟨i, rfl⟩
      · refine geC_imposed ?_
        by_cases hi : i = 2 <;> norm_num [hi]
      · refine leC_imposed ?_
        by_cases hi : i = 2 <;> norm_num [hi]
  · simp only [toolJerk, List.mem_append, List.mem_map, List.mem_finRange, true_and, (k2 _).2.2.1, (k2 _).2.2.2, (brakeSeg_d _).2.2, hT] at he
    rcases he with ⟨i, rfl⟩ | ⟨i, rfl⟩
    · refine geC_imposed ?_
      by_cases hi : i = 2 <;> norm_num [hi]
    · refine leC_imposed ?_
      by_cases hi : i = 2 <;> norm_num [hi]

example : Spec.velOk .machining (toolLim fun _ => none) (fun i => pos (brakeSeg.s i) brakeSeg.T) 3 ∧
    Spec.accOk (toolLim fun _ => none) (fun i => pos (brakeSeg.s i) brakeSeg.T) 3 := by
  have hl : ∀ g, [brakeSeg].head? = some g → g = brakeSeg := by intro g h; simpa using h.symm
  have hl2 : ∀ g, [brakeSeg].getLast? = some g → g = brakeSeg := by intro g h; simpa using h.symm
  have key := C134_limits_partial .machining (toolLim fun _ => none) [brakeSeg] (by simpa using brakeSeg_good) (brakeSeg_ok 1) ?_ ?_
    (fun h => by cases h) ?_ brakeSeg (by simp) 3 (by norm_num) (by norm_num [brakeSeg])
  · exact ⟨key.1, key.2.1⟩
  · intro g hg
    rw [hl g hg]
    have hT : brakeSeg.T = 10 := rfl
    have e1 : ∀ i, brakeSeg.vel 0 i = if i = 2 then 0 else 3 / 10 := by
      intro i
      unfold ToolSeg.vel
      rw [(brakeSeg_d i).1, Bz_eval rfl le_rfl zero_le_one, hT]
      by_cases hi : i = 2 <;> simp [hi, Finset.sum_range_succ, bern]
    have e2 : ∀ i, brakeSeg.acc 0 i = if i = 2 then 0 else -(6 / 100) := by
      intro i
      unfold ToolSeg.acc
      rw [(brakeSeg_d i).2.1, Bz_eval rfl le_rfl zero_le_one, hT]
      by_cases hi : i = 2 <;> norm_num [hi, Finset.sum_range_succ, bern]
    refine ⟨⟨fun _ => ?_, fun h => ?_⟩, fun i => ?_⟩
    · rw [e1, e1, if_neg (by decide), if_neg (by decide)]; norm_num [toolLim, holoLim]
    · rw [e1]; simp
    · rw [e2]
      have ha : (toolLim fun _ => none).amin i = -1 ∧ (toolLim fun _ => none).amax i = 1 := by fin_cases i <;> simp [toolLim, holoLim]
      rw [ha.1, ha.2]
      by_cases hi : i = 2 <;> norm_num [hi]
  · intro g hg
    rw [hl2 g hg]
    refine ⟨fun i => ?_, fun i => ?_⟩
    · unfold ToolSeg.vel
      rw [(brakeSeg_d i).1, Bz_eval rfl zero_le_one le_rfl]
      by_cases hi : i = 2 <;> simp [hi, Finset.sum_range_succ, bern]
    · unfold ToolSeg.acc
      rw [(brakeSeg_d i).2.1, Bz_eval rfl zero_le_one le_rfl]
      by_cases hi : i = 2 <;> simp [hi, Finset.sum_range_succ, bern]
  · intro i; fin_cases i <;> norm_num [toolLim, holoLim]

example : Spec.accOk (toolLim fun _ => none) (fun i => pos (brakeSeg.s i) brakeSeg.T) 3 :=
  ((C134_later_partial .machining (toolLim fun _ => none) (List.replicate 3 brakeSeg) (fun g h => List.eq_of_mem_replicate h ▸ brakeSeg_good)
    (brakeSeg_ok 3) 1 (by simp) 0 (by omega) (by simp) 3 (by norm_num) (by norm_num [brakeSeg])).1 (by omega)).2

example : (toolLim fun k => if k = "amax" then some 3 else none).amax 2 = 3 :=
  (C134_bounds fun k => if k = "amax" then some 3 else none).2.2.2.1 3 (by simp) 2

end Verif.Vehicles
