import Verif.Vehicles.Integrate
import Verif.Collision.Props

/-! # Smoothness of spline expressions -/

set_option linter.unusedSectionVars false

namespace Verif.Vehicles

open Verif.Spline

/-- Every spline of the expression is well formed on `[lo, hi]` with `n` continuous derivatives. -/
def AllTraj (lo hi : ℝ) (n : ℕ) : Expr ℝ → Prop
  | .num _ => True
  | .spl s => TrajOn s lo hi n
  | .neg e => AllTraj lo hi n e
  | .add e f => AllTraj lo hi n e ∧ AllTraj lo hi n f
  | .mul e f => AllTraj lo hi n e ∧ AllTraj lo hi n f

variable {lo hi : ℝ} {n : ℕ}

theorem AllTraj.on {e : Expr ℝ} (h : AllTraj lo hi n e) : e.On lo hi := by
  induction e with
  | num c => trivial
  | spl s =>
    have h : TrajOn s lo hi n := h
    exact ⟨h.clamped, h.wf, h.first, h.last⟩
  | neg e ih => exact ih h
  | add e f ih1 ih2 => exact ⟨ih1 h.1, ih2 h.2⟩
  | mul e f ih1 ih2 => exact ⟨ih1 h.1, ih2 h.2⟩

theorem TrajOn.combine {s t u : BSpline ℝ} (hs : TrajOn s lo hi n) (ht : TrajOn t lo hi n) {d : ℕ}
    (h1 : s.basis.degree ≤ d) (h2 : t.basis.degree ≤ d) (hu : u.basis = s.basis.combine t.basis d) (wf : u.WF) :
    TrajOn u lo hi n := by
  obtain ⟨c1, c2, c3⟩ := C08_clamped _ _ hs.clamped ht.clamped d h1 h2
    (hs.first.trans ht.first.symm) (hs.last.trans ht.last.symm)
  obtain ⟨m1, -, m3⟩ := C08_multiplicity s.basis t.basis d h1 h2
  refine ⟨hu ▸ c1, wf, by rw [hu, c2, hs.first], by rw [hu, c3, hs.last], fun τ a b => ?_, ?_⟩
  · have e1 := hs.simple τ a b
    have e2 := ht.simple τ a b
    rw [hu, m3, m1, neededMult]
    split_ifs <;> omega
  · have e1 := hs.tail
    have e2 := ht.tail
    rw [hu, m3, m1, neededMult]
    split_ifs <;> omega

/-- The operators keep the splines well formed and as smooth as their operands. -/
theorem runs_traj {e : Expr ℝ} {v : PyVal ℝ} (hr : e.Runs v) (he : AllTraj lo hi n e) :
    ∀ s, v = .spl s → TrajOn s lo hi n := by
  induction hr with
  | num c => intro s h; cases h
  | spl s => intro s' h; cases h; exact he
  | negNum _ _ => intro s h; cases h
  | negSpl _ ih =>
    intro s' h; cases h
    have := ih he _ rfl
    exact ⟨this.clamped, by simpa [BSpline.WF, BSpline.neg] using this.wf, this.first, this.last, this.simple, this.tail⟩
  | addNN _ _ _ _ => intro s h; cases h
  | addSN _ _ ih1 _ => intro s' h; cases h; exact (ih1 he.1 _ rfl).addNum _
  | addNS _ _ _ ih2 => intro s' h; cases h; exact (ih2 he.2 _ rfl).addNum _
  | addSS _ _ hTs hTt ih1 ih2 =>
    intro s' h; cases h
    exact (ih1 he.1 _ rfl).combine (ih2 he.2 _ rfl) (le_max_left _ _) (le_max_right _ _) rfl
      (by simp [BSpline.WF, BSpline.addT, applyT])
  | mulNN _ _ _ _ => intro s h; cases h
  | mulSN _ _ ih1 _ => intro s' h; cases h; exact (ih1 he.1 _ rfl).mulNum _
  | mulNS _ _ _ ih2 => intro s' h; cases h; exact (ih2 he.2 _ rfl).mulNum _
  | mulSS _ _ hT ih1 ih2 =>
    intro s' h; cases h
    exact (ih1 he.1 _ rfl).combine (ih2 he.2 _ rfl) (Nat.le_add_right _ _) (Nat.le_add_left _ _) rfl
      (by simp [BSpline.WF, BSpline.mulT, applyT])

/-- The spline an expression evaluates to: smooth, with the pointwise value. -/
theorem runs_spl {e : Expr ℝ} {s : BSpline ℝ} (hr : e.Runs (.spl s)) (he : AllTraj lo hi n e) :
    TrajOn s lo hi n ∧ ∀ x, lo ≤ x → x ≤ hi → s.eval x = e.val x :=
  ⟨runs_traj hr he s rfl, (Expr.runs_means hr he.on).2.2.2.2⟩

/-! ## The tangent half angle -/

open Collision (heading)

theorem heading_hasDerivAt {f : ℝ → ℝ} {f' t : ℝ} (h : HasDerivAt f f' t) :
    HasDerivAt (fun t => heading (f t)) (2 * f' / (1 + f t ^ 2)) t := by
  have := (h.arctan).const_mul 2
  refine this.congr_deriv ?_
  ring

theorem cos_heading' (q : ℝ) : Real.cos (heading q) = (1 - q ^ 2) / (1 + q ^ 2) := by
  have h : (0 : ℝ) < 1 + q ^ 2 := by positivity
  rw [eq_div_iff h.ne', Collision.cos_heading]

theorem sin_heading' (q : ℝ) : Real.sin (heading q) = 2 * q / (1 + q ^ 2) := by
  have h : (0 : ℝ) < 1 + q ^ 2 := by positivity
  rw [eq_div_iff h.ne', Collision.sin_heading]

/-- `v_til*(1-tg_ha**2)`. -/
noncomputable def dxE (v tg : BSpline ℝ) : Expr ℝ :=
  .mul (.spl v) (.sub (.num 1) (.sq (.spl tg)))

/-- `v_til*(2*tg_ha)`. -/
noncomputable def dyE (v tg : BSpline ℝ) : Expr ℝ :=
  .mul (.spl v) (.mul (.num 2) (.spl tg))

/-- `1+tg_ha**2`. -/
noncomputable def denE (tg : BSpline ℝ) : Expr ℝ := .add (.num 1) (.sq (.spl tg))

end Verif.Vehicles
