import Verif.Vehicles.Traj
import Verif.Spline.Bernstein

/-! # A concrete trajectory: `3τ² - 2τ³`, from rest at 0 to rest at 1 -/

set_option linter.unusedSectionVars false

namespace Verif.Vehicles

open Verif.Spline Finset

theorem Bz_traj {p : ℕ} {c : List ℝ} (hc : c.length = p + 1) : Traj ⟨Bz p, c⟩ p := by
  obtain ⟨a, b, d, e⟩ := Bz_on hc
  refine ⟨a, b, d, e, fun τ h0 h1 => ?_, ?_⟩
  · show (Bz p).knots.count τ + p ≤ p
    rw [Bz_count, if_neg (by rintro (h | h) <;> linarith)]; omega
  · show (Bz p).knots.count 1 ≤ p + 1
    rw [Bz_count, if_pos (Or.inr rfl)]

/-- From rest to rest. -/
noncomputable def cub : BSpline ℝ := ⟨Bz 3, [0, 0, 1, 1]⟩

theorem cub_traj : Traj cub 3 := Bz_traj rfl

theorem cub_d1 : cub.derivative 1 = ⟨Bz 2, [0, 3, 0]⟩ := by
  unfold cub
  rw [Bz_derivative rfl]
  norm_num [List.range_succ]

theorem cub_d2 : cub.derivative 2 = ⟨Bz 1, [6, -6]⟩ := by
  rw [derivative_succ, cub_d1, Bz_derivative rfl]
  norm_num [List.range_succ]

theorem cub_d3 : cub.derivative 3 = ⟨Bz 0, [-12]⟩ := by
  rw [derivative_succ, cub_d2, Bz_derivative rfl]
  norm_num [List.range_succ]

end Verif.Vehicles
