import Mathlib.Analysis.SpecialFunctions.Sqrt
import Mathlib.Algebra.BigOperators.Group.List.Basic

/-! # Arrival checks (C16)

Model of the `check_terminal_conditions` methods and of the stop criterion of a point-to-point problem. -/

set_option linter.unusedSectionVars false

namespace Verif.Vehicles

/-! ## Model -/

/-- `numpy.linalg.norm` of a vector. -/
noncomputable def norm2 (v : List ℝ) : ℝ := Real.sqrt ((v.map (· ^ 2)).sum)

/-- Difference of two arrays of equal length (arrays of different length raise an exception; numpy's
broadcasting of length-one arrays is left out). -/
def diff? (a b : List ℝ) : Option (List ℝ) :=
  if a.length = b.length then some (List.zipWith (· - ·) a b) else none

/-- A Python value that is a truth value or a number. -/
inductive BoolOrNum where
  | bool (b : Bool)
  | num (x : ℝ)

/-- Python compares a truth value with a number as if it were 0 or 1. -/
def BoolOrNum.toNum : BoolOrNum → ℝ
  | .bool b => if b then 1 else 0
  | .num x => x

/-- Python's `b or x` for a truth value `b`. -/
def orNum (b : Bool) (x : ℝ) : BoolOrNum := if b then .bool b else .num x

open Classical in
/-- `check_terminal_conditions` as written, e.g. holonomic.py:145-151:
`if (norm(state - poseT) > tol or norm(input)) > tol: return False else: return True`.
The same expression is used in holonomic1d.py:85-91, holonomic3d.py:116-122, holonomicorient.py:138-144,
dubins.py:220-226, bicycle.py:225-232 and agv.py:192-199 (first three states), tool.py:163-169,
quadrotor.py:104-110 and quadrotor3d_simple.py:139-145 (position, and velocity in place of input). -/
noncomputable def checkTerminal (tol : ℝ) (state target input : List ℝ) : Option Bool :=
  match diff? state target with
  | none => none
  | some e => some (if (orNum (decide (norm2 e > tol)) (norm2 input)).toNum > tol then false else true)

open Classical in
/-- `Quadrotor3D.check_terminal_conditions`, quadrotor3d.py:200-206 (`g` is 9.81). -/
noncomputable def checkQuad3D (tol g : ℝ) (pos target input : List ℝ) : Option Bool :=
  match diff? pos target with
  | none => none
  | some e => some (if norm2 e > tol ∨ norm2 input - g > tol then false else true)

open Classical in
/-- `Trailer.check_terminal_conditions`, trailer.py:130-143: `lead` is the answer of the pulling vehicle,
`thetaT` the wanted trailer angle, if any. -/
noncomputable def checkTrailer (tol : ℝ) (lead : Bool) (theta : ℝ) (thetaT : Option ℝ) : Bool :=
  lead && (match thetaT with
    | some r => if norm2 [theta - r] > tol then false else true
    | none => true)

/-- `Point2pointProblem.stop_criterium`, point2point.py:98-102: the product of the answers of the
vehicles, as a number; the deployer/simulator uses it as a truth value. -/
def stopCriterium (answers : List Bool) : ℕ :=
  answers.foldl (fun stop a => stop * (if a then 1 else 0)) 1

/-! ## Properties -/

/-- The vehicle is within `tol` of its target and its input is at most `tol` in magnitude. -/
def Arrived (tol : ℝ) (state target input : List ℝ) : Prop :=
  state.length = target.length ∧ norm2 (List.zipWith (· - ·) state target) ≤ tol ∧ norm2 input ≤ tol

/-- **C16** for tolerances below one, arrival is declared exactly when the vehicle is at its target and
stands still.  (The full property is for every tolerance: see `C16_violated`.) -/
theorem C16_partial (tol : ℝ) (htol : tol < 1) (state target input : List ℝ) :
    checkTerminal tol state target input = some true ↔ Arrived tol state target input := by
  unfold checkTerminal diff? Arrived orNum
  by_cases hl : state.length = target.length
  · rw [if_pos hl]
    by_cases h1 : norm2 (List.zipWith (· - ·) state target) > tol
    · simp [hl, h1, BoolOrNum.toNum, htol]
    · simp [hl, h1, BoolOrNum.toNum, not_lt.1 h1]
  · simp [hl]

/-- **C16**, for every tolerance: the exact condition under which the code declares arrival.  From tolerance one
on, every vehicle that is *outside* the tolerance is declared arrived too (missing: that this never happens). -/
theorem C16_exact_partial (tol : ℝ) (state target input : List ℝ) (hl : state.length = target.length) :
    checkTerminal tol state target input = some true ↔
      (norm2 (List.zipWith (· - ·) state target) > tol ∧ 1 ≤ tol) ∨
      (norm2 (List.zipWith (· - ·) state target) ≤ tol ∧ norm2 input ≤ tol) := by
  unfold checkTerminal diff? orNum
  rw [if_pos hl]
  by_cases h1 : norm2 (List.zipWith (· - ·) state target) > tol
  · simp [h1, BoolOrNum.toNum, not_le.2 h1]
  · simp [h1, BoolOrNum.toNum, not_lt.1 h1]

theorem norm2_one (x : ℝ) : norm2 [x] = |x| := by simp [norm2, Real.sqrt_sq_eq_abs]

theorem norm2_pair (x y : ℝ) : norm2 [x, y] = Real.sqrt (x ^ 2 + y ^ 2) := by simp [norm2]

/-- **C16** is false for a tolerance of one: a vehicle 100 m away driving at 7 m/s has arrived. -/
theorem C16_violated : ∃ tol state target input, checkTerminal tol state target input = some true ∧
    ¬ Arrived tol state target input := by
  refine ⟨1, [100], [0], [7], ?_, ?_⟩
  · rw [C16_exact_partial _ _ _ _ (by simp)]
    left
    constructor
    · simp only [List.zipWith_cons_cons, List.zipWith_nil_left, norm2_one]
      norm_num
    · exact le_refl _
  · rintro ⟨-, h, -⟩
    simp only [List.zipWith_cons_cons, List.zipWith_nil_left, norm2_one] at h
    norm_num at h

/-- **C16** `Quadrotor3D`: arrival means being within `tol` of the target with an input of magnitude at
most `g + tol`.  (Missing: a lower bound on the thrust, see `C16_quad3d_violated`.) -/
theorem C16_quad3d_partial (tol g : ℝ) (pos target input : List ℝ) :
    checkQuad3D tol g pos target input = some true ↔
      pos.length = target.length ∧ norm2 (List.zipWith (· - ·) pos target) ≤ tol ∧ norm2 input ≤ g + tol := by
  unfold checkQuad3D diff?
  by_cases hl : pos.length = target.length
  · simp [hl, add_comm g tol]
  · simp [hl]

/-- A quadrotor in free fall (no thrust at all) next to its target is declared arrived, although its input is
far from hovering. -/
theorem C16_quad3d_violated : ∃ tol pos target input,
    checkQuad3D tol 9.81 pos target input = some true ∧ tol < |norm2 input - 9.81| := by
  refine ⟨1 / 2, [1, 2, 3], [1, 2, 3], [0, 0, 0], ?_, ?_⟩
  · rw [C16_quad3d_partial]
    norm_num [norm2]
  · norm_num [norm2, abs_of_neg]

/-- **C16** (trailer) arrival of a trailer requires arrival of the pulling vehicle and, if a trailer angle
was asked for, that angle. -/
theorem C16_trailer (tol : ℝ) (lead : Bool) (theta : ℝ) (thetaT : Option ℝ) :
    checkTrailer tol lead theta thetaT = true ↔ lead = true ∧ ∀ r, thetaT = some r → |theta - r| ≤ tol := by
  cases thetaT with
  | none => simp [checkTrailer]
  | some r => simp [checkTrailer, norm2_one]

/-- **C16** (problem) a point-to-point problem stops exactly when all its vehicles have arrived. -/
theorem C16_all_vehicles (answers : List Bool) : stopCriterium answers ≠ 0 ↔ ∀ a ∈ answers, a = true := by
  have gen : ∀ (l : List Bool) (n : ℕ),
      l.foldl (fun stop a => stop * (if a then 1 else 0)) n ≠ 0 ↔ n ≠ 0 ∧ ∀ a ∈ l, a = true := by
    intro l
    induction l with
    | nil => intro n; simp
    | cons a l ih =>
      intro n
      rw [List.foldl_cons, ih]
      cases a <;> simp
  rw [stopCriterium, gen]
  simp

/-- Default tolerance, at the target with a small residual velocity. -/
example : checkTerminal (1 / 1000) [3, 4] [3, 4] [0, 1 / 2000] = some true := by
  rw [C16_partial _ (by norm_num)]
  refine ⟨rfl, ?_, ?_⟩
  · norm_num [norm2]
  · rw [norm2_pair, Real.sqrt_le_left (by norm_num)]; norm_num

/-- Still one metre away. -/
example : checkTerminal (1 / 1000) [3, 5] [3, 4] [0, 0] ≠ some true := by
  rw [Ne, C16_partial _ (by norm_num)]
  rintro ⟨-, h, -⟩
  norm_num [norm2] at h

example : checkTrailer (1 / 1000) true 2 (some 3) = false := by
  rw [← Bool.not_eq_true, C16_trailer]
  rintro ⟨-, h⟩
  have := h 3 rfl
  norm_num [abs_of_neg] at this

example : stopCriterium [true, false, true] = 0 := by decide

end Verif.Vehicles
