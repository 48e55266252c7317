import Verif.Spline.Affine
import Mathlib.Analysis.Calculus.Deriv.Pow
import Mathlib.Analysis.Calculus.Deriv.Mul
import Mathlib.Analysis.Calculus.Deriv.Add

/-! # Predicted trajectory of an obstacle (C28) -/

set_option linter.unusedSectionVars false

namespace Verif.Environment

open Verif.Spline

variable {K : Type} [Field K] [LinearOrder K] [IsStrictOrderedRing K]

/-! ## Model -/

/-- obstacle.py:61: `BSplineBasis([0, 0, 0, 1, 1, 1], 2)`. -/
def Q2 : Basis K := ⟨[0, 0, 0, 1, 1, 1], 2⟩

/-- The measured state of an obstacle along one axis: parameters `x`, `v`, `a`, obstacle.py:83-85, 147-149. -/
structure Measured (K : Type) where
  x : K
  v : K
  a : K

/-- obstacle.py:93: velocity at the start of the horizon; `t` is the current time within the horizon. -/
def Measured.v0 (m : Measured K) (t : K) : K := m.v - t * m.a

/-- obstacle.py:94: position at the start of the horizon. -/
def Measured.x0 (m : Measured K) (t : K) : K := m.x - t * m.v0 t - 1 / 2 * t ^ 2 * m.a

/-- The spline of one segment, obstacle.py:104 and 111. -/
def segment (pos0 v0 a0 T : K) : BSpline K := ⟨Q2, [pos0, 1 / 2 * v0 * T + pos0, pos0 + v0 * T + 1 / 2 * a0 * T ^ 2]⟩

/-- `ObstaclexD.init` with one horizon time or none given, obstacle.py:108-112 (one axis; the axes are independent). -/
def predict (m : Measured K) (t T : K) : BSpline K := segment (m.x0 t) (m.v0 t) m.a T

/-- `ObstaclexD.init` with a list of horizon times, obstacle.py:97-106: the spline of the last segment; every segment starts where
the previous spline ends, always with the same `v0`. -/
def predictSeg (m : Measured K) (t : K) : List K → K → BSpline K
  | [], T => segment (m.x0 t) (m.v0 t) m.a T
  | T1 :: Ts, T => go (segment (m.x0 t) (m.v0 t) m.a T1) Ts T
where
  /-- The loop after the first segment. -/
  go (s : BSpline K) : List K → K → BSpline K
    | [], T => segment (s.eval 1) (m.v0 t) m.a T
    | T1 :: Ts, T => go (segment (s.eval 1) (m.v0 t) m.a T1) Ts T

/-! ## Specification -/

/-- Motion with constant acceleration from the measured state, `s` after the measurement. -/
def Spec.motion (m : Measured K) (s : K) : K := m.x + m.v * s + m.a * s ^ 2 / 2

/-! ## Lemmas -/

theorem Q2_fn {x : K} (h0 : 0 ≤ x) (h1 : x ≤ 1) :
    (Q2 : Basis K).fn 0 x = (1 - x) ^ 2 ∧ (Q2 : Basis K).fn 1 x = 2 * x * (1 - x) ∧ (Q2 : Basis K).fn 2 x = x ^ 2 := by
  by_cases h : x = 0
  · subst h; norm_num [Q2, Basis.fn, cox, ind, Basis.k]
  · have : 0 < x := lt_of_le_of_ne h0 (Ne.symm h)
    refine ⟨?_, ?_, ?_⟩ <;> norm_num [Q2, Basis.fn, cox, ind, Basis.k, h0, h1, this] <;> ring

theorem Q2_eval (u v w : K) {x : K} (h0 : 0 ≤ x) (h1 : x ≤ 1) :
    (⟨Q2, [u, v, w]⟩ : BSpline K).eval x = u * (1 - x) ^ 2 + v * (2 * x * (1 - x)) + w * x ^ 2 := by
  rw [BSpline.eval_eq (s := ⟨Q2, [u, v, w]⟩) rfl]
  show ∑ i ∈ Finset.range 3, ([u, v, w] : List K).getD i 0 * (Q2 : Basis K).fn i x = _
  obtain ⟨e0, e1, e2⟩ := Q2_fn h0 h1
  rw [Finset.sum_range_succ, Finset.sum_range_succ, Finset.sum_range_one, e0, e1, e2]
  rfl

theorem segment_eval (p v a T : K) {x : K} (h0 : 0 ≤ x) (h1 : x ≤ 1) :
    (segment p v a T).eval x = p + v * (x * T) + a * (x * T) ^ 2 / 2 := by
  rw [segment, Q2_eval _ _ _ h0 h1]
  ring

/-! ## Properties -/

/-- **C28** The predicted trajectory is the motion with constant acceleration from the measured state: at every time of the horizon,
where `τ` is the time relative to the horizon `T` and `t` the current time, at which the state was measured. -/
theorem C28_motion (m : Measured K) (t T τ : K) (h0 : 0 ≤ τ) (h1 : τ ≤ 1) :
    (predict m t T).eval τ = Spec.motion m (τ * T - t) := by
  rw [predict, segment_eval _ _ _ _ h0 h1, Spec.motion, Measured.x0, Measured.v0]
  ring

/-- **C28** At the current time the trajectory is at the measured position. -/
theorem C28_position (m : Measured K) (t T : K) (h0 : 0 ≤ t) (h1 : t ≤ T) (hT : 0 < T) : (predict m t T).eval (t / T) = m.x := by
  rw [C28_motion m t T _ (div_nonneg h0 hT.le) ((div_le_one hT).2 h1), div_mul_cancel₀ _ hT.ne']
  simp [Spec.motion]

/-- **C28** In physical time the velocity is the measured one plus the acceleration times the elapsed time; at the current time it
is the measured one. -/
theorem C28_velocity (m : Measured ℝ) (t T s : ℝ) (hT : 0 < T) (h0 : 0 < t + s) (h1 : t + s < T) :
    HasDerivAt (fun s => (predict m t T).eval ((t + s) / T)) (m.v + m.a * s) s := by
  have e : HasDerivAt (fun s => Spec.motion m s) (m.v + m.a * s) s := by
    unfold Spec.motion
    have h := (((hasDerivAt_id s).const_mul m.v).const_add m.x).add (((hasDerivAt_id s).pow 2).const_mul m.a |>.div_const 2)
    refine h.congr_deriv ?_ |>.congr_of_eventuallyEq ?_
    · simp; ring
    · filter_upwards with y; simp
  refine e.congr_of_eventuallyEq ?_
  have ho : ∀ᶠ y in nhds s, 0 < t + y ∧ t + y < T := by
    have c : Continuous fun y : ℝ => t + y := by fun_prop
    exact (c.continuousAt.eventually (lt_mem_nhds h0)).and (c.continuousAt.eventually (gt_mem_nhds h1))
  filter_upwards [ho] with y hy
  rw [C28_motion m t T _ (div_nonneg hy.1.le hT.le) ((div_le_one hT).2 hy.2.le), div_mul_cancel₀ _ hT.ne']
  congr 1; ring

/-- **C28** (partial) With several segments, the trajectory in the last one continues that of the earlier ones, for an obstacle
without acceleration.
Missing: accelerating obstacles, see `C28_segments_violated`. -/
theorem C28_segments_partial (m : Measured K) (hm : m.a = 0) (t : K) (Ts : List K) (T τ : K) (h0 : 0 ≤ τ) (h1 : τ ≤ 1) :
    (predictSeg m t Ts T).eval τ = Spec.motion m (Ts.sum + τ * T - t) := by
  have one : (1 : K) ≤ 1 := le_refl _
  have go : ∀ (Ts : List K) (T c : K) (s : BSpline K), s.eval 1 = m.x + m.v * (c - t) →
      (predictSeg.go m t s Ts T).eval τ = m.x + m.v * (c + Ts.sum + τ * T - t) := by
    intro Ts
    induction Ts with
    | nil =>
      intro T c s hs
      rw [predictSeg.go, segment_eval _ _ _ _ h0 h1, hs, Measured.v0, hm, List.sum_nil]
      ring
    | cons T1 Ts ih =>
      intro T c s hs
      rw [predictSeg.go, ih T (c + T1) _ (by
        rw [segment_eval _ _ _ _ zero_le_one one, hs, Measured.v0, hm]; ring), List.sum_cons]
      ring
  unfold Spec.motion
  rw [hm]
  cases Ts with
  | nil =>
    rw [predictSeg, segment_eval _ _ _ _ h0 h1, Measured.x0, Measured.v0, hm, List.sum_nil]
    ring
  | cons T1 Ts =>
    rw [predictSeg, go Ts T T1 _ (by
      rw [segment_eval _ _ _ _ zero_le_one one, Measured.x0, Measured.v0, hm]; ring), List.sum_cons]
    ring

/-- An obstacle that starts from rest with unit acceleration: at the end of a second segment of one second it should be at 2, but
is predicted at 1, because every segment starts with the initial velocity. -/
theorem C28_segments_violated : ∃ m : Measured ℚ, (predictSeg m 0 [1] 1).eval 1 = 1 ∧ Spec.motion m 2 = 2 := by
  refine ⟨⟨0, 0, 1⟩, ?_, by norm_num [Spec.motion]⟩
  rw [predictSeg, predictSeg.go, segment_eval _ _ _ _ (by norm_num) (by norm_num), segment_eval _ _ _ _ (by norm_num) (by norm_num)]
  norm_num [Measured.x0, Measured.v0]

/-- An obstacle measured at 1 with speed 2 and acceleration 4, a quarter into a horizon of 4 s. -/
example : (predict (⟨1, 2, 4⟩ : Measured ℚ) 1 4).eval (1 / 4) = 1 ∧ (predict (⟨1, 2, 4⟩ : Measured ℚ) 1 4).eval 1 = 25 := by
  rw [C28_motion _ _ _ _ (by norm_num) (by norm_num), C28_motion _ _ _ _ (by norm_num) (by norm_num)]
  norm_num [Spec.motion]

end Verif.Environment
