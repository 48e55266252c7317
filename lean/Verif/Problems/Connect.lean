import Verif.Spline.Scale
import Verif.Spline.Props3

/-! # Connection constraints between segments (C34) -/

set_option linter.unusedSectionVars false

namespace Verif.Problems

open Verif.Spline

variable {K : Type*} [Field K] [LinearOrder K] [IsStrictOrderedRing K]

/-! ## Model -/

/-- The left hand sides of the constraints for one spline at one joint, multiframeproblem.py:119-124, gcodeproblem.py:116-120. -/
def joint (s1 s2 : BSpline K) (T1 T2 : K) : List K :=
  (List.range s1.basis.degree).map fun (d : ℕ) => (s1.derivative d).eval 1 * T2 ^ d - (s2.derivative d).eval 0 * T1 ^ d

/-- `define_connection_constraints`, multiframeproblem.py:113-124, gcodeproblem.py:107-120, for one vehicle: the segments with
their splines and motion times; every left hand side is constrained to zero. -/
def connection : List (List (BSpline K) × K) → List K
  | (ss1, T1) :: (ss2, T2) :: rest => ((ss1.zip ss2).flatMap fun p => joint p.1 p.2 T1 T2) ++ connection ((ss2, T2) :: rest)
  | _ => []

/-! ## Specification -/

/-- In physical time segment after segment, starting at `t0`: at the end of each segment, all splines and their derivatives below
the degree have the value of those of the next segment at its start. The trajectory of a segment of duration `T` that starts at
`t0` is the spline stretched to `[t0, t0 + T]`. -/
def Spec.Joined : K → List (List (BSpline K) × K) → Prop
  | t0, (ss1, T1) :: (ss2, T2) :: rest =>
    (∀ p ∈ ss1.zip ss2, ∀ d < p.1.basis.degree,
      ((p.1.scale T1 t0).derivative d).eval (t0 + T1) = ((p.2.scale T2 (t0 + T1)).derivative d).eval (t0 + T1)) ∧
    Spec.Joined (t0 + T1) ((ss2, T2) :: rest)
  | _, _ => True

/-- Splines on the unit interval, all of one degree. -/
def Spec.Unit (deg : ℕ) (s : BSpline K) : Prop :=
  s.basis.Clamped ∧ s.WF ∧ s.basis.degree = deg ∧ s.basis.k 0 = 0 ∧ s.basis.k s.basis.len = 1

/-! ## Properties -/

/-- **C34** The connection constraints are met exactly when position and all derivatives in physical time up to the degree minus one
are equal at all joints, for every number of segments, all positive motion times and all splines. -/
theorem C34_joined (deg : ℕ) (segs : List (List (BSpline K) × K)) (hT : ∀ s ∈ segs, 0 < s.2)
    (hs : ∀ s ∈ segs, ∀ x ∈ s.1, Spec.Unit deg x) (t0 : K) :
    (∀ r ∈ connection segs, r = 0) ↔ Spec.Joined t0 segs := by
  induction segs generalizing t0 with
  | nil => simp [connection, Spec.Joined]
  | cons a segs ih =>
    cases segs with
    | nil => simp [connection, Spec.Joined]
    | cons b rest =>
      obtain ⟨ss1, T1⟩ := a
      obtain ⟨ss2, T2⟩ := b
      have h1 : 0 < T1 := hT (ss1, T1) (by simp)
      have h2 : 0 < T2 := hT (ss2, T2) (by simp)
      rw [connection, Spec.Joined, ← ih (fun s hs' => hT s (by simp [hs'])) (fun s hs' => hs s (by simp [hs'])) (t0 + T1)]
      simp only [List.mem_append, List.mem_flatMap, or_imp, forall_and]
      refine and_congr ?_ Iff.rfl
      have step : ∀ p ∈ ss1.zip ss2, ((∀ r ∈ joint p.1 p.2 T1 T2, r = 0) ↔ ∀ d < p.1.basis.degree,
          ((p.1.scale T1 t0).derivative d).eval (t0 + T1) = ((p.2.scale T2 (t0 + T1)).derivative d).eval (t0 + T1)) := by
        rintro ⟨s1, s2⟩ hp
        obtain ⟨m1, m2⟩ := List.of_mem_zip hp
        obtain ⟨c1, w1, d1, -, -⟩ := hs (ss1, T1) (by simp) s1 m1
        obtain ⟨c2, w2, d2, -, -⟩ := hs (ss2, T2) (by simp) s2 m2
        simp only [joint, List.mem_map, List.mem_range, forall_exists_index, and_imp, forall_apply_eq_imp_iff₂]
        refine forall₂_congr fun d hd => ?_
        have e1 := C07_derivative s1 c1 w1 T1 t0 h1 d hd.le 1
        have e2 := C07_derivative s2 c2 w2 T2 (t0 + T1) h2 d (by omega) 0
        rw [one_mul, add_comm] at e1
        rw [zero_mul, zero_add] at e2
        rw [e1, e2, div_eq_div_iff (pow_ne_zero _ h1.ne') (pow_ne_zero _ h2.ne'), sub_eq_zero]
      constructor
      · intro h p hp
        exact (step p hp).1 fun r hr => h r ⟨p, hp, hr⟩
      · rintro h r ⟨p, hp, hr⟩
        exact (step p hp).2 (h p hp) r hr

/-- **C34** Smoothness of the joined motion at a joint: when two segments are joined in the sense above, the motion that follows the
first segment until the joint and the second one after it is differentiable there as often as the degree minus one, and its
derivatives are those of the segments. -/
theorem C34_smooth (deg : ℕ) (s1 s2 : BSpline ℝ) (u1 : Spec.Unit deg s1) (u2 : Spec.Unit deg s2) (t0 T1 T2 : ℝ) (h1 : 0 < T1) (h2 : 0 < T2)
    (h : Spec.Joined t0 [([s1], T1), ([s2], T2)]) (d : ℕ) (hd : d + 1 < deg) :
    HasDerivAt (fun t => if t ≤ t0 + T1 then ((s1.scale T1 t0).derivative d).eval t else ((s2.scale T2 (t0 + T1)).derivative d).eval t)
      (((s1.scale T1 t0).derivative (d + 1)).eval (t0 + T1)) (t0 + T1) := by
  obtain ⟨c1, w1, g1, f1, l1⟩ := u1
  obtain ⟨c2, w2, g2, f2, l2⟩ := u2
  have h := h.1 (s1, s2) (by simp)
  simp only at h
  have scale_facts : ∀ (s : BSpline ℝ) (f sh : ℝ), s.basis.Clamped → s.WF → 0 < f → d + 1 < s.basis.degree →
      ((s.scale f sh).derivative d).basis.Clamped ∧ ((s.scale f sh).derivative d).WF ∧
      1 ≤ ((s.scale f sh).derivative d).basis.degree ∧
      ((s.scale f sh).derivative d).basis.k 0 = s.basis.k 0 * f + sh ∧
      ((s.scale f sh).derivative d).basis.k ((s.scale f sh).derivative d).basis.len = s.basis.k s.basis.len * f + sh := by
    intro s f sh c w hf hdeg
    have c' := scale_clamped c hf sh
    have hlen : (s.basis.scale f sh).len = s.basis.len := by simp [Basis.len, Basis.scale]
    have w' : (s.scale f sh).WF := by unfold BSpline.WF BSpline.scale; dsimp only; rw [hlen]; exact w
    have hdg : (s.scale f sh).basis.degree = s.basis.degree := rfl
    obtain ⟨e1, e2, e3, e4, e5⟩ := clamped_derivative (s := s.scale f sh) c' w' d (by rw [hdg]; omega)
    have hk : ∀ i, (s.scale f sh).basis.k i = s.basis.k i * f + sh := scale_k c f sh
    have hl2 : (s.scale f sh).basis.len = s.basis.len := hlen
    refine ⟨e1, e2, by rw [e3, hdg]; omega, ?_, ?_⟩
    · rw [e4, Nat.zero_add, hk, c.first d (by omega)]
    · have := c.lt_len
      rw [e4, e5, hl2, Nat.sub_add_cancel (by omega), hk]
  obtain ⟨a1, a2, a3, a4, a5⟩ := scale_facts s1 T1 t0 c1 w1 h1 (by omega)
  obtain ⟨b1, b2, b3, b4, b5⟩ := scale_facts s2 T2 (t0 + T1) c2 w2 h2 (by omega)
  rw [f1, zero_mul, zero_add] at a4
  rw [l1, one_mul] at a5
  rw [f2, zero_mul, zero_add] at b4
  have left := hasDerivWithinAt_left a1 a2 a3 (x := t0 + T1) (by rw [a4]; linarith) (by rw [a5]; linarith)
  have right := hasDerivWithinAt_first b1 b2 b3
  rw [b4, ← derivative_succ, ← h (d + 1) (by omega)] at right
  rw [← derivative_succ] at left
  have L : HasDerivWithinAt (fun t => if t ≤ t0 + T1 then ((s1.scale T1 t0).derivative d).eval t else ((s2.scale T2 (t0 + T1)).derivative d).eval t)
      (((s1.scale T1 t0).derivative (d + 1)).eval (t0 + T1)) (Set.Iic (t0 + T1)) (t0 + T1) :=
    left.congr (fun x hx => if_pos hx) (if_pos le_rfl)
  have R : HasDerivWithinAt (fun t => if t ≤ t0 + T1 then ((s1.scale T1 t0).derivative d).eval t else ((s2.scale T2 (t0 + T1)).derivative d).eval t)
      (((s1.scale T1 t0).derivative (d + 1)).eval (t0 + T1)) (Set.Ici (t0 + T1)) (t0 + T1) := by
    refine right.congr (fun x hx => ?_) ?_
    · by_cases e : x ≤ t0 + T1
      · have : x = t0 + T1 := le_antisymm e hx
        rw [if_pos e, this, h d (by omega)]
      · rw [if_neg e]
    · rw [if_pos le_rfl, h d (by omega)]
  have := L.union R
  rw [Set.Iic_union_Ici, hasDerivWithinAt_univ] at this
  exact this

/-- Two quadratic segments of one and two seconds: the first ends at 1 with unit-time slope 2; the constraints hold for the second one
that starts at 1 with unit-time slope 4, and not with slope 2. -/
example :
    let s1 : BSpline ℚ := ⟨⟨[0, 0, 0, 1, 1, 1], 2⟩, [0, 0, 1]⟩
    let s2 : BSpline ℚ := ⟨⟨[0, 0, 0, 1, 1, 1], 2⟩, [1, 3, 3]⟩
    let s3 : BSpline ℚ := ⟨⟨[0, 0, 0, 1, 1, 1], 2⟩, [1, 2, 3]⟩
    connection [([s1], 1), ([s2], 2)] = [0, 0] ∧ connection [([s1], 1), ([s3], 2)] ≠ [0, 0] := by
  decide +kernel

/-- The requirement on the splines of `C34_joined` is met, e.g., by the quadratic above. -/
example : Spec.Unit 2 (⟨⟨[0, 0, 0, 1, 1, 1], 2⟩, [0, 0, 1]⟩ : BSpline ℚ) := by
  refine ⟨⟨by decide, by decide, ?_, by decide, ?_⟩, rfl, rfl, rfl, rfl⟩
  · intro i hi
    simp only at hi
    interval_cases i <;> rfl
  · intro i hi hi'
    simp only [Basis.len, List.length_cons, List.length_nil] at hi hi'
    interval_cases i <;> rfl

end Verif.Problems
