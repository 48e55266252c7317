import Verif.Spline.Warm

/-! # The initial guess of an update with several frames (C150)

`MultiFrameProblem.init_step` (multiframeproblem.py:228-249) with `shift_spline` (spline_extra.py:86-99). -/

set_option linter.unusedSectionVars false

namespace Verif.Problems.FramesStep

open Verif.Spline

variable {K : Type*} [Field K] [LinearOrder K] [IsStrictOrderedRing K]

/-! ## Model -/

/-- The argument of `shift_spline` and the (lowered) update time, multiframeproblem.py:234-245, for total
motion time `T` and update time `u`. -/
def framesShift (T u : K) : K × K := if T < 2 * u then ((T - u) / T, T - u) else (u / (T - u), u)

/-- `init_step` after the first update, multiframeproblem.py:228-249, on one spline variable of a vehicle: the
spline of each segment and the motion times of the segments. Only segment 0 is shifted (`seg_shift=[0]`, C69)
and only its motion time is changed; `none` is the exception of a singular system. -/
noncomputable def framesStep (segs : List (BSpline K)) (Ts : List K) (u : K) : Option (List (BSpline K) × List K) :=
  match segs, Ts with
  | s :: rest, T0 :: Trest =>
    (shiftSpline s (framesShift (T0 :: Trest).sum u).1).map fun r =>
      (r :: rest, (T0 - (framesShift (T0 :: Trest).sum u).2) :: Trest)
  | _, _ => none

theorem framesStep_some {s : BSpline K} {rest segs' : List (BSpline K)} {T0 u : K} {Trest Ts' : List K}
    (h : framesStep (s :: rest) (T0 :: Trest) u = some (segs', Ts')) :
    ∃ r, shiftSpline s (framesShift (T0 + Trest.sum) u).1 = some r ∧ segs' = r :: rest ∧
      Ts' = (T0 - (framesShift (T0 + Trest.sum) u).2) :: Trest := by
  unfold framesStep at h
  simp only [List.sum_cons] at h
  obtain ⟨r, hr, e⟩ := Option.map_eq_some_iff.1 h
  simp only [Prod.mk.injEq] at e
  exact ⟨r, hr, e.1.symm, e.2.symm⟩

/-! ## Properties -/

/-- **C150** (only the connection and the total motion time) In the initial guess of an update all
segments but the first and their motion times are those of the plan, the first still ends where the second
starts, and the guessed times add up to the time that is left, or to one update time if that is longer. -/
theorem C150_partial (s : BSpline K) (rest segs' : List (BSpline K)) (T0 u : K) (Trest Ts' : List K) (hs : IsPlan s)
    (hu : 0 < u) (hT : u < T0 + Trest.sum) (h2 : T0 + Trest.sum ≠ 2 * u)
    (h : framesStep (s :: rest) (T0 :: Trest) u = some (segs', Ts')) :
    (∃ r, segs' = r :: rest ∧ r.eval 1 = s.eval 1) ∧ Ts'.tail = Trest ∧
    Ts'.sum = max (T0 + Trest.sum - u) u := by
  obtain ⟨r, hr, rfl, rfl⟩ := framesStep_some h
  set T := T0 + Trest.sum with hTdef
  have hlt : (framesShift T u).1 < 1 := by
    unfold framesShift
    split_ifs with hc
    · exact (div_lt_one (by linarith)).2 (by linarith)
    · have : 2 * u < T := lt_of_le_of_ne (not_lt.1 hc) h2.symm
      exact (div_lt_one (by linarith)).2 (by linarith)
  have := (shiftSpline_ends hs.clamped hs.degree hs.stop (by rw [hs.last]; exact hlt) hr).2
  rw [hs.last] at this
  refine ⟨⟨r, rfl, this⟩, rfl, ?_⟩
  rw [List.sum_cons]
  unfold framesShift
  split_ifs with hc
  · rw [max_eq_right (by linarith), hTdef]
    ring
  · rw [max_eq_left (by linarith), hTdef]
    ring

/-- **C150** fails at the start: with more than two update times left, the guess starts at the instant
`T0 u / (T - u)` of the first segment, where `T` is the time left over all segments. This is the instant
`u` of the update only if the other segments take exactly `u`. -/
theorem C150_start_violated (s : BSpline K) (rest segs' : List (BSpline K)) (T0 u : K) (Trest Ts' : List K)
    (hs : IsPlan s) (hu : 0 < u) (h0 : 0 < T0) (hT : 2 * u < T0 + Trest.sum)
    (h : framesStep (s :: rest) (T0 :: Trest) u = some (segs', Ts')) :
    ∃ t r, segs' = r :: rest ∧ r.eval 0 = s.eval (t / T0) ∧ t = T0 * u / (T0 + Trest.sum - u) ∧
      (t = u ↔ Trest.sum = u) := by
  obtain ⟨r, hr, rfl, rfl⟩ := framesStep_some h
  set T := T0 + Trest.sum with hTdef
  have hTu : 0 < T - u := by linarith
  have e : (framesShift T u).1 = u / (T - u) := by unfold framesShift; rw [if_neg (by linarith)]
  rw [e] at hr
  have hlt : u / (T - u) < 1 := (div_lt_one hTu).2 (by linarith)
  have := (shiftSpline_ends hs.clamped hs.degree hs.stop (by rw [hs.last]; exact hlt) hr).1
  rw [hs.first] at this
  refine ⟨T0 * u / (T - u), r, rfl, ?_, rfl, ?_⟩
  · rw [this]
    congr 1
    field_simp
  · rw [div_eq_iff hTu.ne', mul_comm, mul_right_inj' hu.ne']
    constructor <;> intro hh <;> linarith

/-- **C150** a plan that moves on in its first segment is continued from another place than where it is,
unless the other segments take exactly one update. -/
theorem C150_moving_violated (s : BSpline K) (rest segs' : List (BSpline K)) (T0 u : K) (Trest Ts' : List K)
    (hs : IsPlan s) (hu : 0 < u) (h0 : u ≤ T0) (hT : 2 * u < T0 + Trest.sum) (hne : Trest.sum ≠ u)
    (hm : StrictMonoOn s.eval (Set.Icc 0 1))
    (h : framesStep (s :: rest) (T0 :: Trest) u = some (segs', Ts')) :
    ∃ r, segs' = r :: rest ∧ r.eval 0 ≠ s.eval (u / T0) := by
  have hT0 : 0 < T0 := hu.trans_le h0
  obtain ⟨t, r, e, e0, et, ht⟩ := C150_start_violated s rest segs' T0 u Trest Ts' hs hu hT0 hT h
  refine ⟨r, e, ?_⟩
  rw [e0]
  intro he
  have hTu : 0 < T0 + Trest.sum - u := by linarith
  have ht0 : t / T0 = u / (T0 + Trest.sum - u) := by rw [et]; field_simp
  have h1 : t / T0 ∈ Set.Icc (0 : K) 1 := by
    rw [ht0]
    exact ⟨(div_pos hu hTu).le, (div_le_one hTu).2 (by linarith)⟩
  have := hm.injOn h1 ⟨(div_pos hu hT0).le, (div_le_one hT0).2 h0⟩ he
  have e3 : t = u := by field_simp at this; exact this
  exact hne (ht.1 e3)

/-- **C150** when the first segment ends before the next update, its guessed motion time is negative. -/
theorem C150_negative_violated (s : BSpline K) (rest segs' : List (BSpline K)) (T0 u : K) (Trest Ts' : List K)
    (h0 : T0 < u) (hT : 2 * u ≤ T0 + Trest.sum) (h : framesStep (s :: rest) (T0 :: Trest) u = some (segs', Ts')) :
    ∃ T0', Ts' = T0' :: Trest ∧ T0' < 0 := by
  obtain ⟨r, hr, rfl, rfl⟩ := framesStep_some h
  refine ⟨_, rfl, ?_⟩
  have e : (framesShift (T0 + Trest.sum) u).2 = u := by unfold framesShift; rw [if_neg (not_lt.2 hT)]
  rw [e]
  linarith

/-! ## Examples -/

/-- The example of the free-time problem: `framesStep` succeeds whenever that one does. -/
theorem exLine_frames (T0 T1 u : ℚ) (h : (freeShift (T0 + T1) u).1 < 1) :
    ∃ r, framesStep [exLine, exLine] [T0, T1] u = some ([r, exLine], [T0 - (framesShift (T0 + T1) u).2, T1]) := by
  obtain ⟨s', h'⟩ := exLine_some (T0 + T1) u h
  obtain ⟨hr, -⟩ := freeStep_some h'
  have e : (framesShift (T0 + T1) u).1 = (freeShift (T0 + T1) u).1 := by
    unfold framesShift freeShift; split_ifs <;> rfl
  refine ⟨s', ?_⟩
  unfold framesStep
  simp only [List.sum_cons, List.sum_nil, add_zero]
  rw [e, hr]
  rfl

-- two segments of two and three seconds, updates of one second: the guess starts after half a second of the first
example : ∃ r, framesStep [exLine, exLine] [2, 3] 1 = some ([r, exLine], [1, 3]) ∧ r.eval 0 = exLine.eval (1 / 4) ∧
    r.eval 0 ≠ exLine.eval (1 / 2) := by
  have e : framesShift (2 + 3 : ℚ) 1 = (1 / 4, 1) := by decide +kernel
  obtain ⟨r, h⟩ := exLine_frames 2 3 1 (by norm_num [freeShift])
  rw [e] at h
  norm_num at h
  obtain ⟨t, r', e1, e2, e3, -⟩ := C150_start_violated exLine [exLine] [r, exLine] 2 1 [3] [1, 3] exLine_plan (by norm_num)
    (by norm_num) (by norm_num) h
  obtain ⟨r'', f1, f2⟩ := C150_moving_violated exLine [exLine] [r, exLine] 2 1 [3] [1, 3] exLine_plan (by norm_num)
    (by norm_num) (by norm_num) (by norm_num) exLine_mono h
  simp only [List.cons.injEq, and_true] at e1 f1
  subst e1 f1
  refine ⟨r, h, ?_, f2⟩
  rw [e2, e3]
  norm_num

example : ∃ r, framesStep [exLine, exLine] [1 / 2, 3] 1 = some ([r, exLine], [-(1 / 2), 3]) := by
  have e : framesShift (1 / 2 + 3 : ℚ) 1 = (2 / 5, 1) := by decide +kernel
  obtain ⟨r, h⟩ := exLine_frames (1 / 2) 3 1 (by norm_num [freeShift])
  rw [e] at h
  norm_num at h
  exact ⟨r, h⟩

end Verif.Problems.FramesStep
