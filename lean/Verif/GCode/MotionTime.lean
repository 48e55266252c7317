import Mathlib.Analysis.SpecialFunctions.Pow.Real
import Mathlib.Analysis.Calculus.MeanValue
import Mathlib.Analysis.Calculus.Deriv.Pow
import Mathlib.Analysis.Calculus.Deriv.MeanValue
import Mathlib.Tactic.Linarith
import Mathlib.Tactic.FieldSimp
import Mathlib.Data.Fin.VecNotation
import Mathlib.Algebra.BigOperators.Fin

/-! # The predicted time of a move from standstill to standstill (C143) -/

set_option linter.unusedSectionVars false

namespace Verif.GCode.MotionTime

open Set

/-! ## Model -/

/-- The limits of the tool in the plane and along the z-axis, tool.py:48-77. -/
structure Limits where
  vx : ℝ
  ax : ℝ
  jx : ℝ
  vz : ℝ
  az : ℝ
  jz : ℝ

/-- A segment of the program: a line with its end points, or an arc with the radii and angles of its room. -/
inductive Segment where
  | line (start finish : Fin 3 → ℝ)
  | arc (radiusIn radiusOut startAngle endAngle : ℝ)

/-- `distance` of `get_init_guess_motion_time`, gcodeschedulerproblem.py:1202-1212. -/
noncomputable def distance : Segment → ℝ
  | .line s e => ∑ l, (e l - s l) ^ 2
  | .arc ri ro s e => (ri + ro) * 0.5 * |e - s|

/-- The durations `T1`, `T2` and `T4`, gcodeschedulerproblem.py:1214-1234. -/
noncomputable def durations (j a v d : ℝ) : ℝ × ℝ × ℝ :=
  let T1acc := a / j
  let T1vel := Real.sqrt (v / j)
  let T1pos := (32 * d / j) ^ ((1 : ℝ) / 3) / 4
  let T1 := min T1acc (min T1vel T1pos)
  if T1 = T1pos then (T1, 0, 0)
  else if T1 = T1vel then (T1, 0, (d / 2 - j * T1 ^ 3) / v)
  else
    let T2pos := (2 * Real.sqrt (a * (a ^ 3 + 4 * d * j ^ 2) / 4) - 3 * a ^ 2) / (2 * a * j)
    let T2vel := (-a ^ 2 / j + v) / a
    let T2 := min T2vel T2pos
    if T2 = T2vel then (T1, T2, -(a ^ 2 * v - j * d * a + j * v ^ 2) / (2 * a * j * v)) else (T1, T2, 0)

/-- The sum of the eight phases, gcodeschedulerproblem.py:1235-1236. -/
noncomputable def totalTime (j a v d : ℝ) : ℝ :=
  let T := durations j a v d
  T.1 + T.2.1 + T.1 + T.2.2 + T.2.2 + T.1 + T.2.1 + T.1

/-- `get_init_guess_motion_time` without coefficients, gcodeschedulerproblem.py:1186-1237. -/
noncomputable def motionTime (L : Limits) (s : Segment) : ℝ :=
  let j := if L.jx ≠ 0 then L.jx else L.jz
  let a := if L.ax ≠ 0 then L.ax else L.az
  let v := if L.vx ≠ 0 then L.vx else L.vz
  totalTime j a v (distance s)

/-- `get_init_guess_total_motion_time`, gcodeschedulerproblem.py:1239-1244. -/
noncomputable def totalMotionTime (L : Limits) (rooms : List Segment) : ℝ := (rooms.map (motionTime L)).sum

/-! ## Specification -/

/-- A move over the distance `d` in the time `T`, from standstill to standstill, with limited velocity and acceleration; the
acceleration changes at most with the rate `j`. -/
structure Spec.Move (j a v d T : ℝ) (x vel acc : ℝ → ℝ) : Prop where
  start : x 0 = 0 ∧ vel 0 = 0 ∧ acc 0 = 0
  finish : x T = d ∧ vel T = 0 ∧ acc T = 0
  velocity : ∀ t ∈ Icc 0 T, HasDerivWithinAt x (vel t) (Icc 0 T) t
  acceleration : ∀ t ∈ Icc 0 T, HasDerivWithinAt vel (acc t) (Icc 0 T) t
  limits : ∀ t ∈ Icc 0 T, |vel t| ≤ v ∧ |acc t| ≤ a
  jerk : ∀ s ∈ Icc 0 T, ∀ t ∈ Icc 0 T, |acc t - acc s| ≤ j * |t - s|

/-- The times in which the distance can be covered. -/
def Spec.Times (j a v d : ℝ) : Set ℝ := {T | 0 ≤ T ∧ ∃ x vel acc, Spec.Move j a v d T x vel acc}

/-- The length of the path of a segment. -/
noncomputable def Spec.pathLength : Segment → ℝ
  | .line s e => Real.sqrt (∑ l, (e l - s l) ^ 2)
  | .arc ri ro s e => (ri + ro) / 2 * |e - s|

/-- The limits that hold for the moves: those of the plane, or, when these are zero, those of the z-axis. -/
noncomputable def Spec.lim (x z : ℝ) : ℝ := if x = 0 then z else x

/-! ## Lemmas: the durations -/

/-- What the durations have to satisfy. -/
structure Good (j a v d T1 T2 T4 : ℝ) : Prop where
  pos : 0 < T1
  n2 : 0 ≤ T2
  n4 : 0 ≤ T4
  acc : j * T1 ≤ a
  hold : T2 = 0 ∨ j * T1 = a
  vel : j * T1 * (T1 + T2) ≤ v
  cruise : T4 = 0 ∨ j * T1 * (T1 + T2) = v
  dist : j * T1 * (T1 + T2) * (2 * T1 + T2 + 2 * T4) = d

theorem cube_root (x : ℝ) (hx : 0 ≤ x) : (x ^ ((1 : ℝ) / 3)) ^ 3 = x := by
  rw [← Real.rpow_natCast, ← Real.rpow_mul hx]; norm_num

theorem durations_good (j a v d : ℝ) (hj : 0 < j) (ha : 0 < a) (hv : 0 < v) (hd : 0 < d) :
    Good j a v d (durations j a v d).1 (durations j a v d).2.1 (durations j a v d).2.2 := by
  have hc : ((32 * d / j) ^ ((1 : ℝ) / 3) / 4) ^ 3 = d / (2 * j) := by
    rw [div_pow, cube_root _ (by positivity)]; field_simp; norm_num
  have hp : 0 < (32 * d / j) ^ ((1 : ℝ) / 3) / 4 := by positivity
  have hs : Real.sqrt (v / j) ^ 2 = v / j := Real.sq_sqrt (by positivity)
  have hs0 : 0 < Real.sqrt (v / j) := Real.sqrt_pos.2 (by positivity)
  unfold durations
  simp only
  generalize (32 * d / j) ^ ((1 : ℝ) / 3) / 4 = P at *
  generalize Real.sqrt (v / j) = V at *
  have hm1 : min (a / j) (min V P) ≤ a / j := min_le_left _ _
  have hm2 : min (a / j) (min V P) ≤ V := (min_le_right _ _).trans (min_le_left _ _)
  have hm3 : min (a / j) (min V P) ≤ P := (min_le_right _ _).trans (min_le_right _ _)
  have hm0 : 0 < min (a / j) (min V P) := lt_min (by positivity) (lt_min hs0 hp)
  have hcases : min (a / j) (min V P) = a / j ∨ min (a / j) (min V P) = V ∨ min (a / j) (min V P) = P := by
    rcases min_choice (a / j) (min V P) with h | h
    · exact Or.inl h
    · rcases min_choice V P with h2 | h2
      · exact Or.inr (Or.inl (h.trans h2))
      · exact Or.inr (Or.inr (h.trans h2))
  generalize min (a / j) (min V P) = T1 at *
  have hcj : P ^ 3 * (2 * j) = d := by rw [hc]; field_simp
  have hsj : j * V ^ 2 = v := by rw [hs]; field_simp
  have haj : j * T1 ≤ a := by rw [le_div_iff₀ hj] at hm1; linarith
  have hvj : j * T1 * T1 ≤ v := by
    have : T1 ^ 2 ≤ V ^ 2 := pow_le_pow_left₀ hm0.le hm2 2
    nlinarith
  split_ifs with h1 h2 h3
  · subst h1
    exact ⟨hm0, le_rfl, le_rfl, haj, Or.inl rfl, by simpa using hvj, Or.inl rfl, by linear_combination hcj⟩
  · subst h2
    have : T1 ^ 3 ≤ P ^ 3 := pow_le_pow_left₀ hm0.le hm3 3
    refine ⟨hm0, le_rfl, ?_, haj, Or.inl rfl, by simpa using hvj, Or.inr (by linear_combination hsj), ?_⟩
    · apply div_nonneg _ hv.le
      have : j * T1 ^ 3 ≤ j * P ^ 3 := mul_le_mul_of_nonneg_left this hj.le
      linarith
    · have e : j * T1 * (T1 + 0) = v := by linear_combination hsj
      rw [e]; field_simp
      linear_combination (2 * T1) * (-hsj)
  all_goals
    have hT1 : T1 = a / j := by
      rcases hcases with h | h | h
      · exact h
      · exact absurd h h2
      · exact absurd h h1
    have hjT : j * T1 = a := by rw [hT1]; field_simp
    have l1 : T1 ^ 3 ≤ P ^ 3 := pow_le_pow_left₀ hm0.le hm3 3
    have hda : 2 * a ^ 3 ≤ d * j ^ 2 := by
      have : T1 ^ 3 * (2 * j) ≤ d := by nlinarith
      have e : 2 * a ^ 3 = T1 ^ 3 * (2 * j) * j ^ 2 := by rw [← hjT]; ring
      rw [e]; exact mul_le_mul_of_nonneg_right this (by positivity)
    have hva : a ^ 2 ≤ v * j := by
      have e : a ^ 2 = j * T1 * T1 * j := by rw [← hjT]; ring
      rw [e]; exact mul_le_mul_of_nonneg_right hvj hj.le
    have hq : 0 ≤ a * (a ^ 3 + 4 * d * j ^ 2) / 4 := by positivity
    have hq2 : (2 * Real.sqrt (a * (a ^ 3 + 4 * d * j ^ 2) / 4)) ^ 2 = a ^ 4 + 4 * d * j ^ 2 * a := by
      rw [mul_pow, Real.sq_sqrt hq]; ring
    have hq0 : 0 ≤ 2 * Real.sqrt (a * (a ^ 3 + 4 * d * j ^ 2) / 4) := by positivity
    have hq3 : 3 * a ^ 2 ≤ 2 * Real.sqrt (a * (a ^ 3 + 4 * d * j ^ 2) / 4) := by
      apply le_of_sq_le_sq _ hq0
      rw [hq2]; nlinarith
    generalize 2 * Real.sqrt (a * (a ^ 3 + 4 * d * j ^ 2) / 4) = Q at *
    have hp0 : 0 ≤ (Q - 3 * a ^ 2) / (2 * a * j) := div_nonneg (by linarith) (by positivity)
    have hv0 : 0 ≤ (-a ^ 2 / j + v) / a := by
      apply div_nonneg _ ha.le
      have : a ^ 2 / j ≤ v := by rw [div_le_iff₀ hj]; exact hva
      rw [neg_div]; linarith
    have hpd : a * (T1 + (Q - 3 * a ^ 2) / (2 * a * j)) * (2 * T1 + (Q - 3 * a ^ 2) / (2 * a * j)) = d := by
      rw [hT1]; field_simp; linear_combination hq2
    have hvd : a * (T1 + (-a ^ 2 / j + v) / a) = v := by rw [hT1]; field_simp; ring
    generalize (Q - 3 * a ^ 2) / (2 * a * j) = P2 at *
    have hV2 : 2 * T1 + (-a ^ 2 / j + v) / a = a / j + v / a := by rw [hT1]; field_simp; ring
  · have hle : (-a ^ 2 / j + v) / a ≤ P2 := by rw [← h3]; exact min_le_right _ _
    rw [h3]
    have hcmp : v * (a / j + v / a) ≤ d := by
      have h6 : 0 ≤ T1 + (-a ^ 2 / j + v) / a := by linarith
      have h7 : 0 ≤ 2 * T1 + (-a ^ 2 / j + v) / a := by linarith
      calc v * (a / j + v / a) = a * (T1 + (-a ^ 2 / j + v) / a) * (2 * T1 + (-a ^ 2 / j + v) / a) := by rw [hvd, hV2]
        _ ≤ a * (T1 + P2) * (2 * T1 + P2) := by gcongr
        _ = d := hpd
    have h4 : -(a ^ 2 * v - j * d * a + j * v ^ 2) / (2 * a * j * v) = (d - v * (a / j + v / a)) / (2 * v) := by field_simp; ring
    refine ⟨hm0, hv0, ?_, haj, Or.inr hjT, ?_, Or.inr ?_, ?_⟩
    · rw [h4]; exact div_nonneg (by linarith) (by positivity)
    · rw [hjT, hvd]
    · rw [hjT, hvd]
    · rw [hjT, hvd, hV2, h4]; field_simp; ring
  · have h5 : min ((-a ^ 2 / j + v) / a) P2 = P2 := by
      rcases min_choice ((-a ^ 2 / j + v) / a) P2 with h | h
      · exact absurd h h3
      · exact h
    have hle : P2 ≤ (-a ^ 2 / j + v) / a := by rw [← h5]; exact min_le_left _ _
    rw [h5]
    refine ⟨hm0, hp0, le_rfl, haj, Or.inr hjT, ?_, Or.inl rfl, ?_⟩
    · rw [hjT, ← hvd]; exact mul_le_mul_of_nonneg_left (by linarith) ha.le
    · rw [hjT]; simpa using hpd

/-! ## Lemmas: the profile -/

/-- Powers of the time since `c`. -/
noncomputable def ramp (n : ℕ) (c t : ℝ) : ℝ := max (t - c) 0 ^ n

theorem ramp_deriv (n : ℕ) (c t : ℝ) : HasDerivAt (ramp (n + 2) c) ((n + 2 : ℕ) * ramp (n + 1) c t) t := by
  have h1 : ∀ t, c ≤ t → HasDerivWithinAt (ramp (n + 2) c) ((n + 2 : ℕ) * ramp (n + 1) c t) (Ici c) t := by
    intro t ht
    have : HasDerivAt (fun y : ℝ => (y - c) ^ (n + 2)) (((n + 2 : ℕ) : ℝ) * (t - c) ^ (n + 1) * 1) t :=
      ((hasDerivAt_id t).sub_const c).pow (n + 2)
    rw [mul_one] at this
    unfold ramp
    rw [max_eq_left (by linarith)]
    refine this.hasDerivWithinAt.congr ?_ ?_
    · intro y hy; rw [max_eq_left (by linarith [show c ≤ y from hy])]
    · rw [max_eq_left (by linarith)]
  have h2 : ∀ t, t ≤ c → HasDerivWithinAt (ramp (n + 2) c) ((n + 2 : ℕ) * ramp (n + 1) c t) (Iic c) t := by
    intro t ht
    unfold ramp
    rw [max_eq_right (by linarith), zero_pow (by omega), mul_zero]
    refine (hasDerivWithinAt_const t _ (0 : ℝ)).congr ?_ ?_
    · intro y hy; rw [max_eq_right (by linarith [show y ≤ c from hy]), zero_pow (by omega)]
    · rw [max_eq_right (by linarith), zero_pow (by omega)]
  rcases lt_trichotomy t c with h | h | h
  · exact (h2 t h.le).hasDerivAt (Iic_mem_nhds h)
  · subst h
    have := (h2 t le_rfl).union (h1 t le_rfl)
    rw [Iic_union_Ici] at this
    exact this.hasDerivAt Filter.univ_mem
  · exact (h1 t h.le).hasDerivAt (Ici_mem_nhds h)

/-- The shape of a change of velocity, for `n = 1`, and its integrals. -/
noncomputable def sc (T1 T2 : ℝ) (n : ℕ) (t : ℝ) : ℝ :=
  ramp n 0 t - ramp n T1 t - ramp n (T1 + T2) t + ramp n (2 * T1 + T2) t

theorem sc_deriv (T1 T2 : ℝ) (n : ℕ) (t : ℝ) :
    HasDerivAt (sc T1 T2 (n + 2)) ((n + 2 : ℕ) * sc T1 T2 (n + 1) t) t := by
  have := (((ramp_deriv n 0 t).sub (ramp_deriv n T1 t)).sub (ramp_deriv n (T1 + T2) t)).add (ramp_deriv n (2 * T1 + T2) t)
  have e : (n + 2 : ℕ) * sc T1 T2 (n + 1) t = (n + 2 : ℕ) * ramp (n + 1) 0 t - (n + 2 : ℕ) * ramp (n + 1) T1 t
      - (n + 2 : ℕ) * ramp (n + 1) (T1 + T2) t + (n + 2 : ℕ) * ramp (n + 1) (2 * T1 + T2) t := by unfold sc; ring
  rw [e]; exact this

theorem ramp_of_le (n : ℕ) (c t : ℝ) (h : t ≤ c) : ramp (n + 1) c t = 0 := by
  unfold ramp; rw [max_eq_right (by linarith), zero_pow (by omega)]

theorem ramp_of_ge (n : ℕ) (c t : ℝ) (h : c ≤ t) : ramp n c t = (t - c) ^ n := by
  unfold ramp; rw [max_eq_left (by linarith)]

section
variable {T1 T2 : ℝ} (h1 : 0 < T1) (h2 : 0 ≤ T2)
include h1 h2

theorem sc_zero (n : ℕ) (t : ℝ) (ht : t ≤ 0) : sc T1 T2 (n + 1) t = 0 := by
  unfold sc
  rw [ramp_of_le n _ t (by linarith), ramp_of_le n _ t (by linarith), ramp_of_le n _ t (by linarith), ramp_of_le n _ t (by linarith)]
  ring

theorem sc1_up (t : ℝ) (h : 0 ≤ t) (h' : t ≤ T1) : sc T1 T2 1 t = t := by
  unfold sc
  rw [ramp_of_ge 1 _ t h, ramp_of_le 0 _ t h', ramp_of_le 0 _ t (by linarith), ramp_of_le 0 _ t (by linarith)]
  ring

theorem sc1_hold (t : ℝ) (h : T1 ≤ t) (h' : t ≤ T1 + T2) : sc T1 T2 1 t = T1 := by
  unfold sc
  rw [ramp_of_ge 1 _ t (by linarith), ramp_of_ge 1 _ t h, ramp_of_le 0 _ t h', ramp_of_le 0 _ t (by linarith)]
  ring

theorem sc1_down (t : ℝ) (h : T1 + T2 ≤ t) (h' : t ≤ 2 * T1 + T2) : sc T1 T2 1 t = 2 * T1 + T2 - t := by
  unfold sc
  rw [ramp_of_ge 1 _ t (by linarith), ramp_of_ge 1 _ t (by linarith), ramp_of_ge 1 _ t h, ramp_of_le 0 _ t h']
  ring

theorem sc1_nonneg (t : ℝ) : 0 ≤ sc T1 T2 1 t := by
  unfold sc ramp
  simp only [pow_one, max_def]
  split_ifs <;> linarith

theorem sc1_le (t : ℝ) : sc T1 T2 1 t ≤ T1 := by
  unfold sc ramp
  simp only [pow_one, max_def]
  split_ifs <;> linarith

theorem sc1_after (t : ℝ) (h : 2 * T1 + T2 ≤ t) : sc T1 T2 1 t = 0 := by
  unfold sc
  rw [ramp_of_ge 1 _ t (by linarith), ramp_of_ge 1 _ t (by linarith), ramp_of_ge 1 _ t (by linarith), ramp_of_ge 1 _ t h]
  ring

theorem sc2_after (t : ℝ) (h : 2 * T1 + T2 ≤ t) : sc T1 T2 2 t = 2 * (T1 * (T1 + T2)) := by
  unfold sc
  rw [ramp_of_ge 2 _ t (by linarith), ramp_of_ge 2 _ t (by linarith), ramp_of_ge 2 _ t (by linarith), ramp_of_ge 2 _ t h]
  ring

theorem sc3_after (t : ℝ) (h : 2 * T1 + T2 ≤ t) : sc T1 T2 3 t = 3 * (T1 * (T1 + T2)) * (2 * t - (2 * T1 + T2)) := by
  unfold sc
  rw [ramp_of_ge 3 _ t (by linarith), ramp_of_ge 3 _ t (by linarith), ramp_of_ge 3 _ t (by linarith), ramp_of_ge 3 _ t h]
  ring

theorem sc2_mono : Monotone (sc T1 T2 2) := by
  apply monotone_of_deriv_nonneg
  · intro t; exact (sc_deriv T1 T2 0 t).differentiableAt
  · intro t
    rw [(sc_deriv T1 T2 0 t).deriv]
    exact mul_nonneg (by positivity) (sc1_nonneg h1 h2 t)

theorem sc2_range (t : ℝ) : 0 ≤ sc T1 T2 2 t ∧ sc T1 T2 2 t ≤ 2 * (T1 * (T1 + T2)) := by
  constructor
  · rw [← sc_zero h1 h2 1 (min t 0) (min_le_right _ _)]
    exact sc2_mono h1 h2 (min_le_left _ _)
  · rw [← sc2_after h1 h2 (max t (2 * T1 + T2)) (le_max_right _ _)]
    exact sc2_mono h1 h2 (le_max_left _ _)

theorem sc2_pos (t : ℝ) (h : 0 < t) : 0 < sc T1 T2 2 t := by
  have hm : 0 < min t T1 := lt_min h h1
  have e : sc T1 T2 2 (min t T1) = (min t T1) ^ 2 := by
    have := min_le_right t T1
    unfold sc
    rw [ramp_of_ge 2 _ _ hm.le, ramp_of_le 1 _ _ this, ramp_of_le 1 _ _ (by linarith), ramp_of_le 1 _ _ (by linarith)]
    ring
  have : 0 < sc T1 T2 2 (min t T1) := by rw [e]; positivity
  exact this.trans_le (sc2_mono h1 h2 (min_le_left _ _))

theorem sc1_lipschitz (s : ℝ) (hs : 2 * T1 + T2 ≤ s) (t u : ℝ) :
    |(sc T1 T2 1 t - sc T1 T2 1 (t - s)) - (sc T1 T2 1 u - sc T1 T2 1 (u - s))| ≤ |t - u| := by
  wlog h : u ≤ t generalizing t u
  · rw [abs_sub_comm, abs_sub_comm t u]; exact this u t (le_of_not_ge h)
  have key : ∀ c c' : ℝ, c ≤ c' → ramp 1 c u - ramp 1 c' u ≤ ramp 1 c t - ramp 1 c' t := by
    intro c c' hc
    unfold ramp
    simp only [pow_one, max_def]
    split_ifs <;> linarith
  have one : ∀ c : ℝ, ramp 1 c t - ramp 1 c u ≤ t - u := by
    intro c
    unfold ramp
    simp only [pow_one, max_def]
    split_ifs <;> linarith
  have mono : ∀ c : ℝ, 0 ≤ ramp 1 c t - ramp 1 c u := by
    intro c
    unfold ramp
    simp only [pow_one, max_def]
    split_ifs <;> linarith
  have sh : ∀ c x : ℝ, ramp 1 c (x - s) = ramp 1 (c + s) x := by
    intro c x; unfold ramp; rw [show x - s - c = x - (c + s) by ring]
  unfold sc
  simp only [sh]
  have k1 := key 0 T1 (by linarith)
  have k2 := key T1 (T1 + T2) (by linarith)
  have k3 := key (T1 + T2) (2 * T1 + T2) (by linarith)
  have k4 := key (2 * T1 + T2) (0 + s) (by linarith)
  have k5 := key (0 + s) (T1 + s) (by linarith)
  have k6 := key (T1 + s) (T1 + T2 + s) (by linarith)
  have k7 := key (T1 + T2 + s) (2 * T1 + T2 + s) (by linarith)
  have k8 := one 0
  have k9 := mono (2 * T1 + T2 + s)
  rw [abs_of_nonneg (sub_nonneg.2 h), abs_le]
  constructor <;> linarith

end

/-- The move with the profile. -/
theorem profile_move (j a v d T1 T2 T4 : ℝ) (hj : 0 < j) (g : Good j a v d T1 T2 T4) :
    Spec.Move j a v d (2 * (2 * T1 + T2 + T4))
      (fun t => j / 6 * (sc T1 T2 3 t - sc T1 T2 3 (t - (2 * T1 + T2 + 2 * T4))))
      (fun t => j / 2 * (sc T1 T2 2 t - sc T1 T2 2 (t - (2 * T1 + T2 + 2 * T4))))
      (fun t => j * (sc T1 T2 1 t - sc T1 T2 1 (t - (2 * T1 + T2 + 2 * T4)))) := by
  obtain ⟨h1, h2, h4, ha, -, hv, -, hd⟩ := g
  set s := 2 * T1 + T2 + 2 * T4 with hs
  have hT : 2 * (2 * T1 + T2 + T4) - s = 2 * T1 + T2 := by rw [hs]; ring
  have hsh : ∀ n t, HasDerivAt (fun t => sc T1 T2 (n + 2) (t - s)) ((n + 2 : ℕ) * sc T1 T2 (n + 1) (t - s)) t := by
    intro n t
    have := (sc_deriv T1 T2 n (t - s)).comp t ((hasDerivAt_id t).sub_const s)
    rw [mul_one] at this
    exact this
  refine ⟨⟨?_, ?_, ?_⟩, ⟨?_, ?_, ?_⟩, ?_, ?_, ?_, ?_⟩
  · rw [sc_zero h1 h2 2 0 le_rfl, sc_zero h1 h2 2 _ (by linarith)]; ring
  · rw [sc_zero h1 h2 1 0 le_rfl, sc_zero h1 h2 1 _ (by linarith)]; ring
  · rw [sc_zero h1 h2 0 0 le_rfl, sc_zero h1 h2 0 _ (by linarith)]; ring
  · rw [hT, sc3_after h1 h2 _ (by linarith), sc3_after h1 h2 _ le_rfl, ← hd]; ring
  · rw [hT, sc2_after h1 h2 _ (by linarith), sc2_after h1 h2 _ le_rfl]; ring
  · rw [hT, sc1_after h1 h2 _ (by linarith), sc1_after h1 h2 _ le_rfl]; ring
  · intro t _
    have := (((sc_deriv T1 T2 1 t).sub (hsh 1 t)).const_mul (j / 6)).hasDerivWithinAt (s := Icc 0 (2 * (2 * T1 + T2 + T4)))
    have e : j / 6 * (((1 + 2 : ℕ) : ℝ) * sc T1 T2 (1 + 1) t - ((1 + 2 : ℕ) : ℝ) * sc T1 T2 (1 + 1) (t - s))
        = j / 2 * (sc T1 T2 2 t - sc T1 T2 2 (t - s)) := by push_cast; ring
    rw [e] at this
    exact this
  · intro t _
    have := (((sc_deriv T1 T2 0 t).sub (hsh 0 t)).const_mul (j / 2)).hasDerivWithinAt (s := Icc 0 (2 * (2 * T1 + T2 + T4)))
    have e : j / 2 * (((0 + 2 : ℕ) : ℝ) * sc T1 T2 (0 + 1) t - ((0 + 2 : ℕ) : ℝ) * sc T1 T2 (0 + 1) (t - s))
        = j * (sc T1 T2 1 t - sc T1 T2 1 (t - s)) := by push_cast; ring
    rw [e] at this
    exact this
  · intro t _
    constructor
    · have r1 := sc2_range h1 h2 t
      have r2 := sc2_range h1 h2 (t - s)
      have : |sc T1 T2 2 t - sc T1 T2 2 (t - s)| ≤ 2 * (T1 * (T1 + T2)) := by rw [abs_le]; constructor <;> linarith [r1.1, r1.2, r2.1, r2.2]
      rw [abs_mul, abs_of_pos (by positivity)]
      calc j / 2 * |sc T1 T2 2 t - sc T1 T2 2 (t - s)| ≤ j / 2 * (2 * (T1 * (T1 + T2))) := by gcongr
        _ = j * T1 * (T1 + T2) := by ring
        _ ≤ v := hv
    · have r1 := sc1_nonneg h1 h2 t
      have r2 := sc1_nonneg h1 h2 (t - s)
      have r3 := sc1_le h1 h2 t
      have r4 := sc1_le h1 h2 (t - s)
      have : |sc T1 T2 1 t - sc T1 T2 1 (t - s)| ≤ T1 := by rw [abs_le]; constructor <;> linarith
      rw [abs_mul, abs_of_pos hj]
      exact (mul_le_mul_of_nonneg_left this hj.le).trans ha
  · intro u _ t _
    rw [← mul_sub, abs_mul, abs_of_pos hj]
    exact mul_le_mul_of_nonneg_left (sc1_lipschitz h1 h2 s (by linarith) t u) hj.le

/-! ## Lemmas: no move is faster -/

theorem le_of_rates {f f' g g' : ℝ → ℝ} {p q : ℝ} (hf : ∀ t ∈ Icc p q, HasDerivWithinAt f (f' t) (Icc p q) t)
    (hg : ∀ t ∈ Icc p q, HasDerivWithinAt g (g' t) (Icc p q) t) (h0 : f p ≤ g p) (h : ∀ t ∈ Icc p q, f' t ≤ g' t)
    {t : ℝ} (ht : t ∈ Icc p q) : f t ≤ g t := by
  have loc : ∀ {F : ℝ → ℝ} {F' x : ℝ}, x ∈ Ico p q → HasDerivWithinAt F F' (Icc p q) x → HasDerivWithinAt F F' (Ici x) x := by
    intro F F' x hx hF
    exact hF.mono_of_mem_nhdsWithin (Icc_mem_nhdsGE_of_mem hx)
  exact image_le_of_deriv_right_le_deriv_boundary (fun x hx => (hf x hx).continuousWithinAt)
    (fun x hx => loc hx (hf x ⟨hx.1, hx.2.le⟩)) h0 (fun x hx => (hg x hx).continuousWithinAt)
    (fun x hx => loc hx (hg x ⟨hx.1, hx.2.le⟩)) (fun x hx => h x ⟨hx.1, hx.2.le⟩) ht

/-- Half of a move, made symmetric. -/
structure Half (j a v d H : ℝ) (y w b : ℝ → ℝ) : Prop where
  y0 : y 0 = 0
  w0 : w 0 = 0
  b0 : b 0 = 0
  yH : y H = d / 2
  bH : b H = 0
  dy : ∀ t ∈ Icc 0 H, HasDerivWithinAt y (w t) (Icc 0 H) t
  dw : ∀ t ∈ Icc 0 H, HasDerivWithinAt w (b t) (Icc 0 H) t
  lv : ∀ t ∈ Icc 0 H, w t ≤ v
  la : ∀ t ∈ Icc 0 H, b t ≤ a
  lj : ∀ s ∈ Icc 0 H, ∀ t ∈ Icc 0 H, |b t - b s| ≤ j * |t - s|

theorem half_of_move {j a v d T : ℝ} {x vel acc : ℝ → ℝ} (hT : 0 ≤ T) (m : Spec.Move j a v d T x vel acc) :
    Half j a v d (T / 2) (fun t => (x t - x (T - t) + d) / 2) (fun t => (vel t + vel (T - t)) / 2)
      (fun t => (acc t - acc (T - t)) / 2) := by
  have hin : ∀ t ∈ Icc 0 (T / 2), t ∈ Icc 0 T ∧ T - t ∈ Icc 0 T := fun t ht =>
    ⟨⟨ht.1, by linarith [ht.2]⟩, ⟨by linarith [ht.2], by linarith [ht.1]⟩⟩
  have refl : ∀ {F F' : ℝ → ℝ}, (∀ t ∈ Icc 0 T, HasDerivWithinAt F (F' t) (Icc 0 T) t) → ∀ t ∈ Icc 0 (T / 2),
      HasDerivWithinAt (fun t => F (T - t)) (-F' (T - t)) (Icc 0 (T / 2)) t := by
    intro F F' hF t ht
    have h1 := hF (T - t) (hin t ht).2
    have h2 : HasDerivWithinAt (fun t : ℝ => T - t) (-1) (Icc 0 (T / 2)) t := by
      have := ((hasDerivAt_id t).const_sub T).hasDerivWithinAt (s := Icc 0 (T / 2))
      exact this
    have h3 := HasDerivWithinAt.comp t h1 h2 (fun s hs => (hin s hs).2)
    rw [mul_neg_one] at h3
    exact h3
  have sub : Icc 0 (T / 2) ⊆ Icc 0 T := fun t ht => (hin t ht).1
  obtain ⟨⟨x0, v0, a0⟩, ⟨xT, vT, aT⟩, hx, hv, hl, hj⟩ := m
  have hh : T - T / 2 = T / 2 := by ring
  refine ⟨?_, ?_, ?_, ?_, ?_, ?_, ?_, ?_, ?_, ?_⟩
  · rw [sub_zero, x0, xT]; ring
  · rw [sub_zero, v0, vT]; ring
  · rw [sub_zero, a0, aT]; ring
  · rw [hh]; ring
  · rw [hh]; ring
  · intro t ht
    have := ((((hx t (sub ht)).mono sub).sub (refl hx t ht)).add_const d).div_const 2
    rw [sub_neg_eq_add] at this
    exact this
  · intro t ht
    have := (((hv t (sub ht)).mono sub).add (refl hv t ht)).div_const 2
    rw [← sub_eq_add_neg] at this
    exact this
  · intro t ht
    have h1 := (abs_le.1 (hl t (hin t ht).1).1).2
    have h2 := (abs_le.1 (hl (T - t) (hin t ht).2).1).2
    linarith
  · intro t ht
    have h1 := (abs_le.1 (hl t (hin t ht).1).2).2
    have h2 := (abs_le.1 (hl (T - t) (hin t ht).2).2).1
    linarith
  · intro s hs t ht
    have h1 := abs_le.1 (hj s (hin s hs).1 t (hin t ht).1)
    have h2 := abs_le.1 (hj (T - s) (hin s hs).2 (T - t) (hin t ht).2)
    have e : |T - t - (T - s)| = |t - s| := by rw [show T - t - (T - s) = -(t - s) by ring, abs_neg]
    rw [e] at h2
    rw [abs_le]; constructor <;> linarith [h1.1, h1.2, h2.1, h2.2]

/-- The distance covered by the profile until the middle. -/
theorem ystar_mid {j a v d T1 T2 T4 : ℝ} (g : Good j a v d T1 T2 T4) : j / 6 * sc T1 T2 3 (2 * T1 + T2 + T4) = d / 2 := by
  rw [sc3_after g.pos g.n2 _ (by linarith [g.n4]), ← g.dist]; ring

theorem ystar_strict {j T1 T2 : ℝ} (hj : 0 < j) (h1 : 0 < T1) (h2 : 0 ≤ T2) {s t : ℝ} (hs : 0 ≤ s) (h : s < t) :
    j / 6 * sc T1 T2 3 s < j / 6 * sc T1 T2 3 t := by
  have : StrictMonoOn (sc T1 T2 3) (Ici 0) := by
    apply strictMonoOn_of_deriv_pos (convex_Ici 0)
    · exact fun x _ => (sc_deriv T1 T2 1 x).continuousAt.continuousWithinAt
    · intro x hx
      rw [interior_Ici] at hx
      rw [(sc_deriv T1 T2 1 x).deriv]
      exact mul_pos (by positivity) (sc2_pos h1 h2 x hx)
  exact mul_lt_mul_of_pos_left (this hs (hs.trans h.le) h) (by positivity)

theorem half_bound {j a v d d' T1 T2 T4 H : ℝ} {y w b : ℝ → ℝ} (hj : 0 < j) (hH : 0 ≤ H) (g : Good j a v d T1 T2 T4)
    (m : Half j a v d' H y w b) (hle : H ≤ 2 * T1 + T2 + T4) : d' ≤ d ∧ (H < 2 * T1 + T2 + T4 → d' < d) := by
  have h1 := g.pos
  have h2 := g.n2
  have h4 := g.n4
  -- the acceleration in the first two phases
  have early : ∀ t ∈ Icc 0 H, t ≤ T1 + T2 → b t ≤ j * sc T1 T2 1 t := by
    intro t ht h
    by_cases hc : t ≤ T1
    · rw [sc1_up h1 h2 t ht.1 hc]
      have := (abs_le.1 (m.lj 0 ⟨le_rfl, hH⟩ t ht)).2
      rw [m.b0, sub_zero, sub_zero, abs_of_nonneg ht.1] at this
      exact this
    · push Not at hc
      rw [sc1_hold h1 h2 t hc.le h]
      rcases g.hold with h0 | h0
      · exfalso; rw [h0] at h; linarith
      · rw [h0]; exact m.la t ht
  have dys : ∀ S : Set ℝ, ∀ t, HasDerivWithinAt (fun t => j / 6 * sc T1 T2 3 t) (j / 2 * sc T1 T2 2 t) S t := by
    intro S t
    have := ((sc_deriv T1 T2 1 t).const_mul (j / 6)).hasDerivWithinAt (s := S)
    have e : j / 6 * (((1 + 2 : ℕ) : ℝ) * sc T1 T2 (1 + 1) t) = j / 2 * sc T1 T2 2 t := by push_cast; ring
    rw [e] at this; exact this
  have dws : ∀ S : Set ℝ, ∀ t, HasDerivWithinAt (fun t => j / 2 * sc T1 T2 2 t) (j * sc T1 T2 1 t) S t := by
    intro S t
    have := ((sc_deriv T1 T2 0 t).const_mul (j / 2)).hasDerivWithinAt (s := S)
    have e : j / 2 * (((0 + 2 : ℕ) : ℝ) * sc T1 T2 (0 + 1) t) = j * sc T1 T2 1 t := by push_cast; ring
    rw [e] at this; exact this
  have ys0 : j / 6 * sc T1 T2 3 0 = 0 := by rw [sc_zero h1 h2 2 0 le_rfl, mul_zero]
  have ws0 : j / 2 * sc T1 T2 2 0 = 0 := by rw [sc_zero h1 h2 1 0 le_rfl, mul_zero]
  have hmid := ystar_mid g
  by_cases hcase : H ≤ 2 * T1 + T2
  · have hb : ∀ t ∈ Icc 0 H, b t ≤ j * sc T1 T2 1 t := by
      intro t ht
      by_cases hc : t ≤ T1 + T2
      · exact early t ht hc
      · push Not at hc
        rw [sc1_down h1 h2 t hc.le (ht.2.trans hcase)]
        have := (abs_le.1 (m.lj H ⟨hH, le_rfl⟩ t ht)).2
        rw [m.bH, sub_zero, abs_of_nonpos (by linarith [ht.2])] at this
        refine this.trans (mul_le_mul_of_nonneg_left (by linarith) hj.le)
    have hw : ∀ t ∈ Icc 0 H, w t ≤ j / 2 * sc T1 T2 2 t := fun t ht =>
      le_of_rates m.dw (fun t _ => dws _ t) (by rw [m.w0, ws0]) hb ht
    have hy : y H ≤ j / 6 * sc T1 T2 3 H :=
      le_of_rates m.dy (fun t _ => dys _ t) (by rw [m.y0, ys0]) hw ⟨hH, le_rfl⟩
    rw [m.yH] at hy
    constructor
    · rcases hle.lt_or_eq with h | h
      · linarith [ystar_strict hj h1 h2 hH h]
      · rw [h] at hy; linarith
    · intro h; linarith [ystar_strict hj h1 h2 hH h]
  · push Not at hcase
    have hV : j * T1 * (T1 + T2) = v := by
      rcases g.cruise with h | h
      · exfalso; rw [h] at hle; linarith
      · exact h
    set τ := 2 * T1 + T2 with hτ
    have hτ0 : 0 ≤ τ := by linarith
    have dPhi : ∀ (Y W B : ℝ → ℝ) (S : Set ℝ) (t : ℝ), HasDerivWithinAt Y (W t) S t → HasDerivWithinAt W (B t) S t →
        HasDerivWithinAt (fun t => Y t + (τ - t - T1 / 2) * W t) ((τ - t - T1 / 2) * B t) S t := by
      intro Y W B S t hY hW
      have hl : HasDerivWithinAt (fun t : ℝ => τ - t - T1 / 2) (-1) S t :=
        (((hasDerivAt_id t).const_sub τ).sub_const (T1 / 2)).hasDerivWithinAt
      have := hY.add (hl.mul hW)
      have e : W t + (-1 * W t + (τ - t - T1 / 2) * B t) = (τ - t - T1 / 2) * B t := by ring
      rw [e] at this
      exact this
    -- until the end of the second phase
    have hm : T1 + T2 ∈ Icc 0 (T1 + T2) := ⟨by linarith, le_rfl⟩
    have sub1 : Icc 0 (T1 + T2) ⊆ Icc 0 H := Icc_subset_Icc_right (by linarith)
    have s1 := le_of_rates (p := 0) (q := T1 + T2)
      (f := fun t => y t + (τ - t - T1 / 2) * w t) (g := fun t => j / 6 * sc T1 T2 3 t + (τ - t - T1 / 2) * (j / 2 * sc T1 T2 2 t))
      (fun t ht => dPhi y w b _ t ((m.dy t (sub1 ht)).mono sub1) ((m.dw t (sub1 ht)).mono sub1))
      (fun t _ => dPhi (fun t => j / 6 * sc T1 T2 3 t) (fun t => j / 2 * sc T1 T2 2 t) (fun t => j * sc T1 T2 1 t) _ t (dys _ t) (dws _ t))
      (by rw [m.y0, m.w0, ys0, ws0])
      (fun t ht => mul_le_mul_of_nonneg_left (early t (sub1 ht) ht.2) (by linarith [ht.2])) hm
    -- the third phase
    have sub2 : Icc (T1 + T2) τ ⊆ Icc 0 H := Icc_subset_Icc (by linarith) hcase.le
    have hc : τ - T1 / 2 ∈ Icc (T1 + T2) τ := ⟨by linarith, by linarith⟩
    set c := b (τ - T1 / 2) - j * sc T1 T2 1 (τ - T1 / 2) with hcdef
    have dK : ∀ (S : Set ℝ) (t : ℝ), HasDerivWithinAt (fun t : ℝ => c * (-(τ - t) ^ 2 / 2 + T1 / 2 * (τ - t))) ((τ - t - T1 / 2) * c) S t := by
      intro S t
      have hl : HasDerivAt (fun t : ℝ => τ - t) (-1) t := (hasDerivAt_id t).const_sub τ
      have := ((((hl.pow 2).neg).div_const 2).add (hl.const_mul (T1 / 2))).const_mul c
      have e : c * (-(((2 : ℕ) : ℝ) * (τ - t) ^ (2 - 1) * -1) / 2 + T1 / 2 * -1) = (τ - t - T1 / 2) * c := by push_cast; ring
      rw [e] at this
      exact this.hasDerivWithinAt
    have s2 := le_of_rates (p := T1 + T2) (q := τ)
      (f := fun t => y t + (τ - t - T1 / 2) * w t)
      (g := fun t => (j / 6 * sc T1 T2 3 t + (τ - t - T1 / 2) * (j / 2 * sc T1 T2 2 t)) + c * (-(τ - t) ^ 2 / 2 + T1 / 2 * (τ - t)))
      (fun t ht => dPhi y w b _ t ((m.dy t (sub2 ht)).mono sub2) ((m.dw t (sub2 ht)).mono sub2))
      (fun t _ => (dPhi (fun t => j / 6 * sc T1 T2 3 t) (fun t => j / 2 * sc T1 T2 2 t) (fun t => j * sc T1 T2 1 t) _ t (dys _ t) (dws _ t)).add (dK _ t))
      (by
        have e : c * (-(τ - (T1 + T2)) ^ 2 / 2 + T1 / 2 * (τ - (T1 + T2))) = 0 := by rw [hτ]; ring
        rw [e, add_zero]; exact s1)
      (by
        intro t ht
        have l := abs_le.1 (m.lj (τ - T1 / 2) (sub2 hc) t (sub2 ht))
        rw [hcdef, sc1_down h1 h2 t ht.1 ht.2, sc1_down h1 h2 _ hc.1 hc.2]
        rcases le_total t (τ - T1 / 2) with h | h
        · rw [abs_of_nonpos (by linarith)] at l
          have : b t ≤ j * (τ - t) + (b (τ - T1 / 2) - j * (τ - (τ - T1 / 2))) := by linarith [l.2]
          have := mul_le_mul_of_nonneg_left this (show 0 ≤ τ - t - T1 / 2 by linarith)
          linarith
        · rw [abs_of_nonneg (by linarith)] at l
          have : j * (τ - t) + (b (τ - T1 / 2) - j * (τ - (τ - T1 / 2))) ≤ b t := by linarith [l.1]
          have := mul_le_mul_of_nonpos_left this (show τ - t - T1 / 2 ≤ 0 by linarith)
          linarith)
      (show τ ∈ Icc (T1 + T2) τ from ⟨by linarith, le_rfl⟩)
    have hyτ : y τ ≤ j / 6 * sc T1 T2 3 τ := by
      have hw := m.lv τ ⟨hτ0, hcase.le⟩
      have e : j / 2 * sc T1 T2 2 τ = v := by rw [sc2_after h1 h2 τ le_rfl, ← hV]; ring
      rw [e] at s2
      nlinarith
    -- at the highest velocity
    have sub3 : Icc τ H ⊆ Icc 0 H := Icc_subset_Icc_left hτ0
    have s3 := le_of_rates (p := τ) (q := H) (f := y) (g := fun t => j / 6 * sc T1 T2 3 τ + v * (t - τ))
      (fun t ht => (m.dy t (sub3 ht)).mono sub3)
      (fun t _ => by
        have := ((((hasDerivAt_id t).sub_const τ).const_mul v).const_add (j / 6 * sc T1 T2 3 τ)).hasDerivWithinAt (s := Icc τ H)
        rw [mul_one] at this
        exact this)
      (by linarith) (fun t ht => m.lv t (sub3 ht)) (show H ∈ Icc τ H from ⟨hcase.le, le_rfl⟩)
    have e : j / 6 * sc T1 T2 3 (τ + T4) = j / 6 * sc T1 T2 3 τ + v * T4 := by
      rw [sc3_after h1 h2 _ (by linarith), sc3_after h1 h2 _ le_rfl, ← hV, hτ]; ring
    rw [e] at hmid
    rw [m.yH] at s3
    have hv : 0 < v := by rw [← hV]; positivity
    constructor
    · nlinarith
    · intro h; nlinarith

/-- In less time no move covers the distance, in the same time none covers more. -/
theorem move_bound {j a v d d' T1 T2 T4 T : ℝ} {x vel acc : ℝ → ℝ} (hj : 0 < j) (hT : 0 ≤ T) (g : Good j a v d T1 T2 T4)
    (m : Spec.Move j a v d' T x vel acc) (hle : T ≤ 2 * (2 * T1 + T2 + T4)) : d' ≤ d ∧ (T < 2 * (2 * T1 + T2 + T4) → d' < d) := by
  have := half_bound hj (by linarith) g (half_of_move hT m) (by linarith)
  exact ⟨this.1, fun h => this.2 (by linarith)⟩

theorem totalTime_eq (j a v d : ℝ) : totalTime j a v d
    = 2 * (2 * (durations j a v d).1 + (durations j a v d).2.1 + (durations j a v d).2.2) := by
  unfold totalTime; ring

theorem durations_zero (j a v : ℝ) (hj : 0 < j) (ha : 0 < a) : durations j a v 0 = (0, 0, 0) := by
  have e : (32 * (0 : ℝ) / j) ^ ((1 : ℝ) / 3) / 4 = 0 := by
    rw [mul_zero, zero_div, Real.zero_rpow (by norm_num), zero_div]
  have hm : min (a / j) (min (Real.sqrt (v / j)) 0) = 0 := by
    rw [min_eq_right (Real.sqrt_nonneg _), min_eq_right (by positivity)]
  unfold durations
  simp only [e, hm, if_true]

theorem chosen_limit (x z : ℝ) : (if x ≠ 0 then x else z) = Spec.lim x z := by
  unfold Spec.lim
  by_cases h : x = 0 <;> simp [h]

/-! ## Property C143 -/

/-- For a given distance, the sum of the phases is the least time in which a move from standstill to standstill is possible. -/
theorem C143_least (j a v d : ℝ) (hj : 0 < j) (ha : 0 < a) (hv : 0 < v) (hd : 0 ≤ d) :
    IsLeast (Spec.Times j a v d) (totalTime j a v d) := by
  rw [totalTime_eq]
  rcases hd.lt_or_eq with h | h
  · have g := durations_good j a v d hj ha hv h
    refine ⟨⟨?_, _, _, _, profile_move j a v d _ _ _ hj g⟩, ?_⟩
    · have := g.pos; have := g.n2; have := g.n4; linarith
    · rintro T ⟨hT, x, vel, acc, m⟩
      by_contra hc
      push Not at hc
      exact absurd ((move_bound hj hT g m hc.le).2 hc) (lt_irrefl _)
  · subst h
    rw [durations_zero j a v hj ha]
    norm_num
    refine ⟨⟨le_rfl, fun _ => 0, fun _ => 0, fun _ => 0, ⟨rfl, rfl, rfl⟩, ⟨rfl, rfl, rfl⟩, ?_, ?_, ?_, ?_⟩, fun T hT => hT.1⟩
    · intro t _; exact hasDerivWithinAt_const _ _ _
    · intro t _; exact hasDerivWithinAt_const _ _ _
    · intro t _; rw [abs_zero]; exact ⟨hv.le, ha.le⟩
    · intro s _ t _; rw [sub_self, abs_zero]; positivity

/-- The predicted time of an arc, and of a line of length one or zero, is the least possible. -/
theorem C143_partial (L : Limits) (s : Segment) (hj : 0 < Spec.lim L.jx L.jz) (ha : 0 < Spec.lim L.ax L.az)
    (hv : 0 < Spec.lim L.vx L.vz)
    (hs : (∃ ri ro b e, 0 ≤ ri ∧ 0 ≤ ro ∧ s = .arc ri ro b e) ∨ Spec.pathLength s = 1 ∨ Spec.pathLength s = 0) :
    IsLeast (Spec.Times (Spec.lim L.jx L.jz) (Spec.lim L.ax L.az) (Spec.lim L.vx L.vz) (Spec.pathLength s)) (motionTime L s) := by
  unfold motionTime
  simp only [chosen_limit]
  have key : distance s = Spec.pathLength s ∧ 0 ≤ Spec.pathLength s := by
    cases s with
    | arc ri ro b e =>
      rcases hs with ⟨ri', ro', b', e', h1, h2, h⟩ | h
      · cases h
        unfold distance Spec.pathLength
        exact ⟨by ring, by positivity⟩
      · have e : distance (.arc ri ro b e) = Spec.pathLength (.arc ri ro b e) := by unfold distance Spec.pathLength; ring
        exact ⟨e, by rcases h with h | h <;> rw [h]; exact zero_le_one⟩
    | line b e =>
      have hn : 0 ≤ ∑ l, (e l - b l) ^ 2 := Finset.sum_nonneg fun _ _ => sq_nonneg _
      rcases hs with ⟨_, _, _, _, _, _, h⟩ | h | h
      · cases h
      · have h' : Real.sqrt (∑ l, (e l - b l) ^ 2) = 1 := h
        rw [h]
        refine ⟨?_, zero_le_one⟩
        show ∑ l, (e l - b l) ^ 2 = 1
        rw [← Real.sq_sqrt hn, h']; norm_num
      · have h' : Real.sqrt (∑ l, (e l - b l) ^ 2) = 0 := h
        rw [h]
        refine ⟨?_, le_rfl⟩
        show ∑ l, (e l - b l) ^ 2 = 0
        rw [← Real.sq_sqrt hn, h']; norm_num
  rw [← key.1]
  exact C143_least _ _ _ _ hj ha hv (by rw [key.1]; exact key.2)

/-- The total is the sum of the least times, for programs of such segments. -/
theorem C143_total_partial (L : Limits) (rooms : List Segment) (hj : 0 < Spec.lim L.jx L.jz) (ha : 0 < Spec.lim L.ax L.az)
    (hv : 0 < Spec.lim L.vx L.vz)
    (hs : ∀ s ∈ rooms, (∃ ri ro b e, 0 ≤ ri ∧ 0 ≤ ro ∧ s = .arc ri ro b e) ∨ Spec.pathLength s = 1 ∨ Spec.pathLength s = 0) :
    ∃ ts : List ℝ, List.Forall₂ (fun s T => IsLeast
      (Spec.Times (Spec.lim L.jx L.jz) (Spec.lim L.ax L.az) (Spec.lim L.vx L.vz) (Spec.pathLength s)) T) rooms ts ∧
      totalMotionTime L rooms = ts.sum := by
  refine ⟨rooms.map (motionTime L), ?_, rfl⟩
  rw [List.forall₂_map_right_iff, List.forall₂_same]
  exact fun s h => C143_partial L s hj ha hv (hs s h)

/-- Lines: when the length is more than one, the segment can be covered in less than the predicted time; when it is less than one,
it cannot be covered in the predicted time. -/
theorem C143_violated (L : Limits) (s e : Fin 3 → ℝ) (hj : 0 < Spec.lim L.jx L.jz) (ha : 0 < Spec.lim L.ax L.az)
    (hv : 0 < Spec.lim L.vx L.vz) :
    (1 < Spec.pathLength (.line s e) → ∃ T ∈ Spec.Times (Spec.lim L.jx L.jz) (Spec.lim L.ax L.az) (Spec.lim L.vx L.vz)
      (Spec.pathLength (.line s e)), T < motionTime L (.line s e)) ∧
    (0 < Spec.pathLength (.line s e) → Spec.pathLength (.line s e) < 1 →
      motionTime L (.line s e) ∉ Spec.Times (Spec.lim L.jx L.jz) (Spec.lim L.ax L.az) (Spec.lim L.vx L.vz)
        (Spec.pathLength (.line s e))) := by
  have hn : 0 ≤ ∑ l, (e l - s l) ^ 2 := Finset.sum_nonneg fun _ _ => sq_nonneg _
  have hd : distance (.line s e) = Spec.pathLength (.line s e) ^ 2 := (Real.sq_sqrt hn).symm
  have hm : motionTime L (.line s e) = totalTime (Spec.lim L.jx L.jz) (Spec.lim L.ax L.az) (Spec.lim L.vx L.vz)
      (Spec.pathLength (.line s e) ^ 2) := by
    rw [← hd]; unfold motionTime; simp only [chosen_limit]
  rw [hm]
  generalize Spec.pathLength (.line s e) = ℓ
  generalize Spec.lim L.jx L.jz = j at *
  generalize Spec.lim L.ax L.az = a at *
  generalize Spec.lim L.vx L.vz = v at *
  constructor
  · intro h
    refine ⟨totalTime j a v ℓ, (C143_least j a v ℓ hj ha hv (by linarith)).1, ?_⟩
    by_contra hc
    push Not at hc
    obtain ⟨hT, x, vel, acc, m⟩ := (C143_least j a v (ℓ ^ 2) hj ha hv (by positivity)).1
    rw [totalTime_eq j a v ℓ] at hc
    have := (move_bound hj hT (durations_good j a v ℓ hj ha hv (by linarith)) m hc).1
    nlinarith
  · rintro h0 h1 ⟨hT, x, vel, acc, m⟩
    have := (move_bound hj hT (durations_good j a v (ℓ ^ 2) hj ha hv (by positivity)) m (by rw [totalTime_eq])).1
    nlinarith

/-- A line of length two, `j = 2`: the prediction is the time for the distance four. -/
example : motionTime ⟨10, 10, 2, 0, 0, 0⟩ (.line (fun _ => 0) (fun l => if l = 0 then 2 else 0)) = 4 ∧ Spec.pathLength (.line (fun _ => 0) (fun l => if l = 0 then 2 else 0)) = 2 := by
  have e2 : (1 : ℝ) ≤ Real.sqrt 5 := by rw [Real.one_le_sqrt]; norm_num
  have e3 : distance (.line (fun _ => 0) (fun l => if l = 0 then 2 else 0)) = 4 := by
    show ∑ l : Fin 3, ((if l = 0 then (2 : ℝ) else 0) - 0) ^ 2 = 4
    rw [Fin.sum_univ_three]; norm_num [show ¬ (2 : Fin 3) = 0 by decide]
  constructor
  · unfold motionTime totalTime durations
    rw [e3]
    norm_num [min_eq_right e2]
  · show Real.sqrt (∑ l : Fin 3, ((if l = 0 then (2 : ℝ) else 0) - 0) ^ 2) = 2
    rw [Fin.sum_univ_three]
    norm_num [show ¬ (2 : Fin 3) = 0 by decide]
    rw [show (4 : ℝ) = 2 ^ 2 by norm_num, Real.sqrt_sq (by norm_num)]

/-- An arc of radius one over seven radians, with a profile that reaches all limits. -/
example : IsLeast (Spec.Times 1 1 2 (1 * |7 - 0|)) (totalTime 1 1 2 7) ∧ totalTime 1 1 2 7 = 13 / 2 := by
  constructor
  · have := C143_least 1 1 2 7 (by norm_num) (by norm_num) (by norm_num) (by norm_num)
    rw [show (1 : ℝ) * |7 - 0| = 7 by norm_num]; exact this
  · have e1 : (1 : ℝ) < Real.sqrt 2 := by rw [Real.lt_sqrt] <;> norm_num
    have e2 : (1 : ℝ) < (224 : ℝ) ^ ((1 : ℝ) / 3) / 4 := by
      rw [lt_div_iff₀ (by norm_num), one_mul]
      have : (4 : ℝ) = 64 ^ ((1 : ℝ) / 3) := by
        rw [show (64 : ℝ) = 4 ^ (3 : ℝ) by norm_num, ← Real.rpow_mul (by norm_num)]; norm_num
      rw [this]
      exact Real.rpow_lt_rpow (by norm_num) (by norm_num) (by norm_num)
    have e3 : (5 : ℝ) ≤ 2 * Real.sqrt (29 / 4) := by
      have : (5 / 2 : ℝ) ≤ Real.sqrt (29 / 4) := Real.le_sqrt_of_sq_le (by norm_num)
      linarith
    have m1 : min (1 : ℝ) (min (Real.sqrt 2) ((224 : ℝ) ^ ((1 : ℝ) / 3) / 4)) = 1 := min_eq_left (le_min e1.le e2.le)
    have m2 : min (1 : ℝ) ((2 * Real.sqrt (29 / 4) - 3) / 2) = 1 := min_eq_left (by linarith)
    have d : durations 1 1 2 7 = (1, 1, 1 / 4) := by
      unfold durations
      simp only [div_one]
      rw [show (32 : ℝ) * 7 = 224 by norm_num, m1, if_neg e2.ne, if_neg e1.ne,
        show (2 * Real.sqrt (1 * (1 ^ 3 + 4 * 7 * 1 ^ 2) / 4) - 3 * 1 ^ 2) / (2 * 1 * 1) = (2 * Real.sqrt (29 / 4) - 3) / 2 by norm_num,
        show (-1 ^ 2 + 2 : ℝ) = 1 by norm_num, m2, if_pos rfl]
      norm_num
    unfold totalTime
    rw [d]; norm_num

end Verif.GCode.MotionTime
