import Verif.Timing.Sampling
import Mathlib.Tactic.Positivity
import Mathlib.Data.Nat.Cast.Order.Field
import Mathlib.Tactic.LinearCombination
import Mathlib.Data.Rat.Floor
import Mathlib.Algebra.Order.Floor.Ring

/-! # The knot clock of a problem with fixed horizon (C33) -/

set_option linter.unusedSectionVars false

namespace Verif.Timing

variable {K : Type} [Field K] [LinearOrder K] [IsStrictOrderedRing K] [FloorRing K]

/-! ## Model -/

/-- `knot_time`, point2point.py:134-135. -/
def knotTime (horizon : K) (n : ℕ) : K := ((pyInt (horizon * 1000) : ℤ) : K) / n / 1000

/-- `a % b` of Python on floats, for positive `b`. -/
def pyMod (a b : K) : K := a - ⌊a / b⌋ * b

/-- The clock: the time of the previous update, and how often the splines were shifted over a knot interval
(`transform_primal_splines` with `shiftoverknot_T`), point2point.py:187-199. -/
structure Clock (K : Type) where
  prev : K
  shifts : ℕ

/-- `init_step`, point2point.py:187-199. -/
def initStep (kt cur : K) (c : Clock K) : Clock K :=
  ⟨cur, if samples c.prev kt < samples cur kt then c.shifts + 1 else c.shifts⟩

/-- Parameter `t`, point2point.py:175-176 (and the relative time of `store` and `simulate`). -/
def paramT (kt cur : K) : K := pyMod (round6 cur) kt

/-- Updates at the given times. -/
def updates (kt : K) (c : Clock K) : List K → Clock K
  | [] => c
  | t :: ts => updates kt (initStep kt t c) ts

/-! ## Specification -/

/-- From the time `a` on, the listed times are not decreasing and no step is larger than `q`. -/
def Spec.steps (q : ℕ) : ℕ → List ℕ → Prop
  | _, [] => True
  | a, b :: l => a ≤ b ∧ b ≤ a + q ∧ Spec.steps q b l

/-! ## Lemmas -/

theorem samples_grid (m q : ℕ) (δ : K) (hδ : 0 < δ) (hq : 0 < q) (hb : q < 2 * 10 ^ 6) :
    samples ((m : K) * δ) ((q : K) * δ) = ((m / q : ℕ) : ℤ) := by
  have hqK : (0 : K) < q := by exact_mod_cast hq
  have e : (m : K) * δ / (q * δ) = (m : K) / q := by field_simp
  unfold samples
  rw [e]
  have h0 : (0 : K) ≤ (m : K) / q := by positivity
  rw [pyInt, if_pos (round6_nonneg h0), Int.floor_eq_iff]
  have hn := abs_le.1 (round6_near ((m : K) / q))
  have hmod : (m : K) = q * ((m / q : ℕ) : K) + ((m % q : ℕ) : K) := by exact_mod_cast (Nat.div_add_mod m q).symm
  have hd : (m : K) / q = ((m / q : ℕ) : K) + ((m % q : ℕ) : K) / q := by
    rw [hmod]
    have : q * ((m / q : ℕ) : K) + ((m % q : ℕ) : K) = (m : K) := hmod.symm
    rw [this]
    rw [eq_comm, ← sub_eq_zero]
    field_simp
    linarith
  constructor
  · have := round6_mono (K := K) (x := (((m / q : ℕ) : ℤ) : K)) (y := (m : K) / q) (by
      rw [hd]
      have : (0 : K) ≤ ((m % q : ℕ) : K) / q := by positivity
      rw [Int.cast_natCast]
      linarith)
    rwa [round6_intCast] at this
  · have h1 : ((m % q : ℕ) : K) + 1 ≤ q := by exact_mod_cast Nat.mod_lt m hq
    have h2 : ((m % q : ℕ) : K) / q ≤ 1 - 1 / q := by
      rw [div_le_iff₀ hqK, sub_mul, div_mul_cancel₀ _ hqK.ne']
      linarith
    have h3 : (1 : K) / 2 / 10 ^ 6 < 1 / q := by
      rw [div_div, div_lt_div_iff₀ (by positivity) hqK]
      have : (q : K) < 2 * 10 ^ 6 := by exact_mod_cast hb
      linarith
    rw [Int.cast_natCast]
    linarith [hn.2]

theorem paramT_grid (m q d : ℕ) (hd : 0 < d) (hq : 0 < q) :
    paramT ((q : K) * ((d : K) / 10 ^ 6)) ((m : K) * ((d : K) / 10 ^ 6)) = ((m % q : ℕ) : K) * ((d : K) / 10 ^ 6) := by
  have hqK : (0 : K) < q := by exact_mod_cast hq
  have hdK : (0 : K) < d := by exact_mod_cast hd
  have hr : round6 ((m : K) * ((d : K) / 10 ^ 6)) = (m : K) * ((d : K) / 10 ^ 6) := by
    unfold round6
    have : (m : K) * ((d : K) / 10 ^ 6) * 10 ^ 6 = (((m * d : ℕ) : ℤ) : K) := by push_cast; field_simp
    rw [this, round_intCast]
    push_cast
    field_simp
  unfold paramT pyMod
  rw [hr]
  have e : (m : K) * ((d : K) / 10 ^ 6) / (q * ((d : K) / 10 ^ 6)) = (m : K) / q := by field_simp
  rw [e]
  have hf : ⌊(m : K) / q⌋ = ((m / q : ℕ) : ℤ) := by
    rw [Int.floor_div_natCast, Int.floor_natCast, Int.natCast_div]
  rw [hf]
  rw [Int.cast_natCast]
  have hmod : (m : K) = q * ((m / q : ℕ) : K) + ((m % q : ℕ) : K) := by exact_mod_cast (Nat.div_add_mod m q).symm
  linear_combination ((d : K) / 10 ^ 6) * hmod

/-! ## Properties -/

/-- **C33** The time within the knot interval is never negative and always below the knot time, for every time and knot time. -/
theorem C33_range (kt cur : K) (hk : 0 < kt) : 0 ≤ paramT kt cur ∧ paramT kt cur < kt := by
  unfold paramT pyMod
  have h1 := Int.floor_le (round6 cur / kt)
  have h2 := Int.lt_floor_add_one (round6 cur / kt)
  rw [le_div_iff₀ hk] at h1
  rw [div_lt_iff₀ hk] at h2
  constructor <;> linarith

/-- **C33** The knot intervals make up the horizon, when that is a whole number of milliseconds. -/
theorem C33_horizon (ms n : ℕ) (hn : 0 < n) : n * knotTime ((ms : K) / 1000) n = (ms : K) / 1000 := by
  have hnK : (0 : K) < n := by exact_mod_cast hn
  unfold knotTime
  have : (ms : K) / 1000 * 1000 = ((ms : ℤ) : K) := by push_cast; field_simp
  rw [this, pyInt_intCast]
  push_cast
  field_simp

/-- **C33** (partial) The clock never drifts: when all times are multiples of a step that is a multiple of a microsecond, the knot time `q` of such steps
is below two million steps, and no update is longer than a knot interval, then after any number of updates the splines have been shifted exactly once per
crossed knot interval, and the shifts together with the time in the interval are the current time.
Missing: updates that cross several knots (`C33_long_violated`), times that are not on such a grid (`C33_rounding_violated`), horizons that are not a
number of milliseconds (`C33_horizon_violated`). -/
theorem C33_partial (q d : ℕ) (hd : 0 < d) (hq : 0 < q) (hb : q < 2 * 10 ^ 6) (ms : List ℕ) (hm : Spec.steps q 0 ms) :
    let δ : K := (d : K) / 10 ^ 6
    let c := updates ((q : K) * δ) ⟨0, 0⟩ (ms.map fun (m : ℕ) => (m : K) * δ)
    let last := ms.getLast?.getD 0
    c.prev = last * δ ∧ c.shifts = last / q ∧ c.shifts * ((q : K) * δ) + paramT ((q : K) * δ) c.prev = last * δ := by
  intro δ c last
  have hδ : 0 < δ := by
    have hdK : (0 : K) < d := by exact_mod_cast hd
    positivity
  have key : ∀ (ms : List ℕ) (a : ℕ), Spec.steps q a ms →
      updates ((q : K) * δ) ⟨(a : K) * δ, a / q⟩ (ms.map fun (m : ℕ) => (m : K) * δ) =
        ⟨((ms.getLast?.getD a : ℕ) : K) * δ, (ms.getLast?.getD a) / q⟩ := by
    intro ms
    induction ms with
    | nil => intro a _; rfl
    | cons b l ih =>
      intro a ha
      obtain ⟨h1, h2, h3⟩ := ha
      have e : initStep ((q : K) * δ) ((b : K) * δ) ⟨(a : K) * δ, a / q⟩ = ⟨(b : K) * δ, b / q⟩ := by
        unfold initStep
        rw [samples_grid a q δ hδ hq hb, samples_grid b q δ hδ hq hb]
        simp only [Clock.mk.injEq, true_and, Nat.cast_lt]
        have hle : a / q ≤ b / q := Nat.div_le_div_right h1
        have hge : b / q ≤ a / q + 1 := by
          calc b / q ≤ (a + q) / q := Nat.div_le_div_right h2
            _ = a / q + 1 := Nat.add_div_right a hq
        split_ifs <;> omega
      rw [List.map_cons, updates, e, ih b h3]
      cases l with
      | nil => simp
      | cons x l => simp [List.getLast?_cons]
  have h := key ms 0 hm
  simp only [Nat.cast_zero, zero_mul, Nat.zero_div] at h
  have hc : c = ⟨((last : ℕ) : K) * δ, last / q⟩ := h
  refine ⟨by rw [hc], by rw [hc], ?_⟩
  rw [hc]
  simp only
  rw [paramT_grid last q d hd hq]
  have hmod : ((last : ℕ) : K) = q * ((last / q : ℕ) : K) + ((last % q : ℕ) : K) := by exact_mod_cast (Nat.div_add_mod last q).symm
  linear_combination -δ * hmod

/-- An update over five knot intervals shifts the splines over one. -/
theorem C33_long_violated : (updates (1 / 10 : ℚ) ⟨0, 0⟩ [1 / 2]).shifts = 1 := by
  have h1 := samples_grid (K := ℚ) 0 1 (1 / 10) (by norm_num) (by norm_num) (by norm_num)
  have h2 := samples_grid (K := ℚ) 5 1 (1 / 10) (by norm_num) (by norm_num) (by norm_num)
  norm_num at h1 h2
  norm_num [updates, initStep, h1, h2]

/-- Just before a knot the splines are shifted, while the time in the interval is still at its end: together they are off by a whole
knot interval. -/
theorem C33_rounding_violated :
    let c := updates (10 : ℚ) ⟨0, 0⟩ [9999996 / 10 ^ 6]
    c.shifts = 1 ∧ paramT (10 : ℚ) c.prev = 9999996 / 10 ^ 6 := by
  have h0 : samples (0 : ℚ) 10 = 0 := by
    have := samples_grid (K := ℚ) 0 1 10 (by norm_num) (by norm_num) (by norm_num)
    simpa using this
  have h1 : samples (9999996 / 10 ^ 6 : ℚ) 10 = 1 := by
    unfold samples
    have : round6 (9999996 / 10 ^ 6 / 10 : ℚ) = ((1 : ℤ) : ℚ) := by
      unfold round6
      have : round (9999996 / 10 ^ 6 / 10 * 10 ^ 6 : ℚ) = 1000000 := by
        rw [round_eq, Int.floor_eq_iff]
        norm_num
      rw [this]
      norm_num
    rw [this, pyInt_intCast]
  have h2 : round6 (9999996 / 10 ^ 6 : ℚ) = 9999996 / 10 ^ 6 := by
    unfold round6
    have : (9999996 / 10 ^ 6 * 10 ^ 6 : ℚ) = ((9999996 : ℤ) : ℚ) := by norm_num
    rw [this, round_intCast]
    norm_num
  refine ⟨?_, ?_⟩
  · simp [updates, initStep, h0, h1]
  · simp only [updates, initStep, paramT, pyMod]
    rw [h2]
    have : ⌊(9999996 / 10 ^ 6 : ℚ) / 10⌋ = 0 := by
      rw [Int.floor_eq_iff]
      norm_num
    rw [this]
    norm_num

/-- A horizon of 2.5 ms in two knot intervals: the knot time is 1 ms. -/
theorem C33_horizon_violated : knotTime (5 / 2000 : ℚ) 2 = 1 / 1000 := by
  unfold knotTime
  have : pyInt (5 / 2000 * 1000 : ℚ) = 2 := by
    rw [pyInt, if_pos (by norm_num), Int.floor_eq_iff]
    norm_num
  rw [this]
  norm_num

/-- Horizon 10 s in 10 intervals, updates every 0.4 s: after 7 of them, at 2.8 s, two shifts. -/
example : (updates (1 : ℚ) ⟨0, 0⟩ [4 / 10, 8 / 10, 12 / 10, 16 / 10, 2, 24 / 10, 28 / 10]).shifts = 2 := by
  have h := (C33_partial (K := ℚ) 10 100000 (by norm_num) (by norm_num) (by norm_num) [4, 8, 12, 16, 20, 24, 28]
    (by simp [Spec.steps])).2.1
  norm_num at h
  norm_num
  exact h

example : (10 : ℕ) * knotTime ((10000 : ℕ) / 1000 : ℚ) 10 = (10000 : ℕ) / 1000 := by
  have := C33_horizon (K := ℚ) 10000 10 (by norm_num)
  exact_mod_cast this

end Verif.Timing
