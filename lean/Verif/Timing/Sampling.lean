import Mathlib.Algebra.Order.Round
import Mathlib.Algebra.Order.Field.Basic
import Mathlib.Data.List.GetD
import Mathlib.Tactic.Linarith
import Mathlib.Tactic.FieldSimp
import Mathlib.Tactic.NormNum
import Mathlib.Tactic.Ring

/-! # Python numbers and numpy arrays used by the timing code -/

set_option linter.unusedSectionVars false

namespace Verif.Timing

variable {K : Type} [Field K] [LinearOrder K] [IsStrictOrderedRing K] [FloorRing K]

/-! ## Model -/

/-- `int(x)`: towards zero. -/
def pyInt (x : K) : ℤ := if 0 ≤ x then ⌊x⌋ else ⌈x⌉

/-- `np.round(x, 6)` and `round(x, 6)`; a tie is rounded up (Python: to even). -/
def round6 (x : K) : K := (round (x * 10 ^ 6) : ℤ) / 10 ^ 6

/-- `int(np.round(time/sample_time, 6))`, e.g. vehicle.py:365, obstacle.py:247, simulator.py:108. -/
def samples (T Ts : K) : ℤ := pyInt (round6 (T / Ts))

/-- `np.linspace(a, b, n)`; a negative `n` raises. -/
def linspace (a b : K) (n : ℤ) : Option (List K) :=
  if n < 0 then none
  else if n = 1 then some [a]
  else some ((List.range n.toNat).map fun (k : ℕ) => a + k * ((b - a) / (n - 1)))

/-- An index of a slice: negative ones count from the end; clipped to the list. -/
def sliceIdx (len : ℕ) (i : ℤ) : ℕ := if 0 ≤ i then min i.toNat len else (len + i).toNat

/-- `l[i:j]`. -/
def slice {A : Type} (l : List A) (i j : ℤ) : List A := (l.take (sliceIdx l.length j)).drop (sliceIdx l.length i)

/-! ## Lemmas -/

theorem pyInt_nonneg {x : K} (h : 0 ≤ x) : 0 ≤ pyInt x := by
  rw [pyInt, if_pos h]; exact Int.floor_nonneg.2 h

theorem pyInt_intCast (n : ℤ) : pyInt (n : K) = n := by
  unfold pyInt; split <;> simp

theorem round6_intCast (n : ℤ) : round6 (n : K) = n := by
  unfold round6
  have : (n : K) * 10 ^ 6 = ((n * 10 ^ 6 : ℤ) : K) := by push_cast; norm_num
  rw [this, round_intCast]
  push_cast
  field_simp
  norm_num

theorem round6_nonneg {x : K} (h : 0 ≤ x) : 0 ≤ round6 x := by
  unfold round6
  refine div_nonneg ?_ (by positivity)
  rw [Int.cast_nonneg_iff, round_eq]
  exact Int.floor_nonneg.2 (by positivity)

theorem round6_mono {x y : K} (h : x ≤ y) : round6 x ≤ round6 y := by
  unfold round6
  refine div_le_div_of_nonneg_right ?_ (by positivity)
  rw [Int.cast_le, round_eq, round_eq]
  exact Int.floor_le_floor (by nlinarith)

theorem pyInt_mono {x y : K} (h : x ≤ y) : pyInt x ≤ pyInt y := by
  unfold pyInt
  split_ifs with h1 h2 h2
  · exact Int.floor_le_floor h
  · exact absurd (h1.trans h) h2
  · exact (Int.ceil_le.2 (by simpa using (not_le.1 h1).le)).trans (Int.floor_nonneg.2 h2)
  · exact Int.ceil_le_ceil h

theorem round6_near (x : K) : |round6 x - x| ≤ 1 / 2 / 10 ^ 6 := by
  have h := abs_sub_round (x * 10 ^ 6)
  have e : round6 x - x = -((x * 10 ^ 6 - round (x * 10 ^ 6)) / 10 ^ 6) := by
    unfold round6; field_simp; ring
  rw [e, abs_neg, abs_div, abs_of_pos (by positivity : (0 : K) < 10 ^ 6)]
  exact div_le_div_of_nonneg_right h (by positivity)

theorem samples_nonneg {T Ts : K} (hT : 0 ≤ T) (hs : 0 < Ts) : 0 ≤ samples T Ts :=
  pyInt_nonneg (round6_nonneg (div_nonneg hT hs.le))

theorem samples_mono {T T' Ts : K} (h : T ≤ T') (hs : 0 < Ts) : samples T Ts ≤ samples T' Ts :=
  pyInt_mono (round6_mono (div_le_div_of_nonneg_right h hs.le))

/-- A whole number of samples is counted exactly. -/
theorem samples_mul (n : ℤ) {Ts : K} (hs : 0 < Ts) : samples (n * Ts) Ts = n := by
  unfold samples
  rw [mul_div_cancel_right₀ _ hs.ne', round6_intCast, pyInt_intCast]

/-- An axis with spacing `d`. -/
theorem linspace_axis (a d : K) (n : ℤ) (hn : 0 ≤ n) :
    linspace a (n * d + a) (n + 1) = some ((List.range (n.toNat + 1)).map fun (k : ℕ) => a + k * d) := by
  unfold linspace
  rw [if_neg (by omega)]
  have e : (n + 1).toNat = n.toNat + 1 := by omega
  by_cases h : n = 0
  · subst h; simp
  · rw [if_neg (by omega), e]
    congr 1
    refine List.map_congr_left fun k _ => ?_
    have : (n : K) ≠ 0 := by exact_mod_cast h
    push_cast
    rw [add_sub_cancel_right, add_sub_cancel_right, mul_div_cancel_left₀ _ this]

theorem slice_tail {A : Type} (l : List A) (n : ℤ) (hn : 0 ≤ n) : slice l 1 (n + 1) = l.tail.take n.toNat := by
  unfold slice sliceIdx
  rw [if_pos (by omega), if_pos (by omega)]
  have e : (n + 1).toNat = n.toNat + 1 := by omega
  have e1 : (1 : ℤ).toNat = 1 := rfl
  rw [e, e1]
  cases l with
  | nil => simp
  | cons x l =>
    simp only [List.length_cons, List.tail_cons]
    rw [Nat.min_eq_left (by omega : 1 ≤ l.length + 1)]
    rw [show min (n.toNat + 1) (l.length + 1) = min n.toNat l.length + 1 by omega, List.take_succ_cons, List.drop_one, List.tail_cons]
    rcases Nat.le_total n.toNat l.length with h | h
    · rw [Nat.min_eq_left h]
    · rw [Nat.min_eq_right h, List.take_length, List.take_of_length_le h]

end Verif.Timing
