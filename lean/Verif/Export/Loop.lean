import Verif.Timing.KnotClock

/-! # The update loop of the exported C++ problems

Mirrors `omgtools/export/point2point/Point2Point.cpp` (`update`, `solve`, `recover`, `resetTime`,
`fillParameterDict`), the generated `transformSplines` (export.py:406-444) and
`omgtools/export/point2point/admm/ADMMPoint2Point.cpp` (`update1`, `update2`, `stepBack`), for problems with a
fixed horizon.  Numbers are exact; the solver's answer is part of the input. -/

set_option linter.unusedSectionVars false

namespace Verif.Export.Loop

open Verif.Timing

variable {K : Type} [Field K] [LinearOrder K] [IsStrictOrderedRing K] [FloorRing K]

/-- `(int)(round((t*(vehicle->getKnotIntervals())/horizon_time)*1.e6)/1.e6)`, export.py:410-411.  (C++ rounds
halves away from zero, `round` rounds them up: the same for times that are not negative.) -/
def interval (T : K) (ki : ℕ) (t : K) : ℤ := pyInt (round6 (t * ki / T))

/-- The settings of the problem. -/
structure Cfg (K : Type) where
  /-- horizon time -/
  T : K
  /-- knot intervals -/
  ki : ℕ
  /-- update time -/
  upd : K
  /-- sample time -/
  Ts : K
  /-- the problem is a `FixedTPoint2point` (and not a `FreeEndPoint2point`, which is exported with a fixed horizon
  too, export.py:229-232) -/
  fixedT : Bool := true

/-- The length of a knot interval. -/
def Cfg.L (c : Cfg K) : K := c.T / c.ki

/-- `current_time`, `current_time_prev`, `_recover`; `base` is the knot interval the stored coefficients refer
to (they describe the motion over the horizon that starts at that knot). -/
structure St (K : Type) where
  ct : K
  prev : K
  recover : Bool
  base : ℤ

/-- Point2Point.hpp:56-57 and Point2Point.cpp:33. -/
def St.start : St K := ⟨0, 0, false, 0⟩

/-- Calls of the user: an update (with `predict_shift`, and whether the solver succeeds), `recover`,
`resetTime`. -/
inductive Ev where
  | update (shift : ℕ) (ok : Bool)
  | recover
  | resetTime

/-- `transformSplines`, export.py:406-444: the coefficients are moved one interval when the number of the
interval has grown.  The function is empty for a `FreeEndPoint2point`. -/
def transform (c : Cfg K) (ct prev : K) (base : ℤ) : ℤ :=
  if c.fixedT = true ∧ interval c.T c.ki ct > interval c.T c.ki prev then base + 1 else base

/-- The state at the moment the solver is called: Point2Point.cpp:134-139 and 215-221. -/
def atSolve (c : Cfg K) (s : St K) (shift : ℕ) : St K :=
  let ct := s.ct + shift * c.Ts
  let base := transform c ct s.prev s.base
  if |ct| ≤ 1 / 10 ^ 6 ∨ s.recover = true then ⟨ct, s.prev, false, interval c.T c.ki ct⟩
  else ⟨ct, s.prev, s.recover, base⟩

/-- `update`, Point2Point.cpp:124-211; `recover`, 111-114; `resetTime`, 106-109. -/
def step (c : Cfg K) (s : St K) : Ev → St K
  | .update shift ok =>
    let s' := atSolve c s shift
    if ok then ⟨s'.ct + c.upd, s'.ct, s'.recover, s'.base⟩ else ⟨s'.ct, s'.ct, s'.recover, s'.base⟩
  | .recover => { s with recover := true }
  | .resetTime => { s with ct := 0, prev := 0 }

/-- The solves of a history: the knot interval of the coefficients the solver starts from and the time. -/
def solves (c : Cfg K) (s : St K) : List Ev → List (ℤ × K)
  | [] => []
  | .update shift ok :: r =>
    ((atSolve c s shift).base, (atSolve c s shift).ct) :: solves c (step c s (.update shift ok)) r
  | e :: r => solves c (step c s e) r

/-- `fmod`. -/
def fmod (a b : K) : K := a - pyInt (a / b) * b

/-- The parameter `t` of the problem: `fmod(round(current_time*1000.)/1000., horizon_time/knot_intervals)`,
Point2Point.cpp:251, ADMMPoint2Point.cpp:302, 324. -/
def paramT (c : Cfg K) (t : K) : K := fmod ((round (t * 1000) : ℤ) / 1000) c.L

/-! ## Specification -/

/-- No update goes further than one knot interval, and the first update after the start and after each
`resetTime` is made without shift. -/
def Regular (c : Cfg K) : Bool → List Ev → Prop
  | _, [] => True
  | fresh, .update shift _ :: r => c.upd + shift * c.Ts ≤ c.L ∧ (fresh = true → shift = 0) ∧ Regular c false r
  | fresh, .recover :: r => Regular c fresh r
  | _, .resetTime :: r => Regular c true r

/-! ## Lemmas -/

theorem interval_eq (c : Cfg K) (t : K) (hk : 0 < c.ki) (hT : 0 < c.T) : interval c.T c.ki t = samples t c.L := by
  unfold interval samples Cfg.L
  congr 2
  have : (c.ki : K) ≠ 0 := by exact_mod_cast hk.ne'
  field_simp

theorem samples_add_one (t L : K) (ht : 0 ≤ t) (hL : 0 < L) : samples (t + L) L = samples t L + 1 := by
  unfold samples
  have e : (t + L) / L = t / L + 1 := by field_simp
  have h0 : 0 ≤ t / L := div_nonneg ht hL.le
  have r : round6 (t / L + 1) = round6 (t / L) + 1 := by
    unfold round6
    have : (t / L + 1) * 10 ^ 6 = t / L * 10 ^ 6 + ((10 ^ 6 : ℤ) : K) := by push_cast; ring
    rw [this, round_add_intCast]
    push_cast
    field_simp
    norm_num
  rw [e, r]
  have h1 := round6_nonneg h0
  rw [pyInt, pyInt, if_pos h1, if_pos (by linarith), Int.floor_add_one]

theorem interval_step (c : Cfg K) (hk : 0 < c.ki) (hT : 0 < c.T) (a b : K) (ha : 0 ≤ a) (hab : a ≤ b)
    (hb : b ≤ a + c.L) :
    interval c.T c.ki a ≤ interval c.T c.ki b ∧ interval c.T c.ki b ≤ interval c.T c.ki a + 1 := by
  have hL : 0 < c.L := div_pos hT (by exact_mod_cast hk)
  rw [interval_eq c a hk hT, interval_eq c b hk hT]
  refine ⟨samples_mono hab hL, ?_⟩
  rw [← samples_add_one a c.L ha hL]
  exact samples_mono hb hL

/-- What holds between the calls. -/
structure Inv (c : Cfg K) (fresh : Bool) (s : St K) : Prop where
  nonneg : 0 ≤ s.prev
  le : s.prev ≤ s.ct
  near : s.ct ≤ s.prev + c.upd
  ok : fresh = false → s.base = interval c.T c.ki s.prev
  zero : fresh = true → s.ct = 0

theorem atSolve_base (c : Cfg K) (hf : c.fixedT = true) (hk : 0 < c.ki) (hT : 0 < c.T) (hTs : 0 ≤ c.Ts) (fresh : Bool) (s : St K)
    (h : Inv c fresh s) (shift : ℕ) (h1 : c.upd + shift * c.Ts ≤ c.L) (h2 : fresh = true → shift = 0) :
    (atSolve c s shift).base = interval c.T c.ki (atSolve c s shift).ct := by
  have hsh : (0 : K) ≤ shift * c.Ts := mul_nonneg (Nat.cast_nonneg _) hTs
  unfold atSolve
  by_cases hc : |s.ct + shift * c.Ts| ≤ 1 / 10 ^ 6 ∨ s.recover = true
  · simp only [if_pos hc]
  · simp only [if_neg hc]
    cases fresh with
    | true =>
      exfalso
      apply hc
      left
      rw [h.zero rfl, h2 rfl]
      simp
    | false =>
      have hh := interval_step c hk hT s.prev (s.ct + shift * c.Ts) h.nonneg (by linarith [h.le]) (by linarith [h.near])
      unfold transform
      rw [h.ok rfl]
      simp only [hf, true_and]
      split_ifs with g <;> omega

theorem atSolve_ct (c : Cfg K) (s : St K) (shift : ℕ) : (atSolve c s shift).ct = s.ct + shift * c.Ts := by
  unfold atSolve; dsimp only; split_ifs <;> rfl

theorem step_inv (c : Cfg K) (hf : c.fixedT = true) (hk : 0 < c.ki) (hT : 0 < c.T) (hTs : 0 ≤ c.Ts) (hu : 0 ≤ c.upd) (fresh : Bool) (s : St K)
    (h : Inv c fresh s) (shift : ℕ) (ok : Bool) (h1 : c.upd + shift * c.Ts ≤ c.L) (h2 : fresh = true → shift = 0) :
    Inv c false (step c s (.update shift ok)) := by
  have hb := atSolve_base c hf hk hT hTs fresh s h shift h1 h2
  have hct := atSolve_ct c s shift
  have hsh : (0 : K) ≤ shift * c.Ts := mul_nonneg (Nat.cast_nonneg _) hTs
  have h0 : 0 ≤ (atSolve c s shift).ct := by rw [hct]; linarith [h.nonneg, h.le]
  cases ok with
  | true => exact ⟨h0, by simp [step, hu], by simp [step], fun _ => hb, by simp⟩
  | false => exact ⟨h0, by simp [step], by simp [step, hu], fun _ => hb, by simp⟩

theorem solves_base (c : Cfg K) (hf : c.fixedT = true) (hk : 0 < c.ki) (hT : 0 < c.T) (hTs : 0 ≤ c.Ts) (hu : 0 ≤ c.upd) (evs : List Ev)
    (fresh : Bool) (s : St K) (h : Inv c fresh s) (hr : Regular c fresh evs) :
    ∀ x ∈ solves c s evs, x.1 = interval c.T c.ki x.2 := by
  induction evs generalizing fresh s with
  | nil => simp [solves]
  | cons e r ih =>
    cases e with
    | update shift ok =>
      intro x hx
      obtain ⟨h1, h2, h3⟩ := hr
      simp only [solves, List.mem_cons] at hx
      rcases hx with hx | hx
      · rw [hx]; exact atSolve_base c hf hk hT hTs fresh s h shift h1 h2
      · exact ih false _ (step_inv c hf hk hT hTs hu fresh s h shift ok h1 h2) h3 x hx
    | recover => exact ih fresh _ ⟨h.nonneg, h.le, h.near, h.ok, h.zero⟩ hr
    | resetTime => exact ih true _ ⟨le_rfl, le_rfl, by simp [step, hu], by simp, fun _ => rfl⟩ hr

theorem start_inv (c : Cfg K) (hu : 0 ≤ c.upd) : Inv c true (St.start : St K) :=
  ⟨le_rfl, le_rfl, by simp [St.start, hu], by simp, fun _ => rfl⟩

/-- Every time of a solve is a whole number of milliseconds. -/
theorem solves_grid (c : Cfg K) (u w : ℕ) (hu : c.upd = (u : K) / 1000) (hw : c.Ts = (w : K) / 1000) (evs : List Ev)
    (s : St K) (n : ℕ) (hs : s.ct = (n : K) / 1000) :
    ∀ x ∈ solves c s evs, ∃ m : ℕ, x.2 = (m : K) / 1000 := by
  induction evs generalizing s n with
  | nil => simp [solves]
  | cons e r ih =>
    cases e with
    | update shift ok =>
      have e1 : (atSolve c s shift).ct = ((n + shift * w : ℕ) : K) / 1000 := by
        rw [atSolve_ct, hs, hw]; push_cast; ring
      intro x hx
      simp only [solves, List.mem_cons] at hx
      rcases hx with hx | hx
      · rw [hx]; exact ⟨_, e1⟩
      · cases ok with
        | true =>
          refine ih _ (n + shift * w + u) ?_ x hx
          show (atSolve c s shift).ct + c.upd = _
          rw [e1, hu]; push_cast; ring
        | false => exact ih (step c s (.update shift false)) (n + shift * w) e1 x hx
    | recover => exact ih _ n hs
    | resetTime => exact ih _ 0 (by simp [step])

theorem paramT_grid (c : Cfg K) (q m : ℕ) (hq : 0 < q) (hL : c.L = (q : K) / 1000) :
    paramT c ((m : K) / 1000) = ((m % q : ℕ) : K) / 1000 := by
  have hqK : (0 : K) < q := by exact_mod_cast hq
  unfold paramT fmod
  have e : (m : K) / 1000 * 1000 = ((m : ℤ) : K) := by push_cast; field_simp
  rw [e, round_intCast, hL]
  have e2 : (((m : ℤ) : K) / 1000) / ((q : K) / 1000) = (m : K) / q := by push_cast; field_simp
  rw [e2]
  have hf : pyInt ((m : K) / q) = ((m / q : ℕ) : ℤ) := by
    rw [pyInt, if_pos (by positivity), Int.floor_div_natCast, Int.floor_natCast, Int.natCast_div]
  rw [hf]
  have hmod : (m : K) = q * ((m / q : ℕ) : K) + ((m % q : ℕ) : K) := by exact_mod_cast (Nat.div_add_mod m q).symm
  rw [Int.cast_natCast, Int.cast_natCast]
  linear_combination (1 / 1000) * hmod

/-! ## Properties -/

/-- C109 (partial: a problem with fixed horizon and end, see `C109_freeEnd_violated`; no update goes further than one knot interval, and the first update after the start and after
`resetTime` has no shift; see `C109_long_violated` and `C109_first_violated`): whatever the solver answers and
however often the user asks to recover or resets the time, the coefficients every solve starts from refer to the
knot interval the solve takes place in. -/
theorem C109_partial (c : Cfg K) (hf : c.fixedT = true) (hk : 0 < c.ki) (hT : 0 < c.T) (hTs : 0 ≤ c.Ts) (hu : 0 ≤ c.upd) (evs : List Ev)
    (hr : Regular c true evs) :
    ∀ x ∈ solves c St.start evs, x.1 = interval c.T c.ki x.2 :=
  solves_base c hf hk hT hTs hu evs true St.start (start_inv c hu) hr

/-- A horizon of ten seconds with ten knot intervals, an update each tenth of a second; a failure, a recovery, a
shift and a reset. -/
example : Regular (⟨10, 10, 1 / 10, 1 / 100, true⟩ : Cfg ℚ) true
    [.update 0 true, .update 3 false, .recover, .update 0 true, .resetTime, .update 0 true] := by
  simp only [Regular, Cfg.L]; norm_num

/-- C109 is violated by updates that pass more than one knot: an update time of `2.5` knot intervals moves the
coefficients one interval only. -/
theorem C109_long_violated :
    solves (⟨10, 10, 5 / 2, 1 / 100, true⟩ : Cfg ℚ) St.start [.update 0 true, .update 0 true] = [(0, 0), (1, 5 / 2)] ∧
      interval (10 : ℚ) 10 (5 / 2) = 2 := by
  constructor <;> decide +kernel

/-- C109 is violated by a first update after `resetTime` with a shift: the coefficients of before the reset, here of
the third knot interval, are used. -/
theorem C109_first_violated :
    solves (⟨10, 10, 1, 1 / 100, true⟩ : Cfg ℚ) St.start
      [.update 0 true, .update 0 true, .update 0 true, .resetTime, .update 5 true] =
        [(0, 0), (1, 1), (2, 2), (2, 1 / 20)] ∧ interval (10 : ℚ) 10 (1 / 20) = 0 := by
  constructor <;> decide +kernel

/-- C109 is violated by every exported problem with a free end as soon as a knot is passed: the coefficients are never
moved. -/
theorem C109_freeEnd_violated (c : Cfg K) (hf : c.fixedT = false) (hT : 0 < c.T) (hk : 0 < c.ki)
    (hu : c.L ≤ c.upd) (hu' : 1 / 10 ^ 6 < c.upd) :
    ∃ b t, solves c St.start [.update 0 true, .update 0 true] = [(0, 0), (b, t)] ∧ b ≠ interval c.T c.ki t := by
  have hL : 0 < c.L := div_pos hT (by exact_mod_cast hk)
  have h0 : interval c.T c.ki 0 = 0 := by
    rw [interval_eq c 0 hk hT]
    have := samples_mul (K := K) 0 hL
    simpa using this
  have h1 : 1 ≤ interval c.T c.ki c.upd := by
    rw [interval_eq c _ hk hT]
    have h2 := samples_mono (Ts := c.L) hu hL
    have h3 := samples_mul (K := K) 1 hL
    rw [Int.cast_one, one_mul] at h3
    rw [← h3]; exact h2
  have hb : ¬ (|c.upd| ≤ 1 / 10 ^ 6) := by
    rw [abs_of_pos (by linarith)]; exact not_le.2 hu'
  refine ⟨0, c.upd, ?_, by omega⟩
  have e1 : atSolve c (St.start : St K) 0 = ⟨0, 0, false, 0⟩ := by
    simp [atSolve, St.start, h0]
  have e2 : step c (St.start : St K) (.update 0 true) = ⟨c.upd, 0, false, 0⟩ := by
    simp [step, e1]
  have e3 : atSolve c (⟨c.upd, 0, false, 0⟩ : St K) 0 = ⟨c.upd, 0, false, 0⟩ := by
    unfold atSolve
    simp only [Nat.cast_zero, zero_mul, add_zero]
    rw [if_neg (by rintro (h | h); exact hb h; exact absurd h (by simp))]
    simp [transform, hf]
  simp only [solves, e1, e2, e3]

example : (1 : ℚ) ≤ 3 / 2 ∧ (Cfg.L (⟨10, 10, 3 / 2, 1 / 100, false⟩ : Cfg ℚ)) = 1 := by norm_num [Cfg.L]

/-! C110: the time of a solve -/

/-- Specification: the time of a solve is the update time for each successful update since the last reset, plus the
shifts of those updates and of the present one. -/
def times (c : Cfg K) : K → List Ev → List K
  | _, [] => []
  | t, .update shift ok :: r => (t + shift * c.Ts) :: times c (if ok then t + shift * c.Ts + c.upd else t) r
  | t, .recover :: r => times c t r
  | _, .resetTime :: r => times c 0 r

/-- The failed updates are made without shift. -/
def FailUnshifted : List Ev → Prop
  | [] => True
  | .update shift ok :: r => (ok = false → shift = 0) ∧ FailUnshifted r
  | _ :: r => FailUnshifted r

theorem solves_times (c : Cfg K) (evs : List Ev) (s : St K) (h : FailUnshifted evs) :
    (solves c s evs).map Prod.snd = times c s.ct evs := by
  induction evs generalizing s with
  | nil => rfl
  | cons e r ih =>
    cases e with
    | update shift ok =>
      simp only [solves, times, List.map_cons, atSolve_ct]
      rw [ih _ h.2]
      cases ok with
      | true => simp [step, atSolve_ct]
      | false => simp [step, atSolve_ct, h.1 rfl]
    | recover => exact ih _ h
    | resetTime => exact ih _ h

/-- C110 (partial: failed updates were made without shift, see `C110_violated`): a failed update does not advance
the time, the retry solves for the same time. -/
theorem C110_partial (c : Cfg K) (evs : List Ev) (h : FailUnshifted evs) :
    (solves c St.start evs).map Prod.snd = times c 0 evs := solves_times c evs St.start h

example : FailUnshifted [.update 0 true, .update 0 false, .recover, .update 0 true, .update 3 true] := by
  simp [FailUnshifted]

/-- C110 is violated by every failed update with a shift: the retry with the same arguments solves for a later
time. -/
theorem C110_violated (c : Cfg K) (hTs : 0 < c.Ts) (s : St K) (shift : ℕ) (hs : 0 < shift) (ok : Bool) :
    ∃ t t', (solves c s [.update shift false, .update shift ok]).map Prod.snd = [t, t'] ∧ t < t' := by
  refine ⟨s.ct + shift * c.Ts, s.ct + shift * c.Ts + shift * c.Ts, ?_, ?_⟩
  · simp [solves, atSolve_ct, step]
  · have : (0 : K) < shift := by exact_mod_cast hs
    have := mul_pos this hTs
    linarith

/-! C111: the parameter `t` -/

/-- C111 (partial: times and the knot interval are whole numbers of milliseconds and the interval is below 2000
seconds, see `C111_violated`; updates as for C109): at every solve, the time in the knot interval that is given to the
problem and used to sample the trajectories, counted from the knot the coefficients refer to, is the time of the
solve. -/
theorem C111_partial (c : Cfg K) (hf : c.fixedT = true) (hk : 0 < c.ki) (u w q : ℕ) (hu : c.upd = (u : K) / 1000) (hw : c.Ts = (w : K) / 1000)
    (hq : 0 < q) (hL : c.L = (q : K) / 1000) (hb : q < 2 * 10 ^ 6) (evs : List Ev) (hr : Regular c true evs) :
    ∀ x ∈ solves c St.start evs, x.1 * c.L + paramT c x.2 = x.2 ∧ 0 ≤ paramT c x.2 ∧ paramT c x.2 < c.L := by
  intro x hx
  have hqK : (0 : K) < q := by exact_mod_cast hq
  have hkK : (0 : K) < c.ki := by exact_mod_cast hk
  have hT : 0 < c.T := by
    have : c.T = c.L * c.ki := by unfold Cfg.L; field_simp
    rw [this, hL]; positivity
  have hbase := C109_partial c hf hk hT (by rw [hw]; positivity) (by rw [hu]; positivity) evs hr x hx
  obtain ⟨m, hm⟩ := solves_grid c u w hu hw evs St.start 0 (by simp [St.start]) x hx
  have hp := paramT_grid c q m hq hL
  have hi : interval c.T c.ki x.2 = ((m / q : ℕ) : ℤ) := by
    rw [interval_eq c x.2 hk hT, hm, hL]
    have := samples_grid m q (1 / 1000 : K) (by positivity) hq hb
    rw [mul_one_div, mul_one_div] at this
    exact this
  have hmod : (m : K) = q * ((m / q : ℕ) : K) + ((m % q : ℕ) : K) := by exact_mod_cast (Nat.div_add_mod m q).symm
  have hlt : ((m % q : ℕ) : K) < q := by exact_mod_cast Nat.mod_lt m hq
  rw [hbase, hi, hm, hp, hL]
  refine ⟨?_, by positivity, by linarith⟩
  rw [Int.cast_natCast]
  linear_combination -(1 / 1000) * hmod

example : ∃ c : Cfg ℚ, c.fixedT = true ∧ c.upd = (100 : ℕ) / 1000 ∧ c.Ts = (10 : ℕ) / 1000 ∧ c.L = (1000 : ℕ) / 1000 ∧
    Regular c true [.update 0 true, .update 3 false, .recover, .update 0 true] :=
  ⟨⟨10, 10, 1 / 10, 1 / 100, true⟩, rfl, by norm_num, by norm_num, by norm_num [Cfg.L], by simp only [Regular, Cfg.L]; norm_num⟩

/-- C111 is violated when the update time is not a whole number of milliseconds: at `0.9996` seconds, with knot
intervals of a second, the problem is told that the time is that of the knot at `0`. -/
theorem C111_violated :
    solves (⟨10, 10, 4998 / 10000, 1 / 100, true⟩ : Cfg ℚ) St.start [.update 0 true, .update 0 true, .update 0 true] =
        [(0, 0), (0, 4998 / 10000), (0, 9996 / 10000)] ∧
      paramT (⟨10, 10, 4998 / 10000, 1 / 100, true⟩ : Cfg ℚ) (9996 / 10000) = 0 := by
  constructor <;> decide +kernel

/-! C112: the distributed problems -/

/-- `current_time`, `current_time_prev`, `iteration`. -/
structure Admm (K : Type) where
  ct : K
  prev : K
  iter : ℤ

/-- The time of the x-update of `update1`, ADMMPoint2Point.cpp:133, 173 (and its parameter `t`). -/
def Admm.xTime (c : Cfg K) (s : Admm K) (shift : ℕ) : K := s.ct + shift * c.Ts

/-- `update1`, ADMMPoint2Point.cpp:114-211, when the x-update succeeds or fails. -/
def Admm.update1 (c : Cfg K) (initIter : ℤ) (s : Admm K) (shift : ℕ) (ok : Bool) : Admm K :=
  let ct := s.xTime c shift
  if ok then
    if s.iter ≥ initIter then ⟨ct + c.upd, ct, s.iter + 1⟩ else ⟨ct, s.prev, s.iter + 1⟩
  else ⟨ct, ct, s.iter⟩

/-- The time of which `update2` makes the parameter `t` of the z-update and of the residuals,
ADMMPoint2Point.cpp:302, 324. -/
def Admm.zTime (s : Admm K) : K := s.ct

/-- `stepBack`, ADMMPoint2Point.cpp:93-97. -/
def Admm.stepBack (s : Admm K) : Admm K := ⟨s.prev, s.prev, s.iter - 1⟩

/-- C112 (partial: during the initial iterations, see `C112_violated`): the z-update and the residuals of an
iteration are computed for the time of its x-update. -/
theorem C112_partial (c : Cfg K) (initIter : ℤ) (s : Admm K) (shift : ℕ) (h : s.iter < initIter) :
    (s.update1 c initIter shift true).zTime = s.xTime c shift := by
  simp [Admm.update1, Admm.zTime, not_le.2 h]

example : (Admm.mk (0 : ℚ) 0 0).iter < 5 := by decide

/-- C112 is violated in every later iteration: the z-update and the residuals are computed for one update time
later than the x-update. -/
theorem C112_violated (c : Cfg K) (hu : 0 < c.upd) (initIter : ℤ) (s : Admm K) (shift : ℕ) (h : initIter ≤ s.iter) :
    (s.update1 c initIter shift true).zTime = s.xTime c shift + c.upd ∧
      (s.update1 c initIter shift true).zTime ≠ s.xTime c shift := by
  have e : (s.update1 c initIter shift true).zTime = s.xTime c shift + c.upd := by
    simp [Admm.update1, Admm.zTime, h]
  refine ⟨e, ?_⟩
  rw [e]
  intro h'
  linarith

/-- C112: and the parameter `t` it gives to the z-update is then really another one (a second of knot interval, a
tenth of a second of update time). -/
theorem C112_parameter_violated :
    paramT (⟨10, 10, 1 / 10, 1 / 100, true⟩ : Cfg ℚ) ((Admm.mk (2 : ℚ) (19 / 10) 20).xTime ⟨10, 10, 1 / 10, 1 / 100, true⟩ 0) = 0 ∧
      paramT (⟨10, 10, 1 / 10, 1 / 100, true⟩ : Cfg ℚ)
        ((Admm.mk (2 : ℚ) (19 / 10) 20).update1 ⟨10, 10, 1 / 10, 1 / 100, true⟩ 0 0 true).zTime = 1 / 10 := by
  constructor <;> decide +kernel

/-- C116: after a successful iteration, `stepBack` makes the next iteration the same one again: same number, same time
and no second transformation of the splines, during the regular iterations and for an update without shift. -/
theorem C116_partial (c : Cfg K) (initIter : ℤ) (s : Admm K) (h : initIter ≤ s.iter) :
    let s' := (s.update1 c initIter 0 true).stepBack
    s'.iter = s.iter ∧ s'.xTime c 0 = s.xTime c 0 ∧
      ¬ interval c.T c.ki (s'.xTime c 0) > interval c.T c.ki s'.prev := by
  simp [Admm.update1, Admm.stepBack, Admm.xTime, h]

example : (2 : ℤ) ≤ (Admm.mk (1 : ℚ) (9 / 10) 7).iter := by decide

/-- C116 is violated when two iterations are taken back: the second call of `stepBack` does not change the time. -/
theorem C116_twice_violated (c : Cfg K) (hu : 0 < c.upd) (initIter : ℤ) (s : Admm K) (h : initIter ≤ s.iter) :
    let s2 := ((s.update1 c initIter 0 true).update1 c initIter 0 true).stepBack.stepBack
    s2.iter = s.iter ∧ s2.xTime c 0 ≠ s.xTime c 0 := by
  have h' : initIter ≤ s.iter + 1 := by omega
  simp [Admm.update1, Admm.stepBack, Admm.xTime, h, h', hu.ne']

/-- C116 is violated with a shift: the repeated iteration takes place later. -/
theorem C116_shift_violated (c : Cfg K) (hTs : 0 < c.Ts) (initIter : ℤ) (s : Admm K) (h : initIter ≤ s.iter)
    (shift : ℕ) (hs : 0 < shift) :
    (s.update1 c initIter shift true).stepBack.xTime c shift ≠ s.xTime c shift := by
  have : (shift : K) ≠ 0 := by exact_mod_cast hs.ne'
  simp [Admm.update1, Admm.stepBack, Admm.xTime, h, this, hTs.ne']

end Verif.Export.Loop
