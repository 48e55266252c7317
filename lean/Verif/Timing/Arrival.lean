import Verif.Timing.Sampling
import Mathlib.Data.Rat.Floor
import Mathlib.Algebra.BigOperators.Group.List.Basic

/-! # Where the vehicle is when a run with free motion time ends (C152)

`store`, `simulate` and `stop_criterium` of `FreeTPoint2point` (point2point.py:313-352) and `MultiFrameProblem`
(multiframeproblem.py:156-215), `Vehicle.store` and `Vehicle.simulate` (vehicle.py:253-270, 359-369) and the loop of
`Simulator.run` (simulator.py:39-51). -/

set_option linter.unusedSectionVars false

namespace Verif.Timing.Arrival

variable {K : Type} [Field K] [LinearOrder K] [IsStrictOrderedRing K] [FloorRing K] {P : Type}

/-! ## Model -/

/-- A solution: the motion times of the frames (one for `FreeTPoint2point`) and the planned signal over time (`splev` of
the concatenated splines, which also extrapolates). -/
structure Plan (K P : Type) where
  times : List K
  at' : K → P

/-- Total motion time, multiframeproblem.py:159-161. -/
def Plan.T (p : Plan K P) : K := p.times.sum

/-- What the vehicle keeps: `trajectories` of the last stored plan and `signals`, both missing at first. -/
structure Veh (P : Type) where
  traj : Option (List P)
  sig : Option (List P)
  deriving DecidableEq

/-- The samples of a stored plan, multiframeproblem.py:170-174 without initial time; `none` is the exception of `linspace`. -/
def sampled (dt : K) (p : Plan K P) : Option (List P) :=
  let n := pyInt (round6 ((p.T - 0) / dt)) + 1
  (linspace 0 (0 + (n - 1) * dt) n).map fun l => l.map p.at'

/-- `store`, multiframeproblem.py:156-174: motions shorter than a sample are not stored. -/
def store (dt : K) (p : Plan K P) (v : Veh P) : Option (Veh P) :=
  if p.T < dt then some v else (sampled dt p).map fun l => { v with traj := some l }

/-- `simulation_time`, multiframeproblem.py:194-197 without initial time. -/
def duration (T u : K) : K :=
  let s := if T < u then T else u
  if T - 0 < s then T - 0 else s

/-- `simulate`, multiframeproblem.py:183-203 with `Vehicle.simulate`, vehicle.py:359-369 (`ideal_update`): `none` if there
are no trajectories yet. -/
def simulate (dt u : K) (p : Plan K P) (v : Veh P) : Option (Veh P) :=
  if p.T < dt then some v
  else match v.traj with
    | none => none
    | some t =>
      let old := match v.sig with
        | some s => s
        | none => t.take 1
      some { v with sig := some (old ++ slice t 1 (pyInt (round6 (duration p.T u / dt)) + 1)) }

/-- `stop_criterium`, multiframeproblem.py:205-215, with the answer of `check_terminal_conditions` on the last signal. -/
def stopped (u : K) (arrived : P → Bool) (p : Plan K P) (last : P) : Bool := if p.T < u then true else arrived last

/-- How a run goes: an exception, an end with the signals so far, or the state after the given updates. -/
inductive Out (P : Type) where
  | error
  | ended (sig : List P)
  | running (v : Veh P)
  deriving DecidableEq

/-- `Simulator.run`, simulator.py:39-51, over the solutions of successive updates: after each update the last signal is
read, which raises as long as there are no signals. -/
def run (dt u : K) (arrived : P → Bool) : Veh P → List (Plan K P) → Out P
  | v, [] => .running v
  | v, p :: ps =>
    match (store dt p v).bind (simulate dt u p) with
    | none => .error
    | some v' =>
      match v'.sig with
      | none => .error
      | some sig =>
        match sig.getLast? with
        | none => .error
        | some last => if stopped u arrived p last then .ended sig else run dt u arrived v' ps

/-- Before the first update. -/
def fresh : Veh P := ⟨none, none⟩

/-! ## Specification -/

namespace Spec

/-- A plan from the place `a` to the goal that moves at most with speed `V`, in the distance `d`; the extrapolation
over the millionth of a sample that rounding adds counts as well. -/
structure Leads (d : P → P → K) (V dt : K) (goal a : P) (p : Plan K P) : Prop where
  positive : 0 < p.T
  start : p.at' 0 = a
  goal : p.at' p.T = goal
  speed : ∀ s t, 0 ≤ s → 0 ≤ t → s ≤ p.T + dt / 10 ^ 6 → t ≤ p.T + dt / 10 ^ 6 → d (p.at' s) (p.at' t) ≤ V * |s - t|

/-- Every update plans from where the vehicle is at that moment to the goal. -/
def Replans (d : P → P → K) (V dt u : K) (goal : P) : Veh P → List (Plan K P) → Prop
  | _, [] => True
  | v, p :: ps => (∃ a, Leads d V dt goal a p ∧ ∀ sig last, v.sig = some sig → sig.getLast? = some last → last = a) ∧
      ∀ v', (store dt p v).bind (simulate dt u p) = some v' → Replans d V dt u goal v' ps

end Spec

/-! ## Lemmas -/

theorem samples_bounds {T dt : K} (hdt : 0 < dt) (hT : dt ≤ T) :
    1 ≤ samples T dt ∧ (samples T dt : K) * dt ≤ T + dt / 10 ^ 6 ∧ |(samples T dt : K) * dt - T| ≤ dt * (1 + 1 / 10 ^ 6) := by
  have h1 : 1 ≤ T / dt := (one_le_div hdt).2 hT
  have hr : (1 : K) ≤ round6 (T / dt) := by
    have := round6_mono h1
    have e : round6 (1 : K) = 1 := by have := round6_intCast (K := K) 1; simpa using this
    rwa [e] at this
  have hp : samples T dt = ⌊round6 (T / dt)⌋ := by
    unfold samples pyInt
    rw [if_pos (by linarith)]
  have hf := Int.floor_le (round6 (T / dt))
  have hf' := Int.lt_floor_add_one (round6 (T / dt))
  rw [← hp] at hf hf'
  have hn := abs_le.1 (round6_near (T / dt))
  have hm : T / dt * dt = T := div_mul_cancel₀ _ hdt.ne'
  have a1 : (samples T dt : K) ≤ T / dt + 1 / 2 / 10 ^ 6 := by linarith [hn.2]
  have a2 : T / dt - 1 / 2 / 10 ^ 6 - 1 ≤ samples T dt := by linarith [hn.1]
  have b1 := mul_le_mul_of_nonneg_right a1 hdt.le
  have b2 := mul_le_mul_of_nonneg_right a2 hdt.le
  rw [add_mul, hm] at b1
  rw [sub_mul, sub_mul, hm] at b2
  refine ⟨?_, ?_, ?_⟩
  · rw [hp]; exact Int.le_floor.2 (by simpa using hr)
  · linarith
  · rw [abs_le]
    constructor <;> linarith

theorem sampled_eq (dt : K) (hdt : 0 < dt) (p : Plan K P) (hT : dt ≤ p.T) :
    sampled dt p = some ((List.range ((samples p.T dt).toNat + 1)).map fun (k : ℕ) => p.at' (k * dt)) := by
  have hs := (samples_bounds hdt hT).1
  unfold sampled
  simp only [sub_zero]
  have e : pyInt (round6 (p.T / dt)) = samples p.T dt := rfl
  rw [e]
  have := linspace_axis (0 : K) dt (samples p.T dt) (by omega)
  push_cast
  rw [add_sub_cancel_right, zero_add, ← add_zero ((samples p.T dt : K) * dt), this]
  simp

theorem duration_eq (T u : K) : duration T u = min T u := by
  unfold duration
  simp only [sub_zero]
  by_cases h1 : T < u
  · simp only [if_pos h1, lt_irrefl, if_false]
    rw [min_eq_left h1.le]
  · simp only [if_neg h1]
    rw [min_eq_right (not_lt.1 h1)]

/-- A stored plan that takes less than an update is carried out up to its last sample. -/
theorem update_last (dt u : K) (hdt : 0 < dt) (p : Plan K P) (v : Veh P) (hT : dt ≤ p.T) (hu : p.T < u) :
    ∃ v' sig, (store dt p v).bind (simulate dt u p) = some v' ∧ v'.sig = some sig ∧
      sig.getLast? = some (p.at' ((samples p.T dt : K) * dt)) := by
  obtain ⟨h1, -, -⟩ := samples_bounds hdt hT
  have hst : store dt p v = some { v with traj := some ((List.range ((samples p.T dt).toNat + 1)).map fun (k : ℕ) => p.at' (k * dt)) } := by
    unfold store
    rw [if_neg (not_lt.2 hT), sampled_eq dt hdt p hT]
    rfl
  have hlast : ∀ old : List P, (old ++ slice ((List.range ((samples p.T dt).toNat + 1)).map fun (k : ℕ) => p.at' (k * dt)) 1
      (pyInt (round6 (duration p.T u / dt)) + 1)).getLast? = some (p.at' ((samples p.T dt : K) * dt)) := by
    intro old
    rw [duration_eq, min_eq_left hu.le]
    have e : pyInt (round6 (p.T / dt)) = samples p.T dt := rfl
    rw [e, slice_tail _ _ (by omega)]
    obtain ⟨m, hm⟩ : ∃ m : ℕ, samples p.T dt = (m : ℤ) + 1 := ⟨(samples p.T dt - 1).toNat, by omega⟩
    rw [hm]
    have e2 : ((m : ℤ) + 1).toNat = m + 1 := by omega
    rw [e2, List.take_of_length_le (by simp), List.getLast?_append, List.getLast?_tail]
    rw [if_neg (by simp), List.getLast?_map, List.getLast?_range]
    simp
  rw [hst]
  simp only [Option.bind_some, simulate, if_neg (not_lt.2 hT)]
  exact ⟨_, _, rfl, rfl, hlast _⟩

theorem update_short (dt u : K) (p : Plan K P) (v : Veh P) (hT : p.T < dt) : (store dt p v).bind (simulate dt u p) = some v := by
  unfold store simulate
  rw [if_pos hT, Option.bind_some, if_pos hT]

/-! ## Properties -/

/-- **C152** (partial: within one sample instead of at the goal) If every update plans from where the vehicle is to the
goal with speed at most `V`, then whenever a run ends, the vehicle either meets the terminal conditions or is at most as
far from the goal as it moves in one sample (and a millionth). -/
theorem C152_partial (dt u V : K) (hdt : 0 < dt) (hV : 0 ≤ V) (arrived : P → Bool) (d : P → P → K) (goal : P)
    (ps : List (Plan K P)) (v : Veh P) (hr : Spec.Replans d V dt u goal v ps) (sig : List P)
    (h : run dt u arrived v ps = .ended sig) :
    ∃ last, sig.getLast? = some last ∧ (arrived last = true ∨ d last goal ≤ V * (dt * (1 + 1 / 10 ^ 6))) := by
  induction ps generalizing v with
  | nil => simp [run] at h
  | cons p ps ih =>
    obtain ⟨⟨a, hl, ha⟩, hnext⟩ := hr
    unfold run at h
    rcases hv : (store dt p v).bind (simulate dt u p) with _ | v'
    · rw [hv] at h; simp at h
    rw [hv] at h
    simp only at h
    rcases hs : v'.sig with _ | s
    · rw [hs] at h; simp at h
    rw [hs] at h
    simp only at h
    rcases hlast : s.getLast? with _ | last
    · rw [hlast] at h; simp at h
    rw [hlast] at h
    simp only at h
    by_cases hstop : stopped u arrived p last = true
    · rw [if_pos hstop] at h
      simp only [Out.ended.injEq] at h
      subst h
      refine ⟨last, hlast, ?_⟩
      unfold stopped at hstop
      by_cases hT : p.T < u
      · right
        rcases lt_or_ge p.T dt with h1 | h1
        · rw [update_short dt u p v h1] at hv
          simp only [Option.some.injEq] at hv
          subst hv
          rw [ha s last hs hlast, ← hl.start]
          have hpos := hl.positive
          have hdd : 0 < dt / 10 ^ 6 := by positivity
          have := hl.speed 0 p.T (le_refl _) hpos.le (by linarith) (by linarith)
          rw [hl.goal, zero_sub, abs_neg, abs_of_pos hpos] at this
          refine this.trans (mul_le_mul_of_nonneg_left ?_ hV)
          nlinarith
        · obtain ⟨v2, s2, e1, e2, e3⟩ := update_last dt u hdt p v h1 hT
          rw [hv] at e1
          simp only [Option.some.injEq] at e1
          subst e1
          rw [hs] at e2
          simp only [Option.some.injEq] at e2
          subst e2
          rw [hlast] at e3
          simp only [Option.some.injEq] at e3
          subst e3
          obtain ⟨b1, b2, b3⟩ := samples_bounds hdt h1
          have hdd : 0 < dt / 10 ^ 6 := by positivity
          have hsn : (0 : K) ≤ samples p.T dt := by exact_mod_cast (by omega : (0 : ℤ) ≤ samples p.T dt)
          have := hl.speed ((samples p.T dt : K) * dt) p.T (mul_nonneg hsn hdt.le) hl.positive.le b2 (by linarith)
          rw [hl.goal] at this
          exact this.trans (mul_le_mul_of_nonneg_left b3 hV)
      · rw [if_neg hT] at hstop
        exact Or.inl hstop
    · rw [if_neg hstop] at h
      exact ih v' (hnext v' hv) h

/-- **C152** If the last motion takes a whole number of samples and less than an update, the run ends exactly at the
goal. -/
theorem C152_whole (dt u : K) (hdt : 0 < dt) (arrived : P → Bool) (goal : P) (p : Plan K P) (ps : List (Plan K P)) (v : Veh P)
    (n : ℕ) (hn : 1 ≤ n) (hT : p.T = n * dt) (hu : p.T < u) (hg : p.at' p.T = goal) :
    ∃ sig, run dt u arrived v (p :: ps) = .ended sig ∧ sig.getLast? = some goal := by
  have h1 : dt ≤ p.T := by
    rw [hT]
    have : (1 : K) ≤ n := by exact_mod_cast hn
    nlinarith
  obtain ⟨v', sig, e1, e2, e3⟩ := update_last dt u hdt p v h1 hu
  refine ⟨sig, ?_, ?_⟩
  · unfold run
    simp only [e1, e2, e3, stopped, if_pos hu]
    rfl
  · have : samples p.T dt = n := by rw [hT]; exact_mod_cast samples_mul (n : ℤ) hdt
    rw [e3, this, ← hg, hT]
    norm_cast

/-- **C152** fails in that the terminal conditions are not checked: whatever they say, a run ends with the first motion
that takes less than an update, at the last sample of this motion. -/
theorem C152_unchecked_violated (dt u : K) (hdt : 0 < dt) (arrived : P → Bool) (p : Plan K P) (ps : List (Plan K P)) (v : Veh P)
    (hT : dt ≤ p.T) (hu : p.T < u) :
    ∃ sig, run dt u arrived v (p :: ps) = .ended sig ∧ sig.getLast? = some (p.at' ((samples p.T dt : K) * dt)) := by
  obtain ⟨v', sig, e1, e2, e3⟩ := update_last dt u hdt p v hT hu
  refine ⟨sig, ?_, e3⟩
  unfold run
  simp only [e1, e2, e3, stopped, if_pos hu]
  rfl

/-- **C152** fails close to the goal: if the first motion takes less than a sample, the run ends with an exception. -/
theorem C152_start_violated (dt u : K) (arrived : P → Bool) (p : Plan K P) (ps : List (Plan K P)) (hT : p.T < dt) :
    run dt u arrived fresh (p :: ps) = .error := by
  unfold run
  rw [update_short dt u p fresh hT]
  rfl

/-- Two updates of half a second along a line with speed one, samples of a tenth: the run ends at 0.7, short of the goal
at 0.75. -/
def twoPlans : List (Plan ℚ ℚ) := [⟨[3 / 10, 9 / 20], fun t => t⟩, ⟨[1 / 4], fun t => 1 / 2 + t⟩]

example : run (1 / 10 : ℚ) (1 / 2) (fun _ => false) fresh twoPlans = .ended [0, 1 / 10, 1 / 5, 3 / 10, 2 / 5, 1 / 2, 3 / 5, 7 / 10] := by
  decide +kernel

/-- The hypotheses of `C152_partial` are met by this run. -/
example : Spec.Replans (fun a b : ℚ => |a - b|) 1 (1 / 10 : ℚ) (1 / 2) (3 / 4) fresh twoPlans := by
  refine ⟨⟨0, ⟨by norm_num [Plan.T], rfl, by norm_num [Plan.T], fun s t _ _ _ _ => by simp⟩, fun sig last h => by simp [fresh] at h⟩, ?_⟩
  intro v' hv
  refine ⟨⟨1 / 2, ⟨by norm_num [Plan.T], by norm_num, by norm_num [Plan.T], fun s t _ _ _ _ => by simp⟩, ?_⟩, fun _ _ => trivial⟩
  intro sig last hs hl
  have e : (store (1 / 10 : ℚ) ⟨[3 / 10, 9 / 20], fun t => t⟩ fresh).bind (simulate (1 / 10) (1 / 2) ⟨[3 / 10, 9 / 20], fun t => t⟩) =
      some ⟨some [0, 1 / 10, 1 / 5, 3 / 10, 2 / 5, 1 / 2, 3 / 5, 7 / 10], some [0, 1 / 10, 1 / 5, 3 / 10, 2 / 5, 1 / 2]⟩ := by
    decide +kernel
  rw [e] at hv
  simp only [Option.some.injEq] at hv
  subst hv
  simp only [Option.some.injEq] at hs
  subst hs
  simp at hl
  rw [← hl]
  norm_num

/-- A braking motion `-(T - t)^2` (position, speed) that takes 0.19 with samples of 0.1 stops at a speed of 0.18. -/
example : run (1 / 10 : ℚ) (1 / 2) (fun x => decide (|x.1| ≤ 1 / 100 ∧ |x.2| ≤ 1 / 100)) fresh
    [⟨[19 / 100], fun t => (-(19 / 100 - t) ^ 2, 2 * (19 / 100 - t))⟩] =
    .ended [(-361 / 10000, 38 / 100), (-81 / 10000, 18 / 100)] := by
  decide +kernel

/-- A start within a sample of the goal. -/
example : run (1 / 10 : ℚ) (1 / 2) (fun x => decide (|x| ≤ 1 / 100)) fresh [⟨[1 / 1000], fun t => t⟩] = .error :=
  C152_start_violated _ _ _ _ _ (by norm_num [Plan.T])

end Verif.Timing.Arrival
