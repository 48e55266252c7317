import Verif.Timing.Sampling
import Mathlib.Data.Rat.Floor

/-! # Logged signals of obstacles and vehicles (C30) -/

set_option linter.unusedSectionVars false

namespace Verif.Timing

variable {K : Type} [Field K] [LinearOrder K] [IsStrictOrderedRing K] [FloorRing K]

/-! ## Model: obstacles -/

section Obstacle

variable {V : Type}

/-- The logged signals of a 2D obstacle, obstacle.py:226-232, 369-373; one entry per column. -/
structure ObsLog (K V : Type) where
  time : List K
  position : List V
  velocity : List V
  acceleration : List V
  orientation : List K
  angular : List K

/-- A new obstacle: obstacle.py:225-232, 366-373. -/
def ObsLog.init (x v a : V) (theta omega : K) : ObsLog K V := ⟨[0], [x], [v], [a], [theta], [omega]⟩

/-- The loop for orientation and angular velocity, obstacle.py:377-386. -/
def rotate (Ts : K) : ℕ → List K × List K → Option (List K × List K)
  | 0, l => some l
  | n + 1, (th, om) => do
    let theta0 ← th.getLast?
    let omega0 ← om.getLast?
    rotate Ts n (th ++ [theta0 + Ts * omega0], om ++ [omega0])

/-- `Obstacle2D.simulate`, obstacle.py:246-264 and 375-386.  `ode` is the integrator: from the log and the time axis one state
(position, velocity, acceleration) per entry of the axis; it may use everything that has been logged. -/
def simObs (ode : ObsLog K V → K → V × V × V) (T Ts : K) (s : ObsLog K V) : Option (ObsLog K V) := do
  let n := samples T Ts + 1
  let time0 ← s.time.getLast?
  let axis ← linspace time0 ((n - 1 : ℤ) * Ts + time0) n
  let state := axis.map (ode s)
  let r ← rotate Ts (samples T Ts).toNat (s.orientation, s.angular)
  some { time := s.time ++ slice axis 1 (n + 1)
         position := s.position ++ slice (state.map (·.1)) 1 (n + 1)
         velocity := s.velocity ++ slice (state.map (·.2.1)) 1 (n + 1)
         acceleration := s.acceleration ++ slice (state.map (·.2.2)) 1 (n + 1)
         orientation := r.1
         angular := r.2 }

/-- A sequence of simulation steps. -/
def runObs (ode : ObsLog K V → K → V × V × V) (Ts : K) (Ts' : List K) (s : ObsLog K V) : Option (ObsLog K V) :=
  Ts'.foldlM (fun s T => simObs ode T Ts s) s

/-- `set_state` with a full dictionary: obstacle.py:159-164, 345-351.  The time signal is left as it is. -/
def setState (x v a : V) (theta omega : K) (s : ObsLog K V) : ObsLog K V :=
  { s with position := [x], velocity := [v], acceleration := [a], orientation := [theta], angular := [omega] }

end Obstacle

/-! ## Model: vehicles -/

section Vehicle

variable {S I P A : Type}

/-- The options of `Vehicle.simulate` that matter here. -/
structure VehOpt where
  ideal : Bool
  delay : Bool

/-- Trajectories or signals of a vehicle; `other` stands for any further signal. -/
structure Sig (K S I P A : Type) where
  time : List K
  state : List S
  input : List I
  pose : List P
  other : List A

/-- What the simulation may use from outside: the two integrations (as functions of the sample number) and `state2pose`. -/
structure VehSim (K S I P A : Type) where
  state : Sig K S I P A → Sig K S I P A → ℕ → S
  input : Sig K S I P A → Sig K S I P A → ℕ → I
  pose : S → P
  disturb : I → I

/-- `integrate_ode`, vehicle.py:412-423: `int(integration_time/sample_time)+1` samples (no rounding here). -/
def integrate {B : Type} (f : ℕ → B) (T Ts : K) : List B := (List.range (pyInt (T / Ts) + 1).toNat).map f

/-- `Vehicle.simulate`, vehicle.py:359-391: `tr` are the trajectories stored by the last update, `s` the signals (`none` before the
first call). -/
def simVeh (o : VehOpt) (w : VehSim K S I P A) (T Ts : K) (tr : Sig K S I P A) (s : Option (Sig K S I P A)) : Sig K S I P A :=
  let s := s.getD ⟨tr.time.take 1, tr.state.take 1, tr.input.take 1, tr.pose.take 1, tr.other.take 1⟩
  let n := samples T Ts
  if o.ideal then
    { time := s.time ++ slice tr.time 1 (n + 1)
      state := s.state ++ slice tr.state 1 (n + 1)
      input := s.input ++ slice tr.input 1 (n + 1)
      pose := s.pose ++ slice tr.pose 1 (n + 1)
      other := s.other ++ slice tr.other 1 (n + 1) }
  else
    let input := if o.delay then integrate (w.input tr s) T Ts else tr.input.map w.disturb
    let state := integrate (w.state tr s) T Ts
    { time := s.time ++ slice tr.time 1 (n + 1)
      state := s.state ++ slice state 1 (n + 1)
      input := s.input ++ slice input 1 (n + 1)
      pose := s.pose ++ (slice state 1 (n + 1)).map w.pose
      other := s.other ++ slice tr.other 1 (n + 1) }

/-- The clipping of the simulation time to the rest of the horizon, point2point.py:241-242 (`rest = horizon_time - rel_current_time`). -/
def clip (rest T : K) : K := if rest < T then rest else T

/-- `store`, point2point.py:222-226 and vehicle.py:273-279: `int(round(rest/sample_time, 6)) + 1` samples from `rel_current_time` on,
shifted to start at the current time. -/
def storedTime (c rest Ts : K) : List K := (List.range (samples rest Ts + 1).toNat).map fun (k : ℕ) => c + k * Ts

end Vehicle

/-! ## Specification -/

/-- All signals have as many samples as the time signal. -/
def Spec.Aligned {V : Type} (s : ObsLog K V) : Prop :=
  s.position.length = s.time.length ∧ s.velocity.length = s.time.length ∧ s.acceleration.length = s.time.length ∧
  s.orientation.length = s.time.length ∧ s.angular.length = s.time.length

/-- All signals of a vehicle have as many samples as the time signal. -/
def Spec.AlignedV {S I P A : Type} (s : Sig K S I P A) : Prop :=
  s.state.length = s.time.length ∧ s.input.length = s.time.length ∧ s.pose.length = s.time.length ∧ s.other.length = s.time.length

/-- `m` samples from `c` on, `Ts` apart. -/
def Spec.grid (c Ts : K) (m : ℕ) : List K := (List.range m).map fun (k : ℕ) => c + k * Ts

/-! ## Lemmas -/

theorem grid_append (c Ts : K) (m n : ℕ) :
    Spec.grid c Ts (m + n) = Spec.grid c Ts m ++ (List.range n).map fun (k : ℕ) => c + (m + k : ℕ) * Ts := by
  unfold Spec.grid
  rw [List.range_add, List.map_append, List.map_map]
  rfl

theorem grid_getLast (c Ts : K) (m : ℕ) : (Spec.grid c Ts (m + 1)).getLast? = some (c + m * Ts) := by
  rw [grid_append]; simp

theorem rotate_spec (Ts : K) : ∀ (n : ℕ) (th om : List K), th ≠ [] → om ≠ [] →
    ∃ r, rotate Ts n (th, om) = some r ∧ r.1.length = th.length + n ∧ r.2.length = om.length + n := by
  intro n
  induction n with
  | zero => intro th om _ _; exact ⟨_, rfl, rfl, rfl⟩
  | succ n ih =>
    intro th om h1 h2
    obtain ⟨r, hr, e1, e2⟩ := ih (th ++ [th.getLast h1 + Ts * om.getLast h2]) (om ++ [om.getLast h2]) (by simp) (by simp)
    refine ⟨r, ?_, ?_, ?_⟩
    · rw [rotate, List.getLast?_eq_some_getLast h1, List.getLast?_eq_some_getLast h2]
      exact hr
    · rw [e1]; simp; omega
    · rw [e2]; simp; omega

/-- One step adds `samples T Ts` samples to every signal. -/
theorem simObs_spec {V : Type} (ode : ObsLog K V → K → V × V × V) (T Ts : K) (hT : 0 ≤ T) (hs : 0 < Ts) (s : ObsLog K V) (m : ℕ)
    (hm : s.time = Spec.grid 0 Ts (m + 1)) (ha : Spec.Aligned s) :
    ∃ s', simObs ode T Ts s = some s' ∧ s'.time = Spec.grid 0 Ts (m + (samples T Ts).toNat + 1) ∧ Spec.Aligned s' := by
  obtain ⟨h1, h2, h3, h4, h5⟩ := ha
  have hn := samples_nonneg hT hs
  have hlen : s.time.length = m + 1 := by rw [hm]; simp [Spec.grid]
  rw [hlen] at h1 h2 h3 h4 h5
  obtain ⟨r, hr, hr1, hr2⟩ := rotate_spec Ts (samples T Ts).toNat s.orientation s.angular
    (by intro h; rw [h] at h4; simp at h4) (by intro h; rw [h] at h5; simp at h5)
  have hsl : ∀ {B : Type} (l : List B), l.length = (samples T Ts).toNat + 1 → slice l 1 (samples T Ts + 1 + 1) = l.tail := by
    intro B l hl
    rw [slice_tail _ _ (by omega), List.take_of_length_le]
    rw [List.length_tail, hl]; omega
  have hax := linspace_axis (0 + (m : K) * Ts) Ts (samples T Ts) hn
  unfold simObs
  rw [hm, grid_getLast]
  simp only [Option.bind_eq_bind, Option.bind_some, add_sub_cancel_right]
  rw [hax]
  simp only [Option.bind_some]
  rw [hr]
  simp only [Option.bind_some]
  refine ⟨_, rfl, ?_, ?_⟩
  · simp only
    rw [hsl _ (by simp), show m + (samples T Ts).toNat + 1 = m + 1 + (samples T Ts).toNat by omega, grid_append 0 Ts (m + 1),
      List.range_succ_eq_map, List.map_cons, List.tail_cons, List.map_map]
    congr 1
    refine List.map_congr_left fun k _ => ?_
    simp only [Function.comp]
    push_cast
    ring
  · unfold Spec.Aligned
    simp only [List.length_append]
    rw [hsl _ (by simp), hsl _ (by simp), hsl _ (by simp), hsl _ (by simp)]
    simp only [List.length_tail, List.length_map, List.length_range, h1, h2, h3, hr1, h4, hr2, h5, Spec.grid]
    simp

/-! ## Properties -/

/-- **C30** After any sequence of simulation steps all signals of an obstacle have the same number of samples, and the time signal
runs from zero in steps of exactly the sample time. -/
theorem C30_obstacle {V : Type} (ode : ObsLog K V → K → V × V × V) (Ts : K) (hs : 0 < Ts) (steps : List K) (hsteps : ∀ T ∈ steps, 0 ≤ T)
    (x v a : V) (theta omega : K) :
    ∃ s, runObs ode Ts steps (ObsLog.init x v a theta omega) = some s ∧ Spec.Aligned s ∧
      s.time = Spec.grid 0 Ts ((steps.map fun T => (samples T Ts).toNat).sum + 1) := by
  have key : ∀ (steps : List K), (∀ T ∈ steps, 0 ≤ T) → ∀ (m : ℕ) (s : ObsLog K V), s.time = Spec.grid 0 Ts (m + 1) → Spec.Aligned s →
      ∃ s', runObs ode Ts steps s = some s' ∧ Spec.Aligned s' ∧
        s'.time = Spec.grid 0 Ts (m + (steps.map fun T => (samples T Ts).toNat).sum + 1) := by
    intro steps
    induction steps with
    | nil => intro _ m s h1 h2; exact ⟨s, rfl, h2, by simpa using h1⟩
    | cons T steps ih =>
      intro hp m s h1 h2
      obtain ⟨s1, e1, g1, a1⟩ := simObs_spec ode T Ts (hp T (by simp)) hs s m h1 h2
      obtain ⟨s2, e2, a2, g2⟩ := ih (fun T hT => hp T (by simp [hT])) _ s1 g1 a1
      refine ⟨s2, ?_, a2, ?_⟩
      · unfold runObs at *
        rw [List.foldlM_cons, e1]
        exact e2
      · rw [g2, List.map_cons, List.sum_cons]
        congr 1
        omega
  obtain ⟨s, h1, h2, h3⟩ := key steps hsteps 0 (ObsLog.init x v a theta omega) (by simp [ObsLog.init, Spec.grid])
    (by simp [ObsLog.init, Spec.Aligned])
  exact ⟨s, h1, h2, by rw [h3, Nat.zero_add]⟩

/-- **C30** A step over a whole number of sample times adds that number of samples, to obstacles and vehicles. -/
theorem C30_count (n : ℕ) (Ts : K) (hs : 0 < Ts) : samples (n * Ts) Ts = n := by
  have := samples_mul (n : ℤ) hs
  simpa using this

/-- Two steps of 0.3 s and 0.2 s at 0.1 s: six samples. -/
example : ∃ s, runObs (fun _ (t : ℚ) => ((t, t), (1, 1), (0, 0))) (1 / 10) [3 / 10, 1 / 5] (ObsLog.init (0, 0) (1, 1) (0, 0) 0 1) = some s ∧
    s.time.length = 6 ∧ s.orientation.length = 6 := by
  obtain ⟨s, h1, h2, h3⟩ := C30_obstacle (fun _ (t : ℚ) => ((t, t), (1, 1), (0, 0))) (1 / 10) (by norm_num) [3 / 10, 1 / 5]
    (by simp; norm_num) ((0 : ℚ), (0 : ℚ)) (1, 1) (0, 0) 0 1
  have e1 : samples (3 / 10 : ℚ) (1 / 10) = 3 := by
    have := C30_count (K := ℚ) 3 (1 / 10) (by norm_num); norm_num at this; exact this
  have e2 : samples (1 / 5 : ℚ) (1 / 10) = 2 := by
    have := C30_count (K := ℚ) 2 (1 / 10) (by norm_num); norm_num at this; exact this
  have : s.time.length = 6 := by rw [h3]; simp only [Spec.grid, List.map_cons, List.map_nil, e1, e2]; rfl
  exact ⟨s, h1, this, by rw [h2.2.2.2.1, this]⟩

/-- Setting the state of an obstacle forgets the logged positions but not the logged times. -/
theorem C30_set_state_violated : ∃ s : ObsLog ℚ ℚ, Spec.Aligned s ∧ ¬ Spec.Aligned (setState 0 0 0 0 0 s) :=
  ⟨⟨[0, 1], [0, 0], [0, 0], [0, 0], [0, 0], [0, 0]⟩, by simp [Spec.Aligned], by simp [Spec.Aligned, setState]⟩

section VehicleProps

variable {S I P A : Type}

theorem store_length (c rest Ts : K) (h0 : 0 ≤ rest) (hs : 0 < Ts) : (storedTime c rest Ts).length = (samples rest Ts).toNat + 1 := by
  have := samples_nonneg h0 hs
  rw [storedTime, List.length_map, List.length_range]
  omega

/-- **C30** With ideal updates all signals of a vehicle keep the same number of samples, whatever trajectories are stored (all
with one sample per time) and whatever the simulation time is. -/
theorem C30_vehicle_ideal (o : VehOpt) (ho : o.ideal = true) (w : VehSim K S I P A) (T Ts : K) (hT : 0 ≤ T) (hs : 0 < Ts)
    (tr : Sig K S I P A) (htr : Spec.AlignedV tr) (s : Option (Sig K S I P A)) (h : ∀ s' ∈ s, Spec.AlignedV s') :
    Spec.AlignedV (simVeh o w T Ts tr s) := by
  have hn := samples_nonneg hT hs
  obtain ⟨t1, t2, t3, t4⟩ := htr
  have h0 : Spec.AlignedV (s.getD ⟨tr.time.take 1, tr.state.take 1, tr.input.take 1, tr.pose.take 1, tr.other.take 1⟩) := by
    cases s with
    | none => simp [Spec.AlignedV, t1, t2, t3, t4]
    | some s => exact h s rfl
  unfold simVeh
  rw [ho]
  simp only [if_true]
  generalize s.getD ⟨tr.time.take 1, tr.state.take 1, tr.input.take 1, tr.pose.take 1, tr.other.take 1⟩ = s0 at h0 ⊢
  obtain ⟨a1, a2, a3, a4⟩ := h0
  unfold Spec.AlignedV
  simp only [slice_tail _ _ hn, List.length_append, List.length_take, List.length_tail, t1, t2, t3, t4, a1, a2, a3, a4]
  exact ⟨trivial, trivial, trivial, trivial⟩

/-- **C30** (partial) Without ideal updates all signals keep the same number of samples, provided that the quotient of simulation
and sample time has the same whole part before and after rounding to six decimals, and that the stored trajectory is long enough.
Missing: quotients just below a whole number, see `C30_vehicle_violated`. -/
theorem C30_vehicle_partial (o : VehOpt) (w : VehSim K S I P A) (T Ts : K) (hT : 0 ≤ T) (hs : 0 < Ts)
    (hint : pyInt (T / Ts) = samples T Ts) (tr : Sig K S I P A) (htr : Spec.AlignedV tr) (hlen : samples T Ts < tr.time.length)
    (s : Option (Sig K S I P A)) (h : ∀ s' ∈ s, Spec.AlignedV s') :
    Spec.AlignedV (simVeh o w T Ts tr s) ∧ (simVeh o w T Ts tr s).time.length = (s.elim 1 (·.time.length)) + (samples T Ts).toNat := by
  have hn := samples_nonneg hT hs
  have h0 : Spec.AlignedV (s.getD ⟨tr.time.take 1, tr.state.take 1, tr.input.take 1, tr.pose.take 1, tr.other.take 1⟩) := by
    obtain ⟨t1, t2, t3, t4⟩ := htr
    cases s with
    | none => simp [Spec.AlignedV, t1, t2, t3, t4]
    | some s => exact h s rfl
  have hl0 : (s.getD ⟨tr.time.take 1, tr.state.take 1, tr.input.take 1, tr.pose.take 1, tr.other.take 1⟩).time.length =
      s.elim 1 (·.time.length) := by
    cases s with
    | none => simp only [Option.getD_none, List.length_take, Option.elim_none]; omega
    | some s => rfl
  refine ⟨?_, ?_⟩
  · cases ho : o.ideal with
    | true => exact C30_vehicle_ideal o ho w T Ts hT hs tr htr s h
    | false =>
      obtain ⟨t1, t2, t3, t4⟩ := htr
      unfold simVeh
      rw [ho]
      simp only [if_false, Bool.false_eq_true]
      generalize s.getD ⟨tr.time.take 1, tr.state.take 1, tr.input.take 1, tr.pose.take 1, tr.other.take 1⟩ = s0 at h0 ⊢
      obtain ⟨a1, a2, a3, a4⟩ := h0
      have e : (samples T Ts + 1).toNat = (samples T Ts).toNat + 1 := by omega
      unfold Spec.AlignedV integrate
      rw [hint, e]
      simp only [slice_tail _ _ hn, List.length_append, List.length_map, List.length_take, List.length_tail, List.length_range, t4, a1, a2, a3, a4]
      refine ⟨by omega, ?_, by omega, trivial⟩
      cases o.delay
      · simp only [Bool.false_eq_true, if_false, List.length_map, t2]
      · simp only [if_true, List.length_map, List.length_range]; omega
  · unfold simVeh
    split
    · simp only [slice_tail _ _ hn, List.length_append, List.length_take, List.length_tail, hl0]; omega
    · simp only [slice_tail _ _ hn, List.length_append, List.length_take, List.length_tail, hl0]; omega

/-- **C30** Within the horizon the stored trajectory is long enough. -/
theorem C30_horizon (c rest T Ts : K) (h0 : 0 ≤ rest) (hs : 0 < Ts) :
    samples (clip rest T) Ts < (storedTime c rest Ts).length := by
  rw [store_length c rest Ts h0 hs]
  have h1 : clip rest T ≤ rest := by unfold clip; split <;> [exact le_refl _; exact not_lt.1 (by assumption)]
  have h2 := samples_mono h1 hs
  have h3 := samples_nonneg h0 hs
  omega

/-- **C30** When the trajectory that is simulated starts at the time of the last logged sample, the logged times stay on one grid
with steps of exactly the sample time. -/
theorem C30_vehicle_time (o : VehOpt) (w : VehSim K S I P A) (T Ts c0 rest : K) (m : ℕ) (hT : 0 ≤ T) (h0 : 0 ≤ rest) (hs : 0 < Ts)
    (tr : Sig K S I P A) (htr : tr.time = storedTime (c0 + m * Ts) rest Ts)
    (s : Option (Sig K S I P A)) (h : (s = none ∧ m = 0) ∨ ∃ s', s = some s' ∧ s'.time = Spec.grid c0 Ts (m + 1)) :
    (simVeh o w (clip rest T) Ts tr s).time = Spec.grid c0 Ts (m + (samples (clip rest T) Ts).toNat + 1) := by
  have hl := C30_horizon (c0 + m * Ts) rest T Ts h0 hs
  have hn : 0 ≤ samples (clip rest T) Ts := samples_nonneg (by unfold clip; split <;> assumption) hs
  rw [← htr] at hl
  have e0 : (s.getD ⟨tr.time.take 1, tr.state.take 1, tr.input.take 1, tr.pose.take 1, tr.other.take 1⟩).time = Spec.grid c0 Ts (m + 1) := by
    rcases h with ⟨rfl, rfl⟩ | ⟨s', rfl, h⟩
    · simp only [Option.getD_none]
      rw [htr]
      unfold storedTime
      have := samples_nonneg h0 hs
      rw [show (samples rest Ts + 1).toNat = (samples rest Ts).toNat + 1 by omega, List.range_succ_eq_map]
      simp [Spec.grid]
    · exact h
  have e : (simVeh o w (clip rest T) Ts tr s).time =
      (s.getD ⟨tr.time.take 1, tr.state.take 1, tr.input.take 1, tr.pose.take 1, tr.other.take 1⟩).time ++
        slice tr.time 1 (samples (clip rest T) Ts + 1) := by
    unfold simVeh; split <;> rfl
  rw [e, e0, slice_tail _ _ hn, show m + (samples (clip rest T) Ts).toNat + 1 = m + 1 + (samples (clip rest T) Ts).toNat by omega, grid_append c0 Ts (m + 1)]
  congr 1
  rw [htr] at hl ⊢
  have hr := samples_nonneg h0 hs
  rw [store_length _ _ _ h0 hs] at hl
  unfold storedTime
  rw [show (samples rest Ts + 1).toNat = (samples rest Ts).toNat + 1 by omega, List.range_succ_eq_map, List.map_cons, List.tail_cons,
    List.map_map, ← List.map_take, List.take_range, Nat.min_eq_left (by omega)]
  refine List.map_congr_left fun k _ => ?_
  simp only [Function.comp]
  push_cast
  ring

/-- The numbers that Python stores for 0.3 and 0.1: three steps are simulated, but only two states. -/
theorem C30_vehicle_violated : ∃ (w : VehSim ℚ ℕ ℕ ℕ ℕ) (T Ts : ℚ) (tr : Sig ℚ ℕ ℕ ℕ ℕ),
    T = 5404319552844595 / 2 ^ 54 ∧ Ts = 3602879701896397 / 2 ^ 55 ∧ Spec.AlignedV tr ∧ tr.time.length = 11 ∧
    (simVeh ⟨false, false⟩ w T Ts tr none).time.length = 4 ∧ (simVeh ⟨false, false⟩ w T Ts tr none).state.length = 3 := by
  have h1 : samples (5404319552844595 / 2 ^ 54 : ℚ) (3602879701896397 / 2 ^ 55) = 3 := by
    have hr : round ((5404319552844595 / 2 ^ 54 : ℚ) / (3602879701896397 / 2 ^ 55) * 10 ^ 6) = 3000000 := by
      rw [round_eq, Int.floor_eq_iff]; norm_num
    unfold samples round6
    rw [hr, show (((3000000 : ℤ) : ℚ) / 10 ^ 6) = ((3 : ℤ) : ℚ) by norm_num, pyInt_intCast]
  have h2 : pyInt ((5404319552844595 / 2 ^ 54 : ℚ) / (3602879701896397 / 2 ^ 55)) = 2 := by
    rw [pyInt, if_pos (by norm_num), Int.floor_eq_iff]; norm_num
  refine ⟨⟨fun _ _ k => k, fun _ _ k => k, id, id⟩, _, _, ⟨(List.range 11).map (fun (k : ℕ) => (k : ℚ)), List.range 11, List.range 11,
    List.range 11, List.range 11⟩, rfl, rfl, by simp [Spec.AlignedV], by simp, ?_, ?_⟩
  · simp only [simVeh, h1, Bool.false_eq_true, if_false, slice_tail _ _ (by norm_num : (0 : ℤ) ≤ 3)]
    simp
  · simp only [simVeh, integrate, h1, h2, Bool.false_eq_true, if_false, slice_tail _ _ (by norm_num : (0 : ℤ) ≤ 3)]
    simp

/-- The guard of `C30_vehicle_partial`: 0.3 s at exactly 0.1 s. -/
example : pyInt ((3 / 10 : ℚ) / (1 / 10)) = samples (3 / 10 : ℚ) (1 / 10) ∧ samples (3 / 10 : ℚ) (1 / 10) < 11 := by
  have e1 : samples (3 / 10 : ℚ) (1 / 10) = 3 := by
    have := C30_count (K := ℚ) 3 (1 / 10) (by norm_num); norm_num at this; exact this
  rw [e1, show (3 / 10 : ℚ) / (1 / 10) = ((3 : ℤ) : ℚ) by norm_num, pyInt_intCast]
  decide

end VehicleProps

end Verif.Timing
