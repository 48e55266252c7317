import Verif.Timing.Signals

/-! # Clock of the simulator (C32) and lookup of a time in its log (C64) -/

set_option linter.unusedSectionVars false

namespace Verif.Timing

variable {K : Type} [Field K] [LinearOrder K] [IsStrictOrderedRing K] [FloorRing K]

/-! ## Model -/

/-- `current_time` and `time` of a simulator, simulator.py:101-103. -/
structure Sim (K : Type) where
  current : K
  time : List K

/-- `reset_timing`, simulator.py:101-103. -/
def Sim.init : Sim K := ⟨0, [0]⟩

/-- `update_timing`, simulator.py:105-111; `upd` is the attribute `update_time`, `none` the default argument.
`not update_time` also holds for zero. -/
def updateTiming (upd Ts : K) (arg : Option K) (s : Sim K) : Option (Sim K) := do
  let ut := match arg with
    | none => upd
    | some a => if a = 0 then upd else a
  let n := samples ut Ts
  let last ← s.time.getLast?
  let new ← linspace (last + Ts) (last + n * Ts) n
  some ⟨s.current + ut, s.time ++ new⟩

/-- One pass of the loop in `run`, simulator.py:43-52, after `update()` returned `stop` and left `tl` as time of the last sample of
the first vehicle: `(stop or update_time - left) > sample_time`. -/
def runStep (upd Ts : K) (stop : Bool) (tl : K) (s : Sim K) : Option (Sim K) :=
  let left := tl - s.current
  if (if stop then 1 else upd - left) > Ts then updateTiming upd Ts (some (max 0 (left - Ts))) s
  else updateTiming upd Ts none s

/-- `run`, simulator.py:39-53, for a sequence of answers of the problem: the state at the end, and how many updates were made. -/
def run (upd Ts : K) : List (Bool × K) → Sim K → Option (Sim K × ℕ)
  | [], s => some (s, 0)
  | (stop, tl) :: rest, s => do
    let s' ← runStep upd Ts stop tl s
    if stop then some (s', 1)
    else
      let r ← run upd Ts rest s'
      some (r.1, r.2 + 1)

/-- `step`, simulator.py:64-71, after `update()` (which simulates over the attribute `update_time`, whatever `arg` is). -/
def step (upd Ts arg : K) (stop : Bool) (tl : K) (s : Sim K) : Option (Sim K) :=
  if stop then updateTiming upd Ts (some (tl - s.current)) s else updateTiming upd Ts (some arg) s

/-- `time2index`, simulator.py:149-154. -/
def time2index (Ts : K) (log : List K) (time : K) : Option ℕ :=
  log.findIdx? fun t => let t := round6 t; decide (t ≤ time ∧ time < t + Ts ∧ time - t ≤ t + Ts - time)

/-! ## Specification -/

/-- The answers of a problem that goes on, simulated over exactly the update time in every step: after step `j` (from zero) the
last sample of the vehicle is at `c + (j + 1) * upd`. -/
def Spec.regular (c upd : K) (n : ℕ) : List (Bool × K) := (List.range n).map fun (j : ℕ) => (false, c + (j + 1) * upd)

/-! ## Lemmas -/

theorem linspace_next (last Ts : K) (n : ℤ) (hn : 0 ≤ n) :
    linspace (last + Ts) (last + n * Ts) n = some ((List.range n.toNat).map fun (k : ℕ) => last + Ts + k * Ts) := by
  by_cases h : n = 0
  · subst h; simp [linspace]
  · have := linspace_axis (last + Ts) Ts (n - 1) (by omega)
    rw [show (n - 1 : ℤ) + 1 = n by omega, show (n - 1).toNat + 1 = n.toNat by omega] at this
    rw [← this]
    congr 1
    push_cast
    ring

theorem updateTiming_spec (upd Ts : K) (hs : 0 < Ts) (arg : Option K) (s : Sim K) (ut : K) (h0 : 0 ≤ ut)
    (hut : ut = match arg with | none => upd | some a => if a = 0 then upd else a) (m : ℕ) (hm : s.time = Spec.grid 0 Ts (m + 1)) :
    updateTiming upd Ts arg s = some ⟨s.current + ut, Spec.grid 0 Ts (m + (samples ut Ts).toNat + 1)⟩ := by
  unfold updateTiming
  simp only [← hut]
  rw [hm, grid_getLast]
  simp only [Option.bind_eq_bind, Option.bind_some]
  rw [linspace_next _ _ _ (samples_nonneg h0 hs)]
  simp only [Option.bind_some]
  rw [show m + (samples ut Ts).toNat + 1 = m + 1 + (samples ut Ts).toNat by omega, grid_append 0 Ts (m + 1)]
  congr 3
  refine List.map_congr_left fun k _ => ?_
  push_cast
  ring

/-! ## Properties -/

/-- **C32** No update is made after the problem has answered that it is finished: a run makes one update more than the number of
answers before the first such answer, and without such an answer one for every answer. -/
theorem C32_stops (upd Ts : K) (answers : List (Bool × K)) (s s' : Sim K) (n : ℕ) (h : run upd Ts answers s = some (s', n)) :
    n = min (answers.findIdx (·.1) + 1) answers.length := by
  induction answers generalizing s n with
  | nil =>
    simp only [run, Option.some.injEq, Prod.mk.injEq] at h
    simp [← h.2]
  | cons a rest ih =>
    obtain ⟨stop, tl⟩ := a
    rw [run] at h
    cases hs : runStep upd Ts stop tl s with
    | none => rw [hs] at h; simp at h
    | some s1 =>
      rw [hs] at h
      simp only [Option.bind_eq_bind, Option.bind_some] at h
      cases stop with
      | true =>
        simp only [if_true, Option.some.injEq, Prod.mk.injEq] at h
        rw [List.findIdx_cons]
        simp [← h.2]
      | false =>
        simp only [Bool.false_eq_true, if_false] at h
        cases hr : run upd Ts rest s1 with
        | none => rw [hr] at h; simp at h
        | some r =>
          rw [hr] at h
          simp only [Option.bind_some, Option.some.injEq, Prod.mk.injEq] at h
          have := ih s1 r.2 (by rw [hr, ← h.1])
          rw [List.findIdx_cons, List.length_cons, ← h.2, this]
          simp only [cond_false]
          omega

/-- **C32** As long as the problem goes on, every update advances the clock by exactly the update time: after `n` updates it shows
`n` times the update time (a multiple `q` of the sample time), and the log contains all samples until then. -/
theorem C32_advance (Ts : K) (q : ℕ) (hs : 0 < Ts) (n : ℕ) :
    run (q * Ts) Ts (Spec.regular 0 (q * Ts) n) (Sim.init : Sim K) = some (⟨n * (q * Ts), Spec.grid 0 Ts (n * q + 1)⟩, n) := by
  have key : ∀ (n j : ℕ) (s : Sim K), s.current = j * (q * Ts) → s.time = Spec.grid 0 Ts (j * q + 1) →
      run (q * Ts) Ts ((List.range n).map fun (i : ℕ) => (false, 0 + (((j + i : ℕ) : K) + 1) * (q * Ts))) s =
        some (⟨(j + n : ℕ) * (q * Ts), Spec.grid 0 Ts ((j + n) * q + 1)⟩, n) := by
    intro n
    induction n with
    | zero =>
      intro j s h1 h2
      simp only [List.range_zero, List.map_nil, run, Option.some.injEq, Prod.mk.injEq, and_true, Nat.add_zero]
      rw [← h1, ← h2]
    | succ n ih =>
      intro j s h1 h2
      rw [List.range_succ_eq_map, List.map_cons, run, List.map_map]
      have h0 : (0 : K) ≤ q * Ts := by positivity
      have e1 : runStep (q * Ts) Ts false (0 + (((j + 0 : ℕ) : K) + 1) * (q * Ts)) s =
          some ⟨(j + 1 : ℕ) * (q * Ts), Spec.grid 0 Ts ((j + 1) * q + 1)⟩ := by
        unfold runStep
        rw [if_neg, updateTiming_spec (q * Ts) Ts hs none s (q * Ts) h0 rfl (j * q) h2, C30_count q Ts hs, h1]
        · simp only [Int.toNat_natCast, Option.some.injEq, Sim.mk.injEq]
          refine ⟨by push_cast; ring, ?_⟩
          congr 1
          ring
        · rw [h1]
          simp only [Bool.false_eq_true, if_false, Nat.add_zero, gt_iff_lt, not_lt]
          have : (q : K) * Ts - (0 + ((j : K) + 1) * (q * Ts) - j * (q * Ts)) = 0 := by ring
          rw [this]
          exact hs.le
      rw [e1]
      simp only [Option.bind_eq_bind, Option.bind_some, Bool.false_eq_true, if_false]
      have := ih (j + 1) ⟨(j + 1 : ℕ) * (q * Ts), Spec.grid 0 Ts ((j + 1) * q + 1)⟩ rfl rfl
      have e2 : (fun (i : ℕ) => (false, 0 + (((j + i : ℕ) : K) + 1) * (q * Ts))) ∘ Nat.succ =
          fun (i : ℕ) => (false, 0 + (((j + 1 + i : ℕ) : K) + 1) * (q * Ts)) := by
        funext i
        simp only [Function.comp]
        rw [show j + i.succ = j + 1 + i by omega]
      rw [e2, this]
      simp only [Option.bind_some]
      rw [show j + 1 + n = j + (n + 1) by omega]
  have := key n 0 Sim.init (by simp [Sim.init]) (by simp [Sim.init, Spec.grid])
  simpa [Spec.regular] using this

/-- **C32** (partial) A step of the user's choice advances the clock by exactly that step, unless it is zero; when the problem stops
the clock is set to the time of the last sample.
Missing: a step of zero (`C32_zero_violated`); the end of `run` (`C32_final_violated`); that the vehicles are simulated over
the same step (`C32_step_violated`). -/
theorem C32_step_partial (upd Ts arg tl : K) (stop : Bool) (s s' : Sim K) (h : step upd Ts arg stop tl s = some s')
    (ha : arg ≠ 0) (ht : tl ≠ s.current) : s'.current = if stop then tl else s.current + arg := by
  have key : ∀ a : K, a ≠ 0 → updateTiming upd Ts (some a) s = some s' → s'.current = s.current + a := by
    intro a ha h
    unfold updateTiming at h
    simp only [if_neg ha, Option.bind_eq_bind, Option.bind_eq_some_iff, Option.some.injEq] at h
    obtain ⟨l, -, new, -, h⟩ := h
    rw [← h]
  unfold step at h
  cases stop with
  | true =>
    rw [if_pos rfl] at h
    rw [key _ (sub_ne_zero.2 ht) h, if_pos rfl]
    ring
  | false => exact key _ ha h

/-- A step of zero advances the clock by the default update time. -/
theorem C32_zero_violated : ∃ s : Sim ℚ, step (1 / 10) (1 / 100) 0 false 0 Sim.init = some s ∧ s.current = 1 / 10 := by
  have h := updateTiming_spec (1 / 10 : ℚ) (1 / 100) (by norm_num) (some 0) Sim.init (1 / 10) (by norm_num) rfl 0
    (by simp [Sim.init, Spec.grid])
  refine ⟨_, h, ?_⟩
  simp [Sim.init]

/-- When the problem stops after its first update over 0.1 s, at a sample time of 0.01 s, the clock stops at 0.09 s, before the
last sample of the vehicle. -/
theorem C32_final_violated : ∃ s : Sim ℚ, run (1 / 10) (1 / 100) [(true, 1 / 10)] Sim.init = some (s, 1) ∧ s.current = 9 / 100 := by
  have h := updateTiming_spec (1 / 10 : ℚ) (1 / 100) (by norm_num) (some (9 / 100)) Sim.init (9 / 100) (by norm_num) (by norm_num) 0
    (by simp [Sim.init, Spec.grid])
  refine ⟨⟨Sim.init.current + 9 / 100, Spec.grid 0 (1 / 100) (0 + (samples (9 / 100 : ℚ) (1 / 100)).toNat + 1)⟩, ?_, by simp [Sim.init]⟩
  rw [run, runStep, if_pos (by norm_num)]
  rw [show max 0 ((1 / 10 : ℚ) - Sim.init.current - 1 / 100) = 9 / 100 by norm_num [Sim.init], h]
  rfl

/-- A step of 0.5 s of a simulator with update time 0.1 s: the vehicles have been simulated until 0.1 s (their last sample), the
clock shows 0.5 s. -/
theorem C32_step_violated : ∃ s : Sim ℚ, step (1 / 10) (1 / 100) (1 / 2) false (1 / 10) Sim.init = some s ∧ s.current = 1 / 2 := by
  have h := updateTiming_spec (1 / 10 : ℚ) (1 / 100) (by norm_num) (some (1 / 2)) Sim.init (1 / 2) (by norm_num) (by norm_num) 0
    (by simp [Sim.init, Spec.grid])
  refine ⟨_, h, ?_⟩
  simp [Sim.init]

/-- Three regular updates, then arrival: four updates, although more answers would follow. -/
example : ∃ s : Sim ℚ, run (1 / 10) (1 / 100) (Spec.regular 0 (1 / 10) 3 ++ [(true, 4 / 10), (false, 5 / 10)]) Sim.init = some (s, 4) := by
  have h3 := C32_advance (1 / 100 : ℚ) 10 (by norm_num) 3
  norm_num at h3
  have app : ∀ (l l' : List (Bool × ℚ)) (s s1 : Sim ℚ) (k : ℕ), (∀ a ∈ l, a.1 = false) → run (1 / 10) (1 / 100) l s = some (s1, k) →
      run (1 / 10) (1 / 100) (l ++ l') s = (run (1 / 10) (1 / 100) l' s1).map fun r => (r.1, r.2 + k) := by
    intro l
    induction l with
    | nil =>
      intro l' s s1 k _ h
      simp only [run, Option.some.injEq, Prod.mk.injEq] at h
      rw [← h.1, ← h.2, List.nil_append]
      simp
    | cons a l ih =>
      intro l' s s1 k ha h
      obtain ⟨stop, tl⟩ := a
      have : stop = false := ha (stop, tl) (by simp)
      subst this
      rw [List.cons_append, run]
      rw [run] at h
      cases hs : runStep (1 / 10 : ℚ) (1 / 100) false tl s with
      | none => rw [hs] at h; simp at h
      | some s2 =>
        rw [hs] at h
        simp only [Option.bind_eq_bind, Option.bind_some, Bool.false_eq_true, if_false] at h ⊢
        cases hr : run (1 / 10 : ℚ) (1 / 100) l s2 with
        | none => rw [hr] at h; simp at h
        | some r =>
          rw [hr] at h
          simp only [Option.bind_some, Option.some.injEq, Prod.mk.injEq] at h
          rw [ih l' s2 s1 r.2 (fun a ha' => ha a (by simp [ha'])) (by rw [hr, ← h.1]), ← h.2]
          cases run (1 / 10 : ℚ) (1 / 100) l' s1 <;> simp [Nat.add_assoc]
  have h4 := updateTiming_spec (1 / 10 : ℚ) (1 / 100) (by norm_num) (some (9 / 100)) ⟨3 / 10, Spec.grid 0 (1 / 100) 31⟩ (9 / 100)
    (by norm_num) (by norm_num) 30 rfl
  refine ⟨⟨3 / 10 + 9 / 100, Spec.grid 0 (1 / 100) (30 + (samples (9 / 100 : ℚ) (1 / 100)).toNat + 1)⟩, ?_⟩
  rw [app _ _ _ ⟨3 / 10, Spec.grid 0 (1 / 100) 31⟩ 3 (by simp [Spec.regular]) (by simpa [Spec.regular] using h3), run, runStep,
    if_pos (by norm_num), show max 0 ((4 / 10 : ℚ) - 3 / 10 - 1 / 100) = 9 / 100 by norm_num, h4]
  rfl

/-- **C64** (partial) In the log of a simulation with a sample time that is a multiple of a microsecond, every time in the first half of a sample
interval is looked up as the sample at its start, which is the closest one.
Missing: the second half of an interval, see `C64_violated`. -/
theorem C64_partial (q : ℕ) (hq : 0 < q) (m k : ℕ) (hk : k < m) (time : K) (h0 : (k : K) * ((q : K) / 10 ^ 6) ≤ time)
    (h1 : time ≤ (k : K) * ((q : K) / 10 ^ 6) + (q : K) / 10 ^ 6 / 2) :
    time2index ((q : K) / 10 ^ 6) (Spec.grid 0 ((q : K) / 10 ^ 6) m) time = some k := by
  have hp : (0 : K) < (q : K) / 10 ^ 6 := by positivity
  have hr : ∀ j : ℕ, round6 (0 + (j : K) * ((q : K) / 10 ^ 6)) = (j : K) * ((q : K) / 10 ^ 6) := by
    intro j
    unfold round6
    have : (0 + (j : K) * ((q : K) / 10 ^ 6)) * 10 ^ 6 = (((j * q : ℕ) : ℤ) : K) := by push_cast; field_simp; ring
    rw [this, round_intCast]
    push_cast
    field_simp
  unfold time2index
  rw [List.findIdx?_eq_some_iff_getElem]
  refine ⟨by simpa [Spec.grid] using hk, ?_, ?_⟩
  · simp only [Spec.grid, List.getElem_map, List.getElem_range, hr, decide_eq_true_eq]
    refine ⟨h0, ?_, ?_⟩ <;> linarith
  · intro j hj
    simp only [Spec.grid, List.getElem_map, List.getElem_range, hr, Bool.not_eq_true, decide_eq_false_iff_not, not_and]
    intro _ h2
    exfalso
    have : ((j : K) + 1) * ((q : K) / 10 ^ 6) ≤ (k : K) * ((q : K) / 10 ^ 6) := by
      refine mul_le_mul_of_nonneg_right ?_ hp.le
      exact_mod_cast hj
    nlinarith

/-- In the second half of a sample interval no sample is found, so that the plot at that time fails. -/
theorem C64_violated : time2index (1 / 10 : ℚ) (Spec.grid 0 (1 / 10) 11) (6 / 100) = none := by
  have hr : ∀ j : ℕ, round6 (0 + (j : ℚ) * (1 / 10)) = j * (1 / 10) := by
    intro j
    unfold round6
    have : (0 + (j : ℚ) * (1 / 10)) * 10 ^ 6 = (((j * 10 ^ 5 : ℕ) : ℤ) : ℚ) := by push_cast; ring
    rw [this, round_intCast]
    push_cast
    ring
  unfold time2index
  rw [List.findIdx?_eq_none_iff]
  intro t ht
  obtain ⟨j, -, rfl⟩ := List.mem_map.1 ht
  simp only [hr, decide_eq_false_iff_not]
  rintro ⟨h1, h2, h3⟩
  have : j = 0 := by
    by_contra hj
    have : (1 : ℚ) ≤ j := by exact_mod_cast Nat.one_le_iff_ne_zero.2 hj
    linarith
  subst this
  norm_num at h3

/-- In the log of one second at 0.1 s: 0.24 s belongs to sample 2. -/
example : time2index (((100000 : ℕ) : ℚ) / 10 ^ 6) (Spec.grid 0 (((100000 : ℕ) : ℚ) / 10 ^ 6) 11) (24 / 100) = some 2 :=
  C64_partial 100000 (by norm_num) 11 2 (by norm_num) (24 / 100) (by norm_num) (by norm_num)

end Verif.Timing
