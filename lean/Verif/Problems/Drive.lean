import Verif.Problems.Mission

/-! # A simulated drive, whatever the constraints of the vehicle

The part of the argument of C158 that does not depend on limits, room and obstacles, for a vehicle that moves freely in `n` directions
(`Holonomic1D`, `Holonomic`, `Holonomic3D`): following plans one after the other in the loop of deployer and simulator gives one motion. -/

set_option linter.unusedSectionVars false

namespace Verif.Problems

open Verif.Spline Verif.Vehicles Verif.Timing

/-! ## Model -/

/-- Position, velocity and acceleration of the plan with the splines `x` and the motion time `T`, at time `r` after its start. -/
noncomputable def planPos {n : ℕ} (x : Fin n → BSpline ℝ) (T : ℝ) (r : ℝ) (i : Fin n) : ℝ := (x i).eval (r / T)
noncomputable def planVel {n : ℕ} (x : Fin n → BSpline ℝ) (T : ℝ) (r : ℝ) (i : Fin n) : ℝ := ((x i).derivative 1).eval (r / T) / T
noncomputable def planAcc {n : ℕ} (x : Fin n → BSpline ℝ) (T : ℝ) (r : ℝ) (i : Fin n) : ℝ := ((x i).derivative 2).eval (r / T) / T ^ 2

/-- The columns that `FreeTPoint2point.store` (point2point.py:327-342) stores: state, input and its derivative on the time axis `0, Ts, 2 Ts, ...`. -/
noncomputable def planCols {n : ℕ} (Ts : ℝ) (x : Fin n → BSpline ℝ) (T : ℝ) : List (Holo n) :=
  (List.range ((samples T Ts).toNat + 1)).map fun (i : ℕ) => holoSignals (fun j => (x j).scale T 0) (i * Ts)

/-! ## Specification -/

/-- A motion during `[0, total]` with its velocity and acceleration: the position is continuously differentiable, and the velocity has the acceleration as its
derivative from the right. -/
structure Spec.Moves {n : ℕ} (total : ℝ) (pos vel acc : ℝ → Fin n → ℝ) : Prop where
  moves : ∀ i, ∀ t ∈ Set.Icc 0 total, HasDerivWithinAt (fun t => pos t i) (vel t i) (Set.Icc 0 total) t
  smooth : ∀ i, ContinuousOn (fun t => vel t i) (Set.Icc 0 total)
  speeds : ∀ i, ∀ t ∈ Set.Ico 0 total, HasDerivWithinAt (fun t => vel t i) (acc t i) (Set.Icc t total) t

/-! ## One plan -/

section One
variable {n : ℕ} {x : Fin n → BSpline ℝ} {T : ℝ}

theorem plan_signals (hx : ∀ i, Traj (x i) 2) (hT : 0 < T) (t : ℝ) :
    holoSignals (fun j => (x j).scale T 0) t = ⟨planPos x T t, planVel x T t, planAcc x T t⟩ := by
  unfold holoSignals planPos planVel planAcc
  congr 1 <;> funext i
  · exact (hx i).sig0 hT t
  · exact Traj.sig1 (n := 1) (hx i) hT t
  · exact Traj.sig2 (n := 0) (hx i) hT t

theorem planPos_deriv (hx : ∀ i, Traj (x i) 2) (hT : 0 < T) (i : Fin n) : ∀ r ∈ Set.Icc 0 T,
    HasDerivWithinAt (fun r => planPos x T r i) (planVel x T r i) (Set.Icc 0 T) r := fun _ hr => GCode.RingGuess.phys_within (m := 1) (hx i) hT hr

theorem planVel_deriv (hx : ∀ i, Traj (x i) 2) (hT : 0 < T) (i : Fin n) : ∀ r ∈ Set.Icc 0 T,
    HasDerivWithinAt (fun r => planVel x T r i) (planAcc x T r i) (Set.Icc 0 T) r := fun r hr => by
  have := (GCode.RingGuess.phys_within (m := 0) (hx i).succ hT hr).div_const T
  unfold planAcc
  rw [derivative_succ, pow_two, ← div_div]
  exact this

theorem planCols_get (hx : ∀ i, Traj (x i) 2) {Ts : ℝ} (hs : 0 < Ts) (hT : 0 < T) {q i : ℕ} (hq : q * Ts ≤ T) (hi : i ≤ q) :
    (planCols Ts x T)[i]? = some ⟨planPos x T (i * Ts), planVel x T (i * Ts), planAcc x T (i * Ts)⟩ := by
  have h1 : ((q : ℕ) : ℝ) ≤ T / Ts := (le_div_iff₀ hs).2 hq
  have h2 : (q : ℤ) ≤ samples T Ts := by
    have := pyInt_mono (round6_mono h1)
    have e : ((q : ℕ) : ℝ) = ((q : ℤ) : ℝ) := by norm_cast
    rwa [e, round6_intCast, pyInt_intCast] at this
  have h3 : i < (samples T Ts).toNat + 1 := by omega
  unfold planCols
  rw [List.getElem?_map, List.getElem?_range h3, Option.map_some, plan_signals hx hT]

end One

/-! ## The drive -/

/-- Plans that begin where the vehicle is and end in standstill in the goal, followed one after the other with updates every `q` samples: one motion, of which the
log is the sequence of samples; at every instant it is at an instant of one of the plans, at most an update old unless it is the last plan. -/
theorem drive {α : Type} {n : ℕ} (T : α → ℝ) (x : α → Fin n → BSpline ℝ) (start : α → Holo n) (goal : Fin n → ℝ) (degree : ℕ) (hdeg : 2 ≤ degree)
    (Ts : ℝ) (hs : 0 < Ts) (q : ℕ) (hq : 1 ≤ q) (first : α) (more : List α)
    (hx : ∀ u ∈ first :: more, ∀ i, Traj (x u i) 2) (starts : ∀ u ∈ first :: more, MeetsInit (holoInit (x u) (start u) (T u)) (0 / T u))
    (ends : ∀ u ∈ first :: more, MeetsEnd (imposedFree false (holoTerm (x u) goal degree)))
    (long : ∀ u ∈ first :: more, q * Ts ≤ T u)
    (predicted : ∀ s, Loop.run (q * Ts) Ts ((first :: more).map fun u => planCols Ts (x u) (T u)) = some s →
      ∀ (k : ℕ) (u : α) (a : Holo n), more[k]? = some u → s.seen[k]? = some a → (start u).state = a.state ∧ (start u).input = a.input) :
    ∃ s, Loop.run (q * Ts) Ts ((first :: more).map fun u => planCols Ts (x u) (T u)) = some s ∧ ∃ pos vel acc : ℝ → Fin n → ℝ,
      let total := more.length * (q * Ts) + T ((first :: more).getLast (List.cons_ne_nil _ _))
      Spec.Moves total pos vel acc ∧
      pos 0 = (start first).state ∧ vel 0 = (start first).input ∧
      pos total = goal ∧ vel total = (fun _ => 0) ∧
      s.log.length = (more.length + 1) * q + 1 ∧
      (∀ j, j ≤ (more.length + 1) * q → ∃ a, s.log[j]? = some (j * Ts, a) ∧ a.state = pos (j * Ts) ∧ a.input = vel (j * Ts)) ∧
      ∀ t ∈ Set.Icc 0 total, ∃ (k : ℕ) (u : α) (r : ℝ), (first :: more)[k]? = some u ∧ t = k * (q * Ts) + r ∧ 0 ≤ r ∧ r ≤ T u ∧
        r ≤ (if k = more.length then T u else q * Ts) ∧
        pos t = planPos (x u) (T u) r ∧ vel t = planVel (x u) (T u) r ∧ acc t = planAcc (x u) (T u) r := by
  have hu : 0 < (q : ℝ) * Ts := mul_pos (by exact_mod_cast hq) hs
  have hT : ∀ c ∈ first :: more, 0 < T c := fun c hc => hu.trans_le (long c hc)
  have hget : ∀ c ∈ first :: more, ∀ i, i ≤ q → (planCols Ts (x c) (T c))[i]? =
      some ⟨planPos (x c) (T c) (i * Ts), planVel (x c) (T c) (i * Ts), planAcc (x c) (T c) (i * Ts)⟩ := fun c hc i hi =>
    planCols_get (hx c hc) hs (hT c hc) (long c hc) hi
  have hlen : ∀ p ∈ (first :: more).map (fun u => planCols Ts (x u) (T u)), q < p.length := fun p hp => by
    obtain ⟨c, hc, rfl⟩ := List.mem_map.1 hp
    exact (List.getElem?_eq_some_iff.1 (hget c hc q le_rfl)).1
  have hstart : ∀ c ∈ first :: more, planPos (x c) (T c) 0 = (start c).state ∧ planVel (x c) (T c) 0 = (start c).input := fun c hc => by
    obtain ⟨a, b⟩ := C122_holonomic (x c) (fun i => (hx c hc i).mono (by omega)) (start c) (T c) (hT c hc) 0 (starts c hc)
    rw [plan_signals (hx c hc) (hT c hc)] at a b
    exact ⟨a, b⟩
  obtain ⟨s, hrun, -, hl, hz, hent, -, hseen⟩ := C127_follow Ts hs q hq ((first :: more).map fun u => planCols Ts (x u) (T u)) hlen
  have hl := hl (by simp)
  simp only [List.length_map, List.length_cons] at hl hseen
  have hjoin : ∀ (k : ℕ) (c d : α), (first :: more)[k]? = some c → (first :: more)[k + 1]? = some d →
      planPos (x c) (T c) (q * Ts) = planPos (x d) (T d) 0 ∧ planVel (x c) (T c) (q * Ts) = planVel (x d) (T d) 0 := by
    intro k c d hc hd'
    have hdl : k < more.length := by
      have := (List.getElem?_eq_some_iff.1 hd').1
      simpa using this
    have e1 := hent k (planCols Ts (x c) (T c)) (by rw [List.getElem?_map, hc]; rfl) q hq le_rfl
    rw [hget c (List.mem_of_getElem? hc) q le_rfl, Option.map_some] at e1
    have e2 := hseen k (by omega)
    rw [show (k + 1) * q = k * q + q by ring, e1, Option.map_some] at e2
    obtain ⟨a, b⟩ := predicted s hrun k d _ (by simpa using hd') e2
    obtain ⟨a', b'⟩ := hstart d (List.mem_of_getElem? hd')
    exact ⟨by rw [a', a], by rw [b', b]⟩
  have chain : ∀ R : α → α → Prop, (∀ (k : ℕ) (c d : α), (first :: more)[k]? = some c → (first :: more)[k + 1]? = some d → R c d) →
      (first :: more).IsChain R := fun R h => List.isChain_iff_getElem.2 fun k hk =>
    h k _ _ (List.getElem?_eq_getElem _) (List.getElem?_eq_getElem _)
  have htot := lastTime_eq (q * Ts) T first more
  set total := lastTime (q * Ts) T first more with htotal
  have cases := locate_cases hu (T := T) first more long
  let P : Fin n → α → ℝ → ℝ := fun i c r => planPos (x c) (T c) r i
  let V : Fin n → α → ℝ → ℝ := fun i c r => planVel (x c) (T c) r i
  let A : Fin n → α → ℝ → ℝ := fun i c r => planAcc (x c) (T c) r i
  refine ⟨s, hrun, fun t i => along (q * Ts) (P i) first more t, fun t i => along (q * Ts) (V i) first more t,
    fun t i => along (q * Ts) (A i) first more t, ?_⟩
  rw [← htot]
  have atend : ∀ F : α → ℝ → ℝ, along (q * Ts) F first more total =
      F ((first :: more).getLast (List.cons_ne_nil _ _)) (T ((first :: more).getLast (List.cons_ne_nil _ _))) := fun F => by
    have hlast : (first :: more)[more.length]? = some ((first :: more).getLast (List.cons_ne_nil _ _)) := by
      rw [List.getLast_eq_getElem, List.getElem?_eq_getElem (by simp)]
      simp
    rw [along, htot, locate_at hu first more more.length _ _ hlast (hT _ (List.getLast_mem _)).le (Or.inr rfl)]
  have hm := List.getLast_mem (List.cons_ne_nil first more)
  have hend := C123_holonomic _ (hx _ hm) goal degree hdeg _ (hT _ hm) (Or.inl (ends _ hm))
  rw [plan_signals (hx _ hm) (hT _ hm)] at hend
  refine ⟨⟨?_, ?_, ?_⟩, ?_, ?_, ?_, ?_, hl, ?_, ?_⟩
  · intro i t ht
    exact along_deriv hu first more long (F := P i) (G := V i) (fun c hc => planPos_deriv (hx c hc) (hT c hc) i)
      (chain _ fun k c d h1 h2 => ⟨congrFun (hjoin k c d h1 h2).1 i, congrFun (hjoin k c d h1 h2).2 i⟩) t ht
  · intro i
    exact along_cont hu first more long (F := V i)
      (fun c hc r hr => (planVel_deriv (hx c hc) (hT c hc) i r hr).continuousWithinAt)
      (chain _ fun k c d h1 h2 => congrFun (hjoin k c d h1 h2).2 i)
  · intro i t ht
    exact along_right_deriv hu first more long (F := V i) (G := A i) (fun c hc => planVel_deriv (hx c hc) (hT c hc) i) t ht
  · funext i
    show along _ _ _ _ _ = _
    rw [along, locate_zero hu]
    exact congrFun (hstart first (by simp)).1 i
  · funext i
    show along _ _ _ _ _ = _
    rw [along, locate_zero hu]
    exact congrFun (hstart first (by simp)).2 i
  · funext i
    show along _ _ _ _ _ = _
    rw [atend]
    exact congrFun (congrArg Holo.state hend) i
  · funext i
    show along _ _ _ _ _ = _
    rw [atend]
    exact congrFun (congrArg Holo.input hend) i
  · intro j hj
    rcases Nat.eq_zero_or_pos j with rfl | hj0
    · rw [List.map_cons, List.getElem?_cons_zero, Option.bind_some, hget first (by simp) 0 (Nat.zero_le _), Option.map_some] at hz
      refine ⟨_, by simpa using hz, ?_, ?_⟩ <;>
      · funext i
        simp [along, locate_zero hu, P, V]
    · obtain ⟨k, i, hk, hi0, hi, rfl⟩ : ∃ k i, k ≤ more.length ∧ 1 ≤ i ∧ i ≤ q ∧ j = k * q + i := by
        refine ⟨(j - 1) / q, (j - 1) % q + 1, ?_, by omega, Nat.mod_lt _ hq, ?_⟩
        · have : (j - 1) / q < more.length + 1 := by
            rw [Nat.div_lt_iff_lt_mul (by omega)]; omega
          omega
        · have := Nat.div_add_mod (j - 1) q
          rw [Nat.mul_comm] at this
          omega
      have hkl : k < (first :: more).length := by simp; omega
      have hkc := List.getElem?_eq_getElem hkl
      set c := (first :: more)[k] with hcdef
      have hc : c ∈ first :: more := List.mem_of_getElem? hkc
      have e1 := hent k (planCols Ts (x c) (T c)) (by rw [List.getElem?_map, hkc]; rfl) i hi0 hi
      rw [hget c hc i hi, Option.map_some] at e1
      refine ⟨_, e1, ?_⟩
      have hti : ((k * q + i : ℕ) : ℝ) * Ts = k * (q * Ts) + i * Ts := by push_cast; ring
      have h0 : 0 ≤ (i : ℝ) * Ts := by positivity
      have key : ∀ F : α → ℝ → ℝ, (∀ (k : ℕ) (c d : α), (first :: more)[k]? = some c → (first :: more)[k + 1]? = some d →
          F c (q * Ts) = F d 0) → F c (i * Ts) = along (q * Ts) F first more (((k * q + i : ℕ) : ℝ) * Ts) := by
        intro F hF
        rw [hti, along]
        rcases Nat.lt_or_ge i q with hiq | hiq
        · have : (i : ℝ) * Ts < q * Ts := mul_lt_mul_of_pos_right (by exact_mod_cast hiq) hs
          rw [locate_at hu first more k c _ hkc h0 (Or.inl this)]
        · obtain rfl : i = q := by omega
          rcases Nat.lt_or_ge k more.length with hlt | hge
          · have hk1 : k + 1 < (first :: more).length := by simp; omega
            have := locate_at hu first more (k + 1) _ 0 (List.getElem?_eq_getElem hk1) le_rfl (Or.inl hu)
            rw [show ((k + 1 : ℕ) : ℝ) * (i * Ts) + 0 = k * (i * Ts) + i * Ts by push_cast; ring] at this
            rw [this]
            exact hF k c _ hkc (List.getElem?_eq_getElem hk1)
          · rw [locate_at hu first more k c _ hkc h0 (Or.inr (by omega))]
      exact ⟨funext fun n => key (P n) fun k c d h1 h2 => congrFun (hjoin k c d h1 h2).1 n,
        funext fun n => key (V n) fun k c d h1 h2 => congrFun (hjoin k c d h1 h2).2 n⟩
  · intro t ht
    obtain ⟨k, c, r, hk, e0, h0, h1, h2, e⟩ := cases t ht.1 ht.2
    refine ⟨k, c, r, hk, e0, h0, h1, ?_, ?_, ?_, ?_⟩
    · split_ifs with hkl
      · exact h1
      · exact (h2.resolve_right hkl).le
    all_goals
      funext i
      simp only [along, e, P, V, A]

end Verif.Problems
