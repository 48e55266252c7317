import Mathlib.Analysis.SpecialFunctions.Integrals.Basic
import Mathlib.MeasureTheory.Integral.IntervalIntegral.FundThmCalculus
import Mathlib.MeasureTheory.Integral.DivergenceTheorem
import Mathlib.Data.List.Sort
import Mathlib.Tactic.FinCases
import Mathlib.Data.Matrix.Mul
import Mathlib.LinearAlgebra.Matrix.Notation
import Mathlib.Analysis.Calculus.Deriv.Pow

/-! # Simulated obstacles (C142)

One coordinate of an obstacle: position, velocity and acceleration are the components 0, 1 and 2 of the state.  The default model treats
the coordinates separately (`np.kron(.., np.eye(n_dim))`, obstacle.py:174-176). -/

set_option linter.unusedSectionVars false

namespace Verif.Environment.Sim

open MeasureTheory Matrix

abbrev V := Fin 3 → ℝ

/-- `simulation['trajectories']`: for each of the keys that are given, the times and the values. -/
abbrev Changes := Fin 3 → Option (List (ℝ × ℝ))

/-! ## Model -/

/-- `ObstaclexD.__init__`, obstacle.py:50-55: when a trajectory has a value at time zero, its first value replaces the initial one.  The
dictionary of the caller is changed. -/
noncomputable def constructInitial (init : Fin 3 → Option ℝ) (tr : Changes) : Fin 3 → Option ℝ := fun k =>
  match tr k with
  | none => init k
  | some l => if l.any fun c => c.1 = 0 then some (l.headD (0, 0)).2 else init k

/-- The trajectories with their defaults, obstacle.py:184-196. -/
def given (tr : Changes) (k : Fin 3) : List (ℝ × ℝ) := (tr k).getD [(0, 0), (1, 0)]

/-- Adding the change `c` of component `l`, obstacle.py:208-219, when its time is not zero: to the column with the same time, or as a
new column. -/
noncomputable def addAt (l : Fin 3) (c : ℝ × ℝ) : List (ℝ × V) → List (ℝ × V)
  | [] => [(c.1, Pi.single l c.2)]
  | e :: r => if e.1 = c.1 then (e.1, e.2 + Pi.single l c.2) :: r else e :: addAt l c r

/-- `time_state` and `state`, obstacle.py:202-219. -/
noncomputable def table (tr : Changes) : List (ℝ × V) :=
  (List.finRange 3).foldl (fun tab l => (given tr l).foldl (fun tab c => if c.1 ≠ 0 then addAt l c tab else tab) tab) [(0, 0)]

/-- `np.cumsum`, obstacle.py:221. -/
def cum (acc : V) : List (ℝ × V) → List (ℝ × V)
  | [] => []
  | e :: r => (e.1, acc + e.2) :: cum (acc + e.2) r

/-- `state_incr_interp`, obstacle.py:220-225: the value at the last of the sorted times that is not later, and outside of the times
the last value. -/
noncomputable def incr (tr : Changes) (t : ℝ) : V :=
  let c := cum 0 ((table tr).insertionSort fun a b => a.1 ≤ b.1)
  match (c.filter fun e => e.1 ≤ t).getLast? with
  | some e => e.2
  | none => (c.getLastD (0, 0)).2

/-- `_ode`, obstacle.py:235-244.  Simplification: no input. -/
noncomputable def rhs (A : Matrix (Fin 3) (Fin 3) ℝ) (w z : V) : V := A *ᵥ z + ![w 1, w 2, 0]

/-- The default model, obstacle.py:174-176. -/
def chain : Matrix (Fin 3) (Fin 3) ℝ := !![0, 1, 0; 0, 0, 1; 0, 0, 0]

/-- What `odeint` approximates: a solution of the differential equation in integral form. -/
def IsSolution (A : Matrix (Fin 3) (Fin 3) ℝ) (w : ℝ → V) (t0 : ℝ) (z0 : V) (z : ℝ → V) : Prop :=
  ∀ s, t0 ≤ s → ∀ i, z s i = z0 i + ∫ x in t0..s, rhs A (w x) (z x) i

/-- The signals of an obstacle. -/
structure Signals3 where
  time : List ℝ
  state : List V

/-- `initialize signals`, obstacle.py:226-233. -/
def begin3 (init : Fin 3 → Option ℝ) : Signals3 := ⟨[0], [fun k => (init k).getD 0]⟩

/-- `simulate`, obstacle.py:246-264, with `n` samples and the solution `z`. -/
noncomputable def appendSamples (tr : Changes) (s : Signals3) (n : ℕ) (ts : ℝ) (z : ℝ → V) : Signals3 :=
  let t0 := s.time.getLastD 0
  ⟨s.time ++ (List.range n).map fun j : ℕ => t0 + ((j : ℝ) + 1) * ts,
   s.state ++ (List.range n).map fun j : ℕ => z (t0 + ((j : ℝ) + 1) * ts) + incr tr (t0 + ((j : ℝ) + 1) * ts)⟩

/-- The state that the integration starts from, obstacle.py:250-254. -/
noncomputable def startState (tr : Changes) (s : Signals3) : V :=
  if s.time.getLastD 0 ≠ 0 then s.state.getLastD 0 - incr tr (s.time.getLastD 0) else s.state.getLastD 0

/-- Any sequence of calls of `simulate`. -/
inductive Runs (A : Matrix (Fin 3) (Fin 3) ℝ) (init : Fin 3 → Option ℝ) (tr : Changes) : Signals3 → Prop
  | start : Runs A init tr (begin3 (constructInitial init tr))
  | simulate (s : Signals3) (n : ℕ) (ts : ℝ) (z : ℝ → V) : Runs A init tr s → 0 < ts →
      IsSolution A (incr tr) (s.time.getLastD 0) (startState tr s) z → Runs A init tr (appendSamples tr s n ts z)

/-! ## Specification -/

/-- The effect of sudden changes: of the quantity itself, of its rate, of the rate of its rate. -/
noncomputable def Spec.jump (l : List (ℝ × ℝ)) (t : ℝ) : ℝ := (l.map fun c => if c.1 ≤ t then c.2 else 0).sum
noncomputable def Spec.ramp (l : List (ℝ × ℝ)) (t : ℝ) : ℝ := (l.map fun c => c.2 * max (t - c.1) 0).sum
noncomputable def Spec.parab (l : List (ℝ × ℝ)) (t : ℝ) : ℝ := (l.map fun c => c.2 * (max (t - c.1) 0 ^ 2 / 2)).sum

/-- The motion with constant acceleration from the initial state, superposed with the listed changes. -/
noncomputable def Spec.motion (init : Fin 3 → Option ℝ) (tr : Changes) (t : ℝ) : V :=
  let x := fun k => (init k).getD 0
  let l := fun k => (tr k).getD []
  ![x 0 + x 1 * t + x 2 * (t ^ 2 / 2) + Spec.jump (l 0) t + Spec.ramp (l 1) t + Spec.parab (l 2) t,
    x 1 + x 2 * t + Spec.jump (l 1) t + Spec.ramp (l 2) t,
    x 2 + Spec.jump (l 2) t]

/-- Motions of another model: between the changes the state follows `x' = A x`, and the changes are added when they happen. -/
def Spec.IsMotion (A : Matrix (Fin 3) (Fin 3) ℝ) (init : Fin 3 → Option ℝ) (tr : Changes) (x : ℝ → V) : Prop :=
  ∀ t, 0 ≤ t → ∀ i, x t i = (init i).getD 0 + Spec.jump ((tr i).getD []) t + ∫ y in (0 : ℝ)..t, (A *ᵥ x y) i

/-- The changes as the code expects them: none before time zero, one at time zero only as the first in its list and when the
initial value is left out. -/
def Spec.Expected (init : Fin 3 → Option ℝ) (tr : Changes) : Prop :=
  ∀ k l, tr k = some l → (∀ c ∈ l, 0 ≤ c.1) ∧ (∀ c ∈ l.tail, c.1 ≠ 0) ∧ ((∃ c ∈ l, c.1 = 0) → (init k).getD 0 = 0)

/-! ## Lemmas: the table -/

/-- The sum of the entries up to time `t`. -/
noncomputable def upTo (t : ℝ) (l : List (ℝ × V)) : V := (l.map fun e => if e.1 ≤ t then e.2 else 0).sum

theorem upTo_addAt (t : ℝ) (l : Fin 3) (c : ℝ × ℝ) (tab : List (ℝ × V)) :
    upTo t (addAt l c tab) = upTo t tab + if c.1 ≤ t then Pi.single l c.2 else 0 := by
  induction tab with
  | nil => simp [upTo, addAt]
  | cons e r ih =>
    unfold addAt
    split_ifs with h h2 h2
    · simp only [upTo, List.map_cons, List.sum_cons, h, h2, if_true]; abel
    · simp only [upTo, List.map_cons, List.sum_cons, h, h2, if_false]; simp
    · rw [if_pos h2] at ih
      simp only [upTo, List.map_cons, List.sum_cons] at ih ⊢
      rw [ih]; abel
    · rw [if_neg h2] at ih
      simp only [upTo, List.map_cons, List.sum_cons] at ih ⊢
      rw [ih]; abel

/-- The changes that enter the table. -/
noncomputable def later (l : List (ℝ × ℝ)) : List (ℝ × ℝ) := l.filter fun c => c.1 ≠ 0

theorem upTo_fold (t : ℝ) (l : Fin 3) (cs : List (ℝ × ℝ)) (tab : List (ℝ × V)) :
    upTo t (cs.foldl (fun tab c => if c.1 ≠ 0 then addAt l c tab else tab) tab) = upTo t tab + Pi.single l (Spec.jump (later cs) t) := by
  induction cs generalizing tab with
  | nil => simp [later, Spec.jump]
  | cons c cs ih =>
    rw [List.foldl_cons, ih]
    by_cases h : c.1 = 0
    · simp [later, h]
    · rw [if_pos h, upTo_addAt]
      have e : later (c :: cs) = c :: later cs := by unfold later; rw [List.filter_cons_of_pos (by simpa using h)]
      rw [e]
      simp only [Spec.jump, List.map_cons, List.sum_cons, Pi.single_add, add_assoc]
      congr 2
      split_ifs <;> simp

theorem mem_addAt (l : Fin 3) (c : ℝ × ℝ) (tab : List (ℝ × V)) (t : ℝ) (h : ∃ e ∈ tab, e.1 = t) : ∃ e ∈ addAt l c tab, e.1 = t := by
  induction tab with
  | nil => simp at h
  | cons e r ih =>
    unfold addAt
    obtain ⟨f, hf, ht⟩ := h
    split_ifs with h1
    · rcases List.mem_cons.1 hf with rfl | hf
      · exact ⟨_, List.mem_cons_self, ht⟩
      · exact ⟨f, List.mem_cons_of_mem _ hf, ht⟩
    · rcases List.mem_cons.1 hf with rfl | hf
      · exact ⟨_, List.mem_cons_self, ht⟩
      · obtain ⟨g, hg, hgt⟩ := ih ⟨f, hf, ht⟩
        exact ⟨g, List.mem_cons_of_mem _ hg, hgt⟩

theorem mem_fold (l : Fin 3) (cs : List (ℝ × ℝ)) (tab : List (ℝ × V)) (t : ℝ) (h : ∃ e ∈ tab, e.1 = t) :
    ∃ e ∈ cs.foldl (fun tab c => if c.1 ≠ 0 then addAt l c tab else tab) tab, e.1 = t := by
  induction cs generalizing tab with
  | nil => exact h
  | cons c cs ih =>
    rw [List.foldl_cons]
    refine ih _ ?_
    split_ifs
    · exact mem_addAt l c tab t h
    · exact h

theorem cum_last (t : ℝ) (acc : V) (l : List (ℝ × V)) (hl : l.Pairwise fun a b => a.1 ≤ b.1) (d : ℝ) :
    (((cum acc l).filter fun e => e.1 ≤ t).getLastD (d, acc)).2 = acc + upTo t l := by
  induction l generalizing acc d with
  | nil => simp [cum, upTo]
  | cons e r ih =>
    rw [List.pairwise_cons] at hl
    unfold cum
    by_cases h : e.1 ≤ t
    · rw [List.filter_cons_of_pos (by simpa using h), List.getLastD_cons, ih (acc + e.2) hl.2 e.1]
      simp only [upTo, List.map_cons, List.sum_cons, h, if_true]; abel
    · have hz : ∀ a ∈ r, ¬ a.1 ≤ t := fun a ha hc => h ((hl.1 a ha).trans hc)
      have hc : ∀ acc : V, ∀ r : List (ℝ × V), (∀ a ∈ r, ¬ a.1 ≤ t) → ((cum acc r).filter fun e => e.1 ≤ t) = [] := by
        intro acc r
        induction r generalizing acc with
        | nil => intro _; rfl
        | cons a r ih =>
          intro h
          unfold cum
          rw [List.filter_cons_of_neg (by simpa using h a List.mem_cons_self)]
          exact ih _ fun b hb => h b (List.mem_cons_of_mem _ hb)
      rw [List.filter_cons_of_neg (by simpa using h), hc _ _ hz]
      have : upTo t (e :: r) = 0 := by
        unfold upTo
        apply List.sum_eq_zero
        intro v hv
        obtain ⟨a, ha, rfl⟩ := List.mem_map.1 hv
        rcases List.mem_cons.1 ha with rfl | ha
        · rw [if_neg h]
        · rw [if_neg (hz a ha)]
      rw [this]; simp

theorem cum_times (acc : V) (l : List (ℝ × V)) : (cum acc l).map (·.1) = l.map (·.1) := by
  induction l generalizing acc with
  | nil => rfl
  | cons e r ih => simp [cum, ih]

theorem table_jump (tr : Changes) (t : ℝ) (i : Fin 3) : upTo t (table tr) i = Spec.jump (later (given tr i)) t := by
  unfold table
  simp only [List.finRange_succ, List.finRange_zero, List.map_cons, List.map_nil, List.foldl_cons, List.foldl_nil]
  rw [upTo_fold, upTo_fold, upTo_fold]
  have z : upTo t [((0 : ℝ), (0 : V))] = 0 := by simp [upTo]
  rw [z]
  fin_cases i <;> simp

theorem table_zero (tr : Changes) : ∃ e ∈ table tr, e.1 = 0 := by
  unfold table
  simp only [List.finRange_succ, List.finRange_zero, List.map_cons, List.map_nil, List.foldl_cons, List.foldl_nil]
  exact mem_fold _ _ _ _ (mem_fold _ _ _ _ (mem_fold _ _ _ _ ⟨_, List.mem_singleton.2 rfl, rfl⟩))

/-- The interpolated increments from time zero on. -/
theorem incr_eq (tr : Changes) (t : ℝ) (ht : 0 ≤ t) (i : Fin 3) : incr tr t i = Spec.jump (later (given tr i)) t := by
  set S := (table tr).insertionSort fun a b => a.1 ≤ b.1 with hS
  have hp : S.Perm (table tr) := List.perm_insertionSort _ _
  have hs : S.Pairwise fun a b => a.1 ≤ b.1 := by
    have : Std.Total (fun a b : ℝ × V => a.1 ≤ b.1) := ⟨fun a b => le_total _ _⟩
    have : IsTrans (ℝ × V) (fun a b => a.1 ≤ b.1) := ⟨fun a b c h1 h2 => le_trans h1 h2⟩
    exact List.pairwise_insertionSort _ _
  have hup : upTo t S = upTo t (table tr) := (hp.map _).sum_eq
  obtain ⟨e, he, he0⟩ := table_zero tr
  have hne : ((cum 0 S).filter fun e => e.1 ≤ t) ≠ [] := by
    have : e.1 ∈ (cum 0 S).map (·.1) := by rw [cum_times]; exact List.mem_map_of_mem (hp.mem_iff.2 he)
    obtain ⟨f, hf, hfe⟩ := List.mem_map.1 this
    apply List.ne_nil_of_mem (a := f)
    rw [List.mem_filter]
    refine ⟨hf, by simpa [hfe, he0] using ht⟩
  have hl := cum_last t 0 S hs 0
  rw [zero_add, hup] at hl
  unfold incr
  simp only [← hS]
  rw [List.getLastD_eq_getLast?] at hl
  obtain ⟨g, hg⟩ : ∃ g, ((cum 0 S).filter fun e => e.1 ≤ t).getLast? = some g := by
    rw [List.getLast?_eq_some_getLast hne]; exact ⟨_, rfl⟩
  rw [hg] at hl ⊢
  simp only [Option.getD_some] at hl
  simp only
  rw [hl, table_jump]

/-! ## Lemmas: integrals -/

theorem step_integrable (c a b : ℝ) : IntervalIntegrable (fun x => if c ≤ x then (1 : ℝ) else 0) volume a b := by
  apply Monotone.intervalIntegrable
  intro x y h
  dsimp only
  split_ifs with h1 h2
  · exact le_rfl
  · exact absurd (h1.trans h) h2
  · exact zero_le_one
  · exact le_rfl

theorem ramp_continuous (c : ℝ) : Continuous fun x : ℝ => max (x - c) 0 := by fun_prop

theorem step_integral (c : ℝ) {a b : ℝ} (hab : a ≤ b) :
    ∫ x in a..b, (if c ≤ x then (1 : ℝ) else 0) = max (b - c) 0 - max (a - c) 0 := by
  refine integral_eq_of_hasDerivAt_off_countable_of_le (fun x => max (x - c) 0) _ hab (Set.countable_singleton c)
    (ramp_continuous c).continuousOn ?_ (step_integrable c a b)
  rintro x ⟨_, hx⟩
  rcases lt_or_gt_of_ne (show x ≠ c from hx) with h | h
  · rw [if_neg (not_le.2 h)]
    refine (hasDerivAt_const x (0 : ℝ)).congr_of_eventuallyEq ?_
    filter_upwards [Iio_mem_nhds h] with y hy
    exact max_eq_right (by linarith [show y < c from hy])
  · rw [if_pos (le_of_lt h)]
    refine ((hasDerivAt_id x).sub_const c).congr_of_eventuallyEq ?_
    filter_upwards [Ioi_mem_nhds h] with y hy
    exact max_eq_left (by linarith [show c < y from hy])

theorem ramp_integral (c : ℝ) {a b : ℝ} (hab : a ≤ b) :
    ∫ x in a..b, max (x - c) 0 = max (b - c) 0 ^ 2 / 2 - max (a - c) 0 ^ 2 / 2 := by
  refine integral_eq_of_hasDerivAt_off_countable_of_le (fun x => max (x - c) 0 ^ 2 / 2) _ hab (Set.countable_singleton c)
    (((ramp_continuous c).pow 2).div_const 2).continuousOn ?_ ((ramp_continuous c).intervalIntegrable a b)
  rintro x ⟨_, hx⟩
  rcases lt_or_gt_of_ne (show x ≠ c from hx) with h | h
  · rw [max_eq_right (by linarith)]
    refine (hasDerivAt_const x (0 : ℝ)).congr_of_eventuallyEq ?_
    filter_upwards [Iio_mem_nhds h] with y hy
    rw [max_eq_right (by linarith [show y < c from hy])]; norm_num
  · rw [max_eq_left (by linarith [show c < x from h])]
    have hd : HasDerivAt (fun y : ℝ => (y - c) ^ 2 / 2) (x - c) x := by
      have := (((hasDerivAt_id x).sub_const c).pow 2).div_const 2
      have e : (((2 : ℕ) : ℝ) * (id x - c) ^ (2 - 1) * 1) / 2 = x - c := by simp
      rw [e] at this
      exact this
    refine hd.congr_of_eventuallyEq ?_
    filter_upwards [Ioi_mem_nhds h] with y hy
    rw [max_eq_left (by linarith [show c < y from hy])]

theorem jump_integrable (l : List (ℝ × ℝ)) (a b : ℝ) : IntervalIntegrable (Spec.jump l) volume a b := by
  induction l with
  | nil =>
    have : Spec.jump [] = fun _ => 0 := by funext x; simp [Spec.jump]
    rw [this]; exact intervalIntegrable_const
  | cons c l ih =>
    have : Spec.jump (c :: l) = fun x => c.2 * (if c.1 ≤ x then (1 : ℝ) else 0) + Spec.jump l x := by
      funext x; simp [Spec.jump]
    rw [this]
    exact ((step_integrable c.1 a b).const_mul c.2).add ih

theorem ramp_integrable (l : List (ℝ × ℝ)) (a b : ℝ) : IntervalIntegrable (Spec.ramp l) volume a b := by
  induction l with
  | nil =>
    have : Spec.ramp [] = fun _ => 0 := by funext x; simp [Spec.ramp]
    rw [this]; exact intervalIntegrable_const
  | cons c l ih =>
    have : Spec.ramp (c :: l) = fun x => c.2 * max (x - c.1) 0 + Spec.ramp l x := by
      funext x; simp [Spec.ramp]
    rw [this]
    exact (((ramp_continuous c.1).intervalIntegrable a b).const_mul c.2).add ih

theorem jump_integral (l : List (ℝ × ℝ)) {a b : ℝ} (hab : a ≤ b) : ∫ x in a..b, Spec.jump l x = Spec.ramp l b - Spec.ramp l a := by
  induction l with
  | nil => simp [Spec.jump, Spec.ramp]
  | cons c l ih =>
    have : Spec.jump (c :: l) = fun x => c.2 * (if c.1 ≤ x then (1 : ℝ) else 0) + Spec.jump l x := by
      funext x; simp [Spec.jump]
    rw [this, intervalIntegral.integral_add ((step_integrable c.1 a b).const_mul c.2) (jump_integrable l a b),
      intervalIntegral.integral_const_mul, step_integral c.1 hab, ih]
    simp only [Spec.ramp, List.map_cons, List.sum_cons]
    ring

theorem ramp_list_integral (l : List (ℝ × ℝ)) {a b : ℝ} (hab : a ≤ b) : ∫ x in a..b, Spec.ramp l x = Spec.parab l b - Spec.parab l a := by
  induction l with
  | nil => simp [Spec.parab, Spec.ramp]
  | cons c l ih =>
    have : Spec.ramp (c :: l) = fun x => c.2 * max (x - c.1) 0 + Spec.ramp l x := by
      funext x; simp [Spec.ramp]
    rw [this, intervalIntegral.integral_add (((ramp_continuous c.1).intervalIntegrable a b).const_mul c.2) (ramp_integrable l a b),
      intervalIntegral.integral_const_mul, ramp_integral c.1 hab, ih]
    simp only [Spec.parab, List.map_cons, List.sum_cons]
    ring

/-! ## Lemmas: the motion -/

/-- The motion from the state `x` with the changes `l`. -/
noncomputable def superposed (x : V) (l : Fin 3 → List (ℝ × ℝ)) (t : ℝ) : V :=
  ![x 0 + x 1 * t + x 2 * (t ^ 2 / 2) + Spec.jump (l 0) t + Spec.ramp (l 1) t + Spec.parab (l 2) t,
    x 1 + x 2 * t + Spec.jump (l 1) t + Spec.ramp (l 2) t,
    x 2 + Spec.jump (l 2) t]

theorem rhs_chain (w z : V) : rhs chain w z 0 = z 1 + w 1 ∧ rhs chain w z 1 = z 2 + w 2 ∧ rhs chain w z 2 = 0 := by
  simp [rhs, chain, dotProduct, Fin.sum_univ_three]

/-- The solution between two times is determined. -/
theorem solution_eq {w : ℝ → V} {l : Fin 3 → List (ℝ × ℝ)} {x : V} {t0 : ℝ} (h0 : 0 ≤ t0) (hw : ∀ t, 0 ≤ t → ∀ i, w t i = Spec.jump (l i) t)
    {z : ℝ → V} (hz : IsSolution chain w t0 (superposed x l t0 - w t0) z) (s : ℝ) (hs : t0 ≤ s) : z s = superposed x l s - w s := by
  have z2 : ∀ s, t0 ≤ s → z s 2 = x 2 := by
    intro s hs
    rw [hz s hs 2]
    simp only [(rhs_chain _ _).2.2, intervalIntegral.integral_zero, add_zero, Pi.sub_apply, hw t0 h0]
    simp [superposed]
  have z1 : ∀ s, t0 ≤ s → z s 1 = x 1 + x 2 * s + Spec.ramp (l 2) s := by
    intro s hs
    rw [hz s hs 1]
    have : ∫ y in t0..s, rhs chain (w y) (z y) 1 = ∫ y in t0..s, (x 2 + Spec.jump (l 2) y) := by
      apply intervalIntegral.integral_congr
      intro y hy
      rw [Set.uIcc_of_le hs] at hy
      dsimp only
      rw [(rhs_chain _ _).2.1, z2 y hy.1, hw y (h0.trans hy.1)]
    rw [this, intervalIntegral.integral_add intervalIntegrable_const (jump_integrable _ _ _), jump_integral _ hs,
      intervalIntegral.integral_const, Pi.sub_apply, hw t0 h0]
    simp [superposed]
    ring
  have z0 : z s 0 = x 0 + x 1 * s + x 2 * (s ^ 2 / 2) + Spec.ramp (l 1) s + Spec.parab (l 2) s := by
    rw [hz s hs 0]
    have : ∫ y in t0..s, rhs chain (w y) (z y) 0 = ∫ y in t0..s, ((x 1 + x 2 * y) + (Spec.ramp (l 2) y + Spec.jump (l 1) y)) := by
      apply intervalIntegral.integral_congr
      intro y hy
      rw [Set.uIcc_of_le hs] at hy
      dsimp only
      rw [(rhs_chain _ _).1, z1 y hy.1, hw y (h0.trans hy.1)]
      ring
    have c1 : IntervalIntegrable (fun y : ℝ => x 1 + x 2 * y) volume t0 s := Continuous.intervalIntegrable (by fun_prop) _ _
    rw [this, intervalIntegral.integral_add c1 ((ramp_integrable _ _ _).add (jump_integrable _ _ _)),
      intervalIntegral.integral_add (ramp_integrable _ _ _) (jump_integrable _ _ _), jump_integral _ hs, ramp_list_integral _ hs,
      intervalIntegral.integral_add intervalIntegrable_const (Continuous.intervalIntegrable (by fun_prop) _ _),
      intervalIntegral.integral_const, intervalIntegral.integral_const_mul, integral_id, Pi.sub_apply, hw t0 h0]
    simp [superposed]
    ring
  have hs0 : 0 ≤ s := h0.trans hs
  funext i
  rw [Pi.sub_apply, hw s hs0]
  fin_cases i
  · show z s 0 = superposed x l s 0 - Spec.jump (l 0) s
    rw [z0]; simp [superposed]; ring
  · show z s 1 = superposed x l s 1 - Spec.jump (l 1) s
    rw [z1 s hs]; simp [superposed]; ring
  · show z s 2 = superposed x l s 2 - Spec.jump (l 2) s
    rw [z2 s hs]; simp [superposed]

/-- And exists. -/
theorem solution_exists {w : ℝ → V} {l : Fin 3 → List (ℝ × ℝ)} {x : V} {t0 : ℝ} (h0 : 0 ≤ t0) (hw : ∀ t, 0 ≤ t → ∀ i, w t i = Spec.jump (l i) t) :
    IsSolution chain w t0 (superposed x l t0 - w t0) fun s => superposed x l s - w s := by
  intro s hs i
  have c1 : IntervalIntegrable (fun y : ℝ => x 1 + x 2 * y) volume t0 s := Continuous.intervalIntegrable (by fun_prop) _ _
  fin_cases i
  · show (superposed x l s - w s) 0 = (superposed x l t0 - w t0) 0 + ∫ y in t0..s, rhs chain (w y) (superposed x l y - w y) 0
    have : ∫ y in t0..s, rhs chain (w y) (superposed x l y - w y) 0
        = ∫ y in t0..s, ((x 1 + x 2 * y) + (Spec.ramp (l 2) y + Spec.jump (l 1) y)) := by
      apply intervalIntegral.integral_congr
      intro y hy
      dsimp only
      rw [(rhs_chain _ _).1]
      simp [superposed]
      ring
    rw [this, intervalIntegral.integral_add c1 ((ramp_integrable _ _ _).add (jump_integrable _ _ _)),
      intervalIntegral.integral_add (ramp_integrable _ _ _) (jump_integrable _ _ _), jump_integral _ hs, ramp_list_integral _ hs,
      intervalIntegral.integral_add intervalIntegrable_const (Continuous.intervalIntegrable (by fun_prop) _ _),
      intervalIntegral.integral_const, intervalIntegral.integral_const_mul, integral_id, Pi.sub_apply, Pi.sub_apply, hw t0 h0, hw s (h0.trans hs)]
    simp [superposed]
    ring
  · show (superposed x l s - w s) 1 = (superposed x l t0 - w t0) 1 + ∫ y in t0..s, rhs chain (w y) (superposed x l y - w y) 1
    have : ∫ y in t0..s, rhs chain (w y) (superposed x l y - w y) 1 = ∫ y in t0..s, (x 2 + Spec.jump (l 2) y) := by
      apply intervalIntegral.integral_congr
      intro y hy
      dsimp only
      rw [(rhs_chain _ _).2.1]
      simp [superposed]
    rw [this, intervalIntegral.integral_add intervalIntegrable_const (jump_integrable _ _ _), jump_integral _ hs,
      intervalIntegral.integral_const, Pi.sub_apply, Pi.sub_apply, hw t0 h0, hw s (h0.trans hs)]
    simp [superposed]
    ring
  · show (superposed x l s - w s) 2 = (superposed x l t0 - w t0) 2 + ∫ y in t0..s, rhs chain (w y) (superposed x l y - w y) 2
    simp only [(rhs_chain _ _).2.2, intervalIntegral.integral_zero, add_zero, Pi.sub_apply, hw t0 h0, hw s (h0.trans hs)]
    simp [superposed]

theorem later_cases {init : Fin 3 → Option ℝ} {tr : Changes} (h : Spec.Expected init tr) (k : Fin 3) {t : ℝ} (ht : 0 ≤ t) :
    (constructInitial init tr k).getD 0 + Spec.jump (later (given tr k)) t = (init k).getD 0 + Spec.jump ((tr k).getD []) t ∧
    (constructInitial init tr k).getD 0 * t + Spec.ramp (later (given tr k)) t = (init k).getD 0 * t + Spec.ramp ((tr k).getD []) t ∧
    (constructInitial init tr k).getD 0 * (t ^ 2 / 2) + Spec.parab (later (given tr k)) t
      = (init k).getD 0 * (t ^ 2 / 2) + Spec.parab ((tr k).getD []) t ∧
    Spec.jump (later (given tr k)) 0 = 0 := by
  unfold constructInitial given
  cases hk : tr k with
  | none =>
    have e : later ([(0, 0), (1, 0)] : List (ℝ × ℝ)) = [(1, 0)] := by simp [later]
    simp only [Option.getD_none, e]
    simp [Spec.jump, Spec.ramp, Spec.parab]
  | some l =>
    obtain ⟨h1, h2, h3⟩ := h k l hk
    simp only [Option.getD_some]
    cases l with
    | nil => simp [later, Spec.jump]
    | cons c r =>
      have hr : later r = r := by
        unfold later
        rw [List.filter_eq_self]
        intro a ha
        simpa using h2 a ha
      have hpos : Spec.jump r 0 = 0 := by
        unfold Spec.jump
        apply List.sum_eq_zero
        intro v hv
        obtain ⟨a, ha, rfl⟩ := List.mem_map.1 hv
        rw [if_neg]
        have a1 := h1 a (List.mem_cons_of_mem _ ha)
        have a2 := h2 a ha
        exact not_le.2 (lt_of_le_of_ne a1 (Ne.symm a2))
      by_cases hc : c.1 = 0
      · have e : later (c :: r) = r := by
          rw [← hr]; unfold later; rw [List.filter_cons_of_neg (by simpa using hc), List.filter_filter]; simp
        have ha : (c :: r).any (fun c => decide (c.1 = 0)) = true := by simp [hc]
        rw [if_pos ha, e, h3 ⟨c, List.mem_cons_self, hc⟩]
        refine ⟨?_, ?_, ?_, hpos⟩
        · simp [Spec.jump, hc, ht]
        · simp [Spec.ramp, hc, max_eq_left ht]
        · simp [Spec.parab, hc, max_eq_left ht]
      · have e : later (c :: r) = c :: r := by
          unfold later at hr ⊢; rw [List.filter_cons_of_pos (by simpa using hc), hr]
        have ha : ¬ (c :: r).any (fun c => decide (c.1 = 0)) = true := by
          simp only [List.any_cons, hc, decide_false, Bool.false_or, List.any_eq_true, decide_eq_true_eq, not_exists, not_and]
          exact h2
        rw [if_neg ha, e]
        refine ⟨rfl, rfl, rfl, ?_⟩
        have : ¬ c.1 ≤ 0 := not_le.2 (lt_of_le_of_ne (h1 c List.mem_cons_self) (Ne.symm hc))
        simp only [Spec.jump, List.map_cons, List.sum_cons, this, if_false, zero_add]
        exact hpos

theorem later_pos {init : Fin 3 → Option ℝ} {tr : Changes} (h : Spec.Expected init tr) (k : Fin 3) : ∀ c ∈ later (given tr k), 0 < c.1 := by
  intro c hc
  have hm := List.mem_filter.1 hc
  have hne : c.1 ≠ 0 := by simpa using hm.2
  refine lt_of_le_of_ne ?_ (Ne.symm hne)
  have hg := hm.1
  unfold given at hg
  cases hk : tr k with
  | none =>
    rw [hk] at hg
    simp only [Option.getD_none, List.mem_cons, List.not_mem_nil, or_false] at hg
    rcases hg with rfl | rfl <;> norm_num
  | some l => rw [hk] at hg; exact (h k l hk).1 c hg

theorem sums_zero {l : List (ℝ × ℝ)} (h : ∀ c ∈ l, 0 < c.1) : Spec.jump l 0 = 0 ∧ Spec.ramp l 0 = 0 ∧ Spec.parab l 0 = 0 := by
  refine ⟨?_, ?_, ?_⟩ <;>
  · apply List.sum_eq_zero
    intro v hv
    obtain ⟨a, ha, rfl⟩ := List.mem_map.1 hv
    have := h a ha
    first
    | exact if_neg (not_le.2 this)
    | (rw [max_eq_right (by linarith)]; simp)

/-- At the samples of every run the state is the superposed motion. -/
theorem runs_inv {init : Fin 3 → Option ℝ} {tr : Changes} (hpos : ∀ k, ∀ c ∈ later (given tr k), 0 < c.1) {s : Signals3}
    (hr : Runs chain init tr s) :
    s.time ≠ [] ∧ (∀ t ∈ s.time, 0 ≤ t) ∧
      s.state = s.time.map (superposed (fun k => (constructInitial init tr k).getD 0) fun k => later (given tr k)) := by
  set X : V := fun k => (constructInitial init tr k).getD 0 with hX
  set L : Fin 3 → List (ℝ × ℝ) := fun k => later (given tr k) with hL
  have hw : ∀ t, 0 ≤ t → ∀ i, incr tr t i = Spec.jump (L i) t := fun t ht i => incr_eq tr t ht i
  have hz : incr tr 0 = 0 := by
    funext i; rw [hw 0 le_rfl, (sums_zero (hpos i)).1]; rfl
  have hst : ∀ s : Signals3, s.time ≠ [] → s.state = s.time.map (superposed X L) →
      startState tr s = superposed X L (s.time.getLastD 0) - incr tr (s.time.getLastD 0) := by
    intro s h1 h3
    have e : s.state.getLastD 0 = superposed X L (s.time.getLastD 0) := by
      rw [h3, List.getLastD_eq_getLast?, List.getLastD_eq_getLast?, List.getLast?_map, List.getLast?_eq_some_getLast h1]
      rfl
    unfold startState
    split_ifs with h
    · rw [e]
    · push Not at h
      rw [e, h, hz, sub_zero]
  induction hr with
  | start =>
    refine ⟨by simp [begin3], by simp [begin3], ?_⟩
    simp only [begin3, List.map_cons, List.map_nil]
    congr 1
    funext i
    have e := fun k => sums_zero (hpos k)
    fin_cases i <;> simp [superposed, hL, hX, e]
  | simulate s n ts z _ hts hsol ih =>
    obtain ⟨i1, i2, i3⟩ := ih
    have t0 : 0 ≤ s.time.getLastD 0 := by
      rw [List.getLastD_eq_getLast?, List.getLast?_eq_some_getLast i1]
      exact i2 _ (List.getLast_mem i1)
    rw [hst s i1 i3] at hsol
    have hsol := solution_eq t0 hw hsol
    refine ⟨by simp [appendSamples, i1], ?_, ?_⟩
    · intro t ht
      simp only [appendSamples, List.mem_append, List.mem_map] at ht
      rcases ht with ht | ⟨j, _, rfl⟩
      · exact i2 t ht
      · have : 0 ≤ ((j : ℝ) + 1) * ts := mul_nonneg (add_nonneg (Nat.cast_nonneg j) zero_le_one) hts.le
        linarith
    · simp only [appendSamples, List.map_append, List.map_map, i3]
      congr 1
      apply List.map_congr_left
      intro j _
      have : 0 ≤ ((j : ℝ) + 1) * ts := mul_nonneg (add_nonneg (Nat.cast_nonneg j) zero_le_one) hts.le
      rw [hsol _ (by linarith)]
      simp

/-! ## C142 -/

/-- C142: **a simulated obstacle moves as described by its initial state and the listed changes**.  For the default model and changes
as the code expects them, whatever the durations and the numbers of the simulation steps: every sample is the state of the motion with
constant acceleration superposed with the changes up to that time.  For other lists of changes and other models see the
refutations. -/
theorem C142_partial (init : Fin 3 → Option ℝ) (tr : Changes) (h : Spec.Expected init tr) (s : Signals3) (hr : Runs chain init tr s) :
    s.state = s.time.map (Spec.motion init tr) := by
  obtain ⟨-, ht, hs⟩ := runs_inv (later_pos h) hr
  rw [hs]
  apply List.map_congr_left
  intro t hmem
  have t0 := ht t hmem
  have c := fun k => later_cases h k t0
  funext i
  fin_cases i
  · have a0 := (c 0).1
    have a1 := (c 1).2.1
    have a2 := (c 2).2.2.1
    simp only [superposed, Spec.motion]
    simp
    linarith
  · have a1 := (c 1).1
    have a2 := (c 2).2.1
    simp only [superposed, Spec.motion]
    simp
    linarith
  · have a2 := (c 2).1
    simp only [superposed, Spec.motion]
    simp
    linarith

/-- C142: every step of the simulation has a result. -/
theorem C142_progress (init : Fin 3 → Option ℝ) (tr : Changes) (h : Spec.Expected init tr) (s : Signals3) (hr : Runs chain init tr s) :
    ∃ z, IsSolution chain (incr tr) (s.time.getLastD 0) (startState tr s) z := by
  obtain ⟨i1, i2, i3⟩ := runs_inv (later_pos h) hr
  have t0 : 0 ≤ s.time.getLastD 0 := by
    rw [List.getLastD_eq_getLast?, List.getLast?_eq_some_getLast i1]
    exact i2 _ (List.getLast_mem i1)
  have hw : ∀ t, 0 ≤ t → ∀ i, incr tr t i = Spec.jump (later (given tr i)) t := fun t ht i => incr_eq tr t ht i
  have e : s.state.getLastD 0 = superposed (fun k => (constructInitial init tr k).getD 0) (fun k => later (given tr k)) (s.time.getLastD 0) := by
    rw [i3, List.getLastD_eq_getLast?, List.getLastD_eq_getLast?, List.getLast?_map, List.getLast?_eq_some_getLast i1]
    rfl
  have hs : startState tr s = superposed (fun k => (constructInitial init tr k).getD 0) (fun k => later (given tr k)) (s.time.getLastD 0)
      - incr tr (s.time.getLastD 0) := by
    unfold startState
    split_ifs with hh
    · rw [e]
    · push Not at hh
      have hz : incr tr 0 = 0 := by
        funext i; rw [hw 0 le_rfl, (sums_zero (later_pos h i)).1]; rfl
      rw [e, hh, hz, sub_zero]
  rw [hs]
  exact ⟨_, solution_exists t0 hw⟩

/-- Changes of the velocity only. -/
def velocityChanges (l : List (ℝ × ℝ)) : Changes := fun k => if k = 1 then some l else none

/-- C142 does not hold: a change of the velocity at time zero replaces the initial velocity, instead of adding to it. -/
theorem C142_violated (v d : ℝ) (hv : v ≠ 0) (l : List (ℝ × ℝ)) (hl : ∀ c ∈ l, 0 < c.1) :
    ∃ s, Runs chain ![some 0, some v, some 0] (velocityChanges ((0, d) :: l)) s ∧
      s.state ≠ s.time.map (Spec.motion ![some 0, some v, some 0] (velocityChanges ((0, d) :: l))) := by
  refine ⟨_, .start, ?_⟩
  intro h
  simp only [begin3, List.map_cons, List.map_nil, List.cons.injEq, and_true] at h
  have h1 := congrFun h 1
  have hz := (sums_zero hl).1
  have e : Spec.jump ((0, d) :: l) 0 = d := by
    have : Spec.jump ((0, d) :: l) 0 = d + Spec.jump l 0 := by simp [Spec.jump]
    rw [this, hz, add_zero]
  simp [constructInitial, velocityChanges, Spec.motion, e, Spec.ramp] at h1
  exact hv h1

/-- C142 does not hold: when the change at time zero is not the first in the list, the obstacle starts with the first one. -/
theorem C142_order_violated (t d e : ℝ) (ht : 0 < t) (hd : d ≠ e) :
    ∃ s, Runs chain (fun _ => none) (velocityChanges [(t, d), (0, e)]) s ∧
      s.state ≠ s.time.map (Spec.motion (fun _ => none) (velocityChanges [(t, d), (0, e)])) := by
  refine ⟨_, .start, ?_⟩
  intro h
  simp only [begin3, List.map_cons, List.map_nil, List.cons.injEq, and_true] at h
  have h1 := congrFun h 1
  simp [constructInitial, velocityChanges, Spec.motion, Spec.jump, Spec.ramp, not_le.2 ht] at h1
  exact hd h1

/-- C142 does not hold for other models: an obstacle whose model says that its position does not depend on its velocity moves all the
same after a change of the velocity. -/
theorem C142_model_violated : ∃ (A : Matrix (Fin 3) (Fin 3) ℝ) (tr : Changes) (s : Signals3),
    Spec.Expected (fun _ => none) tr ∧ Runs A (fun _ => none) tr s ∧
    ∀ x, Spec.IsMotion A (fun _ => none) tr x → s.state ≠ s.time.map x := by
  set tr := velocityChanges [(1, 1)] with htr
  have w0 : ∀ t, 0 ≤ t → incr tr t 1 = Spec.jump [(1, 1)] t := by
    intro t ht
    rw [incr_eq tr t ht]
    have : later (given tr 1) = [(1, 1)] := by simp [htr, given, velocityChanges, later]
    rw [this]
  have w1 : ∀ t, 0 ≤ t → ∀ i, i ≠ 1 → incr tr t i = 0 := by
    intro t ht i hi
    rw [incr_eq tr t ht]
    have : later (given tr i) = [(1, 0)] := by simp [htr, given, velocityChanges, hi, later]
    rw [this]; simp [Spec.jump]
  have hsol : IsSolution 0 (incr tr) ((begin3 (constructInitial (fun _ => none) tr)).time.getLastD 0)
      (startState tr (begin3 (constructInitial (fun _ => none) tr))) fun s => ![Spec.ramp [(1, 1)] s, 0, 0] := by
    have e0 : (begin3 (constructInitial (fun _ => none) tr)).time.getLastD 0 = 0 := rfl
    have e1 : startState tr (begin3 (constructInitial (fun _ => none) tr)) = 0 := by
      unfold startState
      rw [e0, if_neg (by simp)]
      funext k
      simp [begin3, constructInitial, htr, velocityChanges]
      fin_cases k <;> simp
    rw [e0, e1]
    intro t ht i
    fin_cases i
    · show Spec.ramp [(1, 1)] t = 0 + ∫ x in (0 : ℝ)..t, rhs 0 (incr tr x) ![Spec.ramp [(1, 1)] x, 0, 0] 0
      have : ∫ x in (0 : ℝ)..t, rhs 0 (incr tr x) ![Spec.ramp [(1, 1)] x, 0, 0] 0 = ∫ x in (0 : ℝ)..t, Spec.jump [(1, 1)] x := by
        apply intervalIntegral.integral_congr
        intro y hy
        rw [Set.uIcc_of_le ht] at hy
        simp [rhs, w0 y hy.1]
      rw [this, jump_integral _ ht, zero_add]
      simp [Spec.ramp]
    · show (0 : ℝ) = 0 + ∫ x in (0 : ℝ)..t, rhs 0 (incr tr x) ![Spec.ramp [(1, 1)] x, 0, 0] 1
      have : ∫ x in (0 : ℝ)..t, rhs 0 (incr tr x) ![Spec.ramp [(1, 1)] x, 0, 0] 1 = ∫ x in (0 : ℝ)..t, (0 : ℝ) := by
        apply intervalIntegral.integral_congr
        intro y hy
        rw [Set.uIcc_of_le ht] at hy
        simp [rhs, w1 y hy.1 2 (by decide)]
      rw [this]; simp
    · show (0 : ℝ) = 0 + ∫ x in (0 : ℝ)..t, rhs 0 (incr tr x) ![Spec.ramp [(1, 1)] x, 0, 0] 2
      simp [rhs]
  refine ⟨0, tr, _, ?_, .simulate _ 1 2 _ .start (by norm_num) hsol, ?_⟩
  · intro k l hl
    simp only [htr, velocityChanges] at hl
    split_ifs at hl
    simp only [Option.some.injEq] at hl
    subst hl
    refine ⟨?_, ?_, ?_⟩ <;> simp
  · intro x hx h
    have ex : (begin3 (constructInitial (fun _ => none) tr)).time.getLastD 0 = 0 := rfl
    simp only [appendSamples, ex] at h
    have := congrArg (fun l => List.getLastD l 0) h
    simp only [begin3, List.range_one, List.map_cons, List.map_nil, List.cons_append, List.nil_append, List.getLastD_cons,
      List.getLastD_nil] at this
    have h2 := congrFun this 0
    rw [show (0 : ℝ) + (((0 : ℕ) : ℝ) + 1) * 2 = 2 by norm_num] at h2
    rw [hx 2 (by norm_num) 0, Pi.add_apply, w1 2 (by norm_num) 0 (by decide)] at h2
    simp [htr, velocityChanges, Spec.jump, Spec.ramp] at h2
    norm_num at h2

/-- C142 does not hold for obstacles that share a dictionary: the change at time zero of one obstacle is the start of the other. -/
theorem C142_shared_violated (init : Fin 3 → Option ℝ) (d : ℝ) (l : List (ℝ × ℝ)) :
    constructInitial (constructInitial init (velocityChanges ((0, d) :: l))) (fun _ => none) 1 = some d := by
  simp [constructInitial, velocityChanges]

/-- A ball that starts moving after three seconds and stops after four. -/
noncomputable def exChanges : Changes := velocityChanges [(3, -1 / 2), (4, 1 / 2)]

theorem exChanges_expected : Spec.Expected ![some 2, some 0, none] exChanges := by
  intro k l hl
  fin_cases k <;> simp [exChanges, velocityChanges] at hl
  subst hl
  refine ⟨?_, ?_, ?_⟩ <;> simp

example : ∃ s, Runs chain ![some 2, some 0, none] exChanges s ∧ s.time = [0, 0 + ((0 : ℕ) + 1) * 5] ∧
    s.state.getLastD 0 = ![3 / 2, 0, 0] := by
  obtain ⟨z, hz⟩ := C142_progress _ _ exChanges_expected _ Runs.start
  have hr := Runs.simulate (A := chain) _ 1 5 z (Runs.start (init := ![some 2, some 0, none]) (tr := exChanges)) (by norm_num) hz
  refine ⟨_, hr, by simp [appendSamples, begin3], ?_⟩
  have := C142_partial _ _ exChanges_expected _ hr
  rw [this]
  simp only [appendSamples, begin3, List.range_one, List.map_cons, List.map_nil, List.getLastD_cons, List.getLastD_nil,
    List.cons_append, List.nil_append]
  funext i
  have e : exChanges 0 = none ∧ exChanges 1 = some [(3, -1 / 2), (4, 1 / 2)] ∧ exChanges 2 = none := ⟨rfl, rfl, rfl⟩
  have e2 : (![some 2, some 0, none] : Fin 3 → Option ℝ) 2 = none := rfl
  fin_cases i <;> norm_num [Spec.motion, e, e2, Spec.jump, Spec.ramp, Spec.parab]

end Verif.Environment.Sim
