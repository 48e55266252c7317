import Verif.Spline.Affine
import Verif.Spline.Smooth
import Verif.Spline.Scale
import Mathlib.Analysis.Calculus.Deriv.Comp

/-! # Spline variables of a vehicle

The spline variables of a vehicle live on the dimensionless interval `[0,1]`; physical time is
`t = T * τ` with `T` the motion time.  This file relates `derivative(o)` of such a spline to the time
derivatives of the physical trajectory `t ↦ s(t/T)`. -/

set_option linter.unusedSectionVars false

namespace Verif.Vehicles

open Verif.Spline

/-- A well formed spline variable on `[0,1]` that has `n` continuous derivatives: every interior knot is
repeated at most `degree - n` times. -/
structure Traj (s : BSpline ℝ) (n : ℕ) : Prop where
  clamped : s.basis.Clamped
  wf : s.WF
  first : s.basis.knots.headD 0 = 0
  last : s.basis.knots.getLastD 0 = 1
  simple : ∀ τ, 0 < τ → τ < 1 → s.basis.knots.count τ + n ≤ s.basis.degree
  tail : s.basis.knots.count 1 ≤ s.basis.degree + 1

variable {s : BSpline ℝ} {n m : ℕ}

theorem Traj.deg (h : Traj s n) : n ≤ s.basis.degree := by
  have := h.simple (1 / 2) (by norm_num) (by norm_num)
  omega

theorem Traj.mono (h : Traj s n) (hm : m ≤ n) : Traj s m :=
  ⟨h.clamped, h.wf, h.first, h.last, fun τ h0 h1 => by have := h.simple τ h0 h1; omega, h.tail⟩

theorem Traj.on (h : Traj s n) : (Expr.spl s).On 0 1 := ⟨h.clamped, h.wf, h.first, h.last⟩

theorem Traj.succ (h : Traj s (n + 1)) : Traj (s.derivative 1) n := by
  have hd := h.deg
  obtain ⟨g1, g2, g3, g4, g5⟩ := clamped_derivative h.clamped h.wf 1 (by omega)
  have hlt := h.clamped.lt_len
  have e : (s.derivative 1).basis.knots = (s.basis.knots.drop 1).take (s.basis.knots.length - 2) := by
    unfold BSpline.derivative; rw [if_neg one_ne_zero]
  have sub : (s.derivative 1).basis.knots.Sublist s.basis.knots := by
    rw [e]; exact (List.take_sublist _ _).trans (List.drop_sublist _ _)
  have hlast : (s.derivative 1).basis.knots.getLastD 0 = 1 := by
    rw [getLastD_eq_k g1, g4, g5, Nat.sub_add_cancel (by omega), ← getLastD_eq_k h.clamped, h.last]
  refine ⟨g1, g2, ?_, hlast, fun τ h0 h1 => ?_, ?_⟩
  · rw [headD_eq_k g1, g4, h.clamped.first 1 (by omega), ← headD_eq_k h.clamped, h.first]
  · have := h.simple τ h0 h1
    have := sub.count_le τ
    omega
  · have hne : s.basis.knots ≠ [] := by
      intro e0; have := h.clamped.length_eq; rw [e0] at this; simp at this
    have e2 : s.basis.knots = s.basis.knots.dropLast ++ [1] := by
      conv_lhs => rw [← List.dropLast_append_getLast hne]
      congr 2
      have := h.last
      rw [List.getLastD_eq_getLast?, List.getLast?_eq_some_getLast hne] at this
      exact this
    have e3 : (s.derivative 1).basis.knots.Sublist s.basis.knots.dropLast := by
      rw [e, List.take_drop, List.dropLast_eq_take]
      refine (List.drop_sublist _ _).trans ?_
      have : 1 + (s.basis.knots.length - 2) ≤ s.basis.knots.length - 1 := by
        have := h.clamped.length_eq; omega
      exact List.take_sublist_take_left this
    have c1 := e3.count_le 1
    have c2 := h.tail
    rw [e2, List.count_append] at c2
    simp at c2
    omega

theorem Traj.iterate (h : Traj s (n + m)) : Traj (s.derivative n) m := by
  induction n generalizing m with
  | zero =>
    have : s.derivative 0 = s := by unfold BSpline.derivative; rw [if_pos rfl]
    rw [this]; simpa using h
  | succ n ih =>
    rw [derivative_succ]
    exact (ih (m := m + 1) (by rw [show n + (m + 1) = n + 1 + m by omega]; exact h)).succ

/-- `derivative(o)` of a spline variable does not fail. -/
theorem Traj.defined (h : Traj s n) (o : ℕ) (ho : o ≤ n) : s.derivative? o = some (s.derivative o) := by
  have := h.deg
  refine C04_defined s h.clamped o (by omega) (fun τ h0 h1 => ?_) ?_
  · rw [h.first] at h0
    rw [h.last] at h1
    have := h.simple τ h0 h1
    omega
  · rw [h.last]; exact h.tail

theorem Traj.hasDerivAt (h : Traj s (n + 1)) {x : ℝ} (h0 : 0 < x) (h1 : x < 1) :
    HasDerivAt s.eval ((s.derivative 1).eval x) x :=
  C51_hasDerivAt s h.clamped h.wf x (by rw [h.first]; exact h0) (by rw [h.last]; exact h1)
    (by have := h.simple x h0 h1; omega)

variable {T t : ℝ}

theorem phys_mem (hT : 0 < T) (h0 : 0 < t) (h1 : t < T) : 0 < t / T ∧ t / T < 1 :=
  ⟨div_pos h0 hT, (div_lt_one hT).2 h1⟩

/-- Velocity of the physical trajectory. -/
theorem Traj.phys (h : Traj s (n + 1)) (hT : 0 < T) (h0 : 0 < t) (h1 : t < T) :
    HasDerivAt (fun t => s.eval (t / T)) ((s.derivative 1).eval (t / T) / T) t := by
  obtain ⟨a, b⟩ := phys_mem hT h0 h1
  have := (h.hasDerivAt a b).comp t ((hasDerivAt_id t).div_const T)
  simpa [Function.comp_def, div_eq_mul_inv] using this

/-- All derivatives of the physical trajectory. -/
theorem Traj.iteratedDeriv (h : Traj s n) (hT : 0 < T) (h0 : 0 < t) (h1 : t < T) :
    iteratedDeriv n (fun t => s.eval (t / T)) t = (s.derivative n).eval (t / T) / T ^ n := by
  induction n generalizing t with
  | zero => simp [BSpline.derivative]
  | succ n ih =>
    rw [iteratedDeriv_succ]
    have hn : Traj s n := h.mono (Nat.le_succ n)
    have key : (iteratedDeriv n fun t => s.eval (t / T)) =ᶠ[nhds t]
        fun t => (s.derivative n).eval (t / T) / T ^ n := by
      filter_upwards [Ioo_mem_nhds h0 h1] with u hu
      exact ih hn hu.1 hu.2
    rw [key.deriv_eq]
    have hd := ((h.iterate (n := n) (m := 1)).phys hT h0 h1).div_const (T ^ n)
    rw [hd.deriv, ← derivative_succ, pow_succ, div_div, mul_comm]

/-- The signal computed by `splines2signals` from the splines in physical time (`concat_splines` of one
segment, spline_extra.py:314-317: `scale(T, 0)`). -/
theorem Traj.signal (h : Traj s n) (hT : 0 < T) (t : ℝ) :
    ((s.scale T 0).derivative n).eval t = (s.derivative n).eval (t / T) / T ^ n := by
  have := C07_derivative s h.clamped h.wf T 0 hT n h.deg (t / T)
  rw [div_mul_cancel₀ _ hT.ne', add_zero] at this
  exact this

/-- Values of an imposed constraint at physical times. -/
theorem imposed_le {e : Expr ℝ} {ub : ℝ} (h : e.Imposed ub) (ho : e.On 0 1) (hs : e.hasSpline)
    (hT : 0 < T) (h0 : 0 ≤ t) (h1 : t ≤ T) : e.val (t / T) ≤ ub :=
  C53_imposed e ho hs ub h _ (div_nonneg h0 hT.le) ((div_le_one hT).2 h1)

/-! ## The basis of a vehicle -/

/-- `Vehicle.define_knots`, vehicle.py:80-87: `knots = r_[zeros(degree),
linspace(0, 1, knot_intervals+1), ones(degree)]`. -/
noncomputable def vehBasis (degree intervals : ℕ) : Basis ℝ :=
  ⟨List.replicate degree 0 ++ ((List.range (intervals + 1)).map fun j : ℕ => (j : ℝ) / intervals)
    ++ List.replicate degree 1, degree⟩

theorem vehBasis_k {d n : ℕ} (hn : 1 ≤ n) (i : ℕ) :
    (vehBasis d n).k i = ((min (i - d) n : ℕ) : ℝ) / n := by
  have hn0 : (n : ℝ) ≠ 0 := by positivity
  have hlast : (vehBasis d n).knots.getLastD 0 = 1 := by
    unfold vehBasis
    rw [List.getLastD_eq_getLast?]
    by_cases hd : d = 0
    · subst hd; simp [List.range_succ, hn0]
    · simp [List.getLast?_append, List.getLast?_replicate, hd]
  unfold Basis.k
  rw [hlast]
  unfold vehBasis
  dsimp only
  rw [List.getD_eq_getElem?_getD, List.append_assoc, List.getElem?_append, List.length_replicate]
  split_ifs with h
  · rw [List.getElem?_replicate, if_pos h, Nat.sub_eq_zero_of_le h.le]; simp
  · rw [List.getElem?_append]
    split_ifs with h2
    · simp only [List.length_map, List.length_range] at h2
      rw [List.getElem?_map, List.getElem?_range h2, min_eq_left (by omega)]
      rfl
    · simp only [List.length_map, List.length_range] at h2
      rw [min_eq_right (by omega), div_self hn0, List.getElem?_replicate]
      split_ifs <;> rfl

theorem vehBasis_length (d n : ℕ) : (vehBasis d n).knots.length = n + 1 + 2 * d := by
  simp [vehBasis]; omega

theorem vehBasis_len (d n : ℕ) : (vehBasis d n).len = n + d := by
  have := vehBasis_length d n
  unfold Basis.len
  rw [this]
  show n + 1 + 2 * d - d - 1 = n + d
  omega

theorem vehBasis_mono {d n : ℕ} (hn : 1 ≤ n) : Monotone (vehBasis d n).k := by
  intro i j hij
  rw [vehBasis_k hn, vehBasis_k hn]
  have : (0 : ℝ) < n := by positivity
  have h : min (i - d) n ≤ min (j - d) n := by omega
  gcongr

theorem vehBasis_clamped {d n : ℕ} (hn : 1 ≤ n) : (vehBasis d n).Clamped where
  sorted := by
    rw [List.pairwise_iff_getElem]
    intro i j hi hj hij
    have := vehBasis_mono (d := d) hn hij.le
    unfold Basis.k at this
    rwa [List.getD_eq_getElem _ _ hi, List.getD_eq_getElem _ _ hj] at this
  size := by rw [vehBasis_length]; show _ ≤ _; simp only [vehBasis]; omega
  first := by
    intro i hi
    have hi : i ≤ d := hi
    rw [vehBasis_k hn, vehBasis_k hn, Nat.sub_eq_zero_of_le hi]
    simp
  start := by
    show (vehBasis d n).k d < (vehBasis d n).k (d + 1)
    rw [vehBasis_k hn, vehBasis_k hn, Nat.sub_self, Nat.add_sub_cancel_left, min_eq_left hn]
    have : (0 : ℝ) < n := by positivity
    simp
    omega
  ends := by
    intro i hi hi'
    rw [vehBasis_len] at *
    rw [vehBasis_k hn, vehBasis_k hn]
    congr 2
    omega

theorem vehBasis_count {d n : ℕ} (hn : 1 ≤ n) {τ : ℝ} (h0 : 0 < τ) (h1 : τ < 1) :
    (vehBasis d n).knots.count τ ≤ 1 := by
  unfold vehBasis
  rw [List.count_append, List.count_append, List.count_replicate, List.count_replicate]
  have e0 : ((0 : ℝ) == τ) = false := by simpa using h0.ne
  have e1 : ((1 : ℝ) == τ) = false := by simpa using h1.ne'
  rw [e0, e1]
  simp only [Bool.false_eq_true, if_false, zero_add, add_zero]
  refine List.nodup_iff_count_le_one.1 ?_ τ
  refine List.Nodup.map_on (fun a _ b _ hab => ?_) List.nodup_range
  have hn0 : (n : ℝ) ≠ 0 := by positivity
  rw [div_left_inj' hn0] at hab
  exact_mod_cast hab

/-- The splines a vehicle defines by default have `degree - 1` continuous derivatives. -/
theorem vehBasis_traj {d n : ℕ} (hd : 1 ≤ d) (hn : 1 ≤ n) {c : List ℝ} (hc : c.length = n + d) :
    Traj ⟨vehBasis d n, c⟩ (d - 1) := by
  have cl := vehBasis_clamped (d := d) hn
  refine ⟨cl, ?_, ?_, ?_, fun τ h0 h1 => ?_, ?_⟩
  · show c.length = (vehBasis d n).len
    rw [vehBasis_len, hc]
  · show (vehBasis d n).knots.headD 0 = 0
    rw [headD_eq_k cl, vehBasis_k hn]; simp
  · show (vehBasis d n).knots.getLastD 0 = 1
    have hn0 : (n : ℝ) ≠ 0 := by positivity
    rw [getLastD_eq_k cl, vehBasis_len, vehBasis_k hn, Nat.add_sub_cancel, min_self, div_self hn0]
  · have := vehBasis_count (d := d) hn h0 h1
    show (vehBasis d n).knots.count τ + (d - 1) ≤ d
    omega
  · show (vehBasis d n).knots.count 1 ≤ d + 1
    unfold vehBasis
    rw [List.count_append, List.count_append, List.count_replicate, List.count_replicate]
    have e0 : ((0 : ℝ) == 1) = false := by simp
    rw [e0]
    have : ((List.range (n + 1)).map fun j : ℕ => (j : ℝ) / n).count 1 ≤ 1 := by
      refine List.nodup_iff_count_le_one.1 ?_ 1
      refine List.Nodup.map_on (fun a _ b _ hab => ?_) List.nodup_range
      have hn0 : (n : ℝ) ≠ 0 := by positivity
      rw [div_left_inj' hn0] at hab
      exact_mod_cast hab
    simp
    omega

end Verif.Vehicles
