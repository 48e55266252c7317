import Verif.Spline.Props2
import Mathlib.Analysis.SpecialFunctions.Trigonometric.ArctanDeriv
import Mathlib.Analysis.Calculus.MeanValue
import Mathlib.Analysis.Real.Pi.Bounds
import Mathlib.Tactic.FinCases

/-! # Rotating obstacles (C141)

The orientation of a rotating obstacle enters the optimisation as quotients of splines: `cos` and `sin` over `gon_weight`. -/

set_option linter.unusedSectionVars false

namespace Verif.Environment

open Verif.Spline Real

/-! ## Model -/

/-- `n_quarters`, obstacle.py:305-311: the number of quarter turns during the horizon, rounded up. -/
noncomputable def quarters (T Ts : ℝ) : ℕ := ⌈4 * T / Ts⌉₊

/-- `knots_theta`, obstacle.py:312-313, with `r = Ts/T`. -/
noncomputable def thetaKnots (n : ℕ) (r : ℝ) : List ℝ :=
  ([0, 0, 0] ++ ((List.range n).flatMap fun k : ℕ => [1 / 4 * ((k : ℝ) + 1), 1 / 4 * ((k : ℝ) + 1)]) ++ [1 / 4 * (n : ℝ)]).map (· * r)

/-- `BSplineBasis(knots_theta, 2)`, obstacle.py:314. -/
noncomputable def thetaBasis (n : ℕ) (r : ℝ) : Basis ℝ := ⟨thetaKnots n r, 2⟩

/-- The coefficients `cos_cfs[k % 8]`, obstacle.py:317-318, 323. -/
noncomputable def cosC (k : ℕ) : ℝ := [1, √2 / 2, 0, -√2 / 2, -1, -√2 / 2, 0, √2 / 2, 1].getD (k % 8) 0
/-- `sin_cfs[k % 8]`, obstacle.py:319-320, 324. -/
noncomputable def sinC (k : ℕ) : ℝ := [0, √2 / 2, 1, √2 / 2, 0, -√2 / 2, -1, -√2 / 2, 0].getD (k % 8) 0
/-- `weight_cfs[k % 8]`, obstacle.py:321-322, 326. -/
noncomputable def weightC (k : ℕ) : ℝ := [1, √2 / 2, 1, √2 / 2, 1, √2 / 2, 1, √2 / 2, 1].getD (k % 8) 0

/-- `BSpline(basis, Tf.dot(...))`, obstacle.py:314-315, 323-332: the coefficients are counted by the cropped basis and multiplied with
the matrix of the cropping, which fails when the numbers of coefficients differ. -/
noncomputable def cropped (b : Basis ℝ) (c : ℕ → ℝ) : Option (BSpline ℝ) :=
  if (cropSpline ⟨b, []⟩ 0 1).basis.len = b.len then
    some (cropSpline ⟨b, (List.range (cropSpline ⟨b, []⟩ 0 1).basis.len).map c⟩ 0 1)
  else none

/-- An obstacle when the problem is built: `orientation` and `angular_velocity`, obstacle.py:294-301, and its own option
`horizon_time`, 310. -/
structure Rot where
  theta : ℝ
  omega : ℝ
  horizon : ℝ

/-- `Obstacle2D.init`, obstacle.py:292-332, evaluated at the time `τ` relative to the horizon: the values of `cos`, `sin` and
`gon_weight`.  `theta` is the parameter, that is the orientation measured at `t` after the start of the horizon (300, 303, 347).
The horizon times of the segments, 293, only enter the position.  Simplification: products with numbers and the difference
of splines are taken pointwise (C09). -/
noncomputable def orient (o : Rot) (theta t : ℝ) (_horizonTimes : List ℝ) (τ : ℝ) : Option (ℝ × ℝ × ℝ) :=
  if o.omega = 0 then some (cos o.theta, sin o.theta, 1)
  else
    let theta0 := theta - t * o.omega
    let Ts := 2 * π / |o.omega|
    let b := thetaBasis (quarters o.horizon Ts) (Ts / o.horizon)
    match cropped b cosC, cropped b sinC, cropped b weightC with
    | some c, some s, some w =>
      let sgn : ℝ := if 0 < o.omega then 1 else -1
      some (c.eval τ * cos theta0 - s.eval τ * sgn * sin theta0, c.eval τ * sin theta0 + s.eval τ * sgn * cos theta0, w.eval τ)
    | _, _, _ => none

/-- The measured orientation and angular velocity, `self.signals[..][:, -1]`. -/
structure Signals where
  orientation : ℝ
  omega : ℝ

/-- `Obstacle2D.set_state`, obstacle.py:354-360: a key that is missing in the dictionary sets the signal to zero. -/
def setState (orientation omega : Option ℝ) : Signals := ⟨orientation.getD 0, omega.getD 0⟩

/-- The orientation in the constraints after the measurement `m`: `set_parameters`, obstacle.py:345-348, fills in the parameter
`theta` only. -/
noncomputable def predicted (o : Rot) (m : Signals) (t : ℝ) (horizonTimes : List ℝ) (τ : ℝ) : Option (ℝ × ℝ × ℝ) :=
  orient o m.orientation t horizonTimes τ

/-! ## Specification -/

/-- The time after the start of the first segment, of the relative time `τ` in the last of the given segments. -/
def Spec.timeIn (horizonTimes : List ℝ) (τ : ℝ) : ℝ := horizonTimes.dropLast.sum + τ * horizonTimes.getLastD 0

/-- The orientation at time `s` of an obstacle that had the orientation `m.orientation` at time `t` and turns at a constant rate. -/
def Spec.trueAngle (m : Signals) (t s : ℝ) : ℝ := m.orientation + m.omega * (s - t)

/-- The splines with values `v = (c, s, w)` stand for the orientation `a`. -/
def Spec.Shows (v : ℝ × ℝ × ℝ) (a : ℝ) : Prop := 0 < v.2.2 ∧ v.1 / v.2.2 = cos a ∧ v.2.1 / v.2.2 = sin a

/-! ## Lemmas: the knots -/

theorem pre_get (n i : ℕ) (h : i < 2 * n + 3) :
    ([0, 0, 0] ++ ((List.range n).flatMap fun k : ℕ => [1 / 4 * ((k : ℝ) + 1), 1 / 4 * ((k : ℝ) + 1)]) : List ℝ)[i]?
      = some (1 / 4 * (((i - 1) / 2 : ℕ) : ℝ)) ∧
    ([0, 0, 0] ++ ((List.range n).flatMap fun k : ℕ => [1 / 4 * ((k : ℝ) + 1), 1 / 4 * ((k : ℝ) + 1)]) : List ℝ).length = 2 * n + 3 := by
  induction n generalizing i with
  | zero => interval_cases i <;> simp
  | succ n ih =>
    have hl := (ih 0 (by omega)).2
    rw [List.range_succ, List.flatMap_append, ← List.append_assoc]
    refine ⟨?_, by rw [List.length_append, hl]; simp; ring⟩
    rcases Nat.lt_or_ge i (2 * n + 3) with h1 | h1
    · rw [List.getElem?_append_left (by rw [hl]; exact h1)]
      exact (ih i h1).1
    · rw [List.getElem?_append_right (by rw [hl]; exact h1), hl]
      have e : (i - 1) / 2 = n + 1 := by omega
      rw [e]
      have : i - (2 * n + 3) = 0 ∨ i - (2 * n + 3) = 1 := by omega
      rcases this with h2 | h2 <;> rw [h2] <;> simp

theorem theta_length (n : ℕ) (r : ℝ) : (thetaKnots n r).length = 2 * n + 4 := by
  unfold thetaKnots
  rw [List.length_map, List.length_append, (pre_get n 0 (by omega)).2]
  rfl

theorem theta_len (n : ℕ) (r : ℝ) : (thetaBasis n r).len = 2 * n + 1 := by
  unfold Basis.len thetaBasis
  simp only [theta_length]
  omega

theorem theta_last (n : ℕ) (r : ℝ) : (thetaKnots n r).getLastD 0 = (n : ℝ) * (r / 4) := by
  unfold thetaKnots
  rw [List.map_append, List.getLastD_eq_getLast?, List.getLast?_append]
  simp only [List.map_cons, List.map_nil, List.getLast?_singleton, Option.some_or, Option.getD_some]
  ring

theorem theta_k (n : ℕ) (r : ℝ) (i : ℕ) : (thetaBasis n r).k i = ((min ((i - 1) / 2) n : ℕ) : ℝ) * (r / 4) := by
  unfold Basis.k
  show (thetaKnots n r).getD i ((thetaKnots n r).getLastD 0) = _
  rw [theta_last]
  rcases Nat.lt_or_ge i (2 * n + 3) with h | h
  · rw [Nat.min_eq_left (by omega), List.getD_eq_getElem?_getD]
    unfold thetaKnots
    rw [List.getElem?_map, List.getElem?_append_left (by rw [(pre_get n 0 (by omega)).2]; exact h), (pre_get n i h).1]
    simp
    ring
  · rw [Nat.min_eq_right (by omega)]
    rcases Nat.eq_or_lt_of_le h with h1 | h1
    · rw [List.getD_eq_getElem?_getD]
      unfold thetaKnots
      rw [List.getElem?_map, List.getElem?_append_right (by rw [(pre_get n 0 (by omega)).2]; exact h), (pre_get n 0 (by omega)).2, ← h1]
      simp
      ring
    · rw [List.getD_eq_default _ _ (by rw [theta_length]; omega)]

theorem theta_mono (n : ℕ) {r : ℝ} (hr : 0 ≤ r) : Monotone (thetaBasis n r).k := by
  intro i j hij
  rw [theta_k, theta_k]
  refine mul_le_mul_of_nonneg_right ?_ (by positivity)
  have : min ((i - 1) / 2) n ≤ min ((j - 1) / 2) n := min_le_min (by omega) le_rfl
  exact_mod_cast this

theorem theta_clamped {n : ℕ} (hn : 0 < n) {r : ℝ} (hr : 0 < r) : (thetaBasis n r).Clamped where
  sorted := by
    rw [List.pairwise_iff_getElem]
    intro i j hi hj hij
    have := theta_mono n hr.le hij.le
    unfold Basis.k at this
    rwa [List.getD_eq_getElem _ _ hi, List.getD_eq_getElem _ _ hj] at this
  size := by
    show 2 * (2 + 1) ≤ (thetaKnots n r).length
    rw [theta_length]; omega
  first := by
    intro i hi
    have hi : i ≤ 2 := hi
    rw [theta_k, theta_k, show (i - 1) / 2 = 0 by omega]
  start := by
    show (thetaBasis n r).k 2 < (thetaBasis n r).k 3
    rw [theta_k, theta_k, Nat.min_eq_left (by omega), Nat.min_eq_left (by omega)]
    simp
    positivity
  ends := by
    intro i hi _
    rw [theta_len] at hi ⊢
    rw [theta_k, theta_k, Nat.min_eq_right (by omega), Nat.min_eq_right (by omega)]

/-! ## Lemmas: the pieces -/

/-- The Bernstein form of the quarter `k`. -/
def bern (c : ℕ → ℝ) (k : ℕ) (u : ℝ) : ℝ := c (2 * k) * (1 - u) ^ 2 + c (2 * k + 1) * (2 * u * (1 - u)) + c (2 * k + 2) * u ^ 2

theorem theta_lt {n : ℕ} {r : ℝ} (hr : 0 < r) {k : ℕ} (hk : k < n) {x : ℝ} (h0 : (k : ℝ) * (r / 4) < x)
    (h1 : x ≤ ((k : ℝ) + 1) * (r / 4)) (i : ℕ) :
    ((thetaBasis n r).k i < x ↔ i ≤ 2 * k + 2) ∧ (x ≤ (thetaBasis n r).k i ↔ 2 * k + 3 ≤ i) := by
  have hq : 0 < r / 4 := by positivity
  rw [theta_k]
  have a : i ≤ 2 * k + 2 → ((min ((i - 1) / 2) n : ℕ) : ℝ) * (r / 4) < x := by
    intro h
    refine lt_of_le_of_lt (mul_le_mul_of_nonneg_right ?_ hq.le) h0
    have : min ((i - 1) / 2) n ≤ k := (min_le_left _ _).trans (by omega)
    exact_mod_cast this
  have b : 2 * k + 3 ≤ i → x ≤ ((min ((i - 1) / 2) n : ℕ) : ℝ) * (r / 4) := by
    intro h
    refine h1.trans (mul_le_mul_of_nonneg_right ?_ hq.le)
    have : k + 1 ≤ min ((i - 1) / 2) n := le_min (by omega) hk
    exact_mod_cast this
  refine ⟨⟨fun h => ?_, a⟩, ⟨fun h => ?_, b⟩⟩
  · by_contra hc
    exact absurd h (not_lt.2 (b (by omega)))
  · by_contra hc
    exact absurd h (not_le.2 (a (by omega)))

theorem theta_fn {n : ℕ} {r : ℝ} (hr : 0 < r) {k : ℕ} (hk : k < n) {x : ℝ} (h0 : (k : ℝ) * (r / 4) < x)
    (h1 : x ≤ ((k : ℝ) + 1) * (r / 4)) (u : ℝ) (hu : x = ((k : ℝ) + u) * (r / 4)) (i : ℕ) :
    (thetaBasis n r).fn i x = if i = 2 * k then (1 - u) ^ 2 else if i = 2 * k + 1 then 2 * u * (1 - u)
      else if i = 2 * k + 2 then u ^ 2 else 0 := by
  have hq : 0 < r / 4 := by positivity
  have hlt := theta_lt hr hk h0 h1
  have hx0 : (thetaBasis n r).k 0 < x := (hlt 0).1.2 (by omega)
  have l0 : ∀ p i, cox (thetaBasis n r).k p x 0 i = if i = 2 * k + 2 then 1 else 0 := by
    intro p i
    rw [cox, ind_of_lt hx0]
    have e : ((thetaBasis n r).k i < x ∧ x ≤ (thetaBasis n r).k (i + 1)) ↔ i = 2 * k + 2 := by
      rw [(hlt i).1, (hlt (i + 1)).2]; omega
    simp only [e]
  have kv : ∀ i j, (i - 1) / 2 = j → j ≤ n → (thetaBasis n r).k i = (j : ℝ) * (r / 4) := by
    intro i j h h'
    rw [theta_k, h, Nat.min_eq_left h']
  have k1 := kv (2 * k + 1) k (by omega) (by omega)
  have k2 := kv (2 * k + 2) k (by omega) (by omega)
  have k3 := kv (2 * k + 3) (k + 1) (by omega) (by omega)
  have k4 := kv (2 * k + 4) (k + 1) (by omega) (by omega)
  push_cast at k3 k4
  have l1 : ∀ p i, cox (thetaBasis n r).k p x 1 i = if i = 2 * k + 1 then 1 - u else if i = 2 * k + 2 then u else 0 := by
    intro p i
    rw [cox_succ, l0, l0]
    by_cases e1 : i = 2 * k + 1
    · subst e1
      rw [if_neg (by omega), if_pos rfl, if_pos rfl, show 2 * k + 1 + (0 + 1) + 1 = 2 * k + 3 by omega,
        show 2 * k + 1 + 1 = 2 * k + 2 by omega, k3, k2, hu]
      field_simp
      ring
    · by_cases e2 : i = 2 * k + 2
      · subst e2
        rw [if_pos rfl, if_neg (by omega), if_neg (by omega), if_pos rfl, show 2 * k + 2 + (0 + 1) = 2 * k + 3 by omega, k3, k2, hu]
        field_simp
        ring
      · rw [if_neg e2, if_neg (by omega), if_neg e1, if_neg e2]; simp
  show cox _ 2 x 2 i = _
  rw [cox_succ, l1, l1]
  by_cases e0 : i = 2 * k
  · subst e0
    rw [if_neg (by omega), if_neg (by omega), if_pos rfl, if_pos rfl, show 2 * k + (1 + 1) + 1 = 2 * k + 3 by omega, k3, k1, hu]
    field_simp
    ring
  by_cases e1 : i = 2 * k + 1
  · subst e1
    rw [if_pos rfl, if_neg (by omega), if_pos (by omega), if_neg (by omega), if_pos rfl,
      show 2 * k + 1 + (1 + 1) + 1 = 2 * k + 4 by omega, show 2 * k + 1 + (1 + 1) = 2 * k + 3 by omega,
      show 2 * k + 1 + 1 = 2 * k + 2 by omega, k4, k3, k2, k1, hu]
    field_simp
    ring
  by_cases e2 : i = 2 * k + 2
  · subst e2
    rw [if_neg (by omega), if_pos rfl, if_neg (by omega), if_neg (by omega), if_neg (by omega), if_neg (by omega), if_pos rfl,
      show 2 * k + 2 + (1 + 1) = 2 * k + 4 by omega, k4, k2, hu]
    field_simp
    ring
  · rw [if_neg e1, if_neg e2, if_neg (by omega), if_neg (by omega), if_neg e0, if_neg e1, if_neg e2]; simp

theorem range_get (c : ℕ → ℝ) {m i : ℕ} (h : i < m) : ((List.range m).map c).getD i 0 = c i := by
  rw [List.getD_eq_getElem _ _ (by simpa using h)]; simp

theorem theta_eval {n : ℕ} {r : ℝ} (hr : 0 < r) (c : ℕ → ℝ) {k : ℕ} (hk : k < n) {x : ℝ} (h0 : (k : ℝ) * (r / 4) < x)
    (h1 : x ≤ ((k : ℝ) + 1) * (r / 4)) (u : ℝ) (hu : x = ((k : ℝ) + u) * (r / 4)) :
    (⟨thetaBasis n r, (List.range (2 * n + 1)).map c⟩ : BSpline ℝ).eval x = bern c k u := by
  rw [BSpline.eval_eq (by show _ = (thetaBasis n r).len; rw [theta_len]; simp)]
  show ∑ i ∈ Finset.range (thetaBasis n r).len, ((List.range (2 * n + 1)).map c).getD i 0 * (thetaBasis n r).fn i x = _
  rw [theta_len, ← Finset.sum_subset (s₁ := {2 * k, 2 * k + 1, 2 * k + 2})]
  · rw [Finset.sum_insert (by simp), Finset.sum_insert (by simp), Finset.sum_singleton,
      theta_fn hr hk h0 h1 u hu, theta_fn hr hk h0 h1 u hu, theta_fn hr hk h0 h1 u hu,
      range_get _ (by omega), range_get _ (by omega), range_get _ (by omega)]
    simp [bern]
    ring
  · intro i hi
    simp only [Finset.mem_insert, Finset.mem_singleton] at hi
    rw [Finset.mem_range]
    omega
  · intro i _ hi
    simp only [Finset.mem_insert, Finset.mem_singleton, not_or] at hi
    rw [theta_fn hr hk h0 h1 u hu, if_neg hi.1, if_neg hi.2.1, if_neg hi.2.2, mul_zero]

theorem theta_eval_zero {n : ℕ} (hn : 0 < n) {r : ℝ} (hr : 0 < r) (c : ℕ → ℝ) :
    (⟨thetaBasis n r, (List.range (2 * n + 1)).map c⟩ : BSpline ℝ).eval 0 = c 0 := by
  have hb := theta_clamped hn hr
  have k0 : (thetaBasis n r).k 0 = 0 := by rw [theta_k]; simp
  rw [BSpline.eval_eq (by show _ = (thetaBasis n r).len; rw [theta_len]; simp)]
  show ∑ i ∈ Finset.range (thetaBasis n r).len, ((List.range (2 * n + 1)).map c).getD i 0 * (thetaBasis n r).fn i 0 = _
  have key : ∀ i, (thetaBasis n r).fn i 0 = if i = 0 then 1 else 0 := by
    intro i
    have := cox_first hb.first hb.mono hb.start (thetaBasis n r).degree i le_rfl
    rw [k0] at this
    unfold Basis.fn
    rw [this]
    congr 1
    apply propext
    show i + 2 = 2 ∨ (2 = 0 ∧ i ≤ 2) ↔ _
    omega
  rw [theta_len, Finset.sum_eq_single 0]
  · rw [key, if_pos rfl, mul_one, range_get _ (by omega)]
  · intro i _ hi; rw [key, if_neg hi, mul_zero]
  · intro h; simp at h

/-- Every time of the horizon lies in a quarter. -/
theorem quarter_exists {n : ℕ} {q : ℝ} (hq : 0 < q) {x : ℝ} (h0 : 0 < x) (h1 : x ≤ n * q) :
    ∃ k : ℕ, k < n ∧ (k : ℝ) * q < x ∧ x ≤ ((k : ℝ) + 1) * q := by
  have hp : 0 < ⌈x / q⌉₊ := Nat.ceil_pos.2 (div_pos h0 hq)
  have hle : ⌈x / q⌉₊ ≤ n := Nat.ceil_le.2 ((div_le_iff₀ hq).2 h1)
  refine ⟨⌈x / q⌉₊ - 1, by omega, ?_, ?_⟩
  · rw [← lt_div_iff₀ hq]
    exact Nat.lt_ceil.1 (by omega)
  · rw [← div_le_iff₀ hq]
    have := Nat.le_ceil (x / q)
    have e : (((⌈x / q⌉₊ - 1 : ℕ) : ℝ) + 1) = (⌈x / q⌉₊ : ℝ) := by
      have : ⌈x / q⌉₊ - 1 + 1 = ⌈x / q⌉₊ := by omega
      exact_mod_cast this
    rw [e]; exact this

/-! ## Lemmas: the number of coefficients -/

theorem insertKnots_basis {s s' : BSpline ℝ} (h : s.basis = s'.basis) (l : List ℝ) : (insertKnots s l).basis = (insertKnots s' l).basis := by
  induction l generalizing s s' with
  | nil => exact h
  | cons x l ih => exact ih (by simp [insertKnot, h])

theorem insertKnots_perm (s : BSpline ℝ) (l : List ℝ) : (insertKnots s l).basis.knots.Perm (s.basis.knots ++ l) := by
  induction l generalizing s with
  | nil => simp [insertKnots]
  | cons x l ih =>
    refine (ih (insertKnot s x)).trans ?_
    refine ((List.perm_insertionSort _ _).append_right l).trans ?_
    simp

theorem crop_basis {s s' : BSpline ℝ} (h : s.basis = s'.basis) (a c : ℝ) : (cropSpline s a c).basis = (cropSpline s' a c).basis := by
  unfold cropSpline
  simp only [h]
  rw [insertKnots_basis h]

theorem crop_len {n : ℕ} {r : ℝ} (hr : 0 < r) (hn : 0 < n) (h0 : ((n : ℝ) - 1) * (r / 4) < 1) (h1 : 1 ≤ (n : ℝ) * (r / 4)) (l : List ℝ) :
    (cropSpline ⟨thetaBasis n r, l⟩ 0 1).basis.len = 2 * n + 1 := by
  have hb := theta_clamped hn hr
  have hlen : (thetaBasis n r).knots.length = 2 * n + 4 := theta_length n r
  have hcast : ((n - 1 : ℕ) : ℝ) = (n : ℝ) - 1 := by rw [Nat.cast_sub hn]; simp
  have hlt := theta_lt (n := n) hr (k := n - 1) (by omega) (x := 1) (by rw [hcast]; exact h0) (by rw [hcast]; simpa using h1)
  have c1 : ((thetaBasis n r).knots.filter (· < (1 : ℝ))).length = 2 * n + 1 := by
    have a := (k_lt_iff hb.sorted 1 (2 * n) (by omega)).1 ((hlt _).1.2 (by omega))
    have b : ¬ (2 * n + 1 < ((thetaBasis n r).knots.filter (· < (1 : ℝ))).length) := by
      intro hc
      have := (hlt _).1.1 ((k_lt_iff hb.sorted 1 (2 * n + 1) (by omega)).2 hc)
      omega
    omega
  have k2 : (thetaBasis n r).k 2 = 0 := by rw [theta_k]; simp
  have k3 : 0 < (thetaBasis n r).k 3 := by
    have := hb.start
    have e : (thetaBasis n r).k 2 < (thetaBasis n r).k 3 := this
    rwa [k2] at e
  have k0 : (thetaBasis n r).k 0 = 0 := by rw [theta_k]; simp
  have z0 : ((thetaBasis n r).knots.filter (· < (0 : ℝ))).length = 0 := by
    by_contra hc
    have := (k_lt_iff hb.sorted 0 0 (by omega)).2 (by omega)
    rw [k0] at this
    exact lt_irrefl _ this
  have z1 : ((thetaBasis n r).knots.filter (· ≤ (0 : ℝ))).length = 3 := by
    have a := (k_le_iff hb.sorted 0 2 (by omega)).1 k2.le
    have b : ¬ (3 < ((thetaBasis n r).knots.filter (· ≤ (0 : ℝ))).length) := by
      intro hc
      exact absurd ((k_le_iff hb.sorted 0 3 (by omega)).2 hc) (not_le.2 k3)
    omega
  have m0 := filter_le_length (thetaBasis n r).knots 0
  have m1 := filter_le_length (thetaBasis n r).knots 1
  have mle : ((thetaBasis n r).knots.filter (· ≤ (1 : ℝ))).length ≤ 2 * n + 4 := (List.length_filter_le _ _).trans hlen.le
  unfold cropSpline Basis.len
  simp only
  set ins : List ℝ := List.replicate ((thetaBasis n r).degree + 1 - (thetaBasis n r).knots.count 0) 0
      ++ List.replicate ((thetaBasis n r).degree + 1 - (thetaBasis n r).knots.count 1) 1 with hins
  have hp := insertKnots_perm ⟨thetaBasis n r, l⟩ ins
  have e0 := (hp.filter (· < (0 : ℝ))).length_eq
  have e1 := (hp.filter (· ≤ (1 : ℝ))).length_eq
  have hd : (thetaBasis n r).degree = 2 := rfl
  rw [List.filter_append, List.length_append] at e0 e1
  have i0 : (ins.filter (· < (0 : ℝ))).length = 0 := by
    rw [hins]; simp
  have i1 : (ins.filter (· ≤ (1 : ℝ))).length = ins.length := by
    rw [hins]; simp
  have i2 : ins.length = 3 - (thetaBasis n r).knots.count 1 := by
    rw [hins, List.length_append, List.length_replicate, List.length_replicate, hd]; omega
  rw [List.length_drop, List.length_take, hp.length_eq, List.length_append, e0, e1, hd]
  simp only at *
  omega

theorem crop_eval {n : ℕ} {r : ℝ} (hr : 0 < r) (hn : 0 < n) (h0 : ((n : ℝ) - 1) * (r / 4) < 1) (h1 : 1 ≤ (n : ℝ) * (r / 4)) (c : ℕ → ℝ) :
    ∃ s, cropped (thetaBasis n r) c = some s ∧ ∀ x, 0 ≤ x → x ≤ 1 →
      s.eval x = (⟨thetaBasis n r, (List.range (2 * n + 1)).map c⟩ : BSpline ℝ).eval x := by
  have hb := theta_clamped hn hr
  unfold cropped
  rw [crop_len hr hn h0 h1, theta_len, if_pos rfl]
  refine ⟨_, rfl, fun x hx0 hx1 => ?_⟩
  have k0 : (thetaBasis n r).k 0 = 0 := by rw [theta_k]; simp
  have kl : (thetaBasis n r).k (thetaBasis n r).len = n * (r / 4) := by
    rw [theta_len, theta_k, Nat.min_eq_right (by omega)]
  have hf : (thetaBasis n r).knots.count 0 ≤ (thetaBasis n r).degree + 1 := by
    have a := filter_le_length (thetaBasis n r).knots 0
    have b : ¬ (3 < ((thetaBasis n r).knots.filter (· ≤ (0 : ℝ))).length) := by
      intro hc
      have k3 : (thetaBasis n r).k 2 < (thetaBasis n r).k 3 := hb.start
      rw [show (thetaBasis n r).k 2 = 0 by rw [theta_k]; simp] at k3
      exact absurd ((k_le_iff hb.sorted 0 3 (by have := theta_length n r; show 3 < (thetaKnots n r).length; omega)).2 hc) (not_le.2 k3)
    have hd : (thetaBasis n r).degree = 2 := rfl
    omega
  have := crop_spec ⟨thetaBasis n r, (List.range (2 * n + 1)).map c⟩ hb (by
    show _ = (thetaBasis n r).len
    rw [theta_len]; simp) 0 1 k0.le one_pos (by show (1 : ℝ) ≤ (thetaBasis n r).k (thetaBasis n r).len; rw [kl]; exact h1) hf
  exact this.2.2.2.2.2 x hx0 hx1 fun _ => Or.inl k0.symm

/-- All three splines at a time of the horizon. -/
theorem cropped_all {n : ℕ} {r : ℝ} (hr : 0 < r) (hn : 0 < n) (h0 : ((n : ℝ) - 1) * (r / 4) < 1) (h1 : 1 ≤ (n : ℝ) * (r / 4))
    {x : ℝ} (hx0 : 0 ≤ x) (hx1 : x ≤ 1) :
    ∃ k : ℕ, ∃ u : ℝ, 0 ≤ u ∧ u ≤ 1 ∧ x = ((k : ℝ) + u) * (r / 4) ∧
      ∀ c : ℕ → ℝ, ∃ s, cropped (thetaBasis n r) c = some s ∧ s.eval x = bern c k u := by
  have hq : 0 < r / 4 := by positivity
  rcases hx0.eq_or_lt with h | h
  · refine ⟨0, 0, le_rfl, zero_le_one, by rw [← h]; simp, fun c => ?_⟩
    obtain ⟨s, hs, he⟩ := crop_eval hr hn h0 h1 c
    refine ⟨s, hs, ?_⟩
    rw [he x hx0 hx1, ← h, theta_eval_zero hn hr]
    simp [bern]
  · obtain ⟨k, hk, a, b⟩ := quarter_exists hq h (hx1.trans h1)
    refine ⟨k, x / (r / 4) - k, ?_, ?_, ?_, fun c => ?_⟩
    · rw [sub_nonneg, le_div_iff₀ hq]; exact a.le
    · rw [sub_le_iff_le_add, div_le_iff₀ hq, add_comm]; exact b
    · field_simp; ring
    · obtain ⟨s, hs, he⟩ := crop_eval hr hn h0 h1 c
      refine ⟨s, hs, ?_⟩
      rw [he x hx0 hx1]
      exact theta_eval hr c hk a b _ (by field_simp; ring)

/-! ## Lemmas: the circle -/

theorem coef_step (j : ℕ) : cosC (j + 2) = -sinC j ∧ sinC (j + 2) = cosC j ∧ weightC (j + 2) = weightC j := by
  have h : j % 8 < 8 := Nat.mod_lt _ (by norm_num)
  have e : (j + 2) % 8 = (j % 8 + 2) % 8 := by omega
  unfold cosC sinC weightC
  rw [e]
  generalize j % 8 = m at h
  interval_cases m <;> simp <;> ring

theorem bern_turn (k : ℕ) (u : ℝ) :
    bern cosC k u = bern cosC 0 u * cos (k * (π / 2)) - bern sinC 0 u * sin (k * (π / 2)) ∧
    bern sinC k u = bern cosC 0 u * sin (k * (π / 2)) + bern sinC 0 u * cos (k * (π / 2)) ∧
    bern weightC k u = bern weightC 0 u := by
  induction k with
  | zero => simp
  | succ k ih =>
    obtain ⟨a, b, c⟩ := ih
    have st : bern cosC (k + 1) u = -bern sinC k u ∧ bern sinC (k + 1) u = bern cosC k u ∧ bern weightC (k + 1) u = bern weightC k u := by
      unfold bern
      rw [show 2 * (k + 1) = 2 * k + 2 by ring, show 2 * k + 2 + 1 = 2 * k + 1 + 2 by ring]
      simp only [(coef_step _).1, (coef_step _).2.1, (coef_step _).2.2]
      refine ⟨by ring, trivial, trivial⟩
    rw [st.1, st.2.1, st.2.2, a, b, c]
    push_cast
    rw [add_mul, one_mul, cos_add_pi_div_two, sin_add_pi_div_two]
    refine ⟨by ring, by ring, rfl⟩

theorem bern_zero (u : ℝ) : bern cosC 0 u = (1 - u) ^ 2 + √2 * u * (1 - u) ∧ bern sinC 0 u = √2 * u * (1 - u) + u ^ 2 ∧
    bern weightC 0 u = (1 - u) ^ 2 + √2 * u * (1 - u) + u ^ 2 := by
  unfold bern cosC sinC weightC
  refine ⟨?_, ?_, ?_⟩ <;> simp <;> ring

theorem sqrt2_bounds : (1.4142 : ℝ) < √2 ∧ √2 < 1.4143 ∧ √2 * √2 = 2 := by
  refine ⟨?_, ?_, Real.mul_self_sqrt (by norm_num)⟩
  · exact Real.lt_sqrt_of_sq_lt (by norm_num)
  · rw [Real.sqrt_lt' (by norm_num)]; norm_num

/-- The three polynomials of the first quarter. -/
noncomputable def pc (u : ℝ) : ℝ := (1 - u) ^ 2 + √2 * u * (1 - u)
noncomputable def ps (u : ℝ) : ℝ := √2 * u * (1 - u) + u ^ 2
noncomputable def pw (u : ℝ) : ℝ := (1 - u) ^ 2 + √2 * u * (1 - u) + u ^ 2

theorem circle (u : ℝ) : pc u ^ 2 + ps u ^ 2 = pw u ^ 2 := by
  unfold pc ps pw
  linear_combination (u ^ 2 * (1 - u) ^ 2) * sqrt2_bounds.2.2

theorem pw_bounds {u : ℝ} (h0 : 0 ≤ u) (h1 : u ≤ 1) : 0.8535 ≤ pw u ∧ pw u ≤ 1 := by
  obtain ⟨a, b, c⟩ := sqrt2_bounds
  have hu : 0 ≤ u * (1 - u) := mul_nonneg h0 (by linarith)
  have hq : u * (1 - u) ≤ 1 / 4 := by nlinarith [sq_nonneg (u - 1 / 2)]
  unfold pw
  constructor <;> nlinarith

theorem pc_pos {u : ℝ} (h0 : 0 ≤ u) (h1 : u ≤ 1 / 2) : 0 < pc u := by
  obtain ⟨a, b, c⟩ := sqrt2_bounds
  have : 0 ≤ √2 * u * (1 - u) := mul_nonneg (mul_nonneg (by linarith) h0) (by linarith)
  unfold pc
  nlinarith

/-- The angle shown at `u` in the first half of the first quarter. -/
noncomputable def phi0 (u : ℝ) : ℝ := arctan (ps u / pc u)

theorem phi0_spec {u : ℝ} (h0 : 0 ≤ u) (h1 : u ≤ 1 / 2) : pc u = pw u * cos (phi0 u) ∧ ps u = pw u * sin (phi0 u) := by
  have hc := pc_pos h0 h1
  have hw : 0 < pw u := by have := (pw_bounds h0 (by linarith)).1; linarith
  have e : √(1 + (ps u / pc u) ^ 2) = pw u / pc u := by
    have : 1 + (ps u / pc u) ^ 2 = (pw u / pc u) ^ 2 := by
      rw [div_pow, div_pow, ← circle u]
      field_simp
    rw [this, Real.sqrt_sq (by positivity)]
  unfold phi0
  rw [Real.cos_arctan, Real.sin_arctan, e]
  constructor <;> field_simp

theorem phi0_deriv {u : ℝ} (h0 : 0 ≤ u) (h1 : u ≤ 1 / 2) : HasDerivAt (fun u => phi0 u - u * (π / 2)) (√2 / pw u - π / 2) u := by
  have hc := pc_pos h0 h1
  have hw : 0 < pw u := by have := (pw_bounds h0 (by linarith)).1; linarith
  have i1 : HasDerivAt (fun u : ℝ => 1 - u) (-1) u := by simpa using (hasDerivAt_id u).const_sub 1
  have i0 : HasDerivAt (fun u : ℝ => u) 1 u := hasDerivAt_id u
  have i2 : HasDerivAt (fun u : ℝ => √2 * u * (1 - u)) (√2 * (1 - u) + √2 * u * (-1)) u := by
    have := (i0.const_mul (√2)).mul i1
    rw [mul_one] at this
    exact this
  have dc : HasDerivAt pc (2 * (1 - u) * (-1) + (√2 * (1 - u) + √2 * u * (-1))) u := by
    have := (i1.pow 2).add i2
    simp only [Nat.cast_ofNat, Nat.reduceSub, pow_one] at this
    exact this
  have ds : HasDerivAt ps ((√2 * (1 - u) + √2 * u * (-1)) + 2 * u) u := by
    have := i2.add (i0.pow 2)
    simp only [Nat.cast_ofNat, Nat.reduceSub, pow_one, mul_one] at this
    exact this
  have := ((ds.div dc hc.ne').arctan).sub (i0.mul_const (π / 2))
  have key : (1 : ℝ) / (1 + (ps u / pc u) ^ 2) * ((((√2 * (1 - u) + √2 * u * (-1)) + 2 * u) * pc u
      - ps u * (2 * (1 - u) * (-1) + (√2 * (1 - u) + √2 * u * (-1)))) / pc u ^ 2) = √2 / pw u := by
    have e : 1 + (ps u / pc u) ^ 2 = (pw u / pc u) ^ 2 := by
      rw [div_pow, div_pow, ← circle u]
      field_simp
    have num : ((√2 * (1 - u) + √2 * u * (-1)) + 2 * u) * pc u
        - ps u * (2 * (1 - u) * (-1) + (√2 * (1 - u) + √2 * u * (-1))) = √2 * pw u := by
      unfold pc ps pw
      linear_combination (u ^ 2 - u) * sqrt2_bounds.2.2
    rw [e, num]
    field_simp
  have this : HasDerivAt (fun u => phi0 u - u * (π / 2)) (_ - 1 * (π / 2)) u := this
  rw [one_mul] at this
  rw [← key]
  exact this

theorem phi0_error {u : ℝ} (h0 : 0 ≤ u) (h1 : u ≤ 1 / 2) : |phi0 u - u * (π / 2)| ≤ 1 / 25 := by
  have bound : ∀ x ∈ Set.Icc (0 : ℝ) (1 / 2), ‖√2 / pw x - π / 2‖ ≤ 4 / 25 := by
    intro x hx
    obtain ⟨a, b, _⟩ := sqrt2_bounds
    obtain ⟨w0, w1⟩ := pw_bounds hx.1 (by linarith [hx.2])
    have p0 := Real.pi_gt_d4
    have p1 := Real.pi_lt_d4
    have hw : 0 < pw x := by linarith
    rw [Real.norm_eq_abs, abs_le]
    constructor
    · have : √2 ≤ √2 / pw x := by rw [le_div_iff₀ hw]; nlinarith
      linarith
    · have : √2 / pw x ≤ 1.6571 := by rw [div_le_iff₀ hw]; nlinarith
      linarith
  have mv := fun x (hx : x ∈ Set.Icc (0 : ℝ) (1 / 2)) y (hy : y ∈ Set.Icc (0 : ℝ) (1 / 2)) =>
    Convex.norm_image_sub_le_of_norm_hasDerivWithin_le (fun z hz => (phi0_deriv hz.1 hz.2).hasDerivWithinAt) bound
      (convex_Icc (0 : ℝ) (1 / 2)) hx hy
  have z : phi0 0 - 0 * (π / 2) = 0 := by simp [phi0, ps]
  have hf : phi0 (1 / 2) - 1 / 2 * (π / 2) = 0 := by
    have e : ps (1 / 2) / pc (1 / 2) = 1 := by
      rw [div_eq_one_iff_eq (pc_pos (by norm_num) le_rfl).ne']
      unfold ps pc; ring
    unfold phi0
    rw [e, Real.arctan_one]; ring
  have A := mv 0 ⟨le_rfl, by norm_num⟩ u ⟨h0, h1⟩
  have B := mv u ⟨h0, h1⟩ (1 / 2) ⟨by norm_num, le_rfl⟩
  simp only [Real.norm_eq_abs] at A B
  rw [z, sub_zero, sub_zero, abs_of_nonneg h0] at A
  rw [hf, zero_sub, abs_neg, abs_of_nonneg (show (0 : ℝ) ≤ 1 / 2 - u by linarith)] at B
  rcases le_total u (1 / 4) with h | h
  · linarith
  · linarith

theorem phi0_ends : phi0 0 = 0 ∧ phi0 (1 / 2) = π / 4 ∧ phi0 (1 / 4) ≠ π / 8 := by
  refine ⟨by simp [phi0, ps], ?_, ?_⟩
  · have e : ps (1 / 2) / pc (1 / 2) = 1 := by
      rw [div_eq_one_iff_eq (pc_pos (by norm_num) le_rfl).ne']
      unfold ps pc; ring
    unfold phi0
    rw [e, Real.arctan_one]
  · intro h
    obtain ⟨a, b⟩ := phi0_spec (u := 1 / 4) (by norm_num) (by norm_num)
    rw [h] at a b
    have hw : 0 < pw (1 / 4) := by have := (pw_bounds (u := 1 / 4) (by norm_num) (by norm_num)).1; linarith
    have c2 : cos (2 * (π / 8)) = sin (2 * (π / 8)) := by
      rw [show 2 * (π / 8) = π / 4 by ring, Real.cos_pi_div_four, Real.sin_pi_div_four]
    rw [Real.cos_two_mul', Real.sin_two_mul] at c2
    have k : pc (1 / 4) ^ 2 - ps (1 / 4) ^ 2 = 2 * ps (1 / 4) * pc (1 / 4) := by
      rw [a, b]
      linear_combination pw (1 / 4) ^ 2 * c2
    unfold pc ps at k
    obtain ⟨s1, s2, s3⟩ := sqrt2_bounds
    nlinarith

/-- The angle shown at `u` in the first quarter. -/
noncomputable def phi (u : ℝ) : ℝ := if u ≤ 1 / 2 then phi0 u else π / 2 - phi0 (1 - u)

theorem phi_spec {u : ℝ} (h0 : 0 ≤ u) (h1 : u ≤ 1) : bern cosC 0 u = pw u * cos (phi u) ∧ bern sinC 0 u = pw u * sin (phi u) ∧
    bern weightC 0 u = pw u ∧ |phi u - u * (π / 2)| ≤ 1 / 25 := by
  rw [(bern_zero u).1, (bern_zero u).2.1, (bern_zero u).2.2]
  unfold phi
  split_ifs with h
  · exact ⟨(phi0_spec h0 h).1, (phi0_spec h0 h).2, rfl, phi0_error h0 h⟩
  · push Not at h
    have hs := phi0_spec (u := 1 - u) (by linarith) (by linarith)
    have he := phi0_error (u := 1 - u) (by linarith) (by linarith)
    have ew : pw (1 - u) = pw u := by unfold pw; ring
    rw [ew] at hs
    rw [cos_pi_div_two_sub, sin_pi_div_two_sub, ← hs.1, ← hs.2]
    refine ⟨by unfold ps; ring, by unfold pc; ring, rfl, ?_⟩
    rw [abs_sub_comm] at he
    convert he using 2
    ring

theorem phi_eighths {u : ℝ} (h0 : 0 ≤ u) (h1 : u ≤ 1) (m : ℤ) (hm : 2 * u = m) : phi u = u * (π / 2) := by
  have a : (0 : ℤ) ≤ m := by
    have : (0 : ℝ) ≤ m := by linarith
    exact_mod_cast this
  have b : m ≤ 2 := by
    have : (m : ℝ) ≤ 2 := by linarith
    exact_mod_cast this
  have : m = 0 ∨ m = 1 ∨ m = 2 := by omega
  rcases this with e | e | e <;> rw [e] at hm <;> push_cast at hm
  · have : u = 0 := by linarith
    rw [this]; unfold phi; rw [if_pos (by norm_num), phi0_ends.1]; ring
  · have : u = 1 / 2 := by linarith
    rw [this]; unfold phi; rw [if_pos (by norm_num), phi0_ends.2.1]; ring
  · have : u = 1 := by linarith
    rw [this]; unfold phi; rw [if_neg (by norm_num), sub_self, phi0_ends.1]; ring

theorem shows_unique {v : ℝ × ℝ × ℝ} {a b : ℝ} (ha : Spec.Shows v a) (hb : Spec.Shows v b) : cos (a - b) = 1 := by
  rw [Real.cos_sub, ← ha.2.1, ← ha.2.2, ← hb.2.1, ← hb.2.2]
  have := Real.cos_sq_add_sin_sq a
  rw [← ha.2.1, ← ha.2.2] at this
  linear_combination this

/-- What a rotating obstacle shows. -/
theorem orient_spec (o : Rot) (hω : o.omega ≠ 0) (hT : 0 < o.horizon) (theta t : ℝ) (hs : List ℝ) {τ : ℝ} (h0 : 0 ≤ τ) (h1 : τ ≤ 1) :
    ∃ (k : ℕ) (u : ℝ) (v : ℝ × ℝ × ℝ) (σ : ℝ), 0 ≤ u ∧ u ≤ 1 ∧ (σ = 1 ∨ σ = -1) ∧ o.omega * (τ * o.horizon) = σ * (((k : ℝ) + u) * (π / 2)) ∧
      orient o theta t hs τ = some v ∧ Spec.Shows v (theta - t * o.omega + σ * (k * (π / 2) + phi u)) := by
  have ha : 0 < |o.omega| := abs_pos.2 hω
  have hTs : 0 < 2 * π / |o.omega| := div_pos (by positivity) ha
  set Ts := 2 * π / |o.omega| with hTsd
  have hr : 0 < Ts / o.horizon := div_pos hTs hT
  have hx : 0 < 4 * o.horizon / Ts := by positivity
  have hn : 0 < quarters o.horizon Ts := Nat.ceil_pos.2 hx
  have l1 : 1 ≤ (quarters o.horizon Ts : ℝ) * (Ts / o.horizon / 4) := by
    have := Nat.le_ceil (4 * o.horizon / Ts)
    rw [div_le_iff₀ hTs] at this
    have e : (quarters o.horizon Ts : ℝ) * (Ts / o.horizon / 4) = (quarters o.horizon Ts : ℝ) * Ts / (4 * o.horizon) := by field_simp
    rw [e, le_div_iff₀ (by positivity), one_mul]
    exact this
  have l0 : ((quarters o.horizon Ts : ℝ) - 1) * (Ts / o.horizon / 4) < 1 := by
    have := Nat.ceil_lt_add_one hx.le
    have h2 : (quarters o.horizon Ts : ℝ) - 1 < 4 * o.horizon / Ts := by unfold quarters; linarith
    rw [lt_div_iff₀ hTs] at h2
    have e : ((quarters o.horizon Ts : ℝ) - 1) * (Ts / o.horizon / 4) = ((quarters o.horizon Ts : ℝ) - 1) * Ts / (4 * o.horizon) := by field_simp
    rw [e, div_lt_one (by positivity)]
    exact h2
  obtain ⟨k, u, u0, u1, hτ, all⟩ := cropped_all hr hn l0 l1 h0 h1
  obtain ⟨c, hc, ec⟩ := all cosC
  obtain ⟨s, hsn, es⟩ := all sinC
  obtain ⟨w, hw, ew⟩ := all weightC
  obtain ⟨pA, pB, pC, _⟩ := phi_spec u0 u1
  obtain ⟨tA, tB, tC⟩ := bern_turn k u
  have hpw : 0 < pw u := by have := (pw_bounds u0 u1).1; linarith
  have hC : bern cosC k u = pw u * cos (k * (π / 2) + phi u) := by rw [tA, pA, pB, cos_add]; ring
  have hS : bern sinC k u = pw u * sin (k * (π / 2) + phi u) := by rw [tB, pA, pB, sin_add]; ring
  have hW : bern weightC k u = pw u := by rw [tC, pC]
  have sg : o.omega = (if 0 < o.omega then (1 : ℝ) else -1) * |o.omega| := by
    split_ifs with h
    · rw [abs_of_pos h, one_mul]
    · rw [abs_of_nonpos (not_lt.1 h)]; ring
  refine ⟨k, u, (c.eval τ * cos (theta - t * o.omega) - s.eval τ * (if 0 < o.omega then 1 else -1) * sin (theta - t * o.omega),
    c.eval τ * sin (theta - t * o.omega) + s.eval τ * (if 0 < o.omega then 1 else -1) * cos (theta - t * o.omega), w.eval τ),
    if 0 < o.omega then 1 else -1, u0, u1, by split_ifs <;> simp, ?_, ?_, ?_⟩
  rotate_left
  · unfold orient
    rw [if_neg hω]
    simp only [← hTsd, hc, hsn, hw]
  · simp only [ec, es, ew, hC, hS, hW]
    refine ⟨hpw, ?_, ?_⟩ <;> split_ifs <;> simp only [one_mul, neg_mul, ← sub_eq_add_neg, cos_add, sin_add, cos_sub, sin_sub] <;>
      field_simp <;> ring
  · rw [hτ, hTsd]
    have : |o.omega| * (((k : ℝ) + u) * (2 * π / |o.omega| / o.horizon / 4) * o.horizon) = ((k : ℝ) + u) * (π / 2) := by
      field_simp
      ring
    rw [← this, ← mul_assoc _ (|o.omega|), ← sg]

/-! ## C141 -/

/-- C141: **the orientation of an obstacle is predicted correctly, part 1**.  For an obstacle that keeps turning at the rate it had
when the problem was built, and a problem with one segment whose duration is the option `horizon_time` of the obstacle: at every time
of the horizon the weight is positive and the orientation is the true one up to `1/25` radian, exactly the true one at every eighth
of a turn.  The full statement asks for the true orientation at every time, see `C141_violated`. -/
theorem C141_rotating_partial (o : Rot) (hω : o.omega ≠ 0) (hT : 0 < o.horizon) (m : Signals) (hm : m.omega = o.omega) (t τ : ℝ)
    (h0 : 0 ≤ τ) (h1 : τ ≤ 1) :
    ∃ v δ, predicted o m t [o.horizon] τ = some v ∧ Spec.Shows v (Spec.trueAngle m t (Spec.timeIn [o.horizon] τ) + δ) ∧ |δ| ≤ 1 / 25 ∧
      ((∃ e : ℤ, o.omega * (τ * o.horizon) = e * (π / 4)) → δ = 0) := by
  obtain ⟨k, u, v, σ, u0, u1, hσ, hx, hv, sh⟩ := orient_spec o hω hT m.orientation t [o.horizon] h0 h1
  refine ⟨v, σ * (phi u - u * (π / 2)), hv, ?_, ?_, ?_⟩
  · convert sh using 1
    simp only [Spec.trueAngle, Spec.timeIn, List.dropLast_singleton, List.sum_nil, List.getLastD_cons, List.getLastD_nil, hm]
    linear_combination hx
  · rw [abs_mul]
    have : |σ| = 1 := by rcases hσ with e | e <;> rw [e] <;> simp
    rw [this, one_mul]
    exact (phi_spec u0 u1).2.2.2
  · rintro ⟨e, he⟩
    rw [hx] at he
    have hp := Real.pi_pos
    have h2 : σ * (2 * ((k : ℝ) + u)) = e := by
      have : (σ * (2 * ((k : ℝ) + u))) * (π / 4) = e * (π / 4) := by linear_combination he
      exact mul_right_cancel₀ (by positivity) this
    rcases hσ with hs | hs
    · rw [phi_eighths u0 u1 (e - 2 * k) (by push_cast; rw [hs] at h2; linarith)]; ring
    · rw [phi_eighths u0 u1 (-e - 2 * k) (by push_cast; rw [hs] at h2; linarith)]; ring

/-- C141: **part 2**.  An obstacle that does not turn, and whose orientation is still the one it had when the problem was built, is
predicted in its true orientation at every time. -/
theorem C141_still_partial (o : Rot) (hω : o.omega = 0) (m : Signals) (hm : m = ⟨o.theta, o.omega⟩) (t τ : ℝ) (hts : List ℝ) :
    ∃ v, predicted o m t hts τ = some v ∧ Spec.Shows v (Spec.trueAngle m t (Spec.timeIn hts τ)) := by
  refine ⟨(cos o.theta, sin o.theta, 1), by simp [predicted, orient, hω], one_pos, ?_, ?_⟩ <;>
    simp [Spec.trueAngle, hm, hω]

/-- C141 does not hold: no rotating obstacle is shown in its true orientation after a sixteenth of a turn. -/
theorem C141_violated (o : Rot) (hω : o.omega ≠ 0) (hT : 0 < o.horizon) (m : Signals) (hm : m.omega = o.omega) (t τ : ℝ)
    (h0 : 0 ≤ τ) (h1 : τ ≤ 1) (h : |o.omega| * (τ * o.horizon) = π / 8) :
    ¬ ∃ v, predicted o m t [o.horizon] τ = some v ∧ Spec.Shows v (Spec.trueAngle m t (Spec.timeIn [o.horizon] τ)) := by
  rintro ⟨v, hv, hsh⟩
  obtain ⟨k, u, v', σ, u0, u1, hσ, hx, hv', sh⟩ := orient_spec o hω hT m.orientation t [o.horizon] h0 h1
  have : v' = v := Option.some.inj (hv'.symm.trans hv)
  rw [this] at sh
  have hp := Real.pi_pos
  have habs : ((k : ℝ) + u) * (π / 2) = π / 8 := by
    have e : |o.omega * (τ * o.horizon)| = |o.omega| * (τ * o.horizon) := by
      rw [abs_mul, abs_of_nonneg (mul_nonneg h0 hT.le)]
    have p : 0 ≤ ((k : ℝ) + u) * (π / 2) := by positivity
    have s1 : |σ| = 1 := by rcases hσ with e | e <;> rw [e] <;> simp
    rw [hx, abs_mul, s1, one_mul, abs_of_nonneg p] at e
    rw [e, h]
  have hku : (k : ℝ) + u = 1 / 4 := by
    have : ((k : ℝ) + u - 1 / 4) * (π / 2) = 0 := by linear_combination habs
    rcases mul_eq_zero.1 this with e | e
    · linarith
    · linarith
  have hk : k = 0 := by
    by_contra hne
    have : (1 : ℝ) ≤ k := by exact_mod_cast Nat.one_le_iff_ne_zero.2 hne
    linarith
  have hu : u = 1 / 4 := by rw [hk] at hku; simpa using hku
  have hc := shows_unique sh hsh
  have ang : m.orientation - t * o.omega + σ * ((k : ℝ) * (π / 2) + phi u) - Spec.trueAngle m t (Spec.timeIn [o.horizon] τ)
      = σ * (phi u - u * (π / 2)) := by
    simp only [Spec.trueAngle, Spec.timeIn, List.dropLast_singleton, List.sum_nil, List.getLastD_cons, List.getLastD_nil, hm]
    linear_combination -hx
  rw [ang] at hc
  have hd := (phi_spec u0 u1).2.2.2
  have hs : cos (phi u - u * (π / 2)) = 1 := by
    rcases hσ with e | e
    · rw [e, one_mul] at hc; exact hc
    · rw [e, neg_one_mul, cos_neg] at hc; exact hc
  have p3 := Real.pi_gt_three
  obtain ⟨d1, d2⟩ := abs_le.1 hd
  have z := (Real.cos_eq_one_iff_of_lt_of_lt (x := phi u - u * (π / 2)) (by linarith) (by linarith)).1 hs
  rw [hu] at z
  unfold phi at z
  rw [if_pos (by norm_num)] at z
  exact phi0_ends.2.2 (by linarith)

/-- C141 does not hold for problems with further segments, or with another horizon than the option of the obstacle: whatever the
durations are, at the eighths of a turn the orientation shown is off unless the difference to the true one is a number of full turns. -/
theorem C141_segments_violated (o : Rot) (hω : o.omega ≠ 0) (hT : 0 < o.horizon) (m : Signals) (hm : m.omega = o.omega) (t τ : ℝ)
    (hts : List ℝ) (h0 : 0 ≤ τ) (h1 : τ ≤ 1) (e : ℤ) (he : o.omega * (τ * o.horizon) = e * (π / 4))
    (hne : ∀ j : ℤ, o.omega * (Spec.timeIn hts τ - τ * o.horizon) ≠ j * (2 * π)) :
    ¬ ∃ v, predicted o m t hts τ = some v ∧ Spec.Shows v (Spec.trueAngle m t (Spec.timeIn hts τ)) := by
  rintro ⟨v, hv, hsh⟩
  obtain ⟨v', δ, hv', sh, -, hδ⟩ := C141_rotating_partial o hω hT m hm t τ h0 h1
  have : v' = v := Option.some.inj (hv'.symm.trans hv)
  rw [this, hδ ⟨e, he⟩, add_zero] at sh
  have hc := shows_unique hsh sh
  obtain ⟨j, hj⟩ := (Real.cos_eq_one_iff _).1 hc
  refine hne j ?_
  rw [hj]
  simp only [Spec.trueAngle, Spec.timeIn, List.dropLast_singleton, List.sum_nil, List.getLastD_cons, List.getLastD_nil, hm]
  ring

/-- C141 does not hold for measurements: an obstacle that did not turn when the problem was built is always shown in the orientation
it had then; and a measurement of a turning obstacle that does not mention the orientation sets it to zero. -/
theorem C141_measurement_violated (o : Rot) (a : Option ℝ) (w : Option ℝ) (t τ : ℝ) (hts : List ℝ) :
    (o.omega = 0 → ∀ v, predicted o (setState a w) t hts τ = some v → Spec.Shows v o.theta) ∧
    (o.omega ≠ 0 → 0 < o.horizon → ∃ v, predicted o (setState none w) 0 hts 0 = some v ∧ Spec.Shows v 0) := by
  constructor
  · intro hω v hv
    simp only [predicted, orient, hω, if_true, Option.some.injEq] at hv
    rw [← hv]
    exact ⟨one_pos, by simp, by simp⟩
  · intro hω hT
    obtain ⟨v, δ, hv, sh, -, hδ⟩ := C141_rotating_partial o hω hT ⟨0, o.omega⟩ rfl 0 0 le_rfl zero_le_one
    refine ⟨v, hv, ?_⟩
    rw [hδ ⟨0, by simp⟩] at sh
    simpa [Spec.trueAngle, Spec.timeIn] using sh

/-- An obstacle that makes more than two turns in ten seconds, one and a half radian per second. -/
noncomputable def exRot : Rot := ⟨1 / 5, -3 / 2, 10⟩

example : ∃ v δ, predicted exRot (setState (some 1) (some (-3 / 2))) (1 / 4) [10] (1 / 3) = some v ∧
    Spec.Shows v (1 + -3 / 2 * (10 / 3 - 1 / 4) + δ) ∧ |δ| ≤ 1 / 25 := by
  obtain ⟨v, δ, a, b, c, -⟩ := C141_rotating_partial exRot (by norm_num [exRot]) (by norm_num [exRot])
    (setState (some 1) (some (-3 / 2))) rfl (1 / 4) (1 / 3) (by norm_num) (by norm_num)
  refine ⟨v, δ, a, ?_, c⟩
  convert b using 2
  norm_num [Spec.trueAngle, Spec.timeIn, setState, exRot]

example : ¬ ∃ v, predicted exRot (setState (some 1) (some (-3 / 2))) 0 [10] (π / 120) = some v ∧
    Spec.Shows v (Spec.trueAngle (setState (some 1) (some (-3 / 2))) 0 (Spec.timeIn [10] (π / 120))) :=
  C141_violated exRot (by norm_num [exRot]) (by norm_num [exRot]) _ rfl 0 (π / 120) (by positivity)
    (by have := Real.pi_lt_four; linarith) (by
      simp only [exRot]
      rw [abs_of_neg (by norm_num)]
      ring)

/-- The second of two segments of two seconds: the rotation starts again. -/
example : ¬ ∃ v, predicted ⟨0, 1, 2⟩ ⟨0, 1⟩ 0 [2, 2] 0 = some v ∧ Spec.Shows v (Spec.trueAngle ⟨0, 1⟩ 0 (Spec.timeIn [2, 2] 0)) :=
  C141_segments_violated ⟨0, 1, 2⟩ (by norm_num) (by norm_num) ⟨0, 1⟩ rfl 0 0 [2, 2] le_rfl zero_le_one 0 (by simp) (by
    intro j hj
    have e : (Spec.timeIn [2, 2] 0 : ℝ) = 2 := by norm_num [Spec.timeIn]
    rw [e] at hj
    have p := Real.pi_gt_three
    rcases lt_trichotomy j 0 with h | h | h
    · have : (j : ℝ) ≤ -1 := by exact_mod_cast (by omega : j ≤ -1)
      nlinarith
    · rw [h] at hj; norm_num at hj
    · have : (1 : ℝ) ≤ j := by exact_mod_cast (by omega : 1 ≤ j)
      nlinarith)

end Verif.Environment
