import Verif.Export.Vehicle
import Mathlib.Analysis.Calculus.MeanValue
import Mathlib.Analysis.Calculus.Deriv.Pow
import Mathlib.Algebra.Module.Basic

/-! # Coefficients, initial guess and prediction of the exported C++ vehicle

Mirrors `omgtools/export/vehicles/Vehicle.cpp`, `Holonomic.cpp` and the parts of
`omgtools/export/point2point/Point2Point.cpp` that pass coefficients to the vehicle. -/

set_option linter.unusedSectionVars false

namespace Verif.Export

open Finset Verif.Spline

/-! ## The coefficients of the vehicle (C107) -/

section Coeffs
variable {K : Type*} [Field K]

/-- `extractData`, Point2Point.cpp:264-270: `spline_coeffs[k][j] = spline_coeffs_vec[k*len_basis+j]`, read
from the variable `splines_seg0`; `junk` stands for a read beyond the end. -/
def splitCoeffs (junk : K) (len k : ℕ) (vec : List K) : List K :=
  (List.range len).map fun j : ℕ => vec.getD (k * len + j) junk

/-- The basis of the exported vehicle: `Holonomic() : Vehicle(2, 2, 2, 3)` and
`Vehicle(..., degree) : Vehicle(..., degree, 10)` (Holonomic.cpp:25, Vehicle.cpp:46): degree 3, ten knot
intervals, whatever the exported problem uses. -/
def exportedLen : ℕ := 10 + 3

/-- Specification: the coefficients of the splines of a vehicle, one spline after another (the columns of
the variable `splines_seg0`). -/
def stacked (cs : List (List K)) : List K := cs.flatten

theorem stacked_getD (junk : K) (n : ℕ) (cs : List (List K)) (h : ∀ c ∈ cs, c.length = n) (k j : ℕ) (c : List K)
    (hc : cs[k]? = some c) (hj : j < n) : (stacked cs).getD (k * n + j) junk = c.getD j junk := by
  induction cs generalizing k with
  | nil => simp at hc
  | cons a r ih =>
    have ha : a.length = n := h a (by simp)
    unfold stacked
    rw [List.flatten_cons]
    cases k with
    | zero =>
      simp only [List.getElem?_cons_zero, Option.some.injEq] at hc
      subst hc
      rw [Nat.zero_mul, Nat.zero_add, List.getD_append _ _ _ _ (by omega)]
    | succ k =>
      simp only [List.getElem?_cons_succ] at hc
      have e : (k + 1) * n + j = k * n + j + n := by ring
      rw [List.getD_append_right _ _ _ _ (by rw [ha, e]; omega), ha, e, Nat.add_sub_cancel]
      exact ih (fun c hc => h c (by simp [hc])) k hc

/-- C107 (partial: the exported problem uses ten knot intervals, see `C107_violated`): the exported
vehicle gets the coefficients of each of its splines. -/
theorem C107_partial (junk : K) (ki : ℕ) (hki : ki = 10) (cs : List (List K))
    (h : ∀ c ∈ cs, c.length = ki + 3) (k : ℕ) (c : List K) (hc : cs[k]? = some c) :
    splitCoeffs junk exportedLen k (stacked cs) = c := by
  have hl : c.length = exportedLen := by
    rw [h c (List.mem_of_getElem? hc), hki]; rfl
  apply List.ext_getElem
  · simp [splitCoeffs, hl]
  · intro j h1 h2
    simp only [splitCoeffs, List.getElem_map, List.getElem_range]
    rw [stacked_getD junk exportedLen cs (by rw [hki] at h; exact h) k j c hc (by omega),
      List.getD_eq_getElem _ _ (by omega)]

example : ∃ cs : List (List ℚ), cs.length = 2 ∧ ∀ c ∈ cs, c.length = 10 + 3 :=
  ⟨[List.replicate 13 1, List.replicate 13 2], rfl, by simp⟩

end Coeffs

/-- C107 is violated for every other number of knot intervals: the code of the vehicle is not told about
it, and for some coefficients the second spline of the vehicle gets wrong ones. -/
theorem C107_violated (ki : ℕ) (hki : ki ≠ 10) (junk : ℚ) :
    ∃ x y : List ℚ, x.length = ki + 3 ∧ y.length = ki + 3 ∧
      splitCoeffs junk exportedLen 1 (stacked [x, y]) ≠ y := by
  refine ⟨List.replicate (ki + 3) 0, List.replicate (ki + 3) 1, by simp, by simp, ?_⟩
  intro e
  have := congrArg List.length e
  simp only [splitCoeffs, List.length_map, List.length_range, List.length_replicate, exportedLen] at this
  omega

/-! ## The initial guess (C113) -/

section Guess
variable {K : Type*} [Field K] [LinearOrder K] [IsStrictOrderedRing K]

/-- `Holonomic::getInitSplineValue`, Holonomic.cpp:36-56: coefficients of one spline, from the predicted
state `s` to the target `p`. -/
def initSpline (len : ℕ) (s p : K) : List K :=
  (List.range len).map fun j : ℕ => s + j * (p - s) / (((len : ℕ) : K) - 1)

theorem initSpline_eval (b : Basis K) (hb : b.Clamped) (s p x : K) (hx : b.k 0 ≤ x) (hx' : x ≤ b.k b.len) :
    (BSpline.mk b (initSpline b.len s p)).eval x =
      s + (∑ i ∈ range b.len, b.fn i x * ((i : K) / ((b.len : K) - 1))) * (p - s) := by
  have hwf : (BSpline.mk b (initSpline b.len s p)).WF := by simp [BSpline.WF, initSpline]
  rw [BSpline.eval_eq hwf]
  have e : ∀ i ∈ range b.len, (initSpline b.len s p).getD i 0 * b.fn i x =
      s * b.fn i x + b.fn i x * ((i : K) / ((b.len : K) - 1)) * (p - s) := by
    intro i hi
    rw [Finset.mem_range] at hi
    unfold initSpline
    rw [getD_map_range _ _ _ _ hi]
    ring
  have hs := Basis.sum_fn hb hx hx'
  calc _ = ∑ i ∈ range b.len, (initSpline b.len s p).getD i 0 * b.fn i x := rfl
    _ = _ := by
      rw [Finset.sum_congr rfl e, Finset.sum_add_distrib, ← Finset.mul_sum, hs, mul_one, Finset.sum_mul]

/-- C113: for every state and target, the initial guess of the exported vehicle is a trajectory that starts
at the state, ends at the target, and at every time of the horizon all coordinates are at the same
fraction `f` of the way (the guess stays on the straight segment). -/
theorem C113 (degree ki : ℕ) (hki : 1 ≤ ki) (hl : 2 ≤ ki + degree) (h : K) (hh : 0 < h) :
    (∀ s p junk : K, sampleSpline junk degree ki h 0 (initSpline (lenBasis (K := K) degree ki) s p) 0 = s) ∧
    (∀ s p junk : K, sampleSpline junk degree ki h 0 (initSpline (lenBasis (K := K) degree ki) s p) h = p) ∧
    ∀ t, 0 ≤ t → t ≤ h → ∃ f, 0 ≤ f ∧ f ≤ 1 ∧ ∀ s p junk : K,
      sampleSpline junk degree ki h 0 (initSpline (lenBasis (K := K) degree ki) s p) t = s + f * (p - s) := by
  set b : Basis K := ⟨cppKnots degree ki, degree⟩ with hbdef
  have hb : b.Clamped := cppKnots_clamped degree ki hki
  have hlen : b.len = ki + degree := lenBasis_eq degree ki
  have hk0 : (0 : K) < ki := Nat.cast_pos.2 (by omega)
  have hkv := cppKnots_k (K := K) degree ki hki degree
  have k0 : b.k 0 = 0 := by
    show (Basis.mk (cppKnots degree ki : List K) degree).k 0 = 0
    rw [hkv]; split_ifs with a c
    · rfl
    · simp
    · omega
  have k1 : b.k b.len = 1 := by
    rw [hlen]
    show (Basis.mk (cppKnots degree ki : List K) degree).k _ = 1
    rw [hkv, if_neg (by omega), if_pos (by omega), Nat.add_sub_cancel]
    exact div_self hk0.ne'
  have kl : b.k (b.len - 1) < b.k b.len := by
    rw [k1, hlen]
    show (Basis.mk (cppKnots degree ki : List K) degree).k _ < 1
    rw [hkv]
    split_ifs with a c
    · exact one_pos
    · rw [div_lt_one hk0]; exact Nat.cast_lt.2 (by omega)
    · omega
  have hsamp : ∀ s p junk t : K, sampleSpline junk degree ki h 0 (initSpline (lenBasis (K := K) degree ki) s p) t =
      (BSpline.mk b (initSpline b.len s p)).eval (t / h) := by
    intro s p junk t
    rw [sampleSpline_eq junk degree ki h 0 (by omega) hki _ (by simp [initSpline, lenBasis_eq]) t, pow_zero, div_one]
    rfl
  have hn1 : (0 : K) < ((b.len : ℕ) : K) - 1 := by
    rw [hlen]
    have : (2 : K) ≤ ((ki + degree : ℕ) : K) := by exact_mod_cast hl
    linarith
  have hwf : ∀ s p : K, (BSpline.mk b (initSpline b.len s p)).WF := fun s p => by simp [BSpline.WF, initSpline]
  refine ⟨?_, ?_, ?_⟩
  · intro s p junk
    rw [hsamp, zero_div]
    have := (C03_endpoints (BSpline.mk b (initSpline b.len s p)) hb (hwf s p) kl).1
    rw [headD_eq_k (b := b) hb, k0] at this
    rw [this]
    unfold initSpline
    rw [hlen]
    obtain ⟨m, hm⟩ : ∃ m, ki + degree = m + 1 := ⟨ki + degree - 1, by omega⟩
    rw [hm, List.range_succ_eq_map]
    simp
  · intro s p junk
    rw [hsamp, div_self hh.ne']
    have := (C03_endpoints (BSpline.mk b (initSpline b.len s p)) hb (hwf s p) kl).2
    rw [getLastD_eq_k (b := b) hb, k1] at this
    rw [this]
    unfold initSpline
    obtain ⟨m, hm⟩ : ∃ m, b.len = m + 1 := ⟨b.len - 1, by omega⟩
    rw [hm] at hn1 ⊢
    rw [List.range_succ]
    simp only [List.map_append, List.map_cons, List.map_nil, List.getLastD_concat]
    push_cast at hn1 ⊢
    field_simp
    ring
  · intro t t0 t1
    have x0 : b.k 0 ≤ t / h := by rw [k0]; exact div_nonneg t0 hh.le
    have x1 : t / h ≤ b.k b.len := by rw [k1, div_le_one hh]; exact t1
    refine ⟨∑ i ∈ range b.len, b.fn i (t / h) * ((i : K) / ((b.len : K) - 1)), ?_, ?_, ?_⟩
    · apply Finset.sum_nonneg
      intro i _
      exact mul_nonneg (Basis.fn_nonneg hb i _) (div_nonneg (Nat.cast_nonneg _) hn1.le)
    · have hs := Basis.sum_fn hb x0 x1
      refine le_of_le_of_eq ?_ hs
      apply Finset.sum_le_sum
      intro i hi
      rw [Finset.mem_range] at hi
      have : (i : K) / ((b.len : K) - 1) ≤ 1 := by
        rw [div_le_one hn1]
        have : ((i + 1 : ℕ) : K) ≤ (b.len : K) := Nat.cast_le.2 hi
        push_cast at this
        linarith
      exact mul_le_of_le_one_right (Basis.fn_nonneg hb i _) this
    · intro s p junk
      rw [hsamp, initSpline_eval b hb s p _ x0 x1]

example : (1 : ℕ) ≤ 10 ∧ 2 ≤ 10 + 3 ∧ (0 : ℚ) < 10 := by norm_num

end Guess

/-! ## The prediction (C108) -/

section Integrate
variable {K : Type*} [Field K] {V U : Type*} [AddCommGroup V] [Module K V]

/-- The increment of one pass of `integrate`, Vehicle.cpp:83-99.  The stages start from `x0`, the state at
the beginning of the whole prediction (`state0` is not updated in the loop). -/
def rkIncrement (ode : V → U → V) (h : K) (x0 : V) (u u' : U) : V :=
  let k1 := ode x0 u
  let k2 := ode (x0 + (1 / 2 * h) • k1) u
  let k3 := ode (x0 + (1 / 2 * h) • k2) u
  let k4 := ode (x0 + h • k3) u'
  (h / 6) • (k1 + (2 : K) • k2 + (2 : K) • k3 + k4)

/-- `integrate(state0, input, stateT, sample_time, steps)`, Vehicle.cpp:73-101. -/
def integrate (ode : V → U → V) (h : K) (x0 : V) (input : ℕ → U) : ℕ → V
  | 0 => x0
  | n + 1 => integrate ode h x0 input n + rkIncrement ode h x0 (input n) (input (n + 1))

/-- `predict`, Vehicle.cpp:60-71, without the ideal and the provided prediction: the inputs of the last
trajectory from index `shift` on are applied for `steps` samples. -/
def predictState (ode : V → U → V) (h : K) (x0 : V) (inputs : ℕ → U) (shift steps : ℕ) : V :=
  integrate ode h x0 (fun k => inputs (k + shift)) steps

end Integrate

/-- `Holonomic::ode`, Holonomic.cpp:77-79: the state changes with the input; one coordinate. -/
def holonomicOde (_ u : ℝ) : ℝ := u

/-- Specification: `x` is a motion of a holonomic vehicle (one coordinate) whose velocity goes linearly from
sample to sample, `v i` at time `i*h`. -/
def Follows (h : ℝ) (v : ℕ → ℝ) (n : ℕ) (x : ℝ → ℝ) : Prop :=
  ∀ i, i < n → ∀ t ∈ Set.Icc (i * h) ((i + 1) * h),
    HasDerivWithinAt x (v i + (t - i * h) / h * (v (i + 1) - v i)) (Set.Icc (i * h) ((i + 1) * h)) t

theorem follows_step (h : ℝ) (hh : 0 < h) (v : ℕ → ℝ) (n : ℕ) (x : ℝ → ℝ) (hx : Follows h v n x) (i : ℕ) (hi : i < n) :
    x ((i + 1) * h) = x (i * h) + h / 2 * (v i + v (i + 1)) := by
  set a : ℝ := i * h with ha
  have hb : ((i : ℝ) + 1) * h = a + h := by rw [ha]; ring
  have hx' := hx i hi
  rw [hb] at hx' ⊢
  have hg : ∀ t ∈ Set.Icc a (a + h), HasDerivWithinAt
      (fun t => x t - (v i * (t - a) + (v (i + 1) - v i) / (2 * h) * (t - a) ^ 2)) 0 (Set.Icc a (a + h)) t := by
    intro t ht
    have h1 := hx' t ht
    have h2 : HasDerivWithinAt (fun t => v i * (t - a) + (v (i + 1) - v i) / (2 * h) * (t - a) ^ 2)
        (v i + (t - a) / h * (v (i + 1) - v i)) (Set.Icc a (a + h)) t := by
      have e1 : HasDerivAt (fun t : ℝ => t - a) 1 t := (hasDerivAt_id t).sub_const a
      have e2 := (e1.const_mul (v i)).add ((e1.pow 2).const_mul ((v (i + 1) - v i) / (2 * h)))
      refine (e2.congr_deriv ?_).hasDerivWithinAt
      simp
      field_simp
    have h3 := h1.sub h2
    rw [sub_self] at h3
    exact h3
  have hc := constant_of_has_deriv_right_zero (f := fun t => x t - (v i * (t - a) + (v (i + 1) - v i) / (2 * h) * (t - a) ^ 2))
    (a := a) (b := a + h) (fun t ht => (hg t ht).continuousWithinAt)
    (fun t ht => (hg t ⟨ht.1, ht.2.le⟩).mono_of_mem_nhdsWithin (by
      have : Set.Icc t (a + h) ∈ nhdsWithin t (Set.Ici t) := Icc_mem_nhdsGE ht.2
      exact Filter.mem_of_superset this (Set.Icc_subset_Icc_left ht.1)))
    (a + h) ⟨by linarith, le_rfl⟩
  simp only [add_sub_cancel_left, sub_self] at hc
  have e : (v (i + 1) - v i) / (2 * h) * h ^ 2 = h / 2 * (v (i + 1) - v i) := by field_simp
  rw [e] at hc
  linarith

theorem follows_total (h : ℝ) (hh : 0 < h) (v : ℕ → ℝ) (n : ℕ) (x : ℝ → ℝ) (hx : Follows h v n x) (m : ℕ) (hm : m ≤ n) :
    integrate holonomicOde h (x 0) v m - x (m * h) = -(h / 3) * (v m - v 0) := by
  induction m with
  | zero => simp [integrate]
  | succ m ih =>
    have h1 := ih (by omega)
    have h2 := follows_step h hh v n x hx m (by omega)
    rw [integrate, rkIncrement]
    simp only [holonomicOde, smul_eq_mul]
    push_cast
    rw [h2]
    linear_combination h1

/-- C108, exact error: for every input history and every motion that follows the inputs, the prediction of the
exported holonomic vehicle misses the state of the vehicle by a third of a sample time times the change of the
velocity. -/
theorem C108_error (h : ℝ) (hh : 0 < h) (inputs : ℕ → ℝ) (shift steps : ℕ) (x : ℝ → ℝ)
    (hx : Follows h (fun k => inputs (k + shift)) steps x) :
    predictState holonomicOde h (x 0) inputs shift steps - x (steps * h) =
      -(h / 3) * (inputs (steps + shift) - inputs shift) := by
  have := follows_total h hh (fun k => inputs (k + shift)) steps x hx steps le_rfl
  simpa [predictState] using this

/-- C108 (partial: the velocity at the end of the prediction is the velocity at its beginning, see
`C108_violated`): the predicted state is the state the vehicle reaches with the inputs of the last trajectory. -/
theorem C108_partial (h : ℝ) (hh : 0 < h) (inputs : ℕ → ℝ) (shift steps : ℕ) (x : ℝ → ℝ)
    (hx : Follows h (fun k => inputs (k + shift)) steps x) (hv : inputs (steps + shift) = inputs shift) :
    predictState holonomicOde h (x 0) inputs shift steps = x (steps * h) := by
  have := C108_error h hh inputs shift steps x hx
  rw [hv, sub_self, mul_zero] at this
  linarith

/-- A motion with velocity `2`. -/
example : Follows (1 / 100) (fun _ => 2) 10 (fun t => 5 + 2 * t) := by
  intro i _ t _
  have : HasDerivAt (fun t : ℝ => 5 + 2 * t) 2 t := by
    simpa using ((hasDerivAt_id t).const_mul 2).const_add 5
  exact (this.congr_deriv (by ring)).hasDerivWithinAt

/-- C108 is violated whenever the velocity changes over the prediction. -/
theorem C108_violated (h : ℝ) (hh : 0 < h) (inputs : ℕ → ℝ) (shift steps : ℕ) (x : ℝ → ℝ)
    (hx : Follows h (fun k => inputs (k + shift)) steps x) (hv : inputs (steps + shift) ≠ inputs shift) :
    predictState holonomicOde h (x 0) inputs shift steps ≠ x (steps * h) := by
  intro e
  have := C108_error h hh inputs shift steps x hx
  rw [e, sub_self] at this
  have : (h / 3) * (inputs (steps + shift) - inputs shift) = 0 := by linarith
  rcases mul_eq_zero.1 this with h1 | h1
  · linarith
  · exact hv (sub_eq_zero.1 h1)

/-- A vehicle that accelerates from rest: velocity `t`. -/
example : Follows 1 (fun k => (k : ℝ)) 3 (fun t => t ^ 2 / 2) := by
  intro i _ t _
  have : HasDerivAt (fun t : ℝ => t ^ 2 / 2) t t := by
    have := (hasDerivAt_pow 2 t).div_const 2
    refine this.congr_deriv ?_
    simp
  exact (this.congr_deriv (by push_cast; ring)).hasDerivWithinAt

/-- C108 is violated by every vehicle whose equation depends on the state: every step of the integration starts
from the state at the beginning.  Here `x' = x` for two steps of `1` from `1`: the second step adds the same
as the first, `1 + 2 * 41/24` instead of `(65/24)^2`. -/
theorem C108_state_violated :
    integrate (fun (x : ℚ) (_ : ℚ) => x) (1 : ℚ) 1 (fun _ => 0) 2 ≠
      integrate (fun (x : ℚ) (_ : ℚ) => x) (1 : ℚ)
        (integrate (fun (x : ℚ) (_ : ℚ) => x) (1 : ℚ) 1 (fun _ => 0) 1) (fun _ => 0) 1 := by
  norm_num [integrate, rkIncrement]

end Verif.Export
