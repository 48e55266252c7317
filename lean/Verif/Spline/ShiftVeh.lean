import Verif.Spline.ShiftOver
import Verif.Vehicles.Traj

/-! # Property C120 for the basis of a vehicle

The receding horizon of the point-to-point problems with a fixed end time is moved by
`shift_over_knot` with the equidistant knots of `Vehicle.define_knots`. -/

namespace Verif.Vehicles

open Verif.Spline Polynomial

theorem vehBasis_count_le {d n : ℕ} (hn : 1 ≤ n) (τ : ℝ) : (vehBasis d n).knots.count τ ≤ d + 1 := by
  unfold vehBasis
  rw [List.count_append, List.count_append, List.count_replicate, List.count_replicate]
  have h1 : ((List.range (n + 1)).map fun j : ℕ => (j : ℝ) / n).count τ ≤ 1 := by
    refine List.nodup_iff_count_le_one.1 ?_ τ
    refine List.Nodup.map_on (fun a _ b _ hab => ?_) List.nodup_range
    have hn0 : (n : ℝ) ≠ 0 := by positivity
    rw [div_left_inj' hn0] at hab
    exact_mod_cast hab
  by_cases e0 : ((0 : ℝ) == τ) = true
  · have e1 : ((1 : ℝ) == τ) = false := by
      rw [beq_eq_false_iff_ne]; rw [beq_iff_eq] at e0; rw [← e0]; exact one_ne_zero
    rw [if_pos e0, e1, if_neg Bool.false_ne_true]
    omega
  · rw [if_neg e0]
    by_cases e1 : ((1 : ℝ) == τ) = true
    · rw [if_pos e1]; omega
    · rw [if_neg e1]; omega

/-- The knots of a vehicle, moved up by one interval. -/
theorem vehBasis_over {d n : ℕ} (hn : 1 ≤ n) (i : ℕ) :
    ((vehBasis d n).overKnots (1 / n)).k i = (vehBasis d n).k i + 1 / n := by
  have hn0 : (0 : ℝ) < n := by positivity
  have hc := vehBasis_clamped (d := d) hn
  rw [overKnots_k hc (by positivity), extend_k hc, vehBasis_len]
  have hd : (vehBasis d n).degree = d := rfl
  rw [hd]
  have key : ∀ a b : ℕ, a = b + 1 → (a : ℝ) / n = (b : ℝ) / n + 1 / n := by
    intro a b h; rw [h]; push_cast; ring
  by_cases c1 : i ≤ d
  · rw [if_pos c1, vehBasis_k hn, vehBasis_k hn]
    exact key _ _ (by omega)
  · rw [if_neg c1]
    by_cases c2 : i + 1 < n + d
    · rw [if_pos c2, vehBasis_k hn, vehBasis_k hn]
      exact key _ _ (by omega)
    · rw [if_neg c2]
      by_cases c3 : i + 1 < n + d + 1
      · rw [if_pos c3, vehBasis_k hn, vehBasis_k hn]
        exact key _ _ (by omega)
      · rw [if_neg c3, vehBasis_k hn, vehBasis_k hn]
        congr 3
        omega

/-- The same for any threshold of the rounding. -/
theorem shiftVehAt {tol : ℝ} (d n : ℕ) (hd : 1 ≤ d) (hn : 2 ≤ n) (hnd : d ≤ n) (c : List ℝ) (hc : c.length = n + d)
    (hno : NoTinyAt tol (vehBasis d n) (1 / n)) (c' : List ℝ) (h : shiftOverAt tol ⟨vehBasis d n, c⟩ = some c') :
    c'.length = c.length ∧
    (∀ x : ℝ, 0 ≤ x → x ≤ 1 - 1 / n →
      (BSpline.mk (vehBasis d n) c').eval x = (BSpline.mk (vehBasis d n) c).eval (x + 1 / n)) ∧
    ∃ q : ℝ[X], q.natDegree ≤ d ∧
      (∀ x : ℝ, 1 - 1 / n < x → x ≤ 1 → (BSpline.mk (vehBasis d n) c).eval x = q.eval x) ∧
      ∀ x : ℝ, 1 - 1 / n ≤ x → x ≤ 1 → (BSpline.mk (vehBasis d n) c').eval x = q.eval (x + 1 / n) := by
  have hn0 : (0 : ℝ) < n := by positivity
  have hb := vehBasis_clamped (d := d) (n := n) (by omega)
  have hlen := vehBasis_len d n
  have hk := fun i => vehBasis_k (d := d) (n := n) (by omega) i
  have klen : (vehBasis d n).k (n + d) = 1 := by
    rw [hk, show min (n + d - d) n = n by omega, div_self hn0.ne']
  have klen1 : (vehBasis d n).k (n + d - 1) = 1 - 1 / n := by
    rw [hk, show min (n + d - 1 - d) n = n - 1 by omega, Nat.cast_sub (by omega), sub_div, div_self hn0.ne']
    norm_num
  have lt_k : ∀ i j, d ≤ i → i < j → j ≤ n + d → (vehBasis d n).k i < (vehBasis d n).k j := by
    intro i j h1 h2 h3
    rw [hk, hk]
    have : min (i - d) n < min (j - d) n := by omega
    gcongr
  have hte : (vehBasis d n).k (n + d) - (vehBasis d n).k (n + d - 1) = 1 / n := by
    rw [klen, klen1]; ring
  have hwf : (BSpline.mk (vehBasis d n) c).WF := hc.trans hlen.symm
  obtain ⟨h1, h2, q, h3, h4, h5⟩ := shiftOverAt_values ⟨vehBasis d n, c⟩ hb hwf hd
    (vehBasis_count_le (by omega))
    (by rw [hk]; simp) (by show 2 * d ≤ (vehBasis d n).len; omega)
    (by show d + 2 ≤ (vehBasis d n).len; omega)
    (lt_k (d + 1) (d + 2) (by omega) (by omega) (by omega))
    (by dsimp only; rw [hlen]; exact lt_k _ _ (by omega) (by omega) (by omega))
    (by dsimp only; rw [hlen]; exact lt_k _ _ (by omega) (by omega) (by omega))
    (by dsimp only; rw [hlen, hte]; exact hno) c' h _ rfl
  dsimp only at h1 h2 h3 h4 h5
  simp only [hlen, klen, klen1, sub_sub_cancel] at h1 h2 h4 h5
  have hc' : c'.length = n + d := by
    have : c'.length = ((vehBasis d n).overKnots (1 / n)).len := h1
    rw [this, overKnots_len hb (by positivity), hlen]
  have htr : ∀ x, (BSpline.mk (vehBasis d n) c').eval x
      = (BSpline.mk ((vehBasis d n).overKnots (1 / n)) c').eval (x + 1 / n) := by
    intro x
    have hw' : (BSpline.mk (vehBasis d n) c').WF := hc'.trans hlen.symm
    rw [BSpline.eval_eq hw', BSpline.eval_eq h1]
    dsimp only
    rw [overKnots_len hb (by positivity)]
    refine Finset.sum_congr rfl fun i _ => ?_
    congr 1
    unfold Basis.fn
    rw [show ((vehBasis d n).overKnots (1 / n)).k = fun i => (vehBasis d n).k i + 1 / n from
      funext fun i => vehBasis_over (by omega) i]
    have := scale_cox (k := (vehBasis d n).k) (f := 1) one_pos (1 / (n : ℝ)) d x d i
    simp only [mul_one] at this
    exact this.symm
  have hk1 : (vehBasis d n).k (d + 1) = 1 / n := by
    rw [hk, show min (d + 1 - d) n = 1 by omega]; norm_num
  refine ⟨hc'.trans hc.symm, fun x a b => ?_, q, h3, h4, fun x a b => ?_⟩
  · rw [htr x]
    refine h2 _ ?_ (by linarith)
    change (vehBasis d n).k (d + 1) ≤ _
    rw [hk1]; linarith
  · rw [htr x]
    exact h5 _ (by linarith) (by linarith)

/-! ## Property theorem -/

/-- **C120** For the knots of a vehicle (degree `d`, `n` intervals on `[0, 1]`) the shifted
coefficients describe, on the same knots, the trajectory as seen one interval later; the new last
interval continues the polynomial of the old last piece. -/
theorem C120_vehicle_partial (d n : ℕ) (hd : 1 ≤ d) (hn : 2 ≤ n) (hnd : d ≤ n) (c : List ℝ) (hc : c.length = n + d)
    (hno : NoTiny (vehBasis d n) (1 / n)) (c' : List ℝ) (h : shiftOver ⟨vehBasis d n, c⟩ = some c') :
    c'.length = c.length ∧
    (∀ x : ℝ, 0 ≤ x → x ≤ 1 - 1 / n →
      (BSpline.mk (vehBasis d n) c').eval x = (BSpline.mk (vehBasis d n) c).eval (x + 1 / n)) ∧
    ∃ q : ℝ[X], q.natDegree ≤ d ∧
      (∀ x : ℝ, 1 - 1 / n < x → x ≤ 1 → (BSpline.mk (vehBasis d n) c).eval x = q.eval x) ∧
      ∀ x : ℝ, 1 - 1 / n ≤ x → x ≤ 1 → (BSpline.mk (vehBasis d n) c').eval x = q.eval (x + 1 / n) :=
  shiftVehAt d n hd hn hnd c hc hno c' h

/-- The knots of the example: degree 1, two intervals. -/
theorem ex_k : (∀ i, (vehBasis 1 2).k i = if i ≤ 1 then 0 else if i = 2 then 1/2 else 1) ∧
    (∀ i, ((vehBasis 1 2).extend 1 (1/2)).k i = if i ≤ 1 then 0 else if i = 2 then 1/2 else if i = 3 then 1 else 3/2) := by
  have h1 : ∀ i, (vehBasis 1 2).k i = if i ≤ 1 then 0 else if i = 2 then 1/2 else 1 := by
    intro i
    rw [vehBasis_k (by norm_num)]
    by_cases c1 : i ≤ 1
    · rw [if_pos c1, show min (i - 1) 2 = 0 by omega]; simp
    · rw [if_neg c1]
      by_cases c2 : i = 2
      · rw [if_pos c2, c2]; norm_num
      · rw [if_neg c2, show min (i - 1) 2 = 2 by omega]; norm_num
  refine ⟨h1, fun i => ?_⟩
  rw [extend_k (vehBasis_clamped (by norm_num)), vehBasis_len, h1, h1]
  by_cases c1 : i ≤ 1
  · rw [if_pos c1, if_pos (by omega), if_pos c1]
  · rw [if_neg c1]
    by_cases c2 : i = 2
    · rw [if_pos c2, if_pos (by omega), if_neg (by omega), if_pos c2]
    · rw [if_neg c2, if_neg (by omega)]
      by_cases c3 : i = 3
      · rw [if_pos c3, if_pos (by omega), if_neg c1, if_neg c2]; norm_num
      · rw [if_neg c3, if_neg (by omega), if_neg c1, if_neg c2]; norm_num

theorem ex_solve : lastMult (vehBasis 1 2) = some 1 ∧
    (∀ i j : Fin 2, extAe (vehBasis 1 2) 1 (1/2) i j = (![![1, 0], ![-2, 2]] : Fin 2 → Fin 2 → ℝ) i j) ∧
    (∀ i j : Fin 2, extBe (vehBasis 1 2) 1 (1/2) i j = (![![0, 1], ![-2, 2]] : Fin 2 → Fin 2 → ℝ) i j) := by
  have hl := vehBasis_len 1 2
  have hd : (vehBasis 1 2).degree = 1 := rfl
  have hd' : ((vehBasis 1 2).extend 1 (1/2)).degree = 1 := rfl
  obtain ⟨k1, k2⟩ := ex_k
  have hg : evalPoint (vehBasis 1 2) 1 0 = 1 := by
    simp [evalPoint, Basis.greville, hl, hd, k1]
  refine ⟨?_, ?_, ?_⟩
  · simp [lastMult, hl, k1, List.range_succ]
  · intro i j
    fin_cases i <;> fin_cases j <;>
      norm_num [extAe, hl, hd, hd', hg, Basis.fn, cox, ind, k2, derMat]
  · intro i j
    fin_cases i <;> fin_cases j <;>
      norm_num [extBe, hl, hd, hd', hg, Basis.fn, cox, ind, k1, k2, derMat]

/-- Non-vacuity: the line through `0, 1/2, 3` shifted over its first interval. -/
example : NoTiny (vehBasis 1 2) (1 / (2 : ℕ)) ∧
    shiftOver ⟨vehBasis 1 2, [0, 1/2, 3]⟩ = some [1/2, 3, 11/2] := by
  obtain ⟨h1, h2, h3⟩ := ex_solve
  have hA : extA (vehBasis 1 2) 1 (1/2) = (!![1, 0; -2, 2] : Matrix (Fin 2) (Fin 2) ℝ) := Matrix.ext h2
  have hB : extB (vehBasis 1 2) 1 (1/2) = (!![0, 1; -2, 2] : Matrix (Fin 2) (Fin 2) ℝ) := Matrix.ext h3
  have hAi : (!![1, 0; -2, 2] : Matrix (Fin 2) (Fin 2) ℝ) * !![1, 0; 1, 1/2] = 1 := by
    ext i j; fin_cases i <;> fin_cases j <;> simp
  have hX : (!![1, 0; 1, 1/2] : Matrix (Fin 2) (Fin 2) ℝ) * !![0, 1; -2, 2] = !![0, 1; -1, 2] := by
    ext i j; fin_cases i <;> fin_cases j <;> norm_num
  have hs : npSolve (extA (vehBasis 1 2) 1 (1/2)) (extB (vehBasis 1 2) 1 (1/2))
      = some (!![0, 1; -1, 2] : Matrix (Fin 2) (Fin 2) ℝ) := by
    rw [hA, hB]; exact npSolve_eq (n := 2) hAi hX
  constructor
  · intro m X hm hX'
    rw [h1] at hm
    injection hm with hm
    subst hm
    rw [Nat.cast_ofNat, hs] at hX'
    injection hX' with hX'
    subst hX'
    have : ∀ i j : Fin 2, (![![0, 1], ![-1, 2]] : Fin 2 → Fin 2 → ℝ) i j = 0 ∨
        1 / 10 ^ 10 ≤ |(![![0, 1], ![-1, 2]] : Fin 2 → Fin 2 → ℝ) i j| := by
      intro i j
      fin_cases i <;> fin_cases j <;> norm_num
    exact this
  · have hl := vehBasis_len 1 2
    have hd : (vehBasis 1 2).degree = 1 := rfl
    have hte : (vehBasis 1 2).knots.getLastD 0 - (vehBasis 1 2).k 2 = 1/2 := by
      rw [getLastD_eq_k (vehBasis_clamped (by norm_num)), hl, ex_k.1, ex_k.1]; norm_num
    rw [shiftOver_of_solve (n := 2) (m := 1) rfl (fun i j => ([[0, 1], [-1, 2]].getD i []).getD j 0) h1
      !![1, 0; 1, 1/2]]
    · refine congrArg some ?_
      unfold dotT
      dsimp only
      rw [hl]
      simp only [List.range_succ, List.range_zero, List.nil_append, List.cons_append, List.map_cons, List.map_nil,
        List.sum_cons, List.sum_nil, overT, hl, hd, shiftAcc, shiftStep, chop, chopAt, ex_k.1]
      norm_num [Finset.sum_range_succ]
    · dsimp only
      rw [hl, hte]
      have hA' : (Matrix.of fun r q : Fin 2 => extAe (vehBasis 1 2) 1 (1/2) r.1 q.1)
          = (!![1, 0; -2, 2] : Matrix (Fin 2) (Fin 2) ℝ) := Matrix.ext h2
      exact (congrArg (· * _) hA').trans hAi
    · dsimp only
      rw [hl, hte]
      have hB' : (Matrix.of fun r q : Fin 2 => extBe (vehBasis 1 2) 1 (1/2) r.1 q.1)
          = (!![0, 1; -2, 2] : Matrix (Fin 2) (Fin 2) ℝ) := Matrix.ext h3
      refine (congrArg (_ * ·) hB').trans (hX.trans ?_)
      ext i j; fin_cases i <;> fin_cases j <;> simp

end Verif.Vehicles
