import Verif.GCode.BangBang
import Verif.GCode.Arcs
import Verif.Spline.Usable

/-! # The initial guess of arcs in a machining program (C156)

`get_init_guess_ring` (gcodeschedulerproblem.py:1010-1131). -/

set_option linter.unusedSectionVars false

namespace Verif.GCode.RingGuess

open Verif.Spline Verif.Vehicles Verif.GCode.BangBang

/-! ## Model -/

/-- `segment['shape'].direction`. -/
inductive Dir where
  | cw
  | ccw
deriving DecidableEq

open Classical in
/-- `theta0` and `theta1`, gcodeschedulerproblem.py:1083-1091. -/
noncomputable def thetas (dir : Dir) (c start finish : ℝ × ℝ) : ℝ × ℝ :=
  let t0 := arctan2 (start.2 - c.2) (start.1 - c.1)
  let t1 := arctan2 (finish.2 - c.2) (finish.1 - c.1)
  match dir with
  | .cw => if t0 < t1 then (t0 + 2 * Real.pi, t1) else (t0, t1)
  | .ccw => if t1 < t0 then (t0, t1 + 2 * Real.pi) else (t0, t1)

/-- `x0` and `y0`, where the solver starts, gcodeschedulerproblem.py:1092-1097, for `N` coefficients per coordinate. -/
noncomputable def solverStart (dir : Dir) (c start finish : ℝ × ℝ) (N : ℕ) : List (ℝ × ℝ) :=
  let th := thetas dir c start finish
  let r := Real.sqrt ((c.1 - start.1) ^ 2 + (c.2 - start.2) ^ 2)
  (BangBang.linspace th.1 th.2 N).map fun a => (r * Real.cos a + c.1, r * Real.sin a + c.2)

/-- `(s_x-segment['position'][0])**2 + (s_y-segment['position'][1])**2`, gcodeschedulerproblem.py:1028-1029. -/
def distSq (c : ℝ × ℝ) (x y : BSpline ℝ) : Expr ℝ := ((Expr.spl x).sub (.num c.1)).sq.add ((Expr.spl y).sub (.num c.2)).sq

/-- The constraints of the problem that is solved, gcodeschedulerproblem.py:1025-1045, with their bounds, lines 1065-1066. -/
structure Feasible (c start finish : ℝ × ℝ) (ri ro : ℝ) (x y : BSpline ℝ) : Prop where
  inner : Expr.Imposed ((distSq c x y).neg.add (.num (ri ^ 2))) 0
  outer : Expr.Imposed ((distSq c x y).sub (.num (ro ^ 2))) 0
  p0 : x.eval 0 - start.1 = 0 ∧ y.eval 0 - start.2 = 0
  p1 : x.eval 1 - finish.1 = 0 ∧ y.eval 1 - finish.2 = 0
  v0 : (x.derivative 1).eval 0 = 0 ∧ (y.derivative 1).eval 0 = 0
  v1 : (x.derivative 1).eval 1 = 0 ∧ (y.derivative 1).eval 1 = 0
  a0 : (x.derivative 2).eval 0 = 0 ∧ (y.derivative 2).eval 0 = 0
  a1 : (x.derivative 2).eval 1 = 0 ∧ (y.derivative 2).eval 1 = 0

/-- `get_init_guess_ring` when the solver answers with the coefficients `cx` and `cy`, gcodeschedulerproblem.py:1108-1131. -/
noncomputable def ringGuess (B : Basis ℝ) (L : Lim) (cx cy : List ℝ) : Guess :=
  let z : BSpline ℝ := ⟨B, cx.map (0 * ·)⟩
  ⟨⟨B, cx⟩, ⟨B, cy⟩, z, motionTime L ⟨B, cx⟩ ⟨B, cy⟩ z⟩

/-- `get_init_guess_new_segment` for a ring, gcodeschedulerproblem.py:829-873. -/
noncomputable def newRing (B : Basis ℝ) (L : Lim) (cx cy : List ℝ) : Except Err Guess := tested L (ringGuess B L cx cy)

/-! ## Specification -/

/-- `p` turned around `c` by the angle `φ`, counter-clockwise. -/
noncomputable def Spec.turn (c p : ℝ × ℝ) (φ : ℝ) : ℝ × ℝ :=
  (c.1 + (p.1 - c.1) * Real.cos φ - (p.2 - c.2) * Real.sin φ, c.2 + (p.1 - c.1) * Real.sin φ + (p.2 - c.2) * Real.cos φ)

/-- The direction as a sign: `1` is counter-clockwise. -/
def Spec.sign : Dir → ℝ
  | .cw => -1
  | .ccw => 1

/-- A move from `a` to `b` in the time `T`, from standstill to standstill, at distances from `c` between `ri` and `ro`. -/
structure Spec.RingMove (c a b : ℝ × ℝ) (ri ro T : ℝ) (p vel acc : ℝ → ℝ × ℝ) : Prop where
  start : p 0 = a ∧ vel 0 = 0 ∧ acc 0 = 0
  finish : p T = b ∧ vel T = 0 ∧ acc T = 0
  velocity : ∀ t ∈ Set.Icc 0 T, HasDerivWithinAt p (vel t) (Set.Icc 0 T) t
  acceleration : ∀ t ∈ Set.Icc 0 T, HasDerivWithinAt vel (acc t) (Set.Icc 0 T) t
  ring : ∀ t ∈ Set.Icc 0 T, ri ≤ Real.sqrt (((p t).1 - c.1) ^ 2 + ((p t).2 - c.2) ^ 2) ∧
    Real.sqrt (((p t).1 - c.1) ^ 2 + ((p t).2 - c.2) ^ 2) ≤ ro

/-! ## Lemmas -/

theorem deriv_veh {d n : ℕ} (hn : 1 ≤ n) {c : List ℝ} (hc : c.length = n + (d + 1)) :
    ∃ c' : List ℝ, c'.length = n + d ∧ (⟨vehBasis (d + 1) n, c⟩ : BSpline ℝ).derivative 1 = ⟨vehBasis d n, c'⟩ ∧
      ∀ j, j < n + d → ∃ r : ℝ, r ≠ 0 ∧ c'.getD j 0 = r * (c.getD (j + 1) 0 - c.getD j 0) := by
  have cl := vehBasis_clamped (d := d + 1) hn
  have wf : (⟨vehBasis (d + 1) n, c⟩ : BSpline ℝ).WF := by unfold BSpline.WF; simp only; rw [vehBasis_len, hc]
  obtain ⟨-, -, h3, h4, -, h6⟩ := derivative_one_spec (s := ⟨vehBasis (d + 1) n, c⟩) cl wf (by show 1 ≤ d + 1; omega)
  have hb : ((⟨vehBasis (d + 1) n, c⟩ : BSpline ℝ).derivative 1).basis = vehBasis d n := by
    have e := (ri_derivative (d := d) hn (c := List.replicate (n + d) 0) (by simp)).2
    have e2 := ri_basis d n hn (List.replicate (n + d) 0)
    have : ((runningIntegral ⟨vehBasis d n, List.replicate (n + d) 0⟩).derivative 1).basis = vehBasis d n := by rw [e]
    unfold BSpline.derivative at this ⊢
    rw [if_neg one_ne_zero] at this ⊢
    simp only [e2] at this
    exact this
  refine ⟨((⟨vehBasis (d + 1) n, c⟩ : BSpline ℝ).derivative 1).coeffs, ?_, ?_, fun j hj => ?_⟩
  · have : _ = _ := h4
    rw [hb, vehBasis_len] at this
    exact this
  · rw [← hb]
  · rw [h6 j (by simp only; rw [vehBasis_len]; omega)]
    simp only
    have hd : (vehBasis (d + 1) n).degree = d + 1 := rfl
    rw [hd]
    have hn0 : (0 : ℝ) < n := by exact_mod_cast hn
    have hk : (vehBasis (d + 1) n).k (j + (d + 1) + 1) - (vehBasis (d + 1) n).k (j + 1) ≠ 0 := by
      rw [vehBasis_k hn, vehBasis_k hn, ← sub_div]
      refine div_ne_zero (sub_ne_zero.2 ?_) hn0.ne'
      intro e
      have : min (j + (d + 1) + 1 - (d + 1)) n = min (j + 1 - (d + 1)) n := by exact_mod_cast e
      omega
    refine ⟨((d + 1 : ℕ) : ℝ) / ((vehBasis (d + 1) n).k (j + (d + 1) + 1) - (vehBasis (d + 1) n).k (j + 1)),
      div_ne_zero (by positivity) hk, by ring⟩

theorem getD_const {n : ℕ} {c : List ℝ} (h : ∀ j, j < n → c.getD (j + 1) 0 = c.getD j 0) : ∀ j, j ≤ n → c.getD j 0 = c.getD 0 0 := by
  intro j
  induction j with
  | zero => intro _; rfl
  | succ j ih => intro hj; rw [h j (by omega), ih (by omega)]

theorem veh_first {d n : ℕ} (hn : 1 ≤ n) {c : List ℝ} (hc : c.length = n + d) :
    (⟨vehBasis d n, c⟩ : BSpline ℝ).eval 0 = c.getD 0 0 ∧ (⟨vehBasis d n, c⟩ : BSpline ℝ).eval 1 = c.getD (n + d - 1) 0 := by
  have cl := vehBasis_clamped (d := d) hn
  obtain ⟨e0, e1⟩ := veh_ends d n hn
  have hn0 : (0 : ℝ) < n := by exact_mod_cast hn
  have := C03_endpoints (⟨vehBasis d n, c⟩ : BSpline ℝ) cl (by unfold BSpline.WF; simp only; rw [vehBasis_len, hc]) (by
    simp only
    rw [vehBasis_len, vehBasis_k hn, vehBasis_k hn]
    gcongr
    omega)
  simp only [e0, e1] at this
  rw [this.1, this.2]
  constructor
  · rw [List.headD_eq_head?_getD, List.head?_eq_getElem?, List.getD_eq_getElem?_getD]
  · rw [List.getLastD_eq_getLast?, List.getLast?_eq_getElem?, hc, List.getD_eq_getElem?_getD]

/-- When the third derivative vanishes on the grid and the spline starts with zero velocity and acceleration, it stands still. -/
theorem still {n : ℕ} (hn : 1 ≤ n) (h98 : n ≤ 98) {c : List ℝ} (hc : c.length = n + 3)
    (hJ : ∀ i : ℕ, i < 100 → ((⟨vehBasis 3 n, c⟩ : BSpline ℝ).derivative 3).eval ((i : ℝ) / 99) = 0)
    (hv : ((⟨vehBasis 3 n, c⟩ : BSpline ℝ).derivative 1).eval 0 = 0)
    (ha : ((⟨vehBasis 3 n, c⟩ : BSpline ℝ).derivative 2).eval 0 = 0) :
    (⟨vehBasis 3 n, c⟩ : BSpline ℝ).eval 1 = (⟨vehBasis 3 n, c⟩ : BSpline ℝ).eval 0 := by
  obtain ⟨c1, l1, e1, r1⟩ := deriv_veh (d := 2) hn hc
  obtain ⟨c2, l2, e2, r2⟩ := deriv_veh (d := 1) hn l1
  obtain ⟨c3, l3, e3, r3⟩ := deriv_veh (d := 0) hn l2
  rw [derivative_succ, e1, e2] at ha
  rw [e1] at hv
  rw [derivative_succ _ 2, derivative_succ _ 1, e1, e2, e3] at hJ
  rw [(veh_first hn l2).1] at ha
  rw [(veh_first hn l1).1] at hv
  have hn0 : (0 : ℝ) < n := by exact_mod_cast hn
  have z3 : ∀ j, j < n → c3.getD j 0 = 0 := by
    intro j hj
    set m := (99 * (j + 1) - 1) / n with hm
    have m1 : m * n ≤ 99 * (j + 1) - 1 := Nat.div_mul_le_self _ _
    have m2 : 99 * (j + 1) - 1 < (m + 1) * n := by
      rw [hm]; have := Nat.lt_div_mul_add (a := 99 * (j + 1) - 1) (b := n) (by omega); rw [add_mul, one_mul]; omega
    have m3 : 99 * j < m * n := by rw [add_mul, one_mul] at m2; omega
    have m4 : m * n < 99 * (j + 1) := by omega
    have m5 : m < 100 := by
      by_contra h
      have : 100 * n ≤ m * n := Nat.mul_le_mul_right n (by omega)
      omega
    have x0 : (0 : ℝ) ≤ (m : ℝ) / 99 := by positivity
    have x1 : (m : ℝ) / 99 ≤ 1 := by rw [div_le_one (by norm_num)]; exact_mod_cast (by omega : m ≤ 99)
    have y0 : (j : ℝ) < (m : ℝ) / 99 * n := by
      have : (99 * j : ℝ) < m * n := by exact_mod_cast m3
      linarith
    have y1 : (m : ℝ) / 99 * n < j + 1 := by
      have : (m * n : ℝ) < 99 * (j + 1) := by exact_mod_cast m4
      linarith
    have key : ∀ i, i < n + 0 → (((m : ℝ) / 99 * n < ((i - 0 : ℕ) : ℝ) ∨ ((i + 1 : ℕ) : ℝ) < (m : ℝ) / 99 * n) ∨ i = j) := by
      intro i hi
      rcases Nat.lt_trichotomy i j with h | h | h
      · left; right
        exact lt_of_le_of_lt (by exact_mod_cast h) y0
      · right; exact h
      · left; left
        rw [Nat.sub_zero]
        have : ((j + 1 : ℕ) : ℝ) ≤ i := by exact_mod_cast h
        push_cast at this
        linarith
    have hz := hJ m m5
    have a1 := veh_ge hn l3 x0 x1 (lb := c3.getD j 0) (fun i hi => (key i hi).imp id fun e => by rw [e])
    have a2 := veh_le hn l3 x0 x1 (ub := c3.getD j 0) (fun i hi => (key i hi).imp id fun e => by rw [e])
    rw [hz] at a1 a2
    linarith
  have up : ∀ {k : ℕ} {p q : List ℝ}, (∀ j, j < k → ∃ r : ℝ, r ≠ 0 ∧ q.getD j 0 = r * (p.getD (j + 1) 0 - p.getD j 0)) →
      (∀ j, j < k → q.getD j 0 = 0) → ∀ j, j ≤ k → p.getD j 0 = p.getD 0 0 := fun hr hz => getD_const fun j hj => by
    obtain ⟨r, hr0, e⟩ := hr j hj
    rw [hz j hj] at e
    have := (mul_eq_zero.1 e.symm).resolve_left hr0
    linarith
  have z2 : ∀ j, j < n + 1 → c2.getD j 0 = 0 := fun j hj => by rw [up r3 z3 j (by omega), ha]
  have z1 : ∀ j, j < n + 2 → c1.getD j 0 = 0 := fun j hj => by rw [up r2 z2 j (by omega), hv]
  rw [(veh_first hn hc).1, (veh_first hn hc).2, up r1 z1 (n + 3 - 1) (by omega)]

theorem within_Icc {s : BSpline ℝ} {m : ℕ} (h : Traj s (m + 1)) {u : ℝ} (h0 : 0 ≤ u) (h1 : u ≤ 1) :
    HasDerivWithinAt s.eval ((s.derivative 1).eval u) (Set.Icc 0 1) u := by
  have k := C04_at_knots s _ h.clamped h.wf (h.defined 1 (by omega))
  rw [h.first, h.last] at k
  rcases h0.eq_or_lt with rfl | p0
  · exact k.2.mono fun x hx => hx.1
  · rcases h1.eq_or_lt with rfl | p1
    · exact (k.1 1 p0 le_rfl).mono fun x hx => hx.2
    · exact (h.hasDerivAt p0 p1).hasDerivWithinAt

theorem phys_within {s : BSpline ℝ} {m : ℕ} (h : Traj s (m + 1)) {T t : ℝ} (hT : 0 < T) (ht : t ∈ Set.Icc 0 T) :
    HasDerivWithinAt (fun t => s.eval (t / T)) ((s.derivative 1).eval (t / T) / T) (Set.Icc 0 T) t := by
  have m1 : ∀ u ∈ Set.Icc 0 T, u / T ∈ Set.Icc (0 : ℝ) 1 := fun u hu => ⟨div_nonneg hu.1 hT.le, (div_le_one hT).2 hu.2⟩
  have := (within_Icc h (m1 t ht).1 (m1 t ht).2).comp t ((hasDerivAt_id t).div_const T).hasDerivWithinAt m1
  simpa [Function.comp_def, div_eq_mul_inv] using this

theorem tested_of {L : Lim} {g : Guess} (h1 : peak (fun τ => (g.x.derivative 1).eval τ / g.T) ≤ L.vx)
    (h2 : peak (fun τ => (g.y.derivative 1).eval τ / g.T) ≤ L.vy) (h3 : peak (fun τ => (g.x.derivative 2).eval τ / g.T ^ 2) ≤ L.ax)
    (h4 : peak (fun τ => (g.y.derivative 2).eval τ / g.T ^ 2) ≤ L.ay) (h5 : peak (fun τ => (g.x.derivative 3).eval τ / g.T ^ 3) ≤ L.jx)
    (h6 : peak (fun τ => (g.y.derivative 3).eval τ / g.T ^ 3) ≤ L.jy) : tested L g = .ok g := by
  unfold tested
  rw [if_neg (not_lt.2 h1), if_neg (not_lt.2 h2), if_neg (not_lt.2 h3), if_neg (not_lt.2 h4), if_neg (not_lt.2 h5), if_neg (not_lt.2 h6)]

theorem peak_le_grid {f : ℝ → ℝ} {m : ℝ} (h : ∀ i : ℕ, i < 100 → f ((i : ℝ) / 99) ≤ m) : peak f ≤ m := by
  unfold peak
  have : ∀ (l : List ℝ) (b : ℝ), b ≤ m → (∀ v ∈ l, v ≤ m) → l.foldr max b ≤ m := by
    intro l b hb hl
    induction l with
    | nil => exact hb
    | cons a l ih => exact max_le (hl a (by simp)) (ih fun v hv => hl v (List.mem_cons_of_mem _ hv))
  refine this _ _ (by have := h 0 (by norm_num); simpa using this) fun v hv => ?_
  obtain ⟨u, hu, rfl⟩ := List.mem_map.1 hv
  unfold grid BangBang.linspace at hu
  obtain ⟨i, hi, rfl⟩ := List.mem_map.1 hu
  have := h i (List.mem_range.1 hi)
  convert this using 2
  norm_num

theorem thetas_spec (dir : Dir) (c start finish : ℝ × ℝ) :
    ∃ φ, 0 ≤ φ ∧ φ < 2 * Real.pi ∧ (thetas dir c start finish).2 = (thetas dir c start finish).1 + Spec.sign dir * φ ∧
      (φ = 0 ↔ arctan2 (start.2 - c.2) (start.1 - c.1) = arctan2 (finish.2 - c.2) (finish.1 - c.1)) ∧
      ∃ k l : ℤ, (thetas dir c start finish).1 = arctan2 (start.2 - c.2) (start.1 - c.1) + k * (2 * Real.pi) ∧
        (thetas dir c start finish).2 = arctan2 (finish.2 - c.2) (finish.1 - c.1) + l * (2 * Real.pi) := by
  have b0 := arctan2_bounds (start.2 - c.2) (start.1 - c.1)
  have b1 := arctan2_bounds (finish.2 - c.2) (finish.1 - c.1)
  have hpi := Real.pi_pos
  unfold thetas
  simp only
  set t0 := arctan2 (start.2 - c.2) (start.1 - c.1)
  set t1 := arctan2 (finish.2 - c.2) (finish.1 - c.1)
  cases dir
  · simp only [Spec.sign]
    split_ifs with h
    · refine ⟨t0 + 2 * Real.pi - t1, by linarith, by linarith, by ring, ⟨fun e => by linarith, fun e => by linarith⟩, 1, 0, by simp, by simp⟩
    · push Not at h
      refine ⟨t0 - t1, by linarith, by linarith, by ring, ⟨fun e => by linarith, fun e => by linarith⟩, 0, 0, by simp, by simp⟩
  · simp only [Spec.sign]
    split_ifs with h
    · refine ⟨t1 + 2 * Real.pi - t0, by linarith, by linarith, by ring, ⟨fun e => by linarith, fun e => by linarith⟩, 0, 1, by simp, by simp⟩
    · push Not at h
      refine ⟨t1 - t0, by linarith, by linarith, by ring, ⟨fun e => by linarith, fun e => by linarith⟩, 0, 0, by simp, by simp⟩

theorem solverStart_get (dir : Dir) (c start finish : ℝ × ℝ) {N i : ℕ} (hi : i < N) :
    (solverStart dir c start finish N)[i]? = some
      (Spec.turn c start (((thetas dir c start finish).2 - (thetas dir c start finish).1) * ((i : ℝ) / ((N - 1 : ℕ) : ℝ)))) := by
  obtain ⟨-, -, -, -, -, k, -, hk, -⟩ := thetas_spec dir c start finish
  set θ0 := (thetas dir c start finish).1
  set θ1 := (thetas dir c start finish).2
  unfold solverStart
  simp only
  rw [List.getElem?_map]
  unfold BangBang.linspace
  rw [List.getElem?_map, List.getElem?_range hi, Option.map_some, Option.map_some]
  have pol := polar (start.1 - c.1) (start.2 - c.2) (Real.sqrt ((c.1 - start.1) ^ 2 + (c.2 - start.2) ^ 2))
    (by rw [Real.sq_sqrt (by positivity)]; ring) (Real.sqrt_nonneg _)
  set r := Real.sqrt ((c.1 - start.1) ^ 2 + (c.2 - start.2) ^ 2)
  have hc : r * Real.cos θ0 = start.1 - c.1 := by rw [hk, Real.cos_add_int_mul_two_pi]; exact pol.1
  have hs : r * Real.sin θ0 = start.2 - c.2 := by rw [hk, Real.sin_add_int_mul_two_pi]; exact pol.2
  simp only [Spec.turn, Real.cos_add, Real.sin_add, ← hc, ← hs]
  congr 2 <;> ring

/-! ## Properties -/

/-- **C156** (where the solver starts) The coefficients that the solver starts with turn around the centre in equal steps, in the programmed
direction, from the start of the arc to its end, by less than one turn and, if start and end are different, by more than nothing. -/
theorem C156_turns (dir : Dir) (c start finish : ℝ × ℝ) (N : ℕ) (hN : 2 ≤ N)
    (hr : (finish.1 - c.1) ^ 2 + (finish.2 - c.2) ^ 2 = (start.1 - c.1) ^ 2 + (start.2 - c.2) ^ 2) :
    (solverStart dir c start finish N).length = N ∧
    ∃ φ, 0 ≤ φ ∧ φ < 2 * Real.pi ∧ (start ≠ finish → 0 < φ) ∧ Spec.turn c start (Spec.sign dir * φ) = finish ∧
      ∀ i : ℕ, i < N → (solverStart dir c start finish N)[i]? = some (Spec.turn c start (Spec.sign dir * φ * ((i : ℝ) / (N - 1)))) := by
  refine ⟨by simp [solverStart, BangBang.linspace], ?_⟩
  obtain ⟨φ, h0, h1, h2, h3, k, l, hk, hl⟩ := thetas_spec dir c start finish
  have hφ : (thetas dir c start finish).2 - (thetas dir c start finish).1 = Spec.sign dir * φ := by rw [h2]; ring
  have q0 := polar (start.1 - c.1) (start.2 - c.2) (Real.sqrt ((start.1 - c.1) ^ 2 + (start.2 - c.2) ^ 2))
    (by rw [Real.sq_sqrt (by positivity)]) (Real.sqrt_nonneg _)
  have q1 := polar (finish.1 - c.1) (finish.2 - c.2) (Real.sqrt ((start.1 - c.1) ^ 2 + (start.2 - c.2) ^ 2))
    (by rw [Real.sq_sqrt (by positivity), hr]) (Real.sqrt_nonneg _)
  refine ⟨φ, h0, h1, fun hne => ?_, ?_, fun i hi => ?_⟩
  · refine lt_of_le_of_ne h0 fun e => hne ?_
    have e' := h3.1 e.symm
    rw [e'] at q0
    have g1 : start.1 - c.1 = finish.1 - c.1 := by rw [← q0.1, q1.1]
    have g2 : start.2 - c.2 = finish.2 - c.2 := by rw [← q0.2, q1.2]
    exact Prod.ext (by linarith) (by linarith)
  · rw [← hφ]
    unfold Spec.turn
    rw [Real.cos_sub, Real.sin_sub, hk, hl]
    simp only [Real.cos_add_int_mul_two_pi, Real.sin_add_int_mul_two_pi]
    set r := Real.sqrt ((start.1 - c.1) ^ 2 + (start.2 - c.2) ^ 2)
    set a := arctan2 (start.2 - c.2) (start.1 - c.1)
    set b := arctan2 (finish.2 - c.2) (finish.1 - c.1)
    have ha := Real.sin_sq_add_cos_sq a
    refine Prod.ext ?_ ?_
    · simp only
      rw [← q0.1, ← q0.2]
      linear_combination q1.1 + r * Real.cos b * ha
    · simp only
      rw [← q0.1, ← q0.2]
      linear_combination q1.2 + r * Real.sin b * ha
  · rw [solverStart_get dir c start finish hi, hφ, Nat.cast_sub (by omega), Nat.cast_one]

-- a quarter of a turn, and three quarters in the other direction
example : (solverStart .ccw (0, 0) (1, 0) (0, 1) 13).length = 13 :=
  (C156_turns .ccw (0, 0) (1, 0) (0, 1) 13 (by norm_num) (by norm_num)).1

/-- **C156** If the answer of the solver satisfies the constraints it was given, the guess for an arc stays in the ring at all times, goes from
its start to its end and from standstill to standstill, takes a positive time, and passes the tests; at the hundred tested instants each
axis respects the limits on velocity, acceleration and jerk, if the limits along y are those along x or wider. -/
theorem C156_partial (n : ℕ) (hn : 1 ≤ n) (h98 : n ≤ 98) (L : Lim) (hj : 0 < L.jx) (ha : 0 < L.ax) (hv : 0 < L.vx) (hjy : L.jx ≤ L.jy)
    (hay : L.ax ≤ L.ay) (hvy : L.vx ≤ L.vy) (c start finish : ℝ × ℝ) (ri ro : ℝ) (hro : 0 ≤ ro) (hne : start ≠ finish)
    (cx cy : List ℝ) (hcx : cx.length = n + 3) (hcy : cy.length = n + 3)
    (hf : Feasible c start finish ri ro ⟨vehBasis 3 n, cx⟩ ⟨vehBasis 3 n, cy⟩) :
    ∃ g, newRing (vehBasis 3 n) L cx cy = .ok g ∧ 0 < g.T ∧
      ∃ vel acc jerk : ℝ → ℝ × ℝ, Spec.RingMove c start finish ri ro g.T (fun t => (g.x.eval (t / g.T), g.y.eval (t / g.T))) vel acc ∧
        (∀ t ∈ Set.Ioc 0 g.T, HasDerivWithinAt acc (jerk t) (Set.Icc 0 t) t) ∧
        ∀ i : ℕ, i < 100 → |(vel (g.T * i / 99)).1| ≤ L.vx ∧ |(vel (g.T * i / 99)).2| ≤ L.vy ∧
          |(acc (g.T * i / 99)).1| ≤ L.ax ∧ |(acc (g.T * i / 99)).2| ≤ L.ay ∧
          |(jerk (g.T * i / 99)).1| ≤ L.jx ∧ |(jerk (g.T * i / 99)).2| ≤ L.jy := by
  set X : BSpline ℝ := ⟨vehBasis 3 n, cx⟩ with hX
  set Y : BSpline ℝ := ⟨vehBasis 3 n, cy⟩ with hY
  set z : BSpline ℝ := ⟨vehBasis 3 n, cx.map (0 * ·)⟩ with hz
  have trX : Traj X 2 := vehBasis_traj (d := 3) (by omega) hn hcx
  have trY : Traj Y 2 := vehBasis_traj (d := 3) (by omega) hn hcy
  obtain ⟨t0, t1, t2, t3⟩ := time_bounds L X Y z hj ha hv
  set T := motionTime L X Y z with hTd
  have topx : ∀ o (i : ℕ), i < 100 → |(X.derivative o).eval ((i : ℝ) / 99)| ≤ top X Y o := fun o i hi =>
    (le_peak (fun τ => |(X.derivative o).eval τ|) (mem_grid hi)).trans (le_max_left _ _)
  have topy : ∀ o (i : ℕ), i < 100 → |(Y.derivative o).eval ((i : ℝ) / 99)| ≤ top X Y o := fun o i hi =>
    (le_peak (fun τ => |(Y.derivative o).eval τ|) (mem_grid hi)).trans (le_max_right _ _)
  have n1 := top_nonneg X Y 1
  have n2 := top_nonneg X Y 2
  have n3 := top_nonneg X Y 3
  have hT : 0 < T := by
    refine lt_of_le_of_ne t0 fun e => hne ?_
    rw [← e] at t3
    norm_num at t3
    have hx := still hn h98 hcx (fun i hi => abs_eq_zero.1 (le_antisymm ((topx 3 i hi).trans (by linarith)) (abs_nonneg _))) hf.v0.1 hf.a0.1
    have hy := still hn h98 hcy (fun i hi => abs_eq_zero.1 (le_antisymm ((topy 3 i hi).trans (by linarith)) (abs_nonneg _))) hf.v0.2 hf.a0.2
    have := hf.p0
    have := hf.p1
    exact Prod.ext (by linarith) (by linarith)
  have b1 : top X Y 1 / T ≤ L.vx := by rw [div_le_iff₀ hT]; linarith
  have b2 : top X Y 2 / T ^ 2 ≤ L.ax := by rw [div_le_iff₀ (by positivity)]; linarith
  have b3 : top X Y 3 / T ^ 3 ≤ L.jx := by rw [div_le_iff₀ (by positivity)]; linarith
  have lim : ∀ {o : ℕ} {s : BSpline ℝ} {b : ℝ}, (∀ i : ℕ, i < 100 → |(s.derivative o).eval ((i : ℝ) / 99)| ≤ top X Y o) →
      top X Y o / T ^ o ≤ b → ∀ i : ℕ, i < 100 → |(s.derivative o).eval ((i : ℝ) / 99) / T ^ o| ≤ b := fun {o s b} h hb i hi => by
    rw [abs_div, abs_of_pos (pow_pos hT o)]
    exact (div_le_div_of_nonneg_right (h i hi) (pow_nonneg hT.le o)).trans hb
  have b1' : top X Y 1 / T ^ 1 ≤ L.vx := by rw [pow_one]; exact b1
  have gx1 := lim (topx 1) b1'
  have gy1 := lim (topy 1) (b1'.trans hvy)
  have gx2 := lim (topx 2) b2
  have gy2 := lim (topy 2) (b2.trans hay)
  have gx3 := lim (topx 3) b3
  have gy3 := lim (topy 3) (b3.trans hjy)
  simp only [pow_one] at gx1 gy1
  refine ⟨⟨X, Y, z, T⟩, ?_, hT, ?_⟩
  · show tested L ⟨X, Y, z, T⟩ = _
    exact tested_of (peak_le_grid fun i hi => (le_abs_self _).trans (gx1 i hi)) (peak_le_grid fun i hi => (le_abs_self _).trans (gy1 i hi))
      (peak_le_grid fun i hi => (le_abs_self _).trans (gx2 i hi)) (peak_le_grid fun i hi => (le_abs_self _).trans (gy2 i hi))
      (peak_le_grid fun i hi => (le_abs_self _).trans (gx3 i hi)) (peak_le_grid fun i hi => (le_abs_self _).trans (gy3 i hi))
  · simp only
    have on : ∀ {s : BSpline ℝ}, Traj s 2 → s.basis.Clamped ∧ s.WF ∧ s.basis.knots.headD 0 = 0 ∧ s.basis.knots.getLastD 0 = 1 := fun h =>
      ⟨h.clamped, h.wf, h.first, h.last⟩
    have onX := on trX
    have onY := on trY
    have d2 : ∀ {s : BSpline ℝ} {t : ℝ}, Traj s 2 → t ∈ Set.Icc 0 T →
        HasDerivWithinAt (fun t => (s.derivative 1).eval (t / T) / T) ((s.derivative 2).eval (t / T) / T ^ 2) (Set.Icc 0 T) t := by
      intro s t h ht
      have := (phys_within (Traj.iterate (n := 1) (m := 1) h) hT ht).div_const T
      rw [← derivative_succ] at this
      refine this.congr_deriv ?_
      rw [div_div, ← sq]
    have d3 : ∀ {s : BSpline ℝ} {t : ℝ}, Traj s 2 → t ∈ Set.Ioc 0 T → 3 ≤ s.basis.degree →
        HasDerivWithinAt (fun t => (s.derivative 2).eval (t / T) / T ^ 2) ((s.derivative 3).eval (t / T) / T ^ 3) (Set.Icc 0 t) t := by
      intro s t h ht hd
      have h2 := Traj.iterate (n := 2) (m := 0) h
      obtain ⟨g1, g2, g3, g4, g5⟩ := clamped_derivative h.clamped h.wf 2 (by omega)
      have k := hasDerivWithinAt_left h2.clamped h2.wf (x := t / T) (by omega) (by
        rw [← headD_eq_k h2.clamped, h2.first]; exact div_pos ht.1 hT) (by
        rw [← getLastD_eq_k h2.clamped, h2.last]; exact (div_le_one hT).2 ht.2)
      have := (k.comp (s := Set.Icc 0 t) t ((hasDerivAt_id t).div_const T).hasDerivWithinAt fun u hu => by
        simp only [id]; exact (div_le_div_iff_of_pos_right hT).2 hu.2).div_const (T ^ 2)
      rw [← derivative_succ] at this
      refine (this.congr (fun u hu => by simp) (by simp)).congr_deriv ?_
      field_simp
    refine ⟨fun t => ((X.derivative 1).eval (t / T) / T, (Y.derivative 1).eval (t / T) / T),
      fun t => ((X.derivative 2).eval (t / T) / T ^ 2, (Y.derivative 2).eval (t / T) / T ^ 2),
      fun t => ((X.derivative 3).eval (t / T) / T ^ 3, (Y.derivative 3).eval (t / T) / T ^ 3), ⟨?_, ?_, ?_, ?_, ?_⟩, ?_, ?_⟩
    · have := hf.p0
      simp only [zero_div, hf.v0.1, hf.v0.2, hf.a0.1, hf.a0.2, Prod.mk_zero_zero, and_true]
      exact Prod.ext (by simp only; linarith) (by simp only; linarith)
    · have := hf.p1
      simp only [div_self hT.ne', zero_div, hf.v1.1, hf.v1.2, hf.a1.1, hf.a1.2, Prod.mk_zero_zero, and_true]
      exact Prod.ext (by simp only; linarith) (by simp only; linarith)
    · intro t ht
      exact (phys_within (m := 1) trX hT ht).prodMk (phys_within (m := 1) trY hT ht)
    · intro t ht
      exact (d2 trX ht).prodMk (d2 trY ht)
    · intro t ht
      have u0 : 0 ≤ t / T := div_nonneg ht.1 hT.le
      have u1 : t / T ≤ 1 := (div_le_one hT).2 ht.2
      have i1 := C53_imposed (lo := 0) (hi := 1) ((distSq c X Y).neg.add (.num (ri ^ 2))) ⟨⟨⟨⟨onX, trivial⟩, onX, trivial⟩, ⟨onY, trivial⟩, onY, trivial⟩, trivial⟩
        (Or.inl (Or.inl (Or.inl (Or.inl trivial)))) 0 hf.inner (t / T) u0 u1
      have i2 := C53_imposed (lo := 0) (hi := 1) ((distSq c X Y).sub (.num (ro ^ 2))) ⟨⟨⟨⟨onX, trivial⟩, onX, trivial⟩, ⟨onY, trivial⟩, onY, trivial⟩, trivial⟩
        (Or.inl (Or.inl (Or.inl (Or.inl trivial)))) 0 hf.outer (t / T) u0 u1
      simp only [distSq, Expr.sub, Expr.sq, Expr.val] at i1 i2
      simp only
      constructor
      · exact Real.le_sqrt_of_sq_le (by nlinarith)
      · exact (Real.sqrt_le_left hro).2 (by nlinarith)
    · intro t ht
      exact (d3 trX ht (le_refl 3)).prodMk (d3 trY ht (le_refl 3))
    · intro i hi
      have e : T * i / 99 / T = (i : ℝ) / 99 := by field_simp
      simp only [e]
      exact ⟨gx1 i hi, gy1 i hi, gx2 i hi, gy2 i hi, gx3 i hi, gy3 i hi⟩

/-- Coefficients of the guess of the example: from `-1` to `1`. -/
def exRow : List ℝ := [-1, -1, -1, 1, 1, 1]

/-- A guess for an arc from `(0, -1)` to `(0, 1)`, around a centre on the line `y = 0`: the chord. -/
theorem feasible_chord : ∃ M ri ro : ℝ, 0 < M ∧ 0 < ri ∧ ri < ro ∧
    Feasible (-M, 0) (0, -1) (0, 1) ri ro ⟨vehBasis 3 3, List.replicate 6 0⟩ ⟨vehBasis 3 3, exRow⟩ := by
  set B := vehBasis 3 3 with hB
  have hBu : B = uni 3 1 3 := vehBasis_uni (by norm_num)
  have e2 : B.mul B = uni 6 4 3 := by rw [hBu]; exact uni_combine (d := 6) le_rfl le_rfl (by norm_num) (by norm_num) (by norm_num)
  have e3 : (B.mul B).add (B.mul B) = uni 6 4 3 := by
    rw [e2]; exact uni_combine (d := 6) (by norm_num) (by norm_num) (by norm_num) (by norm_num) (by norm_num)
  have cl : (uni 6 4 3 : Basis ℝ).Clamped := uni_clamped (by norm_num) (by norm_num)
  have res : (uni 6 4 3 : Basis ℝ).Resolved := uni_resolved (by norm_num) (by norm_num) (by norm_num) (by norm_num) (by norm_num) (by norm_num)
  obtain ⟨T, hT⟩ := (C136_solve (e2 ▸ cl) (pairFn B B) (B.pairs B).length).2 (e2 ▸ res)
  obtain ⟨T1, hT1⟩ := (C136_solve (e3 ▸ cl) (B.mul B).fn (B.mul B).len).2 (e3 ▸ res)
  set X : BSpline ℝ := ⟨B, List.replicate 6 0⟩ with hX
  set Y : BSpline ℝ := ⟨B, exRow⟩ with hY
  have trX : Traj X 2 := vehBasis_traj (d := 3) (by omega) (by norm_num) (by simp)
  have trY : Traj Y 2 := vehBasis_traj (d := 3) (by omega) (by norm_num) (by simp [exRow])
  set run : ℝ → BSpline ℝ := fun M => ((X.addNum (-(-M))).mulT (X.addNum (-(-M))) 0 T).addT ((Y.addNum (-0)).mulT (Y.addNum (-0)) 0 T) 0 T1 T1 with hrun
  have runs : ∀ M, (distSq (-M, 0) X Y).Runs (.spl (run M)) := fun M =>
    .addSS (.mulSS (.addSN (.spl X) (.negNum (.num _))) (.addSN (.spl X) (.negNum (.num _))) hT)
      (.mulSS (.addSN (.spl Y) (.negNum (.num _))) (.addSN (.spl Y) (.negNum (.num _))) hT) hT1 hT1
  have on : ∀ {s : BSpline ℝ}, Traj s 2 → s.basis.Clamped ∧ s.WF ∧ s.basis.knots.headD 0 = 0 ∧ s.basis.knots.getLastD 0 = 1 := fun h =>
    ⟨h.clamped, h.wf, h.first, h.last⟩
  have onX := on trX
  have onY := on trY
  have hon : ∀ M, (distSq (-M, 0) X Y).On 0 1 := fun M => ⟨⟨⟨onX, trivial⟩, onX, trivial⟩, ⟨onY, trivial⟩, onY, trivial⟩
  have mean := fun M => Expr.runs_means (runs M) (hon M)
  have bas : ∀ M, (run M).basis = uni 6 4 3 := fun M => e3
  have X0 : ∀ x, X.eval x = 0 := by
    intro x
    have : X = X.mulNum 0 := by simp [hX, BSpline.mulNum]
    rw [this, (C09_neg_mul _ _ _).2, zero_mul]
  have coef : ∀ M, ∀ i, i < (uni 6 4 3 : Basis ℝ).len → (run M).coeffs.getD i 0 = (run 0).coeffs.getD i 0 + M ^ 2 := by
    intro M
    have := (C136_regular_iff cl).2 res (fun i => (run M).coeffs.getD i 0 - (run 0).coeffs.getD i 0 - M ^ 2) (fun x hx => ?_)
    · intro i hi
      have := this i hi
      linarith
    · rw [xmax_eq] at hx
      obtain ⟨r, hr, rfl⟩ := List.mem_map.1 hx
      have hg := Verif.Spline.grid_mem cl (Verif.Spline.peak_mem (uni 6 4 3 : Basis ℝ) r)
      set x := (uni 6 4 3 : Basis ℝ).peak r
      have ends := uni_ends (K := ℝ) (D := 6) (m := 4) (n := 3) (by norm_num) (by norm_num)
      rw [headD_eq_k cl, getLastD_eq_k cl] at ends
      have x0 : 0 ≤ x := by rw [← ends.1]; exact hg.1
      have x1 : x ≤ 1 := by rw [← ends.2]; exact hg.2
      have v1 := (mean M).2.2.2.2 x x0 x1
      have v2 := (mean 0).2.2.2.2 x x0 x1
      rw [BSpline.eval_eq (mean M).2.1, bas] at v1
      rw [BSpline.eval_eq (mean 0).2.1, bas] at v2
      have one := Basis.sum_fn cl hg.1 hg.2
      have : ∑ i ∈ Finset.range (uni 6 4 3 : Basis ℝ).len, ((run M).coeffs.getD i 0 - (run 0).coeffs.getD i 0 - M ^ 2) * (uni 6 4 3 : Basis ℝ).fn i x =
          ∑ i ∈ Finset.range (uni 6 4 3 : Basis ℝ).len, (run M).coeffs.getD i 0 * (uni 6 4 3 : Basis ℝ).fn i x -
          ∑ i ∈ Finset.range (uni 6 4 3 : Basis ℝ).len, (run 0).coeffs.getD i 0 * (uni 6 4 3 : Basis ℝ).fn i x -
          M ^ 2 * ∑ i ∈ Finset.range (uni 6 4 3 : Basis ℝ).len, (uni 6 4 3 : Basis ℝ).fn i x := by
        rw [Finset.mul_sum, ← Finset.sum_sub_distrib, ← Finset.sum_sub_distrib]
        exact Finset.sum_congr rfl fun i _ => by ring
      rw [this, v1, v2, one]
      simp only [distSq, Expr.sub, Expr.sq, Expr.val, X0]
      ring
  obtain ⟨U, hU0, hU⟩ : ∃ U : ℝ, 0 < U ∧ ∀ i, |(run 0).coeffs.getD i 0| ≤ U := by
    have : ∀ l : List ℝ, ∃ U : ℝ, 0 < U ∧ ∀ i, |l.getD i 0| ≤ U := by
      intro l
      induction l with
      | nil => exact ⟨1, one_pos, fun i => by simp⟩
      | cons a l ih =>
        obtain ⟨U, h0, h⟩ := ih
        refine ⟨U + |a|, by positivity, fun i => ?_⟩
        cases i with
        | zero => simp [h0.le]
        | succ i => rw [List.getD_cons_succ]; have := h i; have := abs_nonneg a; linarith
    exact this _
  have mem : ∀ M, ∀ c ∈ (run M).coeffs, M ^ 2 - U ≤ c ∧ c ≤ M ^ 2 + U := by
    intro M c hc
    obtain ⟨i, hi, rfl⟩ := List.mem_iff_getElem.1 hc
    have hl : (run M).coeffs.length = (run M).basis.len := (mean M).2.1
    have := coef M i (by rw [← bas M, ← hl]; exact hi)
    rw [List.getD_eq_getElem _ _ hi] at this
    have hu := abs_le.1 (hU i)
    rw [this]
    constructor <;> linarith [hu.1, hu.2]
  have d1x := deriv_veh (d := 2) (n := 3) (c := List.replicate 6 0) (by norm_num) (by simp)
  have d1y := deriv_veh (d := 2) (n := 3) (c := exRow) (by norm_num) (by simp [exRow])
  obtain ⟨cx1, lx1, ex1, rx1⟩ := d1x
  obtain ⟨cy1, ly1, ey1, ry1⟩ := d1y
  obtain ⟨cx2, lx2, ex2, rx2⟩ := deriv_veh (d := 1) (n := 3) (by norm_num) lx1
  obtain ⟨cy2, ly2, ey2, ry2⟩ := deriv_veh (d := 1) (n := 3) (by norm_num) ly1
  have zx : ∀ j, j < 5 → cx1.getD j 0 = 0 := fun j hj => by
    obtain ⟨r, -, e⟩ := rx1 j hj
    rw [e, List.getD_replicate, List.getD_replicate] <;> first | omega | skip
    simp
  have zx2 : ∀ j, j < 4 → cx2.getD j 0 = 0 := fun j hj => by
    obtain ⟨r, -, e⟩ := rx2 j hj
    rw [e, zx _ (by omega), zx _ (by omega)]
    simp
  have zy : ∀ j, j < 5 → j ≠ 2 → cy1.getD j 0 = 0 := fun j hj h2 => by
    obtain ⟨r, -, e⟩ := ry1 j hj
    rw [e]
    have : exRow.getD (j + 1) 0 = exRow.getD j 0 := by
      interval_cases j <;> simp_all [exRow]
    rw [this, sub_self, mul_zero]
  have zy2 : ∀ j, j = 0 ∨ j = 3 → cy2.getD j 0 = 0 := fun j hj => by
    obtain ⟨r, -, e⟩ := ry2 j (by omega)
    rw [e, zy _ (by omega) (by omega), zy _ (by omega) (by omega)]
    simp
  have v3 := fun {c : List ℝ} (h : c.length = 3 + 3) => veh_first (d := 3) (n := 3) (by norm_num) h
  have px := v3 (c := List.replicate 6 0) (by simp)
  have py := v3 (c := exRow) (by simp [exRow])
  have q1x := veh_first (d := 2) (n := 3) (by norm_num) lx1
  have q1y := veh_first (d := 2) (n := 3) (by norm_num) ly1
  have q2x := veh_first (d := 1) (n := 3) (by norm_num) lx2
  have q2y := veh_first (d := 1) (n := 3) (by norm_num) ly2
  rw [← ex2, ← ex1, ← derivative_succ] at q2x
  rw [← ey2, ← ey1, ← derivative_succ] at q2y
  rw [← ex1] at q1x
  rw [← ey1] at q1y
  refine ⟨U + 1, Real.sqrt ((U + 1) ^ 2 - U), Real.sqrt ((U + 1) ^ 2 + U), by linarith, Real.sqrt_pos.2 (by nlinarith),
    Real.sqrt_lt_sqrt (by nlinarith) (by linarith), ?_, ?_, ?_, ?_, ?_, ?_, ?_, ?_⟩
  · refine ⟨_, .addSN (.negSpl (runs _)) (.num _), fun c hc => ?_⟩
    obtain ⟨c', hc', rfl⟩ := List.mem_map.1 hc
    obtain ⟨c'', hc'', rfl⟩ := List.mem_map.1 hc'
    have := mem _ _ hc''
    rw [Real.sq_sqrt (by nlinarith)]
    linarith [this.1]
  · refine ⟨_, .addSN (runs _) (.negNum (.num _)), fun c hc => ?_⟩
    obtain ⟨c', hc', rfl⟩ := List.mem_map.1 hc
    have := mem _ _ hc'
    rw [Real.sq_sqrt (by nlinarith)]
    linarith [this.2]
  · rw [px.1, py.1]; norm_num [exRow]
  · rw [px.2, py.2]; norm_num [exRow]
  · rw [q1x.1, q1y.1]; exact ⟨zx _ (by norm_num), zy _ (by norm_num) (by norm_num)⟩
  · rw [q1x.2, q1y.2]; exact ⟨zx _ (by norm_num), zy _ (by norm_num) (by norm_num)⟩
  · rw [q2x.1, q2y.1]; exact ⟨zx2 _ (by norm_num), zy2 _ (by norm_num)⟩
  · rw [q2x.2, q2y.2]; exact ⟨zx2 _ (by norm_num), zy2 _ (by norm_num)⟩

-- the hypotheses of `C156_partial` can be met by a guess that moves
example : ∃ (M ri ro : ℝ) (g : Guess), newRing (vehBasis 3 3) ⟨1, 2, 2, 1, 2, 2, 1, 2, 2, -1⟩ (List.replicate 6 0) exRow = .ok g ∧ 0 < g.T ∧
    ∃ vel acc, Spec.RingMove (-M, 0) (0, -1) (0, 1) ri ro g.T (fun t => (g.x.eval (t / g.T), g.y.eval (t / g.T))) vel acc := by
  obtain ⟨M, ri, ro, _, h1, h2, hf⟩ := feasible_chord
  obtain ⟨g, hg, hT, vel, acc, _, hm, _⟩ := C156_partial 3 (by norm_num) (by norm_num) ⟨1, 2, 2, 1, 2, 2, 1, 2, 2, -1⟩ (by norm_num) (by norm_num) (by norm_num)
    (by norm_num) (by norm_num) (by norm_num) (-M, 0) (0, -1) (0, 1) ri ro (h1.trans h2).le (by simp; norm_num) _ _ (by simp) (by simp [exRow]) hf
  exact ⟨M, ri, ro, g, hg, hT, vel, acc, hm⟩

/-- **C156** violated for full circles: when the arc ends where it starts, the solver starts with standing still. -/
theorem C156_circle_violated (dir : Dir) (c start : ℝ × ℝ) (N : ℕ) :
    solverStart dir c start start N = List.replicate N start := by
  refine List.ext_getElem? fun i => ?_
  by_cases hi : i < N
  · rw [solverStart_get dir c start start hi, List.getElem?_replicate, if_pos hi]
    have : (thetas dir c start start).2 - (thetas dir c start start).1 = 0 := by
      unfold thetas
      cases dir <;> simp
    rw [this, zero_mul]
    simp [Spec.turn]
  · rw [List.getElem?_eq_none (by simp [solverStart, BangBang.linspace]; omega), List.getElem?_eq_none (by simp; omega)]

/-- **C156** violated in space: the height of the guess is zero, whatever the height of the arc. -/
theorem C156_height_violated (n : ℕ) (L : Lim) (cx cy : List ℝ) (z0 : ℝ) (hz : z0 ≠ 0) :
    ∀ t, (ringGuess (vehBasis 3 n) L cx cy).z.eval t ≠ z0 := by
  intro t
  have : (ringGuess (vehBasis 3 n) L cx cy).z = (⟨vehBasis 3 n, cx⟩ : BSpline ℝ).mulNum 0 := rfl
  rw [this, (C09_neg_mul _ _ _).2, zero_mul]
  exact hz.symm

end Verif.GCode.RingGuess
