import Verif.Vehicles.Start
import Mathlib.Algebra.Polynomial.Taylor
import Mathlib.Analysis.Calculus.Deriv.Polynomial

/-! # The motion ends at the goal (C123, C124)

`get_terminal_constraints` of the vehicles and the way the point-to-point problems impose them. -/

set_option linter.unusedSectionVars false

namespace Verif.Vehicles

open Verif.Spline Collision

/-! ## Model -/

/-- The two lists `term_con, term_con_der` returned by `get_terminal_constraints`. -/
structure Term where
  con : List (BSpline ℝ × ℝ)
  der : List (BSpline ℝ × ℝ)

/-- `spline(1.) - condition` is constrained to `[0, 0]`. -/
def MeetsEnd (cons : List (BSpline ℝ × ℝ)) : Prop := ∀ c ∈ cons, c.1.eval 1 = c.2

/-- `FreeTPoint2point.define_terminal_constraints`, point2point.py:302-311. -/
def imposedFree (noDer : Bool) (c : Term) : List (BSpline ℝ × ℝ) := c.con ++ if noDer then [] else c.der

/-- The end constraints of `FixedTPoint2point.define_terminal_constraints`, point2point.py:152-172. -/
def imposedFixed (hard noDer : Bool) (c : Term) : List (BSpline ℝ × ℝ) :=
  (if hard then c.con else []) ++ if noDer then [] else c.der

/-- The constraints with the slack spline `g` of the same lines (165-167): `spline - condition - g <= 0` and
`-spline + condition - g <= 0`. -/
noncomputable def slackC (s : BSpline ℝ) (goal : ℝ) (g : BSpline ℝ) : List (Expr ℝ) :=
  [.sub (.sub (.spl s) (.num goal)) (.spl g), .sub (.add (.neg (.spl s)) (.num goal)) (.spl g)]

/-- Holonomic vehicles, with the parameter of `set_parameters`: holonomic1d.py:58-65, holonomic.py:98-105,
holonomic3d.py:84-92, quadrotor.py:77-84 and quadrotor3d_simple.py:108-117 with `o = degree`,
tool.py:139-146 with `o = degree - 1`. -/
noncomputable def holoTerm {n : ℕ} (x : Fin n → BSpline ℝ) (goal : Fin n → ℝ) (o : ℕ) : Term where
  con := List.ofFn fun i => (x i, goal i)
  der := (List.range o).flatMap fun d => List.ofFn fun i => ((x i).derivative (d + 1), 0)

/-- `HolonomicOrient.get_terminal_constraints`, holonomicorient.py:102-110 (all derivatives for each of the
three splines; the order of the list does not matter). -/
noncomputable def orientTerm (x y tg : BSpline ℝ) (gx gy gθ : ℝ) (o : ℕ) : Term :=
  holoTerm ![x, y, tg] ![gx, gy, Real.tan (gθ / 2)] o

/-- `Dubins.get_terminal_constraints`, dubins.py:181-197, without substitution; `dx`, `dy` the splines
`v_til*(1-tg_ha**2)` and `v_til*(2*tg_ha)` in unit time, `p0` the parameter `pos0` (the predicted position,
dubins.py:236), `t` the parameter `t`. -/
noncomputable def dubinsTerm (v tg dx dy : BSpline ℝ) (p0 : ℝ × ℝ) (t T : ℝ) (gx gy gθ : ℝ) : Term where
  con := [(integrateOnce dx p0.1 t T, gx), (integrateOnce dy p0.2 t T, gy), (tg, Real.tan (gθ / 2))]
  der := [(v, 0), (tg.derivative 1, 0)]

/-- `Bicycle.get_terminal_constraints`, bicycle.py:175-202, and `AGV.get_terminal_constraints`,
agv.py:147-168, with the parameters of `set_parameters` (bicycle.py:239-245, agv.py:206-212). -/
noncomputable def steerTerm (v tg dx dy : BSpline ℝ) (p0 : ℝ × ℝ) (t T : ℝ) (gx gy gθ : ℝ) : Term where
  con := [(integrateOnce dx p0.1 t T, gx), (integrateOnce dy p0.2 t T, gy), (tg, Real.tan (gθ / 2))]
  der := [(v, 0), (tg.derivative 1, T * 0), (v.derivative 1, 0), (tg.derivative 2, T ^ 2 * 0)]

/-- `Quadrotor3D.get_terminal_constraints`, quadrotor3d.py:151-175, without substitution; `ax`, `ay`, `az` are
the accelerations in unit time. -/
noncomputable def quad3Term (f qp qt ax ay az : BSpline ℝ) (p0 : Start3) (t T gx gy gz gφ gθ : ℝ) : Term where
  con := [((integrateTwice ax p0.dx p0.x t T).1, gx), ((integrateTwice ay p0.dy p0.y t T).1, gy),
    ((integrateTwice az p0.dz p0.z t T).1, gz)]
  der := [(qp, Real.tan (gφ / 2)), (qt, Real.tan (gθ / 2)), (f, quadG), ((integrateTwice ax p0.dx p0.x t T).2, 0),
    ((integrateTwice ay p0.dy p0.y t T).2, 0), ((integrateTwice az p0.dz p0.z t T).2, 0)]

/-- `Trailer.get_terminal_constraints`, trailer.py:80-94: the angle if one is given, and the constraints of the
pulling vehicle. -/
noncomputable def trailerTerm (tt : BSpline ℝ) (theta : Option ℝ) (veh : Term) : Term where
  con := (match theta with | some θ => [(tt, Real.tan (θ / 2))] | none => []) ++ veh.con
  der := veh.der

/-- `FreeEndPoint2point.define_terminal_constraints`, point2point.py:396-417: the conditions with index in
`free` are replaced by the variables `conT` (`k` counts the conditions, the variables are taken in order). -/
def freeConds (free : List ℕ) : List ℝ → ℕ → List (BSpline ℝ × ℝ) → List (BSpline ℝ × ℝ)
  | _, _, [] => []
  | conT, k, (s, c) :: rest =>
    if k ∈ free then (s, conT.headD 0) :: freeConds free conT.tail (k + 1) rest
    else (s, c) :: freeConds free conT (k + 1) rest

/-- The end constraints of the same method: the loop over `term_con_der` does not read its own entries but
repeats the `spline` and `condition` that the loop before left behind (`none` if there are none: the method
fails). -/
def imposedFreeEnd (free : List ℕ) (conT : List ℝ) (c : Term) : Option (List (BSpline ℝ × ℝ)) :=
  if c.der = [] then some []
  else (freeConds free conT 0 c.con).getLast?.map fun l => c.der.map fun _ => l

/-! ## Lemmas -/

theorem end_one {T : ℝ} (hT : 0 < T) : T / T = 1 := div_self hT.ne'

theorem meets_free {c : Term} (h : MeetsEnd (imposedFree false c)) : MeetsEnd c.con ∧ MeetsEnd c.der := by
  have h' : MeetsEnd (c.con ++ c.der) := h
  exact ⟨fun d hd => h' d (List.mem_append_left _ hd), fun d hd => h' d (List.mem_append_right _ hd)⟩

theorem meets_fixed {c : Term} (h : MeetsEnd (imposedFixed true false c)) : MeetsEnd c.con ∧ MeetsEnd c.der :=
  meets_free (noDer_aux h)
where
  noDer_aux (h : MeetsEnd (imposedFixed true false c)) : MeetsEnd (imposedFree false c) := h

/-- The position integrated in physical time and in unit time. -/
theorem two_clocks {dxu dxs : BSpline ℝ} {T t0 t x0 x1 : ℝ} (hT : 0 < T) (hu : TrajOn dxu 0 1 0) (hs : TrajOn dxs 0 T 0)
    (he : ∀ u, 0 ≤ u → u ≤ T → dxs.eval u = dxu.eval (u / T)) (a0 : 0 ≤ t0) (a1 : t0 ≤ T) (b0 : 0 ≤ t) (b1 : t ≤ T) :
    (integrateOnce dxs x0 t0 1).eval t = (integrateOnce dxu x1 t0 T).eval (t / T) + (x0 - x1) := by
  have c1 := (C17_integrate_once dxs 0 T hs 1 one_pos x0 t0 (by simpa using a0) (by simpa using a1)).2 t
    (by simpa using b0) (by simpa using b1)
  have c2 := (C17_integrate_once dxu 0 1 hu T hT x1 t0 (div_nonneg a0 hT.le) ((div_le_one hT).2 a1)).2 t
    (div_nonneg b0 hT.le) ((div_le_one hT).2 b1)
  simp only [div_one] at c1
  rw [c1, c2, intervalIntegral.integral_congr (g := fun u => dxu.eval (u / T))]
  · ring
  · intro u hu'
    rw [Set.uIcc, Set.mem_Icc] at hu'
    exact he u (le_trans (le_min a0 b0) hu'.1) (le_trans hu'.2 (max_le a1 b1))

theorem twice_clocks {au as : BSpline ℝ} {T t0 t v0 x0 : ℝ} (hT : 0 < T) (hu : TrajOn au 0 1 0) (hs : TrajOn as 0 T 0)
    (he : ∀ u, 0 ≤ u → u ≤ T → as.eval u = au.eval (u / T)) (a0 : 0 ≤ t0) (a1 : t0 ≤ T) (b0 : 0 ≤ t) (b1 : t ≤ T) :
    (integrateTwice as v0 x0 t0 1).1.eval t = (integrateTwice au v0 x0 t0 T).1.eval (t / T) ∧
    (integrateTwice as v0 x0 t0 1).2.eval t = (integrateTwice au v0 x0 t0 T).2.eval (t / T) := by
  have key : ∀ u, 0 ≤ u → u ≤ T →
      (integrateOnce as v0 t0 1).eval u = (integrateOnce au v0 t0 T).eval (u / T) := by
    intro u c0 c1
    rw [two_clocks hT hu hs he a0 a1 c0 c1 (x0 := v0) (x1 := v0), sub_self, add_zero]
  have mono : ∀ {s : BSpline ℝ} {lo hi : ℝ}, TrajOn s lo hi 1 → TrajOn s lo hi 0 := fun h =>
    ⟨h.clamped, h.wf, h.first, h.last, fun τ a b => by have := h.simple τ a b; omega, h.tail⟩
  refine ⟨?_, key t b0 b1⟩
  have := two_clocks hT (mono (hu.integrateOnce v0 t0 T)) (mono (hs.integrateOnce v0 t0 1)) key a0 a1 b0 b1
    (x0 := x0) (x1 := x0)
  rw [sub_self, add_zero] at this
  exact this

theorem Traj.toOn {s : BSpline ℝ} {n : ℕ} (h : Traj s n) : TrajOn s 0 1 n :=
  ⟨h.clamped, h.wf, h.first, h.last, h.simple, h.tail⟩

/-- The velocity splines in unit time and in physical time. -/
theorem dxE_clocks {v tg dxu dyu dxs dys : BSpline ℝ} {T : ℝ} {n m : ℕ} (hv : Traj v n) (ht : Traj tg m) (hT : 0 < T)
    (ux : (dxE v tg).Runs (.spl dxu)) (uy : (dyE v tg).Runs (.spl dyu))
    (rx : (dxE (v.scale T 0) (tg.scale T 0)).Runs (.spl dxs))
    (ry : (dyE (v.scale T 0) (tg.scale T 0)).Runs (.spl dys)) :
    (TrajOn dxu 0 1 0 ∧ TrajOn dyu 0 1 0) ∧ (TrajOn dxs 0 T 0 ∧ TrajOn dys 0 T 0) ∧
    (∀ u, 0 ≤ u → u ≤ T → dxs.eval u = dxu.eval (u / T)) ∧ ∀ u, 0 ≤ u → u ≤ T → dys.eval u = dyu.eval (u / T) := by
  have a := (hv.mono (Nat.zero_le n)).scaled hT
  have b := (ht.mono (Nat.zero_le m)).scaled hT
  have c := (hv.mono (Nat.zero_le n)).toOn
  have d := (ht.mono (Nat.zero_le m)).toOn
  obtain ⟨x1, x2⟩ := runs_spl (n := 0) rx ⟨a, trivial, b, b⟩
  obtain ⟨y1, y2⟩ := runs_spl (n := 0) ry ⟨a, trivial, b⟩
  obtain ⟨x3, x4⟩ := runs_spl (n := 0) ux ⟨c, trivial, d, d⟩
  obtain ⟨y3, y4⟩ := runs_spl (n := 0) uy ⟨c, trivial, d⟩
  refine ⟨⟨x3, y3⟩, ⟨x1, y1⟩, fun u h0 h1 => ?_, fun u h0 h1 => ?_⟩
  · rw [x2 u h0 h1, x4 (u / T) (div_nonneg h0 hT.le) ((div_le_one hT).2 h1)]
    simp only [dxE, Expr.val, Expr.sub, Expr.sq]
    rw [hv.sig0 hT, ht.sig0 hT]
  · rw [y2 u h0 h1, y4 (u / T) (div_nonneg h0 hT.le) ((div_le_one hT).2 h1)]
    simp only [dyE, Expr.val]
    rw [hv.sig0 hT, ht.sig0 hT]

theorem holoTerm_con {n : ℕ} {x : Fin n → BSpline ℝ} {goal : Fin n → ℝ} {o : ℕ} (h : MeetsEnd (holoTerm x goal o).con)
    (i : Fin n) : (x i).eval 1 = goal i := h (x i, goal i) ((List.mem_ofFn' _ _).2 ⟨i, rfl⟩)

theorem holoTerm_der {n : ℕ} {x : Fin n → BSpline ℝ} {goal : Fin n → ℝ} {o : ℕ} (h : MeetsEnd (holoTerm x goal o).der)
    (i : Fin n) {d : ℕ} (h1 : 1 ≤ d) (ho : d ≤ o) : ((x i).derivative d).eval 1 = 0 := by
  obtain ⟨e, rfl⟩ : ∃ e, d = e + 1 := ⟨d - 1, by omega⟩
  exact h ((x i).derivative (e + 1), 0)
    (List.mem_flatMap.2 ⟨e, List.mem_range.2 (by omega), (List.mem_ofFn' _ _).2 ⟨i, rfl⟩⟩)

open Polynomial in
/-- A trajectory whose derivatives all vanish at the end stands still on its last knot interval. -/
theorem last_still {s : BSpline ℝ} {n : ℕ} (h : Traj s n) {a : ℝ} (ha : 0 ≤ a) (ha1 : a < 1)
    (hno : ∀ τ ∈ s.basis.knots, ¬ (a < τ ∧ τ < 1))
    (hz : ∀ d, 1 ≤ d → d ≤ s.basis.degree → (s.derivative d).eval 1 = 0) {x : ℝ} (h0 : a < x) (h1 : x ≤ 1) :
    s.eval x = s.eval 1 := by
  have hk0 : s.basis.k 0 = 0 := by rw [← headD_eq_k h.clamped]; exact h.first
  have hk1 : s.basis.k s.basis.len = 1 := by rw [← getLastD_eq_k h.clamped]; exact h.last
  have sub : ∀ d, ∀ τ ∈ (s.derivative d).basis.knots, τ ∈ s.basis.knots := by
    intro d τ hτ
    have := count_derivative s d τ
    have h2 := List.count_pos_iff.2 hτ
    exact List.count_pos_iff.1 (by omega)
  have ends : ∀ d, d ≤ s.basis.degree → (s.derivative d).basis.k 0 = 0 ∧
      (s.derivative d).basis.k (s.derivative d).basis.len = 1 := by
    intro d hd
    obtain ⟨g1, g2, g3, g4, g5⟩ := clamped_derivative h.clamped h.wf d hd
    refine ⟨?_, ?_⟩
    · rw [g4, zero_add, h.clamped.first d hd, hk0]
    · rw [g4, g5, Nat.sub_add_cancel (hd.trans h.clamped.lt_len.le), hk1]
  have poly : ∀ d, d ≤ s.basis.degree → ∀ y, a < y → y ≤ 1 →
      (s.derivative d).eval y = ((s.derivative d).polyAt 1).eval y := by
    intro d hd y y0 y1
    obtain ⟨g1, g2, -⟩ := clamped_derivative h.clamped h.wf d hd
    obtain ⟨e0, e1⟩ := ends d hd
    exact eval_polyAt g1 g2 (by rw [e0]; linarith) y1 e1.ge
      (fun t ht hc => hno t (sub d t ht) ⟨y0.trans_le hc.1, hc.2⟩)
  have inf : (Set.Ioo a 1).Infinite := Set.Ioo_infinite ha1
  have step : ∀ d, d + 1 ≤ s.basis.degree →
      (s.derivative (d + 1)).polyAt 1 = derivative ((s.derivative d).polyAt 1) := by
    intro d hd
    refine eq_of_infinite_eval_eq _ _ (inf.mono fun y hy => ?_)
    obtain ⟨g1, g2, g3, -⟩ := clamped_derivative h.clamped h.wf d (by omega)
    obtain ⟨e0, e1⟩ := ends d (by omega)
    have hc : (s.derivative d).basis.knots.count y = 0 := by
      rw [List.count_eq_zero]
      exact fun hy' => hno y (sub d y hy') hy
    have hd1 := C51_hasDerivAt (s.derivative d) g1 g2 y (by rw [headD_eq_k g1, e0]; exact ha.trans_lt hy.1)
      (by rw [getLastD_eq_k g1, e1]; exact hy.2) (by rw [hc, g3]; omega)
    rw [← derivative_succ] at hd1
    have hp : HasDerivAt (s.derivative d).eval ((derivative ((s.derivative d).polyAt 1)).eval y) y := by
      refine (((s.derivative d).polyAt 1).hasDerivAt y).congr_of_eventuallyEq ?_
      filter_upwards [Ioo_mem_nhds hy.1 hy.2] with z hz'
      exact poly d (by omega) z hz'.1 hz'.2.le
    show eval y ((s.derivative (d + 1)).polyAt 1) = _
    rw [← poly (d + 1) hd y hy.1 hy.2.le]
    exact hd1.unique hp
  have iter : ∀ d, d ≤ s.basis.degree → (s.derivative d).polyAt 1 = derivative^[d] (s.polyAt 1) := by
    intro d
    induction d with
    | zero => intro _; rw [Function.iterate_zero, id]; unfold BSpline.derivative; rw [if_pos rfl]
    | succ d ih => intro hd; rw [step d hd, ih (by omega), Function.iterate_succ_apply']
  have d0 : s.derivative 0 = s := by unfold BSpline.derivative; rw [if_pos rfl]
  have const : s.polyAt 1 = C ((s.polyAt 1).eval 1) := by
    rw [← sub_eq_zero]
    refine Polynomial.taylor_injective (1 : ℝ) ?_
    rw [map_zero]
    ext d
    rw [Polynomial.coeff_zero, map_sub, Polynomial.coeff_sub]
    rcases Nat.eq_zero_or_pos d with rfl | hd
    · rw [Polynomial.taylor_coeff_zero, Polynomial.taylor_C, Polynomial.coeff_C_zero, sub_self]
    · rw [Polynomial.taylor_C, Polynomial.coeff_C_of_ne_zero (by omega), sub_zero]
      rcases le_or_gt d s.basis.degree with hle | hgt
      · have e := iter d hle
        have e1 := hz d hd hle
        rw [poly d hle 1 ha1 le_rfl, e] at e1
        rw [Polynomial.taylor_coeff]
        have e3 := congrFun (Polynomial.factorial_smul_hasseDeriv (R := ℝ) d) (s.polyAt 1)
        have e4 : (d.factorial : ℝ) * ((Polynomial.hasseDeriv d) (s.polyAt 1)).eval 1 = 0 := by
          rw [← e1, ← e3]
          simp
        exact (mul_eq_zero.1 e4).resolve_left (by exact_mod_cast d.factorial_ne_zero)
      · exact Polynomial.coeff_eq_zero_of_natDegree_lt (by
          rw [Polynomial.natDegree_taylor]; exact (polyAt_natDegree s 1).trans_lt hgt)
  have p0 := poly 0 (Nat.zero_le _)
  rw [d0] at p0
  rw [p0 x h0 h1, p0 1 ha1 le_rfl, const]
  simp

/-! ## Properties -/

/-- The end constraints are all imposed: free end time, or fixed end time with hard terminal constraints. -/
def Ends (c : Term) : Prop := MeetsEnd (imposedFree false c) ∨ MeetsEnd (imposedFixed true false c)

theorem Ends.split {c : Term} (h : Ends c) : MeetsEnd c.con ∧ MeetsEnd c.der := h.elim meets_free meets_fixed

/-- **C123** (holonomic vehicles, tool) at the end of the motion the vehicle is at the goal, with velocity and
acceleration zero. -/
theorem C123_holonomic {n : ℕ} (x : Fin n → BSpline ℝ) (hx : ∀ i, Traj (x i) 2) (goal : Fin n → ℝ) (o : ℕ) (ho : 2 ≤ o)
    (T : ℝ) (hT : 0 < T) (h : Ends (holoTerm x goal o)) :
    holoSignals (fun i => (x i).scale T 0) T = ⟨goal, fun _ => 0, fun _ => 0⟩ := by
  obtain ⟨hc, hd⟩ := h.split
  have e1 := end_one hT
  have a : ∀ i, ((x i).scale T 0).eval T = goal i := fun i => by
    rw [(hx i).sig0 hT, e1]; exact holoTerm_con hc i
  have b : ∀ i, (((x i).scale T 0).derivative 1).eval T = 0 := fun i => by
    rw [Traj.sig1 (n := 1) (hx i) hT, e1, holoTerm_der hd i le_rfl (by omega), zero_div]
  have c : ∀ i, (((x i).scale T 0).derivative 2).eval T = 0 := fun i => by
    rw [Traj.sig2 (n := 0) (hx i) hT, e1, holoTerm_der hd i (by norm_num) ho, zero_div]
  unfold holoSignals
  simp only [a, b, c]

/-- **C123** (holonomic vehicles, planar and simple quadrotor: all derivatives are imposed) the vehicle is at the
goal from the last interior knot `a` on: one knot interval before the end of the motion. -/
theorem C123_early {n m : ℕ} (x : Fin n → BSpline ℝ) (hx : ∀ i, Traj (x i) m) (goal : Fin n → ℝ) (o : ℕ)
    (ho : ∀ i, (x i).basis.degree ≤ o) (T : ℝ) (hT : 0 < T) (h : Ends (holoTerm x goal o)) (a : ℝ) (a0 : 0 ≤ a) (a1 : a < 1)
    (hno : ∀ i, ∀ τ ∈ (x i).basis.knots, ¬ (a < τ ∧ τ < 1)) (t : ℝ) (t0 : a * T < t) (t1 : t ≤ T) :
    (holoSignals (fun i => (x i).scale T 0) t).state = goal := by
  obtain ⟨hc, hd⟩ := h.split
  funext i
  show ((x i).scale T 0).eval t = goal i
  rw [(hx i).sig0 hT, ← holoTerm_con hc i]
  exact last_still (hx i) a0 a1 (hno i) (fun d d0 d1 => holoTerm_der hd i d0 (d1.trans (ho i)))
    ((lt_div_iff₀ hT).2 t0) ((div_le_one hT).2 t1)

/-- **C123** (holonomic vehicle with orientation) for goal headings strictly between `-π` and `π`. -/
theorem C123_orient_partial (x y tg : BSpline ℝ) (hx : Traj x 1) (hy : Traj y 1) (ht : Traj tg 1) (gx gy gθ : ℝ)
    (o : ℕ) (ho : 1 ≤ o) (T : ℝ) (hT : 0 < T) (h0 : -Real.pi < gθ) (h1 : gθ < Real.pi)
    (h : Ends (orientTerm x y tg gx gy gθ o)) :
    orientSignals (x.scale T 0) (y.scale T 0) (tg.scale T 0) T = ⟨gx, gy, gθ, 0, 0, 0⟩ := by
  obtain ⟨hc, hd⟩ := h.split
  have e1 := end_one hT
  have a0 : x.eval 1 = gx := holoTerm_con hc 0
  have a1 : y.eval 1 = gy := holoTerm_con hc 1
  have a2 : tg.eval 1 = Real.tan (gθ / 2) := holoTerm_con hc 2
  have b0 : (x.derivative 1).eval 1 = 0 := holoTerm_der hd 0 le_rfl ho
  have b1 : (y.derivative 1).eval 1 = 0 := holoTerm_der hd 1 le_rfl ho
  have b2 : (tg.derivative 1).eval 1 = 0 := holoTerm_der hd 2 le_rfl ho
  unfold orientSignals
  rw [hx.sig0 hT, hy.sig0 hT, ht.sig0 hT, Traj.sig1 (n := 0) hx hT, Traj.sig1 (n := 0) hy hT,
    Traj.sig1 (n := 0) ht hT, e1, a0, a1, a2, b0, b1, b2, angle_back h0 h1]
  simp

/-- **C123** fails for goal headings beyond half a turn: the vehicle ends one turn before. -/
theorem C123_turn_violated (x y tg : BSpline ℝ) (hx : Traj x 1) (hy : Traj y 1) (ht : Traj tg 1) (gx gy gθ : ℝ)
    (o : ℕ) (ho : 1 ≤ o) (T : ℝ) (hT : 0 < T) (h0 : Real.pi < gθ) (h1 : gθ < 3 * Real.pi)
    (h : Ends (orientTerm x y tg gx gy gθ o)) :
    (orientSignals (x.scale T 0) (y.scale T 0) (tg.scale T 0) T).theta = gθ - 2 * Real.pi := by
  have e : Real.tan ((gθ - 2 * Real.pi) / 2) = Real.tan (gθ / 2) := by
    rw [sub_div, mul_div_cancel_left₀ _ two_ne_zero, Real.tan_sub_pi]
  rw [C123_orient_partial x y tg hx hy ht gx gy (gθ - 2 * Real.pi) o ho T hT (by linarith) (by linarith)
    (by simpa only [orientTerm, e] using h)]

/-- The end of the motion of a vehicle with integrated position. -/
theorem pose_end {v tg dxu dyu dxs dys : BSpline ℝ} (hv : Traj v 0) (ht : Traj tg 1) {gx gy gθ T t0 : ℝ} (hT : 0 < T)
    (a0 : 0 ≤ t0) (a1 : t0 ≤ T) (w : Whereabouts) (h0 : -Real.pi < gθ) (h1 : gθ < Real.pi)
    (ux : (dxE v tg).Runs (.spl dxu)) (uy : (dyE v tg).Runs (.spl dyu))
    (rx : (dxE (v.scale T 0) (tg.scale T 0)).Runs (.spl dxs))
    (ry : (dyE (v.scale T 0) (tg.scale T 0)).Runs (.spl dys))
    (hc : MeetsEnd (dubinsTerm v tg dxu dyu w.predicted t0 T gx gy gθ).con)
    (hd : MeetsEnd (dubinsTerm v tg dxu dyu w.predicted t0 T gx gy gθ).der) :
    dubinsSignals (v.scale T 0) (tg.scale T 0) dxs dys w.start.1 w.start.2 t0 T
      = ⟨gx + (w.start.1 - w.predicted.1), gy + (w.start.2 - w.predicted.2), gθ, 0, 0⟩ := by
  simp only [MeetsEnd, dubinsTerm, List.forall_mem_cons] at hc hd
  obtain ⟨c1, c2, c3, -⟩ := hc
  obtain ⟨d1, d2, -⟩ := hd
  obtain ⟨⟨u1, u2⟩, ⟨s1, s2⟩, e1, e2⟩ := dxE_clocks hv ht hT ux uy rx ry
  have ee := end_one hT
  unfold dubinsSignals
  rw [two_clocks hT u1 s1 e1 a0 a1 hT.le le_rfl (x1 := w.predicted.1),
    two_clocks hT u2 s2 e2 a0 a1 hT.le le_rfl (x1 := w.predicted.2), hv.sig0 hT, ht.sig0 hT,
    Traj.sig1 (n := 0) ht hT, ee, c1, c2, c3, d1, d2, angle_back h0 h1]
  simp

/-- **C123** (differential drive) the motion ends at the goal at standstill, for goal headings strictly between
`-π` and `π`, if the vehicle integrates from the predicted position. -/
theorem C123_dubins_partial (v tg dxu dyu dxs dys : BSpline ℝ) (hv : Traj v 0) (ht : Traj tg 1) (gx gy gθ T t0 : ℝ)
    (hT : 0 < T) (a0 : 0 ≤ t0) (a1 : t0 ≤ T) (w : Whereabouts) (hw : w.start = w.predicted)
    (h0 : -Real.pi < gθ) (h1 : gθ < Real.pi)
    (ux : (dxE v tg).Runs (.spl dxu)) (uy : (dyE v tg).Runs (.spl dyu))
    (rx : (dxE (v.scale T 0) (tg.scale T 0)).Runs (.spl dxs))
    (ry : (dyE (v.scale T 0) (tg.scale T 0)).Runs (.spl dys))
    (h : Ends (dubinsTerm v tg dxu dyu w.predicted t0 T gx gy gθ)) :
    dubinsSignals (v.scale T 0) (tg.scale T 0) dxs dys w.start.1 w.start.2 t0 T = ⟨gx, gy, gθ, 0, 0⟩ := by
  rw [pose_end hv ht hT a0 a1 w h0 h1 ux uy rx ry h.split.1 h.split.2, hw]
  simp

/-- **C123** fails for a differential drive that integrates from another position than the predicted one
(C122): the trajectory it stores ends next to the goal, by the same distance. -/
theorem C123_dubins_violated (v tg dxu dyu dxs dys : BSpline ℝ) (hv : Traj v 0) (ht : Traj tg 1) (gx gy gθ T t0 : ℝ)
    (hT : 0 < T) (a0 : 0 ≤ t0) (a1 : t0 ≤ T) (w : Whereabouts) (hw : w.start ≠ w.predicted)
    (h0 : -Real.pi < gθ) (h1 : gθ < Real.pi)
    (ux : (dxE v tg).Runs (.spl dxu)) (uy : (dyE v tg).Runs (.spl dyu))
    (rx : (dxE (v.scale T 0) (tg.scale T 0)).Runs (.spl dxs))
    (ry : (dyE (v.scale T 0) (tg.scale T 0)).Runs (.spl dys))
    (h : Ends (dubinsTerm v tg dxu dyu w.predicted t0 T gx gy gθ)) :
    let s := dubinsSignals (v.scale T 0) (tg.scale T 0) dxs dys w.start.1 w.start.2 t0 T
    (s.x, s.y) = (gx, gy) + (w.start - w.predicted) ∧ (s.x, s.y) ≠ (gx, gy) := by
  intro s
  have e : s = _ := pose_end hv ht hT a0 a1 w h0 h1 ux uy rx ry h.split.1 h.split.2
  have e' : (s.x, s.y) = (gx, gy) + (w.start - w.predicted) := by rw [e]; rfl
  refine ⟨e', fun hc => hw ?_⟩
  rw [hc] at e'
  exact sub_eq_zero.1 (by simpa using e'.symm)

/-- **C123** (bicycle, AGV) the same, with the acceleration zero as well. -/
theorem C123_steer_partial (σ L : ℝ) (v tg dxu dyu dxs dys : BSpline ℝ) (hv : Traj v 1) (ht : Traj tg 1)
    (gx gy gθ T : ℝ) (hT : 0 < T) (time : ℕ → ℝ) (n k : ℕ) (hk : time k = T) (a0 : 0 ≤ time 0) (a1 : time 0 ≤ T)
    (w : Whereabouts) (hw : w.start = w.predicted) (h0 : -Real.pi < gθ) (h1 : gθ < Real.pi)
    (ux : (dxE v tg).Runs (.spl dxu)) (uy : (dyE v tg).Runs (.spl dyu))
    (rx : (dxE (v.scale T 0) (tg.scale T 0)).Runs (.spl dxs))
    (ry : (dyE (v.scale T 0) (tg.scale T 0)).Runs (.spl dys))
    (h : Ends (steerTerm v tg dxu dyu w.predicted (time 0) T gx gy gθ)) :
    let s := steerSignals σ L (v.scale T 0) (tg.scale T 0) dxs dys w.start.1 w.start.2 time n k
    s.x = gx ∧ s.y = gy ∧ s.theta = gθ ∧ s.V = 0 ∧
    2 * ((tg.scale T 0).derivative 1).eval T / (1 + (tg.scale T 0).eval T ^ 2) = 0 ∧
    ((v.scale T 0).derivative 1).eval T = 0 := by
  obtain ⟨hc, hd⟩ := h.split
  have hd' : MeetsEnd (dubinsTerm v tg dxu dyu w.predicted (time 0) T gx gy gθ).der := by
    simp only [MeetsEnd, steerTerm, dubinsTerm, List.forall_mem_cons, mul_zero] at hd ⊢
    exact ⟨hd.1, hd.2.1, by simp⟩
  have e := pose_end (hv.mono (by omega)) ht hT a0 a1 w h0 h1 ux uy rx ry hc hd'
  rw [hw, sub_self, sub_self, add_zero, add_zero] at e
  simp only [dubinsSignals, Unicycle.mk.injEq] at e
  obtain ⟨e1, e2, e3, e4, e5⟩ := e
  have hdv : (v.derivative 1).eval 1 = 0 := hd (v.derivative 1, 0) (by simp [steerTerm])
  intro s
  simp only [s, steerSignals, hk, hw]
  exact ⟨e1, e2, e3, e4, e5, by rw [Traj.sig1 (n := 0) hv hT, end_one hT, hdv, zero_div]⟩

/-- **C123** (planar quadrotor) the motion ends hovering at the goal. -/
theorem C123_quadrotor (x y : BSpline ℝ) (hx : Traj x 3) (hy : Traj y 3) (gx gy : ℝ) (o : ℕ) (ho : 3 ≤ o)
    (T : ℝ) (hT : 0 < T) (h : Ends (holoTerm ![x, y] ![gx, gy] o)) :
    quadFull (x.scale T 0) (y.scale T 0) T = ⟨(gx, gy), (0, 0), 0, (0, 0), (0, 0)⟩ ∧
    (quadSignals (x.scale T 0) (y.scale T 0) T).u1 = quadG ∧ (quadSignals (x.scale T 0) (y.scale T 0) T).u2 = 0 := by
  obtain ⟨hc, hd⟩ := h.split
  have hg : (0 : ℝ) < quadG := by unfold quadG; norm_num
  have e1 := end_one hT
  have a0 : x.eval 1 = gx := holoTerm_con hc 0
  have a1 : y.eval 1 = gy := holoTerm_con hc 1
  have dx : ∀ d, 1 ≤ d → d ≤ 3 → ((x.scale T 0).derivative d).eval T = 0 := fun d d0 d1 => by
    rw [(hx.mono d1).signal hT, e1, show (x.derivative d).eval 1 = 0 from holoTerm_der hd 0 d0 (d1.trans ho), zero_div]
  have dy : ∀ d, 1 ≤ d → d ≤ 3 → ((y.scale T 0).derivative d).eval T = 0 := fun d d0 d1 => by
    rw [(hy.mono d1).signal hT, e1, show (y.derivative d).eval 1 = 0 from holoTerm_der hd 1 d0 (d1.trans ho), zero_div]
  have hth : arctan2 0 (0 + quadG) = 0 := by
    rw [zero_add, arctan2_pos hg, zero_div, Real.arctan_zero]
  refine ⟨?_, ?_, ?_⟩
  · simp only [quadFull, quadSignals]
    rw [dx 1 le_rfl (by omega), dx 2 (by omega) (by omega), dy 1 le_rfl (by omega), dy 2 (by omega) (by omega),
      hx.sig0 hT, hy.sig0 hT, e1, a0, a1, hth]
  · simp only [quadSignals]
    rw [dx 2 (by omega) (by omega), dy 2 (by omega) (by omega), zero_add, zero_pow two_ne_zero, zero_add,
      Real.sqrt_sq hg.le]
  · simp only [quadSignals]
    rw [dx 2 (by omega) (by omega), dx 3 (by omega) le_rfl]
    simp

/-- **C123** (simple quadrotor in space) the motion ends hovering at the goal. -/
theorem C123_simple (x : Fin 3 → BSpline ℝ) (hx : ∀ i, Traj (x i) 3) (goal : Fin 3 → ℝ) (o : ℕ) (ho : 3 ≤ o)
    (T : ℝ) (hT : 0 < T) (h : Ends (holoTerm x goal o)) :
    let s := simpleSignals ((x 0).scale T 0) ((x 1).scale T 0) ((x 2).scale T 0) T
    simpleFull (fun i => (x i).scale T 0) T = ⟨goal, fun _ => 0, 0, 0, quadG⟩ ∧ s.u2 = 0 ∧ s.u3 = 0 := by
  obtain ⟨hc, hd⟩ := h.split
  have hg : (0 : ℝ) < quadG := by unfold quadG; norm_num
  have e1 := end_one hT
  have dx : ∀ i d, 1 ≤ d → d ≤ 3 → (((x i).scale T 0).derivative d).eval T = 0 := fun i d d0 d1 => by
    rw [((hx i).mono d1).signal hT, e1, holoTerm_der hd i d0 (d1.trans ho), zero_div]
  have sg : simpleSignals ((x 0).scale T 0) ((x 1).scale T 0) ((x 2).scale T 0) T = ⟨0, 0, quadG, 0, 0⟩ := by
    unfold simpleSignals simpleSignal
    simp only [dx _ 2 (by omega) (by omega), dx _ 3 (by omega) le_rfl]
    rw [SimpleSignals.mk.injEq]
    have hs : Real.sqrt (0 ^ 2 + (0 + quadG) ^ 2) = quadG := by
      rw [zero_add, zero_pow two_ne_zero, zero_add, Real.sqrt_sq hg.le]
    refine ⟨?_, ?_, ?_, by simp, by simp⟩
    · rw [hs, neg_zero, arctan2_pos hg, zero_div, Real.arctan_zero]
    · rw [zero_add, arctan2_pos hg, zero_div, Real.arctan_zero]
    · rw [zero_pow two_ne_zero, add_zero, zero_add, zero_add, Real.sqrt_sq hg.le]
  intro s
  have hs : s = ⟨0, 0, quadG, 0, 0⟩ := sg
  refine ⟨?_, by rw [hs], by rw [hs]⟩
  unfold simpleFull
  rw [sg]
  simp only [Simple3.mk.injEq, and_true]
  exact ⟨funext fun i => by rw [(hx i).sig0 hT, e1]; exact holoTerm_con hc i, funext fun i => dx i 1 le_rfl (by omega)⟩

/-- **C123** (quadrotor in space) the motion ends at the goal with velocity zero, in the wanted attitude (angles
strictly between `-π` and `π`); level, with the thrust that balances gravity. -/
theorem C123_quadrotor3d_partial (f qp qt ux uy uz ax ay az : BSpline ℝ) (hf : Traj f 0) (hp : Traj qp 1) (hq : Traj qt 1)
    (T : ℝ) (hT : 0 < T) (t0 : ℝ) (a0 : 0 ≤ t0) (a1 : t0 ≤ T) (p : Quad3) (gx gy gz gφ gθ : ℝ)
    (p0 : -Real.pi < gφ) (p1 : gφ < Real.pi) (q0 : -Real.pi < gθ) (q1 : gθ < Real.pi)
    (vx : (ddxE f qp qt).Runs (.spl ux)) (vy : (ddyE f qp qt).Runs (.spl uy)) (vz : (ddzE f qp qt).Runs (.spl uz))
    (rx : (ddxE (f.scale T 0) (qp.scale T 0) (qt.scale T 0)).Runs (.spl ax))
    (ry : (ddyE (f.scale T 0) (qp.scale T 0) (qt.scale T 0)).Runs (.spl ay))
    (rz : (ddzE (f.scale T 0) (qp.scale T 0) (qt.scale T 0)).Runs (.spl az))
    (h : Ends (quad3Term f qp qt ux uy uz p.start t0 T gx gy gz gφ gθ)) :
    let s := quad3Signals (f.scale T 0) (qp.scale T 0) (qt.scale T 0) ax ay az p.start t0 T
    s.state = [gx, gy, gz, 0, 0, 0, gφ, gθ] ∧ (gφ = 0 → gθ = 0 → s.u1 = quadG) := by
  obtain ⟨hc, hd⟩ := h.split
  simp only [MeetsEnd, quad3Term, List.forall_mem_cons] at hc hd
  obtain ⟨c1, c2, c3, -⟩ := hc
  obtain ⟨d1, d2, d3, d4, d5, d6, -⟩ := hd
  have ee := end_one hT
  have sf := hf.scaled hT
  have sp := (hp.mono (Nat.zero_le 1)).scaled hT
  have sq := (hq.mono (Nat.zero_le 1)).scaled hT
  have tf := hf.toOn
  have tp := (hp.mono (Nat.zero_le 1)).toOn
  have tq := (hq.mono (Nat.zero_le 1)).toOn
  obtain ⟨i1, j1⟩ := runs_spl (n := 0) rx (by simp only [ddxE, Expr.sub, Expr.sq, AllTraj]; exact ⟨⟨sf, trivial, sp, sp⟩, trivial, sq⟩)
  obtain ⟨i2, j2⟩ := runs_spl (n := 0) ry (by simp only [ddyE, AllTraj]; exact ⟨⟨sf, trivial, sq, sq⟩, trivial, sp⟩)
  obtain ⟨i3, j3⟩ := runs_spl (n := 0) rz (by simp only [ddzE, Expr.sub, Expr.sq, AllTraj]; exact ⟨⟨⟨sf, trivial, sp, sp⟩, trivial, sq, sq⟩, trivial⟩)
  obtain ⟨k1, l1⟩ := runs_spl (n := 0) vx (by simp only [ddxE, Expr.sub, Expr.sq, AllTraj]; exact ⟨⟨tf, trivial, tp, tp⟩, trivial, tq⟩)
  obtain ⟨k2, l2⟩ := runs_spl (n := 0) vy (by simp only [ddyE, AllTraj]; exact ⟨⟨tf, trivial, tq, tq⟩, trivial, tp⟩)
  obtain ⟨k3, l3⟩ := runs_spl (n := 0) vz (by simp only [ddzE, Expr.sub, Expr.sq, AllTraj]; exact ⟨⟨⟨tf, trivial, tp, tp⟩, trivial, tq, tq⟩, trivial⟩)
  have val : ∀ u, (f.scale T 0).eval u = f.eval (u / T) ∧ (qp.scale T 0).eval u = qp.eval (u / T) ∧
      (qt.scale T 0).eval u = qt.eval (u / T) := fun u => ⟨hf.sig0 hT u, hp.sig0 hT u, hq.sig0 hT u⟩
  have m : ∀ u, 0 ≤ u → u ≤ T → 0 ≤ u / T ∧ u / T ≤ 1 := fun u h0 h1 => ⟨div_nonneg h0 hT.le, (div_le_one hT).2 h1⟩
  have m1 : ∀ u, 0 ≤ u → u ≤ T → ax.eval u = ux.eval (u / T) := fun u h0 h1 => by
    rw [j1 u h0 h1, l1 _ (m u h0 h1).1 (m u h0 h1).2]
    simp only [ddxE, Expr.val, Expr.sub, Expr.sq, val u]
  have m2 : ∀ u, 0 ≤ u → u ≤ T → ay.eval u = uy.eval (u / T) := fun u h0 h1 => by
    rw [j2 u h0 h1, l2 _ (m u h0 h1).1 (m u h0 h1).2]
    simp only [ddyE, denE, Expr.val, Expr.sq, val u]
  have m3 : ∀ u, 0 ≤ u → u ≤ T → az.eval u = uz.eval (u / T) := fun u h0 h1 => by
    rw [j3 u h0 h1, l3 _ (m u h0 h1).1 (m u h0 h1).2]
    simp only [ddzE, Expr.val, Expr.sub, Expr.sq, val u]
  obtain ⟨n1, n2⟩ := twice_clocks hT k1 i1 m1 a0 a1 hT.le le_rfl (v0 := p.start.dx) (x0 := p.start.x)
  obtain ⟨n3, n4⟩ := twice_clocks hT k2 i2 m2 a0 a1 hT.le le_rfl (v0 := p.start.dy) (x0 := p.start.y)
  obtain ⟨n5, n6⟩ := twice_clocks hT k3 i3 m3 a0 a1 hT.le le_rfl (v0 := p.start.dz) (x0 := p.start.z)
  refine ⟨?_, fun z1 z2 => ?_⟩
  · simp only [Quad3.state, quad3Signals]
    rw [n1, n2, n3, n4, n5, n6, (val T).2.1, (val T).2.2, ee, c1, c2, c3, d1, d2, d4, d5, d6, angle_back p0 p1,
      angle_back q0 q1]
  · simp only [quad3Signals]
    rw [(val T).1, (val T).2.1, (val T).2.2, ee, d1, d2, d3, z1, z2]
    simp

/-- **C123** fails for the rates of a quadrotor in space: a motion that meets all end constraints, level at the
end, still rolls. -/
theorem C123_rates_violated : ∃ (f qp qt ux uy uz : BSpline ℝ) (p : Quad3) (gx gy gz : ℝ),
    Traj f 0 ∧ Traj qp 1 ∧ Traj qt 1 ∧ (ddxE f qp qt).Runs (.spl ux) ∧ (ddyE f qp qt).Runs (.spl uy) ∧
    (ddzE f qp qt).Runs (.spl uz) ∧ Ends (quad3Term f qp qt ux uy uz p.start 0 1 gx gy gz 0 0) ∧
    (quad3Signals f qp qt ux uy uz p.start 0 1).u2 = -1 / 5 := by
  have ev0 : ∀ {a x : ℝ}, 0 ≤ x → x ≤ 1 → (⟨Bz 0, [a]⟩ : BSpline ℝ).eval x = a := fun h0 h1 => ev0 h0 h1
  obtain ⟨ux, vx, -⟩ := (Expr.AllBz.runs (e := ddxE ⟨Bz 0, [quadG]⟩ ⟨Bz 1, [1 / 10, 0]⟩ ⟨Bz 1, [0, 0]⟩)
    (by simp [Expr.AllBz, Expr.sub, Expr.sq, ddxE, Bz])).2 3 (by simp [Expr.bdeg, Expr.sub, Expr.sq, ddxE, Bz]) (by norm_num)
  obtain ⟨uy, vy, -⟩ := (Expr.AllBz.runs (e := ddyE ⟨Bz 0, [quadG]⟩ ⟨Bz 1, [1 / 10, 0]⟩ ⟨Bz 1, [0, 0]⟩)
    (by simp [Expr.AllBz, Expr.sq, ddyE, denE, Bz])).2 3 (by simp [Expr.bdeg, Expr.sq, ddyE, denE, Bz]) (by norm_num)
  obtain ⟨uz, vz, -⟩ := (Expr.AllBz.runs (e := ddzE ⟨Bz 0, [quadG]⟩ ⟨Bz 1, [1 / 10, 0]⟩ ⟨Bz 1, [0, 0]⟩)
    (by simp [Expr.AllBz, Expr.sub, Expr.sq, ddzE, Bz])).2 4 (by simp [Expr.bdeg, Expr.sub, Expr.sq, ddzE, Bz]) (by norm_num)
  have tf : Traj (⟨Bz 0, [quadG]⟩ : BSpline ℝ) 0 := Bz_traj rfl
  have tp : Traj (⟨Bz 1, [1 / 10, 0]⟩ : BSpline ℝ) 1 := Bz_traj rfl
  have tq : Traj (⟨Bz 1, [0, 0]⟩ : BSpline ℝ) 1 := Bz_traj rfl
  have of := tf.toOn
  have op := (tp.mono (Nat.zero_le 1)).toOn
  have oq := (tq.mono (Nat.zero_le 1)).toOn
  have k1 := (runs_spl (n := 0) vx (by simp only [ddxE, Expr.sub, Expr.sq, AllTraj]; exact ⟨⟨of, trivial, op, op⟩, trivial, oq⟩)).1
  have k2 := (runs_spl (n := 0) vy (by simp only [ddyE, AllTraj]; exact ⟨⟨of, trivial, oq, oq⟩, trivial, op⟩)).1
  have k3 := (runs_spl (n := 0) vz (by simp only [ddzE, Expr.sub, Expr.sq, AllTraj]; exact ⟨⟨⟨of, trivial, op, op⟩, trivial, oq, oq⟩, trivial⟩)).1
  let r (u : BSpline ℝ) : ℝ := -((runningIntegral u).eval 1 - (runningIntegral u).eval (0 / 1))
  refine ⟨_, _, _, ux, uy, uz, ⟨0, 0, 0, r ux, r uy, r uz, 0, 0, 0, 0, 0⟩, (integrateTwice ux (r ux) 0 0 1).1.eval 1,
    (integrateTwice uy (r uy) 0 0 1).1.eval 1, (integrateTwice uz (r uz) 0 0 1).1.eval 1, tf, tp, tq, vx, vy, vz, Or.inl ?_, ?_⟩
  · simp only [MeetsEnd, imposedFree, quad3Term, Bool.false_eq_true, if_false, List.cons_append, List.nil_append, List.forall_mem_cons]
    refine ⟨rfl, rfl, rfl, ?_, ?_, ev0 zero_le_one le_rfl, ?_, ?_, ?_, by simp⟩
    · rw [ev1 zero_le_one le_rfl]; simp
    · rw [ev1 zero_le_one le_rfl]; simp
    · show (integrateOnce ux (r ux) 0 1).eval 1 = 0
      rw [k1.integrateOnce_eval _ _ _ _ zero_le_one le_rfl]; simp [r]
    · show (integrateOnce uy (r uy) 0 1).eval 1 = 0
      rw [k2.integrateOnce_eval _ _ _ _ zero_le_one le_rfl]; simp [r]
    · show (integrateOnce uz (r uz) 0 1).eval 1 = 0
      rw [k3.integrateOnce_eval _ _ _ _ zero_le_one le_rfl]; simp [r]
  · have d : (⟨Bz 1, [1 / 10, 0]⟩ : BSpline ℝ).derivative 1 = ⟨Bz 0, [-1 / 10]⟩ := by
      rw [Bz_derivative rfl]; norm_num [List.range_succ]
    simp only [quad3Signals]
    rw [d, ev0 zero_le_one le_rfl, ev1 zero_le_one le_rfl]
    norm_num

/-- **C123** (trailer) with a goal angle strictly between `-π` and `π` the trailer ends in it. -/
theorem C123_trailer_partial (l : ℝ) (tt : BSpline ℝ) (ht : Traj tt 0) (c : Term) (veh : Unicycle) (θ T : ℝ) (hT : 0 < T)
    (h0 : -Real.pi < θ) (h1 : θ < Real.pi) (h : Ends (trailerTerm tt (some θ) c)) :
    (trailerSignals l (tt.scale T 0) veh T).th = θ := by
  have e : tt.eval 1 = Real.tan (θ / 2) := h.split.1 (tt, Real.tan (θ / 2)) (by simp [trailerTerm])
  show 2 * arctan2 ((tt.scale T 0).eval T) 1 = θ
  rw [ht.sig0 hT, end_one hT, e]
  exact angle_back h0 h1

/-- **C124** With soft terminal constraints the distance to the goal is at every time at most the slack, and the
motion ends at standstill all the same. -/
theorem C124_soft {n : ℕ} (x : Fin n → BSpline ℝ) (hx : ∀ i, Traj (x i) 1) (g : Fin n → BSpline ℝ) (hg : ∀ i, Traj (g i) 0)
    (goal : Fin n → ℝ) (o : ℕ) (ho : 1 ≤ o) (T : ℝ) (hT : 0 < T)
    (hs : ∀ i, ∀ e ∈ slackC (x i) (goal i) (g i), e.Imposed 0)
    (h : MeetsEnd (imposedFixed false false (holoTerm x goal o))) :
    (∀ i t, 0 ≤ t → t ≤ T →
      |(holoSignals (fun i => (x i).scale T 0) t).state i - goal i| ≤ (g i).eval (t / T)) ∧
    (holoSignals (fun i => (x i).scale T 0) T).input = fun _ => 0 := by
  have h' : MeetsEnd (holoTerm x goal o).der := h
  refine ⟨fun i t t0 t1 => ?_, funext fun i => ?_⟩
  · have m0 : 0 ≤ t / T := div_nonneg t0 hT.le
    have m1 : t / T ≤ 1 := (div_le_one hT).2 t1
    have a := C53_imposed (lo := 0) (hi := 1) (.sub (.sub (.spl (x i)) (.num (goal i))) (.spl (g i)))
      ⟨⟨(hx i).on, trivial⟩, (hg i).on⟩ (Or.inl (Or.inl trivial)) 0 (hs i _ (by simp [slackC])) _ m0 m1
    have b := C53_imposed (lo := 0) (hi := 1) (.sub (.add (.neg (.spl (x i))) (.num (goal i))) (.spl (g i)))
      ⟨⟨(hx i).on, trivial⟩, (hg i).on⟩ (Or.inl (Or.inl trivial)) 0 (hs i _ (by simp [slackC])) _ m0 m1
    simp only [Expr.val, Expr.sub] at a b
    show |((x i).scale T 0).eval t - goal i| ≤ _
    rw [(hx i).sig0 hT, abs_le]
    constructor <;> linarith
  · show (((x i).scale T 0).derivative 1).eval T = 0
    rw [Traj.sig1 (n := 0) (hx i) hT, end_one hT, holoTerm_der h' i le_rfl ho, zero_div]

/-- **C125** (rendez-vous) the last coordinate of a holonomic vehicle ends at the meeting point. -/
theorem C125_last_partial (x y : BSpline ℝ) (a b c d : ℝ) (o : ℕ) (ho : 1 ≤ o) (l : List (BSpline ℝ × ℝ))
    (h : imposedFreeEnd [0, 1] [c, d] (holoTerm ![x, y] ![a, b] o) = some l) (hl : MeetsEnd l) : y.eval 1 = d := by
  have hne : (holoTerm ![x, y] ![a, b] o).der ≠ [] := by
    obtain ⟨m, rfl⟩ : ∃ m, o = m + 1 := ⟨o - 1, by omega⟩
    simp [holoTerm, List.range_succ]
  unfold imposedFreeEnd at h
  rw [if_neg hne] at h
  have e : freeConds [0, 1] [c, d] 0 (holoTerm ![x, y] ![a, b] o).con = [(x, c), (y, d)] := by
    simp [holoTerm, freeConds, List.ofFn_succ]
  rw [e] at h
  simp only [List.getLast?_cons_cons, List.getLast?_singleton, Option.map_some, Option.some.injEq] at h
  obtain ⟨q, hq⟩ := List.exists_mem_of_ne_nil _ hne
  exact hl (y, d) (by rw [← h]; exact List.mem_map.2 ⟨q, hq, rfl⟩)

/-- **C125** fails for the first coordinate and for the velocity: whatever the first spline of a holonomic vehicle
does, the end constraints do not mention it, and for the second spline they ask only for the position. -/
theorem C125_rendezvous_violated (x y : BSpline ℝ) (a b c d : ℝ) (o : ℕ) (ho : 1 ≤ o) (hy : y.eval 1 = d) :
    ∃ l, imposedFreeEnd [0, 1] [c, d] (holoTerm ![x, y] ![a, b] o) = some l ∧ MeetsEnd l := by
  have hne : (holoTerm ![x, y] ![a, b] o).der ≠ [] := by
    obtain ⟨m, rfl⟩ : ∃ m, o = m + 1 := ⟨o - 1, by omega⟩
    simp [holoTerm, List.range_succ]
  have e : freeConds [0, 1] [c, d] 0 (holoTerm ![x, y] ![a, b] o).con = [(x, c), (y, d)] := by
    simp [holoTerm, freeConds, List.ofFn_succ]
  unfold imposedFreeEnd
  rw [if_neg hne, e]
  refine ⟨_, rfl, fun q hq => ?_⟩
  obtain ⟨-, -, rfl⟩ := List.mem_map.1 hq
  exact hy

/-! ## Cases -/

theorem cub_end : cub.eval 1 = 1 ∧ (cub.derivative 1).eval 1 = 0 := by
  refine ⟨?_, ?_⟩
  · rw [cub, Bz_eval rfl zero_le_one le_rfl]; simp [Finset.sum_range_succ, bern, Nat.choose]
  · rw [cub_d1, Bz_eval rfl zero_le_one le_rfl]; simp [Finset.sum_range_succ, bern, Nat.choose]

/-- `1 - (1-τ)⁵`, clamped to the goal: degree 5, the first four derivatives vanish at the end. -/
noncomputable def arr : BSpline ℝ := ⟨Bz 5, [0, 1, 1, 1, 1, 1]⟩

theorem arr_end : arr.eval 1 = 1 ∧ ∀ d, 1 ≤ d → d ≤ 4 → (arr.derivative d).eval 1 = 0 := by
  have d1 : arr.derivative 1 = ⟨Bz 4, [5, 0, 0, 0, 0]⟩ := by
    unfold arr; rw [Bz_derivative rfl]; norm_num [List.range_succ]
  have d2 : arr.derivative 2 = ⟨Bz 3, [-20, 0, 0, 0]⟩ := by
    rw [derivative_succ, d1, Bz_derivative rfl]; norm_num [List.range_succ]
  have d3 : arr.derivative 3 = ⟨Bz 2, [60, 0, 0]⟩ := by
    rw [derivative_succ, d2, Bz_derivative rfl]; norm_num [List.range_succ]
  have d4 : arr.derivative 4 = ⟨Bz 1, [-120, 0]⟩ := by
    rw [derivative_succ, d3, Bz_derivative rfl]; norm_num [List.range_succ]
  refine ⟨?_, fun d h0 h1 => ?_⟩
  · rw [arr, Bz_eval rfl zero_le_one le_rfl]; simp [Finset.sum_range_succ, bern, Nat.choose]
  · interval_cases d
    · rw [d1, Bz_eval rfl zero_le_one le_rfl]; simp [Finset.sum_range_succ, bern, Nat.choose]
    · rw [d2, Bz_eval rfl zero_le_one le_rfl]; simp [Finset.sum_range_succ, bern, Nat.choose]
    · rw [d3, Bz_eval rfl zero_le_one le_rfl]; simp [Finset.sum_range_succ, bern, Nat.choose]
    · rw [d4, Bz_eval rfl zero_le_one le_rfl]; simp [Finset.sum_range_succ, bern, Nat.choose]

theorem holoTerm_ends {n : ℕ} {x : Fin n → BSpline ℝ} {goal : Fin n → ℝ} {o : ℕ} (h : ∀ i, (x i).eval 1 = goal i)
    (hd : ∀ i d, 1 ≤ d → d ≤ o → ((x i).derivative d).eval 1 = 0) : Ends (holoTerm x goal o) := by
  refine Or.inl fun c hc => ?_
  simp only [imposedFree, holoTerm, Bool.false_eq_true, if_false, List.mem_append, List.mem_flatMap, List.mem_range,
    List.mem_ofFn', Set.mem_range] at hc
  rcases hc with ⟨i, rfl⟩ | ⟨d, hd', i, rfl⟩
  · exact h i
  · exact hd i (d + 1) (by omega) (by omega)

/-- A tool and a planar quadrotor at the end of a motion of 10 s. -/
example : holoSignals (fun _ : Fin 3 => arr.scale 10 0) 10 = ⟨fun _ => 1, fun _ => 0, fun _ => 0⟩ ∧
    (quadSignals (arr.scale 10 0) (arr.scale 10 0) 10).u1 = quadG ∧
    simpleFull (fun _ => arr.scale 10 0) 10 = ⟨fun _ => 1, fun _ => 0, 0, 0, quadG⟩ := by
  obtain ⟨a, b⟩ := arr_end
  refine ⟨C123_holonomic (fun _ => arr) (fun _ => (Bz_traj rfl).mono (by omega)) (fun _ => 1) 4 (by omega) 10 (by norm_num)
    (holoTerm_ends (fun _ => a) fun _ => b),
    (C123_quadrotor arr arr ((Bz_traj rfl).mono (by omega)) ((Bz_traj rfl).mono (by omega)) 1 1 4 (by omega) 10 (by norm_num)
      (holoTerm_ends (fun i => by fin_cases i <;> exact a) fun i => by fin_cases i <;> exact b)).2.1,
    (C123_simple (fun _ => arr) (fun _ => (Bz_traj rfl).mono (by omega)) (fun _ => 1) 4 (by omega) 10 (by norm_num)
      (holoTerm_ends (fun _ => a) fun _ => b)).1⟩

/-- A trajectory of degree two that is at the goal from half time on. -/
noncomputable def early : BSpline ℝ := ⟨vehBasis 2 2, [0, 3, 3, 3]⟩

theorem early_ends : Ends (holoTerm ![early] ![3] 2) := by
  have b : ∀ (d : ℕ) (c : List ℝ) (v : ℝ), c.length = 2 + d → c.getD (d + 1) 0 = v →
      (⟨vehBasis d 2, c⟩ : BSpline ℝ).eval 1 = v := fun d c v hc hv => by
    have cl := vehBasis_clamped (d := d) (n := 2) (by norm_num)
    have l := vehBasis_len d 2
    have e := (C03_endpoints ⟨vehBasis d 2, c⟩ cl (by rw [BSpline.WF, l]; exact hc) (by
      show (vehBasis d 2).k ((vehBasis d 2).len - 1) < (vehBasis d 2).k (vehBasis d 2).len
      rw [l, vehBasis_k (by norm_num), vehBasis_k (by norm_num), show 2 + d - 1 - d = 1 by omega,
        show 2 + d - d = 2 by omega]
      norm_num)).2
    have e1 : (vehBasis d 2).knots.getLastD 0 = 1 := by
      rw [getLastD_eq_k cl, l, vehBasis_k (by norm_num)]; simp
    have e2 : (⟨vehBasis d 2, c⟩ : BSpline ℝ).eval 1 = c.getLastD 0 := by rw [← e1]; exact e
    rw [e2, ← hv, List.getLastD_eq_getLast?, List.getLast?_eq_getElem?, hc, List.getD_eq_getElem?_getD,
      show 2 + d - 1 = d + 1 by omega]
  have d1 : early.derivative 1 = ⟨vehBasis 1 2, [12, 0, 0]⟩ := by
    norm_num [early, BSpline.derivative, derivStep, vehBasis, List.range_succ, List.replicate]
  have d2 : early.derivative 2 = ⟨vehBasis 0 2, [-24, 0]⟩ := by
    rw [derivative_succ, d1]
    norm_num [BSpline.derivative, derivStep, vehBasis, List.range_succ, List.replicate]
  refine holoTerm_ends (fun i => ?_) fun i d h0 h1 => ?_ <;> fin_cases i
  · exact b 2 _ _ rfl rfl
  · interval_cases d
    · exact (congrArg (fun s => BSpline.eval s 1) d1).trans (b 1 _ _ rfl rfl)
    · exact (congrArg (fun s => BSpline.eval s 1) d2).trans (b 0 _ _ rfl rfl)

example (t : ℝ) (h0 : 5 < t) (h1 : t ≤ 10) :
    (holoSignals (fun i => (![early] i).scale 10 0) t).state = ![3] := by
  refine C123_early ![early] (m := 1) (fun i => ?_) ![3] 2 (fun i => ?_) 10 (by norm_num) early_ends (1 / 2) (by norm_num) (by norm_num)
    (fun i τ hτ => ?_) t (by linarith) h1
  all_goals fin_cases i
  · exact vehBasis_traj (by norm_num) (by norm_num) rfl
  · exact le_rfl
  · simp only [Fin.zero_eta, Matrix.cons_val_fin_one, early, vehBasis, List.mem_append, List.mem_replicate, List.mem_map,
      List.mem_range] at hτ
    rintro ⟨u, v⟩
    rcases hτ with (⟨-, rfl⟩ | ⟨k, hk, rfl⟩) | ⟨-, rfl⟩
    · linarith
    · have : k = 0 ∨ k = 1 ∨ k = 2 := by omega
      rcases this with rfl | rfl | rfl <;> push_cast at u v <;> linarith
    · linarith

/-- Turning to a heading while driving, and the same heading one turn further. -/
example : orientSignals (arr.scale 10 0) (arr.scale 10 0) (arr.scale 10 0) 10 = ⟨1, 1, 2 * Real.arctan 1, 0, 0, 0⟩ ∧
    (orientSignals (arr.scale 10 0) (arr.scale 10 0) (arr.scale 10 0) 10).theta ≠ 2 * Real.arctan 1 + 2 * Real.pi := by
  obtain ⟨a, b⟩ := arr_end
  have hpi := Real.pi_pos
  have e : ∀ θ, Real.tan (θ / 2) = 1 → Ends (orientTerm arr arr arr 1 1 θ 4) := fun θ hθ =>
    holoTerm_ends (fun i => by fin_cases i <;> simp [a, hθ]) fun i => by fin_cases i <;> exact b
  have tr : Traj arr 1 := (Bz_traj rfl).mono (by omega)
  refine ⟨C123_orient_partial _ _ _ tr tr tr 1 1 _ 4 (by omega) 10 (by norm_num) (angle_lt _).1 (angle_lt _).2
    (e _ (by rw [tan_half])), ?_⟩
  rw [C123_turn_violated _ _ _ tr tr tr 1 1 (2 * Real.arctan 1 + 2 * Real.pi) 4 (by omega) 10 (by norm_num)
    (by linarith [(angle_lt 1).1]) (by linarith [(angle_lt 1).2])
    (e _ (by rw [add_div, mul_div_cancel_left₀ _ two_ne_zero, mul_div_cancel_left₀ _ two_ne_zero, Real.tan_add_pi, Real.tan_arctan]))]
  intro h
  linarith

/-- Driving along a curve to a stop. -/
noncomputable def haltV : BSpline ℝ := ⟨Bz 2, [1, 0, 0]⟩
noncomputable def haltTg : BSpline ℝ := ⟨Bz 3, [0, 1 / 4, 1 / 4, 1 / 4]⟩

theorem halt_runs : (∃ s, (dxE haltV haltTg).Runs (.spl s)) ∧ ∃ s, (dyE haltV haltTg).Runs (.spl s) := by
  refine ⟨?_, ?_⟩
  · obtain ⟨s, h, -⟩ := (Expr.AllBz.runs (e := dxE haltV haltTg)
      (by simp [Expr.AllBz, Expr.sub, Expr.sq, dxE, haltV, haltTg, Bz])).2 8
      (by simp [Expr.bdeg, Expr.sub, Expr.sq, dxE, haltV, haltTg, Bz]) (by norm_num)
    exact ⟨s, h⟩
  · obtain ⟨s, h, -⟩ := (Expr.AllBz.runs (e := dyE haltV haltTg)
      (by simp [Expr.AllBz, dyE, haltV, haltTg, Bz])).2 5
      (by simp [Expr.bdeg, dyE, haltV, haltTg, Bz]) (by norm_num)
    exact ⟨s, h⟩

theorem halt_ends (dx dy : BSpline ℝ) (p : ℝ × ℝ) : Ends (steerTerm haltV haltTg dx dy p 0 1 ((integrateOnce dx p.1 0 1).eval 1)
    ((integrateOnce dy p.2 0 1).eval 1) (2 * Real.arctan (1 / 4))) := by
  have d1 : haltTg.derivative 1 = ⟨Bz 2, [3 / 4, 0, 0]⟩ := by
    unfold haltTg; rw [Bz_derivative rfl]; norm_num [List.range_succ]
  have d2 : haltTg.derivative 2 = ⟨Bz 1, [-3 / 2, 0]⟩ := by
    rw [derivative_succ, d1, Bz_derivative rfl]; norm_num [List.range_succ]
  have d3 : haltV.derivative 1 = ⟨Bz 1, [-2, 0]⟩ := by
    unfold haltV; rw [Bz_derivative rfl]; norm_num [List.range_succ]
  refine Or.inl ?_
  simp only [MeetsEnd, imposedFree, steerTerm, Bool.false_eq_true, if_false, List.cons_append, List.nil_append,
    List.forall_mem_cons, tan_half, d1, d2, d3]
  refine ⟨trivial, trivial, ?_, ?_, ?_, ?_, ?_, by simp⟩
  · rw [haltTg, Bz_eval rfl zero_le_one le_rfl]; simp [Finset.sum_range_succ, bern, Nat.choose]
  · rw [haltV, Bz_eval rfl zero_le_one le_rfl]; simp [Finset.sum_range_succ, bern, Nat.choose]
  · rw [Bz_eval rfl zero_le_one le_rfl]; simp [Finset.sum_range_succ, bern, Nat.choose]
  · rw [ev1 zero_le_one le_rfl]; simp
  · rw [ev1 zero_le_one le_rfl]; simp

/-- A differential drive that starts in `(3, 1)`, knowing where it is or believing to be in `(0, 0)`; and a bicycle. -/
example : ∃ dx dy gx gy,
    dubinsSignals haltV haltTg dx dy 3 1 0 1 = ⟨gx, gy, 2 * Real.arctan (1 / 4), 0, 0⟩ ∧
    (dubinsSignals haltV haltTg dx dy 0 0 0 1).x = gx - 3 ∧
    (steerSignals 1 1 haltV haltTg dx dy 3 1 (fun k => (k : ℝ) / 10) 11 10).theta = 2 * Real.arctan (1 / 4) := by
  obtain ⟨⟨dx, rx⟩, dy, ry⟩ := halt_runs
  have h := halt_ends dx dy (3, 1)
  have h' : Ends (dubinsTerm haltV haltTg dx dy (3, 1) 0 1 ((integrateOnce dx 3 0 1).eval 1) ((integrateOnce dy 1 0 1).eval 1)
      (2 * Real.arctan (1 / 4))) := by
    obtain ⟨hc, hd⟩ := h.split
    refine Or.inl ?_
    simp only [MeetsEnd, imposedFree, dubinsTerm, steerTerm, Bool.false_eq_true, if_false, List.cons_append, List.nil_append,
      List.forall_mem_cons, one_mul] at hc hd ⊢
    exact ⟨hc.1, hc.2.1, hc.2.2.1, hd.1, hd.2.1, by simp⟩
  have tv : Traj haltV 1 := (Bz_traj rfl).mono (by omega)
  have tt : Traj haltTg 1 := (Bz_traj rfl).mono (by omega)
  have sx : (dxE (haltV.scale 1 0) (haltTg.scale 1 0)).Runs (.spl dx) := by rw [scale_one, scale_one]; exact rx
  have sy : (dyE (haltV.scale 1 0) (haltTg.scale 1 0)).Runs (.spl dy) := by rw [scale_one, scale_one]; exact ry
  refine ⟨dx, dy, (integrateOnce dx 3 0 1).eval 1, (integrateOnce dy 1 0 1).eval 1, ?_, ?_, ?_⟩
  · have := C123_dubins_partial haltV haltTg dx dy dx dy (tv.mono (by omega)) tt _ _ _ 1 0 one_pos le_rfl zero_le_one
      ⟨(3, 1), none, (3, 1)⟩ rfl (angle_lt _).1 (angle_lt _).2 rx ry sx sy h'
    rwa [scale_one, scale_one] at this
  · have := (C123_dubins_violated haltV haltTg dx dy dx dy (tv.mono (by omega)) tt _ _ _ 1 0 one_pos le_rfl zero_le_one
      ⟨(0, 0), none, (3, 1)⟩ (by simp [Whereabouts.start]) (angle_lt _).1 (angle_lt _).2 rx ry sx sy h').1
    rw [scale_one, scale_one] at this
    have := congrArg Prod.fst this
    simpa [Whereabouts.start, sub_eq_add_neg] using this
  · have := (C123_steer_partial 1 1 haltV haltTg dx dy dx dy tv tt _ _ _ 1 one_pos (fun k => (k : ℝ) / 10) 11 10
      (by norm_num) (by norm_num) (by norm_num) ⟨(3, 1), none, (3, 1)⟩ rfl (angle_lt _).1 (angle_lt _).2 rx ry sx sy
      (by simpa only [Nat.cast_zero, zero_div] using h)).2.2.1
    rw [scale_one, scale_one] at this
    exact this

/-- The quadrotor of `C123_rates_violated` ends level and with the thrust of hovering. -/
example : ∃ (f qp qt ux uy uz : BSpline ℝ) (p : Start3) (gx gy gz : ℝ),
    (quad3Signals f qp qt ux uy uz p 0 1).state = [gx, gy, gz, 0, 0, 0, 0, 0] ∧
    (quad3Signals f qp qt ux uy uz p 0 1).u1 = quadG ∧ (quad3Signals f qp qt ux uy uz p 0 1).u2 ≠ 0 := by
  obtain ⟨f, qp, qt, ux, uy, uz, p, gx, gy, gz, hf, hp, hq, vx, vy, vz, h, hu⟩ := C123_rates_violated
  have := C123_quadrotor3d_partial f qp qt ux uy uz ux uy uz hf hp hq 1 one_pos 0 le_rfl zero_le_one p gx gy gz 0 0
    (by linarith [Real.pi_pos]) Real.pi_pos (by linarith [Real.pi_pos]) Real.pi_pos vx vy vz
    (by rw [scale_one, scale_one, scale_one]; exact vx) (by rw [scale_one, scale_one, scale_one]; exact vy)
    (by rw [scale_one, scale_one, scale_one]; exact vz) h
  rw [scale_one, scale_one, scale_one] at this
  exact ⟨f, qp, qt, ux, uy, uz, p.start, gx, gy, gz, this.1, this.2 rfl rfl, by rw [hu]; norm_num⟩

example (veh : Unicycle) : (trailerSignals 2 (exTg.scale 10 0) veh 10).th = 2 * Real.arctan (1 / 10) := by
  refine C123_trailer_partial 2 exTg (exTg_traj.mono (by omega)) (holoTerm ![arr] ![1] 4) veh _ 10 (by norm_num)
    (angle_lt _).1 (angle_lt _).2 (Or.inl ?_)
  obtain ⟨a, b⟩ := arr_end
  have := (holoTerm_ends (x := ![arr]) (goal := ![1]) (o := 4) (fun i => by fin_cases i; exact a)
    fun i => by fin_cases i; exact b).split
  simp only [MeetsEnd, imposedFree, trailerTerm, Bool.false_eq_true, if_false, List.mem_append, List.mem_singleton, or_assoc]
  rintro c (rfl | hc | hc)
  · rw [tan_half, exTg, ev1 zero_le_one le_rfl]; norm_num
  · exact this.1 c hc
  · exact this.2 c hc

/-- The slack is one throughout. -/
example (t : ℝ) (h0 : 0 ≤ t) (h1 : t ≤ 10) :
    |(holoSignals (fun _ : Fin 2 => cub.scale 10 0) t).state 0 - 1| ≤ (⟨Bz 0, [1]⟩ : BSpline ℝ).eval (t / 10) := by
  refine (C124_soft (fun _ : Fin 2 => cub) (fun _ => cub_traj.mono (by omega)) (fun _ => ⟨Bz 0, [1]⟩) (fun _ => Bz_traj rfl)
    (fun _ => 1) 1 le_rfl 10 (by norm_num) (fun _ => ?_) ?_).1 0 t h0 h1
  · simp only [slackC, List.forall_mem_cons]
    refine ⟨Expr.AllBz.imposed (D := 3) (by simp [Expr.AllBz, Expr.sub, cub, Bz]) (by simp [Expr.bdeg, Expr.sub, cub, Bz])
      (by norm_num) [-2, -2, -1, -1] (fun x x0 x1 => ?_) (fun i hi => ?_), Expr.AllBz.imposed (D := 3)
      (by simp [Expr.AllBz, Expr.sub, cub, Bz]) (by simp [Expr.bdeg, Expr.sub, cub, Bz])
      (by norm_num) [0, 0, -1, -1] (fun x x0 x1 => ?_) (fun i hi => ?_), by simp⟩
    · simp only [Expr.val, Expr.sub, cub]
      rw [ev0 x0 x1, Bz_eval rfl x0 x1]
      simp [Finset.sum_range_succ, bern, Nat.choose]; ring
    · interval_cases i <;> norm_num
    · simp only [Expr.val, Expr.sub, cub]
      rw [ev0 x0 x1, Bz_eval rfl x0 x1]
      simp [Finset.sum_range_succ, bern, Nat.choose]; ring
    · interval_cases i <;> norm_num
  · intro c hc
    simp only [imposedFixed, holoTerm, Bool.false_eq_true, if_false, List.nil_append, List.mem_flatMap, List.mem_range,
      List.mem_ofFn', Set.mem_range, exists_const] at hc
    obtain ⟨d, hd, rfl⟩ := hc
    interval_cases d
    exact cub_end.2

/-- A rendez-vous in `(5, 1)`: a vehicle that never leaves the neighbourhood of the origin in the first coordinate
and passes the meeting point at full speed in the second one meets all end constraints. -/
example : (∃ l, imposedFreeEnd [0, 1] [5, 1] (holoTerm ![cub, ⟨Bz 1, [0, 1]⟩] ![0, 0] 3) = some l ∧ MeetsEnd l) ∧
    cub.eval 1 = 1 ∧ ((⟨Bz 1, [0, 1]⟩ : BSpline ℝ).derivative 1).eval 1 = 1 ∧
    ∀ l, imposedFreeEnd [0, 1] [5, 1] (holoTerm ![cub, ⟨Bz 1, [0, 1]⟩] ![0, 0] 3) = some l → MeetsEnd l →
      (⟨Bz 1, [0, 1]⟩ : BSpline ℝ).eval 1 = 1 := by
  refine ⟨C125_rendezvous_violated _ _ _ _ _ _ 3 (by omega) (by rw [ev1 zero_le_one le_rfl]; norm_num), cub_end.1, ?_,
    fun l hl h => C125_last_partial _ _ _ _ _ _ 3 (by omega) l hl h⟩
  rw [Bz_derivative rfl]
  simp only [List.range_succ]
  norm_num
  exact ev0 zero_le_one le_rfl

end Verif.Vehicles
