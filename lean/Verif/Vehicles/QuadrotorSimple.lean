import Verif.Vehicles.Quadrotor3D

/-! # Simple quadrotor in space (C57)

Model of `SimpleQuadrotor3D` (quadrotor3d_simple.py). -/

set_option linter.unusedSectionVars false
set_option linter.unusedSimpArgs false

namespace Verif.Vehicles

open Verif.Spline Collision

/-! ## Model -/

/-- `ddz + g_tf` with `g_tf = g*T**2`. -/
noncomputable def liftE (z : BSpline ℝ) (T : ℝ) : Expr ℝ := .add (.spl (z.derivative 2)) (.num (quadG * T ^ 2))

/-- `ddx**2 + ddy**2 + (ddz + g_tf)**2`. -/
noncomputable def thrust3E (x y z : BSpline ℝ) (T : ℝ) : Expr ℝ :=
  .add (.add (.sq (.spl (x.derivative 2))) (.sq (.spl (y.derivative 2)))) (.sq (liftE z T))

/-- `SimpleQuadrotor3D.define_trajectory_constraints`, quadrotor3d_simple.py:72-93 (each expression is `<= 0`). -/
noncomputable def simpleC (L : Quad3Lim) (x y z : BSpline ℝ) (T : ℝ) : List (Expr ℝ) :=
  let ddx := Expr.spl (x.derivative 2)
  let ddy := Expr.spl (y.derivative 2)
  let dddx := Expr.spl (x.derivative 3)
  let dddy := Expr.spl (y.derivative 3)
  let dddz := Expr.spl (z.derivative 3)
  let lift := liftE z T
  [.add (.neg (thrust3E x y z T)) (.num (T ^ 4 * L.u1min ^ 2)),
   .sub (thrust3E x y z T) (.num (T ^ 4 * L.u1max ^ 2)),
   .sub (.add (.mul (.neg dddy) lift) (.mul dddz ddy)) (.mul (.mul (.sq lift) (.num T)) (.num L.u2max)),
   .add (.sub (.mul dddy lift) (.mul dddz ddy)) (.mul (.mul (.sq lift) (.num T)) (.num L.u2min)),
   .sub (.sub (.mul dddx lift) (.mul dddz ddx)) (.mul (.mul (.sq lift) (.num T)) (.num L.u3max)),
   .add (.add (.mul (.neg dddx) lift) (.mul dddz ddx)) (.mul (.mul (.sq lift) (.num T)) (.num L.u3min)),
   .sub (.neg ddy) (.mul lift (.num L.phimax)),
   .add ddy (.mul lift (.num L.phimin)),
   .sub ddx (.mul lift (.num L.thetamax)),
   .add (.neg ddx) (.mul lift (.num L.thetamin))]

structure SimpleSignals where
  phi : ℝ
  theta : ℝ
  u1 : ℝ
  u2 : ℝ
  u3 : ℝ

/-- The angles and inputs of `SimpleQuadrotor3D.splines2signals`, quadrotor3d_simple.py:178-184, from the
accelerations `a, b, c` (the last one with gravity added) and jerks. -/
noncomputable def simpleSignal (a b c a' b' c' : ℝ) : SimpleSignals where
  phi := arctan2 (-b) (Real.sqrt (a ^ 2 + c ^ 2))
  theta := arctan2 a c
  u1 := Real.sqrt (a ^ 2 + b ^ 2 + c ^ 2)
  u2 := (-b' * (a ^ 2 + c ^ 2) + b * (a * a' + c' * c)) / ((a ^ 2 + b ^ 2 + c ^ 2) * Real.sqrt (a ^ 2 + c ^ 2))
  u3 := (c * a' - a * c') / (c ^ 2 + a ^ 2)

/-- `SimpleQuadrotor3D.splines2signals`, quadrotor3d_simple.py:167-192, splines in physical time. -/
noncomputable def simpleSignals (x y z : BSpline ℝ) (t : ℝ) : SimpleSignals :=
  simpleSignal ((x.derivative 2).eval t) ((y.derivative 2).eval t) ((z.derivative 2).eval t + quadG)
    ((x.derivative 3).eval t) ((y.derivative 3).eval t) ((z.derivative 3).eval t)

/-- `SimpleQuadrotor3D.ode`, quadrotor3d_simple.py:197-201: derivatives of velocities and angles. -/
noncomputable def simpleOde (s : SimpleSignals) : List ℝ :=
  [s.u1 * Real.sin s.theta * Real.cos s.phi, -s.u1 * Real.sin s.phi,
   -quadG + s.u1 * Real.cos s.phi * Real.cos s.theta, s.u2, s.u3]

/-! ## Lemmas -/

/-- The constraints of the code at one instant, in physical units. -/
structure SimpleOk (L : Quad3Lim) (a b c a' b' c' : ℝ) : Prop where
  lo : L.u1min ^ 2 ≤ a ^ 2 + b ^ 2 + c ^ 2
  hi : a ^ 2 + b ^ 2 + c ^ 2 ≤ L.u1max ^ 2
  u2hi : -b' * c + c' * b ≤ c ^ 2 * L.u2max
  u2lo : c ^ 2 * L.u2min ≤ -b' * c + c' * b
  u3hi : a' * c - c' * a ≤ c ^ 2 * L.u3max
  u3lo : c ^ 2 * L.u3min ≤ a' * c - c' * a
  phihi : -b ≤ c * L.phimax
  philo : c * L.phimin ≤ -b
  thetahi : a ≤ c * L.thetamax
  thetalo : c * L.thetamin ≤ a

theorem simpleC_ok {L : Quad3Lim} {x y z : BSpline ℝ} {T t : ℝ} (hx : Traj x 3) (hy : Traj y 3) (hz : Traj z 3)
    (hT : 0 < T) (hc : ∀ e ∈ simpleC L x y z T, e.Imposed 0) (h0 : 0 ≤ t) (h1 : t ≤ T) :
    SimpleOk L ((x.derivative 2).eval (t / T) / T ^ 2) ((y.derivative 2).eval (t / T) / T ^ 2)
      ((z.derivative 2).eval (t / T) / T ^ 2 + quadG) ((x.derivative 3).eval (t / T) / T ^ 3)
      ((y.derivative 3).eval (t / T) / T ^ 3) ((z.derivative 3).eval (t / T) / T ^ 3) := by
  have x2 : Traj (x.derivative 2) 1 := hx.iterate (n := 2) (m := 1)
  have y2 : Traj (y.derivative 2) 1 := hy.iterate (n := 2) (m := 1)
  have z2 : Traj (z.derivative 2) 1 := hz.iterate (n := 2) (m := 1)
  have x3 : Traj (x.derivative 3) 0 := hx.iterate (n := 3) (m := 0)
  have y3 : Traj (y.derivative 3) 0 := hy.iterate (n := 3) (m := 0)
  have z3 : Traj (z.derivative 3) 0 := hz.iterate (n := 3) (m := 0)
  have ol : (liftE z T).On 0 1 := ⟨z2.on, trivial⟩
  have ot : (thrust3E x y z T).On 0 1 := ⟨⟨⟨x2.on, x2.on⟩, y2.on, y2.on⟩, ol, ol⟩
  simp only [simpleC, List.forall_mem_cons] at hc
  obtain ⟨c1, c2, c3, c4, c5, c6, c7, c8, c9, c10, -⟩ := hc
  have a1 := imposed_le c1 ⟨ot, trivial⟩ (Or.inl (Or.inl (Or.inl (Or.inl trivial)))) hT h0 h1
  have a2 := imposed_le c2 ⟨ot, trivial⟩ (Or.inl (Or.inl (Or.inl (Or.inl trivial)))) hT h0 h1
  have a3 := imposed_le c3 ⟨⟨⟨y3.on, ol⟩, z3.on, y2.on⟩, ⟨⟨ol, ol⟩, trivial⟩, trivial⟩ (Or.inl (Or.inl (Or.inl trivial))) hT h0 h1
  have a4 := imposed_le c4 ⟨⟨⟨y3.on, ol⟩, z3.on, y2.on⟩, ⟨⟨ol, ol⟩, trivial⟩, trivial⟩ (Or.inl (Or.inl (Or.inl trivial))) hT h0 h1
  have a5 := imposed_le c5 ⟨⟨⟨x3.on, ol⟩, z3.on, x2.on⟩, ⟨⟨ol, ol⟩, trivial⟩, trivial⟩ (Or.inl (Or.inl (Or.inl trivial))) hT h0 h1
  have a6 := imposed_le c6 ⟨⟨⟨x3.on, ol⟩, z3.on, x2.on⟩, ⟨⟨ol, ol⟩, trivial⟩, trivial⟩ (Or.inl (Or.inl (Or.inl trivial))) hT h0 h1
  have a7 := imposed_le c7 ⟨y2.on, ol, trivial⟩ (Or.inl trivial) hT h0 h1
  have a8 := imposed_le c8 ⟨y2.on, ol, trivial⟩ (Or.inl trivial) hT h0 h1
  have a9 := imposed_le c9 ⟨x2.on, ol, trivial⟩ (Or.inl trivial) hT h0 h1
  have a10 := imposed_le c10 ⟨x2.on, ol, trivial⟩ (Or.inl trivial) hT h0 h1
  simp only [Expr.val, Expr.sub, Expr.sq, liftE, thrust3E] at a1 a2 a3 a4 a5 a6 a7 a8 a9 a10
  generalize (x.derivative 2).eval (t / T) = A at *
  generalize (y.derivative 2).eval (t / T) = B at *
  generalize (z.derivative 2).eval (t / T) = C at *
  generalize (x.derivative 3).eval (t / T) = A' at *
  generalize (y.derivative 3).eval (t / T) = B' at *
  generalize (z.derivative 3).eval (t / T) = C' at *
  generalize quadG = G at *
  clear c1 c2 c3 c4 c5 c6 c7 c8 c9 c10 ot ol x2 y2 z2 x3 y3 z3
  have e1 : C / T ^ 2 + G = (C + G * T ^ 2) / T ^ 2 := by field_simp
  rw [e1]
  generalize C + G * T ^ 2 = D at *
  have hT2 : 0 < T ^ 2 := by positivity
  have hT4 : 0 < T ^ 4 := by positivity
  have hT5 : 0 < T ^ 5 := by positivity
  have k1 : (A / T ^ 2) ^ 2 + (B / T ^ 2) ^ 2 + (D / T ^ 2) ^ 2 = (A * A + B * B + D * D) / T ^ 4 := by field_simp
  have k2 : -(B' / T ^ 3) * (D / T ^ 2) + C' / T ^ 3 * (B / T ^ 2) = (-B' * D + C' * B) / T ^ 5 := by field_simp
  have k3 : A' / T ^ 3 * (D / T ^ 2) - C' / T ^ 3 * (A / T ^ 2) = (A' * D - C' * A) / T ^ 5 := by field_simp
  have k4 : ∀ u, (D / T ^ 2) ^ 2 * u = (D * D * T * u) / T ^ 5 := by intro u; field_simp
  have k5 : ∀ u, D / T ^ 2 * u = D * u / T ^ 2 := by intro u; field_simp
  refine ⟨?_, ?_, ?_, ?_, ?_, ?_, ?_, ?_, ?_, ?_⟩
  · rw [k1, le_div_iff₀ hT4]; linarith
  · rw [k1, div_le_iff₀ hT4]; linarith
  · rw [k2, k4, div_le_div_iff_of_pos_right hT5]; linarith
  · rw [k2, k4, div_le_div_iff_of_pos_right hT5]; linarith
  · rw [k3, k4, div_le_div_iff_of_pos_right hT5]; linarith
  · rw [k3, k4, div_le_div_iff_of_pos_right hT5]; linarith
  · rw [k5, ← neg_div, div_le_div_iff_of_pos_right hT2]; linarith
  · rw [k5, ← neg_div, div_le_div_iff_of_pos_right hT2]; linarith
  · rw [k5, div_le_div_iff_of_pos_right hT2]; linarith
  · rw [k5, div_le_div_iff_of_pos_right hT2]; linarith

section
variable {L : Quad3Lim} {a b c a' b' c' : ℝ}

/-- The quadrotor never turns upside down: the vertical thrust is positive. -/
theorem SimpleOk.lift_pos (h : SimpleOk L a b c a' b' c') (hmin : 0 < L.u1min) (hphi : L.phimin < L.phimax)
    : 0 < c := by
  have h1 : 0 ≤ c * (L.phimax - L.phimin) := by linarith [h.phihi, h.philo]
  have hc : 0 ≤ c := nonneg_of_mul_nonneg_left h1 (by linarith)
  refine lt_of_le_of_ne hc fun h0 => ?_
  subst h0
  have hb : b = 0 := by have := h.phihi; have := h.philo; linarith
  have ha : a = 0 := by have := h.thetahi; have := h.thetalo; linarith
  have := h.lo
  rw [ha, hb] at this
  nlinarith

theorem arctan2_pos_eq {p q : ℝ} (hq : 0 < q) : arctan2 p q = Real.arctan (p / q) := arctan2_pos hq

theorem arctan_le_self {r m : ℝ} (h : r ≤ m) (hm : 0 ≤ m) : Real.arctan r ≤ m := by
  rcases le_total r 0 with h0 | h0
  · have := Real.arctan_strictMono.monotone h0
    rw [Real.arctan_zero] at this
    linarith
  · have := Real.le_tan (x := Real.arctan r) (Real.arctan_nonneg.2 h0) (Real.arctan_lt_pi_div_two r)
    rw [Real.tan_arctan] at this
    linarith

theorem le_arctan_self {r m : ℝ} (h : m ≤ r) (hm : m ≤ 0) : m ≤ Real.arctan r := by
  have := arctan_le_self (r := -r) (m := -m) (by linarith) (by linarith)
  rw [Real.arctan_neg] at this
  linarith

theorem shrink {p c S m : ℝ} (hc : 0 < c) (hS : c ≤ S) (h : p ≤ c * m) (hm : 0 ≤ m) : p / S ≤ m := by
  rw [div_le_iff₀ (hc.trans_le hS)]
  nlinarith

/-- Bound on the roll rate for symmetric limits. -/
theorem roll_bound {U : ℝ} (hc : 0 < c) (p1 : -b' * c + c' * b ≤ c ^ 2 * U) (p2 : -(c ^ 2 * U) ≤ -b' * c + c' * b)
    (q1 : a' * c - c' * a ≤ c ^ 2 * U) (q2 : -(c ^ 2 * U) ≤ a' * c - c' * a) :
    |(-b' * (a ^ 2 + c ^ 2) + b * (a * a' + c' * c)) / ((a ^ 2 + b ^ 2 + c ^ 2) * Real.sqrt (a ^ 2 + c ^ 2))| ≤ U := by
  have hU : 0 ≤ U := by
    have : 0 ≤ c ^ 2 * U := by linarith
    exact nonneg_of_mul_nonneg_right this (by positivity)
  have hs : 0 < Real.sqrt (a ^ 2 + c ^ 2) := Real.sqrt_pos.2 (by positivity)
  have hs2 : Real.sqrt (a ^ 2 + c ^ 2) ^ 2 = a ^ 2 + c ^ 2 := Real.sq_sqrt (by positivity)
  set S := Real.sqrt (a ^ 2 + c ^ 2)
  have hR : 0 < a ^ 2 + b ^ 2 + c ^ 2 := by positivity
  set P := -b' * c + c' * b
  set Q := a' * c - c' * a
  have hN : c * (-b' * (a ^ 2 + c ^ 2) + b * (a * a' + c' * c)) = P * S ^ 2 + a * b * Q := by
    rw [hs2]; simp only [P, Q]; ring
  rw [abs_div, abs_of_pos (mul_pos hR hs), div_le_iff₀ (mul_pos hR hs)]
  have hP : |P| ≤ c ^ 2 * U := abs_le.2 ⟨p2, p1⟩
  have hQ : |Q| ≤ c ^ 2 * U := abs_le.2 ⟨q2, q1⟩
  have e1 : c * |(-b' * (a ^ 2 + c ^ 2) + b * (a * a' + c' * c))| ≤ c ^ 2 * U * (S ^ 2 + |a| * |b|) := by
    rw [← abs_of_pos hc, ← abs_mul, abs_of_pos hc, hN]
    calc |P * S ^ 2 + a * b * Q| ≤ |P * S ^ 2| + |a * b * Q| := abs_add_le _ _
      _ = |P| * S ^ 2 + |a| * |b| * |Q| := by rw [abs_mul, abs_mul, abs_mul, abs_of_pos (show 0 < S ^ 2 by positivity)]
      _ ≤ c ^ 2 * U * S ^ 2 + |a| * |b| * (c ^ 2 * U) := by gcongr
      _ = _ := by ring
  have e2 : |(-b' * (a ^ 2 + c ^ 2) + b * (a * a' + c' * c))| ≤ c * U * (S ^ 2 + |a| * |b|) := by
    have : c * |(-b' * (a ^ 2 + c ^ 2) + b * (a * a' + c' * c))| ≤ c * (c * U * (S ^ 2 + |a| * |b|)) := by linarith
    exact le_of_mul_le_mul_left this hc
  refine e2.trans ?_
  -- c (S² + |a||b|) ≤ (S² + b²) S
  have hcS : c ≤ S := by
    have : c ^ 2 ≤ S ^ 2 := by rw [hs2]; nlinarith [sq_nonneg a]
    exact abs_le_of_sq_le_sq' this hs.le |>.2
  have ha2 : |a| ^ 2 = (S - c) * (S + c) := by rw [sq_abs]; linarith [hs2]
  have hb2 : |b| ^ 2 = b ^ 2 := sq_abs b
  have key : c * (S ^ 2 + |a| * |b|) ≤ (S ^ 2 + |b| ^ 2) * S := by
    -- (S-c) S² + S b² - c |a| |b| ≥ 0, discriminant c²|a|² ≤ 4 (S - c) S³
    have hd : (c * |a|) ^ 2 ≤ 4 * ((S - c) * S ^ 3) := by
      rw [mul_pow, ha2]
      have h1 : c ^ 2 * (S + c) ≤ 4 * S ^ 3 := by
        have : c ^ 2 ≤ S ^ 2 := by nlinarith
        nlinarith
      have h2 : 0 ≤ S - c := by linarith
      nlinarith [mul_le_mul_of_nonneg_left h1 h2]
    have h3 : 0 ≤ |b| := abs_nonneg b
    have h4 : 0 ≤ (S - c) * S ^ 2 + S * |b| ^ 2 - c * |a| * |b| := by
      have h5 : 0 ≤ (2 * S * |b| - c * |a|) ^ 2 := sq_nonneg _
      have h6 : 0 ≤ 4 * S * ((S - c) * S ^ 2 + S * |b| ^ 2 - c * |a| * |b|) := by nlinarith
      exact nonneg_of_mul_nonneg_right h6 (by positivity)
    nlinarith
  have : a ^ 2 + b ^ 2 + c ^ 2 = S ^ 2 + |b| ^ 2 := by rw [hs2, hb2]; ring
  rw [this]
  nlinarith [mul_le_mul_of_nonneg_left key hU]

end

/-! ## Properties -/

/-- **C57** (part).  If the trajectory constraints hold, thrust, pitch rate and both angles are within the user's
limits at every instant (limits on opposite sides of zero).  When the limits of both rates are one symmetric
interval `[-U, U]`, the roll rate is within it too.  (Missing: the roll rate for other limits, where it is false, see
`C57_violated`.) -/
theorem C57_limits_partial (L : Quad3Lim) (x y z : BSpline ℝ) (hx : Traj x 3) (hy : Traj y 3) (hz : Traj z 3) (T : ℝ)
    (hT : 0 < T) (hc : ∀ e ∈ simpleC L x y z T, e.Imposed 0) (h1min : 0 < L.u1min) (h1max : 0 ≤ L.u1max)
    (hphi : L.phimin < L.phimax) (p1 : L.phimin ≤ 0) (p2 : 0 ≤ L.phimax) (p3 : L.thetamin ≤ 0) (p4 : 0 ≤ L.thetamax)
    (p5 : L.u3min ≤ 0) (p6 : 0 ≤ L.u3max) (t : ℝ) (h0 : 0 ≤ t) (h1 : t ≤ T) :
    let s := simpleSignals (x.scale T 0) (y.scale T 0) (z.scale T 0) t
    (L.u1min ≤ s.u1 ∧ s.u1 ≤ L.u1max) ∧ (L.u3min ≤ s.u3 ∧ s.u3 ≤ L.u3max) ∧
    (L.phimin ≤ s.phi ∧ s.phi ≤ L.phimax) ∧ (L.thetamin ≤ s.theta ∧ s.theta ≤ L.thetamax) ∧
    (∀ U, L.u2min = -U → L.u2max = U → L.u3min = -U → L.u3max = U → L.u2min ≤ s.u2 ∧ s.u2 ≤ L.u2max) := by
  intro s
  have ok := simpleC_ok hx hy hz hT hc h0 h1
  have e2 : ∀ {w : BSpline ℝ}, Traj w 3 → ((w.scale T 0).derivative 2).eval t = (w.derivative 2).eval (t / T) / T ^ 2 :=
    fun h => (h.mono (show 2 ≤ 3 by norm_num)).signal hT t
  have e3 : ∀ {w : BSpline ℝ}, Traj w 3 → ((w.scale T 0).derivative 3).eval t = (w.derivative 3).eval (t / T) / T ^ 3 :=
    fun h => h.signal hT t
  simp only [s, simpleSignals, e2 hx, e2 hy, e2 hz, e3 hx, e3 hy, e3 hz]
  generalize (x.derivative 2).eval (t / T) / T ^ 2 = a at *
  generalize (y.derivative 2).eval (t / T) / T ^ 2 = b at *
  generalize (z.derivative 2).eval (t / T) / T ^ 2 + quadG = c at *
  generalize (x.derivative 3).eval (t / T) / T ^ 3 = a' at *
  generalize (y.derivative 3).eval (t / T) / T ^ 3 = b' at *
  generalize (z.derivative 3).eval (t / T) / T ^ 3 = c' at *
  have hcp := ok.lift_pos h1min hphi
  have hS : c ≤ Real.sqrt (a ^ 2 + c ^ 2) := Real.le_sqrt_of_sq_le (by nlinarith [sq_nonneg a])
  have hSp := hcp.trans_le hS
  have hd : 0 < c ^ 2 + a ^ 2 := by positivity
  simp only [simpleSignal]
  refine ⟨⟨Real.le_sqrt_of_sq_le ok.lo, Real.sqrt_le_iff.2 ⟨h1max, ok.hi⟩⟩, ⟨?_, ?_⟩, ⟨?_, ?_⟩, ⟨?_, ?_⟩, ?_⟩
  · rw [le_div_iff₀ hd]; nlinarith [ok.u3lo, sq_nonneg a]
  · rw [div_le_iff₀ hd]; nlinarith [ok.u3hi, sq_nonneg a]
  · rw [arctan2_pos_eq hSp]
    refine le_arctan_self ?_ p1
    have := shrink (p := b) hcp hS (m := -L.phimin) (by linarith [ok.philo]) (by linarith)
    rw [neg_div]; linarith
  · rw [arctan2_pos_eq hSp]
    exact arctan_le_self (shrink hcp hS ok.phihi p2) p2
  · rw [arctan2_pos_eq hcp]
    refine le_arctan_self ?_ p3
    rw [le_div_iff₀ hcp]; linarith [ok.thetalo]
  · rw [arctan2_pos_eq hcp]
    refine arctan_le_self ?_ p4
    rw [div_le_iff₀ hcp]; linarith [ok.thetahi]
  · intro U u1 u2 u3 u4
    have r := abs_le.1 (roll_bound (U := U) hcp (by rw [← u2]; exact ok.u2hi) (by have := ok.u2lo; rw [u1] at this; linarith)
      (by rw [← u4]; exact ok.u3hi) (by have := ok.u3lo; rw [u3] at this; linarith))
    rw [u1, u2]; exact r

/-- **C57** Feeding the computed inputs to the vehicle model reproduces the accelerations of the splines, and roll and
pitch angle turn at the computed rates. -/
theorem C57_reproduces (L : Quad3Lim) (x y z : BSpline ℝ) (hx : Traj x 3) (hy : Traj y 3) (hz : Traj z 3) (T : ℝ)
    (hT : 0 < T) (hc : ∀ e ∈ simpleC L x y z T, e.Imposed 0) (h1min : 0 < L.u1min)
    (hphi : L.phimin < L.phimax) (t : ℝ) (h0 : 0 < t) (h1 : t < T) :
    let s := simpleSignals (x.scale T 0) (y.scale T 0) (z.scale T 0)
    [iteratedDeriv 2 (fun t => x.eval (t / T)) t, iteratedDeriv 2 (fun t => y.eval (t / T)) t,
      iteratedDeriv 2 (fun t => z.eval (t / T)) t] = (simpleOde (s t)).take 3 ∧
    HasDerivAt (fun t => (s t).phi) ((simpleOde (s t)).getD 3 0) t ∧
    HasDerivAt (fun t => (s t).theta) ((simpleOde (s t)).getD 4 0) t := by
  intro s
  have ok := simpleC_ok hx hy hz hT hc h0.le h1.le
  have e2 : ∀ {w : BSpline ℝ}, Traj w 3 → ∀ t, ((w.scale T 0).derivative 2).eval t = (w.derivative 2).eval (t / T) / T ^ 2 :=
    fun h t => (h.mono (show 2 ≤ 3 by norm_num)).signal hT t
  have e3 : ∀ {w : BSpline ℝ}, Traj w 3 → ∀ t, ((w.scale T 0).derivative 3).eval t = (w.derivative 3).eval (t / T) / T ^ 3 :=
    fun h t => h.signal hT t
  have d2 : ∀ {w : BSpline ℝ}, Traj w 3 → HasDerivAt (fun t => (w.derivative 2).eval (t / T) / T ^ 2)
      ((w.derivative 3).eval (t / T) / T ^ 3) t := by
    intro w hw
    have w2 : Traj (w.derivative 2) 1 := hw.iterate (n := 2) (m := 1)
    have dw := (w2.phys hT h0 h1).div_const (T ^ 2)
    rw [← derivative_succ] at dw
    refine dw.congr_deriv ?_
    field_simp
  have dx := d2 hx
  have dy := d2 hy
  have dz := (d2 hz).add_const quadG
  rw [(hx.mono (show 2 ≤ 3 by norm_num)).iteratedDeriv hT h0 h1, (hy.mono (show 2 ≤ 3 by norm_num)).iteratedDeriv hT h0 h1,
    (hz.mono (show 2 ≤ 3 by norm_num)).iteratedDeriv hT h0 h1]
  simp only [s, simpleSignals, e2 hx, e2 hy, e2 hz, e3 hx, e3 hy, e3 hz]
  have hcp := ok.lift_pos h1min hphi
  clear ok
  refine ⟨?_, ?_, ?_⟩
  · generalize (x.derivative 2).eval (t / T) / T ^ 2 = a at *
    generalize (y.derivative 2).eval (t / T) / T ^ 2 = b at *
    generalize hz' : (z.derivative 2).eval (t / T) / T ^ 2 = z' at *
    generalize hc' : z' + quadG = c at *
    have hz'' : z' = c - quadG := by linarith
    have hac : a ^ 2 + c ^ 2 ≠ 0 := by positivity
    obtain ⟨t1, t2⟩ := polar (a := a) (b := c) hac
    have hs2 : Real.sqrt (a ^ 2 + c ^ 2) ^ 2 = a ^ 2 + c ^ 2 := Real.sq_sqrt (by positivity)
    have hs : 0 < Real.sqrt (a ^ 2 + c ^ 2) := Real.sqrt_pos.2 (by positivity)
    have hR : (-b) ^ 2 + Real.sqrt (a ^ 2 + c ^ 2) ^ 2 = a ^ 2 + b ^ 2 + c ^ 2 := by rw [hs2]; ring
    obtain ⟨f1, f2⟩ := polar (a := -b) (b := Real.sqrt (a ^ 2 + c ^ 2)) (by positivity)
    rw [hR] at f1 f2
    simp only [simpleOde, simpleSignal, List.take_succ_cons, List.take_zero, List.cons.injEq, and_true]
    refine ⟨?_, ?_, ?_⟩
    · rw [mul_right_comm, f2, t1]
    · linarith [f1]
    · rw [f2, t2, hz'']; ring
  · simp only [simpleOde, simpleSignal, List.getD_cons_succ, List.getD_cons_zero]
    have dS := (((dx.pow 2).add (dz.pow 2)).sqrt (by
      show ((x.derivative 2).eval (t / T) / T ^ 2) ^ 2 + ((z.derivative 2).eval (t / T) / T ^ 2 + quadG) ^ 2 ≠ 0
      positivity))
    refine (arctan2_hasDerivAt dy.neg dS (Or.inl ?_)).congr_deriv ?_
    · exact Real.sqrt_pos.2 (by show 0 < ((x.derivative 2).eval (t / T) / T ^ 2) ^ 2 + ((z.derivative 2).eval (t / T) / T ^ 2 + quadG) ^ 2; positivity)
    · simp only [Pi.add_apply, Pi.pow_apply, Pi.neg_apply]
      clear dx dy dz dS
      generalize (x.derivative 2).eval (t / T) / T ^ 2 = a at *
      generalize (y.derivative 2).eval (t / T) / T ^ 2 = b at *
      generalize (z.derivative 2).eval (t / T) / T ^ 2 + quadG = c at *
      generalize (x.derivative 3).eval (t / T) / T ^ 3 = a' at *
      generalize (y.derivative 3).eval (t / T) / T ^ 3 = b' at *
      generalize (z.derivative 3).eval (t / T) / T ^ 3 = c' at *
      have hs2 : Real.sqrt (a ^ 2 + c ^ 2) ^ 2 = a ^ 2 + c ^ 2 := Real.sq_sqrt (by positivity)
      have hs : 0 < Real.sqrt (a ^ 2 + c ^ 2) := Real.sqrt_pos.2 (by positivity)
      have hR : 0 < a ^ 2 + b ^ 2 + c ^ 2 := by positivity
      have e : Real.sqrt (a ^ 2 + c ^ 2) ^ 2 + (-b) ^ 2 = a ^ 2 + b ^ 2 + c ^ 2 := by rw [hs2]; ring
      rw [e]
      generalize Real.sqrt (a ^ 2 + c ^ 2) = S at *
      rw [← hs2]
      rw [div_eq_div_iff hR.ne' (by positivity)]
      push_cast
      field_simp
      ring
  · simp only [simpleOde, simpleSignal, List.getD_cons_succ, List.getD_cons_zero]
    refine (arctan2_hasDerivAt dx dz (Or.inl hcp)).congr_deriv ?_
    ring

/-! ## A concrete flight -/

/-- `x'' = 1 + t`, `y'' = 1`, `z'' = 4 - g`. -/
noncomputable def swX : BSpline ℝ := ⟨Bz 3, [0, 0, 1 / 6, 2 / 3]⟩
noncomputable def swY : BSpline ℝ := ⟨Bz 3, [0, 0, 1 / 6, 1 / 2]⟩
noncomputable def swZ : BSpline ℝ := ⟨Bz 3, [0, 0, (4 - 9.81) / 6, (4 - 9.81) / 2]⟩

theorem swX_traj : Traj swX 3 := Bz_traj rfl
theorem swY_traj : Traj swY 3 := Bz_traj rfl
theorem swZ_traj : Traj swZ 3 := Bz_traj rfl

theorem swX_d2 : swX.derivative 2 = ⟨Bz 1, [1, 2]⟩ := by
  rw [derivative_succ, swX, Bz_derivative rfl, Bz_derivative (by simp)]; norm_num [List.range_succ]
theorem swX_d3 : swX.derivative 3 = ⟨Bz 0, [1]⟩ := by
  rw [derivative_succ, swX_d2, Bz_derivative rfl]; norm_num [List.range_succ]
theorem swY_d2 : swY.derivative 2 = ⟨Bz 1, [1, 1]⟩ := by
  rw [derivative_succ, swY, Bz_derivative rfl, Bz_derivative (by simp)]; norm_num [List.range_succ]
theorem swY_d3 : swY.derivative 3 = ⟨Bz 0, [0]⟩ := by
  rw [derivative_succ, swY_d2, Bz_derivative rfl]; norm_num [List.range_succ]
theorem swZ_d2 : swZ.derivative 2 = ⟨Bz 1, [4 - 9.81, 4 - 9.81]⟩ := by
  rw [derivative_succ, swZ, Bz_derivative rfl, Bz_derivative (by simp)]; norm_num [List.range_succ]
theorem swZ_d3 : swZ.derivative 3 = ⟨Bz 0, [0]⟩ := by
  rw [derivative_succ, swZ_d2, Bz_derivative rfl]; norm_num [List.range_succ]

/-- Default limits, except for the roll rate. -/
noncomputable def swB (m : ℝ) : Bounds := fun s => if s = "u2min" then some (-m) else if s = "u2max" then some m else none

theorem sw_ev {a b x : ℝ} (h0 : 0 ≤ x) (h1 : x ≤ 1) : (⟨Bz 1, [a, b]⟩ : BSpline ℝ).eval x = (a - b) * (1 - x) + b := by
  rw [Bz_eval rfl h0 h1]; simp [Finset.sum_range_succ, bern]; ring

theorem sw_ev0 {a x : ℝ} (h0 : 0 ≤ x) (h1 : x ≤ 1) : (⟨Bz 0, [a]⟩ : BSpline ℝ).eval x = a := by
  rw [Bz_eval rfl h0 h1]; simp [bern]

theorem sw_imposed {m : ℝ} (hm : 0 ≤ m) : ∀ e ∈ simpleC (quad3Lim (swB m)) swX swY swZ 1, e.Imposed 0 := by
  have hpi := Real.pi_gt_three
  have ev : ∀ {a b x : ℝ}, 0 ≤ x → x ≤ 1 → (⟨Bz 1, [a, b]⟩ : BSpline ℝ).eval x = (a - b) * (1 - x) + b := sw_ev
  have ev0 : ∀ {a x : ℝ}, 0 ≤ x → x ≤ 1 → (⟨Bz 0, [a]⟩ : BSpline ℝ).eval x = a := sw_ev0
  have l1 : quad3Lim (swB m) = ⟨2, 15, -m, m, -2, 2, -Real.pi / 6, Real.pi / 6, -Real.pi / 6, Real.pi / 6⟩ := by
    simp [quad3Lim, swB, lim]
  simp only [l1, simpleC, thrust3E, liftE, List.forall_mem_cons, List.not_mem_nil, false_imp_iff, implies_true, and_true,
    swX_d2, swY_d2, swZ_d2, swX_d3, swY_d3, swZ_d3, quadG]
  refine ⟨?_, ?_, ?_, ?_, ?_, ?_, ?_, ?_, ?_, ?_⟩
  · refine Expr.AllBz.imposed_pow (D := 2) ?_ ?_ (by norm_num)
      (fun j => [-17, 4, -1].getD j 0) (fun x h0 h1 => ?_) ?_
    · simp [Expr.AllBz, Expr.sub, Expr.sq, Bz]
    · simp [Expr.bdeg, Expr.sub, Expr.sq, Bz]
    · simp only [Expr.val, Expr.sub, Expr.sq, ev h0 h1, ev0 h0 h1]
      simp only [Finset.sum_range_succ, Finset.sum_range_zero, List.getD_cons_zero, List.getD_cons_succ]; ring
    · intro w w0 wp wm
      simp [Finset.sum_range_succ, w0]
      have := wp 1; have := wp 2; have := wm 0; have := wm 1
      norm_num at *
      try linarith
  · refine Expr.AllBz.imposed_pow (D := 2) ?_ ?_ (by norm_num)
      (fun j => [21 - 225, -4, 1].getD j 0) (fun x h0 h1 => ?_) ?_
    · simp [Expr.AllBz, Expr.sub, Expr.sq, Bz]
    · simp [Expr.bdeg, Expr.sub, Expr.sq, Bz]
    · simp only [Expr.val, Expr.sub, Expr.sq, ev h0 h1, ev0 h0 h1]
      simp only [Finset.sum_range_succ, Finset.sum_range_zero, List.getD_cons_zero, List.getD_cons_succ]; ring
    · intro w w0 wp wm
      simp [Finset.sum_range_succ, w0]
      have := wp 1; have := wp 2; have := wm 0; have := wm 1
      norm_num at *
      try linarith
  · refine Expr.AllBz.imposed_pow (D := 2) ?_ ?_ (by norm_num)
      (fun j => [-16 * m, 0, 0].getD j 0) (fun x h0 h1 => ?_) ?_
    · simp [Expr.AllBz, Expr.sub, Expr.sq, Bz]
    · simp [Expr.bdeg, Expr.sub, Expr.sq, Bz]
    · simp only [Expr.val, Expr.sub, Expr.sq, ev h0 h1, ev0 h0 h1]
      simp only [Finset.sum_range_succ, Finset.sum_range_zero, List.getD_cons_zero, List.getD_cons_succ]; ring
    · intro w w0 wp wm
      simp [Finset.sum_range_succ, w0]
      have := wp 1; have := wp 2; have := wm 0; have := wm 1
      norm_num at *
      try linarith
  · refine Expr.AllBz.imposed_pow (D := 2) ?_ ?_ (by norm_num)
      (fun j => [-16 * m, 0, 0].getD j 0) (fun x h0 h1 => ?_) ?_
    · simp [Expr.AllBz, Expr.sub, Expr.sq, Bz]
    · simp [Expr.bdeg, Expr.sub, Expr.sq, Bz]
    · simp only [Expr.val, Expr.sub, Expr.sq, ev h0 h1, ev0 h0 h1]
      simp only [Finset.sum_range_succ, Finset.sum_range_zero, List.getD_cons_zero, List.getD_cons_succ]; ring
    · intro w w0 wp wm
      simp [Finset.sum_range_succ, w0]
      have := wp 1; have := wp 2; have := wm 0; have := wm 1
      norm_num at *
      try linarith
  · refine Expr.AllBz.imposed_pow (D := 2) ?_ ?_ (by norm_num)
      (fun j => [-28, 0, 0].getD j 0) (fun x h0 h1 => ?_) ?_
    · simp [Expr.AllBz, Expr.sub, Expr.sq, Bz]
    · simp [Expr.bdeg, Expr.sub, Expr.sq, Bz]
    · simp only [Expr.val, Expr.sub, Expr.sq, ev h0 h1, ev0 h0 h1]
      simp only [Finset.sum_range_succ, Finset.sum_range_zero, List.getD_cons_zero, List.getD_cons_succ]; ring
    · intro w w0 wp wm
      simp [Finset.sum_range_succ, w0]
  · refine Expr.AllBz.imposed_pow (D := 2) ?_ ?_ (by norm_num)
      (fun j => [-36, 0, 0].getD j 0) (fun x h0 h1 => ?_) ?_
    · simp [Expr.AllBz, Expr.sub, Expr.sq, Bz]
    · simp [Expr.bdeg, Expr.sub, Expr.sq, Bz]
    · simp only [Expr.val, Expr.sub, Expr.sq, ev h0 h1, ev0 h0 h1]
      simp only [Finset.sum_range_succ, Finset.sum_range_zero, List.getD_cons_zero, List.getD_cons_succ]; ring
    · intro w w0 wp wm
      simp [Finset.sum_range_succ, w0]
  · refine Expr.AllBz.imposed_pow (D := 1) ?_ ?_ (by norm_num)
      (fun j => [-1 - 4 * (Real.pi / 6), 0].getD j 0) (fun x h0 h1 => ?_) ?_
    · simp [Expr.AllBz, Expr.sub, Expr.sq, Bz]
    · simp [Expr.bdeg, Expr.sub, Expr.sq, Bz]
    · simp only [Expr.val, Expr.sub, Expr.sq, ev h0 h1, ev0 h0 h1]
      simp only [Finset.sum_range_succ, Finset.sum_range_zero, List.getD_cons_zero, List.getD_cons_succ]; ring
    · intro w w0 wp wm
      simp [Finset.sum_range_succ, w0]
      have := wp 1; have := wp 2; have := wm 0; have := wm 1
      norm_num at *
      try linarith
  · refine Expr.AllBz.imposed_pow (D := 1) ?_ ?_ (by norm_num)
      (fun j => [1 - 4 * (Real.pi / 6), 0].getD j 0) (fun x h0 h1 => ?_) ?_
    · simp [Expr.AllBz, Expr.sub, Expr.sq, Bz]
    · simp [Expr.bdeg, Expr.sub, Expr.sq, Bz]
    · simp only [Expr.val, Expr.sub, Expr.sq, ev h0 h1, ev0 h0 h1]
      simp only [Finset.sum_range_succ, Finset.sum_range_zero, List.getD_cons_zero, List.getD_cons_succ]; ring
    · intro w w0 wp wm
      simp [Finset.sum_range_succ, w0]
      have := wp 1; have := wp 2; have := wm 0; have := wm 1
      norm_num at *
      try linarith
  · refine Expr.AllBz.imposed_pow (D := 1) ?_ ?_ (by norm_num)
      (fun j => [2 - 4 * (Real.pi / 6), -1].getD j 0) (fun x h0 h1 => ?_) ?_
    · simp [Expr.AllBz, Expr.sub, Expr.sq, Bz]
    · simp [Expr.bdeg, Expr.sub, Expr.sq, Bz]
    · simp only [Expr.val, Expr.sub, Expr.sq, ev h0 h1, ev0 h0 h1]
      simp only [Finset.sum_range_succ, Finset.sum_range_zero, List.getD_cons_zero, List.getD_cons_succ]; ring
    · intro w w0 wp wm
      simp [Finset.sum_range_succ, w0]
      have := wp 1; have := wp 2; have := wm 0; have := wm 1
      norm_num at *
      try linarith
  · refine Expr.AllBz.imposed_pow (D := 1) ?_ ?_ (by norm_num)
      (fun j => [-2 - 4 * (Real.pi / 6), 1].getD j 0) (fun x h0 h1 => ?_) ?_
    · simp [Expr.AllBz, Expr.sub, Expr.sq, Bz]
    · simp [Expr.bdeg, Expr.sub, Expr.sq, Bz]
    · simp only [Expr.val, Expr.sub, Expr.sq, ev h0 h1, ev0 h0 h1]
      simp only [Finset.sum_range_succ, Finset.sum_range_zero, List.getD_cons_zero, List.getD_cons_succ]; ring
    · intro w w0 wp wm
      simp [Finset.sum_range_succ, w0]
      have := wp 1; have := wp 2; have := wm 0; have := wm 1
      norm_num at *
      try linarith

/-- With the default limits the flight respects all of them. -/
example : |(simpleSignals swX swY swZ (1 / 2)).u2| ≤ 2 ∧ (simpleSignals swX swY swZ (1 / 2)).theta ≤ Real.pi / 6 ∧
    iteratedDeriv 2 (fun t => swX.eval (t / 1)) (1 / 2) =
      (simpleSignals swX swY swZ (1 / 2)).u1 * Real.sin (simpleSignals swX swY swZ (1 / 2)).theta
        * Real.cos (simpleSignals swX swY swZ (1 / 2)).phi := by
  have hpi := Real.pi_pos
  have l1 : quad3Lim (swB 2) = ⟨2, 15, -2, 2, -2, 2, -Real.pi / 6, Real.pi / 6, -Real.pi / 6, Real.pi / 6⟩ := by
    simp [quad3Lim, swB, lim]
  have h := sw_imposed (m := 2) (by norm_num)
  rw [l1] at h
  have k := C57_limits_partial _ swX swY swZ swX_traj swY_traj swZ_traj 1 one_pos h (by norm_num) (by norm_num)
    (by show -Real.pi / 6 < Real.pi / 6; linarith) (by show -Real.pi / 6 ≤ 0; linarith) (by show 0 ≤ Real.pi / 6; linarith)
    (by show -Real.pi / 6 ≤ 0; linarith) (by show 0 ≤ Real.pi / 6; linarith) (by norm_num) (by norm_num)
    (1 / 2) (by norm_num) (by norm_num)
  have r := C57_reproduces _ swX swY swZ swX_traj swY_traj swZ_traj 1 one_pos h (by norm_num)
    (by show -Real.pi / 6 < Real.pi / 6; linarith) (1 / 2) (by norm_num) (by norm_num)
  simp only [scale_one] at k r
  refine ⟨abs_le.2 (k.2.2.2.2 2 rfl rfl rfl rfl), k.2.2.2.1.2, ?_⟩
  have r1 := r.1
  simp only [simpleOde, List.take_succ_cons, List.take_zero, List.cons.injEq, and_true] at r1
  exact r1.1

/-- **C57** is false in general: the roll rate constraint ignores that the roll angle also changes when the pitch rate is
nonzero.  With the limit on the roll rate lowered to 1/1000 (all others at their default) the flight `sw` satisfies every
constraint, but its roll rate at the start is above 1/100. -/
theorem C57_violated : ∃ (b : Bounds) (x y z : BSpline ℝ), Traj x 3 ∧ Traj y 3 ∧ Traj z 3 ∧
    (∀ e ∈ simpleC (quad3Lim b) x y z 1, e.Imposed 0) ∧ (quad3Lim b).u2max = 1 / 1000 ∧
    1 / 100 < (simpleSignals (x.scale 1 0) (y.scale 1 0) (z.scale 1 0) 0).u2 := by
  refine ⟨swB (1 / 1000), swX, swY, swZ, swX_traj, swY_traj, swZ_traj, sw_imposed (by norm_num), by simp [quad3Lim, swB, lim], ?_⟩
  simp only [scale_one, simpleSignals, simpleSignal, swX_d2, swY_d2, swZ_d2, swX_d3, swY_d3, swZ_d3,
    sw_ev le_rfl zero_le_one, sw_ev0 le_rfl zero_le_one, quadG]
  norm_num
  have h : Real.sqrt 17 < 5 := by
    rw [show (5 : ℝ) = Real.sqrt 25 by rw [show (25 : ℝ) = 5 ^ 2 by norm_num, Real.sqrt_sq (by norm_num)]]
    exact Real.sqrt_lt_sqrt (by norm_num) (by norm_num)
  have h0 : 0 < Real.sqrt 17 := Real.sqrt_pos.2 (by norm_num)
  rw [← one_div, div_mul_div_comm, lt_div_iff₀ (by positivity)]
  linarith

end Verif.Vehicles
