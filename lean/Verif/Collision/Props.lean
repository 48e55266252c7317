import Verif.Collision.Model
import Verif.Geometry.Props2
import Mathlib.Analysis.InnerProductSpace.Basic

/-! # Properties C10-C12: collision avoidance -/

set_option linter.unusedSectionVars false

namespace Verif.Collision

open Verif.Spline
open scoped RealInnerProductSpace

/-! ## Helpers -/

/-- One half-space test at all checkpoints extends to the whole region. -/
theorem halfspace {n : ℕ} (s : Shape n) (a pos : Pt n) (L : Pt n →ₗ[ℝ] Pt n) (hL : ∀ u, ‖L u‖ = ‖u‖)
    (ha : ‖a‖ ≤ 1) (β : ℝ) (h : ∀ c ∈ s.chk, ⟪a, pos + L c⟫ + s.rad ≤ β) :
    (∀ p ∈ s.core, ⟪a, pos + L p⟫ + s.rad ≤ β) ∧ ∀ p ∈ s.region, ⟪a, pos + L p⟫ ≤ β := by
  have hcore : ∀ p ∈ s.core, ⟪a, pos + L p⟫ + s.rad ≤ β := by
    intro p hp
    have hconv : Convex ℝ {q : Pt n | ⟪a, L q⟫ ≤ β - s.rad - ⟪a, pos⟫} := by
      refine convex_halfSpace_le (f := fun q => ⟪a, L q⟫) ⟨?_, ?_⟩ _
      · intro x y; rw [map_add, inner_add_right]
      · intro c x; rw [map_smul, inner_smul_right]; rfl
    have : p ∈ {q : Pt n | ⟪a, L q⟫ ≤ β - s.rad - ⟪a, pos⟫} := by
      refine convexHull_min (fun q hq => ?_) hconv hp
      have := h q hq
      rw [inner_add_right] at this
      show ⟪a, L q⟫ ≤ _
      linarith
    have : ⟪a, L p⟫ ≤ β - s.rad - ⟪a, pos⟫ := this
    rw [inner_add_right]
    linarith
  refine ⟨hcore, ?_⟩
  rintro p ⟨c, hc, hd⟩
  have h1 := hcore c hc
  have h2 : ⟪a, L (p - c)⟫ ≤ s.rad := by
    calc ⟪a, L (p - c)⟫ ≤ ‖a‖ * ‖L (p - c)‖ := real_inner_le_norm _ _
      _ ≤ 1 * ‖L (p - c)‖ := mul_le_mul_of_nonneg_right ha (norm_nonneg _)
      _ = dist p c := by rw [one_mul, hL, dist_eq_norm]
      _ ≤ s.rad := hd
  rw [map_sub, inner_sub_right] at h2
  rw [inner_add_right] at h1 ⊢
  linarith

/-- Rotation as a linear map. -/
noncomputable def rotL (θ : ℝ) : Pt 2 →ₗ[ℝ] Pt 2 where
  toFun := rot θ
  map_add' p q := by
    ext i; fin_cases i <;> simp [rot] <;> ring
  map_smul' c p := by
    ext i; fin_cases i <;> simp [rot] <;> ring

theorem norm_rot (θ : ℝ) (p : Pt 2) : ‖rotL θ p‖ = ‖p‖ := by
  show ‖rot θ p‖ = ‖p‖
  rw [EuclideanSpace.norm_eq, EuclideanSpace.norm_eq]
  congr 1
  simp only [Fin.sum_univ_two, Real.norm_eq_abs, sq_abs, rot]
  simp
  nlinarith [Real.sin_sq_add_cos_sq θ]

theorem inner2 (a p : Pt 2) : ⟪a, p⟫ = a 0 * p 0 + a 1 * p 1 := by
  rw [PiLp.inner_apply, Fin.sum_univ_two]
  simp [mul_comm]

theorem inner3 (a p : Pt 3) : ⟪a, p⟫ = a 0 * p 0 + a 1 * p 1 + a 2 * p 2 := by
  rw [PiLp.inner_apply, Fin.sum_univ_three]
  simp [mul_comm]

theorem norm_le_one2 (a : Pt 2) (h : a 0 * a 0 + a 1 * a 1 - 1 ≤ 0) : ‖a‖ ≤ 1 := by
  rw [EuclideanSpace.norm_eq, Real.sqrt_le_iff, Fin.sum_univ_two]
  refine ⟨zero_le_one, ?_⟩
  simp only [Real.norm_eq_abs, sq_abs]
  linarith [sq (a 0), sq (a 1)]

theorem norm_le_one3 (a : Pt 3) (h : a 0 * a 0 + a 1 * a 1 + a 2 * a 2 - 1 ≤ 0) : ‖a‖ ≤ 1 := by
  rw [EuclideanSpace.norm_eq, Real.sqrt_le_iff, Fin.sum_univ_three]
  refine ⟨zero_le_one, ?_⟩
  simp only [Real.norm_eq_abs, sq_abs]
  linarith [sq (a 0), sq (a 1), sq (a 2)]

/-- The half-angle formulas. -/
theorem cos_heading (t : ℝ) : Real.cos (heading t) * (1 + t ^ 2) = 1 - t ^ 2 := by
  have h : (0 : ℝ) < 1 + t ^ 2 := by positivity
  have e := Real.cos_sq_arctan t
  unfold heading
  rw [Real.cos_two_mul, e]
  field_simp
  ring

theorem sin_heading (t : ℝ) : Real.sin (heading t) * (1 + t ^ 2) = 2 * t := by
  have h : (0 : ℝ) < 1 + t ^ 2 := by positivity
  have hc : Real.cos (Real.arctan t) ≠ 0 := (Real.cos_arctan_pos t).ne'
  have e : Real.sin (Real.arctan t) = t * Real.cos (Real.arctan t) := by
    have := Real.tan_arctan t
    rw [Real.tan_eq_sin_div_cos, div_eq_iff hc] at this
    exact this
  have e2 := Real.cos_sq_arctan t
  unfold heading
  rw [Real.sin_two_mul, e]
  calc 2 * (t * Real.cos (Real.arctan t)) * Real.cos (Real.arctan t) * (1 + t ^ 2)
      = 2 * t * (Real.cos (Real.arctan t) ^ 2 * (1 + t ^ 2)) := by ring
    _ = 2 * t := by rw [e2]; field_simp

/-- Two regions on both sides of a slab are separated. -/
theorem separated {n : ℕ} {a p q : Pt n} (ha : ‖a‖ ≤ 1) {β γ : ℝ} (hp : ⟪a, p⟫ ≤ β) (hq : γ ≤ ⟪a, q⟫) :
    γ - β ≤ dist p q := by
  have h : ⟪a, q - p⟫ ≤ dist p q := by
    calc ⟪a, q - p⟫ ≤ ‖a‖ * ‖q - p‖ := real_inner_le_norm _ _
      _ ≤ 1 * ‖q - p‖ := mul_le_mul_of_nonneg_right ha (norm_nonneg _)
      _ = dist p q := by rw [one_mul, dist_comm, dist_eq_norm]
  rw [inner_sub_right] at h
  linarith

/-- The position of the reference point of a body that is carried at `offset` along its own heading
(trailers: minus the hitch length). -/
noncomputable def carried (p0 p1 offset θ : ℝ) : Pt 2 :=
  !₂[p0 + offset * Real.cos θ, p1 + offset * Real.sin θ]

theorem vehCon2_val (a0 a1 b tg p0 p1 eps : Expr ℝ) (offset sd : ℝ) (c : Pt 2) (rad x : ℝ)
    (h : (vehCon2 a0 a1 b tg p0 p1 eps offset sd c rad).val x ≤ 0) :
    ⟪(!₂[a0.val x, a1.val x] : Pt 2), carried (p0.val x) (p1.val x) offset (heading (tg.val x))
      + rotL (heading (tg.val x)) c⟫ + rad ≤ b.val x - sd + eps.val x := by
  have e : (vehCon2 a0 a1 b tg p0 p1 eps offset sd c rad).val x
      = (⟪(!₂[a0.val x, a1.val x] : Pt 2), carried (p0.val x) (p1.val x) offset (heading (tg.val x))
      + rotL (heading (tg.val x)) c⟫ + rad - (b.val x - sd + eps.val x)) * (1 + tg.val x ^ 2) := by
    have hc := cos_heading (tg.val x)
    have hs := sin_heading (tg.val x)
    rw [inner2]
    simp only [vehCon2, Expr.sub, Expr.sq, Expr.val]
    show _ = (a0.val x * (p0.val x + offset * Real.cos (heading (tg.val x))
      + (Real.cos (heading (tg.val x)) * c 0 - Real.sin (heading (tg.val x)) * c 1))
      + a1.val x * (p1.val x + offset * Real.sin (heading (tg.val x))
      + (Real.sin (heading (tg.val x)) * c 0 + Real.cos (heading (tg.val x)) * c 1)) + rad
      - (b.val x - sd + eps.val x)) * (1 + tg.val x ^ 2)
    linear_combination (-(a0.val x * (offset + c 0) + a1.val x * c 1)) * hc
      + (-(a1.val x * (offset + c 0) - a0.val x * c 1)) * hs
  rw [e] at h
  have : (0 : ℝ) < 1 + tg.val x ^ 2 := by positivity
  have := nonpos_of_mul_nonpos_left h this
  linarith

theorem obsCon2_val (a0 a1 b q0 q1 w co si : Expr ℝ) (c : Pt 2) (rad x φ : ℝ) (hw : 0 < w.val x)
    (hco : co.val x = w.val x * Real.cos φ) (hsi : si.val x = w.val x * Real.sin φ)
    (h : (obsCon2 a0 a1 b q0 q1 w co si c rad).val x ≤ 0) :
    ⟪-(!₂[a0.val x, a1.val x] : Pt 2), !₂[q0.val x, q1.val x] + rotL φ c⟫ + rad ≤ - b.val x := by
  have e : (obsCon2 a0 a1 b q0 q1 w co si c rad).val x
      = (⟪-(!₂[a0.val x, a1.val x] : Pt 2), !₂[q0.val x, q1.val x] + rotL φ c⟫ + rad + b.val x) * w.val x := by
    rw [inner2]
    simp only [obsCon2, Expr.sub, Expr.val, hco, hsi]
    show _ = (- a0.val x * (q0.val x + (Real.cos φ * c 0 - Real.sin φ * c 1))
      + - a1.val x * (q1.val x + (Real.sin φ * c 0 + Real.cos φ * c 1)) + rad + b.val x) * w.val x
    ring
  rw [e] at h
  have := nonpos_of_mul_nonpos_left h hw
  linarith

/-! ## C10 -/

/-- **C10** (plane, at one time) If the constraints written for a vehicle shape and an obstacle shape
hold at time `x`, then every point of the vehicle is at least the safety distance minus the slack
`eps` away from every point of the obstacle, and the cores are apart by both radii more. -/
theorem C10_2d_at (veh obs : Shape 2) (a0 a1 b tg p0 p1 eps q0 q1 w co si : Expr ℝ) (offset sd x φ : ℝ)
    (hw : 0 < w.val x) (hco : co.val x = w.val x * Real.cos φ) (hsi : si.val x = w.val x * Real.sin φ)
    (hn : (normCon [a0, a1]).val x ≤ 0)
    (hv : ∀ c ∈ veh.chk, (vehCon2 a0 a1 b tg p0 p1 eps offset sd c veh.rad).val x ≤ 0)
    (ho : ∀ c ∈ obs.chk, (obsCon2 a0 a1 b q0 q1 w co si c obs.rad).val x ≤ 0) :
    let θ := heading (tg.val x)
    let pv := carried (p0.val x) (p1.val x) offset θ
    let po : Pt 2 := !₂[q0.val x, q1.val x]
    (∀ p ∈ placed pv θ veh.region, ∀ q ∈ placed po φ obs.region, sd - eps.val x ≤ dist p q) ∧
    (∀ p ∈ placed pv θ veh.core, ∀ q ∈ placed po φ obs.core,
      sd - eps.val x + veh.rad + obs.rad ≤ dist p q) := by
  intro θ pv po
  set a : Pt 2 := !₂[a0.val x, a1.val x] with hadef
  have ha : ‖a‖ ≤ 1 := by
    apply norm_le_one2
    simp only [normCon, List.foldl_cons, List.foldl_nil, Expr.sub, Expr.val] at hn
    show a0.val x * a0.val x + a1.val x * a1.val x - 1 ≤ 0
    linarith
  obtain ⟨v1, v2⟩ := halfspace veh a pv (rotL θ) (norm_rot θ) ha (b.val x - sd + eps.val x)
    (fun c hc => vehCon2_val _ _ _ _ _ _ _ _ _ c _ x (hv c hc))
  obtain ⟨o1, o2⟩ := halfspace obs (-a) po (rotL φ) (norm_rot φ) (by rwa [norm_neg]) (- b.val x)
    (fun c hc => obsCon2_val _ _ _ _ _ _ _ _ c _ x φ hw hco hsi (ho c hc))
  constructor
  · rintro _ ⟨p, hp, rfl⟩ _ ⟨q, hq, rfl⟩
    have h1 := v2 p hp
    have h2 := o2 q hq
    rw [inner_neg_left] at h2
    have := separated ha (p := pv + rot θ p) (q := po + rot φ q) h1
      (show b.val x ≤ ⟪a, po + rotL φ q⟫ by linarith)
    linarith
  · rintro _ ⟨p, hp, rfl⟩ _ ⟨q, hq, rfl⟩
    have h1 := v1 p hp
    have h2 := o1 q hq
    rw [inner_neg_left] at h2
    have := separated ha (p := pv + rot θ p) (q := po + rot φ q)
      (show ⟪a, pv + rotL θ p⟫ ≤ b.val x - sd + eps.val x - veh.rad by linarith)
      (show b.val x + obs.rad ≤ ⟪a, po + rotL φ q⟫ by linarith)
    linarith

/-- **C10** (plane, all times) If the coefficients of the constraint splines handed to the solver are
non-positive, the vehicle keeps its distance from the obstacle at every time `x` of the horizon
`[lo, hi]`.  `φ x` is the orientation that the obstacle's `cos`/`sin`/`weight` splines describe. -/
theorem C10_2d (veh obs : Shape 2) (a0 a1 b tg p0 p1 eps q0 q1 w co si : Expr ℝ) (offset sd lo hi : ℝ)
    (φ : ℝ → ℝ) (ha0 : a0.hasSpline)
    (on : ∀ e ∈ [a0, a1, b, tg, p0, p1, eps, q0, q1, w, co, si], e.On lo hi)
    (hrot : ∀ x, lo ≤ x → x ≤ hi → 0 < w.val x ∧ co.val x = w.val x * Real.cos (φ x) ∧
      si.val x = w.val x * Real.sin (φ x))
    (hn : (normCon [a0, a1]).Imposed 0)
    (hv : ∀ c ∈ veh.chk, (vehCon2 a0 a1 b tg p0 p1 eps offset sd c veh.rad).Imposed 0)
    (ho : ∀ c ∈ obs.chk, (obsCon2 a0 a1 b q0 q1 w co si c obs.rad).Imposed 0)
    (x : ℝ) (h0 : lo ≤ x) (h1 : x ≤ hi) :
    let θ := heading (tg.val x)
    let pv := carried (p0.val x) (p1.val x) offset θ
    let po : Pt 2 := !₂[q0.val x, q1.val x]
    (∀ p ∈ placed pv θ veh.region, ∀ q ∈ placed po (φ x) obs.region, sd - eps.val x ≤ dist p q) ∧
    (∀ p ∈ placed pv θ veh.core, ∀ q ∈ placed po (φ x) obs.core,
      sd - eps.val x + veh.rad + obs.rad ≤ dist p q) := by
  obtain ⟨w1, w2, w3⟩ := hrot x h0 h1
  simp only [List.mem_cons, List.not_mem_nil, or_false, forall_eq_or_imp, forall_eq] at on
  obtain ⟨oa0, oa1, ob, ot, op0, op1, oe, oq0, oq1, ow, oc, os⟩ := on
  refine C10_2d_at veh obs a0 a1 b tg p0 p1 eps q0 q1 w co si offset sd x (φ x) w1 w2 w3
    (C53_imposed _ ?_ ?_ 0 hn x h0 h1) (fun c hc => C53_imposed _ ?_ ?_ 0 (hv c hc) x h0 h1)
    (fun c hc => C53_imposed _ ?_ ?_ 0 (ho c hc) x h0 h1)
  · simp [normCon, Expr.sub, Expr.On, oa0, oa1]
  · simp [normCon, Expr.sub, Expr.hasSpline, ha0]
  · simp [vehCon2, Expr.sub, Expr.sq, Expr.On, oa0, oa1, ob, ot, op0, op1, oe]
  · simp [vehCon2, Expr.sub, Expr.sq, Expr.hasSpline, ha0]
  · simp [obsCon2, Expr.sub, Expr.On, oa0, oa1, ob, oq0, oq1, ow, oc, os]
  · simp [obsCon2, Expr.sub, Expr.hasSpline, ha0]

/-! ### In space -/

theorem vehCon3_val (a0 a1 a2 b p0 p1 p2 eps : Expr ℝ) (sd : ℝ) (c : Pt 3) (rad x : ℝ)
    (h : (vehCon3 a0 a1 a2 b p0 p1 p2 eps sd c rad).val x ≤ 0) :
    ⟪(!₂[a0.val x, a1.val x, a2.val x] : Pt 3), !₂[p0.val x, p1.val x, p2.val x] + c⟫ + rad
      ≤ b.val x - sd + eps.val x := by
  rw [inner3]
  simp only [vehCon3, Expr.sub, Expr.val] at h
  show a0.val x * (p0.val x + c 0) + a1.val x * (p1.val x + c 1) + a2.val x * (p2.val x + c 2) + rad ≤ _
  linarith

theorem obsCon3_val (a0 a1 a2 b q0 q1 q2 : Expr ℝ) (c : Pt 3) (rad x : ℝ)
    (h : (obsCon3 a0 a1 a2 b q0 q1 q2 c rad).val x ≤ 0) :
    ⟪-(!₂[a0.val x, a1.val x, a2.val x] : Pt 3), !₂[q0.val x, q1.val x, q2.val x] + c⟫ + rad
      ≤ - b.val x := by
  rw [inner_neg_left, inner3]
  simp only [obsCon3, Expr.val] at h
  show -(a0.val x * (q0.val x + c 0) + a1.val x * (q1.val x + c 1) + a2.val x * (q2.val x + c 2)) + rad ≤ _
  linarith

/-- **C10** (space, all times) The same for a vehicle and an obstacle in space. -/
theorem C10_3d (veh obs : Shape 3) (a0 a1 a2 b p0 p1 p2 eps q0 q1 q2 : Expr ℝ) (sd lo hi : ℝ)
    (ha0 : a0.hasSpline) (on : ∀ e ∈ [a0, a1, a2, b, p0, p1, p2, eps, q0, q1, q2], e.On lo hi)
    (hn : (normCon [a0, a1, a2]).Imposed 0)
    (hv : ∀ c ∈ veh.chk, (vehCon3 a0 a1 a2 b p0 p1 p2 eps sd c veh.rad).Imposed 0)
    (ho : ∀ c ∈ obs.chk, (obsCon3 a0 a1 a2 b q0 q1 q2 c obs.rad).Imposed 0)
    (x : ℝ) (h0 : lo ≤ x) (h1 : x ≤ hi) :
    let pv : Pt 3 := !₂[p0.val x, p1.val x, p2.val x]
    let po : Pt 3 := !₂[q0.val x, q1.val x, q2.val x]
    (∀ p ∈ shifted pv veh.region, ∀ q ∈ shifted po obs.region, sd - eps.val x ≤ dist p q) ∧
    (∀ p ∈ shifted pv veh.core, ∀ q ∈ shifted po obs.core,
      sd - eps.val x + veh.rad + obs.rad ≤ dist p q) := by
  intro pv po
  simp only [List.mem_cons, List.not_mem_nil, or_false, forall_eq_or_imp, forall_eq] at on
  obtain ⟨oa0, oa1, oa2, ob, op0, op1, op2, oe, oq0, oq1, oq2⟩ := on
  set a : Pt 3 := !₂[a0.val x, a1.val x, a2.val x] with hadef
  have hn' := C53_imposed _ (by simp [normCon, Expr.sub, Expr.On, oa0, oa1, oa2])
    (by simp [normCon, Expr.sub, Expr.hasSpline, ha0]) 0 hn x h0 h1
  have ha : ‖a‖ ≤ 1 := by
    apply norm_le_one3
    simp only [normCon, List.foldl_cons, List.foldl_nil, Expr.sub, Expr.val] at hn'
    show a0.val x * a0.val x + a1.val x * a1.val x + a2.val x * a2.val x - 1 ≤ 0
    linarith
  obtain ⟨v1, v2⟩ := halfspace veh a pv LinearMap.id (fun _ => rfl) ha (b.val x - sd + eps.val x)
    (fun c hc => vehCon3_val _ _ _ _ _ _ _ _ _ c _ x (C53_imposed _
      (by simp [vehCon3, Expr.sub, Expr.On, oa0, oa1, oa2, ob, op0, op1, op2, oe])
      (by simp [vehCon3, Expr.sub, Expr.hasSpline, ha0]) 0 (hv c hc) x h0 h1))
  obtain ⟨o1, o2⟩ := halfspace obs (-a) po LinearMap.id (fun _ => rfl) (by rwa [norm_neg]) (- b.val x)
    (fun c hc => obsCon3_val _ _ _ _ _ _ _ c _ x (C53_imposed _
      (by simp [obsCon3, Expr.On, oa0, oa1, oa2, ob, oq0, oq1, oq2])
      (by simp [obsCon3, Expr.hasSpline, ha0]) 0 (ho c hc) x h0 h1))
  constructor
  · rintro _ ⟨p, hp, rfl⟩ _ ⟨q, hq, rfl⟩
    have h1 : ⟪a, pv + p⟫ ≤ _ := v2 p hp
    have h2 : ⟪-a, po + q⟫ ≤ _ := o2 q hq
    rw [inner_neg_left] at h2
    have := separated ha h1 (show b.val x ≤ ⟪a, po + q⟫ by linarith)
    linarith
  · rintro _ ⟨p, hp, rfl⟩ _ ⟨q, hq, rfl⟩
    have h1 : ⟪a, pv + p⟫ + _ ≤ _ := v1 p hp
    have h2 : ⟪-a, po + q⟫ + _ ≤ _ := o1 q hq
    rw [inner_neg_left] at h2
    have := separated ha
      (show ⟪a, pv + p⟫ ≤ b.val x - sd + eps.val x - veh.rad by linarith)
      (show b.val x + obs.rad ≤ ⟪a, po + q⟫ by linarith)
    linarith

/-- **C10** (vehicle in space, planar obstacle = infinite vertical cylinder, environment.py:134-136:
the third component of the normal is the zero spline) The vehicle keeps its distance from every
point above or below the obstacle. -/
theorem C10_cylinder (veh : Shape 3) (obs : Shape 2) (a0 a1 b p0 p1 p2 eps q0 q1 w co si : Expr ℝ)
    (a2 : Expr ℝ) (sd lo hi : ℝ) (φ : ℝ → ℝ) (ha0 : a0.hasSpline)
    (hz : ∀ x, a2.val x = 0)
    (on : ∀ e ∈ [a0, a1, b, p0, p1, p2, eps, q0, q1, w, co, si, a2], e.On lo hi)
    (hrot : ∀ x, lo ≤ x → x ≤ hi → 0 < w.val x ∧ co.val x = w.val x * Real.cos (φ x) ∧
      si.val x = w.val x * Real.sin (φ x))
    (hn : (normCon [a0, a1]).Imposed 0)
    (hv : ∀ c ∈ veh.chk, (vehCon3 a0 a1 a2 b p0 p1 p2 eps sd c veh.rad).Imposed 0)
    (ho : ∀ c ∈ obs.chk, (obsCon2 a0 a1 b q0 q1 w co si c obs.rad).Imposed 0)
    (x : ℝ) (h0 : lo ≤ x) (h1 : x ≤ hi) :
    (∀ p ∈ shifted (!₂[p0.val x, p1.val x, p2.val x] : Pt 3) veh.region,
      ∀ q : Pt 3, (!₂[q 0, q 1] : Pt 2) ∈ placed !₂[q0.val x, q1.val x] (φ x) obs.region →
        sd - eps.val x ≤ dist p q) ∧
    (∀ p ∈ shifted (!₂[p0.val x, p1.val x, p2.val x] : Pt 3) veh.core,
      ∀ q : Pt 3, (!₂[q 0, q 1] : Pt 2) ∈ placed !₂[q0.val x, q1.val x] (φ x) obs.core →
        sd - eps.val x + veh.rad + obs.rad ≤ dist p q) := by
  obtain ⟨w1, w2, w3⟩ := hrot x h0 h1
  simp only [List.mem_cons, List.not_mem_nil, or_false, forall_eq_or_imp, forall_eq] at on
  obtain ⟨oa0, oa1, ob, op0, op1, op2, oe, oq0, oq1, ow, oc, os, oz⟩ := on
  have hn' := C53_imposed _ (by simp [normCon, Expr.sub, Expr.On, oa0, oa1])
    (by simp [normCon, Expr.sub, Expr.hasSpline, ha0]) 0 hn x h0 h1
  simp only [normCon, List.foldl_cons, List.foldl_nil, Expr.sub, Expr.val] at hn'
  set a : Pt 3 := !₂[a0.val x, a1.val x, a2.val x] with hadef
  have ha : ‖a‖ ≤ 1 := by
    apply norm_le_one3
    show a0.val x * a0.val x + a1.val x * a1.val x + a2.val x * a2.val x - 1 ≤ 0
    rw [hz x]
    linarith
  set a' : Pt 2 := !₂[a0.val x, a1.val x] with ha'def
  have ha' : ‖a'‖ ≤ 1 := by
    apply norm_le_one2
    show a0.val x * a0.val x + a1.val x * a1.val x - 1 ≤ 0
    linarith
  obtain ⟨v1, v2⟩ := halfspace veh a !₂[p0.val x, p1.val x, p2.val x] LinearMap.id (fun _ => rfl) ha
    (b.val x - sd + eps.val x)
    (fun c hc => vehCon3_val _ _ _ _ _ _ _ _ _ c _ x (C53_imposed _
      (by simp [vehCon3, Expr.sub, Expr.On, oa0, oa1, oz, ob, op0, op1, op2, oe])
      (by simp [vehCon3, Expr.sub, Expr.hasSpline, ha0]) 0 (hv c hc) x h0 h1))
  obtain ⟨o1, o2⟩ := halfspace obs (-a') !₂[q0.val x, q1.val x] (rotL (φ x)) (norm_rot _)
    (by rwa [norm_neg]) (- b.val x)
    (fun c hc => obsCon2_val _ _ _ _ _ _ _ _ c _ x _ w1 w2 w3 (C53_imposed _
      (by simp [obsCon2, Expr.sub, Expr.On, oa0, oa1, ob, oq0, oq1, ow, oc, os])
      (by simp [obsCon2, Expr.sub, Expr.hasSpline, ha0]) 0 (ho c hc) x h0 h1))
  have e3 : ∀ (q : Pt 3) (q' : Pt 2), (!₂[q 0, q 1] : Pt 2) = !₂[q0.val x, q1.val x] + rotL (φ x) q' →
      ⟪a', !₂[q0.val x, q1.val x] + rotL (φ x) q'⟫ = ⟪a, q⟫ := by
    intro q q' hqq
    rw [← hqq, inner2, inner3]
    show a0.val x * q 0 + a1.val x * q 1 = a0.val x * q 0 + a1.val x * q 1 + a2.val x * q 2
    rw [hz x]; ring
  constructor
  · rintro _ ⟨p, hp, rfl⟩ q ⟨q', hq', hqq⟩
    have e1 : ⟪a, !₂[p0.val x, p1.val x, p2.val x] + p⟫ ≤ _ := v2 p hp
    have e2 := o2 q' hq'
    rw [inner_neg_left, e3 q q' hqq] at e2
    have := separated ha e1 (show b.val x ≤ ⟪a, q⟫ by linarith)
    linarith
  · rintro _ ⟨p, hp, rfl⟩ q ⟨q', hq', hqq⟩
    have e1 : ⟪a, !₂[p0.val x, p1.val x, p2.val x] + p⟫ + _ ≤ _ := v1 p hp
    have e2 := o1 q' hq'
    rw [inner_neg_left, e3 q q' hqq] at e2
    have := separated ha
      (show ⟪a, !₂[p0.val x, p1.val x, p2.val x] + p⟫ ≤ b.val x - sd + eps.val x - veh.rad by linarith)
      (show b.val x + obs.rad ≤ ⟪a, q⟫ by linarith)
    linarith

end Verif.Collision
