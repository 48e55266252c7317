import Verif.Collision.Props2
import Verif.Vehicles.Goal
import Verif.Timing.Deploy
import Verif.GCode.RingGuess
import Verif.Spline.Usable
import Mathlib.Analysis.Calculus.Deriv.Comp
import Mathlib.Analysis.Calculus.Deriv.Add

/-! # A simulated drive from start to goal

A holonomic vehicle (`syslimit = 'norm_inf'`) drives to a goal with a point-to-point problem with free end time in one upright rectangular room with
obstacles; the simulator updates the plan every `q` samples.  The pieces proved about the constraints (C10, C11, C13, C122, C123) and about the loop of
deployer and simulator (C126, C127) are put together. -/

set_option linter.unusedSectionVars false

namespace Verif.Problems

open Verif.Spline Verif.Vehicles Verif.Collision Verif.Timing

/-! ## Model -/

/-- What the user sets up: shapes and options of the vehicle (vehicle.py:76-99), bounds, goal, and the room (position and sides). -/
structure Setup where
  shapes : List (Shape 2)
  sd : ℝ
  bounds : Bounds
  degree : ℕ
  intervals : ℕ
  goal : Fin 2 → ℝ
  width : ℝ
  height : ℝ
  room : ℝ × ℝ

/-- The values of one solution of the optimisation problem: motion time, splines of the vehicle, separating lines and slack splines
(environment.py:120-131, vehicle.py:138-146); with the parameters for which it was solved: the predicted obstacles and the state and input from which the
vehicle is to start. -/
structure Upd where
  T : ℝ
  x : Fin 2 → BSpline ℝ
  hyp : ℕ → ℕ → Hyp
  eps : ℕ → ℕ → BSpline ℝ
  obs : List Obs
  start : Holo 2

/-- The vehicle as `define_collision_constraints` sees it, holonomic.py:107-108: the shapes move with the splines and do not turn. -/
noncomputable def Setup.veh (S : Setup) (u : Upd) : Veh where
  shapes := S.shapes
  p0 := fun _ => .spl (u.x 0)
  p1 := fun _ => .spl (u.x 1)
  tg := .num 0
  offset := 0
  sd := S.sd
  epsVar := u.eps

/-- All variables of `FreeTPoint2point` have values that meet all its constraints, point2point.py:31-66,288-311: splines on the basis of the vehicle
(vehicle.py:94-99), limits, obstacles, room, start (`t0 = 0`) and end. -/
structure Solves (S : Setup) (u : Upd) : Prop where
  positive : (-u.T) ≤ 0
  form : ∀ i, ∃ c, c.length = S.intervals + S.degree ∧ u.x i = ⟨vehBasis S.degree S.intervals, c⟩
  lines : ∀ k l, (u.hyp k l).On 0 1
  slacks : ∀ s k, (Expr.spl (u.eps s k)).On 0 1
  limits : ∀ e ∈ holoInf S.bounds (u.x 0) (u.x 1) u.T, e.Imposed 0
  avoid : ∀ e ∈ envCons (S.veh u) u.obs u.hyp, e.Imposed 0
  inside : ∀ s ∈ S.shapes, ∀ e ∈ roomConsRect s (.spl (u.x 0)) (.spl (u.x 1)) (Geometry.placedRect S.width S.height S.room).limits, e.Imposed 0
  starts : MeetsInit (holoInit u.x u.start u.T) (0 / u.T)
  ends : MeetsEnd (imposedFree false (holoTerm u.x S.goal S.degree))

/-- The columns that `FreeTPoint2point.store` (point2point.py:327-342) stores: state, input and its derivative on the time axis `0, Ts, 2 Ts, ...`. -/
noncomputable def Upd.cols (Ts : ℝ) (u : Upd) : List (Holo 2) :=
  (List.range ((samples u.T Ts).toNat + 1)).map fun (i : ℕ) => holoSignals (fun j => (u.x j).scale u.T 0) (i * Ts)

/-! ## Specification -/

/-- What an obstacle really does: its shape, and where it is and how it is turned at every time. -/
structure Mover where
  shape : Shape 2
  pos : ℝ → Pt 2
  angle : ℝ → ℝ

/-- The obstacles as predicted in an update at time `t0` are the obstacles that there are (all to be avoided), and for a time `d` they do what was predicted. -/
def Spec.Predicted (world : List Mover) (t0 d : ℝ) (u : Upd) : Prop :=
  u.obs.length = world.length ∧ ∀ (l : ℕ) (o : Obs) (w : Mover), u.obs[l]? = some o → world[l]? = some w → o.shape = w.shape ∧ o.avoid = true ∧
    ∃ φ : ℝ → ℝ, o.On 0 1 φ ∧
      ∀ r, 0 ≤ r → r ≤ d → (!₂[o.q0.val (r / u.T), o.q1.val (r / u.T)] : Pt 2) = w.pos (t0 + r) ∧ φ (r / u.T) = w.angle (t0 + r)

/-- A motion of the vehicle during `[0, total]`, with its velocity and acceleration, that is safe. -/
structure Spec.Safe (S : Setup) (world : List Mover) (total : ℝ) (pos vel acc : ℝ → Fin 2 → ℝ) : Prop where
  moves : ∀ i, ∀ t ∈ Set.Icc 0 total, HasDerivWithinAt (fun t => pos t i) (vel t i) (Set.Icc 0 total) t
  smooth : ∀ i, ContinuousOn (fun t => vel t i) (Set.Icc 0 total)
  speeds : ∀ i, ∀ t ∈ Set.Ico 0 total, HasDerivWithinAt (fun t => vel t i) (acc t i) (Set.Icc t total) t
  limitX : ∀ t ∈ Set.Icc 0 total,
    (holoLim S.bounds "vxmin" "vmin" (-(1 / 2)) ≤ vel t 0 ∧ vel t 0 ≤ holoLim S.bounds "vxmax" "vmax" (1 / 2)) ∧
    (holoLim S.bounds "axmin" "amin" (-1) ≤ acc t 0 ∧ acc t 0 ≤ holoLim S.bounds "axmax" "amax" 1)
  limitY : ∀ t ∈ Set.Icc 0 total,
    (holoLim S.bounds "vymin" "vmin" (-(1 / 2)) ≤ vel t 1 ∧ vel t 1 ≤ holoLim S.bounds "vymax" "vmax" (1 / 2)) ∧
    (holoLim S.bounds "aymin" "amin" (-1) ≤ acc t 1 ∧ acc t 1 ≤ holoLim S.bounds "aymax" "amax" 1)
  room : ∀ t ∈ Set.Icc 0 total, ∀ s ∈ S.shapes, ∀ p ∈ shifted !₂[pos t 0, pos t 1] s.region,
    Geometry.InRect S.width S.height S.room (p 0, p 1)
  apart : ∀ t ∈ Set.Icc 0 total, ∀ s ∈ S.shapes, ∀ w ∈ world, ∀ p ∈ shifted !₂[pos t 0, pos t 1] s.core,
    ∀ p' ∈ placed (w.pos t) (w.angle t) w.shape.core, s.rad + w.shape.rad ≤ dist p p'

/-! ## Following one thing after the other -/

section Glue
variable {α : Type}

/-- Which of the things `a :: l`, each followed for a time `u` and the last one until its end, is followed at time `t`, and since when. -/
noncomputable def locate (u : ℝ) : α → List α → ℝ → α × ℝ
  | a, [], t => (a, t)
  | a, b :: l, t => if t < u then (a, t) else locate u b l (t - u)

/-- When everything has been followed. -/
noncomputable def lastTime (u : ℝ) (T : α → ℝ) : α → List α → ℝ
  | a, [] => T a
  | _, b :: l => u + lastTime u T b l

theorem locate_zero {u : ℝ} (hu : 0 < u) (a : α) (l : List α) : locate u a l 0 = (a, 0) := by
  cases l with
  | nil => rfl
  | cons b l => rw [locate, if_pos hu]

theorem lastTime_eq (u : ℝ) (T : α → ℝ) : ∀ (a : α) (l : List α),
    lastTime u T a l = l.length * u + T ((a :: l).getLast (List.cons_ne_nil _ _))
  | a, [] => by simp [lastTime]
  | a, b :: l => by
    rw [lastTime, lastTime_eq u T b l, List.getLast_cons_cons, List.length_cons]
    push_cast; ring

theorem lastTime_pos {u : ℝ} (hu : 0 < u) {T : α → ℝ} : ∀ (a : α) (l : List α), (∀ c ∈ a :: l, u ≤ T c) → u ≤ lastTime u T a l
  | a, [], h => h a (by simp)
  | a, b :: l, h => by
    have := lastTime_pos hu b l fun c hc => h c (List.mem_cons_of_mem _ hc)
    rw [lastTime]; linarith

theorem locate_at {u : ℝ} (hu : 0 < u) : ∀ (a : α) (l : List α) (k : ℕ) (c : α) (r : ℝ), (a :: l)[k]? = some c → 0 ≤ r →
    (r < u ∨ k = l.length) → locate u a l (k * u + r) = (c, r)
  | a, [], k, c, r, hk, h0, hr => by
    cases k with
    | zero => simp at hk; subst hk; simp [locate]
    | succ k => simp at hk
  | a, b :: l, k, c, r, hk, h0, hr => by
    cases k with
    | zero =>
      simp at hk hr
      subst hk
      simp [locate, hr]
    | succ k =>
      have h1 : ¬ ((k + 1 : ℕ) : ℝ) * u + r < u := by
        push_cast
        have : 0 ≤ (k : ℝ) * u := by positivity
        nlinarith
      rw [locate, if_neg h1, show ((k + 1 : ℕ) : ℝ) * u + r - u = k * u + r by push_cast; ring]
      refine locate_at hu b l k c r (by simpa using hk) h0 (hr.imp id fun h => by simpa using h)

theorem locate_cases {u : ℝ} (hu : 0 < u) {T : α → ℝ} : ∀ (a : α) (l : List α), (∀ c ∈ a :: l, u ≤ T c) → ∀ t, 0 ≤ t →
    t ≤ lastTime u T a l → ∃ (k : ℕ) (c : α) (r : ℝ), (a :: l)[k]? = some c ∧ t = k * u + r ∧ 0 ≤ r ∧ r ≤ T c ∧ (r < u ∨ k = l.length) ∧
      locate u a l t = (c, r)
  | a, [], h, t, h0, h1 => ⟨0, a, t, rfl, by simp, h0, h1, Or.inr rfl, rfl⟩
  | a, b :: l, h, t, h0, h1 => by
    rcases lt_or_ge t u with hlt | hge
    · exact ⟨0, a, t, rfl, by simp, h0, hlt.le.trans (h a (by simp)), Or.inl hlt, by rw [locate, if_pos hlt]⟩
    · rw [lastTime] at h1
      obtain ⟨k, c, r, e1, e2, e3, e4, e5, e6⟩ := locate_cases hu b l (fun c hc => h c (List.mem_cons_of_mem _ hc)) (t - u)
        (by linarith) (by linarith)
      refine ⟨k + 1, c, r, by simpa using e1, by push_cast; linarith, e3, e4, e5.imp id fun h => by simp [h], ?_⟩
      rw [locate, if_neg (not_lt.2 hge), e6]

/-- The values of `F` along the way. -/
noncomputable def along (u : ℝ) (F : α → ℝ → ℝ) (a : α) (l : List α) (t : ℝ) : ℝ := F (locate u a l t).1 (locate u a l t).2

theorem along_left {u : ℝ} (hu : 0 < u) {F : α → ℝ → ℝ} {a b : α} {l : List α} (hj : F a u = F b 0) {t : ℝ} (h : t ≤ u) :
    along u F a (b :: l) t = F a t := by
  rcases h.lt_or_eq with h | rfl
  · rw [along, locate, if_pos h]
  · rw [along, locate, if_neg (lt_irrefl _), sub_self, locate_zero hu, hj]

theorem along_right {u : ℝ} {F : α → ℝ → ℝ} {a b : α} {l : List α} {t : ℝ} (h : u ≤ t) :
    along u F a (b :: l) t = along u F b l (t - u) := by
  rw [along, locate, if_neg (not_lt.2 h), along]

theorem Icc_glue {u m : ℝ} (hu : 0 ≤ u) (hm : 0 ≤ m) : Set.Icc 0 (u + m) = Set.Icc 0 u ∪ Set.Icc u (u + m) :=
  (Set.Icc_union_Icc_eq_Icc hu (by linarith)).symm

theorem right_shift {u m : ℝ} {g : ℝ → ℝ} {g' t : ℝ} (h : HasDerivWithinAt g g' (Set.Icc 0 m) (t - u)) :
    HasDerivWithinAt (fun t => g (t - u)) g' (Set.Icc u (u + m)) t := by
  have := h.comp t ((hasDerivAt_id t).sub_const u).hasDerivWithinAt (s := Set.Icc u (u + m))
    (fun x hx => Set.mem_Icc.2 ⟨by simpa using hx.1, by simp only [id]; linarith [hx.2]⟩)
  simpa [Function.comp_def] using this

theorem outside {f : ℝ → ℝ} {f' a b t : ℝ} (h : t < a ∨ b < t) : HasDerivWithinAt f f' (Set.Icc a b) t := by
  refine HasFDerivWithinAt.of_notMem_closure ?_
  rw [isClosed_Icc.closure_eq, Set.mem_Icc, not_and_or, not_le, not_le]
  exact h

theorem along_deriv {u : ℝ} (hu : 0 < u) {T : α → ℝ} {F G : α → ℝ → ℝ} : ∀ (a : α) (l : List α), (∀ c ∈ a :: l, u ≤ T c) →
    (∀ c ∈ a :: l, ∀ r ∈ Set.Icc 0 (T c), HasDerivWithinAt (F c) (G c r) (Set.Icc 0 (T c)) r) →
    (a :: l).IsChain (fun c d => F c u = F d 0 ∧ G c u = G d 0) →
    ∀ t ∈ Set.Icc 0 (lastTime u T a l), HasDerivWithinAt (along u F a l) (along u G a l t) (Set.Icc 0 (lastTime u T a l)) t
  | a, [], _, hd, _, t, ht => hd a (by simp) t ht
  | a, b :: l, hT, hd, hc, t, ht => by
    obtain ⟨hj, hc'⟩ := List.isChain_cons_cons.1 hc
    have hT' : ∀ c ∈ b :: l, u ≤ T c := fun c h => hT c (List.mem_cons_of_mem _ h)
    have hm : 0 ≤ lastTime u T b l := hu.le.trans (lastTime_pos hu b l hT')
    have ih := along_deriv hu b l hT' (fun c h => hd c (List.mem_cons_of_mem _ h)) hc'
    rw [lastTime] at ht ⊢
    rw [Icc_glue hu.le hm]
    refine HasDerivWithinAt.union ?_ ?_
    · rcases le_or_gt t u with h | h
      · rw [along_left hu hj.2 h]
        refine HasDerivWithinAt.congr (f := F a) ((hd a (by simp) t ⟨ht.1, h.trans (hT a (by simp))⟩).mono
          (Set.Icc_subset_Icc_right (hT a (by simp)))) (fun x hx => along_left hu hj.1 hx.2) (along_left hu hj.1 h)
      · exact outside (Or.inr h)
    · rcases lt_or_ge t u with h | h
      · exact outside (Or.inl h)
      · rw [along_right h]
        exact (right_shift (ih (t - u) ⟨by linarith, by linarith [ht.2]⟩)).congr (fun x hx => along_right hx.1) (along_right h)

theorem along_right_deriv {u : ℝ} (hu : 0 < u) {T : α → ℝ} {F G : α → ℝ → ℝ} : ∀ (a : α) (l : List α), (∀ c ∈ a :: l, u ≤ T c) →
    (∀ c ∈ a :: l, ∀ r ∈ Set.Icc 0 (T c), HasDerivWithinAt (F c) (G c r) (Set.Icc 0 (T c)) r) →
    ∀ t ∈ Set.Ico 0 (lastTime u T a l), HasDerivWithinAt (along u F a l) (along u G a l t) (Set.Icc t (lastTime u T a l)) t
  | a, [], _, hd, t, ht => (hd a (by simp) t ⟨ht.1, ht.2.le⟩).mono (Set.Icc_subset_Icc_left ht.1)
  | a, b :: l, hT, hd, t, ht => by
    have hT' : ∀ c ∈ b :: l, u ≤ T c := fun c h => hT c (List.mem_cons_of_mem _ h)
    have ih := along_right_deriv hu b l hT' (fun c h => hd c (List.mem_cons_of_mem _ h))
    rw [lastTime] at ht ⊢
    rcases lt_or_ge t u with h | h
    · have e : along u G a (b :: l) t = G a t := by rw [along, locate, if_pos h]
      rw [e]
      have h1 : HasDerivWithinAt (F a) (G a t) (Set.Ico t u) t :=
        (hd a (by simp) t ⟨ht.1, h.le.trans (hT a (by simp))⟩).mono fun x hx => ⟨ht.1.trans hx.1, hx.2.le.trans (hT a (by simp))⟩
      have h2 : HasDerivWithinAt (along u F a (b :: l)) (G a t) (Set.Ico t u) t :=
        h1.congr (fun x hx => by rw [along, locate, if_pos hx.2]) (by rw [along, locate, if_pos h])
      refine h2.mono_of_mem_nhdsWithin ?_
      refine mem_nhdsWithin.2 ⟨Set.Iio u, isOpen_Iio, h, fun x hx => ⟨hx.2.1, hx.1⟩⟩
    · rw [along_right h]
      have := (ih (t - u) ⟨by linarith, by linarith [ht.2]⟩)
      have h2 : HasDerivWithinAt (fun t => along u F b l (t - u)) (along u G b l (t - u)) (Set.Icc t (u + lastTime u T b l)) t := by
        have := this.comp t ((hasDerivAt_id t).sub_const u).hasDerivWithinAt (s := Set.Icc t (u + lastTime u T b l))
          (fun x hx => Set.mem_Icc.2 ⟨by simpa using hx.1, by simp only [id]; linarith [hx.2]⟩)
        simpa [Function.comp_def] using this
      exact h2.congr (fun x hx => along_right (h.trans hx.1)) (along_right h)

theorem along_cont {u : ℝ} (hu : 0 < u) {T : α → ℝ} {F : α → ℝ → ℝ} : ∀ (a : α) (l : List α), (∀ c ∈ a :: l, u ≤ T c) →
    (∀ c ∈ a :: l, ContinuousOn (F c) (Set.Icc 0 (T c))) →
    (a :: l).IsChain (fun c d => F c u = F d 0) → ContinuousOn (along u F a l) (Set.Icc 0 (lastTime u T a l))
  | a, [], _, hd, _ => hd a (by simp)
  | a, b :: l, hT, hd, hc => by
    obtain ⟨hj, hc'⟩ := List.isChain_cons_cons.1 hc
    have hT' : ∀ c ∈ b :: l, u ≤ T c := fun c h => hT c (List.mem_cons_of_mem _ h)
    have hm : 0 ≤ lastTime u T b l := hu.le.trans (lastTime_pos hu b l hT')
    have ih := along_cont hu b l hT' (fun c h => hd c (List.mem_cons_of_mem _ h)) hc'
    rw [lastTime, Icc_glue hu.le hm]
    refine ContinuousOn.union_of_isClosed ?_ ?_ isClosed_Icc isClosed_Icc
    · exact ((hd a (by simp)).mono (Set.Icc_subset_Icc_right (hT a (by simp)))).congr fun x hx => along_left hu hj hx.2
    · refine ContinuousOn.congr (f := fun t => along u F b l (t - u)) ?_ fun x hx => along_right hx.1
      exact ih.comp ((continuous_id.sub continuous_const).continuousOn) fun x hx => Set.mem_Icc.2
        ⟨by simpa using hx.1, by linarith [hx.2]⟩

end Glue

/-! ## One plan -/

section One
variable {S : Setup} {u : Upd}

/-- Position, velocity and acceleration of the plan. -/
noncomputable def Upd.pos (i : Fin 2) (u : Upd) (r : ℝ) : ℝ := (u.x i).eval (r / u.T)
noncomputable def Upd.vel (i : Fin 2) (u : Upd) (r : ℝ) : ℝ := ((u.x i).derivative 1).eval (r / u.T) / u.T
noncomputable def Upd.acc (i : Fin 2) (u : Upd) (r : ℝ) : ℝ := ((u.x i).derivative 2).eval (r / u.T) / u.T ^ 2

theorem Solves.traj (h : Solves S u) (hd : 3 ≤ S.degree) (hn : 1 ≤ S.intervals) (i : Fin 2) : Traj (u.x i) 2 := by
  obtain ⟨c, hc, e⟩ := h.form i
  rw [e]
  exact (vehBasis_traj (by omega) hn hc).mono (by omega)

theorem signals_eq (hx : ∀ i, Traj (u.x i) 2) (hT : 0 < u.T) (t : ℝ) :
    holoSignals (fun j => (u.x j).scale u.T 0) t = ⟨fun i => u.pos i t, fun i => u.vel i t, fun i => u.acc i t⟩ := by
  unfold holoSignals Upd.pos Upd.vel Upd.acc
  congr 1 <;> funext i
  · exact (hx i).sig0 hT t
  · exact Traj.sig1 (n := 1) (hx i) hT t
  · exact Traj.sig2 (n := 0) (hx i) hT t

theorem pos_deriv (hx : ∀ i, Traj (u.x i) 2) (hT : 0 < u.T) (i : Fin 2) : ∀ r ∈ Set.Icc 0 u.T,
    HasDerivWithinAt (u.pos i) (u.vel i r) (Set.Icc 0 u.T) r := fun _ hr => GCode.RingGuess.phys_within (m := 1) (hx i) hT hr

theorem vel_deriv (hx : ∀ i, Traj (u.x i) 2) (hT : 0 < u.T) (i : Fin 2) : ∀ r ∈ Set.Icc 0 u.T,
    HasDerivWithinAt (u.vel i) (u.acc i r) (Set.Icc 0 u.T) r := fun r hr => by
  have := (GCode.RingGuess.phys_within (m := 0) (hx i).succ hT hr).div_const u.T
  unfold Upd.acc
  rw [derivative_succ, pow_two, ← div_div]
  exact this

theorem cols_get (hx : ∀ i, Traj (u.x i) 2) {Ts : ℝ} (hs : 0 < Ts) (hT : 0 < u.T) {q i : ℕ} (hq : q * Ts ≤ u.T) (hi : i ≤ q) :
    (u.cols Ts)[i]? = some ⟨fun j => u.pos j (i * Ts), fun j => u.vel j (i * Ts), fun j => u.acc j (i * Ts)⟩ := by
  have h1 : ((q : ℕ) : ℝ) ≤ u.T / Ts := (le_div_iff₀ hs).2 hq
  have h2 : (q : ℤ) ≤ samples u.T Ts := by
    have := pyInt_mono (round6_mono h1)
    have e : ((q : ℕ) : ℝ) = ((q : ℤ) : ℝ) := by norm_cast
    rwa [e, round6_intCast, pyInt_intCast] at this
  have h3 : i < (samples u.T Ts).toNat + 1 := by omega
  unfold Upd.cols
  rw [List.getElem?_map, List.getElem?_range h3, Option.map_some, signals_eq hx hT]

theorem limits_of (hlim : ∀ e ∈ holoInf S.bounds (u.x 0) (u.x 1) u.T, e.Imposed 0) (hx : ∀ i, Traj (u.x i) 2) (hT : 0 < u.T) {r : ℝ} (h0 : 0 ≤ r) (h1 : r ≤ u.T) :
    ((holoLim S.bounds "vxmin" "vmin" (-(1 / 2)) ≤ u.vel 0 r ∧ u.vel 0 r ≤ holoLim S.bounds "vxmax" "vmax" (1 / 2)) ∧
    (holoLim S.bounds "axmin" "amin" (-1) ≤ u.acc 0 r ∧ u.acc 0 r ≤ holoLim S.bounds "axmax" "amax" 1)) ∧
    ((holoLim S.bounds "vymin" "vmin" (-(1 / 2)) ≤ u.vel 1 r ∧ u.vel 1 r ≤ holoLim S.bounds "vymax" "vmax" (1 / 2)) ∧
    (holoLim S.bounds "aymin" "amin" (-1) ≤ u.acc 1 r ∧ u.acc 1 r ≤ holoLim S.bounds "aymax" "amax" 1)) := by
  obtain ⟨a, b, -⟩ := C13_signals S.bounds (u.x 0) (u.x 1) (hx 0) (hx 1) u.T hT hlim r h0 h1
  have e := signals_eq hx hT r
  have e1 : ∀ i, inputSignal (u.x i) u.T r = u.vel i r := fun i => congrFun (congrArg Holo.input e) i
  have e2 : ∀ i, dinputSignal (u.x i) u.T r = u.acc i r := fun i => congrFun (congrArg Holo.dinput e) i
  rw [e1, e2] at a b
  exact ⟨a, b⟩

theorem Solves.limits_at (h : Solves S u) (hx : ∀ i, Traj (u.x i) 2) (hT : 0 < u.T) {r : ℝ} (h0 : 0 ≤ r) (h1 : r ≤ u.T) :
    ((holoLim S.bounds "vxmin" "vmin" (-(1 / 2)) ≤ u.vel 0 r ∧ u.vel 0 r ≤ holoLim S.bounds "vxmax" "vmax" (1 / 2)) ∧
    (holoLim S.bounds "axmin" "amin" (-1) ≤ u.acc 0 r ∧ u.acc 0 r ≤ holoLim S.bounds "axmax" "amax" 1)) ∧
    ((holoLim S.bounds "vymin" "vmin" (-(1 / 2)) ≤ u.vel 1 r ∧ u.vel 1 r ≤ holoLim S.bounds "vymax" "vmax" (1 / 2)) ∧
    (holoLim S.bounds "aymin" "amin" (-1) ≤ u.acc 1 r ∧ u.acc 1 r ≤ holoLim S.bounds "aymax" "amax" 1)) :=
  limits_of h.limits hx hT h0 h1

theorem Solves.room_at (h : Solves S u) (hx : ∀ i, Traj (u.x i) 2) (hw : 0 ≤ S.width) (hh : 0 ≤ S.height) (hT : 0 < u.T) {r : ℝ}
    (h0 : 0 ≤ r) (h1 : r ≤ u.T) : ∀ s ∈ S.shapes, ∀ p ∈ shifted !₂[u.pos 0 r, u.pos 1 r] s.region,
    Geometry.InRect S.width S.height S.room (p 0, p 1) := fun s hs =>
  C11_rectangle s (.spl (u.x 0)) (.spl (u.x 1)) S.width S.height 0 1 hw hh S.room ⟨(hx 0).on, (hx 1).on⟩ ⟨trivial, trivial⟩
    (h.inside s hs) (r / u.T) (div_nonneg h0 hT.le) ((div_le_one hT).2 h1)

theorem placed_zero (p : Pt 2) (A : Set (Pt 2)) : placed p 0 A = shifted p A := by
  have : ∀ q : Pt 2, rot 0 q = q := fun q => by
    ext i; fin_cases i <;> simp [rot]
  unfold placed shifted
  simp only [this]

theorem apart_of (hsl : ∀ s k, (Expr.spl (u.eps s k)).On 0 1) (hli : ∀ k l, (u.hyp k l).On 0 1)
    (hav : ∀ e ∈ envCons (S.veh u) u.obs u.hyp, e.Imposed 0) (hx : ∀ i, Traj (u.x i) 2) (hT : 0 < u.T) (hS : 0 ≤ S.sd) {world : List Mover} {t0 d : ℝ}
    (hp : Spec.Predicted world t0 d u) {r : ℝ} (h0 : 0 ≤ r) (h1 : r ≤ u.T) (hd : r ≤ d) :
    ∀ s ∈ S.shapes, ∀ w ∈ world, ∀ p ∈ shifted !₂[u.pos 0 r, u.pos 1 r] s.core,
    ∀ p' ∈ placed (w.pos (t0 + r)) (w.angle (t0 + r)) w.shape.core, s.rad + w.shape.rad ≤ dist p p' := by
  intro s hs w hw p hpp p' hpp'
  obtain ⟨k, hk⟩ := List.mem_iff_getElem?.1 hs
  obtain ⟨l, hl⟩ := List.mem_iff_getElem?.1 hw
  have hlen : l < u.obs.length := by rw [hp.1]; exact (List.getElem?_eq_some_iff.1 hl).1
  obtain ⟨e1, e2, φ, e3, e4⟩ := hp.2 l _ w (List.getElem?_eq_getElem hlen) hl
  have all : ∀ l' : ℕ, ∃ φ : ℝ → ℝ, ∀ o : Obs, u.obs[l']? = some o → o.On 0 1 φ := fun l' => by
    by_cases hl' : l' < u.obs.length
    · obtain ⟨-, -, φ, a, -⟩ := hp.2 l' _ _ (List.getElem?_eq_getElem hl') (List.getElem?_eq_getElem (hp.1 ▸ hl'))
      exact ⟨φ, fun o ho => by rw [List.getElem?_eq_getElem hl', Option.some.injEq] at ho; exact ho ▸ a⟩
    · exact ⟨fun _ => 0, fun o ho => by rw [List.getElem?_eq_none (by omega)] at ho; cases ho⟩
  choose φs hφ using all
  have := C10_environment (S.veh u) u.obs u.hyp 0 1 (fun l' => if l' = l then φ else φs l')
    ⟨trivial, fun _ => (hx 0).on, fun _ => (hx 1).on, hsl⟩ hli
    (fun l' o ho => by
      by_cases he : l' = l
      · subst he
        rw [if_pos rfl]
        rw [List.getElem?_eq_getElem hlen, Option.some.injEq] at ho
        exact ho ▸ e3
      · rw [if_neg he]; exact hφ l' o ho)
    hav k s hk l _ (List.getElem?_eq_getElem hlen) e2 (r / u.T) (div_nonneg h0 hT.le) ((div_le_one hT).2 h1)
  obtain ⟨-, hcore, hslack⟩ := this
  rw [if_pos rfl] at hcore
  have hz : heading 0 = 0 := by simp [heading]
  have g1 : p ∈ (S.veh u).coreAt k s (r / u.T) := by
    show p ∈ placed (carried _ _ 0 (heading 0)) (heading 0) s.core
    rw [hz, placed_zero]
    have : carried (u.pos 0 r) (u.pos 1 r) 0 0 = !₂[u.pos 0 r, u.pos 1 r] := by simp [carried]
    exact this ▸ hpp
  have g2 : p' ∈ (u.obs[l]).coreAt (φ (r / u.T)) (r / u.T) := by
    show p' ∈ placed _ _ _
    rw [(e4 r h0 hd).1, (e4 r h0 hd).2, e1]
    exact hpp'
  have h3 := hcore p g1 p' g2
  rw [e1] at h3
  have h4 : 0 ≤ S.sd - ((S.veh u).eps k (avoidedBefore u.obs l)).val (r / u.T) := by
    rcases hS.eq_or_lt with h | h
    · unfold Veh.eps
      rw [if_neg (by show ¬ 0 < S.sd; rw [← h]; exact lt_irrefl _), ← h]
      simp [Expr.val]
    · linarith [(hslack h).2, show (S.veh u).sd = S.sd from rfl]
  have h5 : (S.veh u).sd = S.sd := rfl
  rw [h5] at h3
  linarith

theorem Solves.apart_at (h : Solves S u) (hx : ∀ i, Traj (u.x i) 2) (hT : 0 < u.T) (hS : 0 ≤ S.sd) {world : List Mover} {t0 d : ℝ}
    (hp : Spec.Predicted world t0 d u) {r : ℝ} (h0 : 0 ≤ r) (h1 : r ≤ u.T) (hd : r ≤ d) :
    ∀ s ∈ S.shapes, ∀ w ∈ world, ∀ p ∈ shifted !₂[u.pos 0 r, u.pos 1 r] s.core,
    ∀ p' ∈ placed (w.pos (t0 + r)) (w.angle (t0 + r)) w.shape.core, s.rad + w.shape.rad ≤ dist p p' :=
  apart_of h.slacks h.lines h.avoid hx hT hS hp h0 h1 hd

end One

/-! ## The property -/

/-- **C158** A simulated drive with updates every `q` samples, in which every optimisation problem is solved (all constraints met), every plan is at least as long
as an update, every update starts from the prediction, and the obstacles behave as predicted until the next update: there is one motion of the vehicle, of which the
log is the sequence of samples, that starts in the initial state, never jumps in position or velocity, respects the limits on velocity and acceleration at every
instant, stays in the room, never overlaps an obstacle, and, when the last plan is followed to its end, ends in standstill in the goal. -/
theorem C158_drive (S : Setup) (hd : 3 ≤ S.degree) (hn : 1 ≤ S.intervals) (hw : 0 ≤ S.width) (hh : 0 ≤ S.height) (hsd : 0 ≤ S.sd)
    (Ts : ℝ) (hs : 0 < Ts) (q : ℕ) (hq : 1 ≤ q) (first : Upd) (more : List Upd)
    (solved : ∀ u ∈ first :: more, Solves S u) (long : ∀ u ∈ first :: more, q * Ts ≤ u.T)
    (predicted : ∀ s, Loop.run (q * Ts) Ts ((first :: more).map (Upd.cols Ts)) = some s →
      ∀ (k : ℕ) (u : Upd) (a : Holo 2), more[k]? = some u → s.seen[k]? = some a → u.start.state = a.state ∧ u.start.input = a.input)
    (world : List Mover) (foreseen : ∀ (k : ℕ) (u : Upd), (first :: more)[k]? = some u →
      Spec.Predicted world (k * (q * Ts)) (if k = more.length then u.T else q * Ts) u) :
    ∃ s, Loop.run (q * Ts) Ts ((first :: more).map (Upd.cols Ts)) = some s ∧ ∃ pos vel acc : ℝ → Fin 2 → ℝ,
      let total := more.length * (q * Ts) + ((first :: more).getLast (List.cons_ne_nil _ _)).T
      Spec.Safe S world total pos vel acc ∧
      pos 0 = first.start.state ∧ vel 0 = first.start.input ∧
      pos total = S.goal ∧ vel total = (fun _ => 0) ∧
      s.log.length = (more.length + 1) * q + 1 ∧
      ∀ j, j ≤ (more.length + 1) * q → ∃ a, s.log[j]? = some (j * Ts, a) ∧ a.state = pos (j * Ts) ∧ a.input = vel (j * Ts) := by
  have hu : 0 < (q : ℝ) * Ts := mul_pos (by exact_mod_cast hq) hs
  have hT : ∀ c ∈ first :: more, 0 < c.T := fun c hc => hu.trans_le (long c hc)
  have hx : ∀ c ∈ first :: more, ∀ i, Traj (c.x i) 2 := fun c hc => (solved c hc).traj hd hn
  have hget : ∀ c ∈ first :: more, ∀ i, i ≤ q → (c.cols Ts)[i]? =
      some ⟨fun j => c.pos j (i * Ts), fun j => c.vel j (i * Ts), fun j => c.acc j (i * Ts)⟩ := fun c hc i hi =>
    cols_get (hx c hc) hs (hT c hc) (long c hc) hi
  have hlen : ∀ p ∈ (first :: more).map (Upd.cols Ts), q < p.length := fun p hp => by
    obtain ⟨c, hc, rfl⟩ := List.mem_map.1 hp
    exact (List.getElem?_eq_some_iff.1 (hget c hc q le_rfl)).1
  have hstart : ∀ c ∈ first :: more, (∀ i, c.pos i 0 = c.start.state i) ∧ ∀ i, c.vel i 0 = c.start.input i := fun c hc => by
    obtain ⟨a, b⟩ := C122_holonomic c.x (fun i => (hx c hc i).mono (by omega)) c.start c.T (hT c hc) 0 (solved c hc).starts
    rw [signals_eq (hx c hc) (hT c hc)] at a b
    exact ⟨fun i => congrFun a i, fun i => congrFun b i⟩
  obtain ⟨s, hrun, -, hl, hz, hent, -, hseen⟩ := C127_follow Ts hs q hq ((first :: more).map (Upd.cols Ts)) hlen
  have hl := hl (by simp)
  simp only [List.length_map, List.length_cons] at hl hseen
  -- consecutive plans fit together
  have hjoin : ∀ (k : ℕ) (c d : Upd), (first :: more)[k]? = some c → (first :: more)[k + 1]? = some d →
      (∀ i, c.pos i (q * Ts) = d.pos i 0) ∧ ∀ i, c.vel i (q * Ts) = d.vel i 0 := by
    intro k c d hc hd'
    have hdl : k < more.length := by
      have := (List.getElem?_eq_some_iff.1 hd').1
      simpa using this
    have e1 := hent k (c.cols Ts) (by rw [List.getElem?_map, hc]; rfl) q hq le_rfl
    rw [hget c (List.mem_of_getElem? hc) q le_rfl, Option.map_some] at e1
    have e2 := hseen k (by omega)
    rw [show (k + 1) * q = k * q + q by ring, e1, Option.map_some] at e2
    obtain ⟨a, b⟩ := predicted s hrun k d _ (by simpa using hd') e2
    obtain ⟨a', b'⟩ := hstart d (List.mem_of_getElem? hd')
    exact ⟨fun i => by rw [a', a], fun i => by rw [b', b]⟩
  have chain : ∀ R : Upd → Upd → Prop, (∀ (k : ℕ) (c d : Upd), (first :: more)[k]? = some c → (first :: more)[k + 1]? = some d → R c d) →
      (first :: more).IsChain R := fun R h => List.isChain_iff_getElem.2 fun k hk =>
    h k _ _ (List.getElem?_eq_getElem _) (List.getElem?_eq_getElem _)
  have htot := lastTime_eq (q * Ts) Upd.T first more
  set total := lastTime (q * Ts) Upd.T first more with htotal
  have cases := locate_cases hu (T := Upd.T) first more long
  refine ⟨s, hrun, fun t i => along (q * Ts) (Upd.pos i) first more t, fun t i => along (q * Ts) (Upd.vel i) first more t,
    fun t i => along (q * Ts) (Upd.acc i) first more t, ?_⟩
  rw [← htot]
  have atend : ∀ F : Upd → ℝ → ℝ, along (q * Ts) F first more total =
      F ((first :: more).getLast (List.cons_ne_nil _ _)) ((first :: more).getLast (List.cons_ne_nil _ _)).T := fun F => by
    have hlast : (first :: more)[more.length]? = some ((first :: more).getLast (List.cons_ne_nil _ _)) := by
      rw [List.getLast_eq_getElem, List.getElem?_eq_getElem (by simp)]
      simp
    rw [along, htot, locate_at hu first more more.length _ _ hlast (hT _ (List.getLast_mem _)).le (Or.inr rfl)]
  refine ⟨⟨?_, ?_, ?_, ?_, ?_, ?_, ?_⟩, ?_, ?_, ?_, ?_, hl, ?_⟩
  · intro i t ht
    exact along_deriv hu first more long (fun c hc => pos_deriv (hx c hc) (hT c hc) i)
      (chain _ fun k c d h1 h2 => ⟨(hjoin k c d h1 h2).1 i, (hjoin k c d h1 h2).2 i⟩) t ht
  · intro i
    exact along_cont hu first more long
      (fun c hc r hr => (vel_deriv (hx c hc) (hT c hc) i r hr).continuousWithinAt)
      (chain _ fun k c d h1 h2 => (hjoin k c d h1 h2).2 i)
  · intro i t ht
    exact along_right_deriv hu first more long (fun c hc => vel_deriv (hx c hc) (hT c hc) i) t ht
  · intro t ht
    obtain ⟨k, c, r, hk, -, h0, h1, -, e⟩ := cases t ht.1 ht.2
    have hc := List.mem_of_getElem? hk
    simp only [along, e]
    exact ((solved c hc).limits_at (hx c hc) (hT c hc) h0 h1).1
  · intro t ht
    obtain ⟨k, c, r, hk, -, h0, h1, -, e⟩ := cases t ht.1 ht.2
    have hc := List.mem_of_getElem? hk
    simp only [along, e]
    exact ((solved c hc).limits_at (hx c hc) (hT c hc) h0 h1).2
  · intro t ht
    obtain ⟨k, c, r, hk, -, h0, h1, -, e⟩ := cases t ht.1 ht.2
    have hc := List.mem_of_getElem? hk
    simp only [along, e]
    exact (solved c hc).room_at (hx c hc) hw hh (hT c hc) h0 h1
  · intro t ht
    obtain ⟨k, c, r, hk, rfl, h0, h1, h2, e⟩ := cases t ht.1 ht.2
    have hc := List.mem_of_getElem? hk
    simp only [along, e]
    refine (solved c hc).apart_at (hx c hc) (hT c hc) hsd (foreseen k c hk) h0 h1 ?_
    split_ifs with hkl
    · exact h1
    · exact (h2.resolve_right hkl).le
  · funext i
    show along _ _ _ _ _ = _
    rw [along, locate_zero hu]
    exact (hstart first (by simp)).1 i
  · funext i
    show along _ _ _ _ _ = _
    rw [along, locate_zero hu]
    exact (hstart first (by simp)).2 i
  · funext i
    show along _ _ _ _ _ = _
    rw [atend]
    have hm := List.getLast_mem (List.cons_ne_nil first more)
    have := C123_holonomic _ (hx _ hm) S.goal S.degree (by omega) _ (hT _ hm) (Or.inl (solved _ hm).ends)
    rw [signals_eq (hx _ hm) (hT _ hm)] at this
    exact congrFun (congrArg Holo.state this) i
  · funext i
    show along _ _ _ _ _ = _
    rw [atend]
    have hm := List.getLast_mem (List.cons_ne_nil first more)
    have := C123_holonomic _ (hx _ hm) S.goal S.degree (by omega) _ (hT _ hm) (Or.inl (solved _ hm).ends)
    rw [signals_eq (hx _ hm) (hT _ hm)] at this
    exact congrFun (congrArg Holo.input this) i
  · intro j hj
    rcases Nat.eq_zero_or_pos j with rfl | hj0
    · rw [List.map_cons, List.getElem?_cons_zero, Option.bind_some, hget first (by simp) 0 (Nat.zero_le _), Option.map_some] at hz
      refine ⟨_, by simpa using hz, ?_, ?_⟩ <;>
      · funext i
        simp [along, locate_zero hu]
    · obtain ⟨k, i, hk, hi0, hi, rfl⟩ : ∃ k i, k ≤ more.length ∧ 1 ≤ i ∧ i ≤ q ∧ j = k * q + i := by
        refine ⟨(j - 1) / q, (j - 1) % q + 1, ?_, by omega, Nat.mod_lt _ hq, ?_⟩
        · have : (j - 1) / q < more.length + 1 := by
            rw [Nat.div_lt_iff_lt_mul (by omega)]; omega
          omega
        · have := Nat.div_add_mod (j - 1) q
          rw [Nat.mul_comm] at this
          omega
      have hkl : k < (first :: more).length := by simp; omega
      have hkc := List.getElem?_eq_getElem hkl
      set c := (first :: more)[k] with hcdef
      have hc : c ∈ first :: more := List.mem_of_getElem? hkc
      have e1 := hent k (c.cols Ts) (by rw [List.getElem?_map, hkc]; rfl) i hi0 hi
      rw [hget c hc i hi, Option.map_some] at e1
      refine ⟨_, e1, ?_⟩
      have hti : ((k * q + i : ℕ) : ℝ) * Ts = k * (q * Ts) + i * Ts := by push_cast; ring
      have h0 : 0 ≤ (i : ℝ) * Ts := by positivity
      have key : ∀ F : Upd → ℝ → ℝ, (∀ (k : ℕ) (c d : Upd), (first :: more)[k]? = some c → (first :: more)[k + 1]? = some d →
          F c (q * Ts) = F d 0) → F c (i * Ts) = along (q * Ts) F first more (((k * q + i : ℕ) : ℝ) * Ts) := by
        intro F hF
        rw [hti, along]
        rcases Nat.lt_or_ge i q with hiq | hiq
        · have : (i : ℝ) * Ts < q * Ts := mul_lt_mul_of_pos_right (by exact_mod_cast hiq) hs
          rw [locate_at hu first more k c _ hkc h0 (Or.inl this)]
        · obtain rfl : i = q := by omega
          rcases Nat.lt_or_ge k more.length with hlt | hge
          · have hk1 : k + 1 < (first :: more).length := by simp; omega
            have := locate_at hu first more (k + 1) _ 0 (List.getElem?_eq_getElem hk1) le_rfl (Or.inl hu)
            rw [show ((k + 1 : ℕ) : ℝ) * (i * Ts) + 0 = k * (i * Ts) + i * Ts by push_cast; ring] at this
            rw [this]
            exact hF k c _ hkc (List.getElem?_eq_getElem hk1)
          · rw [locate_at hu first more k c _ hkc h0 (Or.inr (by omega))]
      exact ⟨funext fun n => key (Upd.pos n) fun k c d h1 h2 => (hjoin k c d h1 h2).1 n,
        funext fun n => key (Upd.vel n) fun k c d h1 h2 => (hjoin k c d h1 h2).2 n⟩

/-! ## A case: a disc that waits and then drives past a disc, planned twice -/

section Case

/-- An expression whose value is constant is computed with constant coefficients. -/
theorem const_imposed {n : ℕ} (hn : 1 ≤ n) (hn' : n ≤ 200) {e : Expr ℝ} (h : e.OnIntervals n) (hd : e.totalDegree ≤ 8) (hdn : e.totalDegree * n ≤ 200)
    (hs : e.hasSpline) {v ub : ℝ} (hv : ∀ x, 0 ≤ x → x ≤ 1 → e.val x = v) (hub : v ≤ ub) : e.Imposed ub := by
  obtain ⟨w, r, hb⟩ := runs_uni hn hn' e h hd hdn
  obtain ⟨s, rfl⟩ := Expr.runs_spline r hs
  obtain ⟨m, m1, m2, hbas⟩ := hb s rfl
  have mean := Expr.runs_means r (OnIntervals.on hn h)
  set b : Basis ℝ := uni e.totalDegree m n with hbdef
  have cl : b.Clamped := uni_clamped m1 hn
  have res : b.Resolved := uni_resolved m1 m2 hn hd hn' hdn
  have ends := uni_ends (K := ℝ) (D := e.totalDegree) (m := m) (n := n) m1 hn
  rw [← hbdef, headD_eq_k cl, getLastD_eq_k cl] at ends
  have coef := (C136_regular_iff cl).2 res (fun i => s.coeffs.getD i 0 - v) (fun x hx => by
    rw [xmax_eq] at hx
    obtain ⟨r, hr, rfl⟩ := List.mem_map.1 hx
    have hg := Verif.Spline.grid_mem cl (Verif.Spline.peak_mem b r)
    have x0 : 0 ≤ b.peak r := by rw [← ends.1]; exact hg.1
    have x1 : b.peak r ≤ 1 := by rw [← ends.2]; exact hg.2
    have v1 := mean.2.2.2.2 _ x0 x1
    rw [BSpline.eval_eq mean.2.1, hbas, hv _ x0 x1] at v1
    have one := Basis.sum_fn cl hg.1 hg.2
    simp only [sub_mul, Finset.sum_sub_distrib, ← Finset.mul_sum]
    rw [v1, one]; ring)
  refine ⟨_, r, fun c hc => ?_⟩
  obtain ⟨i, hi, rfl⟩ := List.mem_iff_getElem.1 hc
  have := coef i (by rw [← hbas]; have : _ = _ := mean.2.1; omega)
  rw [List.getD_eq_getElem _ _ hi] at this
  linarith

/-- A constant, as a spline on the five intervals. -/
noncomputable def lvl (c : ℝ) : BSpline ℝ := ⟨vehBasis 1 5, List.replicate 6 c⟩
/-- The same, as a spline of the vehicle. -/
noncomputable def lvl3 (c : ℝ) : BSpline ℝ := ⟨vehBasis 3 5, List.replicate 8 c⟩
/-- At `0` during the first of five intervals, at `1` during the last one. -/
noncomputable def go : BSpline ℝ := ⟨vehBasis 3 5, [0, 0, 0, 0, 1, 1, 1, 1]⟩

theorem on5 {d : ℕ} {c : List ℝ} (hc : c.length = 5 + d) : (Expr.spl (⟨vehBasis d 5, c⟩ : BSpline ℝ)).OnIntervals 5 :=
  ⟨by show c.length = _; rw [hc, vehBasis_len], d, 1, le_rfl, by omega, vehBasis_uni (by norm_num)⟩

theorem level {d : ℕ} {c x : ℝ} (h0 : 0 ≤ x) (h1 : x ≤ 1) : (⟨vehBasis d 5, List.replicate (5 + d) c⟩ : BSpline ℝ).eval x = c := by
  have cl := vehBasis_clamped (d := d) (n := 5) (by norm_num)
  have e := GCode.RingGuess.veh_first (d := d) (n := 5) (by norm_num) (c := List.replicate (5 + d) 0) (by simp)
  have ends := uni_ends (K := ℝ) (D := d) (m := 1) (n := 5) le_rfl (by norm_num)
  rw [← vehBasis_uni (by norm_num), headD_eq_k cl, getLastD_eq_k cl] at ends
  rw [BSpline.eval_eq (by show (List.replicate _ _).length = _; rw [vehBasis_len]; simp)]
  have one := Basis.sum_fn cl (x := x) (by rw [ends.1]; exact h0) (by rw [ends.2]; exact h1)
  have : ∀ i ∈ Finset.range (vehBasis d 5).len, (List.replicate (5 + d) c).getD i 0 * (vehBasis d 5).fn i x = c * (vehBasis d 5).fn i x :=
    fun i hi => by
      rw [Finset.mem_range, vehBasis_len] at hi
      rw [List.getD_replicate _ (by omega)]
  rw [Finset.sum_congr rfl this, ← Finset.mul_sum, one, mul_one]

/-- A spline whose first coefficients vanish is zero until the end of the first interval. -/
theorem first_zero {d : ℕ} {c : List ℝ} (hc : c.length = 5 + d) (hz : ∀ j, j ≤ d → c.getD j 0 = 0) :
    (⟨vehBasis d 5, c⟩ : BSpline ℝ).eval (1 / 5) = 0 := by
  have cl := vehBasis_clamped (d := d) (n := 5) (by norm_num)
  rw [BSpline.eval_eq (by show c.length = _; rw [vehBasis_len, hc])]
  refine Finset.sum_eq_zero fun i hi => ?_
  rcases Nat.lt_or_ge d i with h | h
  · have : (vehBasis d 5).fn i (1 / 5) = 0 := by
      refine cox_eq_zero cl.mono ?_ _ _ (Or.inl ?_)
      · rw [vehBasis_k (by norm_num)]; norm_num
      · rw [vehBasis_k (by norm_num)]
        have : 1 ≤ min (i - d) 5 := by omega
        have : (1 : ℝ) ≤ ((min (i - d) 5 : ℕ) : ℝ) := by exact_mod_cast this
        push_cast at this ⊢
        linarith
    rw [this, mul_zero]
  · rw [hz i h, zero_mul]

/-- The derivatives of `go`. -/
theorem go_facts : ∃ c1 c2 c3 : List ℝ, c1.length = 5 + 2 ∧ c2.length = 5 + 1 ∧ c3.length = 5 + 0 ∧ go.derivative 1 = ⟨vehBasis 2 5, c1⟩ ∧
    go.derivative 2 = ⟨vehBasis 1 5, c2⟩ ∧ go.derivative 3 = ⟨vehBasis 0 5, c3⟩ ∧ (∀ j, j ≤ 2 → c1.getD j 0 = 0) ∧
    c1.getD 6 0 = 0 ∧ c2.getD 5 0 = 0 ∧ c3.getD 4 0 = 0 := by
  obtain ⟨c1, l1, e1, r1⟩ := GCode.RingGuess.deriv_veh (d := 2) (n := 5) (c := [0, 0, 0, 0, 1, 1, 1, 1]) (by norm_num) rfl
  obtain ⟨c2, l2, e2, r2⟩ := GCode.RingGuess.deriv_veh (d := 1) (n := 5) (by norm_num) l1
  obtain ⟨c3, l3, e3, r3⟩ := GCode.RingGuess.deriv_veh (d := 0) (n := 5) (by norm_num) l2
  have z1 : ∀ j, j < 7 → j ≠ 3 → c1.getD j 0 = 0 := fun j hj h3 => by
    obtain ⟨r, -, e⟩ := r1 j hj
    rw [e]
    have : ([0, 0, 0, 0, 1, 1, 1, 1] : List ℝ).getD (j + 1) 0 = ([0, 0, 0, 0, 1, 1, 1, 1] : List ℝ).getD j 0 := by
      interval_cases j <;> simp_all
    rw [this, sub_self, mul_zero]
  have z2 : ∀ j, 4 ≤ j → j < 6 → c2.getD j 0 = 0 := fun j h4 hj => by
    obtain ⟨r, -, e⟩ := r2 j hj
    rw [e, z1 _ (by omega) (by omega), z1 _ (by omega) (by omega), sub_self, mul_zero]
  have z3 : c3.getD 4 0 = 0 := by
    obtain ⟨r, -, e⟩ := r3 4 (by norm_num)
    rw [e, z2 _ (by omega) (by omega), z2 _ (by omega) (by omega), sub_self, mul_zero]
  have g1 : go.derivative 1 = ⟨vehBasis 2 5, c1⟩ := e1
  have g2 : go.derivative 2 = ⟨vehBasis 1 5, c2⟩ := by rw [derivative_succ, g1, e2]
  have g3 : go.derivative 3 = ⟨vehBasis 0 5, c3⟩ := by rw [derivative_succ, g2, e3]
  exact ⟨c1, c2, c3, l1, l2, l3, g1, g2, g3, fun j hj => z1 j (by omega) (by omega), z1 6 (by norm_num) (by norm_num), z2 5 (by norm_num) (by norm_num), z3⟩

/-- The derivatives of a constant. -/
theorem lvl3_facts (c : ℝ) : ∃ c1 c2 c3 : List ℝ, c1.length = 5 + 2 ∧ c2.length = 5 + 1 ∧ c3.length = 5 + 0 ∧ (lvl3 c).derivative 1 = ⟨vehBasis 2 5, c1⟩ ∧
    (lvl3 c).derivative 2 = ⟨vehBasis 1 5, c2⟩ ∧ (lvl3 c).derivative 3 = ⟨vehBasis 0 5, c3⟩ ∧ (∀ j, j < 7 → c1.getD j 0 = 0) ∧
    (∀ j, j < 6 → c2.getD j 0 = 0) ∧ c3.getD 4 0 = 0 := by
  obtain ⟨c1, l1, e1, r1⟩ := GCode.RingGuess.deriv_veh (d := 2) (n := 5) (c := List.replicate 8 c) (by norm_num) (by simp)
  obtain ⟨c2, l2, e2, r2⟩ := GCode.RingGuess.deriv_veh (d := 1) (n := 5) (by norm_num) l1
  obtain ⟨c3, l3, e3, r3⟩ := GCode.RingGuess.deriv_veh (d := 0) (n := 5) (by norm_num) l2
  have z1 : ∀ j, j < 7 → c1.getD j 0 = 0 := fun j hj => by
    obtain ⟨r, -, e⟩ := r1 j hj
    rw [e, List.getD_replicate _ (by omega), List.getD_replicate _ (by omega), sub_self, mul_zero]
  have z2 : ∀ j, j < 6 → c2.getD j 0 = 0 := fun j hj => by
    obtain ⟨r, -, e⟩ := r2 j hj
    rw [e, z1 _ (by omega), z1 _ (by omega), sub_self, mul_zero]
  have z3 : c3.getD 4 0 = 0 := by
    obtain ⟨r, -, e⟩ := r3 4 (by norm_num)
    rw [e, z2 _ (by omega), z2 _ (by omega), sub_self, mul_zero]
  have g1 : (lvl3 c).derivative 1 = ⟨vehBasis 2 5, c1⟩ := e1
  have g2 : (lvl3 c).derivative 2 = ⟨vehBasis 1 5, c2⟩ := by rw [derivative_succ, g1, e2]
  have g3 : (lvl3 c).derivative 3 = ⟨vehBasis 0 5, c3⟩ := by rw [derivative_succ, g2, e3]
  exact ⟨c1, c2, c3, l1, l2, l3, g1, g2, g3, z1, z2, z3⟩

noncomputable def caseS (y : ℝ) : Setup := ⟨[circle 1], 1 / 2, fun _ => none, 3, 5, ![1, y], 20, 20, (0, 0)⟩
noncomputable def caseU (y T : ℝ) : Upd where
  T := T
  x := ![go, lvl3 y]
  hyp := fun _ _ => ⟨.spl (lvl 0), .spl (lvl 1), .spl (lvl (3 / 2))⟩
  eps := fun _ _ => lvl 0
  obs := [⟨circle 1, .spl (lvl (1 / 2)), .spl (lvl 3), .num 1, .num 1, .num 0, true⟩]
  start := ⟨![0, y], fun _ => 0, fun _ => 0⟩

theorem lvl_on (c : ℝ) : (Expr.spl (lvl c)).On 0 1 := OnIntervals.on (by norm_num : 1 ≤ 5) (on5 (d := 1) (by simp))

theorem list_bound (l : List ℝ) : ∃ U : ℝ, 0 < U ∧ ∀ a ∈ l, |a| ≤ U := by
  induction l with
  | nil => exact ⟨1, one_pos, fun a h => by simp at h⟩
  | cons a l ih =>
    obtain ⟨U, h0, h⟩ := ih
    refine ⟨U + |a|, by positivity, fun b hb => ?_⟩
    rcases List.mem_cons.1 hb with rfl | hb
    · linarith
    · linarith [h b hb, abs_nonneg a]

theorem low_imposed {x : BSpline ℝ} {lo c rad : ℝ} (h : ∀ a ∈ x.coeffs, lo + rad ≤ c + a) : (roomLow (.spl x) lo c rad).Imposed 0 := by
  refine ⟨_, .addSN (.addSN (.negSpl (.addNS (.num c) (.spl x))) (.num lo)) (.num rad), fun a ha => ?_⟩
  simp only [BSpline.addNum, BSpline.neg, List.map_map, List.mem_map, Function.comp] at ha
  obtain ⟨d, hd, rfl⟩ := ha
  linarith [h d hd]

theorem high_imposed {x : BSpline ℝ} {hi c rad : ℝ} (h : ∀ a ∈ x.coeffs, c + a + rad ≤ hi) : (roomHigh (.spl x) hi c rad).Imposed 0 := by
  refine ⟨_, .addSN (.addSN (.addNS (.num c) (.spl x)) (.negNum (.num hi))) (.num rad), fun a ha => ?_⟩
  simp only [BSpline.addNum, List.map_map, List.mem_map, Function.comp] at ha
  obtain ⟨d, hd, rfl⟩ := ha
  linarith [h d hd]

theorem case_avoid {y : ℝ} (hy : y ≤ 0) (T : ℝ) : ∀ e ∈ envCons ((caseS y).veh (caseU y T)) (caseU y T).obs (caseU y T).hyp, e.Imposed 0 := by
  have o1 : ∀ c, (Expr.spl (lvl c)).OnIntervals 5 := fun c => on5 (d := 1) (by simp)
  have og : (Expr.spl go).OnIntervals 5 := on5 (d := 3) (by simp)
  have o3 : ∀ c, (Expr.spl (lvl3 c)).OnIntervals 5 := fun c => on5 (d := 3) (by simp)
  have v1 : ∀ c x, 0 ≤ x → x ≤ 1 → (lvl c).eval x = c := fun c x h0 h1 => level (d := 1) h0 h1
  have v3 : ∀ c x, 0 ≤ x → x ≤ 1 → (lvl3 c).eval x = c := fun c x h0 h1 => level (d := 3) h0 h1
  have d1 : ∀ c, (lvl c).basis.degree = 1 := fun _ => rfl
  have d3 : ∀ c, (lvl3 c).basis.degree = 3 := fun _ => rfl
  have dg : go.basis.degree = 3 := rfl
  intro e he
  simp [envCons, caseS, caseU, Setup.veh, Obs.cons, Veh.cons, Veh.eps, circle, normCon, List.range_succ] at he
  rcases he with rfl | rfl | rfl | rfl | rfl
  · refine const_imposed (n := 5) (v := 0) (by norm_num) (by norm_num) ?_ ?_ ?_ ?_ (fun x h0 h1 => ?_) le_rfl
    · simp [Expr.sub, Expr.OnIntervals]; simpa [Expr.OnIntervals] using ⟨o1 0, o1 1⟩
    · simp [Expr.sub, Expr.totalDegree, d1]
    · simp [Expr.sub, Expr.totalDegree, d1]
    · simp [Expr.sub, Expr.hasSpline]
    · simp [Expr.sub, Expr.val, v1 _ x h0 h1]
  · refine const_imposed (n := 5) (v := -(1 / 2)) (by norm_num) (by norm_num) ?_ ?_ ?_ ?_ (fun x h0 h1 => ?_) (by norm_num)
    · simpa [obsCon2, Expr.sub, Expr.OnIntervals] using ⟨⟨⟨o1 0, o1 _⟩, o1 1, o1 3⟩, o1 (3 / 2)⟩
    · simp [obsCon2, Expr.sub, Expr.totalDegree, d1]
    · simp [obsCon2, Expr.sub, Expr.totalDegree, d1]
    · simp [obsCon2, Expr.sub, Expr.hasSpline]
    · simp [obsCon2, Expr.sub, Expr.val, v1 _ x h0 h1]; norm_num
  · refine const_imposed (n := 5) (v := -(1 / 2)) (by norm_num) (by norm_num) ?_ ?_ ?_ ?_ (fun x h0 h1 => ?_) (by norm_num)
    · simpa [Expr.sub, Expr.OnIntervals] using o1 0
    · simp [Expr.sub, Expr.totalDegree, d1]
    · simp [Expr.sub, Expr.totalDegree, d1]
    · simp [Expr.sub, Expr.hasSpline]
    · simp [Expr.sub, Expr.val, v1 _ x h0 h1]
  · refine const_imposed (n := 5) (v := 0) (by norm_num) (by norm_num) ?_ ?_ ?_ ?_ (fun x h0 h1 => ?_) le_rfl
    · simpa [Expr.sub, Expr.OnIntervals] using o1 0
    · simp [Expr.totalDegree, d1]
    · simp [Expr.totalDegree, d1]
    · simp [Expr.hasSpline]
    · simp [Expr.val, v1 _ x h0 h1]
  · refine const_imposed (n := 5) (v := y) (by norm_num) (by norm_num) ?_ ?_ ?_ ?_ (fun x h0 h1 => ?_) hy
    · simpa [vehCon2, Expr.sub, Expr.sq, Expr.OnIntervals] using ⟨⟨⟨o1 0, o1 1⟩, ⟨o1 0, og⟩, o1 1, o3 y⟩, o1 (3 / 2), o1 0⟩
    · simp [vehCon2, Expr.sub, Expr.sq, Expr.totalDegree, d1, d3, dg]
    · simp [vehCon2, Expr.sub, Expr.sq, Expr.totalDegree, d1, d3, dg]
    · simp [vehCon2, Expr.sub, Expr.sq, Expr.hasSpline]
    · simp [vehCon2, Expr.sub, Expr.sq, Expr.val, v1 _ x h0 h1, v3 _ x h0 h1]; ring

theorem case_solves : ∃ T0, 0 < T0 ∧ ∀ y, y ≤ 0 → -9 ≤ y → ∀ T, T0 ≤ T → Solves (caseS y) (caseU y T) := by
  obtain ⟨c1, c2, c3, l1, l2, l3, g1, g2, g3, z1, f1, f2, f3⟩ := go_facts
  obtain ⟨U, U0, hU⟩ := list_bound (c1 ++ c2)
  have vf := fun {d : ℕ} {c : List ℝ} (h : c.length = 5 + d) => GCode.RingGuess.veh_first (d := d) (n := 5) (by norm_num) h
  have zmem : ∀ {l : List ℝ} {n : ℕ}, l.length = n → (∀ j, j < n → l.getD j 0 = 0) → ∀ a ∈ l, a = 0 := fun hl hz a ha => by
    obtain ⟨j, hj, rfl⟩ := List.mem_iff_getElem.1 ha
    have := hz j (by omega)
    rwa [List.getD_eq_getElem _ _ hj] at this
  refine ⟨2 * U + 1, by linarith, fun y hy hy9 T hT0 => ?_⟩
  obtain ⟨k1, k2, k3, m1, m2, m3, h1, h2, h3, y1, y2, y3⟩ := lvl3_facts y
  have k1z := zmem m1 y1
  have k2z := zmem m2 y2
  have hT : (1 : ℝ) ≤ T := by linarith
  have hT2 : U ≤ T ^ 2 := by nlinarith
  refine ⟨?_, ?_, ?_, ?_, ?_, case_avoid hy _, ?_, ?_, ?_⟩
  · show -T ≤ 0; linarith
  · intro i
    fin_cases i
    · exact ⟨_, by simp [caseS], rfl⟩
    · exact ⟨_, by simp [caseS], rfl⟩
  · exact fun _ _ => ⟨lvl_on 0, lvl_on 1, lvl_on _, trivial⟩
  · exact fun _ _ => lvl_on 0
  · show ∀ e ∈ holoInf (fun _ => none) go (lvl3 y) T, e.Imposed 0
    intro e he
    have b1 : ∀ a ∈ c1, -U ≤ a ∧ a ≤ U := fun a ha => abs_le.1 (hU a (List.mem_append_left _ ha))
    have b2 : ∀ a ∈ c2, -U ≤ a ∧ a ≤ U := fun a ha => abs_le.1 (hU a (List.mem_append_right _ ha))
    simp only [holoInf, holoLim, axisC, g1, g2, h1, h2, List.mem_append, List.mem_cons, List.not_mem_nil, or_false, Option.getD_none] at he
    rcases he with (rfl | rfl | rfl | rfl) | rfl | rfl | rfl | rfl
    · exact geC_imposed fun a ha => by linarith [(b1 a ha).1]
    · exact leC_imposed fun a ha => by linarith [(b1 a ha).2]
    · exact geC_imposed fun a ha => by linarith [(b2 a ha).1]
    · exact leC_imposed fun a ha => by linarith [(b2 a ha).2]
    · exact geC_imposed fun a ha => by rw [k1z a ha]; linarith
    · exact leC_imposed fun a ha => by rw [k1z a ha]; linarith
    · exact geC_imposed fun a ha => by rw [k2z a ha]; linarith
    · exact leC_imposed fun a ha => by rw [k2z a ha]; linarith
  · show ∀ s ∈ [circle 1], ∀ e ∈ roomConsRect s (.spl go) (.spl (lvl3 y)) (Geometry.placedRect (20 : ℝ) 20 (0, 0)).limits, e.Imposed 0
    rw [Geometry.placedRect_limits _ _ (by norm_num) (by norm_num)]
    intro s hs e he
    rw [List.mem_singleton] at hs
    subst hs
    simp [roomConsRect, circle] at he
    have hg : ∀ a ∈ go.coeffs, 0 ≤ a ∧ a ≤ 1 := fun a ha => by simp [go] at ha; rcases ha with rfl | rfl <;> norm_num
    have hl : ∀ a ∈ (lvl3 y).coeffs, a = y := fun a ha => by simp [lvl3] at ha; exact ha
    rcases he with rfl | rfl | rfl | rfl
    · exact low_imposed fun a ha => by linarith [(hg a ha).1]
    · exact high_imposed fun a ha => by linarith [(hg a ha).2]
    · exact low_imposed fun a ha => by rw [hl a ha]; linarith
    · exact high_imposed fun a ha => by rw [hl a ha]; linarith
  · show MeetsInit (holoInit ![go, lvl3 y] ⟨![0, y], fun _ => 0, fun _ => 0⟩ T) (0 / T)
    rw [zero_div]
    intro c hc
    simp [holoInit] at hc
    rcases hc with rfl | rfl | rfl | rfl
    · exact (vf (d := 3) (c := [0, 0, 0, 0, 1, 1, 1, 1]) rfl).1
    · exact level (d := 3) le_rfl zero_le_one
    · show (go.derivative 1).eval 0 = 0
      rw [g1, (vf l1).1, z1 0 (by norm_num)]
    · show ((lvl3 y).derivative 1).eval 0 = 0
      rw [h1, (vf m1).1, y1 0 (by norm_num)]
  · have ends : ∀ d, 1 ≤ d → d ≤ 3 → (go.derivative d).eval 1 = 0 ∧ ((lvl3 y).derivative d).eval 1 = 0 := by
      intro d d0 d1
      interval_cases d
      · rw [g1, h1, (vf l1).2, (vf m1).2]; exact ⟨f1, y1 6 (by norm_num)⟩
      · rw [g2, h2, (vf l2).2, (vf m2).2]; exact ⟨f2, y2 5 (by norm_num)⟩
      · rw [g3, h3, (vf l3).2, (vf m3).2]; exact ⟨f3, y3⟩
    have e1 : go.eval 1 = 1 := (vf (d := 3) (c := [0, 0, 0, 0, 1, 1, 1, 1]) rfl).2
    have e2 : (lvl3 y).eval 1 = y := level (d := 3) zero_le_one le_rfl
    intro c hc
    simp only [imposedFree, holoTerm, Bool.false_eq_true, if_false, List.mem_append, List.mem_flatMap, List.mem_range,
      List.mem_ofFn', Set.mem_range] at hc
    rcases hc with ⟨i, rfl⟩ | ⟨d, hd', i, rfl⟩
    · fin_cases i
      · exact e1
      · exact e2
    · have hd3 : d < 3 := hd'
      fin_cases i
      · exact (ends (d + 1) (by omega) (by omega)).1
      · exact (ends (d + 1) (by omega) (by omega)).2

-- two plans, updated after one of five intervals: the drive is safe and arrives
example : ∃ (T : ℝ) (s : Loop ℝ (Holo 2)), 0 < T ∧ Loop.run ((1 : ℕ) * (T / 5)) (T / 5) ([caseU 0 T, caseU 0 T].map (Upd.cols (T / 5))) = some s ∧
    ∃ pos vel acc : ℝ → Fin 2 → ℝ, Spec.Safe (caseS 0) [⟨circle 1, fun _ => !₂[1 / 2, 3], fun _ => 0⟩] (6 / 5 * T) pos vel acc ∧
      pos 0 = ![0, 0] ∧ pos (6 / 5 * T) = ![1, 0] ∧ s.log.length = 3 := by
  obtain ⟨T, hT, hsol'⟩ := case_solves
  have hsol := hsol' 0 le_rfl (by norm_num) T le_rfl
  obtain ⟨c1, c2, c3, l1, l2, l3, g1, g2, g3, z1, f1, f2, f3⟩ := go_facts
  obtain ⟨k1, k2, k3, m1, m2, m3, h1, h2, h3, y1, y2, y3⟩ := lvl3_facts 0
  have hq : ((1 : ℕ) : ℝ) * (T / 5) ≤ (caseU 0 T).T := by show ((1 : ℕ) : ℝ) * (T / 5) ≤ T; push_cast; linarith
  have tr := hsol.traj (by simp [caseS]) (by simp [caseS])
  have rest : (∀ i, (caseU 0 T).pos i (T / 5) = 0) ∧ ∀ i, (caseU 0 T).vel i (T / 5) = 0 := by
    have e : T / 5 / (caseU 0 T).T = 1 / 5 := by show T / 5 / T = 1 / 5; field_simp
    have y1' : ∀ j, j ≤ 2 → k1.getD j 0 = 0 := fun j hj => y1 j (by omega)
    refine ⟨fun i => ?_, fun i => ?_⟩
    · unfold Upd.pos
      rw [e]
      fin_cases i
      · exact first_zero (d := 3) rfl fun j hj => by interval_cases j <;> rfl
      · exact level (d := 3) (by norm_num) (by norm_num)
    · unfold Upd.vel
      rw [e]
      fin_cases i
      · show (go.derivative 1).eval _ / _ = _
        rw [g1, first_zero l1 z1, zero_div]
      · show ((lvl3 0).derivative 1).eval _ / _ = _
        rw [h1, first_zero m1 y1', zero_div]
  obtain ⟨s, hrun, pos, vel, acc, hsafe, p0, -, p1, -, hl, -⟩ := C158_drive (caseS 0) (by simp [caseS]) (by simp [caseS]) (by simp [caseS]) (by simp [caseS])
    (by simp [caseS]) (T / 5) (by linarith) 1 le_rfl (caseU 0 T) [caseU 0 T] (by simpa using hsol) (by simpa using hq)
    (fun s hrun k u a hk ha => by
      obtain ⟨s', hrun', -, -, -, hent, -, hseen⟩ := C127_follow (T / 5) (by linarith) 1 le_rfl ([caseU 0 T, caseU 0 T].map (Upd.cols (T / 5)))
        (fun p hp => by
          simp only [List.map_cons, List.map_nil, List.mem_cons, List.not_mem_nil, or_false, or_self] at hp
          subst hp
          exact (List.getElem?_eq_some_iff.1 (cols_get tr (by linarith) hT hq (i := 1) le_rfl)).1)
      rw [hrun] at hrun'
      obtain rfl := Option.some.inj hrun'
      have hk0 : k = 0 := by
        by_contra h
        rw [List.getElem?_eq_none (by simp; omega)] at hk
        cases hk
      subst hk0
      simp at hk
      subst hk
      have e1 := hent 0 _ rfl 1 le_rfl le_rfl
      rw [cols_get tr (by linarith) hT hq le_rfl, Option.map_some] at e1
      have e2 := hseen 0 (by simp)
      simp only [Nat.zero_mul, Nat.zero_add, Nat.one_mul] at e1 e2
      rw [e1, ha, Option.map_some, Option.some.injEq] at e2
      subst e2
      simp only [Nat.cast_one, one_mul]
      exact ⟨funext fun i => by rw [rest.1 i]; fin_cases i <;> rfl, funext fun i => (rest.2 i).symm⟩)
    [⟨circle 1, fun _ => !₂[1 / 2, 3], fun _ => 0⟩]
    (fun k u hk => by
      have hu : u = caseU 0 T := by
        have := List.mem_of_getElem? hk
        simpa using this
      subst hu
      refine ⟨rfl, fun l o w ho hw => ?_⟩
      have hl0 : l = 0 := by
        by_contra h
        rw [List.getElem?_eq_none (by simp; omega)] at hw
        cases hw
      subst hl0
      simp [caseU] at ho hw
      subst ho hw
      refine ⟨rfl, rfl, fun _ => 0, ⟨lvl_on _, lvl_on _, trivial, trivial, trivial, by simp [Expr.val]⟩, fun r r0 r1 => ⟨?_, rfl⟩⟩
      have r1' : r ≤ T := by
        refine r1.trans ?_
        split_ifs
        · exact le_rfl
        · exact hq
      have a0 : 0 ≤ r / T := div_nonneg r0 hT.le
      have a1 : r / T ≤ 1 := (div_le_one hT).2 r1'
      show (!₂[(lvl 2⁻¹).eval (r / T), (lvl 3).eval (r / T)] : Pt 2) = _
      rw [show (lvl 2⁻¹).eval (r / T) = 2⁻¹ from level (d := 1) a0 a1, show (lvl 3).eval (r / T) = 3 from level (d := 1) a0 a1])
  have et : (([caseU 0 T].length : ℕ) : ℝ) * (((1 : ℕ) : ℝ) * (T / 5)) + ([caseU 0 T, caseU 0 T].getLast (List.cons_ne_nil _ _)).T = 6 / 5 * T := by
    show (([caseU 0 T].length : ℕ) : ℝ) * (((1 : ℕ) : ℝ) * (T / 5)) + T = 6 / 5 * T
    simp; ring
  rw [et] at hsafe p1
  refine ⟨T, s, hT, hrun, pos, vel, acc, hsafe, ?_, p1, by simpa using hl⟩
  rw [p0]
  funext i
  fin_cases i <;> rfl

end Case

end Verif.Problems
