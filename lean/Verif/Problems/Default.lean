import Verif.Problems.Simulated
import Verif.Problems.Mission

/-! # Drives with the default options (C171)

The drive of `Problems/Mission.lean` with the defaults `ideal_update = False` and `ideal_prediction = False` (vehicle.py:70-75): the vehicle is
simulated (`Problems/Simulated.lean`) and the plans start from where the simulation says that it is. -/

set_option linter.unusedSectionVars false

namespace Verif.Problems.Default

open Verif.Problems.Predict Verif.Problems.Overrule Verif.Problems.Simulated
open Verif.Spline Verif.Vehicles Verif.Collision Verif.Timing

/-! ## Model -/

/-- Solving and storing, point2point.py:327-342, with the columns of `Upd.cols`: `find` is the solution that is found after the solutions so far,
from the prediction. -/
noncomputable def solverOf (Ts : ℝ) (find : List Upd → Sample ℝ → Upd) (hist : List Upd) (p : Sample ℝ) : List Upd × List (Sample ℝ) :=
  (hist ++ [find hist p], holoPlan [(find hist p).x 0, (find hist p).x 1] (find hist p).T Ts (samples (find hist p).T Ts).toNat)

/-- A drive of `k + 1` updates of `q` samples each, of which the first is the first after a reset. -/
noncomputable def drive (Ts : ℝ) (q : ℕ) (find : List Upd → Sample ℝ → Upd) (v : Predict.Veh ℝ) (k : ℕ) : Option (Run (List Upd) ℝ) :=
  (update (odeHolo Ts) (solverOf Ts find) false q true ⟨v, []⟩).bind (updates (odeHolo Ts) (solverOf Ts find) false q k)

/-! ## Lemmas -/

theorem pull {x y δ : ℝ} (h : |x - y| ≤ δ) : ∃ e, x = y + e ∧ |e| ≤ δ := ⟨x - y, by ring, h⟩

theorem dist_shift (p p' : Pt 2) (e0 e1 δ : ℝ) (h0 : |e0| ≤ δ) (h1 : |e1| ≤ δ) :
    dist p p' - √2 * δ ≤ dist (p + !₂[e0, e1]) p' := by
  have hδ : 0 ≤ δ := (abs_nonneg _).trans h0
  have hn : ‖(!₂[e0, e1] : Pt 2)‖ ≤ √2 * δ := by
    rw [EuclideanSpace.norm_eq, Fin.sum_univ_two]
    simp only [Real.norm_eq_abs, sq_abs]
    have : √2 * δ = √(2 * δ ^ 2) := by rw [Real.sqrt_mul (by norm_num), Real.sqrt_sq hδ]
    rw [this]
    refine Real.sqrt_le_sqrt ?_
    have a := sq_le_sq' (by linarith [neg_le_of_abs_le h0]) (le_of_abs_le h0)
    have b := sq_le_sq' (by linarith [neg_le_of_abs_le h1]) (le_of_abs_le h1)
    show e0 ^ 2 + e1 ^ 2 ≤ _
    linarith
  have := dist_triangle p (p + !₂[e0, e1]) p'
  rw [dist_self_add_right] at this
  linarith

theorem plan_from {S : Setup} {u : Upd} (h : Solves S u) (hd : 3 ≤ S.degree) (hn : 1 ≤ S.intervals) {Ts a : ℝ} (hs : 0 < Ts) {q : ℕ} (hq : 1 ≤ q)
    (hT : q * Ts ≤ u.T) (ax : -a ≤ holoLim S.bounds "axmin" "amin" (-1) ∧ holoLim S.bounds "axmax" "amax" 1 ≤ a)
    (ay : -a ≤ holoLim S.bounds "aymin" "amin" (-1) ∧ holoLim S.bounds "aymax" "amax" 1 ≤ a) :
    PlanFrom 2 q Ts a [u.start.state 0, u.start.state 1] (holoPlan [u.x 0, u.x 1] u.T Ts (samples u.T Ts).toNat) ∧
      ∀ j, j ≤ q → ∃ c, (holoPlan [u.x 0, u.x 1] u.T Ts (samples u.T Ts).toNat)[j]? = some c ∧
        c.state = .arr [u.pos 0 (j * Ts), u.pos 1 (j * Ts)] := by
  have hT0 : 0 < u.T := lt_of_lt_of_le (mul_pos (by exact_mod_cast hq) hs) hT
  have hx := h.traj hd hn
  have hM : q ≤ (samples u.T Ts).toNat := by
    have := (List.getElem?_eq_some_iff.1 (cols_get hx hs hT0 hT (i := q) le_rfl)).1
    simp only [Upd.cols, List.length_map, List.length_range] at this
    omega
  have h0 : ∀ i, (u.x i).eval 0 = u.start.state i := fun i => by
    obtain ⟨g, -⟩ := C122_holonomic u.x (fun i => (hx i).mono (by omega)) u.start u.T hT0 0 h.starts
    rw [signals_eq hx hT0] at g
    have := congrFun g i
    simpa [Upd.pos] using this
  refine ⟨?_, fun j hj => ?_⟩
  · have := C170_holonomic [u.x 0, u.x 1] u.T Ts a hT0 q _ hM hT (fun x hxm => by
      rcases List.mem_cons.1 hxm with rfl | hxm
      · exact ⟨hx 0, _, _, _, _, ax.1, ax.2, fun e he => h.limits e (List.mem_append_left _ he)⟩
      · rcases List.mem_cons.1 hxm with rfl | hxm
        · exact ⟨hx 1, _, _, _, _, ay.1, ay.2, fun e he => h.limits e (List.mem_append_right _ he)⟩
        · cases hxm)
    simpa [h0] using this
  · refine ⟨_, by rw [holoPlan, List.getElem?_map, List.getElem?_range (by omega), Option.map_some], ?_⟩
    simp only [List.map_cons, List.map_nil]
    rw [(hx 0).sig0 hT0, (hx 1).sig0 hT0]
    rfl

/-! ## The property -/

/-- **C171** A drive with the default options, in which every optimisation problem is solved, from the state that was predicted, every plan
is at least as long as an update and the obstacles behave as predicted until the next update: at every sample of the log the vehicle,
which is simulated and does not follow its plans exactly, is clear of all obstacles and in the room up to `δ` in each direction, a
quarter of acceleration limit times sample time times the time since the update. -/
theorem C171_drive (S : Setup) (hd : 3 ≤ S.degree) (hn : 1 ≤ S.intervals) (hw : 0 ≤ S.width) (hh : 0 ≤ S.height) (hsd : 0 ≤ S.sd)
    (Ts : ℝ) (hs : 0 < Ts) (q : ℕ) (hq : 1 ≤ q) (a : ℝ)
    (ax : -a ≤ holoLim S.bounds "axmin" "amin" (-1) ∧ holoLim S.bounds "axmax" "amax" 1 ≤ a)
    (ay : -a ≤ holoLim S.bounds "aymin" "amin" (-1) ∧ holoLim S.bounds "aymax" "amax" 1 ≤ a) (ha : 0 ≤ a)
    (find : List Upd → Sample ℝ → Upd) (v : Predict.Veh ℝ) (hi : v.ideal = false) (hv : Ready 2 v) (world : List Mover) (m : ℕ)
    (solved : ∀ k r, k ≤ m → drive Ts q find v k = some r → ∃ u, r.mem.getLast? = some u ∧
      r.veh.pred.state = .arr [u.start.state 0, u.start.state 1] ∧ Solves S u ∧ q * Ts ≤ u.T ∧ Spec.Predicted world (k * (q * Ts)) (q * Ts) u)
    (r : Run (List Upd) ℝ) (hr : drive Ts q find v m = some r) :
    ∃ log, r.veh.signals = some log ∧ q < log.length ∧ ∀ j, j ≤ q → ∃ l x y, log[log.length - 1 - q + j]? = some l ∧ l.state = .arr [x, y] ∧
      let δ := a * Ts * (j * Ts) / 4
      let t := m * (q * Ts) + j * Ts
      (∀ s ∈ S.shapes, ∀ p ∈ shifted !₂[x, y] s.region, Geometry.InRect (S.width + 2 * δ) (S.height + 2 * δ) S.room (p 0, p 1)) ∧
      ∀ s ∈ S.shapes, ∀ w ∈ world, ∀ p ∈ shifted !₂[x, y] s.core, ∀ p' ∈ placed (w.pos t) (w.angle t) w.shape.core,
        s.rad + w.shape.rad - √2 * δ ≤ dist p p' := by
  have hplan : ∀ k r u, drive Ts q find v k = some r → r.mem.getLast? = some u →
      r.veh.plan = some (holoPlan [u.x 0, u.x 1] u.T Ts (samples u.T Ts).toNat) := by
    have one : ∀ {start : Bool} {r q' : Run (List Upd) ℝ} {u : Upd}, update (odeHolo Ts) (solverOf Ts find) false q start r = some q' →
        q'.mem.getLast? = some u → q'.veh.plan = some (holoPlan [u.x 0, u.x 1] u.T Ts (samples u.T Ts).toNat) := by
      intro start r q' u hu hl
      unfold update at hu
      simp only [Option.bind_eq_some_iff, Option.map_eq_some_iff] at hu
      obtain ⟨p, -, v', hv', rfl⟩ := hu
      simp only [solverOf, List.getLast?_append, List.getLast?_singleton, Option.some_or, Option.some.injEq] at hl
      subst hl
      unfold simulate at hv'
      simp only [planned, Option.bind_some, Option.bind_eq_some_iff, Option.map_eq_some_iff] at hv'
      obtain ⟨log, -, l, -, rfl⟩ := hv'
      rfl
    intro k r u hr hl
    unfold drive at hr
    rw [Option.bind_eq_some_iff] at hr
    obtain ⟨q0, h0, h1⟩ := hr
    cases k with
    | zero =>
      simp only [updates, Option.some.injEq] at h1
      subst h1
      exact one h0 hl
    | succ k =>
      rw [updates_succ, Option.bind_eq_some_iff] at h1
      obtain ⟨q1, -, h1⟩ := h1
      exact one h1 hl
  have near := C170_along 2 q q hq le_rfl Ts a hs ha (solverOf Ts find) ⟨v, []⟩ hi hv m (fun k r hk hr => by
    obtain ⟨u, h1, h2, h3, h4, -⟩ := solved k r hk hr
    exact ⟨_, _, h2, hplan k r u hr h1, (plan_from h3 hd hn hs hq h4 ax ay).1⟩) r hr
  obtain ⟨u, h1, h2, h3, h4, h5⟩ := solved m r le_rfl hr
  obtain ⟨log, plan, g1, g2, g3, g4⟩ := near
  rw [hplan m r u hr h1, Option.some.injEq] at g2
  subst g2
  refine ⟨log, g1, g3, fun j hj => ?_⟩
  obtain ⟨l, c, x, y, e1, e2, e3, e4, e5, e6, e7⟩ := g4 j hj
  obtain ⟨x0, x1, rfl⟩ := List.length_eq_two.1 e5
  obtain ⟨c', f1, f2⟩ := (plan_from h3 hd hn hs hq h4 ax ay).2 j hj
  rw [e2, Option.some.injEq] at f1
  subst f1
  rw [e4] at f2
  obtain rfl := Py.arr.inj f2
  have d0 := e7 0 (by norm_num)
  have d1 := e7 1 (by norm_num)
  simp only [List.getD_cons_zero, List.getD_cons_succ] at d0 d1
  have hT0 : 0 < u.T := lt_of_lt_of_le (mul_pos (by exact_mod_cast hq) hs) h4
  have hx := h3.traj hd hn
  have t0 : 0 ≤ (j : ℝ) * Ts := by positivity
  have t1 : (j : ℝ) * Ts ≤ q * Ts := mul_le_mul_of_nonneg_right (by exact_mod_cast hj) hs.le
  refine ⟨l, x0, x1, e1, e3, ?_⟩
  intro δ t
  obtain ⟨a0, rfl, b0⟩ := pull d0
  obtain ⟨a1, rfl, b1⟩ := pull d1
  have b0 : |a0| ≤ δ := b0
  have b1 : |a1| ≤ δ := b1
  have split : ∀ A : Set (Pt 2), ∀ p ∈ shifted !₂[u.pos 0 (j * Ts) + a0, u.pos 1 (j * Ts) + a1] A,
      ∃ p1 ∈ shifted !₂[u.pos 0 (j * Ts), u.pos 1 (j * Ts)] A, p = p1 + !₂[a0, a1] := by
    rintro A p ⟨z, hz, rfl⟩
    refine ⟨_, ⟨z, hz, rfl⟩, ?_⟩
    ext i
    fin_cases i <;> simp <;> ring
  refine ⟨fun s hsm p hp => ?_, fun s hsm w hwm p hp p' hp' => ?_⟩
  · obtain ⟨p1, hp1, rfl⟩ := split _ p hp
    have := h3.room_at hx hw hh hT0 t0 (t1.trans h4) s hsm p1 hp1
    unfold Geometry.InRect at this ⊢
    have c0 : (p1 + !₂[a0, a1]) 0 = p1 0 + a0 := rfl
    have c1 : (p1 + !₂[a0, a1]) 1 = p1 1 + a1 := rfl
    simp only [c0, c1, abs_le] at this b0 b1 ⊢
    refine ⟨⟨?_, ?_⟩, ?_, ?_⟩ <;> linarith [this.1.1, this.1.2, this.2.1, this.2.2, b0.1, b0.2, b1.1, b1.2]
  · obtain ⟨p1, hp1, rfl⟩ := split _ p hp
    have := h3.apart_at hx hT0 hsd h5 t0 (t1.trans h4) t1 s hsm w hwm p1 hp1 p' hp'
    have := dist_shift p1 p' a0 a1 δ b0 b1
    linarith

/-! ## A case: the drive of `Problems/Mission.lean`, planned again and again -/

section Case

/-- The vehicle before the drive. -/
def fresh2 : Predict.Veh ℝ := ⟨.arr [0, 0], false, false, none, none, ⟨.arr [0, 0], .arr [0, 0], .arr [0, 0]⟩⟩

/-- The disc that is passed. -/
noncomputable def disc : List Mover := [⟨circle 1, fun _ => !₂[1 / 2, 3], fun _ => 0⟩]

theorem case_predicted {T d : ℝ} (hT : 0 < T) (hd : d ≤ T) (t0 : ℝ) : Spec.Predicted disc t0 d (caseU 0 T) := by
  refine ⟨rfl, fun l o w ho hw => ?_⟩
  have hl0 : l = 0 := by
    by_contra h
    rw [List.getElem?_eq_none (by simp [disc]; omega)] at hw
    cases hw
  subst hl0
  simp [caseU, disc] at ho hw
  subst ho hw
  refine ⟨rfl, rfl, fun _ => 0, ⟨lvl_on _, lvl_on _, trivial, trivial, trivial, by simp [Expr.val]⟩, fun r r0 r1 => ⟨?_, rfl⟩⟩
  have a0 : 0 ≤ r / T := div_nonneg r0 hT.le
  have a1 : r / T ≤ 1 := (div_le_one hT).2 (r1.trans hd)
  show (!₂[(lvl 2⁻¹).eval (r / T), (lvl 3).eval (r / T)] : Pt 2) = _
  rw [show (lvl 2⁻¹).eval (r / T) = 2⁻¹ from level (d := 1) a0 a1, show (lvl 3).eval (r / T) = 3 from level (d := 1) a0 a1]

theorem first_update {T : ℝ} (hT : 0 < T) (hsol : Solves (caseS 0) (caseU 0 T)) (q : ℕ) (hq1 : 1 ≤ q) (hq : (q : ℝ) * (T / 5) ≤ T) :
    ∃ c, (holoPlan [go, lvl3 0] T (T / 5) (samples T (T / 5)).toNat)[0]? = some c ∧ c.state = .arr [0, 0] ∧
    update (odeHolo (T / 5)) (solverOf (T / 5) fun _ _ => caseU 0 T) false q true ⟨fresh2, []⟩ = some
      ⟨{ planned fresh2 fresh2.pred (holoPlan [go, lvl3 0] T (T / 5) (samples T (T / 5)).toNat) with
        signals := some ([] ++ c :: logged (odeHolo (T / 5)) false (holoPlan [go, lvl3 0] T (T / 5) (samples T (T / 5)).toNat) c q) },
        [caseU 0 T]⟩ := by
  obtain ⟨⟨p, v, h1, h2, h3⟩, -⟩ := plan_from hsol (by simp [caseS]) (by simp [caseS]) (Ts := T / 5) (a := 1) (by linarith) hq1 hq
    (by simp [caseS, holoLim]) (by simp [caseS, holoLim])
  have h2 : q + 1 ≤ (holoPlan [go, lvl3 0] T (T / 5) (samples T (T / 5)).toNat).length := h2
  have hc := List.getElem?_eq_getElem (l := holoPlan [go, lvl3 0] T (T / 5) (samples T (T / 5)).toNat) (i := 0) (by omega)
  have hs := (h3 0 _ (Nat.zero_le _) hc).1
  have a0 := (h1 0 (by norm_num)).1
  have a1 := (h1 1 (by norm_num)).1
  refine ⟨_, hc, ?_, ?_⟩
  · rw [hs]
    simp [caseU] at a0 a1
    simp [List.range_succ, ← a0, ← a1]
  · unfold update
    rw [(C160_imposed (odeHolo (T / 5)) fresh2 q .none .none .none 0).2.2 rfl rfl, Option.bind_some]
    have : simulate (odeHolo (T / 5)) false (planned fresh2 fresh2.pred (holoPlan [go, lvl3 0] T (T / 5) (samples T (T / 5)).toNat)) q =
        some { planned fresh2 fresh2.pred (holoPlan [go, lvl3 0] T (T / 5) (samples T (T / 5)).toNat) with
          signals := some ([] ++ (holoPlan [go, lvl3 0] T (T / 5) (samples T (T / 5)).toNat)[0] ::
            logged (odeHolo (T / 5)) false (holoPlan [go, lvl3 0] T (T / 5) (samples T (T / 5)).toNat)
              (holoPlan [go, lvl3 0] T (T / 5) (samples T (T / 5)).toNat)[0] q) } := by
      simp [simulate, planned, fresh2, hc]
    have e : (solverOf (T / 5) (fun _ _ => caseU 0 T) [] fresh2.pred) =
      ([caseU 0 T], holoPlan [go, lvl3 0] T (T / 5) (samples T (T / 5)).toNat) := rfl
    simp only [e]
    rw [this]
    rfl

-- one plan, carried out until its end: at the last of the five samples the vehicle is clear of the disc up to √2 T²/20
example : ∃ T r log l x y, 0 < T ∧ drive (T / 5) 5 (fun _ _ => caseU 0 T) fresh2 0 = some r ∧ r.veh.signals = some log ∧
    log[log.length - 1 - 5 + 5]? = some l ∧ l.state = .arr [x, y] ∧
    ∀ p ∈ shifted !₂[x, y] (circle 1).core, ∀ p' ∈ placed !₂[1 / 2, 3] 0 (circle 1).core,
      (circle 1).rad + (circle 1).rad - √2 * (1 * (T / 5) * ((5 : ℕ) * (T / 5)) / 4) ≤ dist p p' := by
  obtain ⟨T, hT, hsol'⟩ := case_solves
  have hsol := hsol' 0 le_rfl (by norm_num) T le_rfl
  have hq : ((5 : ℕ) : ℝ) * (T / 5) ≤ T := by push_cast; linarith
  have hex : ∃ r, drive (T / 5) 5 (fun _ _ => caseU 0 T) fresh2 0 = some r ∧ r.mem.getLast? = some (caseU 0 T) ∧
      r.veh.pred.state = .arr [0, 0] := by
    obtain ⟨c, -, -, h0⟩ := first_update hT hsol 5 (by norm_num) hq
    exact ⟨_, by rw [drive, h0]; rfl, rfl, rfl⟩
  obtain ⟨r, h1, h2, h3⟩ := hex
  obtain ⟨log, g1, -, g2⟩ := C171_drive (caseS 0) (by simp [caseS]) (by simp [caseS]) (by simp [caseS]) (by simp [caseS]) (by simp [caseS])
    (T / 5) (by linarith) 5 (by norm_num) 1 (by simp [caseS, holoLim]) (by simp [caseS, holoLim]) zero_le_one (fun _ _ => caseU 0 T) fresh2 rfl
    (Or.inl ⟨rfl, [0, 0], rfl, rfl⟩) disc 0 (fun k r' hk hr' => by
      obtain rfl : k = 0 := by omega
      rw [h1, Option.some.injEq] at hr'
      subst hr'
      exact ⟨_, h2, h3, hsol, hq, case_predicted hT hq _⟩) r h1
  obtain ⟨l, x, y, e1, e2, -, e3⟩ := g2 5 le_rfl
  exact ⟨T, r, log, l, x, y, hT, h1, g1, e1, e2, e3 (circle 1) (List.mem_singleton.2 rfl) ⟨circle 1, fun _ => !₂[1 / 2, 3], fun _ => 0⟩ (List.mem_singleton.2 rfl)⟩

/-- Planned again after each of the five intervals, in which the plan waits. -/
theorem waits {T : ℝ} (hT : 0 < T) (hsol : Solves (caseS 0) (caseU 0 T)) (k : ℕ) : ∃ r, drive (T / 5) 1 (fun _ _ => caseU 0 T) fresh2 k = some r ∧
    r.mem.getLast? = some (caseU 0 T) ∧ r.veh.pred.state = .arr [0, 0] ∧ r.veh.ideal = false ∧
    r.veh.plan = some (holoPlan [go, lvl3 0] T (T / 5) (samples T (T / 5)).toNat) ∧
    ∃ pre l0, r.veh.signals = some (pre ++ l0 :: logged (odeHolo (T / 5)) false (holoPlan [go, lvl3 0] T (T / 5) (samples T (T / 5)).toNat) l0 1) ∧
      l0.state = .arr [0, 0] := by
  obtain ⟨c1, c2, c3, l1, l2, l3, g1, g2, g3, z1, f1, f2, f3⟩ := go_facts
  obtain ⟨k1, k2, k3, m1, m2, m3, h1, h2, h3, y1, y2, y3⟩ := lvl3_facts 0
  have tr := hsol.traj (by simp [caseS]) (by simp [caseS])
  have hq : ((1 : ℕ) : ℝ) * (T / 5) ≤ (caseU 0 T).T := by show ((1 : ℕ) : ℝ) * (T / 5) ≤ T; push_cast; linarith
  have hM : 1 ≤ (samples T (T / 5)).toNat := by
    have := (List.getElem?_eq_some_iff.1 (cols_get tr (by linarith) hT hq (i := 1) le_rfl)).1
    simp only [Upd.cols, List.length_map, List.length_range] at this
    have e : (caseU 0 T).T = T := rfl
    rw [e] at this
    omega
  set P := holoPlan [go, lvl3 0] T (T / 5) (samples T (T / 5)).toNat with hP
  have hin : ∀ i : Fin 2, inputSignal ((caseU 0 T).x i) T 0 = 0 ∧ inputSignal ((caseU 0 T).x i) T (T / 5) = 0 := by
    intro i
    have e : ∀ t, inputSignal ((caseU 0 T).x i) T t = (((caseU 0 T).x i).derivative 1).eval (t / T) / T := fun t => by
      have := ((tr i).mono (by omega : 1 ≤ 2)).signal hT t
      rwa [pow_one] at this
    have e5 : T / 5 / T = 1 / 5 := by field_simp
    rw [e, e, e5, zero_div]
    have vf := fun {c : List ℝ} (h : c.length = 5 + 2) => GCode.RingGuess.veh_first (d := 2) (n := 5) (by norm_num) h
    fin_cases i
    · show (go.derivative 1).eval _ / _ = _ ∧ (go.derivative 1).eval _ / _ = _
      rw [g1, first_zero l1 z1, (vf l1).1, z1 0 (by norm_num)]; simp
    · show ((lvl3 0).derivative 1).eval _ / _ = _ ∧ ((lvl3 0).derivative 1).eval _ / _ = _
      rw [h1, first_zero m1 (fun j hj => y1 j (by omega)), (vf m1).1, y1 0 (by norm_num)]; simp
  have hz : odeHolo (T / 5) (.arr [0, 0]) (P.map Sample.input) 1 = .arr [0, 0] := by
    have hint : ∀ i : Fin 2, (∫ t in (0 : ℝ)..((1 : ℕ) * (T / 5)), interp1 ((P.map Sample.input).map (entry i)) (T / 5) t) = 0 := by
      intro i
      have hlen : 0 + 1 < ((P.map Sample.input).map (entry i)).length := by simp [hP, holoPlan]; omega
      have := (interp_step (by linarith : 0 < T / 5) hlen).2
      have ev : ∀ j : ℕ, j ≤ 1 → ((P.map Sample.input).map (entry i)).getD j 0 = inputSignal ((caseU 0 T).x i) T (j * (T / 5)) := by
        intro j hj
        rw [List.getD_eq_getElem _ _ (by simp [hP, holoPlan]; omega)]
        fin_cases i <;> simp [hP, holoPlan, entry, caseU]
      rw [ev 0 (by omega), ev 1 le_rfl] at this
      have z0 := (hin i).1
      have z1 := (hin i).2
      simp only [Nat.cast_zero, Nat.cast_one, zero_mul, one_mul, zero_add] at this ⊢
      rw [z0, z1] at this
      simpa using this
    have i0 := hint 0
    have i1 := hint 1
    simp only [Fin.val_zero, Fin.val_one] at i0 i1
    simp only [odeHolo, List.zipIdx_cons, List.zipIdx_nil, List.map_cons, List.map_nil, i0, i1, zero_add]
  have hPl : 1 < P.length := by simp [hP, holoPlan]; omega
  obtain ⟨c, hc, hcs, h0⟩ := first_update hT hsol 1 le_rfl hq
  induction k with
  | zero => exact ⟨_, by rw [drive, h0]; rfl, rfl, rfl, rfl, rfl, [], c, rfl, hcs⟩
  | succ k ih =>
    obtain ⟨r, e1, e2, e3, e4, e5, pre, l0, e6, e7⟩ := ih
    have hP1 : P[1 + 0]? = some P[1] := List.getElem?_eq_getElem hPl
    obtain ⟨p, a1, a2, -⟩ := (C160_simulated (odeHolo (T / 5)) r.veh 1 .none .none .none 0 false P e5 e4 P[1] hP1).2 rfl pre l0 _ e6 (logged_length hPl)
    rw [List.drop_zero, e7, hz] at a2
    have hlog : logged (odeHolo (T / 5)) false P l0 1 = [{ P[1] with state := .arr [0, 0] }] := by
      have b := logged_get (h := T / 5) (n := 1) (plan := P) (l0 := l0) hPl (j := 0) (by omega)
      have b' := logged_length (h := T / 5) (n := 1) (plan := P) (l0 := l0) hPl
      obtain ⟨z, hzz⟩ := List.length_eq_one_iff.1 b'
      rw [hzz] at b ⊢
      rw [List.getElem?_cons_zero, Option.some.injEq] at b
      rw [b, e7]
      simp only [Nat.zero_add, hz]
    have e6' : r.veh.signals = some ((pre ++ [l0]) ++ [{ P[1] with state := .arr [0, 0] }]) := by rw [e6, hlog]; simp
    have hu : update (odeHolo (T / 5)) (solverOf (T / 5) fun _ _ => caseU 0 T) false 1 false r = some
        ⟨{ planned r.veh p P with signals := some (((pre ++ [l0]) ++ [{ P[1] with state := .arr [0, 0] }]) ++
          logged (odeHolo (T / 5)) false P { P[1] with state := .arr [0, 0] } 1) }, r.mem ++ [caseU 0 T]⟩ := by
      unfold update
      have e : (solverOf (T / 5) (fun _ _ => caseU 0 T) r.mem p) = (r.mem ++ [caseU 0 T], P) := rfl
      rw [a1, Option.bind_some, e, simulate_some (odeHolo (T / 5)) false (planned r.veh p P) 1 P rfl (pre ++ [l0]) _ e6']
      rfl
    have hdr : drive (T / 5) 1 (fun _ _ => caseU 0 T) fresh2 (k + 1) = update (odeHolo (T / 5)) (solverOf (T / 5) fun _ _ => caseU 0 T) false 1 false r := by
      rw [drive] at e1 ⊢
      rw [Option.bind_eq_some_iff] at e1
      obtain ⟨q0, b1, b2⟩ := e1
      rw [b1, Option.bind_some, updates_succ, b2, Option.bind_some]
    exact ⟨_, hdr.trans hu, by simp, a2, e4, rfl, pre ++ [l0], { P[1] with state := .arr [0, 0] }, by simp, rfl⟩

-- planned again after every interval: at the end of each of them the vehicle is clear of the disc up to √2 T²/100
example : ∃ T, 0 < T ∧ ∀ m : ℕ, ∃ r log l x y, drive (T / 5) 1 (fun _ _ => caseU 0 T) fresh2 m = some r ∧ r.veh.signals = some log ∧
    log[log.length - 1 - 1 + 1]? = some l ∧ l.state = .arr [x, y] ∧
    ∀ p ∈ shifted !₂[x, y] (circle 1).core, ∀ p' ∈ placed !₂[1 / 2, 3] 0 (circle 1).core,
      (circle 1).rad + (circle 1).rad - √2 * (1 * (T / 5) * ((1 : ℕ) * (T / 5)) / 4) ≤ dist p p' := by
  obtain ⟨T, hT, hsol'⟩ := case_solves
  have hsol := hsol' 0 le_rfl (by norm_num) T le_rfl
  have hq : ((1 : ℕ) : ℝ) * (T / 5) ≤ T := by push_cast; linarith
  refine ⟨T, hT, fun m => ?_⟩
  obtain ⟨r, h1, -⟩ := waits hT hsol m
  obtain ⟨log, g1, -, g2⟩ := C171_drive (caseS 0) (by simp [caseS]) (by simp [caseS]) (by simp [caseS]) (by simp [caseS]) (by simp [caseS])
    (T / 5) (by linarith) 1 (by norm_num) 1 (by simp [caseS, holoLim]) (by simp [caseS, holoLim]) zero_le_one (fun _ _ => caseU 0 T) fresh2 rfl
    (Or.inl ⟨rfl, [0, 0], rfl, rfl⟩) disc m (fun k r' hk hr' => by
      obtain ⟨r'', f1, f2, f3, -⟩ := waits hT hsol k
      rw [f1, Option.some.injEq] at hr'
      subst hr'
      exact ⟨_, f2, f3, hsol, hq, case_predicted hT hq _⟩) r h1
  obtain ⟨l, x, y, e1, e2, -, e3⟩ := g2 1 le_rfl
  exact ⟨r, log, l, x, y, h1, g1, e1, e2, e3 (circle 1) (List.mem_singleton.2 rfl) ⟨circle 1, fun _ => !₂[1 / 2, 3], fun _ => 0⟩ (List.mem_singleton.2 rfl)⟩

end Case

end Verif.Problems.Default
