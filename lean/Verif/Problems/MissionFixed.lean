import Verif.Problems.Mission
import Verif.Timing.KnotClock

/-! # A simulated drive with a fixed horizon

As `Problems/Mission.lean`, with `FixedTPoint2point`: all plans have the same horizon, their splines start at the last knot before the update and only the part
from the time of the update on is followed. -/

set_option linter.unusedSectionVars false

namespace Verif.Problems

open Verif.Spline Verif.Vehicles Verif.Collision Verif.Timing

/-! ## Model -/

/-- What the user sets up in addition: `syslimit = 'norm_2'` (holonomic.py:64) or not, and the options of `FixedTPoint2point`, point2point.py:138-142. -/
structure FixSetup extends Setup where
  two : Bool
  horizon : ℝ
  hard : Bool
  noDer : Bool

/-- The solution of one update, with the parameter `t`: the time since the last knot (point2point.py:175-178). -/
structure FixUpd extends Upd where
  rel : ℝ

/-- All variables of `FixedTPoint2point` have values that meet all its constraints, point2point.py:31-66,148-182: splines on the basis of the vehicle, limits,
obstacles, room, start (`t0 = t/T`) and end. The slack splines `g` do not constrain the motion and are left out. -/
structure FixSolves (F : FixSetup) (u : FixUpd) : Prop where
  horizon : u.T = F.horizon
  form : ∀ i, ∃ c, c.length = F.intervals + F.degree ∧ u.x i = ⟨vehBasis F.degree F.intervals, c⟩
  lines : ∀ k l, (u.hyp k l).On 0 1
  slacks : ∀ s k, (Expr.spl (u.eps s k)).On 0 1
  limits : ∀ e ∈ (if F.two then holoTwo F.bounds (u.x 0) (u.x 1) u.T else holoInf F.bounds (u.x 0) (u.x 1) u.T), e.Imposed 0
  avoid : ∀ e ∈ envCons (F.veh u.toUpd) u.obs u.hyp, e.Imposed 0
  inside : ∀ s ∈ F.shapes, ∀ e ∈ roomConsRect s (.spl (u.x 0)) (.spl (u.x 1)) (Geometry.placedRect F.width F.height F.room).limits, e.Imposed 0
  starts : MeetsInit (holoInit u.x u.start u.T) (u.rel / u.T)
  ends : MeetsEnd (imposedFixed F.hard F.noDer (holoTerm u.x F.goal F.degree))

/-- The columns that `FixedTPoint2point.store` (point2point.py:211-228) stores: state, input and its derivative on the time axis `t, t + Ts, t + 2 Ts, ...`. -/
noncomputable def FixUpd.cols (Ts : ℝ) (u : FixUpd) : List (Holo 2) :=
  (List.range ((samples (u.T - u.rel) Ts).toNat + 1)).map fun (i : ℕ) => holoSignals (fun j => (u.x j).scale u.T 0) (u.rel + i * Ts)

/-! ## Specification -/

/-- The obstacles as predicted in an update at time `t0` are the obstacles that there are (all to be avoided), and for a time `d` they do what was predicted;
the prediction begins at the last knot, a time `u.rel` before the update. -/
def Spec.PredictedFrom (world : List Mover) (t0 d : ℝ) (u : FixUpd) : Prop :=
  u.obs.length = world.length ∧ ∀ (l : ℕ) (o : Obs) (w : Mover), u.obs[l]? = some o → world[l]? = some w → o.shape = w.shape ∧ o.avoid = true ∧
    ∃ φ : ℝ → ℝ, o.On 0 1 φ ∧ ∀ r, 0 ≤ r → r ≤ d →
      (!₂[o.q0.val ((u.rel + r) / u.T), o.q1.val ((u.rel + r) / u.T)] : Pt 2) = w.pos (t0 + r) ∧ φ ((u.rel + r) / u.T) = w.angle (t0 + r)

/-- A motion of the vehicle during `[0, total]`, with its velocity and acceleration, that is safe. -/
structure Spec.SafeDrive (F : FixSetup) (world : List Mover) (total : ℝ) (pos vel acc : ℝ → Fin 2 → ℝ) : Prop where
  moves : ∀ i, ∀ t ∈ Set.Icc 0 total, HasDerivWithinAt (fun t => pos t i) (vel t i) (Set.Icc 0 total) t
  smooth : ∀ i, ContinuousOn (fun t => vel t i) (Set.Icc 0 total)
  speeds : ∀ i, ∀ t ∈ Set.Ico 0 total, HasDerivWithinAt (fun t => vel t i) (acc t i) (Set.Icc t total) t
  total_limits : F.two = true → ∀ t ∈ Set.Icc 0 total,
    vel t 0 ^ 2 + vel t 1 ^ 2 ≤ lim F.bounds "vmax" (1 / 2) ^ 2 ∧ acc t 0 ^ 2 + acc t 1 ^ 2 ≤ lim F.bounds "amax" 1 ^ 2
  limitX : F.two = false → ∀ t ∈ Set.Icc 0 total,
    (holoLim F.bounds "vxmin" "vmin" (-(1 / 2)) ≤ vel t 0 ∧ vel t 0 ≤ holoLim F.bounds "vxmax" "vmax" (1 / 2)) ∧
    (holoLim F.bounds "axmin" "amin" (-1) ≤ acc t 0 ∧ acc t 0 ≤ holoLim F.bounds "axmax" "amax" 1)
  limitY : F.two = false → ∀ t ∈ Set.Icc 0 total,
    (holoLim F.bounds "vymin" "vmin" (-(1 / 2)) ≤ vel t 1 ∧ vel t 1 ≤ holoLim F.bounds "vymax" "vmax" (1 / 2)) ∧
    (holoLim F.bounds "aymin" "amin" (-1) ≤ acc t 1 ∧ acc t 1 ≤ holoLim F.bounds "aymax" "amax" 1)
  room : ∀ t ∈ Set.Icc 0 total, ∀ s ∈ F.shapes, ∀ p ∈ shifted !₂[pos t 0, pos t 1] s.region,
    Geometry.InRect F.width F.height F.room (p 0, p 1)
  apart : ∀ t ∈ Set.Icc 0 total, ∀ s ∈ F.shapes, ∀ w ∈ world, ∀ p ∈ shifted !₂[pos t 0, pos t 1] s.core,
    ∀ p' ∈ placed (w.pos t) (w.angle t) w.shape.core, s.rad + w.shape.rad ≤ dist p p'

/-! ## Lemmas -/

/-- The log of the simulation, sample by sample, is the sequence of plans, each followed for one update. -/
theorem glue_log {α C : Type} (Ts : ℝ) (hs : 0 < Ts) (q : ℕ) (hq : 1 ≤ q) (cols : α → List C) (col : α → ℝ → C) (first : α) (more : List α)
    (hget : ∀ c ∈ first :: more, ∀ i : ℕ, i ≤ q → (cols c)[i]? = some (col c (i * Ts))) :
    ∃ s, Loop.run (q * Ts) Ts ((first :: more).map cols) = some s ∧ s.log.length = (more.length + 1) * q + 1 ∧
      (∀ (k : ℕ) (c : α), k < more.length → (first :: more)[k]? = some c → s.seen[k]? = some (col c (q * Ts))) ∧
      ∀ j, j ≤ (more.length + 1) * q → ∃ (c : α) (r : ℝ), c ∈ first :: more ∧ s.log[j]? = some (j * Ts, col c r) ∧
        ∀ F : α → ℝ → ℝ, (∀ (k : ℕ) (c d : α), (first :: more)[k]? = some c → (first :: more)[k + 1]? = some d → F c (q * Ts) = F d 0) →
          F c r = along (q * Ts) F first more (j * Ts) := by
  have hu : 0 < (q : ℝ) * Ts := mul_pos (by exact_mod_cast hq) hs
  have hlen : ∀ p ∈ (first :: more).map cols, q < p.length := fun p hp => by
    obtain ⟨c, hc, rfl⟩ := List.mem_map.1 hp
    exact (List.getElem?_eq_some_iff.1 (hget c hc q le_rfl)).1
  obtain ⟨s, hrun, -, hl, hz, hent, -, hseen⟩ := C127_follow Ts hs q hq ((first :: more).map cols) hlen
  have hl := hl (by simp)
  simp only [List.length_map, List.length_cons] at hl hseen
  refine ⟨s, hrun, hl, ?_, ?_⟩
  · intro k c hk hc
    have e1 := hent k (cols c) (by rw [List.getElem?_map, hc]; rfl) q hq le_rfl
    rw [hget c (List.mem_of_getElem? hc) q le_rfl, Option.map_some] at e1
    have e2 := hseen k (by omega)
    rw [show (k + 1) * q = k * q + q by ring, e1, Option.map_some] at e2
    exact e2
  · intro j hj
    rcases Nat.eq_zero_or_pos j with rfl | hj0
    · rw [List.map_cons, List.getElem?_cons_zero, Option.bind_some, hget first (by simp) 0 (Nat.zero_le _), Option.map_some] at hz
      refine ⟨first, 0, by simp, by simpa using hz, fun F _ => ?_⟩
      simp [along, locate_zero hu]
    · obtain ⟨k, i, hk, hi0, hi, rfl⟩ : ∃ k i, k ≤ more.length ∧ 1 ≤ i ∧ i ≤ q ∧ j = k * q + i := by
        refine ⟨(j - 1) / q, (j - 1) % q + 1, ?_, by omega, Nat.mod_lt _ hq, ?_⟩
        · have : (j - 1) / q < more.length + 1 := by
            rw [Nat.div_lt_iff_lt_mul (by omega)]; omega
          omega
        · have := Nat.div_add_mod (j - 1) q
          rw [Nat.mul_comm] at this
          omega
      have hkl : k < (first :: more).length := by simp; omega
      have hkc := List.getElem?_eq_getElem hkl
      set c := (first :: more)[k] with hcdef
      have hc : c ∈ first :: more := List.mem_of_getElem? hkc
      have e1 := hent k (cols c) (by rw [List.getElem?_map, hkc]; rfl) i hi0 hi
      rw [hget c hc i hi, Option.map_some] at e1
      refine ⟨c, i * Ts, hc, e1, fun F hF => ?_⟩
      have hti : ((k * q + i : ℕ) : ℝ) * Ts = k * (q * Ts) + i * Ts := by push_cast; ring
      have h0 : 0 ≤ (i : ℝ) * Ts := by positivity
      rw [hti, along]
      rcases Nat.lt_or_ge i q with hiq | hiq
      · have : (i : ℝ) * Ts < q * Ts := mul_lt_mul_of_pos_right (by exact_mod_cast hiq) hs
        rw [locate_at hu first more k c _ hkc h0 (Or.inl this)]
      · obtain rfl : i = q := by omega
        rcases Nat.lt_or_ge k more.length with hlt | hge
        · have hk1 : k + 1 < (first :: more).length := by simp; omega
          have := locate_at hu first more (k + 1) _ 0 (List.getElem?_eq_getElem hk1) le_rfl (Or.inl hu)
          rw [show ((k + 1 : ℕ) : ℝ) * (i * Ts) + 0 = k * (i * Ts) + i * Ts by push_cast; ring] at this
          rw [this]
          exact hF k c _ hkc (List.getElem?_eq_getElem hk1)
        · rw [locate_at hu first more k c _ hkc h0 (Or.inr (by omega))]

/-- The shapes of a vehicle and the obstacles keep their distance at every instant of the horizon, where the obstacle is where it was predicted. -/
theorem apart_unit {S : Setup} {u : Upd} (hx : ∀ i, Traj (u.x i) 2) (hS : 0 ≤ S.sd) (lines : ∀ k l, (u.hyp k l).On 0 1)
    (slacks : ∀ s k, (Expr.spl (u.eps s k)).On 0 1) (avoid : ∀ e ∈ envCons (S.veh u) u.obs u.hyp, e.Imposed 0)
    (on : ∀ (l : ℕ) (o : Obs), u.obs[l]? = some o → ∃ φ : ℝ → ℝ, o.On 0 1 φ) {l : ℕ} {o : Obs} (hl : u.obs[l]? = some o) (hav : o.avoid = true) {φ : ℝ → ℝ}
    (hφ : o.On 0 1 φ) {x : ℝ} (h0 : 0 ≤ x) (h1 : x ≤ 1) :
    ∀ s ∈ S.shapes, ∀ p ∈ shifted !₂[(u.x 0).eval x, (u.x 1).eval x] s.core,
    ∀ p' ∈ placed !₂[o.q0.val x, o.q1.val x] (φ x) o.shape.core, s.rad + o.shape.rad ≤ dist p p' := by
  intro s hs p hpp p' hpp'
  obtain ⟨k, hk⟩ := List.mem_iff_getElem?.1 hs
  have all : ∀ l' : ℕ, ∃ φ : ℝ → ℝ, ∀ o : Obs, u.obs[l']? = some o → o.On 0 1 φ := fun l' => by
    cases ho : u.obs[l']? with
    | none => exact ⟨fun _ => 0, fun o h => by cases h⟩
    | some o' =>
      obtain ⟨φ, h⟩ := on l' o' ho
      exact ⟨φ, fun o e => by rw [Option.some.injEq] at e; exact e ▸ h⟩
  choose φs hφs using all
  obtain ⟨-, hcore, hslack⟩ := C10_environment (S.veh u) u.obs u.hyp 0 1 (fun l' => if l' = l then φ else φs l')
    ⟨trivial, fun _ => (hx 0).on, fun _ => (hx 1).on, slacks⟩ lines
    (fun l' o' ho => by
      by_cases he : l' = l
      · subst he
        rw [if_pos rfl]
        rw [hl, Option.some.injEq] at ho
        exact ho ▸ hφ
      · rw [if_neg he]; exact hφs l' o' ho)
    avoid k s hk l o hl hav x h0 h1
  rw [if_pos rfl] at hcore
  have hz : heading 0 = 0 := by simp [heading]
  have g1 : p ∈ (S.veh u).coreAt k s x := by
    show p ∈ placed (carried _ _ 0 (heading 0)) (heading 0) s.core
    rw [hz, placed_zero]
    have : carried ((u.x 0).eval x) ((u.x 1).eval x) 0 0 = !₂[(u.x 0).eval x, (u.x 1).eval x] := by simp [carried]
    exact this ▸ hpp
  have h3 := hcore p g1 p' hpp'
  have h4 : 0 ≤ S.sd - ((S.veh u).eps k (avoidedBefore u.obs l)).val x := by
    rcases hS.eq_or_lt with h | h
    · unfold Veh.eps
      rw [if_neg (by show ¬ 0 < S.sd; rw [← h]; exact lt_irrefl _), ← h]
      simp [Expr.val]
    · linarith [(hslack h).2, show (S.veh u).sd = S.sd from rfl]
  have h5 : (S.veh u).sd = S.sd := rfl
  rw [h5] at h3
  linarith

theorem part_deriv {f : ℝ → ℝ} {f' a T r : ℝ} (ha : 0 ≤ a) (h : HasDerivWithinAt f f' (Set.Icc 0 T) (a + r)) :
    HasDerivWithinAt (fun r => f (a + r)) f' (Set.Icc 0 (T - a)) r := by
  have := h.comp r ((hasDerivAt_id r).const_add a).hasDerivWithinAt (s := Set.Icc 0 (T - a))
    (fun x hx => Set.mem_Icc.2 ⟨by linarith [hx.1], by linarith [hx.2]⟩)
  simpa [Function.comp_def] using this

theorem paramT_range {kt : ℝ} (h : 0 < kt) (t : ℝ) : 0 ≤ paramT kt t ∧ paramT kt t < kt := by
  unfold paramT pyMod
  have a := Int.floor_le (round6 t / kt)
  have b := Int.lt_floor_add_one (round6 t / kt)
  rw [le_div_iff₀ h] at a
  rw [div_lt_iff₀ h] at b
  constructor <;> linarith

section One
variable {F : FixSetup} {u : FixUpd}

/-- Position, velocity and acceleration, from the time of the update on. -/
noncomputable def FixUpd.pos (i : Fin 2) (u : FixUpd) (r : ℝ) : ℝ := u.toUpd.pos i (u.rel + r)
noncomputable def FixUpd.vel (i : Fin 2) (u : FixUpd) (r : ℝ) : ℝ := u.toUpd.vel i (u.rel + r)
noncomputable def FixUpd.acc (i : Fin 2) (u : FixUpd) (r : ℝ) : ℝ := u.toUpd.acc i (u.rel + r)

theorem FixSolves.traj (h : FixSolves F u) (hd : 3 ≤ F.degree) (hn : 1 ≤ F.intervals) (i : Fin 2) : Traj (u.x i) 2 := by
  obtain ⟨c, hc, e⟩ := h.form i
  rw [e]
  exact (vehBasis_traj (by omega) hn hc).mono (by omega)

theorem fix_cols_get (hx : ∀ i, Traj (u.x i) 2) {Ts : ℝ} (hs : 0 < Ts) (hT : 0 < u.T) {q i : ℕ} (hq : q * Ts ≤ u.T - u.rel) (hi : i ≤ q) :
    (u.cols Ts)[i]? = some ⟨fun j => u.pos j (i * Ts), fun j => u.vel j (i * Ts), fun j => u.acc j (i * Ts)⟩ := by
  have h1 : ((q : ℕ) : ℝ) ≤ (u.T - u.rel) / Ts := (le_div_iff₀ hs).2 hq
  have h2 : (q : ℤ) ≤ samples (u.T - u.rel) Ts := by
    have := pyInt_mono (round6_mono h1)
    have e : ((q : ℕ) : ℝ) = ((q : ℤ) : ℝ) := by norm_cast
    rwa [e, round6_intCast, pyInt_intCast] at this
  have h3 : i < (samples (u.T - u.rel) Ts).toNat + 1 := by omega
  unfold FixUpd.cols
  rw [List.getElem?_map, List.getElem?_range h3, Option.map_some, signals_eq hx hT]
  rfl

theorem FixSolves.limits_at (h : FixSolves F u) (hx : ∀ i, Traj (u.x i) 2) (hT : 0 < u.T) {r : ℝ} (h0 : 0 ≤ r) (h1 : r ≤ u.T) :
    (F.two = true → u.toUpd.vel 0 r ^ 2 + u.toUpd.vel 1 r ^ 2 ≤ lim F.bounds "vmax" (1 / 2) ^ 2 ∧
      u.toUpd.acc 0 r ^ 2 + u.toUpd.acc 1 r ^ 2 ≤ lim F.bounds "amax" 1 ^ 2) ∧
    (F.two = false → ((holoLim F.bounds "vxmin" "vmin" (-(1 / 2)) ≤ u.toUpd.vel 0 r ∧ u.toUpd.vel 0 r ≤ holoLim F.bounds "vxmax" "vmax" (1 / 2)) ∧
      (holoLim F.bounds "axmin" "amin" (-1) ≤ u.toUpd.acc 0 r ∧ u.toUpd.acc 0 r ≤ holoLim F.bounds "axmax" "amax" 1)) ∧
      ((holoLim F.bounds "vymin" "vmin" (-(1 / 2)) ≤ u.toUpd.vel 1 r ∧ u.toUpd.vel 1 r ≤ holoLim F.bounds "vymax" "vmax" (1 / 2)) ∧
      (holoLim F.bounds "aymin" "amin" (-1) ≤ u.toUpd.acc 1 r ∧ u.toUpd.acc 1 r ≤ holoLim F.bounds "aymax" "amax" 1))) := by
  have hl := h.limits
  refine ⟨fun h2 => ?_, fun h2 => ?_⟩
  · rw [h2, if_pos rfl] at hl
    exact holoTwo_le (hx 0) (hx 1) hT hl h0 h1
  · rw [h2, if_neg (by simp)] at hl
    obtain ⟨a, b, -⟩ := C13_signals F.bounds (u.x 0) (u.x 1) (hx 0) (hx 1) u.T hT hl r h0 h1
    have e := signals_eq hx hT r
    have e1 : ∀ i, inputSignal (u.x i) u.T r = u.toUpd.vel i r := fun i => congrFun (congrArg Holo.input e) i
    have e2 : ∀ i, dinputSignal (u.x i) u.T r = u.toUpd.acc i r := fun i => congrFun (congrArg Holo.dinput e) i
    rw [e1, e2] at a b
    exact ⟨a, b⟩

end One

/-! ## One vehicle -/

/-- Position, velocity and acceleration of the vehicle when each plan is followed for one update, and the last one to its end. -/
noncomputable def drivePos (u : ℝ) (first : FixUpd) (more : List FixUpd) (t : ℝ) (i : Fin 2) : ℝ := along u (FixUpd.pos i) first more t
noncomputable def driveVel (u : ℝ) (first : FixUpd) (more : List FixUpd) (t : ℝ) (i : Fin 2) : ℝ := along u (FixUpd.vel i) first more t
noncomputable def driveAcc (u : ℝ) (first : FixUpd) (more : List FixUpd) (t : ℝ) (i : Fin 2) : ℝ := along u (FixUpd.acc i) first more t

theorem drive_core (F : FixSetup) (hd : 3 ≤ F.degree) (hn : 1 ≤ F.intervals) (hw : 0 ≤ F.width) (hh : 0 ≤ F.height) (hsd : 0 ≤ F.sd)
    (kt : ℝ) (hkt : 0 < kt) (Ts : ℝ) (hs : 0 < Ts) (q : ℕ) (hq : 1 ≤ q) (hlong : kt + q * Ts ≤ F.horizon)
    (first : FixUpd) (more : List FixUpd) (solved : ∀ u ∈ first :: more, FixSolves F u)
    (clock : ∀ (k : ℕ) (u : FixUpd), (first :: more)[k]? = some u → u.rel = paramT kt (k * (q * Ts)))
    (predicted : ∀ s, Loop.run (q * Ts) Ts ((first :: more).map (FixUpd.cols Ts)) = some s →
      ∀ (k : ℕ) (u : FixUpd) (a : Holo 2), more[k]? = some u → s.seen[k]? = some a → u.start.state = a.state ∧ u.start.input = a.input)
    (world : List Mover) (foreseen : ∀ (k : ℕ) (u : FixUpd), (first :: more)[k]? = some u →
      Spec.PredictedFrom world (k * (q * Ts)) (if k = more.length then F.horizon - u.rel else q * Ts) u) :
    ∃ s, Loop.run (q * Ts) Ts ((first :: more).map (FixUpd.cols Ts)) = some s ∧
      let pos := drivePos (q * Ts) first more
      let vel := driveVel (q * Ts) first more
      let acc := driveAcc (q * Ts) first more
      let total := more.length * (q * Ts) + (F.horizon - paramT kt (more.length * (q * Ts)))
      Spec.SafeDrive F world total pos vel acc ∧
      pos 0 = first.start.state ∧ vel 0 = first.start.input ∧
      (F.hard = true → pos total = F.goal) ∧ (F.noDer = false → vel total = (fun _ => 0)) ∧
      s.log.length = (more.length + 1) * q + 1 ∧
      ∀ j, j ≤ (more.length + 1) * q → ∃ a, s.log[j]? = some (j * Ts, a) ∧ a.state = pos (j * Ts) ∧ a.input = vel (j * Ts) := by
  have hu : 0 < (q : ℝ) * Ts := mul_pos (by exact_mod_cast hq) hs
  have hH : 0 < F.horizon := by linarith
  have hT : ∀ c ∈ first :: more, 0 < c.T := fun c hc => (solved c hc).horizon ▸ hH
  have hrel : ∀ c ∈ first :: more, 0 ≤ c.rel ∧ c.rel < kt := fun c hc => by
    obtain ⟨k, hk⟩ := List.mem_iff_getElem?.1 hc
    rw [clock k c hk]
    exact paramT_range hkt _
  set D : FixUpd → ℝ := fun c => c.T - c.rel with hD
  have long : ∀ c ∈ first :: more, q * Ts ≤ D c := fun c hc => by
    rw [hD]
    show q * Ts ≤ c.T - c.rel
    rw [(solved c hc).horizon]
    linarith [(hrel c hc).2]
  have hx : ∀ c ∈ first :: more, ∀ i, Traj (c.x i) 2 := fun c hc => (solved c hc).traj hd hn
  have hstart : ∀ c ∈ first :: more, (∀ i, c.pos i 0 = c.start.state i) ∧ ∀ i, c.vel i 0 = c.start.input i := fun c hc => by
    obtain ⟨a, b⟩ := C122_holonomic c.x (fun i => (hx c hc i).mono (by omega)) c.start c.T (hT c hc) c.rel (solved c hc).starts
    rw [signals_eq (hx c hc) (hT c hc)] at a b
    unfold FixUpd.pos FixUpd.vel
    rw [add_zero]
    exact ⟨fun i => congrFun a i, fun i => congrFun b i⟩
  obtain ⟨s, hrun, hl, hseen, hlog⟩ := glue_log Ts hs q hq (FixUpd.cols Ts)
    (fun c r => (⟨fun j => c.pos j r, fun j => c.vel j r, fun j => c.acc j r⟩ : Holo 2)) first more
    fun c hc i hi => fix_cols_get (hx c hc) hs (hT c hc) (long c hc) hi
  have hjoin : ∀ (k : ℕ) (c d : FixUpd), (first :: more)[k]? = some c → (first :: more)[k + 1]? = some d →
      (∀ i, c.pos i (q * Ts) = d.pos i 0) ∧ ∀ i, c.vel i (q * Ts) = d.vel i 0 := by
    intro k c d hc hd'
    have hdl : k < more.length := by
      have := (List.getElem?_eq_some_iff.1 hd').1
      simpa using this
    obtain ⟨a, b⟩ := predicted s hrun k d _ (by simpa using hd') (hseen k c hdl hc)
    obtain ⟨a', b'⟩ := hstart d (List.mem_of_getElem? hd')
    exact ⟨fun i => by rw [a', a], fun i => by rw [b', b]⟩
  have chain : ∀ R : FixUpd → FixUpd → Prop, (∀ (k : ℕ) (c d : FixUpd), (first :: more)[k]? = some c → (first :: more)[k + 1]? = some d → R c d) →
      (first :: more).IsChain R := fun R h => List.isChain_iff_getElem.2 fun k hk =>
    h k _ _ (List.getElem?_eq_getElem _) (List.getElem?_eq_getElem _)
  have hlast : (first :: more)[more.length]? = some ((first :: more).getLast (List.cons_ne_nil _ _)) := by
    rw [List.getLast_eq_getElem, List.getElem?_eq_getElem (by simp)]
    simp
  have hm := List.getLast_mem (List.cons_ne_nil first more)
  set last := (first :: more).getLast (List.cons_ne_nil _ _) with hlastdef
  have htot : lastTime (q * Ts) D first more = more.length * (q * Ts) + (F.horizon - paramT (kt) (more.length * (q * Ts))) := by
    rw [lastTime_eq, ← hlastdef, ← clock _ _ hlast, hD]
    show _ + (last.T - last.rel) = _
    rw [(solved last hm).horizon]
  set total := lastTime (q * Ts) D first more with htotal
  have cases := locate_cases hu (T := D) first more long
  have hpos : ∀ c ∈ first :: more, ∀ i, ∀ r ∈ Set.Icc 0 (D c), HasDerivWithinAt (c.pos i) (c.vel i r) (Set.Icc 0 (D c)) r := fun c hc i r hr =>
    part_deriv (hrel c hc).1 (pos_deriv (hx c hc) (hT c hc) i (c.rel + r) ⟨by linarith [hr.1, (hrel c hc).1], by
      have : r ≤ c.T - c.rel := hr.2
      linarith⟩)
  have hvel : ∀ c ∈ first :: more, ∀ i, ∀ r ∈ Set.Icc 0 (D c), HasDerivWithinAt (c.vel i) (c.acc i r) (Set.Icc 0 (D c)) r := fun c hc i r hr =>
    part_deriv (hrel c hc).1 (vel_deriv (hx c hc) (hT c hc) i (c.rel + r) ⟨by linarith [hr.1, (hrel c hc).1], by
      have : r ≤ c.T - c.rel := hr.2
      linarith⟩)
  refine ⟨s, hrun, ?_⟩
  rw [← htot]
  show Spec.SafeDrive F world total (fun t i => along (q * Ts) (FixUpd.pos i) first more t) (fun t i => along (q * Ts) (FixUpd.vel i) first more t)
    (fun t i => along (q * Ts) (FixUpd.acc i) first more t) ∧ _
  have atend : ∀ G : FixUpd → ℝ → ℝ, along (q * Ts) G first more total = G last (D last) := fun G => by
    rw [along, htotal, lastTime_eq, ← hlastdef, locate_at hu first more more.length _ _ hlast (hu.le.trans (long _ hm)) (Or.inr rfl)]
  have inside : ∀ t ∈ Set.Icc 0 total, ∃ (k : ℕ) (c : FixUpd) (r : ℝ), (first :: more)[k]? = some c ∧ c ∈ first :: more ∧ t = k * (q * Ts) + r ∧
      0 ≤ r ∧ r ≤ D c ∧ (r < q * Ts ∨ k = more.length) ∧ 0 ≤ c.rel + r ∧ c.rel + r ≤ c.T ∧ locate (q * Ts) first more t = (c, r) := by
    intro t ht
    obtain ⟨k, c, r, hk, e1, h0, h1, h2, e⟩ := cases t ht.1 ht.2
    have hc := List.mem_of_getElem? hk
    have : r ≤ c.T - c.rel := h1
    exact ⟨k, c, r, hk, hc, e1, h0, h1, h2, by linarith [(hrel c hc).1], by linarith, e⟩
  refine ⟨⟨?_, ?_, ?_, ?_, ?_, ?_, ?_, ?_⟩, ?_, ?_, ?_, ?_, hl, ?_⟩
  · intro i t ht
    exact along_deriv hu first more long (fun c hc => hpos c hc i)
      (chain _ fun k c d h1 h2 => ⟨(hjoin k c d h1 h2).1 i, (hjoin k c d h1 h2).2 i⟩) t ht
  · intro i
    exact along_cont hu first more long (fun c hc r hr => (hvel c hc i r hr).continuousWithinAt)
      (chain _ fun k c d h1 h2 => (hjoin k c d h1 h2).2 i)
  · intro i t ht
    exact along_right_deriv hu first more long (fun c hc => hvel c hc i) t ht
  · intro h2 t ht
    obtain ⟨k, c, r, -, hc, -, -, -, -, h0, h1, e⟩ := inside t ht
    simp only [along, e]
    exact ((solved c hc).limits_at (hx c hc) (hT c hc) h0 h1).1 h2
  · intro h2 t ht
    obtain ⟨k, c, r, -, hc, -, -, -, -, h0, h1, e⟩ := inside t ht
    simp only [along, e]
    exact (((solved c hc).limits_at (hx c hc) (hT c hc) h0 h1).2 h2).1
  · intro h2 t ht
    obtain ⟨k, c, r, -, hc, -, -, -, -, h0, h1, e⟩ := inside t ht
    simp only [along, e]
    exact (((solved c hc).limits_at (hx c hc) (hT c hc) h0 h1).2 h2).2
  · intro t ht sh hsh
    obtain ⟨k, c, r, -, hc, -, -, -, -, h0, h1, e⟩ := inside t ht
    simp only [along, e]
    exact C11_rectangle sh (.spl (c.x 0)) (.spl (c.x 1)) F.width F.height 0 1 hw hh F.room ⟨(hx c hc 0).on, (hx c hc 1).on⟩ ⟨trivial, trivial⟩
      ((solved c hc).inside sh hsh) ((c.rel + r) / c.T) (div_nonneg h0 (hT c hc).le) ((div_le_one (hT c hc)).2 h1)
  · intro t ht sh hsh w hwm
    obtain ⟨k, c, r, hk, hc, rfl, hr0, hr1, hr2, h0, h1, e⟩ := inside t ht
    simp only [along, e]
    obtain ⟨l, hl⟩ := List.mem_iff_getElem?.1 hwm
    have hp := foreseen k c hk
    have hlen : l < c.obs.length := by rw [hp.1]; exact (List.getElem?_eq_some_iff.1 hl).1
    obtain ⟨e1, e2, φ, e3, e4⟩ := hp.2 l _ w (List.getElem?_eq_getElem hlen) hl
    have key := apart_unit (hx c hc) hsd (solved c hc).lines (solved c hc).slacks (solved c hc).avoid
      (fun l' o ho => by
        have hl' : l' < c.obs.length := (List.getElem?_eq_some_iff.1 ho).1
        obtain ⟨-, -, φ, a, -⟩ := hp.2 l' o _ ho (List.getElem?_eq_getElem (hp.1 ▸ hl'))
        exact ⟨φ, a⟩)
      (List.getElem?_eq_getElem hlen) e2 e3 (div_nonneg h0 (hT c hc).le) ((div_le_one (hT c hc)).2 h1) sh hsh
    have hr3 : r ≤ if k = more.length then F.horizon - c.rel else q * Ts := by
      split_ifs with hkl
      · rw [← (solved c hc).horizon]; exact hr1
      · exact (hr2.resolve_right hkl).le
    rw [(e4 r hr0 hr3).1, (e4 r hr0 hr3).2, e1] at key
    exact key
  · funext i
    show along _ _ _ _ _ = _
    rw [along, locate_zero hu]
    exact (hstart first (by simp)).1 i
  · funext i
    show along _ _ _ _ _ = _
    rw [along, locate_zero hu]
    exact (hstart first (by simp)).2 i
  · intro hhard
    funext i
    show along _ _ _ _ _ = _
    rw [atend]
    have h := (solved last hm).ends
    rw [hhard] at h
    show (last.x i).eval ((last.rel + (last.T - last.rel)) / last.T) = _
    rw [add_sub_cancel, end_one (hT last hm)]
    exact holoTerm_con (fun d hd => h d (List.mem_append_left _ hd)) i
  · intro hder
    funext i
    show along _ _ _ _ _ = _
    rw [atend]
    have h := (solved last hm).ends
    rw [hder] at h
    show ((last.x i).derivative 1).eval ((last.rel + (last.T - last.rel)) / last.T) / last.T = 0
    rw [add_sub_cancel, end_one (hT last hm), holoTerm_der (fun d hd => h d (List.mem_append_right _ hd)) i le_rfl (by omega), zero_div]
  · intro j hj
    obtain ⟨c, r, -, e1, key⟩ := hlog j hj
    exact ⟨_, e1, funext fun n => key (FixUpd.pos n) fun k c d h1 h2 => (hjoin k c d h1 h2).1 n,
      funext fun n => key (FixUpd.vel n) fun k c d h1 h2 => (hjoin k c d h1 h2).2 n⟩

/-! ## The property -/

/-- **C162** A simulated drive with fixed horizon, updated every `q` samples, in which every optimisation problem is solved (all constraints met), every update starts
from the prediction, an update is short enough to stay within the horizon also when it begins at the end of a knot interval, and the obstacles behave as predicted until
the next update: there is one motion of the vehicle, of which the log is the sequence of samples, that starts in the initial state, never jumps in position or velocity,
respects the limits on velocity and acceleration at every instant, stays in the room and never overlaps an obstacle; when the last plan is followed to its end it ends in
standstill (unless the user gave up the terminal conditions on derivatives), and with hard terminal conditions in the goal. -/
theorem C162_drive (F : FixSetup) (hd : 3 ≤ F.degree) (hn : 1 ≤ F.intervals) (hw : 0 ≤ F.width) (hh : 0 ≤ F.height) (hsd : 0 ≤ F.sd)
    (hkt : 0 < knotTime F.horizon F.intervals) (Ts : ℝ) (hs : 0 < Ts) (q : ℕ) (hq : 1 ≤ q) (hlong : knotTime F.horizon F.intervals + q * Ts ≤ F.horizon)
    (first : FixUpd) (more : List FixUpd) (solved : ∀ u ∈ first :: more, FixSolves F u)
    (clock : ∀ (k : ℕ) (u : FixUpd), (first :: more)[k]? = some u → u.rel = paramT (knotTime F.horizon F.intervals) (k * (q * Ts)))
    (predicted : ∀ s, Loop.run (q * Ts) Ts ((first :: more).map (FixUpd.cols Ts)) = some s →
      ∀ (k : ℕ) (u : FixUpd) (a : Holo 2), more[k]? = some u → s.seen[k]? = some a → u.start.state = a.state ∧ u.start.input = a.input)
    (world : List Mover) (foreseen : ∀ (k : ℕ) (u : FixUpd), (first :: more)[k]? = some u →
      Spec.PredictedFrom world (k * (q * Ts)) (if k = more.length then F.horizon - u.rel else q * Ts) u) :
    ∃ s, Loop.run (q * Ts) Ts ((first :: more).map (FixUpd.cols Ts)) = some s ∧ ∃ pos vel acc : ℝ → Fin 2 → ℝ,
      let total := more.length * (q * Ts) + (F.horizon - paramT (knotTime F.horizon F.intervals) (more.length * (q * Ts)))
      Spec.SafeDrive F world total pos vel acc ∧
      pos 0 = first.start.state ∧ vel 0 = first.start.input ∧
      (F.hard = true → pos total = F.goal) ∧ (F.noDer = false → vel total = (fun _ => 0)) ∧
      s.log.length = (more.length + 1) * q + 1 ∧
      ∀ j, j ≤ (more.length + 1) * q → ∃ a, s.log[j]? = some (j * Ts, a) ∧ a.state = pos (j * Ts) ∧ a.input = vel (j * Ts) := by
  obtain ⟨s, h1, h2⟩ := drive_core F hd hn hw hh hsd _ hkt Ts hs q hq hlong first more solved clock predicted world foreseen
  exact ⟨s, h1, _, _, _, h2⟩

/-! ## A case: the disc of `Problems/Mission.lean` with a fixed horizon, the second plan made between two knots -/

section Case

theorem first_zero_within {d : ℕ} {c : List ℝ} (hc : c.length = 5 + d) (hz : ∀ j, j ≤ d → c.getD j 0 = 0) {x : ℝ} (h0 : 0 < x) (h1 : x ≤ 1 / 5) :
    (⟨vehBasis d 5, c⟩ : BSpline ℝ).eval x = 0 := by
  have cl := vehBasis_clamped (d := d) (n := 5) (by norm_num)
  rw [BSpline.eval_eq (by show c.length = _; rw [vehBasis_len, hc])]
  refine Finset.sum_eq_zero fun i hi => ?_
  rcases Nat.lt_or_ge d i with h | h
  · have : (vehBasis d 5).fn i x = 0 := by
      refine cox_eq_zero cl.mono ?_ _ _ (Or.inl ?_)
      · rw [vehBasis_k (by norm_num)]; simpa using h0
      · rw [vehBasis_k (by norm_num)]
        have : 1 ≤ min (i - d) 5 := by omega
        have : (1 : ℝ) ≤ ((min (i - d) 5 : ℕ) : ℝ) := by exact_mod_cast this
        push_cast at this ⊢
        linarith
    rw [this, mul_zero]
  · rw [hz i h, zero_mul]

noncomputable def caseF (y T : ℝ) : FixSetup := { caseS y with two := false, horizon := T, hard := true, noDer := false }

/-- The disc waits during the first interval. -/
theorem case_rest (y T : ℝ) (hT : 0 < T) {r : ℝ} (h0 : 0 < r) (h1 : r ≤ T / 5) :
    (∀ i, ((caseU y T).x i).eval (r / T) = ![0, y] i) ∧ ∀ i, (((caseU y T).x i).derivative 1).eval (r / T) = 0 := by
  obtain ⟨c1, c2, c3, l1, l2, l3, g1, g2, g3, z1, f1, f2, f3⟩ := go_facts
  obtain ⟨k1, k2, k3, m1, m2, m3, e1, e2, e3, y1, y2, y3⟩ := lvl3_facts y
  have y1' : ∀ j, j ≤ 2 → k1.getD j 0 = 0 := fun j hj => y1 j (by omega)
  have a0 : 0 < r / T := div_pos h0 hT
  have a1 : r / T ≤ 1 / 5 := by rw [div_le_iff₀ hT]; linarith
  refine ⟨fun i => ?_, fun i => ?_⟩
  · fin_cases i
    · exact first_zero_within (d := 3) rfl (fun j hj => by interval_cases j <;> rfl) a0 a1
    · exact level (d := 3) a0.le (by linarith)
  · fin_cases i
    · show (go.derivative 1).eval _ = _
      rw [g1, first_zero_within l1 z1 a0 a1]
    · show ((lvl3 y).derivative 1).eval _ = _
      rw [e1, first_zero_within m1 y1' a0 a1]

/-- A plan of the disc at height `y` with horizon `5 N`, made at the knot or a second after it. -/
noncomputable def caseV (y : ℝ) (N : ℕ) (r : ℝ) : FixUpd := ⟨caseU y (5 * N), r⟩

/-- The hypotheses of `drive_core` hold for the disc at height `y`, planned at the times 0 and 1. -/
structure CaseHyps (y : ℝ) (N : ℕ) : Prop where
  solved : ∀ u ∈ [caseV y N 0, caseV y N 1], FixSolves (caseF y (5 * N)) u
  clock : ∀ (k : ℕ) (u : FixUpd), [caseV y N 0, caseV y N 1][k]? = some u → u.rel = paramT (N : ℝ) (k * (((1 : ℕ) : ℝ) * 1))
  predicted : ∀ s, Loop.run (((1 : ℕ) : ℝ) * 1) 1 ([caseV y N 0, caseV y N 1].map (FixUpd.cols 1)) = some s →
      ∀ (k : ℕ) (u : FixUpd) (a : Holo 2), [caseV y N 1][k]? = some u → s.seen[k]? = some a → u.start.state = a.state ∧ u.start.input = a.input
  foreseen : ∀ (k : ℕ) (u : FixUpd), [caseV y N 0, caseV y N 1][k]? = some u →
      Spec.PredictedFrom [⟨circle 1, fun _ => !₂[1 / 2, 3], fun _ => 0⟩] (k * (((1 : ℕ) : ℝ) * 1)) (if k = [caseV y N 1].length then 5 * N - u.rel else
        ((1 : ℕ) : ℝ) * 1) u

theorem case_knot (N : ℕ) : knotTime (5 * (N : ℝ)) 5 = N := by
  unfold knotTime
  rw [show 5 * (N : ℝ) * 1000 = ((5000 * N : ℤ) : ℝ) by push_cast; ring, pyInt_intCast]
  push_cast
  ring

theorem case_param0 (N : ℕ) : paramT (N : ℝ) 0 = 0 := by
  unfold paramT pyMod
  rw [show (0 : ℝ) = ((0 : ℤ) : ℝ) by simp, round6_intCast]
  simp

theorem case_param1 {N : ℕ} (hN1 : (1 : ℝ) < N) : paramT (N : ℝ) 1 = 1 := by
  unfold paramT pyMod
  rw [show (1 : ℝ) = ((1 : ℤ) : ℝ) by simp, round6_intCast]
  have : ⌊((1 : ℤ) : ℝ) / N⌋ = 0 := by
    rw [Int.floor_eq_zero_iff]
    refine ⟨by positivity, ?_⟩
    rw [div_lt_one (by linarith)]
    simpa using hN1
  rw [this]; simp

theorem case_hyps : ∃ N : ℕ, (1 : ℝ) < N ∧ ∀ y, y ≤ 0 → -9 ≤ y → CaseHyps y N := by
  obtain ⟨T0, hT0, hsol⟩ := case_solves
  obtain ⟨N, hN⟩ := exists_nat_gt (T0 + 1)
  have hN1 : (1 : ℝ) < N := by linarith
  have hT : (0 : ℝ) < 5 * N := by linarith
  refine ⟨N, hN1, fun y hy hy9 => ?_⟩
  have hsol := hsol y hy hy9 (5 * N) (by linarith)
  have fs : ∀ r : ℝ, (r = 0 ∨ r = 1) → FixSolves (caseF y (5 * N)) (caseV y N r) := fun r hr =>
    ⟨rfl, hsol.form, hsol.lines, hsol.slacks, hsol.limits, hsol.avoid, hsol.inside, by
      rcases hr with rfl | rfl
      · exact hsol.starts
      · obtain ⟨a, b⟩ := case_rest y (5 * N) hT one_pos (by linarith)
        show MeetsInit (holoInit (caseU y (5 * N)).x ⟨![0, y], fun _ => 0, fun _ => 0⟩ (5 * N)) (1 / (5 * N))
        intro c hc
        simp only [holoInit, List.mem_append, List.mem_ofFn', Set.mem_range] at hc
        rcases hc with ⟨i, rfl⟩ | ⟨i, rfl⟩
        · exact a i
        · show ((((caseU y (5 * N)).x i).derivative 1)).eval _ = 5 * N * 0
          rw [b i, mul_zero], hsol.ends⟩
  refine ⟨?_, ?_, ?_, ?_⟩
  · intro u hu
    simp only [List.mem_cons, List.not_mem_nil, or_false] at hu
    rcases hu with rfl | rfl
    · exact fs 0 (Or.inl rfl)
    · exact fs 1 (Or.inr rfl)
  · intro k u hk
    match k with
    | 0 => simp at hk; subst hk; simpa [caseV] using (case_param0 N).symm
    | 1 => simp at hk; subst hk; simpa [caseV] using (case_param1 hN1).symm
    | k + 2 => simp at hk
  · intro s hrun k u a hk ha
    obtain ⟨s', hrun', -, hseen, -⟩ := glue_log (1 : ℝ) one_pos 1 le_rfl (FixUpd.cols 1)
      (fun c r => (⟨fun j => c.pos j r, fun j => c.vel j r, fun j => c.acc j r⟩ : Holo 2)) (caseV y N 0) [caseV y N 1]
      (fun c hc i hi => by
        have hx : ∀ i, Traj (c.x i) 2 ∧ c.T = 5 * N ∧ c.rel ≤ 1 := by
          simp only [List.mem_cons, List.not_mem_nil, or_false] at hc
          rcases hc with rfl | rfl
          · exact fun i => ⟨hsol.traj (by simp [caseS]) (by simp [caseS]) i, rfl, zero_le_one⟩
          · exact fun i => ⟨hsol.traj (by simp [caseS]) (by simp [caseS]) i, rfl, le_rfl⟩
        refine fix_cols_get (fun i => (hx i).1) one_pos (by rw [(hx 0).2.1]; exact hT) (q := 1) ?_ hi
        rw [(hx 0).2.1]
        have := (hx 0).2.2
        push_cast
        linarith)
    rw [hrun] at hrun'
    obtain rfl := Option.some.inj hrun'
    match k with
    | 0 =>
      simp at hk
      subst hk
      have := hseen 0 _ (by simp) rfl
      rw [ha, Option.some.injEq] at this
      subst this
      obtain ⟨e1, e2⟩ := case_rest y (5 * N) hT (r := 1) one_pos (by linarith)
      refine ⟨funext fun i => ?_, funext fun i => ?_⟩
      · show ![0, y] i = ((caseU y (5 * N)).x i).eval ((0 + ((1 : ℕ) : ℝ) * 1) / (5 * N))
        rw [show 0 + ((1 : ℕ) : ℝ) * 1 = 1 by norm_num, e1]
      · show 0 = (((caseU y (5 * N)).x i).derivative 1).eval ((0 + ((1 : ℕ) : ℝ) * 1) / (5 * N)) / (5 * N)
        rw [show 0 + ((1 : ℕ) : ℝ) * 1 = 1 by norm_num, e2, zero_div]
    | k + 1 => simp at hk
  · intro k u hk
    have hu : ∃ a : ℝ, (a = 0 ∨ a = 1) ∧ u = caseV y N a := by
      have := List.mem_of_getElem? hk
      simp only [List.mem_cons, List.not_mem_nil, or_false] at this
      rcases this with h | h
      · exact ⟨0, Or.inl rfl, h⟩
      · exact ⟨1, Or.inr rfl, h⟩
    obtain ⟨a, ha, rfl⟩ := hu
    refine ⟨rfl, fun l o w ho hw => ?_⟩
    have hl0 : l = 0 := by
      by_contra h
      rw [List.getElem?_eq_none (by simp; omega)] at hw
      cases hw
    subst hl0
    simp [caseV, caseU] at ho hw
    subst ho hw
    refine ⟨rfl, rfl, fun _ => 0, ⟨lvl_on _, lvl_on _, trivial, trivial, trivial, by simp [Expr.val]⟩, fun r r0 r1 => ⟨?_, rfl⟩⟩
    have ha0 : 0 ≤ a := by rcases ha with rfl | rfl <;> norm_num
    have ha1 : a ≤ 1 := by rcases ha with rfl | rfl <;> norm_num
    have r1' : a + r ≤ 5 * N := by
      split_ifs at r1
      · have : r ≤ 5 * N - a := r1
        linarith
      · push_cast at r1; linarith
    have a0 : 0 ≤ (a + r) / (5 * N) := div_nonneg (by linarith) hT.le
    have a1 : (a + r) / (5 * N) ≤ 1 := (div_le_one hT).2 r1'
    show (!₂[(lvl 2⁻¹).eval ((a + r) / (5 * N)), (lvl 3).eval ((a + r) / (5 * N))] : Pt 2) = _
    rw [show (lvl 2⁻¹).eval ((a + r) / (5 * N)) = 2⁻¹ from level (d := 1) a0 a1, show (lvl 3).eval ((a + r) / (5 * N)) = 3 from level (d := 1) a0 a1]

-- two plans, the second one made a second after the first, which is between two knots: the drive is safe and arrives
example : ∃ (N : ℕ) (s : Loop ℝ (Holo 2)), let F := caseF 0 (5 * N)
    knotTime F.horizon F.intervals = N ∧ (1 : ℝ) < N ∧
    Loop.run (((1 : ℕ) : ℝ) * 1) 1 ([caseV 0 N 0, caseV 0 N 1].map (FixUpd.cols 1)) = some s ∧
    ∃ pos vel acc : ℝ → Fin 2 → ℝ, Spec.SafeDrive F [⟨circle 1, fun _ => !₂[1 / 2, 3], fun _ => 0⟩] (5 * N) pos vel acc ∧
      pos 0 = ![0, 0] ∧ pos (5 * N) = ![1, 0] ∧ s.log.length = 3 := by
  obtain ⟨N, hN1, hyps⟩ := case_hyps
  obtain ⟨solved, clock, predicted, foreseen⟩ := hyps 0 le_rfl (by norm_num)
  have hkt := case_knot N
  obtain ⟨s, hrun, pos, vel, acc, hsafe, p0, -, p1, -, hl, -⟩ := C162_drive (caseF 0 (5 * N)) (by simp [caseF, caseS]) (by simp [caseF, caseS])
    (by simp [caseF, caseS]) (by simp [caseF, caseS]) (by simp [caseF, caseS]) (by show 0 < knotTime (5 * (N : ℝ)) 5; rw [hkt]; linarith) 1 one_pos 1 le_rfl
    (by show knotTime (5 * (N : ℝ)) 5 + ((1 : ℕ) : ℝ) * 1 ≤ 5 * N; rw [hkt]; push_cast; linarith) (caseV 0 N 0) [caseV 0 N 1] solved
    (fun k u hk => by
      show u.rel = paramT (knotTime (5 * (N : ℝ)) 5) _
      rw [hkt]
      exact clock k u hk) predicted _ foreseen
  have et : (([caseV 0 N 1].length : ℕ) : ℝ) * (((1 : ℕ) : ℝ) * 1) + ((caseF 0 (5 * N)).horizon -
      paramT (knotTime (caseF 0 (5 * N)).horizon (caseF 0 (5 * N)).intervals) (([caseV 0 N 1].length : ℕ) * (((1 : ℕ) : ℝ) * 1))) = 5 * N := by
    show _ + (5 * (N : ℝ) - paramT (knotTime (5 * (N : ℝ)) 5) _) = _
    rw [hkt]
    simp [case_param1 hN1]
  rw [et] at hsafe p1
  exact ⟨N, s, hkt, hN1, hrun, pos, vel, acc, hsafe, p0, p1 rfl, by simpa using hl⟩

end Case

end Verif.Problems
