import Verif.Problems.MissionFixed

/-! # A simulated drive of a fleet

As `Problems/MissionFixed.lean`, with several vehicles in one problem and `inter_vehicle_avoidance`. -/

set_option linter.unusedSectionVars false

namespace Verif.Problems

open Verif.Spline Verif.Vehicles Verif.Collision Verif.Timing

/-! ## Model -/

/-- The solution of one update for all vehicles, with the lines between the vehicles (environment.py:161-169). -/
structure FleetUpd (n : ℕ) where
  veh : Fin n → FixUpd
  hyp : ℕ × ℕ → ℕ × ℕ → Hyp

/-- All constraints of `FixedTPoint2point` for a fleet are met, point2point.py:51-66: those of each vehicle, and with `inter_vehicle_avoidance` those
between the vehicles. -/
structure FleetSolves {n : ℕ} (F : Fin n → FixSetup) (U : FleetUpd n) : Prop where
  own : ∀ v, FixSolves (F v) (U.veh v)
  lines : ∀ p q, (U.hyp p q).On 0 1
  avoid : ∀ e ∈ interCons (List.ofFn fun v => (F v).veh (U.veh v).toUpd) U.hyp, e.Imposed 0

/-! ## Lemmas -/

theorem locate_map {α β : Type} (f : α → β) (u : ℝ) : ∀ (a : α) (l : List α) (t : ℝ),
    locate u (f a) (l.map f) t = (f (locate u a l t).1, (locate u a l t).2)
  | a, [], t => rfl
  | a, b :: l, t => by
    rw [List.map_cons, locate, locate]
    split_ifs
    · rfl
    · exact locate_map f u b l (t - u)

/-! ## The property -/

/-- **C163** A simulated drive of a fleet with fixed horizon in which every optimisation problem is solved (all constraints met, those between the vehicles included),
every update starts from the predictions, and the obstacles behave as predicted until the next update: every vehicle has a safe motion as in C162, of which its log is
the sequence of samples, and at no instant do two vehicles overlap: the cores of their shapes are apart by at least both radii. The knot interval is that of the first
vehicle, whatever the others have. -/
theorem C163_fleet {n : ℕ} (F : Fin (n + 1) → FixSetup) (H : ℝ) (hH : ∀ v, (F v).horizon = H) (hd : ∀ v, 3 ≤ (F v).degree) (hn : ∀ v, 1 ≤ (F v).intervals)
    (hw : ∀ v, 0 ≤ (F v).width) (hh : ∀ v, 0 ≤ (F v).height) (hsd : ∀ v, 0 ≤ (F v).sd) (hkt : 0 < knotTime H (F 0).intervals)
    (Ts : ℝ) (hs : 0 < Ts) (q : ℕ) (hq : 1 ≤ q) (hlong : knotTime H (F 0).intervals + q * Ts ≤ H)
    (first : FleetUpd (n + 1)) (more : List (FleetUpd (n + 1))) (solved : ∀ U ∈ first :: more, FleetSolves F U)
    (clock : ∀ (k : ℕ) (U : FleetUpd (n + 1)), (first :: more)[k]? = some U → ∀ v, (U.veh v).rel = paramT (knotTime H (F 0).intervals) (k * (q * Ts)))
    (predicted : ∀ v s, Loop.run (q * Ts) Ts ((first :: more).map fun U => (U.veh v).cols Ts) = some s →
      ∀ (k : ℕ) (U : FleetUpd (n + 1)) (a : Holo 2), more[k]? = some U → s.seen[k]? = some a →
        (U.veh v).start.state = a.state ∧ (U.veh v).start.input = a.input)
    (world : List Mover) (foreseen : ∀ (k : ℕ) (U : FleetUpd (n + 1)), (first :: more)[k]? = some U → ∀ v,
      Spec.PredictedFrom world (k * (q * Ts)) (if k = more.length then H - (U.veh v).rel else q * Ts) (U.veh v)) :
    ∃ pos vel acc : Fin (n + 1) → ℝ → Fin 2 → ℝ,
      let total := more.length * (q * Ts) + (H - paramT (knotTime H (F 0).intervals) (more.length * (q * Ts)))
      (∀ v, Spec.SafeDrive (F v) world total (pos v) (vel v) (acc v) ∧
        pos v 0 = (first.veh v).start.state ∧ vel v 0 = (first.veh v).start.input ∧
        ((F v).hard = true → pos v total = (F v).goal) ∧ ((F v).noDer = false → vel v total = (fun _ => 0)) ∧
        ∃ s, Loop.run (q * Ts) Ts ((first :: more).map fun U => (U.veh v).cols Ts) = some s ∧ s.log.length = (more.length + 1) * q + 1 ∧
          ∀ j, j ≤ (more.length + 1) * q → ∃ a, s.log[j]? = some (j * Ts, a) ∧ a.state = pos v (j * Ts) ∧ a.input = vel v (j * Ts)) ∧
      ∀ v w, v ≠ w → ∀ t ∈ Set.Icc 0 total, ∀ s ∈ (F v).shapes, ∀ s' ∈ (F w).shapes,
        ∀ p ∈ shifted !₂[pos v t 0, pos v t 1] s.core, ∀ p' ∈ shifted !₂[pos w t 0, pos w t 1] s'.core, s.rad + s'.rad ≤ dist p p' := by
  set kt := knotTime H (F 0).intervals with hktdef
  have hu : 0 < (q : ℝ) * Ts := mul_pos (by exact_mod_cast hq) hs
  have each : ∀ v, _ := fun v => drive_core (F v) (hd v) (hn v) (hw v) (hh v) (hsd v) kt hkt Ts hs q hq (by rw [hH]; exact hlong) (first.veh v)
    (more.map fun U => U.veh v)
    (fun u hu => by
      rw [← List.map_cons (f := fun U : FleetUpd (n + 1) => U.veh v)] at hu
      obtain ⟨U, hU, rfl⟩ := List.mem_map.1 hu
      exact (solved U hU).own v)
    (fun k u hk => by
      rw [← List.map_cons (f := fun U : FleetUpd (n + 1) => U.veh v), List.getElem?_map, Option.map_eq_some_iff] at hk
      obtain ⟨U, hU, rfl⟩ := hk
      exact clock k U hU v)
    (fun s hrun k u a hk ha => by
      rw [← List.map_cons (f := fun U : FleetUpd (n + 1) => U.veh v), List.map_map] at hrun
      rw [List.getElem?_map, Option.map_eq_some_iff] at hk
      obtain ⟨U, hU, rfl⟩ := hk
      exact predicted v s hrun k U a hU ha)
    world
    (fun k u hk => by
      rw [← List.map_cons (f := fun U : FleetUpd (n + 1) => U.veh v), List.getElem?_map, Option.map_eq_some_iff] at hk
      obtain ⟨U, hU, rfl⟩ := hk
      rw [List.length_map, hH]
      exact foreseen k U hU v)
  refine ⟨fun v => drivePos (q * Ts) (first.veh v) (more.map fun U => U.veh v), fun v => driveVel (q * Ts) (first.veh v) (more.map fun U => U.veh v),
    fun v => driveAcc (q * Ts) (first.veh v) (more.map fun U => U.veh v), fun v => ?_, ?_⟩
  · obtain ⟨s, hrun, hsafe, h1, h2, h3, h4, h5, h6⟩ := each v
    rw [← List.map_cons (f := fun U : FleetUpd (n + 1) => U.veh v), List.map_map] at hrun
    rw [List.length_map, hH] at hsafe h3 h4
    rw [List.length_map] at h5 h6
    exact ⟨hsafe, h1, h2, h3, h4, s, hrun, h5, h6⟩
  · intro v w hvw t ht s hs' s' hs'' p hp p' hp'
    have long : ∀ U ∈ first :: more, q * Ts ≤ H - (U.veh 0).rel := fun U hU => by
      obtain ⟨k, hk⟩ := List.mem_iff_getElem?.1 hU
      rw [clock k U hk]
      linarith [(paramT_range hkt (k * (q * Ts))).2]
    have hlast : (first :: more)[more.length]? = some ((first :: more).getLast (List.cons_ne_nil _ _)) := by
      rw [List.getLast_eq_getElem, List.getElem?_eq_getElem (by simp)]
      simp
    have htot : lastTime (q * Ts) (fun U : FleetUpd (n + 1) => H - (U.veh 0).rel) first more
        = more.length * (q * Ts) + (H - paramT kt (more.length * (q * Ts))) := by
      rw [lastTime_eq, clock _ _ hlast 0]
    obtain ⟨k, U, r, hk, -, h0, h1, -, e⟩ := locate_cases hu first more long t ht.1 (by rw [htot]; exact ht.2)
    have hU := List.mem_of_getElem? hk
    have sol := solved U hU
    have hTv : ∀ v, (U.veh v).T = H := fun v => (sol.own v).horizon.trans (hH v)
    have hrel : ∀ v, (U.veh v).rel = (U.veh 0).rel := fun v => by rw [clock k U hk v, clock k U hk 0]
    have hHpos : 0 < H := by linarith
    have hr0 : 0 ≤ (U.veh 0).rel := by rw [clock k U hk 0]; exact (paramT_range hkt _).1
    set x := ((U.veh 0).rel + r) / H with hx
    have x0 : 0 ≤ x := div_nonneg (by linarith) hHpos.le
    have x1 : x ≤ 1 := (div_le_one hHpos).2 (by linarith)
    have at' : ∀ v i, drivePos (q * Ts) (first.veh v) (more.map fun U => U.veh v) t i = ((U.veh v).x i).eval x := fun v i => by
      unfold drivePos along
      rw [locate_map (fun U : FleetUpd (n + 1) => U.veh v), e]
      show ((U.veh v).x i).eval (((U.veh v).rel + r) / (U.veh v).T) = _
      rw [hTv v, hrel v]
    have tr : ∀ v i, Traj ((U.veh v).x i) 2 := fun v i => (sol.own v).traj (hd v) (hn v) i
    obtain ⟨sn, hsn⟩ := List.mem_iff_getElem?.1 hs'
    obtain ⟨sm, hsm⟩ := List.mem_iff_getElem?.1 hs''
    have hget : ∀ v : Fin (n + 1), (List.ofFn fun v => (F v).veh (U.veh v).toUpd)[(v : ℕ)]? = some ((F v).veh (U.veh v).toUpd) := fun v => by
      rw [List.getElem?_ofFn, dif_pos v.2]
    obtain ⟨k₁, k₂, ε₁, ε₂, e1, e2, -, hcore, b1, b2⟩ := C12_fleet (List.ofFn fun v => (F v).veh (U.veh v).toUpd) U.hyp 0 1
      (fun z hz => by
        obtain ⟨v, rfl⟩ := (List.mem_ofFn' _ _).1 hz
        exact ⟨trivial, fun _ => (tr v 0).on, fun _ => (tr v 1).on, (sol.own v).slacks⟩)
      sol.lines sol.avoid v w (fun h => hvw (Fin.ext h)) _ _ (hget v) (hget w) sn sm s s' hsn hsm x x0 x1
    have hz : heading 0 = 0 := by simp [heading]
    have core : ∀ (v : Fin (n + 1)) (k : ℕ) (s : Shape 2) (p : Pt 2),
        p ∈ shifted !₂[drivePos (q * Ts) (first.veh v) (more.map fun U => U.veh v) t 0, drivePos (q * Ts) (first.veh v) (more.map fun U => U.veh v) t 1] s.core →
        p ∈ ((F v).veh (U.veh v).toUpd).coreAt k s x := fun v k s p hp => by
      rw [at', at'] at hp
      show p ∈ placed (carried _ _ 0 (heading 0)) (heading 0) s.core
      rw [hz, placed_zero]
      have : carried (((U.veh v).x 0).eval x) (((U.veh v).x 1).eval x) 0 0 = !₂[((U.veh v).x 0).eval x, ((U.veh v).x 1).eval x] := by simp [carried]
      exact this ▸ hp
    have h3 := hcore p (core v sn s p hp) p' (core w sm s' p' hp')
    have slack : ∀ (v : Fin (n + 1)) (s k : ℕ) (ε : ℝ), ε = (((F v).veh (U.veh v).toUpd).eps s k).val x →
        (0 < ((F v).veh (U.veh v).toUpd).sd → 0 ≤ ε ∧ ε ≤ ((F v).veh (U.veh v).toUpd).sd) → 0 ≤ ((F v).veh (U.veh v).toUpd).sd - ε := fun v s k ε he hb => by
      rcases (hsd v).eq_or_lt with h | h
      · have h' : ((F v).veh (U.veh v).toUpd).sd = 0 := h.symm
        rw [he]
        unfold Veh.eps
        rw [if_neg (by rw [h']; exact lt_irrefl _), h']
        simp [Expr.val]
      · linarith [(hb h).2]
    have s1 := slack v sn k₁ ε₁ e1 b1
    have s2 := slack w sm k₂ ε₂ e2 b2
    linarith

/-! ## A case -/

section Case

/-- Two discs on parallel tracks, five apart, with the line between the tracks. -/
noncomputable def fleetF (N : ℕ) : Fin 2 → FixSetup := ![caseF 0 (5 * N), caseF (-5) (5 * N)]
noncomputable def fleetV (N : ℕ) (r : ℝ) : FleetUpd 2 := ⟨![caseV 0 N r, caseV (-5) N r], fun _ _ => ⟨.spl (lvl 0), .spl (lvl (-1)), .spl (lvl 2)⟩⟩

theorem fleet_avoid (N : ℕ) (r : ℝ) :
    ∀ e ∈ interCons (List.ofFn fun v => (fleetF N v).veh ((fleetV N r).veh v).toUpd) (fleetV N r).hyp, e.Imposed 0 := by
  have o1 : ∀ c, (Expr.spl (lvl c)).OnIntervals 5 := fun c => on5 (d := 1) (by simp)
  have og : (Expr.spl go).OnIntervals 5 := on5 (d := 3) (by simp)
  have o3 : ∀ c, (Expr.spl (lvl3 c)).OnIntervals 5 := fun c => on5 (d := 3) (by simp)
  have v1 : ∀ c x, 0 ≤ x → x ≤ 1 → (lvl c).eval x = c := fun c x h0 h1 => level (d := 1) h0 h1
  have v3 : ∀ c x, 0 ≤ x → x ≤ 1 → (lvl3 c).eval x = c := fun c x h0 h1 => level (d := 3) h0 h1
  have d1 : ∀ c, (lvl c).basis.degree = 1 := fun _ => rfl
  have d3 : ∀ c, (lvl3 c).basis.degree = 3 := fun _ => rfl
  have dg : go.basis.degree = 3 := rfl
  have e1 : (Expr.sub (.spl (lvl 0)) (.num (1 / 2 : ℝ))).Imposed 0 := by
    refine const_imposed (n := 5) (v := -(1 / 2)) (by norm_num) (by norm_num) ?_ ?_ ?_ ?_ (fun x h0 h1 => ?_) (by norm_num)
    · simpa [Expr.sub, Expr.OnIntervals] using o1 0
    · simp [Expr.sub, Expr.totalDegree, d1]
    · simp [Expr.sub, Expr.totalDegree, d1]
    · simp [Expr.sub, Expr.hasSpline]
    · simp [Expr.sub, Expr.val, v1 _ x h0 h1]
  have e2 : (Expr.neg (.spl (lvl 0)) : Expr ℝ).Imposed 0 := by
    refine const_imposed (n := 5) (v := 0) (by norm_num) (by norm_num) ?_ ?_ ?_ ?_ (fun x h0 h1 => ?_) le_rfl
    · simpa [Expr.sub, Expr.OnIntervals] using o1 0
    · simp [Expr.totalDegree, d1]
    · simp [Expr.totalDegree, d1]
    · simp [Expr.hasSpline]
    · simp [Expr.val, v1 _ x h0 h1]
  intro e he
  simp [interCons, interPairs, interHyps, List.ofFn_succ, fleetF, fleetV, caseF, caseV, caseS, caseU, Setup.veh, Veh.cons, Veh.eps, circle, normCon, Hyp.flip] at he
  rcases he with rfl | rfl | rfl | rfl | rfl | rfl | rfl
  · refine const_imposed (n := 5) (v := 0) (by norm_num) (by norm_num) ?_ ?_ ?_ ?_ (fun x h0 h1 => ?_) le_rfl
    · simp [Expr.sub, Expr.OnIntervals]; simpa [Expr.OnIntervals] using ⟨o1 0, o1 (-1)⟩
    · simp [Expr.sub, Expr.totalDegree, d1]
    · simp [Expr.sub, Expr.totalDegree, d1]
    · simp [Expr.sub, Expr.hasSpline]
    · simp [Expr.sub, Expr.val, v1 _ x h0 h1]
  · simpa using e1
  · exact e2
  · refine const_imposed (n := 5) (v := -(1 / 2)) (by norm_num) (by norm_num) ?_ ?_ ?_ ?_ (fun x h0 h1 => ?_) (by norm_num)
    · simpa [vehCon2, Expr.sub, Expr.sq, Expr.OnIntervals] using ⟨⟨⟨o1 0, o1 (-1)⟩, ⟨o1 0, og⟩, o1 (-1), o3 0⟩, o1 2, o1 0⟩
    · simp [vehCon2, Expr.sub, Expr.sq, Expr.totalDegree, d1, d3, dg]
    · simp [vehCon2, Expr.sub, Expr.sq, Expr.totalDegree, d1, d3, dg]
    · simp [vehCon2, Expr.sub, Expr.sq, Expr.hasSpline]
    · simp [vehCon2, Expr.sub, Expr.sq, Expr.val, v1 _ x h0 h1, v3 _ x h0 h1]; norm_num
  · simpa using e1
  · exact e2
  · refine const_imposed (n := 5) (v := -(3 / 2)) (by norm_num) (by norm_num) ?_ ?_ ?_ ?_ (fun x h0 h1 => ?_) (by norm_num)
    · simpa [vehCon2, Expr.sub, Expr.sq, Expr.OnIntervals] using ⟨⟨⟨o1 0, o1 (-1)⟩, ⟨o1 0, og⟩, o1 (-1), o3 (-5)⟩, o1 2, o1 0⟩
    · simp [vehCon2, Expr.sub, Expr.sq, Expr.totalDegree, d1, d3, dg]
    · simp [vehCon2, Expr.sub, Expr.sq, Expr.totalDegree, d1, d3, dg]
    · simp [vehCon2, Expr.sub, Expr.sq, Expr.hasSpline]
    · simp [vehCon2, Expr.sub, Expr.sq, Expr.val, v1 _ x h0 h1, v3 _ x h0 h1]; norm_num

-- two discs, two updates, the second one between two knots
example : ∃ (N : ℕ) (pos vel acc : Fin 2 → ℝ → Fin 2 → ℝ), (1 : ℝ) < N ∧
    (∀ v, Spec.SafeDrive (fleetF N v) [⟨circle 1, fun _ => !₂[1 / 2, 3], fun _ => 0⟩] (5 * N) (pos v) (vel v) (acc v)) ∧
    pos 0 0 = ![0, 0] ∧ pos 1 0 = ![0, -5] ∧ pos 0 (5 * N) = ![1, 0] ∧ pos 1 (5 * N) = ![1, -5] ∧
    ∀ t ∈ Set.Icc (0 : ℝ) (5 * N), ∀ p ∈ shifted !₂[pos 0 t 0, pos 0 t 1] (circle 1).core, ∀ p' ∈ shifted !₂[pos 1 t 0, pos 1 t 1] (circle 1).core,
      (1 + 1 : ℝ) ≤ dist p p' := by
  obtain ⟨N, hN1, hyps⟩ := case_hyps
  have hkt := case_knot N
  have all : ∀ v : Fin 2, ∃ y : ℝ, y ≤ 0 ∧ -9 ≤ y ∧ fleetF N v = caseF y (5 * N) ∧ ∀ r, (fleetV N r).veh v = caseV y N r := fun v => by
    fin_cases v
    · exact ⟨0, le_rfl, by norm_num, rfl, fun _ => rfl⟩
    · exact ⟨-5, by norm_num, by norm_num, rfl, fun _ => rfl⟩
  have get : ∀ (k : ℕ) (U : FleetUpd 2), [fleetV N 0, fleetV N 1][k]? = some U → ∀ (v : Fin 2) (y : ℝ), (∀ r, (fleetV N r).veh v = caseV y N r) →
      [caseV y N 0, caseV y N 1][k]? = some (U.veh v) := fun k U hk v y hy => by
    match k with
    | 0 => simp at hk; subst hk; simp [hy]
    | 1 => simp at hk; subst hk; simp [hy]
    | k + 2 => simp at hk
  have k0 : knotTime (5 * (N : ℝ)) (fleetF N 0).intervals = N := hkt
  obtain ⟨pos, vel, acc, h1, h2⟩ := C163_fleet (fleetF N) (5 * N)
    (fun v => by obtain ⟨y, -, -, e, -⟩ := all v; rw [e]; rfl) (fun v => by obtain ⟨y, -, -, e, -⟩ := all v; rw [e]; simp [caseF, caseS])
    (fun v => by obtain ⟨y, -, -, e, -⟩ := all v; rw [e]; simp [caseF, caseS]) (fun v => by obtain ⟨y, -, -, e, -⟩ := all v; rw [e]; simp [caseF, caseS])
    (fun v => by obtain ⟨y, -, -, e, -⟩ := all v; rw [e]; simp [caseF, caseS]) (fun v => by obtain ⟨y, -, -, e, -⟩ := all v; rw [e]; simp [caseF, caseS])
    (by rw [k0]; linarith) 1 one_pos 1 le_rfl (by rw [k0]; push_cast; linarith) (fleetV N 0) [fleetV N 1]
    (fun U hU => by
      have hr : ∃ r, U = fleetV N r := by
        simp only [List.mem_cons, List.not_mem_nil, or_false] at hU
        rcases hU with h | h <;> exact ⟨_, h⟩
      refine ⟨fun v => ?_, fun _ _ => ?_, ?_⟩
      · obtain ⟨k, hk⟩ := List.mem_iff_getElem?.1 hU
        obtain ⟨y, y0, y9, e, ev⟩ := all v
        rw [e]
        exact (hyps y y0 y9).solved _ (List.mem_of_getElem? (get k U hk v y ev))
      · obtain ⟨r, rfl⟩ := hr
        exact ⟨lvl_on _, lvl_on _, lvl_on _, trivial⟩
      · obtain ⟨r, rfl⟩ := hr
        exact fleet_avoid N r)
    (fun k U hk v => by
      obtain ⟨y, y0, y9, e, ev⟩ := all v
      rw [k0]
      exact (hyps y y0 y9).clock k _ (get k U hk v y ev))
    (fun v s hrun k U a hk ha => by
      obtain ⟨y, y0, y9, e, ev⟩ := all v
      refine (hyps y y0 y9).predicted s ?_ k _ a ?_ ha
      · simpa [ev] using hrun
      · match k with
        | 0 => simp at hk; subst hk; simp [ev]
        | k + 1 => simp at hk)
    [⟨circle 1, fun _ => !₂[1 / 2, 3], fun _ => 0⟩]
    (fun k U hk v => by
      obtain ⟨y, y0, y9, e, ev⟩ := all v
      exact (hyps y y0 y9).foreseen k _ (get k U hk v y ev))
  have et : (([fleetV N 1].length : ℕ) : ℝ) * (((1 : ℕ) : ℝ) * 1) + (5 * N - paramT (knotTime (5 * (N : ℝ)) (fleetF N 0).intervals)
      (([fleetV N 1].length : ℕ) * (((1 : ℕ) : ℝ) * 1))) = 5 * N := by
    rw [k0]
    simp [case_param1 hN1]
  rw [et] at h2
  simp only [et] at h1
  refine ⟨N, pos, vel, acc, hN1, fun v => (h1 v).1, (h1 0).2.1, (h1 1).2.1, (h1 0).2.2.2.1 rfl, (h1 1).2.2.2.1 rfl, fun t ht p hp p' hp' => ?_⟩
  exact h2 0 1 (by simp) t ht (circle 1) (by simp [fleetF, caseF, caseS]) (circle 1) (by simp [fleetF, caseF, caseS]) p hp p' hp'

end Case

end Verif.Problems
