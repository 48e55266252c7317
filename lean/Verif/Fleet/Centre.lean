import Verif.Fleet.Fleet
import Verif.Vehicles.Bodies
set_option linter.unusedSectionVars false

/-! # Formations of vehicles with a heading (C167) and the formation error that is reported (C168)

Modelled: `Dubins.get_fleet_center` (dubins.py:131-153, option `substitution` off) and the `fleet_center`
that `Dubins.splines2signals` logs (dubins.py:295-298); the coupling of the centres by
`FormationPoint2point.construct` (formation.py:42-58); `get_interaction_error` and what `final` prints
(formation.py:74-106, formation_dualdec.py:73-105).  Not modelled: the conditions on the derivatives of
the centre at the end. -/

namespace Verif.Fleet
open Verif.Spline Verif.Geometry Verif.Collision Verif.Vehicles

/-! ## Model -/

/-- `define_constraint(expr, lb, ub)` on a spline expression: all coefficients are between the bounds. -/
def ImposedWithin (e : Expr ℝ) (lb ub : ℝ) : Prop :=
  ∃ v, e.Runs v ∧ match v with
    | .num _ => True
    | .spl s => ∀ c ∈ s.coeffs, lb ≤ c ∧ c ≤ ub

/-- The constraints of `Dubins.get_fleet_center`, dubins.py:148-149, imposed between `-eps` and `eps`. -/
noncomputable def centreCons (x y tg c0 c1 : BSpline ℝ) (r0 r1 : ℝ) : List (Expr ℝ) :=
  [.add (.sub (.mul (.sub (.spl x) (.spl c0)) (denE tg)) (.mul (.mul (.num r1) (.num 2)) (.spl tg)))
      (.mul (.num r0) (.sub (.num 1) (.sq (.spl tg)))),
   .add (.add (.mul (.sub (.spl y) (.spl c1)) (denE tg)) (.mul (.mul (.num r0) (.num 2)) (.spl tg)))
      (.mul (.num r1) (.sub (.num 1) (.sq (.spl tg))))]

/-- `signals['fleet_center']` of a vehicle with a heading, dubins.py:295-298: `q` the sampled `tg_ha`. -/
noncomputable def loggedCentre (x y q r0 r1 : ℝ) : Pt 2 :=
  !₂[x + (r0 * 2 * q + r1 * (1 - q ^ 2)) / (1 + q ^ 2), y + (r1 * 2 * q - r0 * (1 - q ^ 2)) / (1 + q ^ 2)]

/-- A vehicle with a heading in a formation problem: its splines, the position splines, the variable
`formation_center`, where it is when the plan is made. -/
structure Member where
  v : BSpline ℝ
  tg : BSpline ℝ
  dx : BSpline ℝ
  dy : BSpline ℝ
  c : ℕ → BSpline ℝ
  pos0 : ℝ × ℝ

/-- What holds of one vehicle's part of a solution: splines on the horizon, `dx` and `dy` as computed
(dubins.py:140-143), the constraints of `get_fleet_center` with `eps = 1e-2`. -/
structure Member.Solves (m : Member) (rel : List ℝ) (T t0 : ℝ) : Prop where
  v_on : Traj m.v 0
  tg_on : Traj m.tg 0
  c_on : ∀ k < 2, Traj (m.c k) 0
  runX : (dxE m.v m.tg).Runs (.spl m.dx)
  runY : (dyE m.v m.tg).Runs (.spl m.dy)
  centre : ∀ e ∈ centreCons (integrateOnce m.dx m.pos0.1 t0 T) (integrateOnce m.dy m.pos0.2 t0 T) m.tg (m.c 0) (m.c 1) (rel.getD 0 0) (rel.getD 1 0),
    ImposedWithin e (-(1 / 100)) (1 / 100)

/-- What `get_interaction_error` reads of a vehicle: sampled positions, sampled `fleet_center`, and its
configuration. -/
structure Track (n : ℕ) where
  pos : ℕ → Pt n
  centre : ℕ → Pt n
  cfg : Pt n

/-- `center[:, k]`, formation.py:88-91. -/
noncomputable def meanAt {n : ℕ} (fleet : List (Track n)) (k : ℕ) : Pt n := (fleet.length : ℝ)⁻¹ • (fleet.map fun v => v.pos k).sum

/-- `error[k]`, formation.py:92-97. -/
noncomputable def errorAt {n : ℕ} (fleet : List (Track n)) (k : ℕ) : ℝ :=
  (fleet.map fun v => ‖meanAt fleet k - v.centre k‖ / ‖v.cfg‖).sum / fleet.length

/-- `get_interaction_error`, formation.py:74-101; `none` when the result is no number (division by zero)
or there is no second sample. -/
noncomputable def interactionError {n : ℕ} (fleet : List (Track n)) (nSamp : ℕ) (time : ℕ → ℝ) : Option ℝ :=
  open Classical in
  if nSamp < 2 ∨ fleet = [] ∨ (∃ v ∈ fleet, v.cfg = 0) ∨ time (nSamp - 1) = 0 then none
  else some (((List.range (nSamp - 1)).map fun k => 0.5 * (errorAt fleet (k + 1) + errorAt fleet k) * (time 1 - time 0)).sum / time (nSamp - 1))

/-- The `fleet_center` of vehicles without heading, vehicle.py:279-281, with `rel_pos_c` of fleet.py:98. -/
def Track.plain {n : ℕ} (pos : ℕ → Pt n) (cfg : Pt n) : Track n := ⟨pos, fun k => pos k + -cfg, cfg⟩

/-- The signals of a vehicle with a heading; `q k` the sampled tangent of half the heading. -/
noncomputable def Track.wheels (pos : ℕ → Pt 2) (q : ℕ → ℝ) (cfg : Pt 2) : Track 2 :=
  ⟨pos, fun k => loggedCentre (pos k 0) (pos k 1) (q k) (-cfg 0) (-cfg 1), cfg⟩

/-- The number in front of the per cent sign: formation.py:106 and formation_dualdec.py:105. -/
noncomputable def printedADMM (err : ℝ) : ℝ := err * 100
noncomputable def printedDD (err : ℝ) : ℝ := err

/-! ## Specification -/

/-- A vector turned by an angle. -/
noncomputable def turned (θ : ℝ) (p : ℝ × ℝ) : ℝ × ℝ :=
  (p.1 * Real.cos θ - p.2 * Real.sin θ, p.1 * Real.sin θ + p.2 * Real.cos θ)

/-- The vehicles are placed with respect to each other as configured. -/
def InFormation {n : ℕ} (pos : ℕ → ℕ → Pt n) (cfg : ℕ → Pt n) (N k : ℕ) : Prop :=
  ∀ i < N, ∀ j < N, pos i k - pos j k = cfg i - cfg j

/-! ## Helpers -/

theorem imposedWithin_val {e : Expr ℝ} {lb ub : ℝ} (h : ImposedWithin e lb ub) (he : e.On 0 1) (hs : e.hasSpline) {τ : ℝ} (h0 : 0 ≤ τ) (h1 : τ ≤ 1) :
    lb ≤ e.val τ ∧ e.val τ ≤ ub := by
  obtain ⟨v, hv, hc⟩ := h
  have up : e.Imposed ub := ⟨v, hv, by cases v with | num => trivial | spl s => exact fun c hc' => (hc c hc').2⟩
  obtain ⟨s, rfl⟩ := Expr.runs_spline hv hs
  have down : (Expr.neg e).Imposed (-lb) := ⟨_, .negSpl hv, fun c hc' => by
    obtain ⟨d, hd, rfl⟩ := List.mem_map.1 hc'
    have := (hc d hd).1
    linarith⟩
  have a := C53_imposed e he hs ub up τ h0 h1
  have b := C53_imposed (.neg e) he hs (-lb) down τ h0 h1
  simp only [Expr.val] at b
  exact ⟨by linarith, a⟩

theorem div_cos (q : ℝ) : (1 - q ^ 2) / (1 + q ^ 2) = Real.cos (2 * Real.arctan q) := by
  have hp : (0 : ℝ) < 1 + q ^ 2 := by positivity
  have := cos_heading' q
  rw [show 2 * Real.arctan q = heading q from rfl, this]

theorem div_sin (q : ℝ) : 2 * q / (1 + q ^ 2) = Real.sin (2 * Real.arctan q) := by
  have := sin_heading' q
  rw [show 2 * Real.arctan q = heading q from rfl, this]

/-- The constraints of `get_fleet_center` at one instant. -/
theorem centre_near {x y c0 c1 q r0 r1 e : ℝ} (he : 0 ≤ e)
    (h1 : -e ≤ (x - c0) * (1 + q ^ 2) - r1 * 2 * q + r0 * (1 - q ^ 2) ∧ (x - c0) * (1 + q ^ 2) - r1 * 2 * q + r0 * (1 - q ^ 2) ≤ e)
    (h2 : -e ≤ (y - c1) * (1 + q ^ 2) + r0 * 2 * q + r1 * (1 - q ^ 2) ∧ (y - c1) * (1 + q ^ 2) + r0 * 2 * q + r1 * (1 - q ^ 2) ≤ e) :
    |x - (c0 + (turned (2 * Real.arctan q) (-r0, -r1)).1)| ≤ e ∧ |y - (c1 + (turned (2 * Real.arctan q) (-r0, -r1)).2)| ≤ e := by
  have hp : (1 : ℝ) ≤ 1 + q ^ 2 := by nlinarith [sq_nonneg q]
  have key : ∀ z : ℝ, |z * (1 + q ^ 2)| ≤ e → |z| ≤ e := fun z hz => by
    rw [abs_mul, abs_of_pos (by linarith : (0 : ℝ) < 1 + q ^ 2)] at hz
    nlinarith [abs_nonneg z]
  simp only [turned, ← div_cos, ← div_sin]
  constructor <;> refine key _ ?_ <;> rw [abs_le]
  · have : (x - (c0 + (-r0 * ((1 - q ^ 2) / (1 + q ^ 2)) - -r1 * (2 * q / (1 + q ^ 2))))) * (1 + q ^ 2) =
        (x - c0) * (1 + q ^ 2) - r1 * 2 * q + r0 * (1 - q ^ 2) := by field_simp; ring
    rw [this]; exact h1
  · have : (y - (c1 + (-r0 * (2 * q / (1 + q ^ 2)) + -r1 * ((1 - q ^ 2) / (1 + q ^ 2))))) * (1 + q ^ 2) =
        (y - c1) * (1 + q ^ 2) + r0 * 2 * q + r1 * (1 - q ^ 2) := by field_simp; ring
    rw [this]; exact h2

theorem dist_two (a b c d : ℝ) : dist (!₂[a, b] : Pt 2) !₂[c, d] = √((a - c) ^ 2 + (b - d) ^ 2) := by
  rw [EuclideanSpace.dist_eq]; simp [Fin.sum_univ_two, Real.dist_eq, sq_abs]

/-! ## C167 -/

/-- **C167** Vehicles with a heading whose centres are coupled, in any fleet: there is one point for the
whole fleet so that every vehicle stands, at every time of the horizon and at the place to which it
really drives, where its configuration puts it with respect to this point, turned with the direction
in which it drives, up to a centimetre in each coordinate. -/
theorem C167_placed_partial (kind : Interconnection) (N : ℕ) (m : ℕ → Member) (cfg : ℕ → ℝ × ℝ) (T : ℝ) (hT : 0 < T) (t0 : ℝ) (a0 : 0 ≤ t0) (a1 : t0 ≤ T)
    (solved : ∀ i < N, (m i).Solves [-(cfg i).1, -(cfg i).2] T t0)
    (coupled : ∀ p ∈ distributedCouples kind N, ∀ k < 2, ImposedZero (.sub (.spl ((m p.1).c k)) (.spl ((m p.2).c k)))) :
    ∃ centre : ℝ → ℝ × ℝ, ∀ i < N, ∀ t, 0 ≤ t → t ≤ T →
      let θ := fun u => 2 * Real.arctan ((m i).tg.eval (u / T))
      let pos := wheeled (fun u => (m i).v.eval (u / T) * (1 + (m i).tg.eval (u / T) ^ 2)) θ (m i).pos0 t0 t
      |pos.1 - ((centre t).1 + (turned (θ t) (cfg i)).1)| ≤ 1 / 100 ∧ |pos.2 - ((centre t).2 + (turned (θ t) (cfg i)).2)| ≤ 1 / 100 := by
  have same : ∀ τ, 0 ≤ τ → τ ≤ 1 → ∀ k < 2, ∀ i < N, ((m i).c k).eval τ = ((m 0).c k).eval τ := by
    intro τ h0 h1 k hk i hi
    obtain ⟨hcon, hlt⟩ := C60_linked kind N
    have hstep : ∀ a b, Relation.EqvGen (fun a b => (a, b) ∈ distributedCouples kind N) a b → ((m a).c k).eval τ = ((m b).c k).eval τ := by
      intro a b h
      induction h with
      | rel a b hab =>
        have ha := (hlt (a, b) hab).1
        have hb := neighbors_lt ha (hlt (a, b) hab).2
        have := imposedZero_val (coupled (a, b) hab k hk) (lo := 0) (hi := 1)
          ⟨((solved a ha).c_on k hk).on, ((solved b hb).c_on k hk).on⟩ (Or.inl trivial) τ h0 h1
        simp only [Expr.sub, Expr.val] at this
        linarith
      | refl a => rfl
      | symm a b _ ih => exact ih.symm
      | trans a b c _ _ ih1 ih2 => exact ih1.trans ih2
    exact (hstep 0 i (hcon i hi)).symm
  refine ⟨fun t => (((m 0).c 0).eval (t / T), ((m 0).c 1).eval (t / T)), fun i hi t h0 h1 => ?_⟩
  have S := solved i hi
  have c0 : 0 ≤ t / T := by positivity
  have c1 : t / T ≤ 1 := (div_le_one hT).2 h1
  obtain ⟨d1, -⟩ := runs_spl (n := 0) S.runX ⟨S.v_on.trajOn, trivial, S.tg_on.trajOn, S.tg_on.trajOn⟩
  obtain ⟨e1, -⟩ := runs_spl (n := 0) S.runY ⟨S.v_on.trajOn, trivial, S.tg_on.trajOn⟩
  have ox := (d1.integrateOnce (m i).pos0.1 t0 T).on01
  have oy := (e1.integrateOnce (m i).pos0.2 t0 T).on01
  have ot := S.tg_on.on
  have hc := S.centre
  simp only [centreCons, List.forall_mem_cons, List.getD_cons_zero, List.getD_cons_succ] at hc
  have b1 := imposedWithin_val hc.1 ⟨⟨⟨⟨ox, (S.c_on 0 (by norm_num)).on⟩, trivial, ot, ot⟩, ⟨trivial, trivial⟩, ot⟩, trivial, trivial, ot, ot⟩
    (Or.inl (Or.inl (Or.inl (Or.inl trivial)))) c0 c1
  have b2 := imposedWithin_val hc.2.1 ⟨⟨⟨⟨oy, (S.c_on 1 (by norm_num)).on⟩, trivial, ot, ot⟩, ⟨trivial, trivial⟩, ot⟩, trivial, trivial, ot, ot⟩
    (Or.inl (Or.inl (Or.inl (Or.inl trivial)))) c0 c1
  simp only [Expr.val, Expr.sub, Expr.sq, denE] at b1 b2
  have w := wheeled_eq S.v_on S.tg_on hT S.runX S.runY (m i).pos0 a0 a1 h0 h1
  have := centre_near (x := (integrateOnce (m i).dx (m i).pos0.1 t0 T).eval (t / T)) (y := (integrateOnce (m i).dy (m i).pos0.2 t0 T).eval (t / T))
    (c0 := ((m i).c 0).eval (t / T)) (c1 := ((m i).c 1).eval (t / T)) (q := (m i).tg.eval (t / T)) (r0 := -(cfg i).1) (r1 := -(cfg i).2) (e := 1 / 100)
    (by norm_num) ⟨by linarith [b1.1], by linarith [b1.2]⟩ ⟨by linarith [b2.1], by linarith [b2.2]⟩
  simp only [neg_neg, Prod.mk.eta] at this
  intro θ pos
  have hpos : pos = _ := w
  rw [hpos]
  simp only [← same _ c0 c1 0 (by norm_num) i hi, ← same _ c0 c1 1 (by norm_num) i hi]
  exact this

/-- **C167** (fails for every vehicle with a heading).  The centre that a vehicle logs is not the one its
configuration refers to: it is `√2` times the length of the configuration away from it, for every
position, direction and configuration. -/
theorem C167_logged_violated (x y q : ℝ) (cfg : ℝ × ℝ) :
    let d := turned (2 * Real.arctan q) cfg
    dist (loggedCentre x y q (-cfg.1) (-cfg.2)) !₂[x - d.1, y - d.2] = √2 * √(cfg.1 ^ 2 + cfg.2 ^ 2) := by
  intro d
  have hp : (1 + q ^ 2 : ℝ) ≠ 0 := by positivity
  show dist (!₂[_, _] : Pt 2) _ = _
  rw [dist_two, ← Real.sqrt_mul (by norm_num)]
  congr 1
  simp only [d, turned, ← div_cos, ← div_sin]
  field_simp
  ring

/-! ## C168 -/

theorem errorAt_nonneg {n : ℕ} (fleet : List (Track n)) (k : ℕ) : 0 ≤ errorAt fleet k := by
  refine div_nonneg (List.sum_nonneg ?_) (by positivity)
  intro x hx
  obtain ⟨v, -, rfl⟩ := List.mem_map.1 hx
  positivity

theorem sum_zero_iff {l : List ℝ} (h : ∀ x ∈ l, 0 ≤ x) : l.sum = 0 ↔ ∀ x ∈ l, x = 0 := by
  induction l with
  | nil => simp
  | cons a l ih =>
    have ha := h a List.mem_cons_self
    have hl : 0 ≤ l.sum := List.sum_nonneg fun x hx => h x (List.mem_cons_of_mem _ hx)
    rw [List.sum_cons, List.forall_mem_cons, ← ih fun x hx => h x (List.mem_cons_of_mem _ hx)]
    constructor
    · intro e; constructor <;> linarith
    · rintro ⟨e1, e2⟩; rw [e1, e2, add_zero]

theorem errorAt_zero {n : ℕ} {fleet : List (Track n)} (hne : fleet ≠ []) (hc : ∀ v ∈ fleet, v.cfg ≠ 0) (k : ℕ) :
    errorAt fleet k = 0 ↔ ∀ v ∈ fleet, v.centre k = meanAt fleet k := by
  have hl : (fleet.length : ℝ) ≠ 0 := by simpa using hne
  rw [errorAt, div_eq_zero_iff, or_iff_left hl, sum_zero_iff fun x hx => by obtain ⟨v, -, rfl⟩ := List.mem_map.1 hx; positivity]
  constructor
  · intro h v hv
    have := h _ (List.mem_map.2 ⟨v, hv, rfl⟩)
    rw [div_eq_zero_iff, or_iff_left (norm_ne_zero_iff.2 (hc v hv)), norm_eq_zero, sub_eq_zero] at this
    exact this.symm
  · intro h x hx
    obtain ⟨v, hv, rfl⟩ := List.mem_map.1 hx
    simp [h v hv]

/-- The samples of a simulation. -/
theorem interaction_eq {n : ℕ} {fleet : List (Track n)} (hne : fleet ≠ []) (hc : ∀ v ∈ fleet, v.cfg ≠ 0) {S : ℕ} (hS : 2 ≤ S) {Ts : ℝ} (hT : 0 < Ts) :
    interactionError fleet S (fun k => k * Ts) =
      some (((List.range (S - 1)).map fun k => 0.5 * (errorAt fleet (k + 1) + errorAt fleet k) * Ts).sum / ((S - 1 : ℕ) * Ts)) := by
  have h1 : ((S - 1 : ℕ) : ℝ) * Ts ≠ 0 := mul_ne_zero (by simp; omega) hT.ne'
  rw [interactionError, if_neg]
  · simp
  · rintro (h | h | ⟨v, hv, h⟩ | h)
    · omega
    · exact hne h
    · exact hc v hv h
    · exact h1 h

theorem sum_range_le {f : ℕ → ℝ} {S : ℕ} {c : ℝ} (h : ∀ k < S, f k ≤ c) : ((List.range S).map f).sum ≤ S * c := by
  have := List.sum_le_card_nsmul ((List.range S).map f) c fun x hx => by
    obtain ⟨k, hk, rfl⟩ := List.mem_map.1 hx
    exact h k (List.mem_range.1 hk)
  simpa using this

theorem sum_range_eq {f : ℕ → ℝ} {S : ℕ} {c : ℝ} (h : ∀ k < S, f k = c) : ((List.range S).map f).sum = S * c := by
  rw [show (List.range S).map f = (List.range S).map fun _ => c from List.map_congr_left fun k hk => h k (List.mem_range.1 hk)]
  simp

/-- The fleet of a formation problem with vehicles without heading. -/
def plainFleet {n : ℕ} (N : ℕ) (pos : ℕ → ℕ → Pt n) (cfg : ℕ → Pt n) : List (Track n) :=
  (List.range N).map fun i => Track.plain (pos i) (cfg i)

theorem mem_plain {n N : ℕ} {pos : ℕ → ℕ → Pt n} {cfg : ℕ → Pt n} {v : Track n} : v ∈ plainFleet N pos cfg ↔ ∃ i < N, v = Track.plain (pos i) (cfg i) := by
  simp [plainFleet, eq_comm]

theorem mean_plain {n N : ℕ} (hN : 0 < N) {pos : ℕ → ℕ → Pt n} {cfg : ℕ → Pt n} {k : ℕ} {c : Pt n} (h : ∀ i < N, pos i k = c + cfg i) :
    meanAt (plainFleet N pos cfg) k = c + (N : ℝ)⁻¹ • ((List.range N).map cfg).sum := by
  have e : ((plainFleet N pos cfg).map fun v => v.pos k) = (List.range N).map fun i => c + cfg i := by
    simp only [plainFleet, List.map_map]
    exact List.map_congr_left fun i hi => h i (List.mem_range.1 hi)
  have s : ∀ l : List ℕ, (l.map fun i => c + cfg i).sum = (l.length : ℝ) • c + (l.map cfg).sum := fun l => by
    induction l with
    | nil => simp
    | cons a l ih => simp only [List.map_cons, List.sum_cons, ih, List.length_cons]; push_cast; module
  rw [meanAt, e, s]
  have hN' : (N : ℝ) ≠ 0 := by positivity
  simp [plainFleet, smul_smul, hN']

/-- **C168** Formations of vehicles without heading, whose configuration is balanced about its centre and
has no vehicle at the centre itself: the error reported after a simulation is zero exactly if the
vehicles were in formation at every sample. -/
theorem C168_zero_partial {n : ℕ} (N : ℕ) (hN : 0 < N) (pos : ℕ → ℕ → Pt n) (cfg : ℕ → Pt n) (hc : ∀ i < N, cfg i ≠ 0)
    (balanced : ((List.range N).map cfg).sum = 0) (S : ℕ) (hS : 2 ≤ S) (Ts : ℝ) (hT : 0 < Ts) :
    interactionError (plainFleet N pos cfg) S (fun k => k * Ts) = some 0 ↔ ∀ k < S, InFormation pos cfg N k := by
  have hne : plainFleet N pos cfg ≠ [] := by simp [plainFleet]; omega
  have hc' : ∀ v ∈ plainFleet N pos cfg, v.cfg ≠ 0 := fun v hv => by obtain ⟨i, hi, rfl⟩ := mem_plain.1 hv; exact hc i hi
  rw [interaction_eq hne hc' hS hT]
  have h1 : ((S - 1 : ℕ) : ℝ) * Ts ≠ 0 := mul_ne_zero (by simp; omega) hT.ne'
  have en := errorAt_nonneg (plainFleet N pos cfg)
  have form : ∀ k, errorAt (plainFleet N pos cfg) k = 0 ↔ InFormation pos cfg N k := fun k => by
    rw [errorAt_zero hne hc']
    constructor
    · intro h i hi j hj
      have a := h _ (mem_plain.2 ⟨i, hi, rfl⟩)
      have b := h _ (mem_plain.2 ⟨j, hj, rfl⟩)
      simp only [Track.plain] at a b
      have e : pos i k + -cfg i = pos j k + -cfg j := a.trans b.symm
      have : pos i k - pos j k - (cfg i - cfg j) = pos i k + -cfg i - (pos j k + -cfg j) := by module
      rw [← sub_eq_zero, this, e, sub_self]
    · intro h v hv
      obtain ⟨i, hi, rfl⟩ := mem_plain.1 hv
      have : ∀ j < N, pos j k = (pos i k + -cfg i) + cfg j := fun j hj => by
        have := h j hj i hi
        rw [sub_eq_iff_eq_add] at this
        rw [this]; module
      rw [mean_plain hN this, balanced, smul_zero, add_zero]
      rfl
  rw [Option.some.injEq, div_eq_zero_iff, or_iff_left h1, sum_zero_iff fun x hx => by
    obtain ⟨k, -, rfl⟩ := List.mem_map.1 hx
    have := en k; have := en (k + 1)
    positivity]
  constructor
  · intro h k hk
    rw [← form]
    have key : ∀ j < S - 1, errorAt (plainFleet N pos cfg) (j + 1) = 0 ∧ errorAt (plainFleet N pos cfg) j = 0 := fun j hj => by
      have := h _ (List.mem_map.2 ⟨j, List.mem_range.2 hj, rfl⟩)
      rw [mul_eq_zero, or_iff_left hT.ne', mul_eq_zero, or_iff_right (by norm_num)] at this
      have a := en j; have b := en (j + 1)
      constructor <;> linarith
    by_cases h' : k < S - 1
    · exact (key k h').2
    · obtain rfl : k = (S - 2) + 1 := by omega
      exact (key (S - 2) (by omega)).1
  · intro h x hx
    obtain ⟨k, hk, rfl⟩ := List.mem_map.1 hx
    have hk := List.mem_range.1 hk
    rw [(form k).2 (h k (by omega)), (form (k + 1)).2 (h (k + 1) (by omega))]
    simp

/-- **C168** If at every sample every vehicle sees the centre within `δ` times the length of its
configuration from the mean of the positions, then at most `δ` is reported. -/
theorem C168_bound_partial {n : ℕ} (fleet : List (Track n)) (hne : fleet ≠ []) (hc : ∀ v ∈ fleet, v.cfg ≠ 0) (S : ℕ) (hS : 2 ≤ S) (Ts : ℝ) (hT : 0 < Ts) (δ : ℝ)
    (h : ∀ k < S, ∀ v ∈ fleet, ‖(fleet.length : ℝ)⁻¹ • (fleet.map fun v => v.pos k).sum - v.centre k‖ ≤ δ * ‖v.cfg‖) :
    ∃ err, interactionError fleet S (fun k => k * Ts) = some err ∧ 0 ≤ err ∧ err ≤ δ := by
  refine ⟨_, interaction_eq hne hc hS hT, ?_, ?_⟩
  · refine div_nonneg (List.sum_nonneg fun x hx => ?_) (by positivity)
    obtain ⟨k, -, rfl⟩ := List.mem_map.1 hx
    have := errorAt_nonneg fleet k; have := errorAt_nonneg fleet (k + 1)
    positivity
  · have hl : (0 : ℝ) < fleet.length := by exact_mod_cast List.length_pos_iff.2 hne
    have e : ∀ k < S, errorAt fleet k ≤ δ := fun k hk => by
      rw [errorAt, div_le_iff₀ hl]
      have := List.sum_le_card_nsmul (fleet.map fun v => ‖meanAt fleet k - v.centre k‖ / ‖v.cfg‖) δ fun x hx => by
        obtain ⟨v, hv, rfl⟩ := List.mem_map.1 hx
        rw [div_le_iff₀ (norm_pos_iff.2 (hc v hv))]
        exact h k hk v hv
      simp at this
      linarith
    have hS1 : (0 : ℝ) < (S - 1 : ℕ) := by exact_mod_cast (by omega : 0 < S - 1)
    rw [div_le_iff₀ (by positivity)]
    refine (sum_range_le (c := δ * Ts) fun k hk => ?_).trans_eq (by ring)
    have a := e k (by omega); have b := e (k + 1) (by omega)
    refine mul_le_mul_of_nonneg_right ?_ hT.le
    linarith

/-- **C168** (fails for every unbalanced configuration).  Vehicles that are in formation at every sample are
reported to be in error, if the configuration is not balanced about its centre. -/
theorem C168_unbalanced_violated {n : ℕ} (N : ℕ) (hN : 0 < N) (pos : ℕ → ℕ → Pt n) (cfg : ℕ → Pt n) (hc : ∀ i < N, cfg i ≠ 0)
    (unbalanced : ((List.range N).map cfg).sum ≠ 0) (S : ℕ) (hS : 2 ≤ S) (Ts : ℝ) (hT : 0 < Ts) (form : ∀ k < S, InFormation pos cfg N k) :
    ∃ err, interactionError (plainFleet N pos cfg) S (fun k => k * Ts) = some err ∧ 0 < err := by
  have hne : plainFleet N pos cfg ≠ [] := by simp [plainFleet]; omega
  have hc' : ∀ v ∈ plainFleet N pos cfg, v.cfg ≠ 0 := fun v hv => by obtain ⟨i, hi, rfl⟩ := mem_plain.1 hv; exact hc i hi
  have en := errorAt_nonneg (plainFleet N pos cfg)
  have ne : ∀ k < S, errorAt (plainFleet N pos cfg) k ≠ 0 := fun k hk h0 => by
    rw [errorAt_zero hne hc'] at h0
    have a := h0 _ (mem_plain.2 ⟨0, hN, rfl⟩)
    have : ∀ j < N, pos j k = (pos 0 k + -cfg 0) + cfg j := fun j hj => by
      have := form k hk j hj 0 hN
      rw [sub_eq_iff_eq_add] at this
      rw [this]; module
    rw [mean_plain hN this] at a
    have z : (N : ℝ)⁻¹ • ((List.range N).map cfg).sum = 0 := by
      have a : pos 0 k + -cfg 0 = _ := a
      exact (add_eq_left.1 a.symm)
    rcases smul_eq_zero.1 z with z | z
    · have : (N : ℝ) ≠ 0 := by positivity
      exact this (inv_eq_zero.1 z)
    · exact unbalanced z
  refine ⟨_, interaction_eq hne hc' hS hT, ?_⟩
  have hS1 : (0 : ℝ) < (S - 1 : ℕ) := by exact_mod_cast (by omega : 0 < S - 1)
  refine div_pos (lt_of_le_of_ne (List.sum_nonneg fun x hx => ?_) fun h => ?_) (by positivity)
  · obtain ⟨k, -, rfl⟩ := List.mem_map.1 hx
    have := en k; have := en (k + 1)
    positivity
  · rw [eq_comm, sum_zero_iff fun x hx => by
      obtain ⟨k, -, rfl⟩ := List.mem_map.1 hx
      have := en k; have := en (k + 1)
      positivity] at h
    have := h _ (List.mem_map.2 ⟨0, List.mem_range.2 (by omega), rfl⟩)
    rw [mul_eq_zero, or_iff_left hT.ne', mul_eq_zero, or_iff_right (by norm_num)] at this
    have a := en 0; have b := en (0 + 1)
    exact ne 0 (by omega) (by linarith)

/-- **C168** (fails for every formation with a vehicle at its centre).  No number is reported. -/
theorem C168_at_centre_violated {n : ℕ} (fleet : List (Track n)) (v : Track n) (hv : v ∈ fleet) (h0 : v.cfg = 0) (S : ℕ) (time : ℕ → ℝ) :
    interactionError fleet S time = none := by
  rw [interactionError, if_pos (Or.inr (Or.inr (Or.inl ⟨v, hv, h0⟩)))]

/-- The fleet of a formation problem with vehicles with a heading; `q i k` the tangent of half the heading. -/
noncomputable def wheelFleet (N : ℕ) (pos : ℕ → ℕ → Pt 2) (q : ℕ → ℕ → ℝ) (cfg : ℕ → Pt 2) : List (Track 2) :=
  (List.range N).map fun i => Track.wheels (pos i) (q i) (cfg i)

/-- **C168** (fails for every formation of vehicles with a heading).  Such vehicles that are, at every
sample, exactly where a balanced configuration puts them are reported to be 141 per cent in error. -/
theorem C168_wheels_violated (N : ℕ) (hN : 0 < N) (q : ℕ → ℝ) (c : ℕ → Pt 2) (cfg : ℕ → Pt 2) (hc : ∀ i < N, cfg i ≠ 0)
    (balanced : ((List.range N).map cfg).sum = 0) (S : ℕ) (hS : 2 ≤ S) (Ts : ℝ) (hT : 0 < Ts) :
    interactionError (wheelFleet N (fun i k => c k + !₂[(turned (2 * Real.arctan (q k)) (cfg i 0, cfg i 1)).1, (turned (2 * Real.arctan (q k)) (cfg i 0, cfg i 1)).2])
      (fun _ k => q k) cfg) S (fun k => k * Ts) = some √2 := by
  set pos : ℕ → ℕ → Pt 2 := fun i k => c k + !₂[(turned (2 * Real.arctan (q k)) (cfg i 0, cfg i 1)).1, (turned (2 * Real.arctan (q k)) (cfg i 0, cfg i 1)).2] with hpos
  set fleet := wheelFleet N pos (fun _ k => q k) cfg with hf
  have mem : ∀ {v}, v ∈ fleet ↔ ∃ i < N, v = Track.wheels (pos i) q (cfg i) := by
    intro v; simp [hf, wheelFleet, eq_comm]
  have hne : fleet ≠ [] := by simp [hf, wheelFleet]; omega
  have hc' : ∀ v ∈ fleet, v.cfg ≠ 0 := fun v hv => by obtain ⟨i, hi, rfl⟩ := mem.1 hv; exact hc i hi
  have hlen : (fleet.length : ℝ) = N := by simp [hf, wheelFleet]
  have hN' : (N : ℝ) ≠ 0 := by positivity
  have coord : ∀ (l : List ℕ) (j : Fin 2), ((l.map cfg).sum) j = (l.map fun i => cfg i j).sum := fun l j => by
    induction l with
    | nil => simp
    | cons a l ih => simp [ih]
  have mean : ∀ k, meanAt fleet k = c k := fun k => by
    have e : (fleet.map fun v => v.pos k) = (List.range N).map fun i => pos i k := by
      simp only [hf, wheelFleet, List.map_map]; rfl
    have s : ∀ l : List ℕ, (l.map fun i => pos i k).sum = (l.length : ℝ) • c k +
        !₂[(turned (2 * Real.arctan (q k)) ((l.map cfg).sum 0, (l.map cfg).sum 1)).1, (turned (2 * Real.arctan (q k)) ((l.map cfg).sum 0, (l.map cfg).sum 1)).2] := fun l => by
      induction l with
      | nil => ext j; fin_cases j <;> simp [turned]
      | cons a l ih =>
        simp only [List.map_cons, List.sum_cons, ih, List.length_cons]
        ext j
        fin_cases j <;> simp [hpos, turned] <;> ring
    rw [meanAt, e, s, balanced, hlen]
    have z : (!₂[(turned (2 * Real.arctan (q k)) ((0 : Pt 2) 0, (0 : Pt 2) 1)).1, (turned (2 * Real.arctan (q k)) ((0 : Pt 2) 0, (0 : Pt 2) 1)).2] : Pt 2) = 0 := by
      ext j; fin_cases j <;> simp [turned]
    rw [z, add_zero, List.length_range, smul_smul, inv_mul_cancel₀ hN', one_smul]
  have err : ∀ k, errorAt fleet k = √2 := fun k => by
    have e : (fleet.map fun v => ‖meanAt fleet k - v.centre k‖ / ‖v.cfg‖) = (List.range N).map fun _ => √2 := by
      rw [mean k, hf, wheelFleet, List.map_map]
      refine List.map_congr_left fun i hi => ?_
      have hi := hc i (List.mem_range.1 hi)
      have v := C167_logged_violated (pos i k 0) (pos i k 1) (q k) (cfg i 0, cfg i 1)
      have cc : (!₂[pos i k 0 - (turned (2 * Real.arctan (q k)) (cfg i 0, cfg i 1)).1, pos i k 1 - (turned (2 * Real.arctan (q k)) (cfg i 0, cfg i 1)).2] : Pt 2) = c k := by
        ext j; fin_cases j <;> simp [hpos]
      have nn : ‖cfg i‖ = √((cfg i 0) ^ 2 + (cfg i 1) ^ 2) := by rw [EuclideanSpace.norm_eq]; simp [Fin.sum_univ_two, sq_abs]
      simp only at v
      rw [cc, ← nn] at v
      show ‖c k - loggedCentre (pos i k 0) (pos i k 1) (q k) (-cfg i 0) (-cfg i 1)‖ / ‖cfg i‖ = _
      rw [← dist_eq_norm, dist_comm, v, mul_div_cancel_right₀ _ (norm_ne_zero_iff.2 hi)]
    rw [errorAt, e, hlen]
    simp [hN']
  rw [interaction_eq hne hc' hS hT, Option.some.injEq, sum_range_eq (c := √2 * Ts) fun k _ => by rw [err, err]; ring]
  have hS1 : (0 : ℝ) < (S - 1 : ℕ) := by exact_mod_cast (by omega : 0 < S - 1)
  field_simp

/-- **C168** (fails for every error).  What is printed as a percentage with dual decomposition is a
hundredth of what is printed with ADMM for the same motion. -/
theorem C168_percent_violated (err : ℝ) : printedDD err = printedADMM err / 100 := by unfold printedDD printedADMM; ring

/-! ## Cases -/

section Cases

/-- Two vehicles, left and right of the centre. -/
noncomputable def pairCfg (i : ℕ) : Pt 2 := if i = 0 then !₂[1, 0] else !₂[-1, 0]

theorem pairCfg_ne (i : ℕ) : pairCfg i ≠ 0 := fun h => by
  have := congrArg (fun p : Pt 2 => p 0) h
  unfold pairCfg at this
  split_ifs at this <;> simp at this

theorem pairCfg_sum : ((List.range 2).map pairCfg).sum = 0 := by
  ext j; fin_cases j <;> simp [List.range_succ, pairCfg]

/-- In formation throughout: nothing is reported. -/
example : interactionError (plainFleet 2 (fun i k => !₂[(k : ℝ), k ^ 2] + pairCfg i) pairCfg) 10 (fun k => k * (1 / 100)) = some 0 :=
  (C168_zero_partial 2 (by norm_num) _ pairCfg (fun i _ => pairCfg_ne i) pairCfg_sum 10 (by norm_num) (1 / 100) (by norm_num)).2
    fun k _ i _ j _ => by module

/-- Out of formation at one sample: something is reported. -/
example : interactionError (plainFleet 2 (fun i k => if i = 0 ∧ k = 5 then 0 else pairCfg i) pairCfg) 10 (fun k => k * (1 / 100)) ≠ some 0 := by
  rw [Ne, C168_zero_partial 2 (by norm_num) _ pairCfg (fun i _ => pairCfg_ne i) pairCfg_sum 10 (by norm_num) (1 / 100) (by norm_num)]
  intro h
  have := h 5 (by norm_num) 0 (by norm_num) 1 (by norm_num)
  simp only [and_self, if_true] at this
  have := congrArg (fun p : Pt 2 => p 0) this
  simp [pairCfg] at this

/-- A vehicle 10 cm off: at most 5 per cent is reported. -/
example : ∃ err, interactionError (plainFleet 2 (fun i _ => if i = 0 then !₂[11 / 10, 0] else !₂[-1, 0]) pairCfg) 10 (fun k => k * (1 / 100)) = some err ∧
    0 ≤ err ∧ err ≤ 1 / 20 := by
  refine C168_bound_partial _ (by simp [plainFleet]) (fun v hv => by obtain ⟨i, -, rfl⟩ := mem_plain.1 hv; exact pairCfg_ne i) 10 (by norm_num) _ (by norm_num) _ ?_
  intro k _ v hv
  obtain ⟨i, hi, rfl⟩ := mem_plain.1 hv
  have hs : ((plainFleet 2 (fun i _ => if i = 0 then (!₂[11 / 10, 0] : Pt 2) else !₂[-1, 0]) pairCfg).map fun v => v.pos k).sum = !₂[1 / 10, 0] := by
    ext j; fin_cases j <;> simp [plainFleet, List.range_succ, Track.plain]; norm_num
  have hl : (plainFleet 2 (fun i _ => if i = 0 then (!₂[11 / 10, 0] : Pt 2) else !₂[-1, 0]) pairCfg).length = 2 := by simp [plainFleet]
  rw [hs, hl, EuclideanSpace.norm_eq, EuclideanSpace.norm_eq]
  rcases (by omega : i = 0 ∨ i = 1) with rfl | rfl <;> simp [Fin.sum_univ_two, Track.plain, pairCfg] <;> norm_num
  rw [show (400 : ℝ) = 20 ^ 2 by norm_num, Real.sqrt_sq (by norm_num)]; norm_num

/-- Two vehicles in formation, in front of and beside the centre. -/
example : ∃ err, interactionError (plainFleet 2 (fun i _ => if i = 0 then !₂[1, 0] else !₂[0, 1]) fun i => if i = 0 then !₂[1, 0] else !₂[0, 1]) 10
    (fun k => k * (1 / 100)) = some err ∧ 0 < err := by
  refine C168_unbalanced_violated 2 (by norm_num) _ _ (fun i _ h => ?_) (fun h => ?_) 10 (by norm_num) _ (by norm_num) fun k _ i _ j _ => rfl
  · have a := congrArg (fun p : Pt 2 => p 0) h
    have b := congrArg (fun p : Pt 2 => p 1) h
    split_ifs at a b <;> simp at a b
  · have := congrArg (fun p : Pt 2 => p 0) h
    simp [List.range_succ] at this

/-- Two vehicles driving straight ahead side by side. -/
example : interactionError (wheelFleet 2 (fun i k => !₂[(k : ℝ), 0] + !₂[(turned (2 * Real.arctan 0) (pairCfg i 0, pairCfg i 1)).1,
    (turned (2 * Real.arctan 0) (pairCfg i 0, pairCfg i 1)).2]) (fun _ _ => 0) pairCfg) 10 (fun k => k * (1 / 100)) = some √2 :=
  C168_wheels_violated 2 (by norm_num) (fun _ => 0) (fun k => !₂[(k : ℝ), 0]) pairCfg (fun i _ => pairCfg_ne i) pairCfg_sum 10 (by norm_num) _ (by norm_num)

/-- Two vehicles that drive in the direction (3, 4), one half a metre to the left and the other half a
metre to the right of the centre. -/
noncomputable def sideCfg (i : ℕ) : ℝ × ℝ := if i = 0 then (0, 1 / 2) else (0, -(1 / 2))

noncomputable def side (dx dy : BSpline ℝ) (i : ℕ) : Member :=
  ⟨rollV, ⟨Bz 3, [1 / 2, 1 / 2, 1 / 2, 1 / 2]⟩, dx, dy, fun k => if k = 0 then ⟨Bz 3, [0, 0, 3 / 80, 3 / 80]⟩ else ⟨Bz 3, [0, 0, 1 / 20, 1 / 20]⟩,
    if i = 0 then (-(2 / 5), 3 / 10) else (2 / 5, -(3 / 10))⟩

/-- `C167_placed_partial` applies, with the vehicles at both sides. -/
example : ∃ dx dy, (∀ i < 2, (side dx dy i).Solves [-(sideCfg i).1, -(sideCfg i).2] 1 0) ∧
    ∀ p ∈ distributedCouples .full 2, ∀ k < 2, ImposedZero (.sub (.spl ((side dx dy p.1).c k)) (.spl ((side dx dy p.2).c k))) := by
  have te : ∀ x, 0 ≤ x → x ≤ 1 → (⟨Bz 3, [1 / 2, 1 / 2, 1 / 2, 1 / 2]⟩ : BSpline ℝ).eval x = 1 / 2 := fun x h0 h1 => by
    rw [Bz_eval rfl h0 h1]; simp [Finset.sum_range_succ, bern, Nat.choose]; ring
  have ce : ∀ a x : ℝ, 0 ≤ x → x ≤ 1 → (⟨Bz 3, [0, 0, a, a]⟩ : BSpline ℝ).eval x = a * (3 * x ^ 2 - 2 * x ^ 3) := fun a x h0 h1 => by
    rw [Bz_eval rfl h0 h1]; simp [Finset.sum_range_succ, bern, Nat.choose]; ring
  have a1 : (dxE rollV ⟨Bz 3, [1 / 2, 1 / 2, 1 / 2, 1 / 2]⟩).AllBz := ⟨⟨rfl, rfl⟩, trivial, ⟨rfl, rfl⟩, rfl, rfl⟩
  have a2 : (dyE rollV ⟨Bz 3, [1 / 2, 1 / 2, 1 / 2, 1 / 2]⟩).AllBz := ⟨⟨rfl, rfl⟩, trivial, rfl, rfl⟩
  obtain ⟨dx, r1, b1⟩ := (Expr.AllBz.runs a1).2 9 rfl (by norm_num)
  obtain ⟨dy, r2, b2⟩ := (Expr.AllBz.runs a2).2 6 rfl (by norm_num)
  obtain ⟨-, w1, -, -, e1⟩ := Expr.runs_means r1 a1.on
  obtain ⟨-, w2, -, -, e2⟩ := Expr.runs_means r2 a2.on
  have l1 : dx.coeffs.length = 10 := by rw [show dx.coeffs.length = _ from w1, b1, Bz_len]
  have l2 : dy.coeffs.length = 7 := by rw [show dy.coeffs.length = _ from w2, b2, Bz_len]
  have tr : Traj rollV 0 := (Bz_traj rfl).mono (Nat.zero_le _)
  have tt : Traj (⟨Bz 3, [1 / 2, 1 / 2, 1 / 2, 1 / 2]⟩ : BSpline ℝ) 0 := (Bz_traj rfl).mono (Nat.zero_le _)
  have d1 := (runs_spl (n := 0) r1 ⟨tr.trajOn, trivial, tt.trajOn, tt.trajOn⟩).1
  have d2 := (runs_spl (n := 0) r2 ⟨tr.trajOn, trivial, tt.trajOn⟩).1
  have dF : ∀ a x : ℝ, HasDerivAt (fun x => a * (3 * x ^ 2 - 2 * x ^ 3)) (a * (6 * (x - x ^ 2))) x := fun a x => by
    have := (((hasDerivAt_pow 2 x).const_mul 3).sub ((hasDerivAt_pow 3 x).const_mul 2)).const_mul a
    refine this.congr_deriv ?_
    push_cast; ring
  have xe : ∀ x0 t : ℝ, 0 ≤ t → t ≤ 1 → (integrateOnce dx x0 0 1).eval t = x0 + 3 / 80 * (3 * t ^ 2 - 2 * t ^ 3) := fun x0 t h0 h1 => by
    rw [integrate_value d1 (fun x h0 h1 => ?_) (by fun_prop) (dF (3 / 80)) x0 h0 h1]
    · ring
    · rw [e1 x h0 h1]; simp only [dxE, Expr.val, Expr.sub, Expr.sq, te x h0 h1, rollV_eval h0 h1]; ring
  have ye : ∀ x0 t : ℝ, 0 ≤ t → t ≤ 1 → (integrateOnce dy x0 0 1).eval t = x0 + 1 / 20 * (3 * t ^ 2 - 2 * t ^ 3) := fun x0 t h0 h1 => by
    rw [integrate_value d2 (fun x h0 h1 => ?_) (by fun_prop) (dF (1 / 20)) x0 h0 h1]
    · ring
    · rw [e2 x h0 h1]; simp only [dyE, Expr.val, te x h0 h1, rollV_eval h0 h1]; ring
  have within : ∀ e : Expr ℝ, ImposedZero e → ImposedWithin e (-(1 / 100)) (1 / 100) := fun e h => by
    obtain ⟨v, hv, hc⟩ := h
    refine ⟨v, hv, ?_⟩
    cases v with
    | num => trivial
    | spl s => exact fun c hc' => by rw [hc c hc']; norm_num
  refine ⟨dx, dy, fun i _ => ⟨tr, tt, fun k _ => ?_, r1, r2, ?_⟩, fun p _ k _ => ?_⟩
  · show Traj (if k = 0 then _ else _) 0
    split_ifs <;> exact (Bz_traj rfl).mono (Nat.zero_le _)
  · obtain ⟨ax, bx⟩ := integrateOnce_bz b1 l1 (side dx dy i).pos0.1 0 1
    obtain ⟨ay, by'⟩ := integrateOnce_bz b2 l2 (side dx dy i).pos0.2 0 1
    simp only [Expr.bdeg, Option.some.injEq, side] at bx by'
    have at' : (Expr.spl (⟨Bz 3, [1 / 2, 1 / 2, 1 / 2, 1 / 2]⟩ : BSpline ℝ)).AllBz := ⟨rfl, rfl⟩
    have ac : ∀ a : ℝ, (Expr.spl (⟨Bz 3, [0, 0, a, a]⟩ : BSpline ℝ)).AllBz := fun a => ⟨rfl, rfl⟩
    simp only [centreCons, List.forall_mem_cons, List.getD_cons_zero, List.getD_cons_succ]
    refine ⟨within _ (allBz_zero (D := 16) ?_ ?_ (by norm_num) fun x h0 h1 => ?_), within _ (allBz_zero (D := 13) ?_ ?_ (by norm_num) fun x h0 h1 => ?_), by simp⟩
    · exact ⟨⟨⟨⟨ax, ac _⟩, trivial, at', at'⟩, ⟨trivial, trivial⟩, at'⟩, trivial, trivial, at', at'⟩
    · simp [Expr.bdeg, Expr.sub, Expr.sq, denE, bx, side, Bz]
    · simp only [Expr.val, Expr.sub, Expr.sq, denE, xe _ x h0 h1, side, te x h0 h1, if_true, ce _ x h0 h1, sideCfg]
      split_ifs <;> ring
    · exact ⟨⟨⟨⟨ay, ac _⟩, trivial, at', at'⟩, ⟨trivial, trivial⟩, at'⟩, trivial, trivial, at', at'⟩
    · simp [Expr.bdeg, Expr.sub, Expr.sq, denE, by', side, Bz]
    · simp only [Expr.val, Expr.sub, Expr.sq, denE, ye _ x h0 h1, side, te x h0 h1, one_ne_zero, if_false, ce _ x h0 h1, sideCfg]
      split_ifs <;> ring
  · have : ∀ a : ℝ, ImposedZero (.sub (.spl (⟨Bz 3, [0, 0, a, a]⟩ : BSpline ℝ)) (.spl (⟨Bz 3, [0, 0, a, a]⟩ : BSpline ℝ))) := fun a =>
      allBz_zero (D := 3) ⟨⟨rfl, rfl⟩, rfl, rfl⟩ rfl (by norm_num) fun x _ _ => by simp [Expr.sub, Expr.val]
    show ImposedZero (.sub (.spl (if k = 0 then _ else _)) (.spl (if k = 0 then _ else _)))
    split_ifs <;> exact this _

end Cases

end Verif.Fleet
