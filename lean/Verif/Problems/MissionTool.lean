import Verif.Problems.MissionFrames
import Verif.Vehicles.ToolRoom

/-! # C179: a plan of the machine tool, at every instant

`GCodeProblem` (gcodeproblem.py): one segment of the trajectory per block of the program. The pieces proved about one segment (C122, C123, C134, C135) and about
the joints (C34) are put together. -/

set_option linter.unusedSectionVars false

namespace Verif.Problems

open Verif.Spline Verif.Vehicles Verif.GCode

/-! ## Model -/

/-- A room and the splines and the motion time of the segment in it. -/
structure Piece where
  room : Segment
  seg : ToolSeg

/-- The segments as `define_connection_constraints` sees them. -/
def Piece.pair (p : Piece) : List (BSpline ℝ) × ℝ := ([p.seg.s 0, p.seg.s 1, p.seg.s 2], p.seg.T)

/-- All variables of `GCodeProblem` have values that meet all its constraints, gcodeproblem.py:56-129: splines on the basis of the tool (tool.py:41-42,
vehicle.py:80-87), motion times (65-67), limits (74-80), rooms (82), start (88-95; the parameter `t` is 0, since `init_time` is never set), end
(97-105) and joints (107-120). -/
structure SolvesTool (m : VelLimit) (L : ToolLim) (vt : Bool) (tol : ℝ) (start : Holo 3) (goal : Fin 3 → ℝ) (first : Piece) (more : List Piece) : Prop where
  positive : ∀ p ∈ first :: more, (-p.seg.T) ≤ 0
  form : ∀ p ∈ first :: more, ∀ i, Traj (p.seg.s i) 2 ∧ (p.seg.s i).basis.degree = 3
  limits : PlanOk m L ((first :: more).map Piece.seg)
  rooms : ∀ p ∈ first :: more, RoomOk p.room p.seg.s vt tol
  starts : MeetsInit (toolInit first.seg.s start first.seg.T) (0 / first.seg.T)
  ends : MeetsEnd (imposedFree false (holoTerm ((first :: more).getLast (List.cons_ne_nil _ _)).seg.s goal 2))
  joints : ∀ r ∈ connection ((first :: more).map Piece.pair), r = 0

/-! ## Specification -/

/-- The time at which the `k`-th segment begins. -/
noncomputable def Spec.begins (ps : List Piece) (k : ℕ) : ℝ := ((ps.take k).map fun p => p.seg.T).sum

/-- Motion of the tool with its velocity and acceleration during the segments `ps`. -/
structure Spec.Machines (m : VelLimit) (L : ToolLim) (vt : Bool) (tol : ℝ) (ps : List Piece) (pos vel acc : ℝ → Fin 3 → ℝ) : Prop where
  follows : ∀ (k : ℕ) (p : Piece), ps[k]? = some p → ∀ r ∈ Set.Icc 0 p.seg.T, ∀ i, pos (begins ps k + r) i = (p.seg.s i).eval (r / p.seg.T)
  moves : ∀ i, ∀ t ∈ Set.Icc 0 (begins ps ps.length), HasDerivWithinAt (fun t => pos t i) (vel t i) (Set.Icc 0 (begins ps ps.length)) t
  speeds : ∀ i, ∀ t ∈ Set.Icc 0 (begins ps ps.length), HasDerivWithinAt (fun t => vel t i) (acc t i) (Set.Icc 0 (begins ps ps.length)) t
  limits : ∀ t ∈ Set.Icc 0 (begins ps ps.length), EndOk m L (vel t) (acc t)
  jerk : ∀ t t', 0 ≤ t → t ≤ t' → t' ≤ begins ps ps.length → ∀ i,
    L.jmin i * (t' - t) ≤ acc t' i - acc t i ∧ acc t' i - acc t i ≤ L.jmax i * (t' - t)
  lines : ∀ (k : ℕ) (p : Piece), ps[k]? = some p → ∀ (b : Block ℝ) (r : Room) (splitLength splitSmall small : ℝ) (number : ℕ),
    p.room = roomSegment r → r ∈ straightRooms vt splitLength splitSmall tol small b number → (b.start.1, b.start.2.1) ≠ (b.stop.1, b.stop.2.1) →
    0 ≤ small → 0 < splitSmall → splitSmall < 1 / 2 → (vt = true → b.start.2.2 = b.stop.2.2) →
    ∀ t ∈ Set.Icc (begins ps k) (begins ps (k + 1)), Verif.Vehicles.Spec.NearLine b.start b.stop (if vt then max tol small else tol) (pos t 0, pos t 1)
  arcs : ∀ (k : ℕ) (p : Piece), ps[k]? = some p → ∀ (cx cy rin rout : ℝ) (a b : ℝ × ℝ × ℝ), p.room = ⟨.ring cx cy rin rout, a, b⟩ → 0 ≤ rout →
    ∀ t ∈ Set.Icc (begins ps k) (begins ps (k + 1)), rin ≤ √((pos t 0 - cx) ^ 2 + (pos t 1 - cy) ^ 2) ∧ √((pos t 0 - cx) ^ 2 + (pos t 1 - cy) ^ 2) ≤ rout
  heights : ∀ (k : ℕ) (p : Piece), ps[k]? = some p → p.room.start.2.2 ≠ p.room.stop.2.2 → ∀ t ∈ Set.Icc (begins ps k) (begins ps (k + 1)),
    min p.room.start.2.2 p.room.stop.2.2 ≤ pos t 2 ∧ pos t 2 ≤ max p.room.start.2.2 p.room.stop.2.2
  stops : vt = true → ∀ (k : ℕ) (p : Piece), ps[k]? = some p →
    |pos (begins ps (k + 1)) 0 - p.room.stop.1| ≤ 9 / 10 * tol ∧ |pos (begins ps (k + 1)) 1 - p.room.stop.2.1| ≤ 9 / 10 * tol

/-! ## Lemmas -/

/-- A function grows at most as fast as its derivative from the left allows. -/
theorem grows_le {f f' : ℝ → ℝ} {a b M : ℝ} (hc : ContinuousOn f (Set.Icc a b)) (hd : ∀ x ∈ Set.Ioc a b, HasDerivWithinAt f (f' x) (Set.Iic x) x)
    (hM : ∀ x ∈ Set.Ioc a b, f' x ≤ M) {x y : ℝ} (hx : a ≤ x) (hxy : x ≤ y) (hy : y ≤ b) : f y - f x ≤ M * (y - x) := by
  have key := image_le_of_deriv_right_le_deriv_boundary (f := fun u => f y - f (y - u)) (f' := fun u => f' (y - u)) (a := 0) (b := y - x)
    (B := fun u => M * u) (B' := fun _ => M) ?_ ?_ (by simp) (by fun_prop) ?_ ?_ (x := y - x) ⟨by linarith, le_rfl⟩
  · simpa using key
  · refine continuousOn_const.sub (hc.comp (by fun_prop) fun u hu => ?_)
    exact ⟨by linarith [hu.2], by linarith [hu.1]⟩
  · intro u hu
    have h := hd (y - u) ⟨by linarith [hu.2], by linarith [hu.1]⟩
    have hsub : HasDerivWithinAt (fun u : ℝ => y - u) (-1) (Set.Ici u) u := by
      simpa using ((hasDerivAt_id u).const_sub y).hasDerivWithinAt
    have := (h.scomp u hsub (t' := Set.Iic (y - u)) fun v hv => by
      have : u ≤ v := hv
      show y - v ≤ y - u
      linarith).const_sub (f y)
    simpa [Function.comp_def] using this
  · intro u _
    simpa using ((hasDerivAt_id u).const_mul M).hasDerivWithinAt
  · intro u hu
    exact hM _ ⟨by linarith [hu.2], by linarith [hu.1]⟩

/-- The same along the way. -/
theorem onWay_grows {α : Type} {T : α → ℝ} {F : α → ℝ → ℝ} {M : ℝ} : ∀ (a : α) (l : List α), (∀ c ∈ a :: l, 0 < T c) →
    (∀ c ∈ a :: l, ∀ x y, 0 ≤ x → x ≤ y → y ≤ T c → F c y - F c x ≤ M * (y - x)) → (a :: l).IsChain (fun c d => F c (T c) = F d 0) →
    ∀ x y, 0 ≤ x → x ≤ y → y ≤ ((a :: l).map T).sum → onWay T F a l y - onWay T F a l x ≤ M * (y - x)
  | a, [], _, hg, _, x, y, h0, h1, h2 => by
    have e : ([a].map T).sum = T a := by simp
    rw [e] at h2
    exact hg a (by simp) x y h0 h1 h2
  | a, b :: l, hT, hg, hc, x, y, h0, h1, h2 => by
    obtain ⟨hj, hc'⟩ := List.isChain_cons_cons.1 hc
    have hT' : ∀ c ∈ b :: l, 0 < T c := fun c h => hT c (List.mem_cons_of_mem _ h)
    have hb := hT b (by simp)
    have ih := onWay_grows b l hT' (fun c h => hg c (List.mem_cons_of_mem _ h)) hc'
    rw [List.map_cons, List.sum_cons] at h2
    rcases le_or_gt y (T a) with hy | hy
    · rw [onWay_left hb hj hy, onWay_left hb hj (h1.trans hy)]
      exact hg a (by simp) x y h0 h1 hy
    · rw [onWay_right hy.le]
      rcases le_or_gt (T a) x with hx | hx
      · rw [onWay_right hx]
        have := ih (x - T a) (y - T a) (by linarith) (by linarith) (by linarith)
        linarith
      · have e := onWay_left (l := l) hb hj (le_refl (T a))
        rw [onWay_right le_rfl, sub_self] at e
        rw [onWay_left hb hj hx.le]
        have i1 := ih 0 (y - T a) le_rfl (by linarith) (by linarith)
        have i2 := hg a (by simp) x (T a) h0 hx.le le_rfl
        rw [e] at i1
        linarith

theorem tool_chain : ∀ (a : Piece) (l : List Piece), (∀ p ∈ a :: l, ∀ i, (p.seg.s i).basis.degree = 3) →
    (∀ r ∈ connection ((a :: l).map Piece.pair), r = 0) →
    (a :: l).IsChain fun f g => ∀ i, ∀ d < 3, ((f.seg.s i).derivative d).eval 1 * g.seg.T ^ d = ((g.seg.s i).derivative d).eval 0 * f.seg.T ^ d
  | a, [], _, _ => by simp
  | a, b :: l, hdeg, h => by
    simp only [List.map_cons, Piece.pair, connection] at h
    refine List.isChain_cons_cons.2 ⟨fun i d hd => ?_, tool_chain b l (fun f hf => hdeg f (List.mem_cons_of_mem _ hf)) fun r hr => ?_⟩
    · have := hdeg a (by simp) i
      refine sub_eq_zero.1 (h _ (List.mem_append_left _ (List.mem_flatMap.2 ⟨(a.seg.s i, b.seg.s i), ?_, ?_⟩)))
      · fin_cases i <;> simp
      · exact List.mem_map.2 ⟨d, List.mem_range.2 (by rw [this]; exact hd), rfl⟩
    · exact h r (List.mem_append_right _ (by simpa [Piece.pair] using hr))

/-- Constraints that are imposed in full hold at every instant of the segment, also at its ends. -/
theorem tool_within {m : VelLimit} {L : ToolLim} {s : Fin 3 → BSpline ℝ} {T x : ℝ} (ht : ∀ i, Traj (s i) 2) (hT : 0 < T)
    (hc : ∀ e ∈ toolVel m L s T ++ toolAcc L s T, Imposes e none 0) (h0 : 0 ≤ x) (h1 : x ≤ 1) :
    EndOk m L (fun i => ((s i).derivative 1).eval x / T) (fun i => ((s i).derivative 2).eval x / T ^ 2) := by
  have hd : ∀ i, 2 ≤ (s i).basis.degree := fun i => (ht i).deg
  have ho : ∀ i, (Expr.spl ((s i).derivative 1)).On 0 1 := fun i => derivative_on (ht i) 1 (by have := hd i; omega)
  have ho2 : ∀ i, (Expr.spl ((s i).derivative 2)).On 0 1 := fun i => derivative_on (ht i) 2 (hd i)
  have le : ∀ e : Expr ℝ, Imposes e none 0 → e.On 0 1 → e.hasSpline → e.val x ≤ 0 := fun e a b c =>
    imposes_le (τ := 0) a b c (fun h => (h rfl).elim) h0 h1 (Or.inl rfl)
  rw [List.forall_mem_append] at hc
  constructor
  · have hc := hc.1
    cases m with
    | machining =>
      unfold toolVel at hc
      refine ⟨fun hz => ?_, fun hz => ?_⟩
      · simp only [hz, ne_eq, not_false_eq_true, if_true, List.forall_mem_cons] at hc
        have := le _ hc.1 ⟨⟨⟨ho 0, ho 0⟩, ho 1, ho 1⟩, trivial⟩ (Or.inl (Or.inl (Or.inl trivial)))
        simp only [Expr.val, Expr.sub, Expr.sq] at this
        rw [div_pow, div_pow, ← add_div, div_le_iff₀ (by positivity)]
        linarith
      · simp only [hz, ne_eq, not_true_eq_false, if_false, List.forall_mem_cons] at hc
        have := le _ hc.1 ⟨⟨ho 2, ho 2⟩, trivial⟩ (Or.inl (Or.inl trivial))
        simp only [Expr.val, Expr.sub, Expr.sq] at this
        refine sq_le_sq.1 ?_
        rw [div_pow, div_le_iff₀ (by positivity)]
        linarith
    | axes =>
      intro i
      simp only [toolVel, List.forall_mem_append, List.forall_mem_map] at hc
      have a1 := le _ (hc.1 i (List.mem_finRange i)) ⟨ho i, trivial⟩ (Or.inl trivial)
      have a2 := le _ (hc.2 i (List.mem_finRange i)) ⟨ho i, trivial⟩ (Or.inl trivial)
      simp only [geC, leC, Expr.val, Expr.sub] at a1 a2
      rw [le_div_iff₀ hT, div_le_iff₀ hT]
      exact ⟨by linarith, by linarith⟩
  · intro i
    have hc := hc.2
    simp only [toolAcc, List.forall_mem_append, List.forall_mem_map] at hc
    have a1 := le _ (hc.1 i (List.mem_finRange i)) ⟨ho2 i, trivial⟩ (Or.inl trivial)
    have a2 := le _ (hc.2 i (List.mem_finRange i)) ⟨ho2 i, trivial⟩ (Or.inl trivial)
    simp only [geC, leC, Expr.val, Expr.sub] at a1 a2
    rw [le_div_iff₀ (by positivity), div_le_iff₀ (by positivity)]
    exact ⟨by linarith, by linarith⟩

/-- What is skipped at the start and at the end holds anyway. -/
theorem plan_full (m : VelLimit) (L : ToolLim) (plan : List ToolSeg) (hg : ∀ g ∈ plan, g.Good) (hp : PlanOk m L plan)
    (hstart : ∀ g, plan.head? = some g → EndOk m L (g.vel 0) (g.acc 0))
    (hend : ∀ g, plan.getLast? = some g → (∀ i, g.vel 1 i = 0) ∧ ∀ i, g.acc 1 i = 0)
    (hv : m = .axes → ∀ i, L.vmin i ≤ 0 ∧ 0 ≤ L.vmax i) (ha : ∀ i, L.amin i ≤ 0 ∧ 0 ≤ L.amax i) :
    ∀ g ∈ plan, ∀ e ∈ toolVel m L g.s g.T ++ toolAcc L g.s g.T, Imposes e none 0 := by
  intro g hm
  obtain ⟨k, hk, rfl⟩ := List.getElem_of_mem hm
  have hG := hg _ hm
  have ht : ∀ i, Traj (plan[k].s i) 2 := fun i => (hG.1 i).1
  have hc := hp k hk
  unfold segSkip at hc
  by_cases hk0 : k = 0
  · subst hk0
    rw [if_pos rfl] at hc
    exact tool_full ht hG.2 hc.1 (Or.inl ⟨rfl, rfl⟩) (hstart plan[0] (by rw [List.head?_eq_getElem?, List.getElem?_eq_getElem hk]))
  · rw [if_neg hk0] at hc
    by_cases hl : k + 1 = plan.length
    · rw [if_pos hl] at hc
      refine tool_full ht hG.2 hc.1 (Or.inr ⟨rfl, rfl⟩) ?_
      obtain ⟨e1, e2⟩ := hend plan[k] (by rw [List.getLast?_eq_getElem?, ← hl, Nat.add_sub_cancel, List.getElem?_eq_getElem hk])
      have f1 : (fun i => ((plan[k].s i).derivative 1).eval 1 / plan[k].T) = fun _ => 0 := funext e1
      have f2 : (fun i => ((plan[k].s i).derivative 2).eval 1 / plan[k].T ^ 2) = fun _ => 0 := funext e2
      rw [f1, f2]
      refine ⟨?_, ha⟩
      cases m with
      | machining => exact ⟨fun _ => by norm_num; positivity, fun _ => by rw [abs_zero]; exact abs_nonneg _⟩
      | axes => exact hv rfl
    · rw [if_neg hl] at hc
      exact hc.1

/-- The acceleration during a segment. -/
noncomputable def segAcc (i : Fin 3) (g : ToolSeg) (r : ℝ) : ℝ := ((g.s i).derivative 2).eval (r / g.T) / g.T ^ 2

theorem segAcc_cont {g : ToolSeg} (hg : g.Good) (i : Fin 3) : ContinuousOn (segAcc i g) (Set.Icc 0 g.T) := by
  have tr : Traj ((g.s i).derivative 2) 0 := Traj.iterate (n := 2) (m := 0) (hg.1 i).1
  have dg : ((g.s i).derivative 2).basis.degree = 1 := by
    rw [(clamped_derivative (hg.1 i).1.clamped (hg.1 i).1.wf 2 (by rw [(hg.1 i).2]; omega)).2.2.1, (hg.1 i).2]
  refine ContinuousOn.div_const ?_ _
  refine (tr.trajOn.continuousOn (by rw [dg])).comp (continuous_id.div_const _).continuousOn fun r hr => ?_
  exact ⟨div_nonneg hr.1 hg.2.le, (div_le_one hg.2).2 hr.2⟩

theorem segAcc_jerk {L : ToolLim} {g : ToolSeg} (hg : g.Good) (hc : ∀ e ∈ toolJerk L g.s g.T, Imposes e none 0) (i : Fin 3) :
    ∀ x y, 0 ≤ x → x ≤ y → y ≤ g.T → segAcc i g y - segAcc i g x ≤ L.jmax i * (y - x) ∧
      -segAcc i g y - -segAcc i g x ≤ -L.jmin i * (y - x) := by
  intro x y h0 h1 h2
  have hT := hg.2
  have h := (hg.1 i).1
  have hd := (hg.1 i).2
  obtain ⟨g1, g2, g3, g4, g5⟩ := clamped_derivative h.clamped h.wf 2 (by omega)
  obtain ⟨-, -, o1, o2⟩ := derivative_on h 2 (by omega)
  rw [headD_eq_k g1] at o1
  rw [getLastD_eq_k g1] at o2
  have left : ∀ r ∈ Set.Ioc 0 g.T, HasDerivWithinAt (segAcc i g) (((g.s i).derivative 3).eval (r / g.T) / g.T ^ 3) (Set.Iic r) r := by
    intro r hr
    have hl := hasDerivWithinAt_left g1 g2 (by rw [g3]; omega) (x := r / g.T) (by rw [o1]; exact div_pos hr.1 hT)
      (by rw [o2]; exact (div_le_one hT).2 hr.2)
    have hdiv : HasDerivWithinAt (fun u : ℝ => u / g.T) (1 / g.T) (Set.Iic r) r := ((hasDerivAt_id r).div_const g.T).hasDerivWithinAt
    have := (hl.scomp r hdiv (t' := Set.Iic (r / g.T)) fun v hv => by
      have : v ≤ r := hv
      show v / g.T ≤ r / g.T
      gcongr).div_const (g.T ^ 2)
    rw [← derivative_succ] at this
    refine this.congr_deriv ?_
    simp only [smul_eq_mul]
    field_simp
  have bound : ∀ r ∈ Set.Ioc 0 g.T, L.jmin i ≤ ((g.s i).derivative 3).eval (r / g.T) / g.T ^ 3 ∧
      ((g.s i).derivative 3).eval (r / g.T) / g.T ^ 3 ≤ L.jmax i := by
    intro r hr
    simp only [toolJerk, List.forall_mem_append, List.forall_mem_map] at hc
    have x0 : 0 ≤ r / g.T := div_nonneg hr.1.le hT.le
    have x1 : r / g.T ≤ 1 := (div_le_one hT).2 hr.2
    have a1 := imposes_le (τ := 0) (hc.1 i (List.mem_finRange i)) ⟨derivative_on h 3 (by omega), trivial⟩ (Or.inl trivial)
      (fun h => (h rfl).elim) x0 x1 (Or.inl rfl)
    have a2 := imposes_le (τ := 0) (hc.2 i (List.mem_finRange i)) ⟨derivative_on h 3 (by omega), trivial⟩ (Or.inl trivial)
      (fun h => (h rfl).elim) x0 x1 (Or.inl rfl)
    simp only [geC, leC, Expr.val, Expr.sub] at a1 a2
    rw [le_div_iff₀ (by positivity), div_le_iff₀ (by positivity)]
    exact ⟨by linarith, by linarith⟩
  constructor
  · exact grows_le (segAcc_cont hg i) left (fun r hr => (bound r hr).2) h0 h1 h2
  · exact grows_le (f := fun r => -segAcc i g r) (segAcc_cont hg i).neg (fun r hr => (left r hr).neg) (fun r hr => neg_le_neg (bound r hr).1) h0 h1 h2

/-! ## The property -/

/-- **C179** A plan of the machine tool that meets all constraints, for any number of segments: the motion along the segments, one after the other, never jumps
in position, velocity or acceleration; velocity and acceleration are within their limits at every instant, and the acceleration changes no faster than the
limits on the jerk allow between any two instants, also across the joints; during each segment the tool is within tolerance of the line of its block, or
between the radii of its ring, and at the height of the block where this is constrained; the tool starts in the given state and ends in standstill in the
goal. -/
theorem C179_machining_partial (m : VelLimit) (L : ToolLim) (vt : Bool) (tol : ℝ) (htol : 0 ≤ tol) (start : Holo 3) (goal : Fin 3 → ℝ)
    (first : Piece) (more : List Piece) (solved : SolvesTool m L vt tol start goal first more) (hT : ∀ p ∈ first :: more, p.seg.T ≠ 0)
    (inside : EndOk m L start.input start.dinput) (hv : m = .axes → ∀ i, L.vmin i ≤ 0 ∧ 0 ≤ L.vmax i) (ha : ∀ i, L.amin i ≤ 0 ∧ 0 ≤ L.amax i) :
    ∃ pos vel acc : ℝ → Fin 3 → ℝ, Spec.Machines m L vt tol (first :: more) pos vel acc ∧
      pos 0 = start.state ∧ vel 0 = start.input ∧ acc 0 = start.dinput ∧
      pos (Spec.begins (first :: more) (more.length + 1)) = goal ∧ vel (Spec.begins (first :: more) (more.length + 1)) = (fun _ => 0) ∧
      acc (Spec.begins (first :: more) (more.length + 1)) = fun _ => 0 := by
  have good : ∀ p ∈ first :: more, p.seg.Good := fun p hp =>
    ⟨solved.form p hp, lt_of_le_of_ne (by have := solved.positive p hp; linarith) (Ne.symm (hT p hp))⟩
  have pT : ∀ p ∈ first :: more, 0 < p.seg.T := fun p hp => (good p hp).2
  have hx : ∀ p ∈ first :: more, ∀ i, Traj (p.seg.s i) 2 := fun p hp i => (solved.form p hp i).1
  have chain := tool_chain first more (fun f hf i => (solved.form f hf i).2) solved.joints
  let P : Fin 3 → Piece → ℝ → ℝ := fun i p r => (p.seg.s i).eval (r / p.seg.T)
  let V : Fin 3 → Piece → ℝ → ℝ := fun i p r => ((p.seg.s i).derivative 1).eval (r / p.seg.T) / p.seg.T
  let A : Fin 3 → Piece → ℝ → ℝ := fun i p => segAcc i p.seg
  let T : Piece → ℝ := fun p => p.seg.T
  have hjoin : ∀ i, (first :: more).IsChain (fun f g => P i f (T f) = P i g 0 ∧ V i f (T f) = V i g 0 ∧ A i f (T f) = A i g 0) := by
    intro i
    rw [List.isChain_iff_getElem] at chain ⊢
    intro k hk
    have h := chain k hk i
    have p1 := pT _ (List.getElem_mem (show k < (first :: more).length by omega))
    have p2 := pT _ (List.getElem_mem hk)
    simp only [P, V, A, T, segAcc]
    set f := (first :: more)[k]
    set g := (first :: more)[k + 1]
    have e0 := h 0 (by omega)
    have e1 := h 1 (by omega)
    have e2 := h 2 (by omega)
    have d0 : ∀ s : BSpline ℝ, s.derivative 0 = s := fun s => by unfold BSpline.derivative; rw [if_pos rfl]
    rw [d0, d0, pow_zero, pow_zero, mul_one, mul_one] at e0
    rw [pow_one, pow_one] at e1
    rw [div_self p1.ne', zero_div]
    refine ⟨e0, ?_, ?_⟩
    · rw [div_eq_div_iff p1.ne' p2.ne', e1]
    · rw [div_eq_div_iff (pow_ne_zero 2 p1.ne') (pow_ne_zero 2 p2.ne'), e2]
  have j0 := fun i => (hjoin i).imp fun _ _ h => h.1
  have j1 := fun i => (hjoin i).imp fun _ _ h => h.2.1
  have j2 := fun i => (hjoin i).imp fun _ _ h => h.2.2
  have enter_eq : Spec.begins (first :: more) (first :: more).length = ((first :: more).map T).sum := by
    unfold Spec.begins; rw [List.take_length]
  have hlen : more.length + 1 = (first :: more).length := rfl
  have at0 : ∀ i (k : ℕ) (p : Piece) (r : ℝ), (first :: more)[k]? = some p → 0 ≤ r → r ≤ p.seg.T →
      onWay T (P i) first more (Spec.begins (first :: more) k + r) = P i p r := fun i => onWay_at (T := T) (F := P i) first more pT (j0 i)
  have at1 : ∀ i (k : ℕ) (p : Piece) (r : ℝ), (first :: more)[k]? = some p → 0 ≤ r → r ≤ p.seg.T →
      onWay T (V i) first more (Spec.begins (first :: more) k + r) = V i p r := fun i => onWay_at (T := T) (F := V i) first more pT (j1 i)
  have at2 : ∀ i (k : ℕ) (p : Piece) (r : ℝ), (first :: more)[k]? = some p → 0 ≤ r → r ≤ p.seg.T →
      onWay T (A i) first more (Spec.begins (first :: more) k + r) = A i p r := fun i => onWay_at (T := T) (F := A i) first more pT (j2 i)
  have cases : ∀ t ∈ Set.Icc 0 (Spec.begins (first :: more) (first :: more).length),
      ∃ (k : ℕ) (p : Piece) (r : ℝ), (first :: more)[k]? = some p ∧ t = Spec.begins (first :: more) k + r ∧ 0 ≤ r ∧ r ≤ p.seg.T := fun t ht => by
    rw [enter_eq] at ht
    exact way_cases (T := T) first more t ht.1 ht.2
  have enter_succ : ∀ (k : ℕ) (p : Piece), (first :: more)[k]? = some p → Spec.begins (first :: more) (k + 1) = Spec.begins (first :: more) k + p.seg.T :=
    fun k f hf => by
      obtain ⟨hk, e⟩ := List.getElem?_eq_some_iff.1 hf
      unfold Spec.begins
      rw [List.take_succ_eq_append_getElem hk, e]
      simp
  have within : ∀ (k : ℕ) (p : Piece), (first :: more)[k]? = some p → ∀ t ∈ Set.Icc (Spec.begins (first :: more) k) (Spec.begins (first :: more) (k + 1)),
      ∃ r, 0 ≤ r ∧ r ≤ p.seg.T ∧ t = Spec.begins (first :: more) k + r := fun k f hf t ht => by
    rw [enter_succ k f hf] at ht
    exact ⟨t - Spec.begins (first :: more) k, by linarith [ht.1], by linarith [ht.2], by ring⟩
  have signals : ∀ p ∈ first :: more, ∀ t, holoSignals (fun j => (p.seg.s j).scale p.seg.T 0) t = ⟨fun i => P i p t, fun i => V i p t, fun i => A i p t⟩ := by
    intro p hp t
    unfold holoSignals
    congr 1 <;> funext i
    · exact (hx p hp i).sig0 (pT p hp) t
    · exact Traj.sig1 (n := 1) (hx p hp i) (pT p hp) t
    · exact Traj.sig2 (n := 0) (hx p hp i) (pT p hp) t
  -- start and end
  have e_start : (0 : ℝ) = Spec.begins (first :: more) 0 + 0 := by simp [Spec.begins]
  have hs := C122_tool first.seg.s (hx first (by simp)) start first.seg.T (pT first (by simp)) 0 solved.starts
  rw [signals first (by simp)] at hs
  set last := (first :: more).getLast (List.cons_ne_nil _ _) with hlastdef
  have hlast : (first :: more)[more.length]? = some last := by
    rw [hlastdef, List.getLast_eq_getElem, List.getElem?_eq_getElem (by simp)]
    simp
  have hmem : last ∈ first :: more := List.getLast_mem _
  have e_end := enter_succ more.length last hlast
  have he := C123_holonomic _ (hx last hmem) goal 2 le_rfl _ (pT last hmem) (Or.inl solved.ends)
  rw [signals last hmem] at he
  -- the limits
  have full := plan_full m L ((first :: more).map Piece.seg) (by
      intro g hg
      obtain ⟨p, hp, rfl⟩ := List.mem_map.1 hg
      exact good p hp) solved.limits
    (by
      intro g hg
      simp only [List.map_cons, List.head?_cons, Option.some.injEq] at hg
      subst hg
      have e1 : first.seg.vel 0 = start.input := by rw [← hs]; funext i; simp [V, ToolSeg.vel]
      have e2 : first.seg.acc 0 = start.dinput := by rw [← hs]; funext i; simp [A, segAcc, ToolSeg.acc]
      rw [e1, e2]
      exact inside)
    (by
      intro g hg
      rw [List.getLast?_map, List.getLast?_eq_some_getLast (List.cons_ne_nil _ _), Option.map_some, Option.some.injEq] at hg
      rw [← hlastdef] at hg
      subst hg
      have e1 := congrArg Holo.input he
      have e2 := congrArg Holo.dinput he
      refine ⟨fun i => ?_, fun i => ?_⟩
      · have := congrFun e1 i
        simp only [V, div_self (pT last hmem).ne'] at this
        exact this
      · have := congrFun e2 i
        simp only [A, segAcc, div_self (pT last hmem).ne'] at this
        exact this) hv ha
  have jerk : ∀ p ∈ first :: more, ∀ e ∈ toolJerk L p.seg.s p.seg.T, Imposes e none 0 := by
    intro p hp
    obtain ⟨k, hk, rfl⟩ := List.getElem_of_mem hp
    have := (solved.limits k (by simpa using hk)).2
    rw [List.getElem_map] at this
    exact this
  have line : ∀ (k : ℕ) (p : Piece) (r : ℝ), (first :: more)[k]? = some p → 0 ≤ r → r ≤ p.seg.T →
      (onWay T (P 0) first more (Spec.begins (first :: more) k + r), onWay T (P 1) first more (Spec.begins (first :: more) k + r)) =
        planePos p.seg.s p.seg.T r := fun k p r hk h0 h1 => by
    rw [at0 0 k p r hk h0 h1, at0 1 k p r hk h0 h1]
    rfl
  refine ⟨fun t i => onWay T (P i) first more t, fun t i => onWay T (V i) first more t, fun t i => onWay T (A i) first more t,
    ⟨?_, ?_, ?_, ?_, ?_, ?_, ?_, ?_, ?_⟩, ?_, ?_, ?_, ?_, ?_, ?_⟩
  · intro k p hk r hr i
    exact at0 i k p r hk hr.1 hr.2
  · intro i t ht
    rw [enter_eq] at ht ⊢
    exact onWay_deriv (T := T) (F := P i) (G := V i) first more pT
      (fun p hp r hr => GCode.RingGuess.phys_within (m := 1) (hx p hp i) (pT p hp) hr) ((hjoin i).imp fun _ _ h => ⟨h.1, h.2.1⟩) t ht
  · intro i t ht
    rw [enter_eq] at ht ⊢
    refine onWay_deriv (T := T) (F := V i) (G := A i) first more pT (fun p hp r hr => ?_) ((hjoin i).imp fun _ _ h => ⟨h.2.1, h.2.2⟩) t ht
    have := (GCode.RingGuess.phys_within (m := 0) (hx p hp i).succ (pT p hp) hr).div_const p.seg.T
    simp only [A, segAcc]
    rw [derivative_succ, pow_two, ← div_div]
    exact this
  · intro t ht
    obtain ⟨k, p, r, hk, rfl, h0, h1⟩ := cases t ht
    have hp := List.mem_of_getElem? hk
    have e1 : (fun i => onWay T (V i) first more (Spec.begins (first :: more) k + r)) = fun i => V i p r := funext fun i => at1 i k p r hk h0 h1
    have e2 : (fun i => onWay T (A i) first more (Spec.begins (first :: more) k + r)) = fun i => A i p r := funext fun i => at2 i k p r hk h0 h1
    rw [e1, e2]
    exact tool_within (hx p hp) (pT p hp) (full p.seg (List.mem_map_of_mem hp)) (div_nonneg h0 (pT p hp).le) ((div_le_one (pT p hp)).2 h1)
  · intro t t' h0 h1 h2 i
    rw [enter_eq] at h2
    have u := onWay_grows (T := T) (F := A i) (M := L.jmax i) first more pT
      (fun p hp x y x0 xy yT => (segAcc_jerk (good p hp) (jerk p hp) i x y x0 xy yT).1) (j2 i) t t' h0 h1 h2
    have l : -onWay T (A i) first more t' - -onWay T (A i) first more t ≤ -L.jmin i * (t' - t) :=
      onWay_grows (T := T) (F := fun p r => -A i p r) (M := -L.jmin i) first more pT
        (fun p hp x y x0 xy yT => (segAcc_jerk (good p hp) (jerk p hp) i x y x0 xy yT).2) ((j2 i).imp fun _ _ h => by rw [h]) t t' h0 h1 h2
    exact ⟨by linarith, u⟩
  · intro k p hk b r splitLength splitSmall small number hr hmem' hne hsm h1' h2' hz t ht
    obtain ⟨ρ, h0, h1, rfl⟩ := within k p hk t ht
    have hp := List.mem_of_getElem? hk
    have := line k p ρ hk h0 h1
    show Verif.Vehicles.Spec.NearLine _ _ _ (onWay _ _ _ _ _, onWay _ _ _ _ _)
    rw [this]
    exact C135_line_partial vt splitLength splitSmall tol small b number htol hsm hne h1' h2' hz r hmem' p.seg.s (hx p hp)
      (hr ▸ solved.rooms p hp) p.seg.T ρ (pT p hp) h0 h1
  · intro k p hk cx cy rin rout a b hr hout t ht
    obtain ⟨ρ, h0, h1, rfl⟩ := within k p hk t ht
    have hp := List.mem_of_getElem? hk
    have := C135_arc_partial cx cy rin rout hout a b vt tol p.seg.s (hx p hp) (hr ▸ solved.rooms p hp) p.seg.T ρ (pT p hp) h0 h1
    rw [← line k p ρ hk h0 h1] at this
    exact this
  · intro k p hk hz t ht
    obtain ⟨ρ, h0, h1, rfl⟩ := within k p hk t ht
    have hp := List.mem_of_getElem? hk
    have := C135_height_partial p.room hz vt tol p.seg.s (hx p hp) (solved.rooms p hp) p.seg.T ρ (pT p hp) h0 h1
    show _ ≤ onWay _ _ _ _ _ ∧ onWay _ _ _ _ _ ≤ _
    rw [at0 2 k p ρ hk h0 h1]
    exact this
  · intro hvt k p hk
    have hp := List.mem_of_getElem? hk
    subst hvt
    have := C135_end p.room tol p.seg.s (solved.rooms p hp) p.seg.T (pT p hp)
    rw [← line k p _ hk (pT p hp).le le_rfl, ← enter_succ k p hk] at this
    exact this
  · funext i
    show onWay _ _ _ _ _ = _
    rw [e_start, at0 i 0 first 0 rfl le_rfl (pT first (by simp)).le, ← hs]
  · funext i
    show onWay _ _ _ _ _ = _
    rw [e_start, at1 i 0 first 0 rfl le_rfl (pT first (by simp)).le, ← hs]
  · funext i
    show onWay _ _ _ _ _ = _
    rw [e_start, at2 i 0 first 0 rfl le_rfl (pT first (by simp)).le, ← hs]
  · funext i
    show onWay _ _ _ _ _ = _
    rw [e_end, at0 i _ last _ hlast (pT _ hmem).le le_rfl]
    exact congrFun (congrArg Holo.state he) i
  · funext i
    show onWay _ _ _ _ _ = _
    rw [e_end, at1 i _ last _ hlast (pT _ hmem).le le_rfl]
    exact congrFun (congrArg Holo.input he) i
  · funext i
    show onWay _ _ _ _ _ = _
    rw [e_end, at2 i _ last _ hlast (pT _ hmem).le le_rfl]
    exact congrFun (congrArg Holo.dinput he) i

/-! ## An example: the tool brakes on a diagonal block and waits in the ring of the arc that follows -/

/-- Waiting in `(1, 1, 0)` for three seconds. -/
noncomputable def waitSeg : ToolSeg := ⟨![bump 1 1 1, bump 1 1 1, bump 0 0 0], 3⟩

theorem wait_d (c : ℝ) : (bump c c c).derivative 1 = ⟨Bz 2, [0, 0, 0]⟩ ∧ (bump c c c).derivative 2 = ⟨Bz 1, [0, 0]⟩ ∧ (bump c c c).derivative 3 = ⟨Bz 0, [0]⟩ := by
  have d1 : (bump c c c).derivative 1 = ⟨Bz 2, [0, 0, 0]⟩ := by unfold bump; rw [Bz_derivative rfl]; norm_num [List.range_succ]
  have d2 : (bump c c c).derivative 2 = ⟨Bz 1, [0, 0]⟩ := by rw [derivative_succ, d1, Bz_derivative rfl]; norm_num [List.range_succ]
  exact ⟨d1, d2, by rw [derivative_succ, d2, Bz_derivative rfl]; norm_num [List.range_succ]⟩

theorem waitSeg_d (i : Fin 3) : (waitSeg.s i).derivative 1 = ⟨Bz 2, [0, 0, 0]⟩ ∧ (waitSeg.s i).derivative 2 = ⟨Bz 1, [0, 0]⟩ ∧
    (waitSeg.s i).derivative 3 = ⟨Bz 0, [0]⟩ := by
  fin_cases i <;> exact wait_d _

noncomputable def brakePiece : Piece := ⟨roomSegment (singleRoom (1 / 10) (diagBlock 0) 0), brakeSeg⟩

noncomputable def waitPiece : Piece := ⟨⟨.ring 1 0 (9 / 10) (11 / 10), (1, 1, 0), (2, 0, 0)⟩, waitSeg⟩

theorem waitSeg_ok (n k : ℕ) : ToolOk .machining (toolLim fun _ => none) waitSeg.s waitSeg.T (segSkip n k) := by
  have k2 : ∀ i, (toolLim fun _ => none).amin i = -1 ∧ (toolLim fun _ => none).amax i = 1 ∧ (toolLim fun _ => none).jmin i = -2 ∧
      (toolLim fun _ => none).jmax i = 2 := by
    intro i; fin_cases i <;> simp [toolLim, holoLim]
  have k0 : (toolLim fun _ => none).vmax 0 = 1 / 2 := by simp [toolLim, holoLim]
  have hT : waitSeg.T = 3 := rfl
  refine ⟨fun e he => imposes_skip ?_ _ _, fun e he => imposes_none.2 ?_⟩
  · rcases List.mem_append.1 he with he | he
    · have hz : (toolLim fun _ => none).vmax 0 ≠ 0 := by rw [k0]; norm_num
      unfold toolVel at he
      simp only at he
      rw [if_pos hz] at he
      simp only [List.mem_singleton, (waitSeg_d _).1, hT, k0] at he
      subst he
      refine Expr.AllBz.imposed (D := 4) ?_ rfl (by norm_num) [-9 / 4, -9 / 4, -9 / 4, -9 / 4, -9 / 4] (fun x h0 h1 => ?_) fun i hi => ?_
      · exact ⟨⟨⟨⟨rfl, rfl⟩, rfl, rfl⟩, ⟨rfl, rfl⟩, rfl, rfl⟩, trivial⟩
      · simp only [Expr.val, Expr.sub, Expr.sq]
        rw [Bz_eval (p := 2) rfl h0 h1]
        simp only [Finset.sum_range_succ, Finset.range_zero, Finset.sum_empty, bern]
        norm_num [Nat.choose]
        ring
      · have : i = 0 ∨ i = 1 ∨ i = 2 ∨ i = 3 ∨ i = 4 := by omega
        rcases this with rfl | rfl | rfl | rfl | rfl <;> norm_num
    · simp only [toolAcc, List.mem_append, List.mem_map, List.mem_finRange, true_and, (k2 _).1, (k2 _).2.1, (waitSeg_d _).2.1, hT] at he
      rcases he with ⟨i, rfl⟩ | ⟨i, rfl⟩
      · exact geC_imposed (by norm_num)
      · exact leC_imposed (by norm_num)
  · simp only [toolJerk, List.mem_append, List.mem_map, List.mem_finRange, true_and, (k2 _).2.2.1, (k2 _).2.2.2, (waitSeg_d _).2.2, hT] at he
    rcases he with ⟨i, rfl⟩ | ⟨i, rfl⟩
    · exact geC_imposed (by norm_num)
    · exact leC_imposed (by norm_num)

theorem waitPiece_ok : RoomOk waitPiece.room waitPiece.seg.s false (1 / 10) := by
  have ev : ∀ c x : ℝ, 0 ≤ x → x ≤ 1 → (bump c c c).eval x = c := by
    intro c x h0 h1
    rw [bump_eval _ _ _ h0 h1]; ring
  refine ⟨fun e he => ?_, by simp⟩
  rcases List.mem_append.1 he with he | he
  · simp only [waitPiece, waitSeg, planeC, List.mem_cons, List.not_mem_nil, or_false, Matrix.cons_val_zero, Matrix.cons_val_one] at he
    have ab : ∀ c, (Expr.spl (bump c c c)).AllBz := fun c => ⟨rfl, rfl⟩
    rcases he with rfl | rfl
    · refine Expr.AllBz.imposed_pow (D := 6) (by simp only [Expr.AllBz, Expr.sub, Expr.sq]; exact ⟨⟨⟨⟨ab _, trivial⟩, ab _, trivial⟩, ⟨ab _, trivial⟩, ab _, trivial⟩, trivial⟩) rfl (by norm_num)
        (fun j => if j = 0 then -19 / 100 else 0) (fun x h0 h1 => ?_) fun w w0 w1 w2 => ?_
      · simp only [Expr.val, Expr.sub, Expr.sq, ev _ _ h0 h1]
        simp only [Finset.sum_range_succ, Finset.range_zero, Finset.sum_empty]
        norm_num
      · simp only [Finset.sum_range_succ, Finset.range_zero, Finset.sum_empty]
        norm_num [w0]
    · refine Expr.AllBz.imposed_pow (D := 6) (by simp only [Expr.AllBz, Expr.sub, Expr.sq]; exact ⟨⟨⟨⟨ab _, trivial⟩, ab _, trivial⟩, ⟨ab _, trivial⟩, ab _, trivial⟩, trivial⟩) rfl (by norm_num)
        (fun j => if j = 0 then -21 / 100 else 0) (fun x h0 h1 => ?_) fun w w0 w1 w2 => ?_
      · simp only [Expr.val, Expr.sub, Expr.sq, ev _ _ h0 h1]
        simp only [Finset.sum_range_succ, Finset.range_zero, Finset.sum_empty]
        norm_num
      · simp only [Finset.sum_range_succ, Finset.range_zero, Finset.sum_empty]
        norm_num [w0]
  · simp [heightC, waitPiece] at he

/-- The state in which the tool starts: on its way along the diagonal, braking. -/
noncomputable def braking : Holo 3 := ⟨fun _ => 0, ![3 / 10, 3 / 10, 0], ![-6 / 100, -6 / 100, 0]⟩

theorem brake_ev (i : Fin 3) : (brakeSeg.s i).eval 0 = 0 ∧ (brakeSeg.s i).eval 1 = ![1, 1, 0] i ∧
    ((brakeSeg.s i).derivative 1).eval 0 = ![3, 3, 0] i ∧ ((brakeSeg.s i).derivative 1).eval 1 = 0 ∧
    ((brakeSeg.s i).derivative 2).eval 0 = ![-6, -6, 0] i ∧ ((brakeSeg.s i).derivative 2).eval 1 = 0 := by
  rw [(brakeSeg_d i).1, (brakeSeg_d i).2.1, Bz_eval rfl le_rfl zero_le_one, Bz_eval rfl zero_le_one le_rfl, Bz_eval rfl le_rfl zero_le_one,
    Bz_eval rfl zero_le_one le_rfl]
  refine ⟨?_, ?_, ?_⟩
  · fin_cases i
    · show brake.eval 0 = 0
      unfold brake; rw [Bz_eval rfl le_rfl zero_le_one]; simp [Finset.sum_range_succ, bern]
    · show brake.eval 0 = 0
      unfold brake; rw [Bz_eval rfl le_rfl zero_le_one]; simp [Finset.sum_range_succ, bern]
    · show (line3 0).eval 0 = 0
      unfold line3; rw [Bz_eval rfl le_rfl zero_le_one]; simp [Finset.sum_range_succ, bern]
  · fin_cases i
    · show brake.eval 1 = 1
      unfold brake; rw [Bz_eval rfl zero_le_one le_rfl]; simp [Finset.sum_range_succ, bern]
    · show brake.eval 1 = 1
      unfold brake; rw [Bz_eval rfl zero_le_one le_rfl]; simp [Finset.sum_range_succ, bern]
    · show (line3 0).eval 1 = 0
      unfold line3; rw [Bz_eval rfl zero_le_one le_rfl]; simp [Finset.sum_range_succ, bern]
  · fin_cases i <;> simp [Finset.sum_range_succ, bern]

theorem wait_ev (i : Fin 3) (x : ℝ) (h0 : 0 ≤ x) (h1 : x ≤ 1) : (waitSeg.s i).eval x = ![1, 1, 0] i ∧
    ((waitSeg.s i).derivative 1).eval x = 0 ∧ ((waitSeg.s i).derivative 2).eval x = 0 := by
  rw [(waitSeg_d i).1, (waitSeg_d i).2.1, Bz_eval rfl h0 h1, Bz_eval rfl h0 h1]
  refine ⟨?_, by simp [Finset.sum_range_succ], by simp [Finset.sum_range_succ]⟩
  fin_cases i
  · show (bump 1 1 1).eval x = 1
    rw [bump_eval _ _ _ h0 h1]; ring
  · show (bump 1 1 1).eval x = 1
    rw [bump_eval _ _ _ h0 h1]; ring
  · show (bump 0 0 0).eval x = 0
    rw [bump_eval _ _ _ h0 h1]; ring

theorem braking_solves : SolvesTool .machining (toolLim fun _ => none) false (1 / 10) braking ![1, 1, 0] brakePiece [waitPiece] where
  positive := by
    intro p hp
    simp only [List.mem_cons, List.not_mem_nil, or_false] at hp
    rcases hp with rfl | rfl <;> norm_num [brakePiece, waitPiece, brakeSeg, waitSeg]
  form := by
    intro p hp i
    simp only [List.mem_cons, List.not_mem_nil, or_false] at hp
    rcases hp with rfl | rfl
    · exact brakeSeg_good.1 i
    · fin_cases i <;> exact ⟨bump_traj _ _ _, rfl⟩
  limits := by
    intro k hk
    have hk' : k < 2 := by simpa using hk
    interval_cases k
    · exact brakeSeg_ok 2 0 (by simp)
    · exact waitSeg_ok _ _
  rooms := by
    intro p hp
    simp only [List.mem_cons, List.not_mem_nil, or_false] at hp
    rcases hp with rfl | rfl
    · refine ⟨(diag_ok 1 0 (line3 0) (by simp)).1, by simp⟩
    · exact waitPiece_ok
  starts := by
    intro c hc
    simp only [zero_div]
    simp only [toolInit, holoInit, List.mem_append, List.mem_ofFn] at hc
    have hT : brakePiece.seg.T = 10 := rfl
    have h := brake_ev
    rcases hc with (⟨i, rfl⟩ | ⟨i, rfl⟩) | ⟨i, rfl⟩
    · exact (h i).1
    · refine (h i).2.2.1.trans ?_
      rw [hT]; fin_cases i <;> norm_num [braking]
    · refine (h i).2.2.2.2.1.trans ?_
      rw [hT]; fin_cases i <;> norm_num [braking]
  ends := by
    intro c hc
    simp only [imposedFree, holoTerm, List.mem_append, List.mem_ofFn, List.mem_flatMap, List.mem_range, Bool.false_eq_true, if_false] at hc
    rcases hc with ⟨i, rfl⟩ | ⟨d, hd, i, rfl⟩
    · exact (wait_ev i 1 zero_le_one le_rfl).1
    · interval_cases d
      · exact (wait_ev i 1 zero_le_one le_rfl).2.1
      · exact (wait_ev i 1 zero_le_one le_rfl).2.2
  joints := by
    have d0 : ∀ s : BSpline ℝ, s.derivative 0 = s := fun s => by unfold BSpline.derivative; rw [if_pos rfl]
    have a := brake_ev
    have b := fun i => wait_ev i 0 le_rfl zero_le_one
    have hdeg : ∀ i, (brakeSeg.s i).basis.degree = 3 := fun i => (brakeSeg_good.1 i).2
    intro r hr
    simp only [List.map_cons, List.map_nil, Piece.pair, brakePiece, waitPiece, connection, List.append_nil, List.mem_flatMap,
      List.zip_cons_cons, List.zip_nil_left, List.mem_cons, List.not_mem_nil, or_false] at hr
    obtain ⟨q, hq, hr⟩ := hr
    obtain ⟨d, hd, rfl⟩ := List.mem_map.1 hr
    rw [List.mem_range] at hd
    have key : ∀ i, q = (brakeSeg.s i, waitSeg.s i) → (q.1.derivative d).eval 1 * waitSeg.T ^ d - (q.2.derivative d).eval 0 * brakeSeg.T ^ d = 0 := by
      rintro i rfl
      have hd' : d < 3 := by rw [← hdeg i]; exact hd
      interval_cases d
      · rw [d0, d0, (a i).2.1, (b i).1]; ring
      · rw [(a i).2.2.2.1, (b i).2.1]; ring
      · rw [(a i).2.2.2.2.2, (b i).2.2]; ring
    rcases hq with h | h | h
    · exact key 0 h
    · exact key 1 h
    · exact key 2 h

/-- The tool is within tolerance of the diagonal after seven seconds, and between the radii of the ring after twelve. -/
example : ∃ pos vel acc : ℝ → Fin 3 → ℝ, Spec.Machines .machining (toolLim fun _ => none) false (1 / 10) [brakePiece, waitPiece] pos vel acc ∧
    vel 0 = ![3 / 10, 3 / 10, 0] ∧ pos 13 = ![1, 1, 0] ∧ |acc 7 0 - acc 6 0| ≤ 2 ∧
    Verif.Vehicles.Spec.NearLine (0, 0, 0) (1, 1, 0) (1 / 10) (pos 7 0, pos 7 1) ∧ √((pos 12 0 - 1) ^ 2 + (pos 12 1 - 0) ^ 2) ≤ 11 / 10 := by
  have total : Spec.begins [brakePiece, waitPiece] 2 = 13 := by norm_num [Spec.begins, brakePiece, waitPiece, brakeSeg, waitSeg]
  have one : Spec.begins [brakePiece, waitPiece] 1 = 10 := by norm_num [Spec.begins, brakePiece, waitPiece, brakeSeg, waitSeg]
  have zero : Spec.begins [brakePiece, waitPiece] 0 = 0 := by simp [Spec.begins]
  have k2 : ∀ i, (toolLim fun _ => none).amin i = -1 ∧ (toolLim fun _ => none).amax i = 1 ∧ (toolLim fun _ => none).jmin i = -2 ∧
      (toolLim fun _ => none).jmax i = 2 := by
    intro i; fin_cases i <;> simp [toolLim, holoLim]
  obtain ⟨pos, vel, acc, h, -, h2, -, h4, -, -⟩ := C179_machining_partial .machining (toolLim fun _ => none) false (1 / 10) (by norm_num) braking ![1, 1, 0]
    brakePiece [waitPiece] braking_solves
    (by
      intro p hp
      simp only [List.mem_cons, List.not_mem_nil, or_false] at hp
      rcases hp with rfl | rfl <;> norm_num [brakePiece, waitPiece, brakeSeg, waitSeg])
    (by
      refine ⟨⟨fun _ => by norm_num [braking, toolLim, holoLim], fun _ => by simp [braking]⟩, fun i => ?_⟩
      rw [(k2 i).1, (k2 i).2.1]
      fin_cases i <;> norm_num [braking])
    (fun h => by cases h) (fun i => by rw [(k2 i).1, (k2 i).2.1]; norm_num)
  refine ⟨pos, vel, acc, h, h2, ?_, ?_, ?_, ?_⟩
  · rw [← total]; exact h4
  · have := h.jerk 6 7 (by norm_num) (by norm_num) (by show (7 : ℝ) ≤ Spec.begins _ 2; rw [total]; norm_num) 0
    rw [(k2 0).2.2.1, (k2 0).2.2.2] at this
    rw [abs_le]
    exact ⟨by linarith [this.1], by linarith [this.2]⟩
  · have := h.lines 0 brakePiece rfl (diagBlock 0) (singleRoom (1 / 10) (diagBlock 0) 0) 2 (1 / 10) (1 / 100) 0 rfl ?_ (by simp [diagBlock]) (by norm_num)
      (by norm_num) (by norm_num) (by simp) 7 (by rw [zero, one]; norm_num)
    · simpa [diagBlock] using this
    · simp [straightRooms]
  · exact (h.arcs 1 waitPiece rfl 1 0 (9 / 10) (11 / 10) _ _ rfl (by norm_num) 12 (by rw [one, total]; norm_num)).2

/-! ## Segments that take no time -/

/-- Accelerating in ten seconds, to speed 0.3, in both directions of the plane. -/
noncomputable def rushSeg : ToolSeg := ⟨![bump 0 0 1, bump 0 0 1, bump 0 0 0], 10⟩

noncomputable def stopSeg : ToolSeg := ⟨waitSeg.s, 0⟩

theorem rush_d : (bump 0 0 1).derivative 1 = ⟨Bz 2, [0, 0, 3]⟩ ∧ (bump 0 0 1).derivative 2 = ⟨Bz 1, [0, 6]⟩ ∧ (bump 0 0 1).derivative 3 = ⟨Bz 0, [6]⟩ := by
  have d1 : (bump 0 0 1).derivative 1 = ⟨Bz 2, [0, 0, 3]⟩ := by unfold bump; rw [Bz_derivative rfl]; norm_num [List.range_succ]
  have d2 : (bump 0 0 1).derivative 2 = ⟨Bz 1, [0, 6]⟩ := by rw [derivative_succ, d1, Bz_derivative rfl]; norm_num [List.range_succ]
  exact ⟨d1, d2, by rw [derivative_succ, d2, Bz_derivative rfl]; norm_num [List.range_succ]⟩

theorem rushSeg_d (i : Fin 3) : (rushSeg.s i).derivative 1 = ⟨Bz 2, [0, 0, if i = 2 then 0 else 3]⟩ ∧
    (rushSeg.s i).derivative 2 = ⟨Bz 1, [0, if i = 2 then 0 else 6]⟩ ∧ (rushSeg.s i).derivative 3 = ⟨Bz 0, [if i = 2 then 0 else 6]⟩ := by
  fin_cases i
  · exact rush_d
  · exact rush_d
  · exact wait_d 0

theorem rushSeg_ok (n k : ℕ) : ToolOk .machining (toolLim fun _ => none) rushSeg.s rushSeg.T (segSkip n k) := by
  have k2 : ∀ i, (toolLim fun _ => none).amin i = -1 ∧ (toolLim fun _ => none).amax i = 1 ∧ (toolLim fun _ => none).jmin i = -2 ∧
      (toolLim fun _ => none).jmax i = 2 := by
    intro i; fin_cases i <;> simp [toolLim, holoLim]
  have k0 : (toolLim fun _ => none).vmax 0 = 1 / 2 := by simp [toolLim, holoLim]
  have hT : rushSeg.T = 10 := rfl
  refine ⟨fun e he => imposes_skip ?_ _ _, fun e he => imposes_none.2 ?_⟩
  · rcases List.mem_append.1 he with he | he
    · have hz : (toolLim fun _ => none).vmax 0 ≠ 0 := by rw [k0]; norm_num
      unfold toolVel at he
      simp only at he
      rw [if_pos hz] at he
      have n0 : ¬ ((0 : Fin 3) = 2) := by decide
      have n1 : ¬ ((1 : Fin 3) = 2) := by decide
      simp only [List.mem_singleton, (rushSeg_d _).1, hT, k0, n0, n1, if_false] at he
      subst he
      refine Expr.AllBz.imposed (D := 4) ?_ rfl (by norm_num) [-25, -25, -25, -25, 18 - 25] (fun x h0 h1 => ?_) fun i hi => ?_
      · exact ⟨⟨⟨⟨rfl, rfl⟩, rfl, rfl⟩, ⟨rfl, rfl⟩, rfl, rfl⟩, trivial⟩
      · simp only [Expr.val, Expr.sub, Expr.sq]
        rw [Bz_eval (p := 2) rfl h0 h1]
        simp only [Finset.sum_range_succ, Finset.range_zero, Finset.sum_empty, bern]
        norm_num [Nat.choose]
        ring
      · have : i = 0 ∨ i = 1 ∨ i = 2 ∨ i = 3 ∨ i = 4 := by omega
        rcases this with rfl | rfl | rfl | rfl | rfl <;> norm_num
    · simp only [toolAcc, List.mem_append, List.mem_map, List.mem_finRange, true_and, (k2 _).1, (k2 _).2.1, (rushSeg_d _).2.1, hT] at he
      rcases he with ⟨i, rfl⟩ | ⟨i, rfl⟩
      · refine geC_imposed ?_
        by_cases hi : i = 2 <;> norm_num [hi]
      · refine leC_imposed ?_
        by_cases hi : i = 2 <;> norm_num [hi]
  · simp only [toolJerk, List.mem_append, List.mem_map, List.mem_finRange, true_and, (k2 _).2.2.1, (k2 _).2.2.2, (rushSeg_d _).2.2, hT] at he
    rcases he with ⟨i, rfl⟩ | ⟨i, rfl⟩
    · refine geC_imposed ?_
      by_cases hi : i = 2 <;> norm_num [hi]
    · refine leC_imposed ?_
      by_cases hi : i = 2 <;> norm_num [hi]

theorem stopSeg_ok (n k : ℕ) : ToolOk .machining (toolLim fun _ => none) stopSeg.s stopSeg.T (segSkip n k) := by
  have k0 : (toolLim fun _ => none).vmax 0 = 1 / 2 := by simp [toolLim, holoLim]
  have hT : stopSeg.T = 0 := rfl
  have hd : ∀ i, _ := waitSeg_d
  have hs : stopSeg.s = waitSeg.s := rfl
  refine ⟨fun e he => imposes_skip ?_ _ _, fun e he => imposes_none.2 ?_⟩
  · rcases List.mem_append.1 he with he | he
    · have hz : (toolLim fun _ => none).vmax 0 ≠ 0 := by rw [k0]; norm_num
      unfold toolVel at he
      simp only at he
      rw [if_pos hz] at he
      simp only [List.mem_singleton, hs, (waitSeg_d _).1, hT, k0] at he
      subst he
      refine Expr.AllBz.imposed (D := 4) ?_ rfl (by norm_num) [0, 0, 0, 0, 0] (fun x h0 h1 => ?_) fun i hi => ?_
      · exact ⟨⟨⟨⟨rfl, rfl⟩, rfl, rfl⟩, ⟨rfl, rfl⟩, rfl, rfl⟩, trivial⟩
      · simp only [Expr.val, Expr.sub, Expr.sq]
        rw [Bz_eval (p := 2) rfl h0 h1]
        simp only [Finset.sum_range_succ, Finset.range_zero, Finset.sum_empty, bern]
        norm_num [Nat.choose]
      · have : i = 0 ∨ i = 1 ∨ i = 2 ∨ i = 3 ∨ i = 4 := by omega
        rcases this with rfl | rfl | rfl | rfl | rfl <;> norm_num
    · simp only [toolAcc, List.mem_append, List.mem_map, List.mem_finRange, true_and, hs, (waitSeg_d _).2.1, hT] at he
      rcases he with ⟨i, rfl⟩ | ⟨i, rfl⟩
      · exact geC_imposed (by norm_num)
      · exact leC_imposed (by norm_num)
  · simp only [toolJerk, List.mem_append, List.mem_map, List.mem_finRange, true_and, hs, (waitSeg_d _).2.2, hT] at he
    rcases he with ⟨i, rfl⟩ | ⟨i, rfl⟩
    · exact geC_imposed (by norm_num)
    · exact leC_imposed (by norm_num)

theorem rush_ev (i : Fin 3) : (rushSeg.s i).eval 0 = 0 ∧ (rushSeg.s i).eval 1 = ![1, 1, 0] i ∧
    ((rushSeg.s i).derivative 1).eval 0 = 0 ∧ ((rushSeg.s i).derivative 1).eval 1 = ![3, 3, 0] i ∧ ((rushSeg.s i).derivative 2).eval 0 = 0 := by
  rw [(rushSeg_d i).1, (rushSeg_d i).2.1, Bz_eval rfl le_rfl zero_le_one, Bz_eval rfl zero_le_one le_rfl, Bz_eval rfl le_rfl zero_le_one]
  refine ⟨?_, ?_, ?_⟩
  · fin_cases i
    · show (bump 0 0 1).eval 0 = 0
      rw [bump_eval _ _ _ le_rfl zero_le_one]; norm_num
    · show (bump 0 0 1).eval 0 = 0
      rw [bump_eval _ _ _ le_rfl zero_le_one]; norm_num
    · show (bump 0 0 0).eval 0 = 0
      rw [bump_eval _ _ _ le_rfl zero_le_one]; norm_num
  · fin_cases i
    · show (bump 0 0 1).eval 1 = 1
      rw [bump_eval _ _ _ zero_le_one le_rfl]; norm_num
    · show (bump 0 0 1).eval 1 = 1
      rw [bump_eval _ _ _ zero_le_one le_rfl]; norm_num
    · show (bump 0 0 0).eval 1 = 0
      rw [bump_eval _ _ _ zero_le_one le_rfl]; norm_num
  · fin_cases i <;> simp [Finset.sum_range_succ, bern]

/-- **C179** is violated when a segment takes no time, which the constraint `-T <= 0` allows: all constraints are met, and the tool, which starts at rest, arrives
at the goal with a velocity of 0.3 in both directions of the plane. -/
theorem C179_stop_violated : ∃ first last : Piece,
    SolvesTool .machining (toolLim fun _ => none) false (1 / 10) ⟨fun _ => 0, fun _ => 0, fun _ => 0⟩ ![1, 1, 0] first [last] ∧
    first.seg.T = 10 ∧ last.seg.T = 0 ∧ (∀ i, (first.seg.s i).eval 1 = ![1, 1, 0] i) ∧ first.seg.vel 1 = ![3 / 10, 3 / 10, 0] := by
  refine ⟨⟨roomSegment (singleRoom (1 / 10) (diagBlock 0) 0), rushSeg⟩, ⟨waitPiece.room, stopSeg⟩, ?_, rfl, rfl, fun i => (rush_ev i).2.1, ?_⟩
  · constructor
    · intro p hp
      simp only [List.mem_cons, List.not_mem_nil, or_false] at hp
      rcases hp with rfl | rfl <;> norm_num [rushSeg, stopSeg]
    · intro p hp i
      simp only [List.mem_cons, List.not_mem_nil, or_false] at hp
      rcases hp with rfl | rfl <;> (fin_cases i <;> exact ⟨bump_traj _ _ _, rfl⟩)
    · intro k hk
      have hk' : k < 2 := by simpa using hk
      interval_cases k
      · exact rushSeg_ok _ _
      · exact stopSeg_ok _ _
    · intro p hp
      simp only [List.mem_cons, List.not_mem_nil, or_false] at hp
      rcases hp with rfl | rfl
      · exact ⟨(diag_ok 0 0 (bump 0 0 0) (by simp)).1, by simp⟩
      · exact waitPiece_ok
    · intro c hc
      simp only [zero_div]
      simp only [toolInit, holoInit, List.mem_append, List.mem_ofFn] at hc
      have h := rush_ev
      rcases hc with (⟨i, rfl⟩ | ⟨i, rfl⟩) | ⟨i, rfl⟩
      · exact (h i).1
      · simp only [mul_zero]; exact (h i).2.2.1
      · simp only [mul_zero]; exact (h i).2.2.2.2
    · intro c hc
      simp only [imposedFree, holoTerm, List.mem_append, List.mem_ofFn, List.mem_flatMap, List.mem_range, Bool.false_eq_true, if_false] at hc
      rcases hc with ⟨i, rfl⟩ | ⟨d, hd, i, rfl⟩
      · exact (wait_ev i 1 zero_le_one le_rfl).1
      · interval_cases d
        · exact (wait_ev i 1 zero_le_one le_rfl).2.1
        · exact (wait_ev i 1 zero_le_one le_rfl).2.2
    · have d0 : ∀ s : BSpline ℝ, s.derivative 0 = s := fun s => by unfold BSpline.derivative; rw [if_pos rfl]
      have a := rush_ev
      have b := fun i => wait_ev i 0 le_rfl zero_le_one
      have hdeg : ∀ i, (rushSeg.s i).basis.degree = 3 := fun i => by fin_cases i <;> rfl
      intro r hr
      simp only [List.map_cons, List.map_nil, Piece.pair, connection, List.append_nil, List.mem_flatMap,
        List.zip_cons_cons, List.zip_nil_left, List.mem_cons, List.not_mem_nil, or_false] at hr
      obtain ⟨q, hq, hr⟩ := hr
      obtain ⟨d, hd, rfl⟩ := List.mem_map.1 hr
      rw [List.mem_range] at hd
      have key : ∀ i, q = (rushSeg.s i, stopSeg.s i) → (q.1.derivative d).eval 1 * stopSeg.T ^ d - (q.2.derivative d).eval 0 * rushSeg.T ^ d = 0 := by
        rintro i rfl
        have hd' : d < 3 := by rw [← hdeg i]; exact hd
        have hs : stopSeg.s = waitSeg.s := rfl
        have hT : stopSeg.T = 0 := rfl
        rw [hs, hT]
        interval_cases d
        · rw [d0, d0, (a i).2.1, (b i).1]; ring
        · rw [(b i).2.1]; ring
        · rw [(b i).2.2]; ring
      rcases hq with h | h | h
      · exact key 0 h
      · exact key 1 h
      · exact key 2 h
  · funext i
    have hT : rushSeg.T = 10 := rfl
    show ((rushSeg.s i).derivative 1).eval 1 / rushSeg.T = _
    rw [(rush_ev i).2.2.2.1, hT]
    fin_cases i <;> norm_num

end Verif.Problems
