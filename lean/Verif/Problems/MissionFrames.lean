import Verif.Problems.Mission
import Verif.Problems.Connect

/-! # C178: a plan through several frames is safe

A holonomic vehicle (`syslimit = 'norm_inf'`) drives through several upright rectangular rooms, one segment of the trajectory in each, with
`MultiFrameProblem`.  The pieces proved about constraints of one segment (C10, C11, C13, C122, C123) and about the joints (C34) are put together. -/

set_option linter.unusedSectionVars false

namespace Verif.Problems

open Verif.Spline Verif.Vehicles Verif.Collision Verif.Timing

/-! ## Model -/

/-- A room (position and sides), and the values of the variables that belong to the segment in it: motion time, splines, separating lines and slacks,
for the obstacles that are considered in this room (environment.py:119-122). -/
structure Frame where
  width : ℝ
  height : ℝ
  room : ℝ × ℝ
  seg : Upd

/-- The constraints on one segment, multiframeproblem.py:61-74 and environment.py:113-146. -/
structure Frame.Met (S : Setup) (f : Frame) : Prop where
  positive : (-f.seg.T) ≤ 0
  form : ∀ i, ∃ c, c.length = S.intervals + S.degree ∧ f.seg.x i = ⟨vehBasis S.degree S.intervals, c⟩
  lines : ∀ k l, (f.seg.hyp k l).On 0 1
  slacks : ∀ s k, (Expr.spl (f.seg.eps s k)).On 0 1
  limits : ∀ e ∈ holoInf S.bounds (f.seg.x 0) (f.seg.x 1) f.seg.T, e.Imposed 0
  avoid : ∀ e ∈ envCons (S.veh f.seg) f.seg.obs f.seg.hyp, e.Imposed 0
  inside : ∀ s ∈ S.shapes, ∀ e ∈ roomConsRect s (.spl (f.seg.x 0)) (.spl (f.seg.x 1)) (Geometry.placedRect f.width f.height f.room).limits, e.Imposed 0

/-- The segments as `define_connection_constraints` sees them. -/
def Frame.pair (f : Frame) : List (BSpline ℝ) × ℝ := ([f.seg.x 0, f.seg.x 1], f.seg.T)

/-- All variables of `MultiFrameProblem` have values that meet all its constraints, multiframeproblem.py:55-124: the constraints of each segment, the
start on the first (`t` is the time since the start of the plan, 129-133), the end on the last, and the joints.  The room of `S` is
not used. -/
structure SolvesFrames (S : Setup) (t : ℝ) (first : Frame) (more : List Frame) : Prop where
  met : ∀ f ∈ first :: more, f.Met S
  starts : MeetsInit (holoInit first.seg.x first.seg.start first.seg.T) (t / first.seg.T)
  ends : MeetsEnd (imposedFree false (holoTerm ((first :: more).getLast (List.cons_ne_nil _ _)).seg.x S.goal S.degree))
  joints : ∀ r ∈ connection ((first :: more).map Frame.pair), r = 0

/-! ## Specification -/

/-- The time at which the `k`-th room is entered. -/
noncomputable def Spec.enter (fs : List Frame) (k : ℕ) : ℝ := ((fs.take k).map fun f => f.seg.T).sum

/-- A motion through the rooms of `fs` with its velocity and acceleration; `world k` are the obstacles in the `k`-th room. -/
structure Spec.Through (S : Setup) (world : ℕ → List Mover) (fs : List Frame) (pos vel acc : ℝ → Fin 2 → ℝ) : Prop where
  follows : ∀ (k : ℕ) (f : Frame), fs[k]? = some f → ∀ r ∈ Set.Icc 0 f.seg.T, ∀ i, pos (enter fs k + r) i = (f.seg.x i).eval (r / f.seg.T)
  moves : ∀ i, ∀ t ∈ Set.Icc 0 (enter fs fs.length), HasDerivWithinAt (fun t => pos t i) (vel t i) (Set.Icc 0 (enter fs fs.length)) t
  speeds : ∀ i, ∀ t ∈ Set.Icc 0 (enter fs fs.length), HasDerivWithinAt (fun t => vel t i) (acc t i) (Set.Icc 0 (enter fs fs.length)) t
  limitX : ∀ t ∈ Set.Icc 0 (enter fs fs.length),
    (holoLim S.bounds "vxmin" "vmin" (-(1 / 2)) ≤ vel t 0 ∧ vel t 0 ≤ holoLim S.bounds "vxmax" "vmax" (1 / 2)) ∧
    (holoLim S.bounds "axmin" "amin" (-1) ≤ acc t 0 ∧ acc t 0 ≤ holoLim S.bounds "axmax" "amax" 1)
  limitY : ∀ t ∈ Set.Icc 0 (enter fs fs.length),
    (holoLim S.bounds "vymin" "vmin" (-(1 / 2)) ≤ vel t 1 ∧ vel t 1 ≤ holoLim S.bounds "vymax" "vmax" (1 / 2)) ∧
    (holoLim S.bounds "aymin" "amin" (-1) ≤ acc t 1 ∧ acc t 1 ≤ holoLim S.bounds "aymax" "amax" 1)
  rooms : ∀ (k : ℕ) (f : Frame), fs[k]? = some f → ∀ t ∈ Set.Icc (enter fs k) (enter fs (k + 1)), ∀ s ∈ S.shapes,
    ∀ p ∈ shifted !₂[pos t 0, pos t 1] s.region, Geometry.InRect f.width f.height f.room (p 0, p 1)
  apart : ∀ (k : ℕ) (f : Frame), fs[k]? = some f → ∀ t ∈ Set.Icc (enter fs k) (enter fs (k + 1)), ∀ s ∈ S.shapes, ∀ w ∈ world k,
    ∀ p ∈ shifted !₂[pos t 0, pos t 1] s.core, ∀ p' ∈ placed (w.pos t) (w.angle t) w.shape.core, s.rad + w.shape.rad ≤ dist p p'

/-! ## One segment after the other -/

section Glue
variable {α : Type}

/-- Which of the things `a :: l`, each followed until its end, is followed at time `t`, and since when. -/
noncomputable def walk (T : α → ℝ) : α → List α → ℝ → α × ℝ
  | a, [], t => (a, t)
  | a, b :: l, t => if t < T a then (a, t) else walk T b l (t - T a)

/-- The values of `F` along the way. -/
noncomputable def onWay (T : α → ℝ) (F : α → ℝ → ℝ) (a : α) (l : List α) (t : ℝ) : ℝ := F (walk T a l t).1 (walk T a l t).2

variable {T : α → ℝ} {F G : α → ℝ → ℝ}

theorem walk_zero (a : α) (l : List α) (h : 0 < T a) : walk T a l 0 = (a, 0) := by
  cases l with
  | nil => rfl
  | cons b l => rw [walk, if_pos h]

theorem onWay_left {a b : α} {l : List α} (hb : 0 < T b) (hj : F a (T a) = F b 0) {t : ℝ} (h : t ≤ T a) :
    onWay T F a (b :: l) t = F a t := by
  rcases h.lt_or_eq with h | rfl
  · rw [onWay, walk, if_pos h]
  · rw [onWay, walk, if_neg (lt_irrefl _), sub_self, walk_zero b l hb, hj]

theorem onWay_right {a b : α} {l : List α} {t : ℝ} (h : T a ≤ t) : onWay T F a (b :: l) t = onWay T F b l (t - T a) := by
  rw [onWay, walk, if_neg (not_lt.2 h), onWay]

theorem sum_nonneg_of (l : List α) (hT : ∀ c ∈ l, 0 < T c) : 0 ≤ (l.map T).sum := by
  refine List.sum_nonneg fun x hx => ?_
  obtain ⟨c, hc, rfl⟩ := List.mem_map.1 hx
  exact (hT c hc).le

theorem onWay_deriv : ∀ (a : α) (l : List α), (∀ c ∈ a :: l, 0 < T c) →
    (∀ c ∈ a :: l, ∀ r ∈ Set.Icc 0 (T c), HasDerivWithinAt (F c) (G c r) (Set.Icc 0 (T c)) r) →
    (a :: l).IsChain (fun c d => F c (T c) = F d 0 ∧ G c (T c) = G d 0) →
    ∀ t ∈ Set.Icc 0 (((a :: l).map T).sum), HasDerivWithinAt (onWay T F a l) (onWay T G a l t) (Set.Icc 0 (((a :: l).map T).sum)) t
  | a, [], _, hd, _, t, ht => by
    have e : ([a].map T).sum = T a := by simp
    rw [e] at ht ⊢
    exact hd a (by simp) t ht
  | a, b :: l, hT, hd, hc, t, ht => by
    obtain ⟨hj, hc'⟩ := List.isChain_cons_cons.1 hc
    have hT' : ∀ c ∈ b :: l, 0 < T c := fun c h => hT c (List.mem_cons_of_mem _ h)
    have hm : 0 ≤ (((b :: l).map T).sum) := sum_nonneg_of _ hT'
    have ha := hT a (by simp)
    have hb := hT b (by simp)
    have ih := onWay_deriv b l hT' (fun c h => hd c (List.mem_cons_of_mem _ h)) hc'
    rw [List.map_cons, List.sum_cons] at ht ⊢
    rw [Icc_glue ha.le hm]
    refine HasDerivWithinAt.union ?_ ?_
    · rcases le_or_gt t (T a) with h | h
      · rw [onWay_left hb hj.2 h]
        exact HasDerivWithinAt.congr (f := F a) (hd a (by simp) t ⟨ht.1, h⟩) (fun x hx => onWay_left hb hj.1 hx.2) (onWay_left hb hj.1 h)
      · exact outside (Or.inr h)
    · rcases lt_or_ge t (T a) with h | h
      · exact outside (Or.inl h)
      · rw [onWay_right h]
        exact (right_shift (ih (t - T a) ⟨by linarith, by linarith [ht.2]⟩)).congr (fun x hx => onWay_right hx.1) (onWay_right h)

theorem onWay_cont : ∀ (a : α) (l : List α), (∀ c ∈ a :: l, 0 < T c) → (∀ c ∈ a :: l, ContinuousOn (F c) (Set.Icc 0 (T c))) →
    (a :: l).IsChain (fun c d => F c (T c) = F d 0) → ContinuousOn (onWay T F a l) (Set.Icc 0 (((a :: l).map T).sum))
  | a, [], _, hd, _ => by
    have e : ([a].map T).sum = T a := by simp
    rw [e]
    exact hd a (by simp)
  | a, b :: l, hT, hd, hc => by
    obtain ⟨hj, hc'⟩ := List.isChain_cons_cons.1 hc
    have hT' : ∀ c ∈ b :: l, 0 < T c := fun c h => hT c (List.mem_cons_of_mem _ h)
    have hm : 0 ≤ (((b :: l).map T).sum) := sum_nonneg_of _ hT'
    have hb := hT b (by simp)
    have ih := onWay_cont b l hT' (fun c h => hd c (List.mem_cons_of_mem _ h)) hc'
    rw [List.map_cons, List.sum_cons, Icc_glue (hT a (by simp)).le hm]
    refine ContinuousOn.union_of_isClosed ?_ ?_ isClosed_Icc isClosed_Icc
    · exact (hd a (by simp)).congr fun x hx => onWay_left hb hj hx.2
    · refine ContinuousOn.congr (f := fun t => onWay T F b l (t - T a)) ?_ fun x hx => onWay_right hx.1
      exact ih.comp ((continuous_id.sub continuous_const).continuousOn) fun x hx => Set.mem_Icc.2
        ⟨by simpa using hx.1, by linarith [hx.2]⟩

theorem onWay_at : ∀ (a : α) (l : List α), (∀ c ∈ a :: l, 0 < T c) → (a :: l).IsChain (fun c d => F c (T c) = F d 0) →
    ∀ (k : ℕ) (c : α) (r : ℝ), (a :: l)[k]? = some c → 0 ≤ r → r ≤ T c → onWay T F a l ((((a :: l).take k).map T).sum + r) = F c r
  | a, [], _, _, k, c, r, hk, _, _ => by
    cases k with
    | zero => simp at hk; subst hk; simp [onWay, walk]
    | succ k => simp at hk
  | a, b :: l, hT, hc, k, c, r, hk, h0, h1 => by
    obtain ⟨hj, hc'⟩ := List.isChain_cons_cons.1 hc
    cases k with
    | zero =>
      simp at hk
      subst hk
      rw [List.take_zero, List.map_nil, List.sum_nil, zero_add, onWay_left (hT b (by simp)) hj h1]
    | succ k =>
      have hT' : ∀ c ∈ b :: l, 0 < T c := fun c h => hT c (List.mem_cons_of_mem _ h)
      have hs : 0 ≤ (((b :: l).take k).map T).sum := sum_nonneg_of _ fun c hc => hT' c (List.mem_of_mem_take hc)
      rw [List.take_succ_cons, List.map_cons, List.sum_cons, onWay_right (by linarith),
        show T a + (((b :: l).take k).map T).sum + r - T a = (((b :: l).take k).map T).sum + r by ring]
      exact onWay_at b l hT' hc' k c r (by simpa using hk) h0 h1

theorem way_cases : ∀ (a : α) (l : List α) (t : ℝ), 0 ≤ t → t ≤ ((a :: l).map T).sum →
    ∃ (k : ℕ) (c : α) (r : ℝ), (a :: l)[k]? = some c ∧ t = (((a :: l).take k).map T).sum + r ∧ 0 ≤ r ∧ r ≤ T c
  | a, [], t, h0, h1 => ⟨0, a, t, rfl, by simp, h0, by simpa using h1⟩
  | a, b :: l, t, h0, h1 => by
    rcases le_or_gt t (T a) with h | h
    · exact ⟨0, a, t, rfl, by simp, h0, h⟩
    · rw [List.map_cons, List.sum_cons] at h1
      obtain ⟨k, c, r, e1, e2, e3, e4⟩ := way_cases b l (t - T a) (by linarith) (by linarith)
      refine ⟨k + 1, c, r, by simpa using e1, ?_, e3, e4⟩
      rw [List.take_succ_cons, List.map_cons, List.sum_cons]
      linarith

end Glue

/-! ## The joints -/

theorem connection_chain (deg : ℕ) : ∀ (a : Frame) (l : List Frame), (∀ f ∈ a :: l, ∀ i, (f.seg.x i).basis.degree = deg) →
    (∀ r ∈ connection ((a :: l).map Frame.pair), r = 0) →
    (a :: l).IsChain fun f g => ∀ i, ∀ d < deg, ((f.seg.x i).derivative d).eval 1 * g.seg.T ^ d = ((g.seg.x i).derivative d).eval 0 * f.seg.T ^ d
  | a, [], _, _ => by simp
  | a, b :: l, hdeg, h => by
    simp only [List.map_cons, Frame.pair, connection] at h
    refine List.isChain_cons_cons.2 ⟨fun i d hd => ?_, connection_chain deg b l (fun f hf => hdeg f (List.mem_cons_of_mem _ hf)) fun r hr => ?_⟩
    · have := hdeg a (by simp) i
      refine sub_eq_zero.1 (h _ (List.mem_append_left _ (List.mem_flatMap.2 ⟨(a.seg.x i, b.seg.x i), ?_, ?_⟩)))
      · fin_cases i <;> simp
      · exact List.mem_map.2 ⟨d, List.mem_range.2 (by rw [this]; exact hd), rfl⟩
    · exact h r (List.mem_append_right _ (by simpa [Frame.pair] using hr))

/-! ## The property -/

/-- **C178** A plan through any number of rooms that meets all constraints: the motion along the segments, one after the other, never jumps in position,
velocity or acceleration, respects the limits on velocity and acceleration at every instant, is during each segment in the room of this segment and
clear of the obstacles that are considered there (when they do what was predicted), starts in the given state, and ends in standstill in the goal. -/
theorem C178_frames_partial (S : Setup) (hd : 3 ≤ S.degree) (hn : 1 ≤ S.intervals) (hsd : 0 ≤ S.sd) (t : ℝ) (first : Frame) (more : List Frame)
    (solved : SolvesFrames S t first more) (hT : ∀ f ∈ first :: more, f.seg.T ≠ 0) (size : ∀ f ∈ first :: more, 0 ≤ f.width ∧ 0 ≤ f.height)
    (ht : 0 ≤ t) (ht' : t ≤ first.seg.T) (world : ℕ → List Mover)
    (foreseen : ∀ (k : ℕ) (f : Frame), (first :: more)[k]? = some f → Spec.Predicted (world k) (Spec.enter (first :: more) k) f.seg.T f.seg) :
    ∃ pos vel acc : ℝ → Fin 2 → ℝ, Spec.Through S world (first :: more) pos vel acc ∧
      (∀ i, ContinuousOn (fun t => acc t i) (Set.Icc 0 (Spec.enter (first :: more) (more.length + 1)))) ∧
      pos t = first.seg.start.state ∧ vel t = first.seg.start.input ∧
      pos (Spec.enter (first :: more) (more.length + 1)) = S.goal ∧ vel (Spec.enter (first :: more) (more.length + 1)) = fun _ => 0 := by
  have pT : ∀ f ∈ first :: more, 0 < f.seg.T := fun f hf =>
    lt_of_le_of_ne (by have := (solved.met f hf).positive; linarith) (Ne.symm (hT f hf))
  have hx : ∀ f ∈ first :: more, ∀ i, Traj (f.seg.x i) 2 ∧ (f.seg.x i).basis.degree = S.degree := fun f hf i => by
    obtain ⟨c, hc, e⟩ := (solved.met f hf).form i
    rw [e]
    exact ⟨(vehBasis_traj (by omega) hn hc).mono (by omega), rfl⟩
  have chain := connection_chain S.degree first more (fun f hf i => (hx f hf i).2) solved.joints
  -- position, velocity and acceleration agree at the joints
  have hjoin : ∀ i, (first :: more).IsChain (fun f g => f.seg.pos i f.seg.T = g.seg.pos i 0 ∧ f.seg.vel i f.seg.T = g.seg.vel i 0 ∧
      f.seg.acc i f.seg.T = g.seg.acc i 0) := by
    intro i
    rw [List.isChain_iff_getElem] at chain ⊢
    intro k hk
    have h := chain k hk i
    have p1 := pT _ (List.getElem_mem (show k < (first :: more).length by omega))
    have p2 := pT _ (List.getElem_mem hk)
    set f := (first :: more)[k]
    set g := (first :: more)[k + 1]
    have e0 := h 0 (by omega)
    have e1 := h 1 (by omega)
    have e2 := h 2 (by omega)
    have d0 : ∀ s : BSpline ℝ, s.derivative 0 = s := fun s => by unfold BSpline.derivative; rw [if_pos rfl]
    rw [d0, d0, pow_zero, pow_zero, mul_one, mul_one] at e0
    rw [pow_one, pow_one] at e1
    unfold Upd.pos Upd.vel Upd.acc
    rw [div_self p1.ne', zero_div]
    refine ⟨e0, ?_, ?_⟩
    · rw [div_eq_div_iff p1.ne' p2.ne', e1]
    · rw [div_eq_div_iff (pow_ne_zero 2 p1.ne') (pow_ne_zero 2 p2.ne'), e2]
  have j0 := fun i => (hjoin i).imp fun _ _ h => h.1
  have j1 := fun i => (hjoin i).imp fun _ _ h => h.2.1
  have j2 := fun i => (hjoin i).imp fun _ _ h => h.2.2
  have enter_eq : Spec.enter (first :: more) (first :: more).length = ((first :: more).map fun f => f.seg.T).sum := by
    unfold Spec.enter; rw [List.take_length]
  have hlen : more.length + 1 = (first :: more).length := rfl
  let T : Frame → ℝ := fun f => f.seg.T
  -- the way
  have at0 : ∀ i (k : ℕ) (f : Frame) (r : ℝ), (first :: more)[k]? = some f → 0 ≤ r → r ≤ f.seg.T →
      onWay T (fun f => f.seg.pos i) first more (Spec.enter (first :: more) k + r) = f.seg.pos i r := fun i =>
    onWay_at (T := T) (F := fun f => f.seg.pos i) first more pT (j0 i)
  have at1 : ∀ i (k : ℕ) (f : Frame) (r : ℝ), (first :: more)[k]? = some f → 0 ≤ r → r ≤ f.seg.T →
      onWay T (fun f => f.seg.vel i) first more (Spec.enter (first :: more) k + r) = f.seg.vel i r := fun i =>
    onWay_at (T := T) (F := fun f => f.seg.vel i) first more pT (j1 i)
  have at2 : ∀ i (k : ℕ) (f : Frame) (r : ℝ), (first :: more)[k]? = some f → 0 ≤ r → r ≤ f.seg.T →
      onWay T (fun f => f.seg.acc i) first more (Spec.enter (first :: more) k + r) = f.seg.acc i r := fun i =>
    onWay_at (T := T) (F := fun f => f.seg.acc i) first more pT (j2 i)
  have cases : ∀ t ∈ Set.Icc 0 (Spec.enter (first :: more) (first :: more).length),
      ∃ (k : ℕ) (f : Frame) (r : ℝ), (first :: more)[k]? = some f ∧ t = Spec.enter (first :: more) k + r ∧ 0 ≤ r ∧ r ≤ f.seg.T := fun t ht => by
    rw [enter_eq] at ht
    exact way_cases (T := T) first more t ht.1 ht.2
  have enter_succ : ∀ (k : ℕ) (f : Frame), (first :: more)[k]? = some f → Spec.enter (first :: more) (k + 1) = Spec.enter (first :: more) k + f.seg.T :=
    fun k f hf => by
      obtain ⟨hk, e⟩ := List.getElem?_eq_some_iff.1 hf
      unfold Spec.enter
      rw [List.take_succ_eq_append_getElem hk, e]
      simp
  have within : ∀ (k : ℕ) (f : Frame), (first :: more)[k]? = some f → ∀ t ∈ Set.Icc (Spec.enter (first :: more) k) (Spec.enter (first :: more) (k + 1)),
      ∃ r, 0 ≤ r ∧ r ≤ f.seg.T ∧ t = Spec.enter (first :: more) k + r := fun k f hf t ht => by
    rw [enter_succ k f hf] at ht
    exact ⟨t - Spec.enter (first :: more) k, by linarith [ht.1], by linarith [ht.2], by ring⟩
  -- start and end
  have e_start : t = Spec.enter (first :: more) 0 + t := by simp [Spec.enter]
  have hs := C122_holonomic first.seg.x (fun i => (hx first (by simp) i).1.mono (by omega)) first.seg.start first.seg.T (pT first (by simp)) t solved.starts
  rw [signals_eq (fun i => (hx first (by simp) i).1) (pT first (by simp))] at hs
  set last := (first :: more).getLast (List.cons_ne_nil _ _) with hlastdef
  have hlast : (first :: more)[more.length]? = some last := by
    rw [hlastdef, List.getLast_eq_getElem, List.getElem?_eq_getElem (by simp)]
    simp
  have hmem : last ∈ first :: more := List.getLast_mem _
  have e_end := enter_succ more.length last hlast
  have he := C123_holonomic _ (fun i => (hx last hmem i).1) S.goal S.degree (by omega) _ (pT last hmem) (Or.inl solved.ends)
  rw [signals_eq (fun i => (hx last hmem i).1) (pT last hmem)] at he
  refine ⟨fun t i => onWay T (fun f => f.seg.pos i) first more t, fun t i => onWay T (fun f => f.seg.vel i) first more t,
    fun t i => onWay T (fun f => f.seg.acc i) first more t, ⟨?_, ?_, ?_, ?_, ?_, ?_, ?_⟩, ?_, ?_, ?_, ?_, ?_⟩
  · intro k f hf r hr i
    exact at0 i k f r hf hr.1 hr.2
  · intro i t ht
    rw [enter_eq] at ht ⊢
    exact onWay_deriv (T := T) (F := fun f => f.seg.pos i) (G := fun f => f.seg.vel i) first more pT
      (fun f hf => pos_deriv (fun i => (hx f hf i).1) (pT f hf) i) ((hjoin i).imp fun _ _ h => ⟨h.1, h.2.1⟩) t ht
  · intro i t ht
    rw [enter_eq] at ht ⊢
    exact onWay_deriv (T := T) (F := fun f => f.seg.vel i) (G := fun f => f.seg.acc i) first more pT
      (fun f hf => vel_deriv (fun i => (hx f hf i).1) (pT f hf) i) ((hjoin i).imp fun _ _ h => ⟨h.2.1, h.2.2⟩) t ht
  · intro t ht
    obtain ⟨k, f, r, hk, rfl, h0, h1⟩ := cases t ht
    have hf := List.mem_of_getElem? hk
    show (_ ≤ onWay _ _ _ _ _ ∧ onWay _ _ _ _ _ ≤ _) ∧ (_ ≤ onWay _ _ _ _ _ ∧ onWay _ _ _ _ _ ≤ _)
    rw [at1 0 k f r hk h0 h1, at2 0 k f r hk h0 h1]
    exact (limits_of (solved.met f hf).limits (fun i => (hx f hf i).1) (pT f hf) h0 h1).1
  · intro t ht
    obtain ⟨k, f, r, hk, rfl, h0, h1⟩ := cases t ht
    have hf := List.mem_of_getElem? hk
    show (_ ≤ onWay _ _ _ _ _ ∧ onWay _ _ _ _ _ ≤ _) ∧ (_ ≤ onWay _ _ _ _ _ ∧ onWay _ _ _ _ _ ≤ _)
    rw [at1 1 k f r hk h0 h1, at2 1 k f r hk h0 h1]
    exact (limits_of (solved.met f hf).limits (fun i => (hx f hf i).1) (pT f hf) h0 h1).2
  · intro k f hk t ht s hs p hp
    obtain ⟨r, h0, h1, rfl⟩ := within k f hk t ht
    have hf := List.mem_of_getElem? hk
    rw [at0 0 k f r hk h0 h1, at0 1 k f r hk h0 h1] at hp
    exact C11_rectangle s (.spl (f.seg.x 0)) (.spl (f.seg.x 1)) f.width f.height 0 1 (size f hf).1 (size f hf).2 f.room
      ⟨(hx f hf 0).1.on, (hx f hf 1).1.on⟩ ⟨trivial, trivial⟩ ((solved.met f hf).inside s hs) (r / f.seg.T) (div_nonneg h0 (pT f hf).le)
      ((div_le_one (pT f hf)).2 h1) p hp
  · intro k f hk t ht s hs w hw p hp p' hp'
    obtain ⟨r, h0, h1, rfl⟩ := within k f hk t ht
    have hf := List.mem_of_getElem? hk
    rw [at0 0 k f r hk h0 h1, at0 1 k f r hk h0 h1] at hp
    exact apart_of (solved.met f hf).slacks (solved.met f hf).lines (solved.met f hf).avoid (fun i => (hx f hf i).1) (pT f hf) hsd
      (foreseen k f hk) h0 h1 h1 s hs w hw p hp p' hp'
  · intro i
    rw [hlen, enter_eq]
    refine onWay_cont (T := T) (F := fun f => f.seg.acc i) first more pT (fun f hf => ?_) (j2 i)
    have tr : Traj ((f.seg.x i).derivative 2) 0 := Traj.iterate (n := 2) (m := 0) (hx f hf i).1
    have dg : ((f.seg.x i).derivative 2).basis.degree = S.degree - 2 := by
      rw [(clamped_derivative (hx f hf i).1.clamped (hx f hf i).1.wf 2 (by rw [(hx f hf i).2]; omega)).2.2.1, (hx f hf i).2]
    have cont := tr.trajOn.continuousOn (by rw [dg]; omega)
    refine ContinuousOn.div_const ?_ _
    refine cont.comp (continuous_id.div_const _).continuousOn fun r hr => ?_
    exact ⟨div_nonneg hr.1 (pT f hf).le, (div_le_one (pT f hf)).2 hr.2⟩
  · funext i
    show onWay _ _ _ _ _ = _
    rw [e_start, at0 i 0 first t rfl ht ht']
    exact congrFun hs.1 i
  · funext i
    show onWay _ _ _ _ _ = _
    rw [e_start, at1 i 0 first t rfl ht ht']
    exact congrFun hs.2 i
  · funext i
    show onWay _ _ _ _ _ = _
    rw [e_end, at0 i _ last _ hlast (pT _ hmem).le le_rfl]
    exact congrFun (congrArg Holo.state he) i
  · funext i
    show onWay _ _ _ _ _ = _
    rw [e_end, at1 i _ last _ hlast (pT _ hmem).le le_rfl]
    exact congrFun (congrArg Holo.input he) i

/-! ## A case: past a disc, out of one room into the next -/

section Case

/-- At `a` during the first of five intervals, at `b` during the last one. -/
noncomputable def leg (a b : ℝ) : BSpline ℝ := ⟨vehBasis 3 5, [a, a, a, a, b, b, b, b]⟩

noncomputable def legU (a b T : ℝ) : Upd := { caseU 0 T with x := ![leg a b, lvl3 0], start := ⟨![a, 0], fun _ => 0, fun _ => 0⟩ }
noncomputable def legS : Setup := { caseS 0 with goal := ![3, 0] }

theorem leg_facts (a b : ℝ) : ∃ c1 c2 c3 : List ℝ, c1.length = 5 + 2 ∧ c2.length = 5 + 1 ∧ c3.length = 5 + 0 ∧ (leg a b).derivative 1 = ⟨vehBasis 2 5, c1⟩ ∧
    (leg a b).derivative 2 = ⟨vehBasis 1 5, c2⟩ ∧ (leg a b).derivative 3 = ⟨vehBasis 0 5, c3⟩ ∧ c1.getD 0 0 = 0 ∧ c2.getD 0 0 = 0 ∧
    c1.getD 6 0 = 0 ∧ c2.getD 5 0 = 0 ∧ c3.getD 4 0 = 0 := by
  obtain ⟨c1, l1, e1, r1⟩ := GCode.RingGuess.deriv_veh (d := 2) (n := 5) (c := [a, a, a, a, b, b, b, b]) (by norm_num) rfl
  obtain ⟨c2, l2, e2, r2⟩ := GCode.RingGuess.deriv_veh (d := 1) (n := 5) (by norm_num) l1
  obtain ⟨c3, l3, e3, r3⟩ := GCode.RingGuess.deriv_veh (d := 0) (n := 5) (by norm_num) l2
  have z1 : ∀ j, j < 7 → j ≠ 3 → c1.getD j 0 = 0 := fun j hj h3 => by
    obtain ⟨r, -, e⟩ := r1 j hj
    rw [e]
    have : ([a, a, a, a, b, b, b, b] : List ℝ).getD (j + 1) 0 = ([a, a, a, a, b, b, b, b] : List ℝ).getD j 0 := by
      interval_cases j <;> simp_all
    rw [this, sub_self, mul_zero]
  have z2 : ∀ j, 4 ≤ j ∨ j < 2 → j < 6 → c2.getD j 0 = 0 := fun j h4 hj => by
    obtain ⟨r, -, e⟩ := r2 j hj
    rw [e, z1 _ (by omega) (by omega), z1 _ (by omega) (by omega), sub_self, mul_zero]
  have z3 : c3.getD 4 0 = 0 := by
    obtain ⟨r, -, e⟩ := r3 4 (by norm_num)
    rw [e, z2 _ (by omega) (by omega), z2 _ (by omega) (by omega), sub_self, mul_zero]
  have g1 : (leg a b).derivative 1 = ⟨vehBasis 2 5, c1⟩ := e1
  have g2 : (leg a b).derivative 2 = ⟨vehBasis 1 5, c2⟩ := by rw [derivative_succ, g1, e2]
  have g3 : (leg a b).derivative 3 = ⟨vehBasis 0 5, c3⟩ := by rw [derivative_succ, g2, e3]
  exact ⟨c1, c2, c3, l1, l2, l3, g1, g2, g3, z1 0 (by norm_num) (by norm_num), z2 0 (by norm_num) (by norm_num), z1 6 (by norm_num) (by norm_num),
    z2 5 (by norm_num) (by norm_num), z3⟩

/-- At both ends of a leg the vehicle rests. -/
theorem leg_ends (a b : ℝ) : (leg a b).eval 0 = a ∧ (leg a b).eval 1 = b ∧ ((leg a b).derivative 1).eval 0 = 0 ∧ ((leg a b).derivative 2).eval 0 = 0 ∧
    ∀ d, 1 ≤ d → d ≤ 3 → ((leg a b).derivative d).eval 1 = 0 := by
  obtain ⟨c1, c2, c3, l1, l2, l3, g1, g2, g3, z1, z2, f1, f2, f3⟩ := leg_facts a b
  have vf := fun {d : ℕ} {c : List ℝ} (h : c.length = 5 + d) => GCode.RingGuess.veh_first (d := d) (n := 5) (by norm_num) h
  refine ⟨(vf (d := 3) (c := [a, a, a, a, b, b, b, b]) rfl).1, (vf (d := 3) (c := [a, a, a, a, b, b, b, b]) rfl).2, ?_, ?_, fun d d0 d1 => ?_⟩
  · rw [g1, (vf l1).1, z1]
  · rw [g2, (vf l2).1, z2]
  · interval_cases d
    · rw [g1, (vf l1).2]; exact f1
    · rw [g2, (vf l2).2]; exact f2
    · rw [g3, (vf l3).2]; exact f3

theorem lvl3_ends : (lvl3 0).eval 0 = 0 ∧ (lvl3 0).eval 1 = 0 ∧ ((lvl3 0).derivative 1).eval 0 = 0 ∧ ((lvl3 0).derivative 2).eval 0 = 0 ∧
    ∀ d, 1 ≤ d → d ≤ 3 → ((lvl3 0).derivative d).eval 1 = 0 := by
  obtain ⟨k1, k2, k3, m1, m2, m3, h1, h2, h3, y1, y2, y3⟩ := lvl3_facts 0
  have vf := fun {d : ℕ} {c : List ℝ} (h : c.length = 5 + d) => GCode.RingGuess.veh_first (d := d) (n := 5) (by norm_num) h
  refine ⟨level (d := 3) le_rfl zero_le_one, level (d := 3) zero_le_one le_rfl, ?_, ?_, fun d d0 d1 => ?_⟩
  · rw [h1, (vf m1).1, y1 0 (by norm_num)]
  · rw [h2, (vf m2).1, y2 0 (by norm_num)]
  · interval_cases d
    · rw [h1, (vf m1).2]; exact y1 6 (by norm_num)
    · rw [h2, (vf m2).2]; exact y2 5 (by norm_num)
    · rw [h3, (vf m3).2]; exact y3

theorem leg_avoid (a b T : ℝ) : ∀ e ∈ envCons (legS.veh (legU a b T)) (legU a b T).obs (legU a b T).hyp, e.Imposed 0 := by
  have o1 : ∀ c, (Expr.spl (lvl c)).OnIntervals 5 := fun c => on5 (d := 1) (by simp)
  have og : (Expr.spl (leg a b)).OnIntervals 5 := on5 (d := 3) (by simp)
  have o3 : ∀ c, (Expr.spl (lvl3 c)).OnIntervals 5 := fun c => on5 (d := 3) (by simp)
  have v1 : ∀ c x, 0 ≤ x → x ≤ 1 → (lvl c).eval x = c := fun c x h0 h1 => level (d := 1) h0 h1
  have v3 : ∀ c x, 0 ≤ x → x ≤ 1 → (lvl3 c).eval x = c := fun c x h0 h1 => level (d := 3) h0 h1
  have d1 : ∀ c, (lvl c).basis.degree = 1 := fun _ => rfl
  have d3 : ∀ c, (lvl3 c).basis.degree = 3 := fun _ => rfl
  have dg : (leg a b).basis.degree = 3 := rfl
  have old := case_avoid (y := 0) le_rfl T
  simp [envCons, caseS, caseU, Setup.veh, Obs.cons, Veh.cons, Veh.eps, circle, normCon, List.range_succ] at old
  intro e he
  simp [envCons, legS, legU, caseS, caseU, Setup.veh, Obs.cons, Veh.cons, Veh.eps, circle, normCon, List.range_succ] at he
  obtain ⟨q1, q2, q3, q4, -⟩ := old
  rcases he with rfl | rfl | rfl | rfl | rfl
  · exact q1
  · exact q2
  · exact q3
  · exact q4
  · refine const_imposed (n := 5) (v := 0) (by norm_num) (by norm_num) ?_ ?_ ?_ ?_ (fun x h0 h1 => ?_) le_rfl
    · simpa [vehCon2, Expr.sub, Expr.sq, Expr.OnIntervals] using ⟨⟨⟨o1 0, o1 1⟩, ⟨o1 0, og⟩, o1 1, o3 0⟩, o1 (3 / 2), o1 0⟩
    · simp [vehCon2, Expr.sub, Expr.sq, Expr.totalDegree, d1, d3, dg]
    · simp [vehCon2, Expr.sub, Expr.sq, Expr.totalDegree, d1, d3, dg]
    · simp [vehCon2, Expr.sub, Expr.sq, Expr.hasSpline]
    · simp [vehCon2, Expr.sub, Expr.sq, Expr.val, v1 _ x h0 h1, v3 _ x h0 h1]; norm_num

theorem leg_met (a b c : ℝ) (ha : c - 9 ≤ a) (ha' : a ≤ b) (hb : b ≤ c + 9) :
    ∃ T0, 0 < T0 ∧ ∀ T, T0 ≤ T → Frame.Met legS ⟨20, 20, (c, 0), legU a b T⟩ := by
  obtain ⟨c1, c2, c3, l1, l2, l3, g1, g2, g3, -, -, -, -, -⟩ := leg_facts a b
  obtain ⟨U, U0, hU⟩ := list_bound (c1 ++ c2)
  have zmem : ∀ {l : List ℝ} {n : ℕ}, l.length = n → (∀ j, j < n → l.getD j 0 = 0) → ∀ a ∈ l, a = 0 := fun hl hz a ha => by
    obtain ⟨j, hj, rfl⟩ := List.mem_iff_getElem.1 ha
    have := hz j (by omega)
    rwa [List.getD_eq_getElem _ _ hj] at this
  refine ⟨2 * U + 1, by linarith, fun T hT0 => ?_⟩
  obtain ⟨k1, k2, k3, m1, m2, m3, h1, h2, h3, y1, y2, y3⟩ := lvl3_facts 0
  have k1z := zmem m1 y1
  have k2z := zmem m2 y2
  have hT : (1 : ℝ) ≤ T := by linarith
  have hT2 : U ≤ T ^ 2 := by nlinarith
  refine ⟨?_, ?_, ?_, ?_, ?_, leg_avoid a b T, ?_⟩
  · show -T ≤ 0; linarith
  · intro i
    fin_cases i
    · exact ⟨_, by simp [legS, caseS], rfl⟩
    · exact ⟨_, by simp [legS, caseS], rfl⟩
  · exact fun _ _ => ⟨lvl_on 0, lvl_on 1, lvl_on _, trivial⟩
  · exact fun _ _ => lvl_on 0
  · show ∀ e ∈ holoInf (fun _ => none) (leg a b) (lvl3 0) T, e.Imposed 0
    intro e he
    have b1 : ∀ a ∈ c1, -U ≤ a ∧ a ≤ U := fun a ha => abs_le.1 (hU a (List.mem_append_left _ ha))
    have b2 : ∀ a ∈ c2, -U ≤ a ∧ a ≤ U := fun a ha => abs_le.1 (hU a (List.mem_append_right _ ha))
    simp only [holoInf, holoLim, axisC, g1, g2, h1, h2, List.mem_append, List.mem_cons, List.not_mem_nil, or_false, Option.getD_none] at he
    rcases he with (rfl | rfl | rfl | rfl) | rfl | rfl | rfl | rfl
    · exact geC_imposed fun a ha => by linarith [(b1 a ha).1]
    · exact leC_imposed fun a ha => by linarith [(b1 a ha).2]
    · exact geC_imposed fun a ha => by linarith [(b2 a ha).1]
    · exact leC_imposed fun a ha => by linarith [(b2 a ha).2]
    · exact geC_imposed fun a ha => by rw [k1z a ha]; linarith
    · exact leC_imposed fun a ha => by rw [k1z a ha]; linarith
    · exact geC_imposed fun a ha => by rw [k2z a ha]; linarith
    · exact leC_imposed fun a ha => by rw [k2z a ha]; linarith
  · show ∀ s ∈ [circle 1], ∀ e ∈ roomConsRect s (.spl (leg a b)) (.spl (lvl3 0)) (Geometry.placedRect (20 : ℝ) 20 (c, 0)).limits, e.Imposed 0
    rw [Geometry.placedRect_limits _ _ (by norm_num) (by norm_num)]
    intro s hs e he
    rw [List.mem_singleton] at hs
    subst hs
    simp [roomConsRect, circle] at he
    have hg : ∀ x ∈ (leg a b).coeffs, a ≤ x ∧ x ≤ b := fun x hx => by
      simp [leg] at hx
      rcases hx with rfl | rfl
      · exact ⟨le_rfl, ha'⟩
      · exact ⟨ha', le_rfl⟩
    have hl : ∀ a ∈ (lvl3 0).coeffs, a = 0 := fun a ha => by simp [lvl3] at ha; exact ha
    rcases he with rfl | rfl | rfl | rfl
    · exact low_imposed fun a ha => by linarith [(hg a ha).1]
    · exact high_imposed fun a ha => by linarith [(hg a ha).2]
    · exact low_imposed fun a ha => by rw [hl a ha]; linarith
    · exact high_imposed fun a ha => by rw [hl a ha]; linarith

-- from 0 to 1 in a room around 0, then to 3 in a room around 5: all hypotheses are met
example : ∃ T : ℝ, 0 < T ∧ SolvesFrames legS 0 ⟨20, 20, (0, 0), legU 0 1 T⟩ [⟨20, 20, (5, 0), legU 1 3 (2 * T)⟩] ∧
    ∃ pos vel acc : ℝ → Fin 2 → ℝ, Spec.Through legS (fun _ => [⟨circle 1, fun _ => !₂[1 / 2, 3], fun _ => 0⟩])
      [⟨20, 20, (0, 0), legU 0 1 T⟩, ⟨20, 20, (5, 0), legU 1 3 (2 * T)⟩] pos vel acc ∧ pos 0 = ![0, 0] ∧ pos (3 * T) = ![3, 0] := by
  obtain ⟨T1, h1, m1⟩ := leg_met 0 1 0 (by norm_num) (by norm_num) (by norm_num)
  obtain ⟨T2, h2, m2⟩ := leg_met 1 3 5 (by norm_num) (by norm_num) (by norm_num)
  have e1 := leg_ends 0 1
  have e2 := leg_ends 1 3
  have e0 := lvl3_ends
  have hT : 0 < T1 + T2 := by linarith
  have sol : SolvesFrames legS 0 ⟨20, 20, (0, 0), legU 0 1 (T1 + T2)⟩ [⟨20, 20, (5, 0), legU 1 3 (2 * (T1 + T2))⟩] := by
    refine ⟨fun f hf => ?_, ?_, ?_, ?_⟩
    · rcases List.mem_cons.1 hf with rfl | hf
      · exact m1 _ (by linarith)
      · rw [List.mem_singleton] at hf
        subst hf
        exact m2 _ (by linarith)
    · show MeetsInit (holoInit ![leg 0 1, lvl3 0] ⟨![0, 0], fun _ => 0, fun _ => 0⟩ _) (0 / _)
      rw [zero_div]
      intro c hc
      simp [holoInit] at hc
      rcases hc with rfl | rfl | rfl | rfl
      · exact e1.1
      · exact e0.1
      · exact e1.2.2.1
      · exact e0.2.2.1
    · show MeetsEnd (imposedFree false (holoTerm ![leg 1 3, lvl3 0] ![3, 0] 3))
      intro c hc
      simp only [imposedFree, holoTerm, Bool.false_eq_true, if_false, List.mem_append, List.mem_flatMap, List.mem_range,
        List.mem_ofFn', Set.mem_range] at hc
      rcases hc with ⟨i, rfl⟩ | ⟨d, hd', i, rfl⟩
      · fin_cases i
        · exact e2.2.1
        · exact e0.2.1
      · have hd3 : d < 3 := hd'
        fin_cases i
        · exact e2.2.2.2.2 (d + 1) (by omega) (by omega)
        · exact e0.2.2.2.2 (d + 1) (by omega) (by omega)
    · intro r hr
      have dl : (leg 0 1).basis.degree = 3 := rfl
      have dv : (lvl3 0).basis.degree = 3 := rfl
      have z : ∀ s : BSpline ℝ, s.derivative 0 = s := fun _ => rfl
      simp [connection, Frame.pair, legU, joint, dl, dv, List.range_succ, z, e1, e2, e0] at hr
      exact hr
  obtain ⟨pos, vel, acc, thr, -, p0, -, p1, -⟩ := C178_frames_partial legS (by simp [legS, caseS]) (by simp [legS, caseS]) (by simp [legS, caseS]) 0 _ _ sol
    (by
      intro f hf
      simp only [List.mem_cons, List.not_mem_nil, or_false] at hf
      rcases hf with rfl | rfl
      · exact hT.ne'
      · show 2 * (T1 + T2) ≠ 0
        linarith)
    (by
      intro f hf
      simp only [List.mem_cons, List.not_mem_nil, or_false] at hf
      rcases hf with rfl | rfl <;> norm_num)
    le_rfl hT.le (fun _ => [⟨circle 1, fun _ => !₂[1 / 2, 3], fun _ => 0⟩])
    (fun k f hf => by
      have seen : ∀ (a b T t0 : ℝ), 0 < T → Spec.Predicted [⟨circle 1, fun _ => !₂[1 / 2, 3], fun _ => 0⟩] t0 T (legU a b T) := by
        intro a b T t0 hT
        refine ⟨rfl, fun l o w ho hw => ?_⟩
        rcases l with _ | l
        · simp [legU, caseU] at ho hw
          subst ho hw
          refine ⟨rfl, rfl, fun _ => 0, ⟨lvl_on _, lvl_on _, trivial, trivial, trivial, by simp [Expr.val]⟩, fun r r0 r1 => ⟨?_, rfl⟩⟩
          · have q0 : 0 ≤ r / T := by positivity
            have q1 : r / T ≤ 1 := (div_le_one hT).2 r1
            show (!₂[(lvl 2⁻¹).eval (r / T), (lvl 3).eval (r / T)] : Pt 2) = !₂[2⁻¹, 3]
            rw [show (lvl 2⁻¹).eval (r / T) = 2⁻¹ from level (d := 1) q0 q1, show (lvl 3).eval (r / T) = 3 from level (d := 1) q0 q1]
        · simp at hw
      rcases k with _ | _ | k
      · simp at hf
        subst hf
        exact seen _ _ _ _ hT
      · simp at hf
        subst hf
        exact seen _ _ _ _ (by show 0 < 2 * (T1 + T2); linarith)
      · simp at hf)
  refine ⟨T1 + T2, hT, sol, pos, vel, acc, thr, p0, ?_⟩
  have : Spec.enter [⟨20, 20, (0, 0), legU 0 1 (T1 + T2)⟩, ⟨20, 20, (5, 0), legU 1 3 (2 * (T1 + T2))⟩] (1 + 1) = 3 * (T1 + T2) := by
    simp [Spec.enter, legU, caseU]
    ring
  have p1' : pos (Spec.enter [⟨20, 20, (0, 0), legU 0 1 (T1 + T2)⟩, ⟨20, 20, (5, 0), legU 1 3 (2 * (T1 + T2))⟩] (1 + 1)) = ![3, 0] := p1
  rwa [this] at p1'

end Case

/-! ## A segment that takes no time loosens the joints -/

section Still

/-- The straight line from 0 to 1 as a cubic spline with one knot interval. -/
noncomputable def ramp : BSpline ℝ := ⟨vehBasis 3 1, [0, 1 / 3, 2 / 3, 1]⟩
/-- A constant, likewise. -/
noncomputable def keep (c : ℝ) : BSpline ℝ := ⟨vehBasis 3 1, [c, c, c, c]⟩

theorem ramp_facts : ramp.derivative 1 = ⟨vehBasis 2 1, [1, 1, 1]⟩ ∧ ramp.derivative 2 = ⟨vehBasis 1 1, [0, 0]⟩ := by
  constructor
  · simp [ramp, BSpline.derivative, derivStep, vehBasis, List.range_succ]
    norm_num
  · simp [ramp, BSpline.derivative, derivStep, vehBasis, List.range_succ]
    norm_num

theorem keep_facts (c : ℝ) : (keep c).derivative 1 = ⟨vehBasis 2 1, [0, 0, 0]⟩ ∧ (keep c).derivative 2 = ⟨vehBasis 1 1, [0, 0]⟩ ∧
    (keep c).derivative 3 = ⟨vehBasis 0 1, [0]⟩ := by
  refine ⟨?_, ?_, ?_⟩ <;> simp [keep, BSpline.derivative, derivStep, vehBasis, List.range_succ]

noncomputable def stillS : Setup := ⟨[circle 1], 1 / 2, fun _ => none, 3, 1, ![1, 0], 20, 20, (0, 0)⟩
noncomputable def rampU : Upd := ⟨2, ![ramp, keep 0], fun _ _ => ⟨.spl (lvl 0), .spl (lvl 1), .spl (lvl 0)⟩, fun _ _ => lvl 0, [], ⟨![0, 0], ![1 / 2, 0], fun _ => 0⟩⟩
noncomputable def keepU : Upd := { rampU with T := 0, x := ![keep 1, keep 0] }

/-- **C178** For the vehicle to stop at the goal it matters that no motion time is zero: `-T ≤ 0` is all that is imposed, and with a last segment that takes no
time all constraints are met by a plan that reaches the goal at the highest allowed speed (the joint's equations read `0 = 0` beyond the position). -/
theorem C178_stop_violated : ∃ (S : Setup) (first last : Frame), 3 ≤ S.degree ∧ 1 ≤ S.intervals ∧ SolvesFrames S 0 first [last] ∧ first.seg.T = 2 ∧ last.seg.T = 0 ∧
    (fun i => first.seg.pos i 2) = S.goal ∧ first.seg.vel 0 2 = 1 / 2 := by
  obtain ⟨g1, g2⟩ := ramp_facts
  have k1 := fun c => (keep_facts c).1
  have k2 := fun c => (keep_facts c).2.1
  have k3 := fun c => (keep_facts c).2.2
  have vf := fun {d : ℕ} {c : List ℝ} (h : c.length = 1 + d) => GCode.RingGuess.veh_first (d := d) (n := 1) le_rfl h
  have r0 : ramp.eval 0 = 0 := (vf (d := 3) (c := [0, 1 / 3, 2 / 3, 1]) rfl).1
  have r1 : ramp.eval 1 = 1 := (vf (d := 3) (c := [0, 1 / 3, 2 / 3, 1]) rfl).2
  have q0 : ∀ c, (keep c).eval 0 = c := fun c => (vf (d := 3) (c := [c, c, c, c]) rfl).1
  have q1 : ∀ c, (keep c).eval 1 = c := fun c => (vf (d := 3) (c := [c, c, c, c]) rfl).2
  have e1 : (ramp.derivative 1).eval 1 = 1 := by rw [g1]; exact (vf (d := 2) (c := [1, 1, 1]) rfl).2
  have e0 : (ramp.derivative 1).eval 0 = 1 := by rw [g1]; exact (vf (d := 2) (c := [1, 1, 1]) rfl).1
  have z1 : ∀ c d, 1 ≤ d → d ≤ 3 → ((keep c).derivative d).eval 1 = 0 := fun c d d0 d1 => by
    interval_cases d
    · rw [k1]; exact (vf (d := 2) (c := [0, 0, 0]) rfl).2
    · rw [k2]; exact (vf (d := 1) (c := [0, 0]) rfl).2
    · rw [k3]; exact (vf (d := 0) (c := [0]) rfl).2
  have z0 : ∀ c, ((keep c).derivative 1).eval 0 = 0 := fun c => by rw [k1]; exact (vf (d := 2) (c := [0, 0, 0]) rfl).1
  have z0' : ∀ c, ((keep c).derivative 2).eval 0 = 0 := fun c => by rw [k2]; exact (vf (d := 1) (c := [0, 0]) rfl).1
  have lines : ∀ k l, (rampU.hyp k l).On 0 1 := fun _ _ => ⟨lvl_on 0, lvl_on 1, lvl_on _, trivial⟩
  have room : ∀ x : BSpline ℝ, (∀ a ∈ x.coeffs, 0 ≤ a ∧ a ≤ 1) → ∀ s ∈ [circle 1],
      ∀ e ∈ roomConsRect s (.spl x) (.spl (keep 0)) (Geometry.placedRect (20 : ℝ) 20 (0, 0)).limits, e.Imposed 0 := by
    intro x hx s hs e he
    rw [Geometry.placedRect_limits _ _ (by norm_num) (by norm_num)] at he
    rw [List.mem_singleton] at hs
    subst hs
    simp [roomConsRect, circle] at he
    have hl : ∀ a ∈ (keep 0).coeffs, a = 0 := fun a ha => by simp [keep] at ha; exact ha
    rcases he with rfl | rfl | rfl | rfl
    · exact low_imposed fun a ha => by linarith [(hx a ha).1]
    · exact high_imposed fun a ha => by linarith [(hx a ha).2]
    · exact low_imposed fun a ha => by rw [hl a ha]; norm_num
    · exact high_imposed fun a ha => by rw [hl a ha]; norm_num
  refine ⟨stillS, ⟨20, 20, (0, 0), rampU⟩, ⟨20, 20, (0, 0), keepU⟩, by simp [stillS], by simp [stillS], ⟨?_, ?_, ?_, ?_⟩, rfl, rfl, ?_, ?_⟩
  · intro f hf
    simp only [List.mem_cons, List.not_mem_nil, or_false] at hf
    rcases hf with rfl | rfl
    · refine ⟨by simp [rampU], fun i => ?_, lines, fun _ _ => lvl_on 0, ?_, ?_, ?_⟩
      · fin_cases i
        · exact ⟨_, by simp [stillS], rfl⟩
        · exact ⟨_, by simp [stillS], rfl⟩
      · show ∀ e ∈ holoInf (fun _ => none) ramp (keep 0) 2, e.Imposed 0
        intro e he
        simp only [holoInf, holoLim, axisC, g1, g2, k1, k2, List.mem_append, List.mem_cons, List.not_mem_nil, or_false, Option.getD_none] at he
        rcases he with (rfl | rfl | rfl | rfl) | rfl | rfl | rfl | rfl
        all_goals first
          | exact geC_imposed fun a ha => by simp at ha; subst ha; norm_num
          | exact leC_imposed fun a ha => by simp at ha; subst ha; norm_num
      · intro e he
        simp [envCons, stillS, rampU, Setup.veh, Veh.cons] at he
      · refine room ramp fun a ha => ?_
        simp [ramp] at ha
        rcases ha with rfl | rfl | rfl | rfl <;> norm_num
    · refine ⟨by simp [keepU], fun i => ?_, lines, fun _ _ => lvl_on 0, ?_, ?_, ?_⟩
      · fin_cases i
        · exact ⟨_, by simp [stillS], rfl⟩
        · exact ⟨_, by simp [stillS], rfl⟩
      · show ∀ e ∈ holoInf (fun _ => none) (keep 1) (keep 0) 0, e.Imposed 0
        intro e he
        simp only [holoInf, holoLim, axisC, k1, k2, List.mem_append, List.mem_cons, List.not_mem_nil, or_false, Option.getD_none] at he
        rcases he with (rfl | rfl | rfl | rfl) | rfl | rfl | rfl | rfl
        all_goals first
          | exact geC_imposed fun a ha => by simp at ha; subst ha; norm_num
          | exact leC_imposed fun a ha => by simp at ha; subst ha; norm_num
      · intro e he
        simp [envCons, stillS, keepU, rampU, Setup.veh, Veh.cons] at he
      · refine room (keep 1) fun a ha => ?_
        simp [keep] at ha
        subst ha
        norm_num
  · show MeetsInit (holoInit ![ramp, keep 0] ⟨![0, 0], ![1 / 2, 0], fun _ => 0⟩ 2) (0 / 2)
    rw [zero_div]
    intro c hc
    simp [holoInit] at hc
    rcases hc with rfl | rfl | rfl | rfl
    · exact r0
    · exact q0 0
    · exact e0
    · exact z0 0
  · show MeetsEnd (imposedFree false (holoTerm ![keep 1, keep 0] ![1, 0] 3))
    intro c hc
    simp only [imposedFree, holoTerm, Bool.false_eq_true, if_false, List.mem_append, List.mem_flatMap, List.mem_range,
      List.mem_ofFn', Set.mem_range] at hc
    rcases hc with ⟨i, rfl⟩ | ⟨d, hd', i, rfl⟩
    · fin_cases i
      · exact q1 1
      · exact q1 0
    · have hd3 : d < 3 := hd'
      fin_cases i
      · exact z1 1 (d + 1) (by omega) (by omega)
      · exact z1 0 (d + 1) (by omega) (by omega)
  · intro r hr
    have dl : ramp.basis.degree = 3 := rfl
    have dv : (keep 0).basis.degree = 3 := rfl
    have z : ∀ s : BSpline ℝ, s.derivative 0 = s := fun _ => rfl
    simp [connection, Frame.pair, rampU, keepU, joint, dl, dv, List.range_succ, z, r1, q0, q1, z0, z0', z1] at hr
    exact hr
  · funext i
    fin_cases i
    · show ramp.eval (2 / 2) = 1
      rw [div_self (by norm_num), r1]
    · show (keep 0).eval (2 / 2) = 0
      rw [div_self (by norm_num), q1]
  · show (ramp.derivative 1).eval (2 / 2) / 2 = 1 / 2
    rw [div_self (by norm_num), e1]

end Still

end Verif.Problems
