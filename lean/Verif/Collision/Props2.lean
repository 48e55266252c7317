import Verif.Collision.Env
import Verif.Spline.Affine

/-! # Properties C10-C12 for the whole constraint-creating loops, and concrete cases -/

set_option linter.unusedSectionVars false

namespace Verif.Collision

open Verif.Spline Expr
open scoped RealInnerProductSpace

/-- **C10** If all constraints created by `Environment.define_collision_constraints` are satisfied,
then at every time every shape of the vehicle keeps, from every obstacle that is to be avoided, the
safety distance up to the slack of that pair; the slack never exceeds the safety distance.  Without a
safety distance the two do not overlap: their cores stay apart by both radii. -/
theorem C10_environment (v : Veh) (obs : List Obs) (hyp : ℕ → ℕ → Hyp) (lo hi : ℝ) (φ : ℕ → ℝ → ℝ)
    (hv : v.On lo hi) (hh : ∀ k l, (hyp k l).On lo hi)
    (ho : ∀ (l : ℕ) (o : Obs), obs[l]? = some o → o.On lo hi (φ l))
    (himp : ∀ e ∈ envCons v obs hyp, e.Imposed 0)
    (s : ℕ) (shape : Shape 2) (hs : v.shapes[s]? = some shape)
    (l : ℕ) (o : Obs) (hl : obs[l]? = some o) (hav : o.avoid = true) (x : ℝ) (h0 : lo ≤ x) (h1 : x ≤ hi) :
    let ε := (v.eps s (avoidedBefore obs l)).val x
    (∀ p ∈ v.regionAt s shape x, ∀ q ∈ o.regionAt (φ l x) x, v.sd - ε ≤ dist p q) ∧
    (∀ p ∈ v.coreAt s shape x, ∀ q ∈ o.coreAt (φ l x) x, v.sd - ε + shape.rad + o.shape.rad ≤ dist p q) ∧
    (0 < v.sd → 0 ≤ ε ∧ ε ≤ v.sd) := by
  intro ε
  obtain ⟨oa0, oa1, ob, hsp⟩ := hh s l
  obtain ⟨oq0, oq1, ow, oc, os, hrot⟩ := ho l o hl
  obtain ⟨w1, w2, w3⟩ := hrot x h0 h1
  have himp1 : ∀ e, e ∈ (normCon [(hyp s l).a0, (hyp s l).a1] ::
      o.cons ((List.range (s + 1)).map fun k' => hyp k' l)) → e.Imposed 0 := by
    intro e he
    refine himp e (List.mem_append_left _ (List.mem_flatMap.2 ⟨(shape, s), mem_zipIdx'.2 hs,
      List.mem_flatMap.2 ⟨(o, l), mem_zipIdx'.2 hl, ?_⟩⟩))
    show e ∈ (if o.avoid = true then _ else _)
    rw [if_pos hav]
    exact he
  obtain ⟨c1, c2⟩ := Veh.cons_spec hv (hyps := fun k =>
      (obs.zipIdx.filter fun (o, _) => o.avoid).map fun (_, l) => hyp k l)
    (fun e he => himp e (List.mem_append_right _ he)) hs (k := avoidedBefore obs l) (h := hyp s l)
    (by
      show (((obs.zipIdx.filter fun (o, _) => o.avoid).map fun (_, l) => hyp s l))[_]? = _
      rw [List.getElem?_map, avoid_getElem? obs 0 hl hav, Option.map_some, zero_add]) (hh s l) h0 h1
  have both := C10_2d_at shape o.shape (hyp s l).a0 (hyp s l).a1 (hyp s l).b v.tg (v.p0 s) (v.p1 s)
    (v.eps s (avoidedBefore obs l)) o.q0 o.q1 o.w o.co o.si v.offset v.sd x (φ l x) w1 w2 w3 ?_ c1 ?_
  · exact ⟨both.1, both.2, c2⟩
  · refine C53_imposed _ ?_ ?_ 0 (himp1 _ List.mem_cons_self) x h0 h1
    · simp [normCon, Expr.sub, Expr.On, oa0, oa1]
    · simp [normCon, Expr.sub, Expr.hasSpline, hsp]
  · intro c hc
    refine C53_imposed _ ?_ ?_ 0 (himp1 _ (List.mem_cons_of_mem _ (List.mem_flatMap.2 ⟨hyp s l,
      List.mem_map.2 ⟨s, List.mem_range.2 (Nat.lt_succ_self s), rfl⟩, List.mem_map_of_mem hc⟩))) x h0 h1
    · simp [obsCon2, Expr.sub, Expr.On, oa0, oa1, ob, oq0, oq1, ow, oc, os]
    · simp [obsCon2, Expr.sub, Expr.hasSpline, hsp]

/-! ## C12 -/

theorem mem_interPairs {vs : List Veh} {i j s t : ℕ} {v w : Veh} {sh sh' : Shape 2}
    (hij : i < j) (hi : vs[i]? = some v) (hj : vs[j]? = some w) (hs : v.shapes[s]? = some sh)
    (ht : w.shapes[t]? = some sh') : ((i, s), (j, t)) ∈ interPairs vs := by
  refine List.mem_flatMap.2 ⟨(v, i), mem_zipIdx'.2 hi, List.mem_flatMap.2 ⟨(w, j), ?_,
    List.mem_flatMap.2 ⟨(sh, s), mem_zipIdx'.2 hs, List.mem_map.2 ⟨(sh', t), mem_zipIdx'.2 ht, rfl⟩⟩⟩⟩
  have : (vs.zipIdx.drop (i + 1))[j - (i + 1)]? = some (w, j) := by
    rw [List.getElem?_drop, show i + 1 + (j - (i + 1)) = j by omega, List.getElem?_zipIdx, hj]
    simp
  exact List.mem_of_getElem? this

/-- **C12** If all constraints created by `define_intervehicle_collision_constraints` are satisfied
then at every time any two different vehicles of the fleet are apart, shape by shape, by both
safety distances up to the slacks `ε₁`, `ε₂` of the pair, which never exceed the safety distances; and their cores are apart by both
radii on top of that, so that the vehicles do not overlap either when there is no safety distance. -/
theorem C12_fleet (vs : List Veh) (hyp : ℕ × ℕ → ℕ × ℕ → Hyp) (lo hi : ℝ)
    (hv : ∀ v ∈ vs, v.On lo hi) (hh : ∀ p q, (hyp p q).On lo hi)
    (himp : ∀ e ∈ interCons vs hyp, e.Imposed 0)
    (i j : ℕ) (hij : i ≠ j) (v w : Veh) (hi' : vs[i]? = some v) (hj' : vs[j]? = some w)
    (s t : ℕ) (sh sh' : Shape 2) (hs : v.shapes[s]? = some sh) (ht : w.shapes[t]? = some sh')
    (x : ℝ) (h0 : lo ≤ x) (h1 : x ≤ hi) :
    ∃ k₁ k₂ : ℕ, ∃ ε₁ ε₂ : ℝ, ε₁ = (v.eps s k₁).val x ∧ ε₂ = (w.eps t k₂).val x ∧
      (∀ p ∈ v.regionAt s sh x, ∀ q ∈ w.regionAt t sh' x, (v.sd - ε₁) + (w.sd - ε₂) ≤ dist p q) ∧
      (∀ p ∈ v.coreAt s sh x, ∀ q ∈ w.coreAt t sh' x, (v.sd - ε₁) + (w.sd - ε₂) + sh.rad + sh'.rad ≤ dist p q) ∧
      (0 < v.sd → 0 ≤ ε₁ ∧ ε₁ ≤ v.sd) ∧ (0 < w.sd → 0 ≤ ε₂ ∧ ε₂ ≤ w.sd) := by
  wlog hlt : i < j generalizing i j v w s t sh sh'
  · obtain ⟨k₁, k₂, ε₁, ε₂, e1, e2, e3, e6, e4, e5⟩ := this j i hij.symm w v hj' hi' t s sh' sh ht hs (by omega)
    refine ⟨k₂, k₁, ε₂, ε₁, e2, e1, fun p hp q hq => ?_, fun p hp q hq => ?_, e5, e4⟩
    · rw [dist_comm]
      have := e3 q hq p hp
      linarith
    · rw [dist_comm]
      have := e6 q hq p hp
      linarith
  have hq := mem_interPairs hlt hi' hj' hs ht
  have hH := hh (i, s) (j, t)
  obtain ⟨oa0, oa1, ob, hsp⟩ := hH
  have hn := C53_imposed (normCon [(hyp (i, s) (j, t)).a0, (hyp (i, s) (j, t)).a1])
    (by simp [normCon, Expr.sub, Expr.On, oa0, oa1]) (by simp [normCon, Expr.sub, Expr.hasSpline, hsp]) 0
    (himp _ (List.mem_append_left _ (List.mem_map.2 ⟨_, hq, rfl⟩))) x h0 h1
  have m1 : hyp (i, s) (j, t) ∈ interHyps vs hyp i s :=
    List.mem_filterMap.2 ⟨_, hq, by simp⟩
  have m2 : (hyp (i, s) (j, t)).flip ∈ interHyps vs hyp j t :=
    List.mem_filterMap.2 ⟨_, hq, by simp [hij]⟩
  obtain ⟨k₁, hk₁⟩ := List.mem_iff_getElem?.1 m1
  obtain ⟨k₂, hk₂⟩ := List.mem_iff_getElem?.1 m2
  have vc : ∀ (i : ℕ) (v : Veh), vs[i]? = some v → ∀ e ∈ v.cons (interHyps vs hyp i), e.Imposed 0 :=
    fun i v h e he => himp e (List.mem_append_right _ (List.mem_flatMap.2 ⟨(v, i), mem_zipIdx'.2 h, he⟩))
  obtain ⟨c1, c2⟩ := Veh.cons_spec (hv v (List.mem_of_getElem? hi')) (vc i v hi') hs hk₁ (hh _ _) h0 h1
  obtain ⟨d1, d2⟩ := Veh.cons_spec (hv w (List.mem_of_getElem? hj')) (vc j w hj') ht hk₂
    (show Hyp.On (hyp (i, s) (j, t)).flip lo hi from ⟨oa0, oa1, ob, hsp⟩) h0 h1
  refine ⟨k₁, k₂, _, _, rfl, rfl, ?_, ?_, c2, d2⟩
  all_goals
    set a : Pt 2 := !₂[(hyp (i, s) (j, t)).a0.val x, (hyp (i, s) (j, t)).a1.val x] with hadef
    have ha : ‖a‖ ≤ 1 := by
      apply norm_le_one2
      simp only [normCon, List.foldl_cons, List.foldl_nil, Expr.sub, Expr.val] at hn
      show (hyp (i, s) (j, t)).a0.val x * (hyp (i, s) (j, t)).a0.val x
        + (hyp (i, s) (j, t)).a1.val x * (hyp (i, s) (j, t)).a1.val x - 1 ≤ 0
      linarith
    have hflip : (!₂[(hyp (i, s) (j, t)).flip.a0.val x, (hyp (i, s) (j, t)).flip.a1.val x] : Pt 2) = -a := by
      ext n; fin_cases n <;> rfl
    obtain ⟨v1, v2⟩ := halfspace sh a _ (rotL _) (norm_rot _) ha _
      (fun c hc => vehCon2_val _ _ _ _ _ _ _ _ _ c _ x (c1 c hc))
    obtain ⟨o1, o2⟩ := halfspace sh' (-a) _ (rotL _) (norm_rot _) (by rwa [norm_neg]) _
      (fun c hc => by
        have := vehCon2_val _ _ _ _ _ _ _ _ _ c _ x (d1 c hc)
        rw [hflip] at this
        exact this)
    have hb : (hyp (i, s) (j, t)).flip.b.val x = - (hyp (i, s) (j, t)).b.val x := rfl
    rw [hb] at o1 o2
  · rintro _ ⟨p, hp, rfl⟩ _ ⟨q, hq, rfl⟩
    have g1 := v2 p hp
    have g2 := o2 q hq
    rw [inner_neg_left] at g2
    have := separated ha g1 (neg_le_of_neg_le g2)
    refine le_trans (le_of_eq ?_) this
    ring
  · rintro _ ⟨p, hp, rfl⟩ _ ⟨q, hq, rfl⟩
    have g1 := le_sub_iff_add_le.2 (v1 p hp)
    have g2 := le_sub_iff_add_le.2 (o1 q hq)
    rw [inner_neg_left] at g2
    have := separated ha g1 (neg_le_of_neg_le g2)
    refine le_trans (le_of_eq ?_) this
    ring

/-! ## C11 -/

/-- **C11** (upright rectangular room, disc or upright rectangular vehicle) If the room constraints
hold, every point of the vehicle is inside the room, at every time. -/
theorem C11_rectangle (s : Shape 2) (p0 p1 : Expr ℝ) (w h lo hi : ℝ) (hw : 0 ≤ w) (hh : 0 ≤ h) (rpos : ℝ × ℝ)
    (on : p0.On lo hi ∧ p1.On lo hi) (sp : p0.hasSpline ∧ p1.hasSpline)
    (himp : ∀ e ∈ roomConsRect s p0 p1 (Geometry.placedRect w h rpos).limits, e.Imposed 0)
    (x : ℝ) (h0 : lo ≤ x) (h1 : x ≤ hi) :
    ∀ p ∈ shifted !₂[p0.val x, p1.val x] s.region, Geometry.InRect w h rpos (p 0, p 1) := by
  rw [Geometry.placedRect_limits w h hw hh] at himp
  have val : ∀ c ∈ s.chk, ∀ e, e ∈ [roomLow p0 (-(w / 2) + rpos.1) (c 0) s.rad,
      roomHigh p0 (w / 2 + rpos.1) (c 0) s.rad, roomLow p1 (-(h / 2) + rpos.2) (c 1) s.rad,
      roomHigh p1 (h / 2 + rpos.2) (c 1) s.rad] → e.val x ≤ 0 := by
    intro c hc e he
    have hi := himp e (List.mem_flatMap.2 ⟨c, hc, he⟩)
    refine C53_imposed e ?_ ?_ 0 hi x h0 h1 <;>
    · simp only [List.mem_cons, List.not_mem_nil, or_false] at he
      rcases he with rfl | rfl | rfl | rfl <;>
        simp [roomLow, roomHigh, Expr.sub, Expr.On, Expr.hasSpline, on.1, on.2, sp.1, sp.2]
  rintro _ ⟨p, hp, rfl⟩
  have key : ∀ (a : Pt 2) (β : ℝ), ‖a‖ ≤ 1 →
      (∀ c ∈ s.chk, ⟪a, (!₂[p0.val x, p1.val x] : Pt 2) + c⟫ + s.rad ≤ β) →
      ⟪a, (!₂[p0.val x, p1.val x] : Pt 2) + p⟫ ≤ β := fun a β ha hc =>
    (halfspace s a _ LinearMap.id (fun _ => rfl) ha β hc).2 p hp
  have k1 := key !₂[1, 0] (w / 2 + rpos.1) (norm_le_one2 _ (by norm_num)) (by
    intro c hc
    have := val c hc (roomHigh p0 (w / 2 + rpos.1) (c 0) s.rad) (by simp)
    simp only [roomHigh, Expr.sub, Expr.val] at this
    rw [inner2]
    show (1 : ℝ) * (p0.val x + c 0) + 0 * (p1.val x + c 1) + s.rad ≤ _
    linarith)
  have k2 := key !₂[-1, 0] (w / 2 - rpos.1) (norm_le_one2 _ (by norm_num)) (by
    intro c hc
    have := val c hc (roomLow p0 (-(w / 2) + rpos.1) (c 0) s.rad) (by simp)
    simp only [roomLow, Expr.val] at this
    rw [inner2]
    show (-1 : ℝ) * (p0.val x + c 0) + 0 * (p1.val x + c 1) + s.rad ≤ _
    linarith)
  have k3 := key !₂[0, 1] (h / 2 + rpos.2) (norm_le_one2 _ (by norm_num)) (by
    intro c hc
    have := val c hc (roomHigh p1 (h / 2 + rpos.2) (c 1) s.rad) (by simp)
    simp only [roomHigh, Expr.sub, Expr.val] at this
    rw [inner2]
    show (0 : ℝ) * (p0.val x + c 0) + 1 * (p1.val x + c 1) + s.rad ≤ _
    linarith)
  have k4 := key !₂[0, -1] (h / 2 - rpos.2) (norm_le_one2 _ (by norm_num)) (by
    intro c hc
    have := val c hc (roomLow p1 (-(h / 2) + rpos.2) (c 1) s.rad) (by simp)
    simp only [roomLow, Expr.val] at this
    rw [inner2]
    show (0 : ℝ) * (p0.val x + c 0) + (-1) * (p1.val x + c 1) + s.rad ≤ _
    linarith)
  rw [inner2] at k1 k2 k3 k4
  rw [Geometry.inRect_iff]
  simp only [PiLp.add_apply] at k1 k2 k3 k4 ⊢
  norm_num at k1 k2 k3 k4 ⊢
  exact ⟨⟨by linarith, by linarith⟩, by linarith, by linarith⟩

theorem roomHyp_val (hp : (ℝ × ℝ) × ℝ) (tg p0 p1 : Expr ℝ) (offset : ℝ) (c : Pt 2) (rad x : ℝ)
    (h : (roomHyp hp tg p0 p1 offset c rad).val x ≤ 0) :
    ⟪(!₂[hp.1.1, hp.1.2] : Pt 2), carried (p0.val x) (p1.val x) offset (heading (tg.val x))
      + rotL (heading (tg.val x)) c⟫ + rad ≤ hp.2 := by
  have := vehCon2_val (.num hp.1.1) (.num hp.1.2) (.num hp.2) tg p0 p1 (.num 0) offset 0 c rad x (by
    simp only [roomHyp, vehCon2, Expr.sub, Expr.sq, Expr.val] at h ⊢
    linarith)
  simpa [Expr.val] using this

/-- **C11** (polyhedral room, any vehicle shape, any heading, with offset) If the room constraints
hold, every point of the vehicle is inside the room, at every time. -/
theorem C11_polyhedron (s : Shape 2) (tg p0 p1 : Expr ℝ) (offset lo hi : ℝ) (vs : List (ℝ × ℝ))
    (hvs : Geometry.ConvexCW vs) (rpos : ℝ × ℝ)
    (on : tg.On lo hi ∧ p0.On lo hi ∧ p1.On lo hi) (sp : p0.hasSpline)
    (himp : ∀ e ∈ roomConsHyp s tg p0 p1 offset vs rpos, e.Imposed 0)
    (x : ℝ) (h0 : lo ≤ x) (h1 : x ≤ hi) :
    ∀ p ∈ placed (carried (p0.val x) (p1.val x) offset (heading (tg.val x))) (heading (tg.val x)) s.region,
      (p 0 - rpos.1, p 1 - rpos.2) ∈ convexHull ℝ {v | v ∈ vs} := by
  rintro _ ⟨p, hp, rfl⟩
  set q : Pt 2 := carried (p0.val x) (p1.val x) offset (heading (tg.val x)) + rot (heading (tg.val x)) p with hq
  refine (Geometry.C39_exact vs hvs (q 0, q 1) rpos).1 ?_
  unfold Geometry.pointInPolyhedron
  rw [List.all_eq_true]
  intro hpl hmem
  have hnorm : ‖(!₂[hpl.1.1, hpl.1.2] : Pt 2)‖ ≤ 1 := by
    unfold Geometry.hyperplanes at hmem
    obtain ⟨e, he, rfl⟩ := List.mem_map.1 hmem
    obtain ⟨k, hk, rfl⟩ := (Geometry.mem_edges (0, 0) vs e).1 he
    have hne := Geometry.edge_length_pos (Geometry.convexCW_ne hvs hk)
    refine norm_le_one2 _ (le_of_eq ?_)
    have hs : Real.sqrt (((vs.getD ((k + 1) % vs.length) (0, 0)).1 - (vs.getD k (0, 0)).1) ^ 2 +
        ((vs.getD ((k + 1) % vs.length) (0, 0)).2 - (vs.getD k (0, 0)).2) ^ 2) ^ 2
        = ((vs.getD ((k + 1) % vs.length) (0, 0)).1 - (vs.getD k (0, 0)).1) ^ 2 +
        ((vs.getD ((k + 1) % vs.length) (0, 0)).2 - (vs.getD k (0, 0)).2) ^ 2 := Real.sq_sqrt hne.le
    have hpos := Real.sqrt_pos.2 hne
    show (Geometry.hyperplane rpos (_, _)).1.1 * (Geometry.hyperplane rpos (_, _)).1.1
      + (Geometry.hyperplane rpos (_, _)).1.2 * (Geometry.hyperplane rpos (_, _)).1.2 - 1 = 0
    unfold Geometry.hyperplane
    dsimp only
    field_simp
    linarith
  have := (halfspace s _ _ (rotL _) (norm_rot _) hnorm hpl.2 (fun c hc => roomHyp_val hpl tg p0 p1 offset c _ x
    (C53_imposed _ (by simp [roomHyp, Expr.sub, Expr.sq, Expr.On, on.1, on.2.1, on.2.2])
      (by simp [roomHyp, Expr.sub, Expr.sq, Expr.hasSpline, sp]) 0
      (himp _ (List.mem_flatMap.2 ⟨c, hc, List.mem_map.2 ⟨hpl, hmem, rfl⟩⟩)) x h0 h1))).2 p hp
  rw [inner2] at this
  have : hpl.1.1 * q 0 + hpl.1.2 * q 1 ≤ hpl.2 := this
  simp only [decide_eq_true_eq, gt_iff_lt, not_lt]
  linarith

/-- **C11** (space) What the code guarantees: the hull of the checkpoints is inside the room.  Missing
from the full statement: the points within the checkpoint radius, see `C11_3d_violated`. -/
theorem C11_3d_partial (s : Shape 3) (p : Fin 3 → Expr ℝ) (rlo rhi : Fin 3 → ℝ) (lo hi : ℝ)
    (on : ∀ k, (p k).On lo hi) (sp : ∀ k, (p k).hasSpline)
    (himp : ∀ e ∈ roomCons3 s p rlo rhi, e.Imposed 0) (x : ℝ) (h0 : lo ≤ x) (h1 : x ≤ hi) :
    ∀ q ∈ shifted !₂[(p 0).val x, (p 1).val x, (p 2).val x] s.core, ∀ k, rlo k ≤ q k ∧ q k ≤ rhi k := by
  have val : ∀ c ∈ s.chk, ∀ k : Fin 3, rlo k ≤ (p k).val x + c k ∧ (p k).val x + c k ≤ rhi k := by
    intro c hc k
    have hk : k ∈ ([0, 1, 2] : List (Fin 3)) := by fin_cases k <;> simp
    have i1 := C53_imposed (roomLow (p k) (rlo k) (c k) 0) (by simp [roomLow, Expr.On, on]) (by
      simp [roomLow, Expr.hasSpline, sp]) 0 (himp _ (List.mem_flatMap.2 ⟨c, hc, List.mem_flatMap.2 ⟨k, hk, by simp⟩⟩))
      x h0 h1
    have i2 := C53_imposed (roomHigh (p k) (rhi k) (c k) 0) (by simp [roomHigh, Expr.sub, Expr.On, on]) (by
      simp [roomHigh, Expr.sub, Expr.hasSpline, sp]) 0
      (himp _ (List.mem_flatMap.2 ⟨c, hc, List.mem_flatMap.2 ⟨k, hk, by simp⟩⟩)) x h0 h1
    simp only [roomLow, roomHigh, Expr.sub, Expr.val] at i1 i2
    exact ⟨by linarith, by linarith⟩
  rintro _ ⟨q, hq, rfl⟩ k
  have e : (!₂[(p 0).val x, (p 1).val x, (p 2).val x] : Pt 3) k = (p k).val x := by fin_cases k <;> rfl
  rw [PiLp.add_apply, e]
  have hconv : Convex ℝ {q : Pt 3 | rlo k ≤ (p k).val x + q k ∧ (p k).val x + q k ≤ rhi k} := by
    rintro u ⟨u1, u2⟩ w ⟨w1, w2⟩ α β hα hβ hαβ
    show rlo k ≤ (p k).val x + (α * u k + β * w k) ∧ (p k).val x + (α * u k + β * w k) ≤ rhi k
    have hα' : α = 1 - β := by linarith
    subst hα'
    constructor <;> nlinarith
  exact convexHull_min (fun c hc => val c hc k) hconv hq

/-! ## Concrete cases -/

/-- Evaluate an expression of constant and linear splines. -/
macro "aff" : tactic => `(tactic| (
  apply Aff.imposed
  · repeat' first
      | exact Aff.num _
      | exact Aff.const _
      | exact Aff.line _ _
      | apply Aff.neg
      | apply Aff.add
      | apply Aff.mul
      | rfl))

/-- A disc of radius `1` driving along `y = -3` from `x = -5` to `x = 5`, safety distance `1/2`. -/
noncomputable def exVeh : Veh where
  shapes := [circle 1]
  p0 := fun _ => .spl ⟨L1, [-5, 5]⟩
  p1 := fun _ => .spl ⟨L1, [-3, -3]⟩
  tg := .num 0
  offset := 0
  sd := 1 / 2
  epsVar := fun _ _ => ⟨L0, [0]⟩

/-- A disc of radius `1` standing in the origin. -/
noncomputable def exObs : Obs := ⟨circle 1, .spl ⟨L1, [0, 0]⟩, .spl ⟨L1, [0, 0]⟩, .num 1, .num 1, .num 0, true⟩
/-- An obstacle on the path that need not be avoided. -/
noncomputable def exObs' : Obs := ⟨circle 1, .spl ⟨L1, [0, 0]⟩, .spl ⟨L1, [-3, -3]⟩, .num 1, .num 1, .num 0, false⟩

/-- The separating line `y = -1`. -/
noncomputable def exHyp : Hyp := ⟨.spl ⟨L0, [0]⟩, .spl ⟨L0, [1]⟩, .spl ⟨L0, [-1]⟩⟩

theorem exVeh_on : exVeh.On 0 1 := ⟨trivial, fun _ => L1_on _ _, fun _ => L1_on _ _, fun _ _ => L0_on _⟩
theorem exHyp_on : exHyp.On 0 1 := ⟨L0_on _, L0_on _, L0_on _, trivial⟩

theorem exEnv_imposed : ∀ e ∈ envCons exVeh [exObs', exObs] (fun _ _ => exHyp), e.Imposed 0 := by
  intro e he
  simp [envCons, exVeh, exObs, exObs', Obs.cons, Veh.cons, Veh.eps, circle, normCon,
    List.range_succ] at he
  rcases he with rfl | rfl | rfl | rfl | rfl
  · unfold exHyp Expr.sub; aff <;> norm_num
  · unfold exHyp obsCon2 Expr.sub; dsimp only; aff <;> norm_num
  · unfold Expr.sub; aff <;> norm_num
  · aff <;> norm_num
  · unfold exHyp vehCon2 Expr.sub Expr.sq; dsimp only; aff <;> norm_num

example (x : ℝ) (h0 : 0 ≤ x) (h1 : x ≤ 1) :
    ∀ p ∈ exVeh.regionAt 0 (circle 1) x, ∀ q ∈ exObs.regionAt 0 x, 1 / 2 ≤ dist p q := by
  have := (C10_environment exVeh [exObs', exObs] (fun _ _ => exHyp) 0 1 (fun _ _ => 0) exVeh_on
    (fun _ _ => exHyp_on) (by
      intro l o hl
      have : l = 0 ∨ l = 1 := by
        by_contra hc
        have : ([exObs', exObs] : List Obs)[l]? = none := List.getElem?_eq_none (by simp; omega)
        rw [this] at hl; cases hl
      rcases this with rfl | rfl <;> simp at hl <;> subst hl <;>
        exact ⟨L1_on _ _, L1_on _ _, trivial, trivial, trivial, by simp [exObs, exObs', Expr.val]⟩)
    exEnv_imposed 0 (circle 1) rfl 1 exObs rfl rfl x h0 h1).1
  intro p hp q hq
  have h := this p hp q hq
  have e : (exVeh.eps 0 (avoidedBefore [exObs', exObs] 1)).val x = 0 := by
    unfold Veh.eps
    rw [if_pos (by norm_num [exVeh])]
    exact L0_eval 0 h0 h1
  rw [e, sub_zero] at h
  exact h

/-- Two discs on parallel tracks. -/
noncomputable def exVeh2 : Veh := { exVeh with p1 := fun _ => .spl ⟨L1, [3, 2]⟩ }

noncomputable def exHyp2 : Hyp := ⟨.spl ⟨L0, [0]⟩, .spl ⟨L0, [1]⟩, .spl ⟨L0, [0]⟩⟩

theorem exInter_imposed : ∀ e ∈ interCons [exVeh, exVeh2] (fun _ _ => exHyp2), e.Imposed 0 := by
  intro e he
  have hp : interPairs [exVeh, exVeh2] = [((0, 0), (1, 0))] := by
    simp [interPairs, exVeh, exVeh2]
  unfold interCons interHyps at he
  rw [hp] at he
  simp [Veh.cons, Veh.eps, exVeh, exVeh2, circle, normCon] at he
  rcases he with rfl | rfl | rfl | rfl | rfl | rfl | rfl
  all_goals
    first
      | (unfold exHyp2 Expr.sub; aff <;> norm_num)
      | (unfold Expr.sub; aff <;> norm_num)
      | (aff <;> norm_num)

example (x : ℝ) (h0 : 0 ≤ x) (h1 : x ≤ 1) :
    ∀ p ∈ exVeh2.regionAt 0 (circle 1) x, ∀ q ∈ exVeh.regionAt 0 (circle 1) x, 1 ≤ dist p q := by
  obtain ⟨k₁, k₂, ε₁, ε₂, rfl, rfl, h, -, -⟩ := C12_fleet [exVeh, exVeh2] (fun _ _ => exHyp2) 0 1
    (by
      intro v hv
      simp at hv
      rcases hv with rfl | rfl
      · exact exVeh_on
      · exact ⟨trivial, fun _ => L1_on _ _, fun _ => L1_on _ _, fun _ _ => L0_on _⟩)
    (fun _ _ => ⟨L0_on _, L0_on _, L0_on _, trivial⟩) exInter_imposed 1 0 (by norm_num) exVeh2 exVeh rfl rfl
    0 0 (circle 1) (circle 1) rfl rfl x h0 h1
  intro p hp q hq
  have h := h p hp q hq
  have e : ∀ k, (exVeh.eps 0 k).val x = 0 := fun k => by
    unfold Veh.eps
    rw [if_pos (by norm_num [exVeh])]
    exact L0_eval 0 h0 h1
  have e' : (exVeh2.eps 0 k₁).val x = 0 := e k₁
  rw [e, e', show exVeh.sd = 1 / 2 from rfl, show exVeh2.sd = 1 / 2 from rfl] at h
  linarith

/-- A disc of radius `1` that drives through a room of 20 by 10. -/
theorem exRoom_imposed : ∀ e ∈ roomConsRect (circle 1) (.spl ⟨L1, [-5, 5]⟩) (.spl ⟨L1, [-3, -3]⟩)
    (Geometry.placedRect (20 : ℝ) 10 (0, 0)).limits, e.Imposed 0 := by
  rw [Geometry.placedRect_limits _ _ (by norm_num) (by norm_num)]
  intro e he
  simp [roomConsRect, circle] at he
  rcases he with rfl | rfl | rfl | rfl
  · unfold roomLow; aff <;> norm_num
  · unfold roomHigh Expr.sub; aff <;> norm_num
  · unfold roomLow; aff <;> norm_num
  · unfold roomHigh Expr.sub; aff <;> norm_num

example (x : ℝ) (h0 : 0 ≤ x) (h1 : x ≤ 1) :
    ∀ p ∈ shifted !₂[(Expr.spl (⟨L1, [-5, 5]⟩ : BSpline ℝ)).val x, (Expr.spl (⟨L1, [-3, -3]⟩ : BSpline ℝ)).val x]
      (circle 1).region, Geometry.InRect 20 10 (0, 0) (p 0, p 1) :=
  C11_rectangle _ _ _ 20 10 0 1 (by norm_num) (by norm_num) (0, 0) ⟨L1_on _ _, L1_on _ _⟩ ⟨trivial, trivial⟩
    exRoom_imposed x h0 h1

theorem exRoom2_imposed : ∀ e ∈ roomConsHyp (circle 1) (.num 0) (.spl ⟨L1, [-5, 5]⟩) (.spl ⟨L1, [-3, -3]⟩) 0
    (Geometry.rectVertices 20 10) (0, 0), e.Imposed 0 := by
  intro e he
  have s20 : Real.sqrt (20 ^ 2) = 20 := Real.sqrt_sq (by norm_num)
  have s10 : Real.sqrt (10 ^ 2) = 10 := Real.sqrt_sq (by norm_num)
  have s400 : Real.sqrt 400 = 20 := by rw [← s20]; norm_num
  have s100 : Real.sqrt 100 = 10 := by rw [← s10]; norm_num
  norm_num [roomConsHyp, circle, Geometry.hyperplanes, Geometry.edges, Geometry.rectVertices,
    Geometry.hyperplane, s20, s10, s400, s100, List.rotate] at he
  rcases he with rfl | rfl | rfl | rfl <;>
  · unfold roomHyp Expr.sub Expr.sq; dsimp only; aff <;> norm_num

example (x : ℝ) (h0 : 0 ≤ x) (h1 : x ≤ 1) :
    ∀ p ∈ placed (carried ((Expr.spl (⟨L1, [-5, 5]⟩ : BSpline ℝ)).val x)
      ((Expr.spl (⟨L1, [-3, -3]⟩ : BSpline ℝ)).val x) 0 (heading ((Expr.num (0 : ℝ)).val x)))
      (heading ((Expr.num (0 : ℝ)).val x)) (circle 1).region,
      (p 0 - (0 : ℝ), p 1 - (0 : ℝ)) ∈ convexHull ℝ {v | v ∈ Geometry.rectVertices (20 : ℝ) 10} :=
  C11_polyhedron (circle 1) (.num 0) (.spl ⟨L1, [-5, 5]⟩) (.spl ⟨L1, [-3, -3]⟩) 0 0 1 _ (Geometry.rect_convexCW 20 10 (by norm_num) (by norm_num)) (0, 0)
    ⟨trivial, L1_on _ _, L1_on _ _⟩ trivial exRoom2_imposed x h0 h1

/-- The path of the centre of a ball of radius `1`: from the centre of a cube room of side `20` to one
of its walls. -/
noncomputable def exPath : Fin 3 → Expr ℝ := ![.spl ⟨L1, [0, 10]⟩, .spl ⟨L1, [0, 0]⟩, .spl ⟨L1, [0, 0]⟩]

theorem exPath_on (k : Fin 3) : (exPath k).On 0 1 ∧ (exPath k).hasSpline := by
  fin_cases k <;> exact ⟨L1_on _ _, trivial⟩

theorem exPath_imposed : ∀ e ∈ roomCons3 (sphere 1) exPath (fun _ => -10) (fun _ => 10), e.Imposed 0 := by
  intro e he
  simp [roomCons3, sphere, exPath] at he
  rcases he with rfl | rfl | rfl | rfl | rfl | rfl <;>
  · first | (unfold roomLow; aff <;> norm_num) | (unfold roomHigh Expr.sub; aff <;> norm_num)

example (x : ℝ) (h0 : 0 ≤ x) (h1 : x ≤ 1) :
    ∀ q ∈ shifted !₂[(exPath 0).val x, (exPath 1).val x, (exPath 2).val x] (sphere 1).core,
      ∀ k : Fin 3, (fun _ => (-10 : ℝ)) k ≤ q k ∧ q k ≤ (fun _ => (10 : ℝ)) k :=
  C11_3d_partial _ _ _ _ 0 1 (fun k => (exPath_on k).1) (fun k => (exPath_on k).2) exPath_imposed x h0 h1

/-- In space the room constraints ignore the radius: a ball of radius `1` may satisfy all of them and
stick out of the room. -/
theorem C11_3d_violated :
    ∃ (s : Shape 3) (p : Fin 3 → Expr ℝ) (rlo rhi : Fin 3 → ℝ) (lo hi : ℝ),
      (∀ k, (p k).On lo hi) ∧ (∀ k, (p k).hasSpline) ∧ (∀ e ∈ roomCons3 s p rlo rhi, e.Imposed 0) ∧
      ∃ x, lo ≤ x ∧ x ≤ hi ∧ ∃ q ∈ shifted !₂[(p 0).val x, (p 1).val x, (p 2).val x] s.region,
        ¬ ∀ k, rlo k ≤ q k ∧ q k ≤ rhi k := by
  refine ⟨sphere 1, exPath, fun _ => -10, fun _ => 10, 0, 1, fun k => (exPath_on k).1, fun k => (exPath_on k).2,
    exPath_imposed, 1, by norm_num, le_rfl, _, ⟨!₂[1, 0, 0], ⟨!₂[0, 0, 0], ?_, ?_⟩, rfl⟩, ?_⟩
  · exact subset_convexHull ℝ _ (by simp [sphere])
  · rw [EuclideanSpace.dist_eq, Fin.sum_univ_three]
    simp [sphere]
  · intro h
    have := (h 0).2
    have e : (exPath 0).val 1 = 10 := by
      show (⟨L1, [0, 10]⟩ : BSpline ℝ).eval 1 = 10
      rw [L1_eval _ _ (by norm_num) le_rfl]; norm_num
    rw [PiLp.add_apply] at this
    have : (exPath 0).val 1 + 1 ≤ 10 := this
    rw [e] at this
    norm_num at this

end Verif.Collision
