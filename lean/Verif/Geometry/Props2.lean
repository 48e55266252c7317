import Verif.Geometry.Props
import Mathlib.Analysis.Complex.Norm
import Mathlib.Analysis.Convex.Combination
import Mathlib.Data.List.GetD

/-! # Properties C39, C40: points and circles against convex polygons -/

set_option linter.unusedSectionVars false

namespace Verif.Geometry

/-- A strictly convex polygon listed clockwise (as the shapes of the toolbox are): every other vertex
lies strictly to the right of every directed edge. -/
def ConvexCW (vs : List (ℝ × ℝ)) : Prop :=
  3 ≤ vs.length ∧ ∀ k j : ℕ, k < vs.length → j < vs.length → j ≠ k → j ≠ (k + 1) % vs.length →
    area2 (vs.getD k (0, 0)) (vs.getD ((k + 1) % vs.length) (0, 0)) (vs.getD j (0, 0)) < 0

theorem mem_edges {α : Type*} (d : α) (vs : List α) (e : α × α) :
    e ∈ edges vs ↔ ∃ k, k < vs.length ∧ e = (vs.getD k d, vs.getD ((k + 1) % vs.length) d) := by
  unfold edges
  rw [List.mem_iff_getElem]
  constructor
  · rintro ⟨k, hk, rfl⟩
    have hk' : k < vs.length := by simpa using hk
    have hk2 : (k + 1) % vs.length < vs.length := Nat.mod_lt _ (by omega)
    refine ⟨k, hk', ?_⟩
    rw [List.getElem_zip, List.getElem_rotate, List.getD_eq_getElem _ _ hk', List.getD_eq_getElem _ _ hk2]
  · rintro ⟨k, hk, rfl⟩
    have hk2 : (k + 1) % vs.length < vs.length := Nat.mod_lt _ (by omega)
    refine ⟨k, by simpa using hk, ?_⟩
    rw [List.getElem_zip, List.getElem_rotate, List.getD_eq_getElem _ _ hk, List.getD_eq_getElem _ _ hk2]

theorem edge_length_pos {v w : ℝ × ℝ} (h : v ≠ w) : 0 < (w.1 - v.1) ^ 2 + (w.2 - v.2) ^ 2 := by
  by_contra hc
  have h1 := sq_nonneg (w.2 - v.2)
  have h2 := sq_nonneg (w.1 - v.1)
  have e1 : (w.2 - v.2) ^ 2 = 0 := by linarith
  have e2 : (w.1 - v.1) ^ 2 = 0 := by linarith
  rw [sq_eq_zero_iff, sub_eq_zero] at e1 e2
  exact h (Prod.ext e2.symm e1.symm)

/-- The signed expression tested for an edge. -/
theorem hyperplane_value (pos p v w : ℝ × ℝ) :
    (hyperplane pos (v, w)).1.1 * p.1 + (hyperplane pos (v, w)).1.2 * p.2 - (hyperplane pos (v, w)).2
      = area2 v w (p.1 - pos.1, p.2 - pos.2) / Real.sqrt ((w.1 - v.1) ^ 2 + (w.2 - v.2) ^ 2) := by
  unfold hyperplane area2
  dsimp only
  ring

theorem test_iff (pos p v w : ℝ × ℝ) (h : v ≠ w) (m : ℝ) :
    ¬ ((hyperplane pos (v, w)).1.1 * p.1 + (hyperplane pos (v, w)).1.2 * p.2 - (hyperplane pos (v, w)).2 - m > 0)
      ↔ area2 v w (p.1 - pos.1, p.2 - pos.2) ≤ m * Real.sqrt ((w.1 - v.1) ^ 2 + (w.2 - v.2) ^ 2) := by
  rw [hyperplane_value, gt_iff_lt, not_lt, sub_nonpos, div_le_iff₀ (Real.sqrt_pos.2 (edge_length_pos h))]

theorem convexCW_ne {vs : List (ℝ × ℝ)} (h : ConvexCW vs) {k : ℕ} (hk : k < vs.length) :
    vs.getD k (0, 0) ≠ vs.getD ((k + 1) % vs.length) (0, 0) := by
  intro e
  obtain ⟨h3, h⟩ := h
  have hn : 0 < vs.length := by omega
  -- any third vertex
  obtain ⟨j, hj, j1, j2⟩ : ∃ j, j < vs.length ∧ j ≠ k ∧ j ≠ (k + 1) % vs.length := by
    by_contra hc
    push Not at hc
    have h0 := hc 0 (by omega)
    have h1 := hc 1 (by omega)
    have h2 := hc 2 (by omega)
    omega
  have := h k j hk hj j1 j2
  rw [← e] at this
  unfold area2 at this
  linarith

theorem pip_iff {vs : List (ℝ × ℝ)} (h : ConvexCW vs) (p pos : ℝ × ℝ) :
    pointInPolyhedron p vs pos 0 = true ↔ ∀ k, k < vs.length →
      area2 (vs.getD k (0, 0)) (vs.getD ((k + 1) % vs.length) (0, 0)) (p.1 - pos.1, p.2 - pos.2) ≤ 0 := by
  unfold pointInPolyhedron hyperplanes
  rw [List.all_map, List.all_eq_true]
  simp only [Function.comp, decide_eq_true_eq]
  constructor
  · intro hh k hk
    have := hh _ ((mem_edges (0, 0) vs _).2 ⟨k, hk, rfl⟩)
    rwa [test_iff _ _ _ _ (convexCW_ne h hk), zero_mul] at this
  · intro hh e he
    obtain ⟨k, hk, rfl⟩ := (mem_edges (0, 0) vs _).1 he
    rw [test_iff _ _ _ _ (convexCW_ne h hk), zero_mul]
    exact hh k hk

theorem area2_combo (v w a b : ℝ × ℝ) (s t : ℝ) (hst : s + t = 1) :
    area2 v w (s • a + t • b) = s * area2 v w a + t * area2 v w b := by
  unfold area2
  simp only [Prod.fst_add, Prod.snd_add, Prod.smul_fst, Prod.smul_snd, smul_eq_mul]
  have : s = 1 - t := by linarith
  subst this
  ring

/-- **C39** For every strictly convex polygon (listed clockwise) at every position,
`point_in_polyhedron` answers `True` exactly for the points of the polygon, i.e. of the convex hull
of its placed vertices. -/
theorem C39_exact (vs : List (ℝ × ℝ)) (h : ConvexCW vs) (p pos : ℝ × ℝ) :
    pointInPolyhedron p vs pos 0 = true ↔
      (p.1 - pos.1, p.2 - pos.2) ∈ convexHull ℝ {v | v ∈ vs} := by
  rw [pip_iff h]
  set q : ℝ × ℝ := (p.1 - pos.1, p.2 - pos.2)
  set V : ℕ → ℝ × ℝ := fun k => vs.getD k (0, 0) with hV
  have hmem : ∀ k, k < vs.length → V k ∈ {v | v ∈ vs} := by
    intro k hk
    show vs.getD k (0, 0) ∈ vs
    rw [List.getD_eq_getElem _ _ hk]
    exact List.getElem_mem _
  constructor
  · intro hh
    obtain ⟨h3, hc⟩ := h
    -- sign change along the fan from vertex 0
    have f1 : area2 (V 0) (V 1) q ≤ 0 := by
      have := hh 0 (by omega)
      rwa [Nat.mod_eq_of_lt (by omega : 0 + 1 < vs.length)] at this
    have fn : 0 ≤ area2 (V 0) (V (vs.length - 1)) q := by
      have := hh (vs.length - 1) (by omega)
      rw [Nat.sub_add_cancel (by omega), Nat.mod_self] at this
      have e : area2 (V 0) (V (vs.length - 1)) q = - area2 (V (vs.length - 1)) (V 0) q := by
        unfold area2; ring
      rw [e]; linarith
    have : ∃ i, 1 ≤ i ∧ i + 1 < vs.length ∧ area2 (V 0) (V i) q ≤ 0 ∧ 0 ≤ area2 (V 0) (V (i + 1)) q := by
      by_contra hne
      push Not at hne
      have : ∀ i, 1 ≤ i → i + 1 ≤ vs.length → area2 (V 0) (V i) q ≤ 0 ∧ (1 < i → area2 (V 0) (V i) q < 0) := by
        intro i
        induction i with
        | zero => intro h; omega
        | succ i ih =>
          intro _ hi
          rcases Nat.eq_zero_or_pos i with e | e
          · subst e; exact ⟨f1, by omega⟩
          · have := hne i e (by omega) (ih e (by omega)).1
            exact ⟨this.le, fun _ => this⟩
      have := (this (vs.length - 1) (by omega) (by omega)).2 (by omega)
      linarith
    obtain ⟨i, i1, i2, fi, fi'⟩ := this
    have g := hh i (by omega)
    rw [Nat.mod_eq_of_lt i2] at g
    have D := hc i 0 (by omega) (by omega) (by omega) (by rw [Nat.mod_eq_of_lt i2]; omega)
    rw [Nat.mod_eq_of_lt i2] at D
    set A := V 0
    set B := V i
    set C := V (i + 1)
    have D' : area2 B C A < 0 := D
    have g' : area2 B C q ≤ 0 := g
    set d := area2 B C A with hd
    have hq : q = (area2 B C q / d) • A + ((-area2 A C q / d) • B + (area2 A B q / d) • C) := by
      have hd0 : d ≠ 0 := D'.ne
      apply Prod.ext
      · simp only [Prod.fst_add, Prod.smul_fst, smul_eq_mul]
        field_simp
        rw [hd]; unfold area2; ring
      · simp only [Prod.snd_add, Prod.smul_snd, smul_eq_mul]
        field_simp
        rw [hd]; unfold area2; ring
    have hsum : area2 B C q / d + (-area2 A C q / d + area2 A B q / d) = 1 := by
      have hd0 : d ≠ 0 := D'.ne
      field_simp
      rw [hd]; unfold area2; ring
    have w1 : 0 ≤ area2 B C q / d := div_nonneg_of_nonpos g' D'.le
    have w2 : 0 ≤ -area2 A C q / d := div_nonneg_of_nonpos (by linarith) D'.le
    have w3 : 0 ≤ area2 A B q / d := div_nonneg_of_nonpos fi D'.le
    have hconv := convex_convexHull ℝ {v | v ∈ vs}
    have mA := subset_convexHull ℝ _ (hmem 0 (by omega))
    have mB := subset_convexHull ℝ _ (hmem i (by omega))
    have mC := subset_convexHull ℝ _ (hmem (i + 1) i2)
    rw [hq]
    have := hconv.sum_mem (t := (Finset.univ : Finset (Fin 3)))
      (w := ![area2 B C q / d, -area2 A C q / d, area2 A B q / d]) (z := ![A, B, C])
      (by intro i _; fin_cases i <;> simp <;> assumption)
      (by simp [Fin.sum_univ_three]; linarith)
      (by intro i _; fin_cases i <;> simp <;> assumption)
    simpa [Fin.sum_univ_three, add_assoc] using this
  · intro hq k hk
    have hsub : convexHull ℝ {v | v ∈ vs} ⊆
        {x | area2 (V k) (V ((k + 1) % vs.length)) x ≤ 0} := by
      apply convexHull_min
      · intro v hv
        obtain ⟨j, hj, rfl⟩ := List.getElem_of_mem hv
        have e : vs[j] = V j := (List.getD_eq_getElem _ _ hj).symm
        show area2 _ _ vs[j] ≤ 0
        rw [e]
        by_cases j1 : j = k
        · rw [j1]; unfold area2; exact le_of_eq (by ring)
        · by_cases j2 : j = (k + 1) % vs.length
          · rw [← j2]; unfold area2; exact le_of_eq (by ring)
          · exact (h.2 k j hk hj j1 j2).le
      · intro a ha b hb s t hs ht hst
        show area2 _ _ (s • a + t • b) ≤ 0
        rw [area2_combo _ _ _ _ _ _ hst]
        have ha : area2 (V k) (V ((k + 1) % vs.length)) a ≤ 0 := ha
        have hb : area2 (V k) (V ((k + 1) % vs.length)) b ≤ 0 := hb
        nlinarith
    exact hsub hq

/-- Every rectangle of positive size is such a polygon. -/
theorem rect_convexCW (w h : ℝ) (hw : 0 < w) (hh : 0 < h) : ConvexCW (rectVertices w h) := by
  refine ⟨by simp [rectVertices], ?_⟩
  intro k j hk hj h1 h2
  have hk : k < 4 := hk
  have hj : j < 4 := hj
  have : 0 < w * h := mul_pos hw hh
  interval_cases k <;> interval_cases j <;> simp [rectVertices] at h1 h2 <;>
    simp [rectVertices, area2] <;> nlinarith

/-- **C39** With a margin, `point_in_polyhedron` answers `True` for every point within the margin of
the polygon (so a `False` means: farther away than the margin). -/
theorem C39_margin (vs : List (ℝ × ℝ)) (h : ConvexCW vs) (p pos : ℝ × ℝ) (m : ℝ) (hm : 0 ≤ m) (c : ℝ × ℝ)
    (hc : c ∈ convexHull ℝ {v | v ∈ vs}) (hd : dist2 (c.1 + pos.1, c.2 + pos.2) p ≤ m) :
    pointInPolyhedron p vs pos m = true := by
  unfold pointInPolyhedron hyperplanes
  rw [List.all_map, List.all_eq_true]
  simp only [Function.comp, decide_eq_true_eq]
  intro e he
  obtain ⟨k, hk, rfl⟩ := (mem_edges (0, 0) vs _).1 he
  rw [test_iff _ _ _ _ (convexCW_ne h hk)]
  have h0 := (pip_iff h (c.1 + pos.1, c.2 + pos.2) pos).1 ((C39_exact vs h _ pos).2 (by simpa using hc)) k hk
  set v := vs.getD k (0, 0)
  set w := vs.getD ((k + 1) % vs.length) (0, 0)
  simp only [add_sub_cancel_right] at h0
  unfold dist2 at hd
  simp only at hd
  have hd2 : (p.1 - (c.1 + pos.1)) ^ 2 + (p.2 - (c.2 + pos.2)) ^ 2 ≤ m ^ 2 := (Real.sqrt_le_left hm).1 hd
  have key : area2 v w (p.1 - pos.1, p.2 - pos.2) - area2 v w (c.1, c.2)
      ≤ m * Real.sqrt ((w.1 - v.1) ^ 2 + (w.2 - v.2) ^ 2) := by
    set x := p.1 - (c.1 + pos.1)
    set y := p.2 - (c.2 + pos.2)
    have e1 : area2 v w (p.1 - pos.1, p.2 - pos.2) - area2 v w (c.1, c.2)
        = (w.1 - v.1) * y - (w.2 - v.2) * x := by
      unfold area2; simp only [x, y]; ring
    rw [e1]
    refine le_trans (le_abs_self _) ?_
    rw [← Real.sqrt_sq_eq_abs, ← Real.sqrt_sq hm, ← Real.sqrt_mul (sq_nonneg m)]
    apply Real.sqrt_le_sqrt
    have n1 : 0 ≤ (w.1 - v.1) ^ 2 + (w.2 - v.2) ^ 2 := by positivity
    calc ((w.1 - v.1) * y - (w.2 - v.2) * x) ^ 2
        ≤ (x ^ 2 + y ^ 2) * ((w.1 - v.1) ^ 2 + (w.2 - v.2) ^ 2) := by
          nlinarith [sq_nonneg ((w.1 - v.1) * x + (w.2 - v.2) * y)]
      _ ≤ m ^ 2 * ((w.1 - v.1) ^ 2 + (w.2 - v.2) ^ 2) := mul_le_mul_of_nonneg_right hd2 n1
  have h0 : area2 v w (c.1, c.2) ≤ 0 := h0
  linarith

example : pointInPolyhedron (3, 5) (rectVertices 2 4) (3, 4) 0 = true :=
  (C39_exact _ (rect_convexCW 2 4 (by norm_num) (by norm_num)) _ _).2 (by
    have hc := convex_convexHull ℝ {v | v ∈ rectVertices (2 : ℝ) 4}
    have a := subset_convexHull ℝ {v | v ∈ rectVertices (2 : ℝ) 4} (show ((1, 2) : ℝ × ℝ) ∈ _ by norm_num [rectVertices])
    have b := subset_convexHull ℝ {v | v ∈ rectVertices (2 : ℝ) 4} (show ((-1, -2) : ℝ × ℝ) ∈ _ by norm_num [rectVertices])
    have c := subset_convexHull ℝ {v | v ∈ rectVertices (2 : ℝ) 4} (show ((-1, 2) : ℝ × ℝ) ∈ _ by norm_num [rectVertices])
    have := hc.sum_mem (t := (Finset.univ : Finset (Fin 3))) (w := ![1/2, 1/4, 1/4])
      (z := ![((1, 2) : ℝ × ℝ), (-1, -2), (-1, 2)])
      (by intro i _; fin_cases i <;> norm_num) (by rw [Fin.sum_univ_three]; simp; norm_num)
      (by intro i _; fin_cases i <;> simpa)
    have e : ((3 : ℝ) - 3, (5 : ℝ) - 4) = ∑ i, ![1/2, 1/4, (1/4 : ℝ)] i • ![((1, 2) : ℝ × ℝ), (-1, -2), (-1, 2)] i := by
      rw [Fin.sum_univ_three]
      apply Prod.ext <;> simp <;> norm_num
    rw [e]
    exact this)

/-! ## C40 -/

/-- `q` is a point of the boundary of the polygon with the given vertices placed at `pos`. -/
def OnBoundary (vs : List (ℝ × ℝ)) (pos q : ℝ × ℝ) : Prop :=
  ∃ e ∈ edges (vs.map fun v => (v.1 + pos.1, v.2 + pos.2)), OnSegment e.1 e.2 q

/-- Parameter of the foot of the perpendicular. -/
theorem foot_eq (c v w : ℝ × ℝ) (h : v ≠ w) :
    foot c v w = lineAt v w (((c.1 - v.1) * (w.1 - v.1) + (c.2 - v.2) * (w.2 - v.2))
      / ((w.1 - v.1) ^ 2 + (w.2 - v.2) ^ 2)) := by
  have hp := (edge_length_pos h).ne'
  have hp' : (w.2 - v.2) ^ 2 + (w.1 - v.1) ^ 2 ≠ 0 := by rw [add_comm]; exact hp
  unfold foot lineAt
  dsimp only
  rw [add_comm ((w.2 - v.2) ^ 2)] at *
  apply Prod.ext
  · dsimp only; field_simp; ring
  · dsimp only; field_simp; ring

theorem dist2_lineAt (c v w : ℝ × ℝ) (h : v ≠ w) (s : ℝ) :
    (dist2 c (lineAt v w s)) ^ 2 = (dist2 c (foot c v w)) ^ 2 +
      (s - ((c.1 - v.1) * (w.1 - v.1) + (c.2 - v.2) * (w.2 - v.2)) / ((w.1 - v.1) ^ 2 + (w.2 - v.2) ^ 2)) ^ 2
        * ((w.1 - v.1) ^ 2 + (w.2 - v.2) ^ 2) := by
  have hp := (edge_length_pos h).ne'
  rw [foot_eq c v w h]
  unfold dist2 lineAt
  dsimp only
  rw [Real.sq_sqrt (by positivity), Real.sq_sqrt (by positivity)]
  field_simp
  ring

theorem dist2_nonneg (p q : ℝ × ℝ) : 0 ≤ dist2 p q := Real.sqrt_nonneg _

theorem dist2_complex (p q : ℝ × ℝ) : dist2 p q = ‖(⟨q.1 - p.1, q.2 - p.2⟩ : ℂ)‖ := by
  rw [Complex.norm_def, Complex.normSq_mk, dist2]
  congr 1; ring

theorem dist2_triangle (p q r : ℝ × ℝ) : dist2 p r ≤ dist2 p q + dist2 q r := by
  rw [dist2_complex, dist2_complex, dist2_complex]
  refine le_trans (le_of_eq ?_) (norm_add_le _ _)
  congr 1
  apply Complex.ext <;> simp

theorem dist2_le_add_abs (p q : ℝ × ℝ) : dist2 p q ≤ |q.1 - p.1| + |q.2 - p.2| := by
  rw [dist2_complex]
  exact Complex.norm_le_abs_re_add_abs_im _

/-- **C40** (soundness) When `circle_polyhedron_intersection` answers `True`, a boundary point of the
polygon is inside the circle, up to the rounding allowance `1e-6` per coordinate. -/
theorem C40_sound (c : ℝ × ℝ) (r : ℝ) (vs : List (ℝ × ℝ)) (pos : ℝ × ℝ)
    (hne : ∀ e ∈ edges vs, e.1 ≠ e.2)
    (h : circlePolyhedronIntersection c r vs pos = true) :
    ∃ q, OnBoundary vs pos q ∧ dist2 c q ≤ r + 2 / 10 ^ 6 := by
  unfold circlePolyhedronIntersection at h
  dsimp only at h
  set ws := vs.map fun v => (v.1 + pos.1, v.2 + pos.2) with hws
  have hne' : ∀ e ∈ edges ws, e.1 ≠ e.2 := by
    intro e he
    obtain ⟨k, hk, rfl⟩ := (mem_edges (pos.1 + 0, pos.2 + 0) ws e).1 he
    have hl : ws.length = vs.length := by simp [hws]
    rw [hl] at hk
    have hk2 : (k + 1) % vs.length < vs.length := Nat.mod_lt _ (by omega)
    have := hne _ ((mem_edges (0, 0) vs _).2 ⟨k, hk, rfl⟩)
    intro e
    apply this
    simp only [hl] at e
    rw [List.getD_eq_getElem _ _ (by omega), List.getD_eq_getElem _ _ (by omega)] at e
    simp only [hws, List.getElem_map] at e
    dsimp only
    rw [List.getD_eq_getElem _ _ hk, List.getD_eq_getElem _ _ hk2]
    exact Prod.ext (add_right_cancel (congrArg Prod.fst e)) (add_right_cancel (congrArg Prod.snd e))
  rw [Bool.or_eq_true, List.any_eq_true, List.any_eq_true] at h
  rcases h with ⟨v, hv, hd⟩ | ⟨e, he, hd⟩
  · obtain ⟨j, hj, rfl⟩ := List.getElem_of_mem (List.mem_of_mem_take hv)
    refine ⟨ws[j], ⟨(ws[j], ws.getD ((j + 1) % ws.length) (0, 0)), ?_, 0, le_rfl, zero_le_one, ?_⟩, ?_⟩
    · refine (mem_edges (0, 0) ws _).2 ⟨j, hj, ?_⟩
      rw [List.getD_eq_getElem ws _ hj]
    · unfold lineAt; simp
    · have := of_decide_eq_true hd
      linarith
  · have hvw := hne' e he
    unfold sideHit at hd
    dsimp only at hd
    rw [Bool.and_eq_true, decide_eq_true_eq] at hd
    obtain ⟨hbox, hr⟩ := hd
    rw [Bool.or_eq_true, decide_eq_true_eq, decide_eq_true_eq] at hbox
    set f := foot c e.1 e.2 with hf
    have hfe := foot_eq c e.1 e.2 hvw
    set s := ((c.1 - e.1.1) * (e.2.1 - e.1.1) + (c.2 - e.1.2) * (e.2.2 - e.1.2))
      / ((e.2.1 - e.1.1) ^ 2 + (e.2.2 - e.1.2) ^ 2)
    have fx : f.1 = e.1.1 + s * (e.2.1 - e.1.1) := by rw [hf, hfe]; rfl
    have fy : f.2 = e.1.2 + s * (e.2.2 - e.1.2) := by rw [hf, hfe]; rfl
    -- the closest point of the segment differs from the foot by at most eps in each coordinate
    have key : ∀ (z v w eps : ℝ), z = v + s * (w - v) → 0 ≤ eps →
        ((v - eps ≤ z ∧ z ≤ w + eps) ∨ (z ≤ v + eps ∧ w - eps ≤ z)) →
        (1 ≤ s → |w - z| ≤ eps) ∧ (s ≤ 0 → |v - z| ≤ eps) := by
      intro z v w eps hz h0 hh
      constructor
      · intro hs
        rw [abs_le]
        rcases le_total v w with l | l
        · have : w ≤ z := by nlinarith
          rcases hh with ⟨a, b⟩ | ⟨a, b⟩ <;> constructor <;> linarith
        · have : z ≤ w := by nlinarith
          rcases hh with ⟨a, b⟩ | ⟨a, b⟩ <;> constructor <;> linarith
      · intro hs
        rw [abs_le]
        rcases le_total v w with l | l
        · have : z ≤ v := by nlinarith
          rcases hh with ⟨a, b⟩ | ⟨a, b⟩ <;> constructor <;> linarith
        · have : v ≤ z := by nlinarith
          rcases hh with ⟨a, b⟩ | ⟨a, b⟩ <;> constructor <;> linarith
    have kx := key f.1 e.1.1 e.2.1 (1 / 10 ^ 6) fx (by norm_num) (by
      rcases hbox with ⟨a, b, -, -⟩ | ⟨a, b, -, -⟩
      · exact Or.inl ⟨a, b⟩
      · exact Or.inr ⟨a, b⟩)
    have ky := key f.2 e.1.2 e.2.2 (1 / 10 ^ 6) fy (by norm_num) (by
      rcases hbox with ⟨-, -, a, b⟩ | ⟨-, -, a, b⟩
      · exact Or.inl ⟨a, b⟩
      · exact Or.inr ⟨a, b⟩)
    have fin : ∀ q : ℝ × ℝ, |q.1 - f.1| ≤ 1 / 10 ^ 6 → |q.2 - f.2| ≤ 1 / 10 ^ 6 → dist2 c q ≤ r + 2 / 10 ^ 6 := by
      intro q h1 h2
      have t1 := dist2_triangle c f q
      have t2 := dist2_le_add_abs f q
      have : (2 : ℝ) / 10 ^ 6 = 1 / 10 ^ 6 + 1 / 10 ^ 6 := by norm_num
      rw [this]
      linarith
    rcases le_total s 0 with s0 | s0
    · exact ⟨e.1, ⟨e, he, 0, le_rfl, zero_le_one, by unfold lineAt; simp⟩, fin _ (kx.2 s0) (ky.2 s0)⟩
    · rcases le_total 1 s with s1 | s1
      · exact ⟨e.2, ⟨e, he, 1, zero_le_one, le_rfl, by unfold lineAt; simp⟩, fin _ (kx.1 s1) (ky.1 s1)⟩
      · exact ⟨f, ⟨e, he, s, s0, s1, hfe⟩, by
          have : (0 : ℝ) ≤ 2 / 10 ^ 6 := by norm_num
          linarith⟩

/-- **C40** (completeness, partial) If some boundary point of the polygon is in the circle and no
vertex from the third one on is in the circle, and every edge runs in both coordinates in the same
direction (for instance: is parallel to an axis), the answer is `True`.  Missing: the two cases
excluded by these hypotheses, which the code really misses, see `C40_violated` and
`C40_slope_violated`. -/
theorem C40_detect_partial (c : ℝ × ℝ) (r : ℝ) (vs : List (ℝ × ℝ)) (pos : ℝ × ℝ)
    (hne : ∀ e ∈ edges (vs.map fun v => (v.1 + pos.1, v.2 + pos.2)), e.1 ≠ e.2)
    (hmono : ∀ e ∈ edges (vs.map fun v => (v.1 + pos.1, v.2 + pos.2)),
      (e.1.1 ≤ e.2.1 ∧ e.1.2 ≤ e.2.2) ∨ (e.2.1 ≤ e.1.1 ∧ e.2.2 ≤ e.1.2))
    (h : ∃ q, OnBoundary vs pos q ∧ dist2 c q ≤ r)
    (hv : ∀ v ∈ vs.drop 2, r < dist2 c (v.1 + pos.1, v.2 + pos.2)) :
    circlePolyhedronIntersection c r vs pos = true := by
  obtain ⟨q, ⟨e, he, t, t0, t1, rfl⟩, hq⟩ := h
  unfold circlePolyhedronIntersection
  dsimp only
  set ws := vs.map fun v => (v.1 + pos.1, v.2 + pos.2) with hws
  rw [Bool.or_eq_true, List.any_eq_true, List.any_eq_true]
  have hvw := hne e he
  have hfe := foot_eq c e.1 e.2 hvw
  have hd := dist2_lineAt c e.1 e.2 hvw
  set s := ((c.1 - e.1.1) * (e.2.1 - e.1.1) + (c.2 - e.1.2) * (e.2.2 - e.1.2))
    / ((e.2.1 - e.1.1) ^ 2 + (e.2.2 - e.1.2) ^ 2)
  have L := edge_length_pos hvw
  have mono : ∀ a b : ℝ, (a - s) ^ 2 ≤ (b - s) ^ 2 → dist2 c (lineAt e.1 e.2 a) ≤ dist2 c (lineAt e.1 e.2 b) := by
    intro a b hab
    refine (sq_le_sq₀ (dist2_nonneg _ _) (dist2_nonneg _ _)).1 ?_
    rw [hd a, hd b]
    nlinarith
  -- a vertex in the circle is one of the first two
  have vert : ∀ v ∈ ws, dist2 c v ≤ r → ∃ x ∈ ws.take 2, decide (dist2 c x ≤ r) = true := by
    intro v hv' hdv
    rw [← List.take_append_drop 2 ws, List.mem_append] at hv'
    rcases hv' with h1 | h1
    · exact ⟨v, h1, by simpa using hdv⟩
    · exfalso
      rw [hws, ← List.map_drop] at h1
      obtain ⟨u, hu, rfl⟩ := List.mem_map.1 h1
      exact absurd hdv (not_le.2 (hv u hu))
  have e1m : e.1 ∈ ws := (List.of_mem_zip (a := e.1) (b := e.2) he).1
  have e2m : e.2 ∈ ws := by
    have := (List.of_mem_zip (a := e.1) (b := e.2) he).2
    exact List.mem_rotate.1 this
  rcases le_total s 0 with s0 | s0
  · left
    refine vert e.1 e1m ?_
    have := mono 0 t (by nlinarith)
    have e : lineAt e.1 e.2 0 = e.1 := by unfold lineAt; simp
    rw [e] at this
    linarith
  · rcases le_total 1 s with s1 | s1
    · left
      refine vert e.2 e2m ?_
      have := mono 1 t (by nlinarith)
      have e : lineAt e.1 e.2 1 = e.2 := by unfold lineAt; simp
      rw [e] at this
      linarith
    · right
      refine ⟨e, he, ?_⟩
      unfold sideHit
      dsimp only
      rw [hfe, Bool.and_eq_true]
      refine ⟨?_, ?_⟩
      · have between : ∀ v w : ℝ, (v ≤ w → v ≤ v + s * (w - v) ∧ v + s * (w - v) ≤ w) ∧
            (w ≤ v → w ≤ v + s * (w - v) ∧ v + s * (w - v) ≤ v) := by
          intro v w
          constructor <;> intro l <;> constructor <;> nlinarith
        have bx := between e.1.1 e.2.1
        have byy := between e.1.2 e.2.2
        have ep : (0 : ℝ) ≤ 1 / 10 ^ 6 := by norm_num
        rw [Bool.or_eq_true, decide_eq_true_eq, decide_eq_true_eq]
        unfold lineAt
        dsimp only
        rcases hmono e he with ⟨m1, m2⟩ | ⟨m1, m2⟩
        · left
          have a := bx.1 m1
          have b := byy.1 m2
          exact ⟨by linarith, by linarith, by linarith, by linarith⟩
        · right
          have a := bx.2 m1
          have b := byy.2 m2
          exact ⟨by linarith, by linarith, by linarith, by linarith⟩
      · rw [decide_eq_true_eq]
        have := mono s t (by nlinarith [sq_nonneg (t - s)])
        linarith

/-- A circle that reaches the upper side of a unit square placed at the origin. -/
example : circlePolyhedronIntersection (0, 2) (5/4) (rectVertices 2 2) (0, 0) = true := by
  refine C40_detect_partial _ _ _ _ ?_ ?_ ?_ ?_
  · intro e he
    norm_num [rectVertices, edges] at he
    rcases he with rfl | rfl | rfl | rfl <;> norm_num
  · intro e he
    norm_num [rectVertices, edges] at he
    rcases he with rfl | rfl | rfl | rfl <;> norm_num
  · refine ⟨(0, 1), ⟨((-1, 1), (1, 1)), by norm_num [rectVertices, edges], 1/2, by norm_num, by norm_num, by norm_num [lineAt]⟩, ?_⟩
    unfold dist2; rw [Real.sqrt_le_left (by norm_num)]; norm_num
  · intro v hv'
    norm_num [rectVertices] at hv'
    have key : ∀ x : ℝ × ℝ, (5/4 : ℝ) ^ 2 < (x.1 - 0) ^ 2 + (x.2 - 2) ^ 2 → 5/4 < dist2 (0, 2) x := by
      intro x hx
      unfold dist2
      exact (Real.lt_sqrt (by norm_num)).2 hx
    rcases hv' with rfl | rfl <;> apply key <;> norm_num

/-- The loop over the vertices stops after two of them: a circle that contains only the third vertex
of a square is reported as not intersecting. -/
theorem C40_violated :
    circlePolyhedronIntersection (-2, -2) (3/2) (rectVertices 2 2) (0, 0) = false ∧
    OnBoundary (rectVertices 2 2) (0, 0) (-1, -1) ∧ dist2 (-2, -2) (-1, -1) ≤ 3/2 := by
  have d : dist2 (-2, -2) (-1, -1) ≤ 3/2 := by
    unfold dist2
    rw [Real.sqrt_le_left (by norm_num)]; norm_num
  refine ⟨?_, ?_, d⟩
  · unfold circlePolyhedronIntersection
    have n1 : ¬ dist2 (-2, -2) (1, 1) ≤ 3/2 := by
      unfold dist2; rw [Real.sqrt_le_left (by norm_num)]; norm_num
    have n2 : ¬ dist2 (-2, -2) (1, -1) ≤ 3/2 := by
      unfold dist2; rw [Real.sqrt_le_left (by norm_num)]; norm_num
    have n3 : ¬ dist2 (-2, -2) (1, -2) ≤ 3/2 := by
      unfold dist2; rw [Real.sqrt_le_left (by norm_num)]; norm_num
    have n4 : ¬ dist2 (-2, -2) (-2, 1) ≤ 3/2 := by
      unfold dist2; rw [Real.sqrt_le_left (by norm_num)]; norm_num
    norm_num [rectVertices, edges, sideHit, foot, n1, n2, n3, n4]
  · refine ⟨((1, -1), (-1, -1)), by norm_num [rectVertices, edges], 1, by norm_num, by norm_num, ?_⟩
    norm_num [lineAt]

/-- Sides along which one coordinate grows while the other one falls are never hit: a circle well
across such a side of a diamond is reported as not intersecting. -/
theorem C40_slope_violated :
    circlePolyhedronIntersection (3/5, 3/5) (1/5) [(1, 0), (0, -1), (-1, 0), (0, 1)] (0, 0) = false ∧
    OnBoundary [(1, 0), (0, -1), (-1, 0), (0, 1)] (0, 0) (1/2, 1/2) ∧
    dist2 (3/5, 3/5) (1/2, 1/2) ≤ 1/5 ∧ ConvexCW [(1, 0), (0, -1), (-1, 0), (0, 1)] := by
  refine ⟨?_, ?_, ?_, ?_⟩
  · unfold circlePolyhedronIntersection
    have nn : ∀ x : ℝ × ℝ, (1/5 : ℝ) ^ 2 < (x.1 - 3/5) ^ 2 + (x.2 - 3/5) ^ 2 → ¬ dist2 (3/5, 3/5) x ≤ 1/5 := by
      intro x hx
      unfold dist2
      rw [not_le]
      exact (Real.lt_sqrt (by norm_num)).2 hx
    have n1 := nn (1, 0) (by norm_num)
    have n2 := nn (0, -1) (by norm_num)
    norm_num at n1 n2
    norm_num [edges, sideHit, foot, n1, n2]
  · refine ⟨((0, 1), (1, 0)), by norm_num [edges], 1/2, by norm_num, by norm_num, ?_⟩
    norm_num [lineAt]
  · unfold dist2
    rw [Real.sqrt_le_left (by norm_num)]; norm_num
  · refine ⟨by simp, ?_⟩
    intro k j hk hj h1 h2
    have hk : k < 4 := hk
    have hj : j < 4 := hj
    interval_cases k <;> interval_cases j <;> simp at h1 h2 <;> norm_num [area2]

end Verif.Geometry
