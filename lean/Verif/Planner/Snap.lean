import Verif.Planner.Lemmas
import Mathlib.Data.Rat.Floor

/-! # Snapping points to the grid (C58) -/

set_option linter.unusedSectionVars false

namespace Verif.Planner

variable {K : Type} [Field K] [LinearOrder K] [IsStrictOrderedRing K]

open Spec

/-! ## Model -/

/-- `Grid.distance_between_cells`, globalplanner.py:406-414; `diag` is `np.sqrt(cell_width**2 + cell_height**2)`. -/
def Grid.cellDistance (g : Grid K) (diag : K) (a b : Cell) : K :=
  if a = b then 0 else if a.1 = b.1 then g.cellH else if a.2 = b.2 then g.cellW else diag

/-- The points of globalplanner.py:379-389 that are in bounds and free. -/
def Grid.toCheck (g : Grid K) (m : Cell) : List Cell :=
  (([(m.1 + 1, m.2), (m.1 - 1, m.2), (m.1, m.2 + 1), (m.1, m.2 - 1), (m.1 + 1, m.2 + 1), (m.1 + 1, m.2 - 1),
    (m.1 - 1, m.2 + 1), (m.1 - 1, m.2 - 1)] : List Cell).filter fun c => g.inBounds c.1 c.2).filter fun c => g.free c.1 c.2

/-- The loop of globalplanner.py:397-401 on the pair `(d_min, moved_point)`: distances are measured from the point chosen last. -/
def Grid.pick (g : Grid K) (diag : K) (s : K × Cell) (l : List Cell) : K × Cell :=
  l.foldl (fun s p => if g.cellDistance diag p s.2 < s.1 then (g.cellDistance diag p s.2, p) else s) s

/-- globalplanner.py:364-375, before occupied cells are looked at.  `rnd` is Python's `round` to an integer. -/
def Grid.nearest (g : Grid K) (rnd : K → ℤ) (p : K × K) : Cell :=
  let x := p.1 - (g.position.1 - (1 / 2) * g.width + (1 / 2) * g.cellW)
  let y := p.2 - (g.position.2 - (1 / 2) * g.height + (1 / 2) * g.cellH)
  let i := max 0 (rnd (x / g.cellW))
  let j := max 0 (rnd (y / g.cellH))
  if g.inBounds (i : K) (j : K) then (i, j) else (min i (g.n0 - 1), min j (g.n1 - 1))

/-- `Grid.move_to_gridpoint`, globalplanner.py:354-404. -/
def Grid.snap (g : Grid K) (rnd : K → ℤ) (diag : K) (p : K × K) : Cell :=
  let m := g.nearest rnd p
  if m ∈ g.occupied then (g.pick diag (2 * max g.cellH g.cellW, m) (g.toCheck m)).2 else m

/-! ## Lemmas -/

theorem nearest_coord {n : ℕ} {r : ℤ} {a : K} (hr : |(r : K) - a| ≤ 1 / 2) (h0 : -(1 / 2) ≤ a)
    (h1 : a ≤ n - 1 / 2) : ∀ i : ℤ, (i = max 0 r ∧ i < n ∨ i = min (max 0 r) (n - 1)) → |(i : K) - a| ≤ 1 / 2 := by
  have hr' := abs_le.1 hr
  rintro i (⟨rfl, hi⟩ | rfl)
  · rcases le_total 0 r with h | h
    · rw [max_eq_right h]; exact hr
    · rw [max_eq_left h]
      have : (r : K) ≤ 0 := by exact_mod_cast h
      rw [abs_le]; push_cast; constructor <;> linarith
  · rcases le_total 0 r with h | h
    · rw [max_eq_right h]
      rcases le_total r (n - 1) with h' | h'
      · rw [min_eq_left h']; exact hr
      · rw [min_eq_right h']
        have : (n : K) - 1 ≤ r := by exact_mod_cast h'
        rw [abs_le]; push_cast; constructor <;> linarith
    · rw [max_eq_left h]
      have h2 : (r : K) ≤ 0 := by exact_mod_cast h
      rcases le_total (0 : ℤ) (n - 1) with h' | h'
      · rw [min_eq_left h', abs_le]; push_cast; constructor <;> linarith
      · rw [min_eq_right h']
        have : (n : K) - 1 ≤ 0 := by exact_mod_cast h'
        rw [abs_le]; push_cast; constructor <;> linarith

theorem nearest_bounds (g : Grid K) (rnd : K → ℤ) (p : K × K) (h0 : 0 < g.n0) (h1 : 0 < g.n1) :
    (0 ≤ (g.nearest rnd p).1 ∧ (g.nearest rnd p).1 < g.n0) ∧ (0 ≤ (g.nearest rnd p).2 ∧ (g.nearest rnd p).2 < g.n1) := by
  unfold Grid.nearest
  simp only
  split_ifs with h
  · exact (inBounds_cast g _ _).1 h
  · simp only
    omega

theorem pick_free (g : Grid K) (diag : K) (l : List Cell) (s : K × Cell) (P : Cell → Prop) (hl : ∀ c ∈ l, P c) (hs : P s.2) :
    P (g.pick diag s l).2 := by
  induction l generalizing s with
  | nil => exact hs
  | cons a l ih =>
    unfold Grid.pick
    rw [List.foldl_cons]
    refine ih _ (fun c hc => hl c (List.mem_cons_of_mem _ hc)) ?_
    split_ifs
    · exact hl a List.mem_cons_self
    · exact hs

theorem pick_first (g : Grid K) (diag : K) (l : List Cell) (s : K × Cell) (P : Cell → Prop) (hl : ∀ c ∈ l, P c) (hne : l ≠ [])
    (hd : ∀ c ∈ l, g.cellDistance diag c s.2 < s.1) : P (g.pick diag s l).2 := by
  cases l with
  | nil => exact absurd rfl hne
  | cons a l =>
    unfold Grid.pick
    rw [List.foldl_cons, if_pos (hd a List.mem_cons_self)]
    exact pick_free g diag l _ P (fun c hc => hl c (List.mem_cons_of_mem _ hc)) (hl a List.mem_cons_self)

theorem toCheck_mem {g : Grid K} {m c : Cell} : c ∈ g.toCheck m ↔ Adjacent m c ∧ Free g.n0 g.n1 g.occupied c := by
  obtain ⟨x, y⟩ := m
  obtain ⟨u, v⟩ := c
  unfold Grid.toCheck Adjacent
  simp only [List.mem_filter, free_cast, inBounds_cast, ne_eq, Prod.mk.injEq, abs_le, List.mem_cons, List.not_mem_nil, or_false]
  constructor
  · rintro ⟨⟨h, -⟩, hf⟩; exact ⟨by omega, hf⟩
  · rintro ⟨h, hf⟩; exact ⟨⟨by omega, hf.1, hf.2.1⟩, hf⟩

/-! ## Properties -/

/-- **C58** Snapping a point of the room gives a cell of the grid.  If the nearest cell is free, it is that cell: its centre is
at most half a cell away in each direction.  If it is occupied but one of the eight cells around it is free, the result is a free
cell around it.  `rnd` is any rounding to a nearest integer, `diag` the diagonal of a cell. -/
theorem C58_snap (g : Grid K) (rnd : K → ℤ) (hrnd : ∀ x, |(rnd x : K) - x| ≤ 1 / 2) (diag : K)
    (hdiag : diag ^ 2 = g.cellW ^ 2 + g.cellH ^ 2) (hd0 : 0 ≤ diag) (hw : 0 < g.width) (hh : 0 < g.height) (h0 : 0 < g.n0) (h1 : 0 < g.n1)
    (p : K × K) (hx0 : g.position.1 - g.width / 2 ≤ p.1) (hx1 : p.1 ≤ g.position.1 + g.width / 2)
    (hy0 : g.position.2 - g.height / 2 ≤ p.2) (hy1 : p.2 ≤ g.position.2 + g.height / 2) :
    ∃ m : Cell, |(g.waypoint m).1 - p.1| ≤ g.cellW / 2 ∧ |(g.waypoint m).2 - p.2| ≤ g.cellH / 2 ∧
      ((0 ≤ m.1 ∧ m.1 < g.n0) ∧ (0 ≤ m.2 ∧ m.2 < g.n1)) ∧
      (m ∉ g.occupied → g.snap rnd diag p = m) ∧
      (m ∈ g.occupied → (∃ c, Adjacent m c ∧ Free g.n0 g.n1 g.occupied c) →
        Adjacent m (g.snap rnd diag p) ∧ Free g.n0 g.n1 g.occupied (g.snap rnd diag p)) := by
  have cw : 0 < g.cellW := by unfold Grid.cellW; positivity
  have ch : 0 < g.cellH := by unfold Grid.cellH; positivity
  have ew : g.width = g.cellW * g.n0 := by unfold Grid.cellW; field_simp
  have eh : g.height = g.cellH * g.n1 := by unfold Grid.cellH; field_simp
  have hb := nearest_bounds g rnd p h0 h1
  refine ⟨g.nearest rnd p, ?_, ?_, hb, ?_, ?_⟩
  · have key : |((g.nearest rnd p).1 : K) - (p.1 - (g.position.1 - (1 / 2) * g.width + (1 / 2) * g.cellW)) / g.cellW| ≤ 1 / 2 := by
      refine nearest_coord (n := g.n0) (hrnd ((p.1 - (g.position.1 - (1 / 2) * g.width + (1 / 2) * g.cellW)) / g.cellW)) ?_ ?_ _ ?_
      · rw [le_div_iff₀ cw]; linarith
      · rw [div_le_iff₀ cw]; rw [ew] at hx0 hx1 ⊢; linarith
      · unfold Grid.nearest
        simp only
        split_ifs with h
        · exact Or.inl ⟨rfl, ((inBounds_cast g _ _).1 h).1.2⟩
        · exact Or.inr rfl
    have e : (g.waypoint (g.nearest rnd p)).1 - p.1 =
        (((g.nearest rnd p).1 : K) - (p.1 - (g.position.1 - (1 / 2) * g.width + (1 / 2) * g.cellW)) / g.cellW) * g.cellW := by
      unfold Grid.waypoint; field_simp; ring
    rw [e, abs_mul, abs_of_pos cw]
    nlinarith
  · have key : |((g.nearest rnd p).2 : K) - (p.2 - (g.position.2 - (1 / 2) * g.height + (1 / 2) * g.cellH)) / g.cellH| ≤ 1 / 2 := by
      refine nearest_coord (n := g.n1) (hrnd ((p.2 - (g.position.2 - (1 / 2) * g.height + (1 / 2) * g.cellH)) / g.cellH)) ?_ ?_ _ ?_
      · rw [le_div_iff₀ ch]; linarith
      · rw [div_le_iff₀ ch]; rw [eh] at hy0 hy1 ⊢; linarith
      · unfold Grid.nearest
        simp only
        split_ifs with h
        · exact Or.inl ⟨rfl, ((inBounds_cast g _ _).1 h).2.2⟩
        · exact Or.inr rfl
    have e : (g.waypoint (g.nearest rnd p)).2 - p.2 =
        (((g.nearest rnd p).2 : K) - (p.2 - (g.position.2 - (1 / 2) * g.height + (1 / 2) * g.cellH)) / g.cellH) * g.cellH := by
      unfold Grid.waypoint; field_simp; ring
    rw [e, abs_mul, abs_of_pos ch]
    nlinarith
  · intro h; unfold Grid.snap; simp only; rw [if_neg h]
  · rintro h ⟨c, hc⟩
    unfold Grid.snap
    simp only
    rw [if_pos h]
    refine pick_first g diag _ _ (fun c => Adjacent (g.nearest rnd p) c ∧ Free g.n0 g.n1 g.occupied c) (fun c hc => toCheck_mem.1 hc)
      (List.ne_nil_of_mem (toCheck_mem.2 hc)) ?_
    intro d hd
    have hne : d ≠ g.nearest rnd p := fun e => (toCheck_mem.1 hd).1.1 e.symm
    have hmw : g.cellW ≤ max g.cellH g.cellW := le_max_right _ _
    have hmh : g.cellH ≤ max g.cellH g.cellW := le_max_left _ _
    unfold Grid.cellDistance
    simp only
    rw [if_neg hne]
    split_ifs
    · linarith
    · linarith
    · nlinarith

/-- **C58** The centre of a free cell is snapped to that cell. -/
theorem C58_round_trip (g : Grid K) (rnd : K → ℤ) (hrnd : ∀ x, |(rnd x : K) - x| ≤ 1 / 2) (diag : K)
    (hw : 0 < g.width) (hh : 0 < g.height) (c : Cell) (hc : Free g.n0 g.n1 g.occupied c) :
    g.snap rnd diag (g.waypoint c) = c := by
  obtain ⟨⟨c0, c1⟩, ⟨c2, c3⟩, ho⟩ := hc
  have h0 : 0 < g.n0 := by omega
  have h1 : 0 < g.n1 := by omega
  have cw : 0 < g.cellW := by unfold Grid.cellW; positivity
  have ch : 0 < g.cellH := by unfold Grid.cellH; positivity
  have rint : ∀ z : ℤ, rnd (z : K) = z := by
    intro z
    have := abs_le.1 (hrnd z)
    have a : rnd (z : K) < z + 1 := by
      have : (rnd (z : K) : K) < (z + 1 : ℤ) := by push_cast; linarith
      exact_mod_cast this
    have b : z - 1 < rnd (z : K) := by
      have : ((z - 1 : ℤ) : K) < (rnd (z : K) : K) := by push_cast; linarith
      exact_mod_cast this
    omega
  have ex : ((g.waypoint c).1 - (g.position.1 - (1 / 2) * g.width + (1 / 2) * g.cellW)) / g.cellW = c.1 := by
    unfold Grid.waypoint; field_simp; ring
  have ey : ((g.waypoint c).2 - (g.position.2 - (1 / 2) * g.height + (1 / 2) * g.cellH)) / g.cellH = c.2 := by
    unfold Grid.waypoint; field_simp; ring
  have hn : g.nearest rnd (g.waypoint c) = c := by
    unfold Grid.nearest
    simp only [ex, ey, rint, max_eq_right c0, max_eq_right c2]
    rw [if_pos ((inBounds_cast g _ _).2 ⟨⟨c0, c1⟩, c2, c3⟩)]
  unfold Grid.snap
  simp only [hn, if_neg ho]

/-- Waypoints of cells of the grid are inside the room. -/
theorem C58_waypoint_inside (g : Grid K) (hw : 0 < g.width) (hh : 0 < g.height) (c : Cell)
    (h0 : 0 ≤ c.1) (h1 : c.1 < g.n0) (h2 : 0 ≤ c.2) (h3 : c.2 < g.n1) :
    |(g.waypoint c).1 - g.position.1| ≤ g.width / 2 - g.cellW / 2 ∧ |(g.waypoint c).2 - g.position.2| ≤ g.height / 2 - g.cellH / 2 := by
  have n0 : 0 < g.n0 := by omega
  have n1 : 0 < g.n1 := by omega
  have cw : 0 < g.cellW := by unfold Grid.cellW; positivity
  have ch : 0 < g.cellH := by unfold Grid.cellH; positivity
  have ew : g.width = g.cellW * g.n0 := by unfold Grid.cellW; field_simp
  have eh : g.height = g.cellH * g.n1 := by unfold Grid.cellH; field_simp
  have a0 : (0 : K) ≤ c.1 := by exact_mod_cast h0
  have a2 : (0 : K) ≤ c.2 := by exact_mod_cast h2
  have a1 : (c.1 : K) ≤ g.n0 - 1 := by have : c.1 ≤ (g.n0 : ℤ) - 1 := by omega
                                       exact_mod_cast this
  have a3 : (c.2 : K) ≤ g.n1 - 1 := by have : c.2 ≤ (g.n1 : ℤ) - 1 := by omega
                                       exact_mod_cast this
  unfold Grid.waypoint
  simp only [abs_le]
  rw [ew, eh]
  refine ⟨⟨?_, ?_⟩, ⟨?_, ?_⟩⟩ <;> nlinarith

/-- Python's rounding is a rounding to a nearest integer. -/
theorem round_near (x : ℚ) : |((round x : ℤ) : ℚ) - x| ≤ 1 / 2 := by rw [abs_sub_comm]; exact abs_sub_round x

def snapGrid : Grid ℚ := ⟨6, 8, (0, 0), 2, 2, [(0, 0)]⟩

/-- Near the occupied corner of a grid of 3 by 4 cells the result is a free cell next to it. -/
example : Free 2 2 [(0, 0)] (snapGrid.snap round 5 (-2, -3)) := by
  obtain ⟨m, h1, h2, hb, hf, ho⟩ := C58_snap snapGrid round round_near 5 (by norm_num [snapGrid, Grid.cellW, Grid.cellH]) (by norm_num)
    (by norm_num [snapGrid]) (by norm_num [snapGrid]) (by norm_num [snapGrid]) (by norm_num [snapGrid]) (-2, -3)
    (by norm_num [snapGrid]) (by norm_num [snapGrid]) (by norm_num [snapGrid]) (by norm_num [snapGrid])
  by_cases h : m ∈ snapGrid.occupied
  · refine (ho h ⟨(1, 1), ?_, by simp [snapGrid, Free]⟩).2
    have : m = (0, 0) := by simpa [snapGrid] using h
    subst this; simp [Adjacent]
  · rw [hf h]; exact ⟨hb.1, hb.2, h⟩

/-- The result is not always the closest free cell, as the comment in the code promises: with cells of 4 by 3 the cell above
the occupied one is 3 away, but the diagonal one, 5 away, is chosen. -/
theorem C58_closest_violated : ∃ (g : Grid ℚ) (p : ℚ × ℚ) (c : Cell), g.cellW = 4 ∧ g.cellH = 3 ∧
    g.nearest round p ∈ g.occupied ∧ Free g.n0 g.n1 g.occupied c ∧
    g.cellDistance 5 (g.nearest round p) c = 3 ∧ g.cellDistance 5 (g.nearest round p) (g.snap round 5 p) = 5 := by
  refine ⟨⟨8, 6, (0, 0), 2, 2, [(0, 0)]⟩, (-2, -3 / 2), (0, 1), ?_⟩
  unfold Free
  decide +kernel

end Verif.Planner
