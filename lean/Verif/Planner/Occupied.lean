import Verif.Planner.Model
import Mathlib.Data.Rat.Floor
import Mathlib.Data.List.Nodup
import Mathlib.Tactic.Linarith
import Mathlib.Tactic.FieldSimp
import Mathlib.Tactic.NormNum

/-! # Cells blocked by obstacles (C59) -/

set_option linter.unusedSectionVars false
set_option linter.unusedSimpArgs false

namespace Verif.Planner

variable {K : Type} [Field K] [LinearOrder K] [IsStrictOrderedRing K]

/-! ## Model -/

/-- The obstacle shapes told apart by globalplanner.py:450, 470: rectangles and squares with their vertices, circles, others. -/
inductive Shape (K : Type)
  | rect (vertices : List (K × K))
  | circle (radius : K)
  | other

/-- What `get_occupied_cells` reads from an obstacle: `signals['position'][:, -1]`, the shape, and
`simulation['trajectories']['velocity']['values']` when present (globalplanner.py:445-449). -/
structure Obs (K : Type) where
  pos : K × K
  shape : Shape K
  velocity : Option (List (K × K))

/-- globalplanner.py:446-447. -/
def Obs.stationary (o : Obs K) : Bool :=
  match o.velocity with
  | none => true
  | some vs => vs.all fun v => decide (v = (0, 0))

/-- `min(l)`, `max(l)`. -/
def minOf : List K → Option K
  | [] => none
  | a :: l => some (l.foldl min a)

def maxOf : List K → Option K
  | [] => none
  | a :: l => some (l.foldl max a)

/-- globalplanner.py:451-469: shift the vertices and move them outwards by the offset, except that only the minimal
coordinates are moved in the negative direction. -/
def blowUp (offset pos : K × K) (vs : List (K × K)) : List (K × K) :=
  vs.map fun v =>
    (if some v.1 = minOf (vs.map Prod.fst) then v.1 + pos.1 - offset.1 else v.1 + pos.1 + offset.1,
     if some v.2 = minOf (vs.map Prod.snd) then v.2 + pos.2 - offset.2 else v.2 + pos.2 + offset.2)

/-- The variable `vertices` after globalplanner.py:450-478 (rounding to four decimals left out); it keeps its previous value
(`none`: unbound) for other shapes. -/
def vertices (offset : K × K) (o : Obs K) (prev : Option (List (K × K))) : Option (List (K × K)) :=
  match o.shape with
  | .rect vs => some (blowUp offset o.pos vs)
  | .circle r => some [(o.pos.1 + r + offset.1, o.pos.2 + r + offset.2), (o.pos.1 + r + offset.1, o.pos.2 - r - offset.2),
      (o.pos.1 - r - offset.1, o.pos.2 + r + offset.2), (o.pos.1 - r - offset.1, o.pos.2 - r - offset.2)]
  | .other => prev

/-- `min(l) < x < max(l)`; `min` of nothing raises. -/
def between (l : List K) (x : K) : Bool :=
  match minOf l, maxOf l with
  | some a, some b => decide (a < x ∧ x < b)
  | _, _ => false

/-- Point strictly inside the bounding box of a list of points, globalplanner.py:492-493, 497-498, 505-506. -/
def inBox (vs : List (K × K)) (p : K × K) : Bool :=
  between (vs.map Prod.fst) p.1 && between (vs.map Prod.snd) p.2

/-- globalplanner.py:484-489. -/
def cellVertices (g : Grid K) (c : K × K) : List (K × K) :=
  [(c.1 - (1 / 2) * g.cellW, c.2 - (1 / 2) * g.cellH), (c.1 + (1 / 2) * g.cellW, c.2 - (1 / 2) * g.cellH),
   (c.1 - (1 / 2) * g.cellW, c.2 + (1 / 2) * g.cellH), (c.1 + (1 / 2) * g.cellW, c.2 + (1 / 2) * g.cellH)]

/-- The three tests of globalplanner.py:491-510 on one cell with centre `c`. -/
def blockedBy (g : Grid K) (vs : List (K × K)) (c : K × K) : Bool :=
  inBox vs c || (cellVertices g c).any (inBox vs) || vs.any (inBox (cellVertices g c))

/-- The cells of globalplanner.py:431-442, x-major. -/
def allCells (g : Grid K) : List Cell :=
  (List.range g.n0).flatMap fun (i : ℕ) => (List.range g.n1).map fun (j : ℕ) => ((i : ℤ), (j : ℤ))

/-- The loop over the obstacles, globalplanner.py:444-516, on `(cells, occupied_cells, vertices)`; `none` when `vertices` is
unbound at its first use. -/
def occLoop (g : Grid K) (offset : K × K) : List (Obs K) → List Cell → List Cell → Option (List (K × K)) → Option (List Cell)
  | [], _, occ, _ => some occ
  | o :: os, cells, occ, prev =>
    if o.stationary then
      match vertices offset o prev with
      | none => none
      | some vs =>
        let hit := cells.filter fun c => blockedBy g vs (g.waypoint c)
        occLoop g offset os (cells.filter fun c => !blockedBy g vs (g.waypoint c)) (occ ++ hit) (some vs)
    else occLoop g offset os cells occ prev

/-- `Grid.get_occupied_cells`, globalplanner.py:428-522. -/
def occupiedCells (g : Grid K) (offset : K × K) (os : List (Obs K)) : Option (List Cell) :=
  occLoop g offset os (allCells g) [] none

/-! ## Specification -/

namespace Spec

/-- The obstacle stands still: no velocity is known, or it is zero throughout. -/
def Still (o : Obs K) : Prop := ∀ vs, o.velocity = some vs → ∀ v ∈ vs, v = (0, 0)

/-- The open cell with centre `c`. -/
def InCell (g : Grid K) (c : Cell) (q : K × K) : Prop :=
  |q.1 - (g.waypoint c).1| < g.cellW / 2 ∧ |q.2 - (g.waypoint c).2| < g.cellH / 2

/-- The region around `pos`: an axis-aligned box with half sizes `a`, `b`, open. -/
def InRegion (pos half : K × K) (q : K × K) : Prop := |q.1 - pos.1| < half.1 ∧ |q.2 - pos.2| < half.2

end Spec

open Spec

/-! ## Lemmas -/

theorem still_iff {o : Obs K} : o.stationary = true ↔ Still o := by
  unfold Obs.stationary Still
  cases o.velocity with
  | none => simp
  | some vs => simp [List.all_eq_true]


theorem mem_allCells {g : Grid K} {c : Cell} : c ∈ allCells g ↔ (0 ≤ c.1 ∧ c.1 < g.n0) ∧ 0 ≤ c.2 ∧ c.2 < g.n1 := by
  obtain ⟨x, y⟩ := c
  unfold allCells
  simp only [List.mem_flatMap, List.mem_range, List.mem_map, Prod.mk.injEq]
  constructor
  · rintro ⟨i, hi, j, hj, rfl, rfl⟩; omega
  · rintro ⟨⟨h0, h1⟩, h2, h3⟩
    exact ⟨x.toNat, by omega, y.toNat, by omega, by omega, by omega⟩

theorem allCells_nodup (g : Grid K) : (allCells g).Nodup := by
  unfold allCells
  rw [List.nodup_flatMap]
  refine ⟨fun i _ => ?_, ?_⟩
  · refine List.Nodup.map ?_ List.nodup_range
    intro a b h
    simpa using h
  · refine List.Pairwise.imp_of_mem ?_ (List.nodup_range (n := g.n0))
    intro i j _ _ hij
    rw [Function.onFun, List.disjoint_left]
    intro x hx hy
    simp only [List.mem_map] at hx hy
    obtain ⟨a, -, rfl⟩ := hx
    obtain ⟨b, -, h⟩ := hy
    simp only [Prod.mk.injEq] at h
    exact hij (by omega)

/-- An obstacle that overwrites `vertices`. -/
def Obs.known (o : Obs K) : Prop := ∀ (off : K × K) (prev : Option (List (K × K))), vertices off o prev = vertices off o none ∧ vertices off o none ≠ none

theorem occLoop_mem (g : Grid K) (off : K × K) : ∀ (os : List (Obs K)) (cells occ : List Cell) (prev : Option (List (K × K))),
    (∀ o ∈ os, o.stationary = true → o.known) →
    ∃ r, occLoop g off os cells occ prev = some r ∧
      ∀ c, c ∈ r ↔ c ∈ occ ∨ c ∈ cells ∧ ∃ o ∈ os, o.stationary = true ∧ ∃ vs, vertices off o none = some vs ∧ blockedBy g vs (g.waypoint c) = true := by
  intro os
  induction os with
  | nil => intro cells occ prev _; exact ⟨occ, rfl, fun c => by simp⟩
  | cons o os ih =>
    intro cells occ prev hk
    have hk' : ∀ o ∈ os, o.stationary = true → o.known := fun o h => hk o (List.mem_cons_of_mem _ h)
    unfold occLoop
    by_cases hs : o.stationary = true
    · rw [if_pos hs]
      obtain ⟨e, hne⟩ := hk o List.mem_cons_self hs off prev
      rw [e]
      obtain ⟨vs, hvs⟩ := Option.ne_none_iff_exists'.1 hne
      rw [hvs]
      obtain ⟨r, hr, hm⟩ := ih (cells.filter fun c => !blockedBy g vs (g.waypoint c)) (occ ++ cells.filter fun c => blockedBy g vs (g.waypoint c)) (some vs) hk'
      refine ⟨r, hr, fun c => ?_⟩
      rw [hm c]
      simp only [List.mem_append, List.mem_filter, List.mem_cons, exists_eq_or_imp, hvs, Option.some.injEq, hs, true_and, exists_eq_left',
        Bool.not_eq_true']
      by_cases hb : blockedBy g vs (g.waypoint c) = true
      · simp [hb]
      · simp only [hb, and_false, or_false]
        simp only [Bool.not_eq_true] at hb
        simp [hb]
    · rw [if_neg hs]
      obtain ⟨r, hr, hm⟩ := ih cells occ prev hk'
      refine ⟨r, hr, fun c => ?_⟩
      rw [hm c]
      simp [hs]

theorem foldl_min (l : List K) (a : K) : l.foldl min a ∈ a :: l ∧ ∀ x ∈ a :: l, l.foldl min a ≤ x := by
  induction l generalizing a with
  | nil => simp
  | cons b l ih =>
    obtain ⟨h1, h2⟩ := ih (min a b)
    rw [List.foldl_cons]
    refine ⟨?_, ?_⟩
    · rcases List.mem_cons.1 h1 with h | h
      · rw [h]; rcases le_total a b with h' | h'
        · simp [min_eq_left h']
        · simp [min_eq_right h']
      · simp [h]
    · have := h2 (min a b) List.mem_cons_self
      intro x hx
      rcases List.mem_cons.1 hx with rfl | hx
      · exact this.trans (min_le_left _ _)
      · rcases List.mem_cons.1 hx with rfl | hx
        · exact this.trans (min_le_right _ _)
        · exact h2 x (List.mem_cons_of_mem _ hx)

theorem foldl_max (l : List K) (a : K) : l.foldl max a ∈ a :: l ∧ ∀ x ∈ a :: l, x ≤ l.foldl max a := by
  induction l generalizing a with
  | nil => simp
  | cons b l ih =>
    obtain ⟨h1, h2⟩ := ih (max a b)
    rw [List.foldl_cons]
    refine ⟨?_, ?_⟩
    · rcases List.mem_cons.1 h1 with h | h
      · rw [h]; rcases le_total a b with h' | h'
        · simp [max_eq_right h']
        · simp [max_eq_left h']
      · simp [h]
    · have := h2 (max a b) List.mem_cons_self
      intro x hx
      rcases List.mem_cons.1 hx with rfl | hx
      · exact (le_max_left _ _).trans this
      · rcases List.mem_cons.1 hx with rfl | hx
        · exact (le_max_right _ _).trans this
        · exact h2 x (List.mem_cons_of_mem _ hx)

theorem minOf_eq {l : List K} {m : K} (h : m ∈ l) (hm : ∀ x ∈ l, m ≤ x) : minOf l = some m := by
  cases l with
  | nil => simp at h
  | cons a l =>
    obtain ⟨h1, h2⟩ := foldl_min l a
    exact congrArg some (le_antisymm (h2 m h) (hm _ h1))

theorem maxOf_eq {l : List K} {m : K} (h : m ∈ l) (hm : ∀ x ∈ l, x ≤ m) : maxOf l = some m := by
  cases l with
  | nil => simp at h
  | cons a l =>
    obtain ⟨h1, h2⟩ := foldl_max l a
    exact congrArg some (le_antisymm (hm _ h1) (h2 m h))

theorem between_iff {l : List K} {a b : K} (ha : a ∈ l) (hb : b ∈ l) (h : ∀ x ∈ l, a ≤ x ∧ x ≤ b) (x : K) :
    between l x = true ↔ a < x ∧ x < b := by
  unfold between
  rw [minOf_eq ha fun x hx => (h x hx).1, maxOf_eq hb fun x hx => (h x hx).2]
  simp

theorem inCell_iff (g : Grid K) (c q : K × K) (hw : 0 < g.cellW) (hh : 0 < g.cellH) :
    inBox (cellVertices g c) q = true ↔ |q.1 - c.1| < g.cellW / 2 ∧ |q.2 - c.2| < g.cellH / 2 := by
  unfold inBox
  rw [Bool.and_eq_true,
    between_iff (a := c.1 - (1 / 2) * g.cellW) (b := c.1 + (1 / 2) * g.cellW) (by simp [cellVertices]) (by simp [cellVertices]) ?_ q.1,
    between_iff (a := c.2 - (1 / 2) * g.cellH) (b := c.2 + (1 / 2) * g.cellH) (by simp [cellVertices]) (by simp [cellVertices]) ?_ q.2,
    abs_lt, abs_lt]
  · constructor
    · rintro ⟨⟨_, _⟩, _, _⟩; refine ⟨⟨?_, ?_⟩, ?_, ?_⟩ <;> linarith
    · rintro ⟨⟨_, _⟩, _, _⟩; refine ⟨⟨?_, ?_⟩, ?_, ?_⟩ <;> linarith
  · intro x hx
    simp only [cellVertices, List.map_cons, List.map_nil, List.mem_cons, List.not_mem_nil, or_false] at hx
    rcases hx with rfl | rfl | rfl | rfl <;> constructor <;> linarith
  · intro x hx
    simp only [cellVertices, List.map_cons, List.map_nil, List.mem_cons, List.not_mem_nil, or_false] at hx
    rcases hx with rfl | rfl | rfl | rfl <;> constructor <;> linarith

/-! ## Specification of the obstacles -/

namespace Spec

/-- The shape is a rectangle or a circle around its position, whose bounding box has half sizes `h`. -/
def HalfSize (s : Shape K) (h : K × K) : Prop :=
  0 < h.1 ∧ 0 < h.2 ∧
  match s with
  | .rect vs => (∀ v ∈ vs, |v.1| ≤ h.1 ∧ |v.2| ≤ h.2) ∧ -h.1 ∈ vs.map Prod.fst ∧ h.1 ∈ vs.map Prod.fst ∧
      -h.2 ∈ vs.map Prod.snd ∧ h.2 ∈ vs.map Prod.snd
  | .circle r => h = (r, r)
  | .other => False

/-- The shape is a circle, or a rectangle with sides along the axes. -/
def Aligned (s : Shape K) (h : K × K) : Prop :=
  match s with
  | .rect vs => (h.1, h.2) ∈ vs ∧ (-h.1, h.2) ∈ vs ∧ (h.1, -h.2) ∈ vs ∧ (-h.1, -h.2) ∈ vs
  | _ => True

end Spec

theorem known_of_half {o : Obs K} {h : K × K} (hh : HalfSize o.shape h) : o.known := by
  obtain ⟨pos, shape, vel⟩ := o
  intro off prev
  cases shape with
  | rect vs => exact ⟨rfl, by simp [vertices]⟩
  | circle r => exact ⟨rfl, by simp [vertices]⟩
  | other => exact absurd hh.2.2 (by simp)

/-- The vertices of the blown up obstacle: extreme coordinates are reached and bound all others. -/
theorem vertices_box {o : Obs K} {h off : K × K} (hh : HalfSize o.shape h) (h0 : 0 ≤ off.1) (h1 : 0 ≤ off.2) :
    ∃ vs, vertices off o none = some vs ∧
      (∀ v ∈ vs, |v.1 - o.pos.1| ≤ h.1 + off.1 ∧ |v.2 - o.pos.2| ≤ h.2 + off.2) ∧
      o.pos.1 - (h.1 + off.1) ∈ vs.map Prod.fst ∧ o.pos.1 + (h.1 + off.1) ∈ vs.map Prod.fst ∧
      o.pos.2 - (h.2 + off.2) ∈ vs.map Prod.snd ∧ o.pos.2 + (h.2 + off.2) ∈ vs.map Prod.snd ∧
      (Aligned o.shape h → ∀ s ∈ [(1 : K), -1], ∀ t ∈ [(1 : K), -1],
        (o.pos.1 + s * (h.1 + off.1), o.pos.2 + t * (h.2 + off.2)) ∈ vs) := by
  obtain ⟨pos, shape, vel⟩ := o
  obtain ⟨a, b⟩ := h
  obtain ⟨hp, hq, hh⟩ := hh
  simp only at hp hq
  cases shape with
  | rect vs =>
    obtain ⟨hb, ha0, ha1, hb0, hb1⟩ := hh
    have m1 : minOf (vs.map Prod.fst) = some (-a) := minOf_eq ha0 (by
      intro x hx; obtain ⟨v, hv, rfl⟩ := List.mem_map.1 hx; exact (abs_le.1 (hb v hv).1).1)
    have m2 : minOf (vs.map Prod.snd) = some (-b) := minOf_eq hb0 (by
      intro x hx; obtain ⟨v, hv, rfl⟩ := List.mem_map.1 hx; exact (abs_le.1 (hb v hv).2).1)
    have na : a ≠ -a := by intro e; linarith
    have nb : b ≠ -b := by intro e; linarith
    refine ⟨blowUp off pos vs, rfl, ?_, ?_, ?_, ?_, ?_, ?_⟩
    · intro v hv
      obtain ⟨w, hw, rfl⟩ := List.mem_map.1 hv
      obtain ⟨w1, w2⟩ := hb w hw
      rw [abs_le] at w1 w2
      simp only [m1, m2, Option.some.injEq, abs_le]
      simp only at w1 w2
      refine ⟨?_, ?_⟩
      · split_ifs <;> constructor <;> linarith
      · split_ifs <;> constructor <;> linarith
    · obtain ⟨v, hv, e⟩ := List.mem_map.1 ha0
      refine List.mem_map.2 ⟨_, List.mem_map.2 ⟨v, hv, rfl⟩, ?_⟩
      simp only at e
      simp only [m1, Option.some.injEq, e, if_true]; ring
    · obtain ⟨v, hv, e⟩ := List.mem_map.1 ha1
      refine List.mem_map.2 ⟨_, List.mem_map.2 ⟨v, hv, rfl⟩, ?_⟩
      simp only at e
      simp only [m1, Option.some.injEq, e, if_neg na]; ring
    · obtain ⟨v, hv, e⟩ := List.mem_map.1 hb0
      refine List.mem_map.2 ⟨_, List.mem_map.2 ⟨v, hv, rfl⟩, ?_⟩
      simp only at e
      simp only [m2, Option.some.injEq, e, if_true]; ring
    · obtain ⟨v, hv, e⟩ := List.mem_map.1 hb1
      refine List.mem_map.2 ⟨_, List.mem_map.2 ⟨v, hv, rfl⟩, ?_⟩
      simp only at e
      simp only [m2, Option.some.injEq, e, if_neg nb]; ring
    · rintro ⟨c1, c2, c3, c4⟩ s hs t ht
      simp only [List.mem_cons, List.not_mem_nil, or_false] at hs ht
      simp only at c1 c2 c3 c4
      rcases hs with rfl | rfl <;> rcases ht with rfl | rfl
      · refine List.mem_map.2 ⟨_, c1, ?_⟩
        simp only [m1, m2, Option.some.injEq, if_neg na, if_neg nb, Prod.mk.injEq]; constructor <;> ring
      · refine List.mem_map.2 ⟨_, c3, ?_⟩
        simp only [m1, m2, Option.some.injEq, if_neg na, if_true, Prod.mk.injEq]; constructor <;> ring
      · refine List.mem_map.2 ⟨_, c2, ?_⟩
        simp only [m1, m2, Option.some.injEq, if_neg nb, if_true, Prod.mk.injEq]; constructor <;> ring
      · refine List.mem_map.2 ⟨_, c4, ?_⟩
        simp only [m1, m2, Option.some.injEq, if_true, Prod.mk.injEq]; constructor <;> ring
  | circle r =>
    simp only [Prod.mk.injEq] at hh
    obtain ⟨rfl, rfl⟩ := hh
    refine ⟨_, rfl, ?_, ?_, ?_, ?_, ?_, ?_⟩
    · intro v hv
      simp only [List.mem_cons, List.not_mem_nil, or_false] at hv
      rcases hv with rfl | rfl | rfl | rfl <;> simp only [abs_le] <;> refine ⟨⟨?_, ?_⟩, ?_, ?_⟩ <;> linarith
    · refine List.mem_map.2 ⟨(pos.1 - b - off.1, pos.2 - b - off.2), by simp, ?_⟩; simp only; ring
    · refine List.mem_map.2 ⟨(pos.1 + b + off.1, pos.2 + b + off.2), by simp, ?_⟩; simp only; ring
    · refine List.mem_map.2 ⟨(pos.1 - b - off.1, pos.2 - b - off.2), by simp, ?_⟩; simp only; ring
    · refine List.mem_map.2 ⟨(pos.1 + b + off.1, pos.2 + b + off.2), by simp, ?_⟩; simp only; ring
    · rintro - s hs t ht
      simp only [List.mem_cons, List.not_mem_nil, or_false] at hs ht
      rcases hs with rfl | rfl <;> rcases ht with rfl | rfl <;> simp <;> ring_nf <;> simp
  | other => exact absurd hh (by simp)

theorem inBox_iff {o : Obs K} {h off : K × K} {vs : List (K × K)}
    (hb : ∀ v ∈ vs, |v.1 - o.pos.1| ≤ h.1 + off.1 ∧ |v.2 - o.pos.2| ≤ h.2 + off.2)
    (h1 : o.pos.1 - (h.1 + off.1) ∈ vs.map Prod.fst) (h2 : o.pos.1 + (h.1 + off.1) ∈ vs.map Prod.fst)
    (h3 : o.pos.2 - (h.2 + off.2) ∈ vs.map Prod.snd) (h4 : o.pos.2 + (h.2 + off.2) ∈ vs.map Prod.snd) (q : K × K) :
    inBox vs q = true ↔ |q.1 - o.pos.1| < h.1 + off.1 ∧ |q.2 - o.pos.2| < h.2 + off.2 := by
  unfold inBox
  rw [Bool.and_eq_true, between_iff h1 h2 ?_ q.1, between_iff h3 h4 ?_ q.2, abs_lt, abs_lt]
  · constructor
    · rintro ⟨⟨_, _⟩, _, _⟩; refine ⟨⟨?_, ?_⟩, ?_, ?_⟩ <;> linarith
    · rintro ⟨⟨_, _⟩, _, _⟩; refine ⟨⟨?_, ?_⟩, ?_, ?_⟩ <;> linarith
  · intro x hx; obtain ⟨v, hv, rfl⟩ := List.mem_map.1 hx
    have := abs_le.1 (hb v hv).2; constructor <;> linarith
  · intro x hx; obtain ⟨v, hv, rfl⟩ := List.mem_map.1 hx
    have := abs_le.1 (hb v hv).1; constructor <;> linarith

theorem overlap_one {p c a w : K} (ha : 0 < a) (hw : 0 < w) : (∃ x, |x - c| < w / 2 ∧ |x - p| < a) ↔ |c - p| < a + w / 2 := by
  constructor
  · rintro ⟨x, h1, h2⟩
    rw [abs_lt] at h1 h2 ⊢; constructor <;> linarith
  · intro h
    have hs : 0 < a + w / 2 := by linarith
    refine ⟨p + (c - p) * (a / (a + w / 2)), ?_, ?_⟩
    · have : p + (c - p) * (a / (a + w / 2)) - c = -(c - p) * ((w / 2) / (a + w / 2)) := by field_simp; ring
      rw [this, abs_mul, abs_neg, abs_of_pos (div_pos (by linarith) hs), mul_div_assoc', div_lt_iff₀ hs]
      nlinarith
    · rw [add_sub_cancel_left, abs_mul, abs_of_pos (div_pos ha hs), mul_div_assoc', div_lt_iff₀ hs]
      nlinarith

/-! ## Properties -/

/-- **C59** (no needless blocking) When all stationary obstacles are rectangles or circles, the result is defined,
and each blocked cell is a cell of the grid that overlaps the bounding box, enlarged by the offset, of a stationary
obstacle; moving obstacles block nothing. -/
theorem C59_only (g : Grid K) (off : K × K) (os : List (Obs K)) (hw : 0 < g.cellW) (hh : 0 < g.cellH) (h0 : 0 ≤ off.1) (h1 : 0 ≤ off.2)
    (half : Obs K → K × K) (hs' : ∀ o ∈ os, Still o → HalfSize o.shape (half o)) :
    ∃ r, occupiedCells g off os = some r ∧ ∀ c ∈ r, ((0 ≤ c.1 ∧ c.1 < g.n0) ∧ 0 ≤ c.2 ∧ c.2 < g.n1) ∧
      ∃ o ∈ os, Still o ∧ ∃ q, InCell g c q ∧ InRegion o.pos ((half o).1 + off.1, (half o).2 + off.2) q := by
  have hs : ∀ o ∈ os, o.stationary = true → HalfSize o.shape (half o) := fun o ho h => hs' o ho (still_iff.1 h)
  obtain ⟨r, hr, hm⟩ := occLoop_mem g off os (allCells g) [] none fun o ho hst => known_of_half (hs o ho hst)
  refine ⟨r, hr, fun c hc => ?_⟩
  rcases (hm c).1 hc with h | ⟨hcell, o, ho, hst, vs, hvs, hbl⟩
  · simp at h
  refine ⟨mem_allCells.1 hcell, o, ho, still_iff.1 hst, ?_⟩
  have hsz := hs o ho hst
  obtain ⟨vs', hvs', hb, x0, x1, y0, y1, -⟩ := vertices_box (off := off) hsz h0 h1
  rw [hvs] at hvs'
  obtain rfl := Option.some.inj hvs'
  have ib := inBox_iff hb x0 x1 y0 y1
  have p1 : 0 < (half o).1 + off.1 := by linarith [hsz.1]
  have p2 : 0 < (half o).2 + off.2 := by linarith [hsz.2.1]
  have key : |(g.waypoint c).1 - o.pos.1| < (half o).1 + off.1 + g.cellW / 2 ∧ |(g.waypoint c).2 - o.pos.2| < (half o).2 + off.2 + g.cellH / 2 := by
    unfold blockedBy at hbl
    rw [Bool.or_eq_true, Bool.or_eq_true, List.any_eq_true, List.any_eq_true] at hbl
    rcases hbl with (h | ⟨v, hv, h⟩) | ⟨v, hv, h⟩
    · obtain ⟨a, b⟩ := (ib _).1 h
      constructor <;> linarith
    · obtain ⟨a, b⟩ := (ib _).1 h
      simp only [cellVertices, List.mem_cons, List.not_mem_nil, or_false] at hv
      rw [abs_lt] at a b
      simp only [abs_lt]
      rcases hv with rfl | rfl | rfl | rfl <;> simp only at a b <;> refine ⟨⟨?_, ?_⟩, ?_, ?_⟩ <;> linarith
    · obtain ⟨a, b⟩ := (inCell_iff g _ _ hw hh).1 h
      obtain ⟨a', b'⟩ := hb v hv
      rw [abs_lt] at a b
      rw [abs_le] at a' b'
      simp only [abs_lt]
      refine ⟨⟨?_, ?_⟩, ?_, ?_⟩ <;> linarith
  obtain ⟨x, hx1, hx2⟩ := (overlap_one p1 hw).2 key.1
  obtain ⟨y, hy1, hy2⟩ := (overlap_one p2 hh).2 key.2
  exact ⟨(x, y), ⟨hx1, hy1⟩, hx2, hy2⟩

/-- One of the ends of the shorter one is inside the longer one. -/
theorem end_inside {p c a w : K} (hlt : w < 2 * a) (h : |c - p| < a + w / 2) :
    ∃ s ∈ [(1 : K), -1], |c + s * (w / 2) - p| < a := by
  rw [abs_lt] at h
  rcases le_total c p with hc | hc
  · exact ⟨1, by simp, by rw [abs_lt]; constructor <;> linarith⟩
  · exact ⟨-1, by simp, by rw [abs_lt]; constructor <;> linarith⟩

/-- **C59** (partial) Every cell that overlaps the bounding box, enlarged by the offset, of a stationary obstacle is blocked,
if that box is larger than a cell in both directions, or the obstacle is a circle or axis-aligned rectangle and the box is
smaller than a cell in both directions.  Missing: boxes longer than a cell in one direction only, and boxes as long as a cell. -/
theorem C59_partial (g : Grid K) (off : K × K) (os : List (Obs K)) (hw : 0 < g.cellW) (hh : 0 < g.cellH) (h0 : 0 ≤ off.1) (h1 : 0 ≤ off.2)
    (half : Obs K → K × K) (hs' : ∀ o ∈ os, Still o → HalfSize o.shape (half o))
    (o : Obs K) (ho : o ∈ os) (hst' : Still o)
    (hsize : (g.cellW < 2 * ((half o).1 + off.1) ∧ g.cellH < 2 * ((half o).2 + off.2)) ∨
      (Aligned o.shape (half o) ∧ 2 * ((half o).1 + off.1) < g.cellW ∧ 2 * ((half o).2 + off.2) < g.cellH))
    (c : Cell) (hc : (0 ≤ c.1 ∧ c.1 < g.n0) ∧ 0 ≤ c.2 ∧ c.2 < g.n1)
    (q : K × K) (hq : InCell g c q) (hq' : InRegion o.pos ((half o).1 + off.1, (half o).2 + off.2) q) :
    ∃ r, occupiedCells g off os = some r ∧ c ∈ r := by
  have hs : ∀ o ∈ os, o.stationary = true → HalfSize o.shape (half o) := fun o ho h => hs' o ho (still_iff.1 h)
  have hst := still_iff.2 hst'
  obtain ⟨r, hr, hm⟩ := occLoop_mem g off os (allCells g) [] none fun o ho hst => known_of_half (hs o ho hst)
  refine ⟨r, hr, (hm c).2 (Or.inr ⟨mem_allCells.2 hc, o, ho, hst, ?_⟩)⟩
  have hsz := hs o ho hst
  obtain ⟨vs, hvs, hb, x0, x1, y0, y1, hal⟩ := vertices_box (off := off) hsz h0 h1
  refine ⟨vs, hvs, ?_⟩
  have ib := inBox_iff hb x0 x1 y0 y1
  have p1 : 0 < (half o).1 + off.1 := by linarith [hsz.1]
  have p2 : 0 < (half o).2 + off.2 := by linarith [hsz.2.1]
  have kx := (overlap_one p1 hw).1 ⟨q.1, hq.1, hq'.1⟩
  have ky := (overlap_one p2 hh).1 ⟨q.2, hq.2, hq'.2⟩
  unfold blockedBy
  rw [Bool.or_eq_true, Bool.or_eq_true, List.any_eq_true, List.any_eq_true]
  rcases hsize with ⟨w1, w2⟩ | ⟨ha, w1, w2⟩
  · obtain ⟨s, hs1, hs2⟩ := end_inside w1 kx
    obtain ⟨t, ht1, ht2⟩ := end_inside w2 ky
    refine Or.inl (Or.inr ⟨((g.waypoint c).1 + s * (g.cellW / 2), (g.waypoint c).2 + t * (g.cellH / 2)), ?_, (ib _).2 ⟨hs2, ht2⟩⟩)
    simp only [List.mem_cons, List.not_mem_nil, or_false] at hs1 ht1
    rcases hs1 with rfl | rfl <;> rcases ht1 with rfl | rfl <;> simp [cellVertices] <;> ring_nf <;> simp
  · obtain ⟨s, hs1, hs2⟩ := end_inside (p := (g.waypoint c).1) (c := o.pos.1) (a := g.cellW / 2) (w := 2 * ((half o).1 + off.1))
      (by linarith) (by rw [abs_sub_comm]; linarith)
    obtain ⟨t, ht1, ht2⟩ := end_inside (p := (g.waypoint c).2) (c := o.pos.2) (a := g.cellH / 2) (w := 2 * ((half o).2 + off.2))
      (by linarith) (by rw [abs_sub_comm]; linarith)
    rw [mul_div_cancel_left₀ _ (two_ne_zero)] at hs2 ht2
    exact Or.inr ⟨_, hal ha s hs1 t ht1, (inCell_iff g _ _ hw hh).2 ⟨hs2, ht2⟩⟩

/-- No cell is reported twice. -/
theorem C59_nodup (g : Grid K) (off : K × K) (os : List (Obs K)) (r : List Cell) (h : occupiedCells g off os = some r) : r.Nodup := by
  have key : ∀ (os : List (Obs K)) (cells occ : List Cell) (prev : Option (List (K × K))) (r : List Cell), (occ ++ cells).Nodup →
      occLoop g off os cells occ prev = some r → r.Nodup := by
    intro os
    induction os with
    | nil => intro cells occ prev r hn h; simp only [occLoop, Option.some.injEq] at h; subst h; exact hn.of_append_left
    | cons o os ih =>
      intro cells occ prev r hn h
      unfold occLoop at h
      split_ifs at h with hs
      · cases hv : vertices off o prev with
        | none => rw [hv] at h; simp at h
        | some vs =>
          rw [hv] at h
          refine ih _ _ _ r ?_ h
          rw [List.append_assoc]
          refine (List.Perm.append_left occ (List.filter_append_perm _ cells)).nodup_iff.2 hn
      · exact ih _ _ _ r hn h
  exact key os _ [] none r (by simpa using allCells_nodup g) h

/-! ## Examples and violations -/

/-- A room of 4 by 2 in two cells of 2 by 2. -/
def roomGrid : Grid ℚ := ⟨4, 2, (0, 0), 2, 1, []⟩

def square (p : ℚ × ℚ) (a b : ℚ) : Obs ℚ := ⟨p, .rect [(-a, -b), (a, -b), (a, b), (-a, b)], none⟩

theorem square_half (p : ℚ × ℚ) (a b : ℚ) (ha : 0 < a) (hb : 0 < b) : HalfSize (square p a b).shape (a, b) ∧ Aligned (square p a b).shape (a, b) := by
  refine ⟨⟨ha, hb, ?_, by simp [square], by simp [square], by simp [square], by simp [square]⟩, by simp [square, Aligned]⟩
  intro v hv
  simp only [List.mem_cons, List.not_mem_nil, or_false] at hv
  rcases hv with rfl | rfl | rfl | rfl <;> simp [abs_of_pos ha, abs_of_pos hb]


/-- A square, with offset, and a moving obstacle: one of the cells is blocked. -/
example : occupiedCells roomGrid (1 / 2, 1 / 2) [square (-1, 0) (1 / 4) (1 / 4), ⟨(1, 0), .circle 1, some [(1, 0)]⟩] = some [(0, 0)] := by
  norm_num [occupiedCells, occLoop, allCells, roomGrid, square, Obs.stationary, vertices, blowUp, blockedBy, inBox, cellVertices,
    between, minOf, maxOf, Grid.waypoint, Grid.cellW, Grid.cellH, List.range_succ]

example : ∃ r, occupiedCells roomGrid (1 / 2, 1 / 2) [square (0, 0) (3 / 2) (3 / 2), ⟨(3, 3), .circle 1, some [(1, 0)]⟩] = some r ∧ (1, 0) ∈ r := by
  refine C59_partial roomGrid _ _ (by norm_num [roomGrid, Grid.cellW]) (by norm_num [roomGrid, Grid.cellH]) (by norm_num) (by norm_num)
    (fun _ => (3 / 2, 3 / 2)) ?_ _ List.mem_cons_self (still_iff.1 rfl) (Or.inl ?_) (1, 0) (by norm_num [roomGrid]) (1, 0) ?_ ?_
  · intro o ho hs
    simp only [List.mem_cons, List.not_mem_nil, or_false] at ho
    rcases ho with rfl | rfl
    · exact (square_half _ _ _ (by norm_num) (by norm_num)).1
    · exact absurd hs (by rw [← still_iff]; norm_num [Obs.stationary])
  · norm_num [roomGrid, Grid.cellW, Grid.cellH]
  · norm_num [InCell, roomGrid, Grid.cellW, Grid.cellH, Grid.waypoint]
  · norm_num [InRegion, square]

/-- A wall through a whole row of cells blocks none of them, when it does not pass through their centres. -/
theorem C59_wall_violated : ∃ (os : List (Obs ℚ)) (o : Obs ℚ) (q : ℚ × ℚ), o ∈ os ∧ Still o ∧ HalfSize o.shape (5, 1 / 4) ∧
    Aligned o.shape (5, 1 / 4) ∧ (∀ x, |x| < 2 → InRegion o.pos (5, 1 / 4) (x, 1 / 2)) ∧ InCell roomGrid (0, 0) q ∧ InRegion o.pos (5, 1 / 4) q ∧
    occupiedCells roomGrid (0, 0) os = some [] := by
  refine ⟨[square (0, 1 / 2) 5 (1 / 4)], square (0, 1 / 2) 5 (1 / 4), (-1, 1 / 2), List.mem_singleton.2 rfl, still_iff.1 rfl,
    (square_half _ _ _ (by norm_num) (by norm_num)).1, (square_half _ _ _ (by norm_num) (by norm_num)).2, ?_, ?_, ?_, by norm_num [occupiedCells, occLoop, allCells, roomGrid, square, Obs.stationary, vertices, blowUp, blockedBy, inBox, cellVertices,
    between, minOf, maxOf, Grid.waypoint, Grid.cellW, Grid.cellH, List.range_succ]⟩
  · intro x hx
    refine ⟨?_, by norm_num [square]⟩
    have : x - 0 = x := by ring
    simp only [square, this]; linarith
  · norm_num [InCell, roomGrid, Grid.cellW, Grid.cellH, Grid.waypoint, abs_lt]
  · norm_num [InRegion, square]

/-- A square as large as a cell that covers half of two cells blocks none. -/
theorem C59_aligned_violated : ∃ (o : Obs ℚ) (q : ℚ × ℚ), HalfSize o.shape (1, 1) ∧ Still o ∧ InCell roomGrid (1, 0) q ∧
    InRegion o.pos (1, 1) q ∧ occupiedCells roomGrid (0, 0) [o] = some [] := by
  refine ⟨square (1, 1) 1 1, (1, 1 / 2), (square_half _ _ _ (by norm_num) (by norm_num)).1, still_iff.1 rfl, ?_, ?_, by norm_num [occupiedCells, occLoop, allCells, roomGrid, square, Obs.stationary, vertices, blowUp, blockedBy, inBox, cellVertices,
    between, minOf, maxOf, Grid.waypoint, Grid.cellW, Grid.cellH, List.range_succ]⟩
  · norm_num [InCell, roomGrid, Grid.cellW, Grid.cellH, Grid.waypoint, abs_lt]
  · norm_num [InRegion, square, abs_lt]

/-- Obstacles of other shapes: the first one raises, a later one is silently taken to be the obstacle before it. -/
theorem C59_other_violated : occupiedCells roomGrid (0, 0) [⟨(1, 0), .other, none⟩] = none ∧
    occupiedCells roomGrid (0, 0) [⟨(-1, 0), .circle (1 / 2), none⟩, ⟨(1, 0), .other, none⟩] = some [(0, 0)] := by
  norm_num [occupiedCells, occLoop, allCells, roomGrid, square, Obs.stationary, vertices, blowUp, blockedBy, inBox, cellVertices,
    between, minOf, maxOf, Grid.waypoint, Grid.cellW, Grid.cellH, List.range_succ]

end Verif.Planner
