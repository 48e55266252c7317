import Verif.Gui.Model
import Mathlib.Tactic.Ring
import Mathlib.Tactic.FieldSimp
import Mathlib.Tactic.Linarith
import Mathlib.Tactic.LinearCombination
import Mathlib.Tactic.NormNum

/-! # The screen shows the obstacles (C48, C91-C93) -/

set_option linter.unusedSectionVars false

namespace Verif.Gui

variable {K : Type} [Field K] [LinearOrder K] [IsStrictOrderedRing K]

namespace Spec

/-- Where a point of the world is seen on the canvas: as many pixels to the right of the left side as the point is to the right of
the left side of the room, and as many pixels above the bottom as the point is above the bottom of the room. -/
def onCanvas (g : Win K) (w : K × K) : K × K :=
  ((w.1 - g.position.1 / g.m) * g.m, g.heightPx - (w.2 - g.position.2 / g.m) * g.m)

/-- Half the size of a shape in both directions. -/
def half : Shape K → K × K
  | .rect w h => (w / 2, h / 2)
  | .circle r => (r, r)

/-- The box in which an obstacle is to be seen. -/
def seen (g : Win K) (o : Obs K) : Box K :=
  let lo := onCanvas g (o.pos.1 - (half o.shape).1, o.pos.2 + (half o.shape).2)
  let hi := onCanvas g (o.pos.1 + (half o.shape).1, o.pos.2 - (half o.shape).2)
  ⟨lo.1, lo.2, hi.1, hi.2⟩

/-- What is drawn on the canvas apart from the grid. -/
def drawn (g : Win K) : List (Box K) := (g.canvas.filter fun i => !i.grid).map Item.box

/-- One step to a neighbouring cell, in meter. -/
def cellStep (g : Win K) : Dir → K × K
  | .up => (0, g.cellH / g.m)
  | .down => (0, -(g.cellH / g.m))
  | .left => (-(g.cellW / g.m), 0)
  | .right => (g.cellW / g.m, 0)

/-- The obstacle the arrows work on: the selected one, else the last one. -/
def target (g : Win K) : Option ℕ := g.selected.or (g.obstacles.getLast?.map Obs.var)

end Spec

section Coordinates

theorem pixelToWorld_eq (g : Win K) (p : K × K) :
    g.pixelToWorld p = (p.1 / g.m, (2 * g.position.2 + g.heightPx - p.2) / g.m) := by
  unfold Win.pixelToWorld; ext1
  · rfl
  · simp only; rw [← add_div]; congr 1; ring

theorem worldToPixel_pixelToWorld (g : Win K) (hm : g.m ≠ 0) (p : K × K) : g.worldToPixel (g.pixelToWorld p) = p := by
  rw [pixelToWorld_eq]; unfold Win.worldToPixel
  ext1
  · simp only; field_simp
  · simp only; field_simp; ring

theorem pixelToWorld_worldToPixel (g : Win K) (hm : g.m ≠ 0) (p : K × K) : g.pixelToWorld (g.worldToPixel p) = p := by
  rw [pixelToWorld_eq]; unfold Win.worldToPixel
  ext1
  · simp only; field_simp
  · simp only; field_simp; ring

/-- The box around the picture of an obstacle, in terms of its centre in pixels. -/
theorem seen_eq (g : Win K) (hm : g.m ≠ 0) (o : Obs K) :
    Spec.seen g o = boxAt g.m ((g.worldToPixel o.pos).1 - g.position.1, (g.worldToPixel o.pos).2 - g.position.2) o.shape := by
  cases hs : o.shape <;> unfold Spec.seen Spec.onCanvas Spec.half boxAt Win.worldToPixel <;> simp only [hs, Box.mk.injEq]
  · refine ⟨?_, ?_, ?_, ?_⟩ <;> field_simp <;> ring
  · refine ⟨?_, ?_, ?_, ?_⟩ <;> field_simp <;> ring

theorem boxAt_shift (m : K) (c d : K × K) (s : Shape K) : (boxAt m c s).shift d = boxAt m (c.1 + d.1, c.2 + d.2) s := by
  cases s <;> unfold boxAt Box.shift <;> simp only [Box.mk.injEq] <;> refine ⟨?_, ?_, ?_, ?_⟩ <;> ring

variable [FloorRing K]

theorem moved_eq (g : Win K) (hm : g.m ≠ 0) (d : Dir) (p : K × K) :
    g.moved d p = (p.1 + (Spec.cellStep g d).1, p.2 + (Spec.cellStep g d).2) := by
  cases d <;> (unfold Win.moved; rw [pixelToWorld_eq]; unfold Win.worldToPixel Win.delta Spec.cellStep; ext1 <;>
    (simp only; field_simp; try ring))

end Coordinates

section Lists
variable [FloorRing K]

theorem number_append (b : Bool) (k : ℕ) (l₁ l₂ : List (Box K)) :
    number b k (l₁ ++ l₂) = number b k l₁ ++ number b (k + l₁.length) l₂ := by
  induction l₁ generalizing k with
  | nil => simp [number]
  | cons a l ih => simp [number, ih, Nat.add_assoc, Nat.add_comm 1]

theorem mem_number {b : Bool} {k : ℕ} {l : List (Box K)} {i : Item K} (h : i ∈ number b k l) :
    i.grid = b ∧ k ≤ i.id ∧ i.id < k + l.length := by
  induction l generalizing k with
  | nil => simp [number] at h
  | cons a l ih =>
    simp only [number, List.mem_cons] at h
    rcases h with rfl | h
    · simp
    · obtain ⟨h1, h2, h3⟩ := ih h
      refine ⟨h1, by omega, ?_⟩
      simp only [List.length_cons]; omega

theorem nodup_number (b : Bool) (k : ℕ) (l : List (Box K)) : ((number b k l).map Item.id).Nodup := by
  induction l generalizing k with
  | nil => simp [number]
  | cons a l ih =>
    simp only [number, List.map_cons, List.nodup_cons, List.mem_map, not_exists, not_and]
    refine ⟨fun i hi => ?_, ih _⟩
    have := (mem_number hi).2.1
    omega

/-- The canvas item of an obstacle as it ought to be. -/
def itemOf (g : Win K) (o : Obs K) : Item K := ⟨o.var, false, Spec.seen g o⟩

theorem mem_renumber {k : ℕ} {l : List (Obs K)} {o : Obs K} (h : o ∈ renumber k l) : k ≤ o.var ∧ o.var < k + l.length := by
  induction l generalizing k with
  | nil => simp [renumber] at h
  | cons a l ih =>
    simp only [renumber, List.mem_cons] at h
    rcases h with rfl | h
    · simp
    · obtain ⟨h2, h3⟩ := ih h
      refine ⟨by omega, ?_⟩
      simp only [List.length_cons]; omega

theorem nodup_renumber (k : ℕ) (l : List (Obs K)) : ((renumber k l).map Obs.var).Nodup := by
  induction l generalizing k with
  | nil => simp [renumber]
  | cons a l ih =>
    simp only [renumber, List.map_cons, List.nodup_cons, List.mem_map, not_exists, not_and]
    refine ⟨fun i hi => ?_, ih _⟩
    have := (mem_renumber hi).1
    omega

theorem renumber_map (k : ℕ) (l : List (Obs K)) :
    (renumber k l).map (fun o => (o.pos, o.shape)) = l.map (fun o => (o.pos, o.shape)) := by
  induction l generalizing k with
  | nil => rfl
  | cons a l ih => simp [renumber, ih]

theorem delVar_eq_filter (v : ℕ) (l : List (Obs K)) (h : (l.map Obs.var).Nodup) :
    delVar v l = l.filter (fun o => decide (o.var ≠ v)) := by
  induction l with
  | nil => rfl
  | cons a l ih =>
    simp only [List.map_cons, List.nodup_cons, List.mem_map, not_exists, not_and] at h
    unfold delVar
    by_cases e : v = a.var
    · rw [if_pos e, List.filter_cons_of_neg (by simp [e])]
      symm
      rw [List.filter_eq_self]
      intro o ho
      simp only [ne_eq, decide_not, Bool.not_eq_eq_eq_not, Bool.not_true, decide_eq_false_iff_not]
      rintro rfl
      exact h.1 o ho e
    · rw [if_neg e, List.filter_cons_of_pos (by simp [Ne.symm e]), ih h.2]

theorem setPos_eq_map (v : ℕ) (f : K × K → K × K) (l : List (Obs K)) (h : (l.map Obs.var).Nodup) :
    setPos v f l = l.map (fun o => if o.var = v then { o with pos := f o.pos } else o) := by
  induction l with
  | nil => rfl
  | cons a l ih =>
    simp only [List.map_cons, List.nodup_cons, List.mem_map, not_exists, not_and] at h
    unfold setPos
    by_cases e : a.var = v
    · rw [if_pos e, List.map_cons, if_pos e]
      congr 1
      symm
      conv_rhs => rw [← List.map_id l]
      apply List.map_congr_left
      intro o ho
      rw [if_neg]; · rfl
      rintro rfl
      exact h.1 o ho e.symm
    · rw [if_neg e, List.map_cons, if_neg e, ih h.2]

theorem setPos_vars (v : ℕ) (f : K × K → K × K) (l : List (Obs K)) : (setPos v f l).map Obs.var = l.map Obs.var := by
  induction l with
  | nil => rfl
  | cons a l ih =>
    unfold setPos
    split_ifs <;> simp [ih]

theorem delVar_sublist (v : ℕ) (l : List (Obs K)) : (delVar v l).Sublist l := by
  induction l with
  | nil => exact List.Sublist.slnil
  | cons a l ih =>
    unfold delVar
    split_ifs
    · exact List.sublist_cons_self _ _
    · exact ih.cons_cons _

end Lists

section Ids
variable [FloorRing K]

/-- The variables of the obstacles are different and were given out before. -/
def Ids (g : Win K) : Prop := (g.obstacles.map Obs.var).Nodup ∧ ∀ o ∈ g.obstacles, o.var < g.next

theorem ids_start (w h m : K) (p : K × K) (n : ℕ × ℕ) : Ids (start w h m p n) := by
  constructor <;> simp [start, Win.drawGrid]

theorem ids_step (g : Win K) (hg : Ids g) (a : Action K) : Ids (g.step a) := by
  obtain ⟨h1, h2⟩ := hg
  cases a with
  | make p s =>
    change Ids (g.make p s)
    unfold Win.make
    split_ifs
    · refine ⟨?_, ?_⟩
      · simp only [List.map_append, List.map_cons, List.map_nil]
        rw [List.nodup_append]
        refine ⟨h1, by simp, ?_⟩
        intro x hx y hy
        simp only [List.mem_map] at hx
        obtain ⟨o, ho, rfl⟩ := hx
        simp only [List.mem_cons, List.not_mem_nil, or_false] at hy
        subst hy
        exact Nat.ne_of_lt (h2 o ho)
      · intro o ho
        simp only [List.mem_append, List.mem_cons, List.not_mem_nil, or_false] at ho
        rcases ho with ho | rfl
        · exact Nat.lt_succ_of_lt (h2 o ho)
        · simp
    · exact ⟨h1, h2⟩
  | select p => exact ⟨h1, h2⟩
  | remove =>
    change Ids g.remove
    unfold Win.remove
    cases g.selected with
    | some v =>
      exact ⟨h1.sublist ((delVar_sublist v _).map _), fun o ho => h2 o ((delVar_sublist v _).subset ho)⟩
    | none =>
      simp only
      split_ifs
      · exact ⟨h1, h2⟩
      · cases g.canvas.getLast? with
        | none => exact ⟨h1, h2⟩
        | some i =>
          exact ⟨h1.sublist ((List.dropLast_sublist _).map _), fun o ho => h2 o ((List.dropLast_sublist _).subset ho)⟩
  | move d =>
    change Ids ((g.move d).getD g)
    unfold Win.move
    split
    · exact ⟨h1, h2⟩
    · split_ifs
      · refine ⟨by simp only [Option.getD_some, setPos_vars]; exact h1, ?_⟩
        simp only [Option.getD_some]
        intro o ho
        rename_i v _ _ _
        have : o.var ∈ (setPos v (g.moved d) g.obstacles).map Obs.var := List.mem_map_of_mem ho
        rw [setPos_vars, List.mem_map] at this
        obtain ⟨o', ho', e⟩ := this
        rw [← e]
        exact h2 o' ho'
      · exact ⟨h1, h2⟩
      · exact ⟨h1, h2⟩
  | rightClick p =>
    change Ids (g.rightClick p)
    unfold Win.rightClick
    split <;> exact ⟨h1, h2⟩
  | load e =>
    cases e with
    | none => exact ⟨h1, h2⟩
    | some e =>
      change Ids (g.load (some e))
      unfold Win.load
      exact ⟨nodup_renumber _ _, fun o ho => (mem_renumber ho).2⟩

theorem ids_run (g : Win K) (hg : Ids g) (as : List (Action K)) : Ids (g.run as) := by
  induction as generalizing g with
  | nil => exact hg
  | cons a as ih => exact ih _ (ids_step g hg a)

end Ids

section Invariant
variable [FloorRing K]

/-- The canvas holds cells of the grid and after them one item per obstacle, where it ought to be. -/
def Shows (g : Win K) : Prop :=
  g.m ≠ 0 ∧ ∃ grid : List (Item K), (∀ i ∈ grid, i.grid = true ∧ i.id < g.next) ∧
    (grid.map Item.id ++ g.obstacles.map Obs.var).Nodup ∧ (∀ o ∈ g.obstacles, o.var < g.next) ∧
    g.canvas = grid ++ g.obstacles.map (itemOf g) ∧
    ∀ v, g.selected = some v → v < g.next ∧ ∀ i ∈ grid, i.id ≠ v

theorem shows_drawn (g : Win K) (h : Shows g) : Spec.drawn g = g.obstacles.map (Spec.seen g) := by
  obtain ⟨_, grid, h1, _, _, h3, _⟩ := h
  unfold Spec.drawn
  rw [h3, List.filter_append, List.map_append]
  have e1 : grid.filter (fun i => !i.grid) = [] := by
    rw [List.filter_eq_nil_iff]; intro i hi; simp [(h1 i hi).1]
  have e2 : (g.obstacles.map (itemOf g)).filter (fun i => !i.grid) = g.obstacles.map (itemOf g) := by
    rw [List.filter_eq_self]; intro i hi
    simp only [List.mem_map] at hi
    obtain ⟨o, _, rfl⟩ := hi
    rfl
  rw [e1, e2]
  simp [itemOf, Function.comp_def]

theorem shows_start (w h m : K) (hm : m ≠ 0) (p : K × K) (n : ℕ × ℕ) : Shows (start w h m p n) := by
  refine ⟨hm, (start w h m p n).canvas, ?_, ?_, by simp [start, Win.drawGrid], ?_, ?_⟩
  · intro i hi
    simp only [start, Win.drawGrid, List.nil_append] at hi ⊢
    have := mem_number hi
    exact ⟨this.1, this.2.2⟩
  · simp only [start, Win.drawGrid, List.nil_append, List.map_nil, List.append_nil]
    exact nodup_number _ _ _
  · simp [start, Win.drawGrid]
  · intro v hv; simp [start, Win.drawGrid] at hv

theorem selectLoop_mem (p : K × K) (l : List (Obs K)) (s : Option ℕ) (v : ℕ) (h : selectLoop p l s = some v) :
    (l = [] ∧ s = some v) ∨ ∃ o ∈ l, o.var = v := by
  induction l generalizing s with
  | nil => exact .inl ⟨rfl, h⟩
  | cons a l ih =>
    unfold selectLoop at h
    split_ifs at h
    · exact .inr ⟨a, by simp, by simpa using h⟩
    · rcases ih none h with ⟨_, h'⟩ | ⟨o, ho, e⟩
      · simp at h'
      · exact .inr ⟨o, by simp [ho], e⟩

/-- Files that are read, with a window in the origin. -/
def Action.fine : Action K → Prop
  | .load none => False
  | .load (some e) => e.m ≠ 0 ∧ e.position = (0, 0)
  | _ => True

theorem shows_make (g : Win K) (hg : Shows g) (p : K × K) (s : Shape K) : Shows (g.make p s) := by
  have hS := hg
  obtain ⟨hm, grid, h1, h2, h5, h3, h4⟩ := hg
  unfold Win.make
  split_ifs
  swap
  · exact hS
  refine ⟨hm, grid, fun i hi => ⟨(h1 i hi).1, Nat.lt_succ_of_lt (h1 i hi).2⟩, ?_, ?_, ?_, fun v hv => ?_⟩
  · simp only [List.map_append, List.map_cons, List.map_nil]
    rw [← List.append_assoc, List.nodup_append]
    refine ⟨h2, by simp, ?_⟩
    intro x hx y hy
    simp only [List.mem_cons, List.not_mem_nil, or_false] at hy
    subst hy
    simp only [List.mem_append, List.mem_map] at hx
    rcases hx with ⟨i, hi, rfl⟩ | ⟨o, ho, rfl⟩
    · exact Nat.ne_of_lt (h1 i hi).2
    · exact Nat.ne_of_lt (h5 o ho)
  · intro o ho
    simp only [List.mem_append, List.mem_cons, List.not_mem_nil, or_false] at ho
    rcases ho with ho | rfl
    · exact Nat.lt_succ_of_lt (h5 o ho)
    · simp
  · simp only
    change _ = grid ++ (g.obstacles ++ [_]).map (itemOf g)
    rw [h3, List.map_append, ← List.append_assoc]
    congr 1
    simp only [List.map_cons, List.map_nil, itemOf]
    congr 2
    rw [seen_eq g hm]
    simp only
    congr 1
    unfold Win.clickWorld
    rw [worldToPixel_pixelToWorld g hm]
    simp
  · have := h4 v hv
    exact ⟨Nat.lt_succ_of_lt this.1, this.2⟩

theorem shows_select (g : Win K) (hg : Shows g) (p : K × K) : Shows (g.select p) := by
  obtain ⟨hm, grid, h1, h2, h5, h3, h4⟩ := hg
  refine ⟨hm, grid, h1, h2, h5, ?_, fun v hv => ?_⟩
  · exact h3
  · rcases selectLoop_mem _ _ _ _ hv with ⟨_, h⟩ | ⟨o, ho, rfl⟩
    · exact h4 v h
    · refine ⟨h5 o ho, fun i hi e => ?_⟩
      rw [List.nodup_append] at h2
      exact h2.2.2 _ (List.mem_map_of_mem hi) _ (List.mem_map_of_mem ho) e

theorem filter_itemOf (g : Win K) (v : ℕ) (l : List (Obs K)) :
    (l.map (itemOf g)).filter (fun i => decide (i.id ≠ v)) = (l.filter (fun o => decide (o.var ≠ v))).map (itemOf g) := by
  rw [List.filter_map]; rfl

theorem shows_remove (g : Win K) (hg : Shows g) : Shows g.remove := by
  have hS := hg
  obtain ⟨hm, grid, h1, h2, h5, h3, h4⟩ := hg
  have h2' := h2
  rw [List.nodup_append] at h2'
  unfold Win.remove
  split
  · rename_i v hv
    obtain ⟨_, h6⟩ := h4 v hv
    refine ⟨hm, grid, h1, ?_, fun o ho => h5 o ((delVar_sublist v _).subset ho), ?_, fun v hv => by simp at hv⟩
    · exact h2.sublist (List.Sublist.append (List.Sublist.refl _) ((delVar_sublist v _).map _))
    · simp only
      change _ = grid ++ (delVar v g.obstacles).map (itemOf g)
      rw [delVar_eq_filter v _ h2'.2.1, h3]
      unfold delItem
      rw [List.filter_append, filter_itemOf]
      congr 1
      rw [List.filter_eq_self]
      intro i hi
      simpa using h6 i hi
  · rename_i hv
    split_ifs with h0
    · exact hS
    have hne : g.obstacles.map (itemOf g) ≠ [] := by simpa using h0
    have hl : g.canvas.getLast? = some (itemOf g (g.obstacles.getLast h0)) := by
      rw [h3, List.getLast?_append_of_ne_nil _ hne, List.getLast?_map, List.getLast?_eq_getLast_of_ne_nil h0]
      rfl
    rw [hl]
    simp only
    set o := g.obstacles.getLast h0 with ho
    have hs : g.obstacles.dropLast ++ [o] = g.obstacles := List.dropLast_append_getLast h0
    have hnd : (g.obstacles.dropLast.map Obs.var ++ [o.var]).Nodup := by
      rw [← List.map_singleton, ← List.map_append, hs]; exact h2'.2.1
    refine ⟨hm, grid, h1, ?_, fun o ho => h5 o ((List.dropLast_sublist _).subset ho), ?_, fun v hv' => by simp [hv] at hv'⟩
    · exact h2.sublist (List.Sublist.append (List.Sublist.refl _) ((List.dropLast_sublist _).map _))
    · simp only
      change _ = grid ++ g.obstacles.dropLast.map (itemOf g)
      rw [h3]
      unfold delItem
      rw [List.filter_append, filter_itemOf]
      congr 1
      · rw [List.filter_eq_self]
        intro i hi
        have : o ∈ g.obstacles := List.getLast_mem h0
        exact decide_eq_true (h2'.2.2 _ (List.mem_map_of_mem hi) _ (List.mem_map_of_mem this))
      · congr 1
        conv_lhs => rw [← hs]
        rw [List.filter_append, List.filter_cons_of_neg (by simp [itemOf]), List.filter_nil, List.append_nil, List.filter_eq_self]
        intro o' ho'
        rw [List.nodup_append] at hnd
        exact decide_eq_true (hnd.2.2 _ (List.mem_map_of_mem ho') o.var (by simp))

theorem shows_move (g : Win K) (hg : Shows g) (d : Dir) : Shows ((g.move d).getD g) := by
  have hS := hg
  obtain ⟨hm, grid, h1, h2, h5, h3, h4⟩ := hg
  have h2' := h2
  rw [List.nodup_append] at h2'
  unfold Win.move
  split
  · exact hS
  split_ifs
  swap
  · exact hS
  swap
  · exact hS
  rename_i v _ hv _
  rw [List.any_eq_true] at hv
  obtain ⟨o, ho, e⟩ := hv
  rw [decide_eq_true_eq] at e
  subst e
  simp only [Option.getD_some]
  refine ⟨hm, grid, h1, ?_, ?_, ?_, h4⟩
  · simp only [setPos_vars]; exact h2
  · intro o' ho'
    have : o'.var ∈ (setPos o.var (g.moved d) g.obstacles).map Obs.var := List.mem_map_of_mem ho'
    rw [setPos_vars, List.mem_map] at this
    obtain ⟨o'', ho'', e⟩ := this
    rw [← e]
    exact h5 o'' ho''
  · simp only
    change _ = grid ++ (setPos o.var (g.moved d) g.obstacles).map (itemOf g)
    rw [setPos_eq_map _ _ _ h2'.2.1, h3]
    unfold shiftItem
    rw [List.map_append, List.map_map, List.map_map]
    congr 1
    · conv_rhs => rw [← List.map_id grid]
      apply List.map_congr_left
      intro i hi
      rw [if_neg]; · rfl
      exact h2'.2.2 _ (List.mem_map_of_mem hi) _ (List.mem_map_of_mem ho)
    · apply List.map_congr_left
      intro o' _
      simp only [Function.comp_apply]
      by_cases e : o'.var = o.var
      · have e' : (itemOf g o').id = o.var := e
        rw [if_pos e, if_pos e']
        simp only [itemOf, Item.mk.injEq, true_and]
        rw [seen_eq g hm, seen_eq g hm, boxAt_shift]
        simp only [Win.moved]
        rw [worldToPixel_pixelToWorld g hm]
        congr 2 <;> ring
      · have e' : (itemOf g o').id ≠ o.var := e
        rw [if_neg e, if_neg e']

theorem shows_rightClick (g : Win K) (hg : Shows g) (p : K × K) : Shows (g.rightClick p) := by
  obtain ⟨hm, grid, h1, h2, h5, h3, h4⟩ := hg
  unfold Win.rightClick
  split
  · exact ⟨hm, grid, h1, h2, h5, h3, h4⟩
  · exact ⟨hm, grid, h1, h2, h5, h3, h4⟩

theorem number_renumber (g : Win K) (hm : g.m ≠ 0) (hp : g.position = (0, 0)) (k : ℕ) (l : List (Obs K)) :
    number false k (l.map fun o => boxAt g.m (g.worldToPixel o.pos) o.shape) = (renumber k l).map (itemOf g) := by
  induction l generalizing k with
  | nil => rfl
  | cons a l ih =>
    simp only [List.map_cons, number, renumber, ih]
    congr 1
    unfold itemOf
    rw [seen_eq g hm, hp]
    simp

theorem shows_load (g : Win K) (hg : Shows g) (e : Saved K) (hm : e.m ≠ 0) (hp : e.position = (0, 0)) :
    Shows (g.load (some e)) := by
  obtain ⟨_, grid, h1, h2, h5, h3, h4⟩ := hg
  have hm1 : (g.reinitialize e.widthM e.heightM e.m e.position e.nCells).m = e.m := rfl
  have hp1 : (g.reinitialize e.widthM e.heightM e.m e.position e.nCells).position = e.position := rfl
  have hsel : (g.reinitialize e.widthM e.heightM e.m e.position e.nCells).selected = g.selected := rfl
  have hcanv : (g.reinitialize e.widthM e.heightM e.m e.position e.nCells).canvas = number true g.next (g.reinitialize e.widthM e.heightM e.m e.position e.nCells).cells := by
    simp only [Win.reinitialize, Win.drawGrid, List.nil_append]; rfl
  have hnext : (g.reinitialize e.widthM e.heightM e.m e.position e.nCells).next = g.next + (g.reinitialize e.widthM e.heightM e.m e.position e.nCells).cells.length := rfl
  unfold Win.load
  dsimp only
  generalize g.reinitialize e.widthM e.heightM e.m e.position e.nCells = g1 at hm1 hp1 hsel hcanv hnext ⊢
  refine ⟨by rw [hm1]; exact hm, g1.canvas, ?_, ?_, ?_, ?_, ?_⟩
  · intro i hi
    rw [hcanv] at hi
    have := mem_number hi
    exact ⟨this.1, by simp only; omega⟩
  · simp only
    rw [hcanv, List.nodup_append]
    refine ⟨nodup_number _ _ _, nodup_renumber _ _, ?_⟩
    intro x hx y hy
    simp only [List.mem_map] at hx hy
    obtain ⟨i, hi, rfl⟩ := hx
    obtain ⟨o, ho, rfl⟩ := hy
    have := (mem_number hi).2.2
    have := (mem_renumber ho).1
    omega
  · exact fun o ho => (mem_renumber ho).2
  · simp only
    rw [number_renumber g1 (by rw [hm1]; exact hm) (by rw [hp1, hp])]
    rfl
  · intro v hv
    simp only at hv
    rw [hsel] at hv
    have := (h4 v hv).1
    refine ⟨by simp only; omega, fun i hi => ?_⟩
    rw [hcanv] at hi
    have := (mem_number hi).2.1
    omega

theorem shows_run (g : Win K) (hg : Shows g) (as : List (Action K)) (ha : ∀ a ∈ as, a.fine) : Shows (g.run as) := by
  induction as generalizing g with
  | nil => exact hg
  | cons a as ih =>
    refine ih _ ?_ (fun b hb => ha b (by simp [hb]))
    have := ha a (by simp)
    cases a with
    | make p s => exact shows_make g hg p s
    | select p => exact shows_select g hg p
    | remove => exact shows_remove g hg
    | move d => exact shows_move g hg d
    | rightClick p => exact shows_rightClick g hg p
    | load e =>
      cases e with
      | none => exact absurd this id
      | some e => exact shows_load g hg e this.1 this.2

end Invariant

/-! ## Properties -/

section Properties
variable [FloorRing K]

/-- C48: converting a pixel to the world and back gives the same pixel, and the other way round. -/
theorem C48_inverse (g : Win K) (hm : g.m ≠ 0) (p : K × K) :
    g.worldToPixel (g.pixelToWorld p) = p ∧ g.pixelToWorld (g.worldToPixel p) = p :=
  ⟨worldToPixel_pixelToWorld g hm p, pixelToWorld_worldToPixel g hm p⟩

example : (start (8 : ℚ) 4 50 (1, 2) (20, 10)).pixelToWorld (100, 250) = (2, 3) ∧
    (start (8 : ℚ) 4 50 (1, 2) (20, 10)).worldToPixel (2, 3) = (100, 250) := by decide +kernel

/-- C48: whatever was done before, an arrow moves the selected obstacle (the last one if none is selected) by one cell in its
direction and leaves the others where they are. -/
theorem C48_move (w h m : K) (p : K × K) (n : ℕ × ℕ) (as : List (Action K)) (d : Dir) (g g' : Win K)
    (hg : (start w h m p n).run as = g) (hgm : g.m ≠ 0) (hmv : g.move d = some g') :
    ∃ v, Spec.target g = some v ∧
      g'.obstacles = g.obstacles.map fun o =>
        if o.var = v then { o with pos := (o.pos.1 + (Spec.cellStep g d).1, o.pos.2 + (Spec.cellStep g d).2) } else o := by
  have hid : Ids g := hg ▸ ids_run _ (ids_start w h m p n) as
  unfold Win.move at hmv
  split at hmv
  · simp at hmv
  rename_i v hv
  split_ifs at hmv
  refine ⟨v, ?_, ?_⟩
  · unfold Spec.target
    rw [← hv]
    unfold Win.toMove
    cases g.selected <;> rfl
  · rw [← Option.some.inj hmv]
    simp only
    rw [setPos_eq_map _ _ _ hid.1]
    apply List.map_congr_left
    intro o _
    rw [moved_eq g hgm]

example : ((start (8 : ℚ) 4 50 (1, 2) (20, 10)).run [.make (40, 60) (.circle 1), .make (200, 100) (.rect 1 2), .select (41, 62),
    .move .up]).obstacles.map Obs.pos = [(9/5, 26/5), (5, 4)] := by decide +kernel

/-- C93, what holds: as long as no file dialog is closed without a file and files have a window in the origin, the canvas shows each
obstacle of the list at its place and nothing else.
Missing: files of windows elsewhere and closed dialogs (`C93_load_violated`, `C93_closed_violated`). -/
theorem C93_partial (w h m : K) (hm : m ≠ 0) (p : K × K) (n : ℕ × ℕ) (as : List (Action K)) (ha : ∀ a ∈ as, a.fine) :
    Spec.drawn ((start w h m p n).run as) =
      ((start w h m p n).run as).obstacles.map (Spec.seen ((start w h m p n).run as)) :=
  shows_drawn _ (shows_run _ (shows_start w h m hm p n) as ha)

example : Spec.drawn ((start (8 : ℚ) 4 50 (1, 2) (20, 10)).run [.make (40, 60) (.circle 1), .make (200, 100) (.rect 1 2),
    .select (41, 62), .move .up, .select (-500, -500), .remove]) = [⟨-10, -10, 90, 90⟩] := by decide +kernel

/-- C93, what holds: then the arrows work whenever there is an obstacle and none or one of them is selected. -/
theorem C93_arrows_partial (w h m : K) (hm : m ≠ 0) (p : K × K) (n : ℕ × ℕ) (as : List (Action K)) (ha : ∀ a ∈ as, a.fine)
    (d : Dir) (g : Win K) (hg : (start w h m p n).run as = g) (hne : g.obstacles ≠ [])
    (hsel : ∀ v, g.selected = some v → ∃ o ∈ g.obstacles, o.var = v) : (g.move d).isSome := by
  obtain ⟨_, grid, _, _, _, h3, _⟩ : Shows g := hg ▸ shows_run _ (shows_start w h m hm p n) as ha
  have key : ∃ o ∈ g.obstacles, g.toMove = some o.var := by
    unfold Win.toMove
    cases hs : g.selected with
    | some v =>
      obtain ⟨o, ho, e⟩ := hsel v hs
      exact ⟨o, ho, by simp [e]⟩
    | none =>
      exact ⟨g.obstacles.getLast hne, List.getLast_mem hne, by simp [List.getLast?_eq_getLast_of_ne_nil hne]⟩
  obtain ⟨o, ho, e⟩ := key
  unfold Win.move
  rw [e]
  simp only
  rw [if_pos (List.any_eq_true.2 ⟨o, ho, by simp⟩), if_pos]
  · rfl
  · rw [h3]
    exact List.any_eq_true.2 ⟨itemOf g o, by simp only [List.mem_append, List.mem_map]; exact .inr ⟨o, ho, rfl⟩, by simp [itemOf]⟩

example : (((start (8 : ℚ) 4 50 (1, 2) (20, 10)).run [.make (40, 60) (.circle 1)]).move .up).isSome := by decide +kernel

/-- C93: reading a saved environment gives the obstacles, the clicked positions and the frame that were saved. -/
theorem C93_file (g g' : Win K) :
    (g'.load (some g.save)).obstacles.map (fun o => (o.pos, o.shape)) = g.obstacles.map (fun o => (o.pos, o.shape)) ∧
      (g'.load (some g.save)).clicked = g.clicked ∧
      (g'.load (some g.save)).widthM = g.widthM ∧ (g'.load (some g.save)).heightM = g.heightM ∧
      (g'.load (some g.save)).m = g.m ∧ (g'.load (some g.save)).position = g.position ∧
      (g'.load (some g.save)).nCells = g.nCells :=
  ⟨renumber_map _ _, rfl, rfl, rfl, rfl, rfl, rfl⟩

example : ((start (4 : ℚ) 4 50 (0, 0) (20, 10)).load (some ((start (8 : ℚ) 4 50 (1, 2) (20, 10)).run
    [.make (40, 60) (.circle 1), .rightClick (3, 4)]).save)).obstacles.map Obs.pos = [(9/5, 24/5)] := by decide +kernel

/-- A session with a window at (1, 1), one obstacle saved and read again. -/
def reopened : Win ℚ :=
  let g := (start (8 : ℚ) 8 50 (1, 1) (20, 20)).run [.make (100, 100) (.circle 1)]
  g.load (some g.save)

/-- C93 fails: a saved environment that is opened again shows its obstacle elsewhere, because `load_environment` draws it at
`world_to_pixel` without taking the position of the frame into account. -/
theorem C93_load_violated : Spec.drawn reopened ≠ reopened.obstacles.map (Spec.seen reopened) ∧
    Spec.drawn reopened ≠ Spec.drawn ((start (8 : ℚ) 8 50 (1, 1) (20, 20)).run [.make (100, 100) (.circle 1)]) := by
  decide +kernel

/-- C93 fails: closing the dialog of "Load" erases the obstacles from the screen but not from the list, and they are in the
environment that is built; the next "Remove" erases a cell of the grid. -/
theorem C93_closed_violated :
    let g := (start (8 : ℚ) 8 50 (0, 0) (20, 20)).run [.make (100, 100) (.circle 1), .load none]
    Spec.drawn g = [] ∧ g.obstacles.length = 1 ∧ g.remove.canvas.length + 1 = g.canvas.length := by
  decide +kernel

end Properties

end Verif.Gui
