import Verif.Planner.Model

/-! # Grid planner: lemmas -/

set_option linter.unusedSectionVars false

namespace Verif.Planner

variable {K : Type} [Field K] [LinearOrder K] [IsStrictOrderedRing K]

open Spec

theorem inBounds_cast (g : Grid K) (x y : ℤ) :
    g.inBounds (x : K) (y : K) = true ↔ (0 ≤ x ∧ x < g.n0) ∧ (0 ≤ y ∧ y < g.n1) := by
  unfold Grid.inBounds
  simp only [Bool.and_eq_true, decide_eq_true_eq]
  have e : ∀ (a : ℤ) (n : ℕ), (a : K) < (n : K) ↔ a < (n : ℤ) := fun a n => by
    rw [← Int.cast_natCast (R := K) n, Int.cast_lt]
  rw [e, e, Int.cast_nonneg_iff, Int.cast_nonneg_iff]

theorem isOccupied_cast (g : Grid K) (x y : ℤ) : g.isOccupied (x : K) (y : K) = true ↔ (x, y) ∈ g.occupied := by
  unfold Grid.isOccupied
  simp only [List.any_eq_true, Bool.and_eq_true, decide_eq_true_eq, Int.cast_inj]
  constructor
  · rintro ⟨⟨a, b⟩, h, rfl, rfl⟩; exact h
  · intro h; exact ⟨_, h, rfl, rfl⟩

theorem free_cast (g : Grid K) (x y : ℤ) : g.free (x : K) (y : K) = true ↔ Free g.n0 g.n1 g.occupied (x, y) := by
  unfold Grid.free Free
  rw [Bool.and_eq_true, inBounds_cast]
  have := isOccupied_cast g x y
  cases h : g.isOccupied (x : K) (y : K) <;> simp [h] at this ⊢ <;> simp [this]

theorem free_add (g : Grid K) (x y a b : ℤ) :
    g.free ((x : K) + a) ((y : K) + b) = true ↔ Free g.n0 g.n1 g.occupied (x + a, y + b) := by
  rw [← free_cast]; push_cast; rfl

/-- What the code's neighbourhood guarantees. -/
theorem neighbors_sound {g : Grid K} {p q : Cell} (h : q ∈ g.neighbors p) :
    Adjacent p q ∧ Free g.n0 g.n1 g.occupied q ∧
    (p.1 ≠ q.1 → p.2 ≠ q.2 → Free g.n0 g.n1 g.occupied (q.1, p.2) ∧
      (¬(q.1 = p.1 - 1 ∧ q.2 = p.2 - 1) → Free g.n0 g.n1 g.occupied (p.1, q.2))) := by
  obtain ⟨x, y⟩ := p
  obtain ⟨u, v⟩ := q
  have f1 := free_add g x y 0 1
  have f2 := free_add g x y 1 0
  have f3 := free_add g x y (-1) 0
  have f4 := free_add g x y 0 (-1)
  push_cast at f1 f2 f3 f4
  simp only [add_zero] at f1 f2 f3 f4
  simp only [← sub_eq_add_neg] at f1 f2 f3 f4
  unfold Grid.neighbors at h
  simp only [List.mem_filter, free_cast] at h
  obtain ⟨⟨⟨hm, -⟩, hf⟩, ha⟩ := h
  refine ⟨?_, hf, ?_⟩
  · simp only [List.mem_cons, Prod.mk.injEq, List.not_mem_nil, or_false] at hm
    unfold Adjacent
    simp only [ne_eq, Prod.mk.injEq, abs_le]
    omega
  · intro h1 h2
    unfold Grid.isAccessible at ha
    simp only at h1 h2 ha ⊢
    rw [if_pos ⟨h1, h2⟩] at ha
    split_ifs at ha with k1 k2 k3 k4
    · simp only [Bool.and_eq_true, f1, f2] at ha
      rw [k1.1, k1.2] at ha
      exact ⟨ha.2, fun _ => ha.1⟩
    · simp only [Bool.and_eq_true, f1, f3] at ha
      rw [k2.1, k2.2] at ha
      exact ⟨ha.2, fun _ => ha.1⟩
    · simp only [Bool.and_eq_true, f2, f4] at ha
      rw [k3.1, k3.2] at ha
      exact ⟨ha.2, fun _ => ha.1⟩
    · simp only [Bool.and_eq_true, f3] at ha
      rw [k4.1] at ha
      exact ⟨ha.2, fun h => absurd ⟨k4.1.symm, k4.2.symm⟩ h⟩

/-- Straight steps are always found. -/
theorem neighbors_straight {g : Grid K} {p q : Cell} (ha : Adjacent p q) (hf : Free g.n0 g.n1 g.occupied q)
    (hs : p.1 = q.1 ∨ p.2 = q.2) : q ∈ g.neighbors p := by
  obtain ⟨x, y⟩ := p
  obtain ⟨u, v⟩ := q
  unfold Grid.neighbors
  simp only [List.mem_filter, free_cast]
  refine ⟨⟨⟨?_, ?_⟩, hf⟩, ?_⟩
  · unfold Adjacent at ha
    simp only [ne_eq, Prod.mk.injEq, abs_le] at ha hs
    simp only [List.mem_cons, Prod.mk.injEq, List.not_mem_nil, or_false]
    omega
  · rw [inBounds_cast]; exact ⟨hf.1, hf.2.1⟩
  · unfold Grid.isAccessible
    rw [if_neg (by simp only at hs ⊢; omega)]

/-- With square-metre cells (height `1`) the code's neighbourhood is exactly the legal steps. -/
theorem neighbors_iff_of_one {g : Grid K} (hg : g.cellH = 1) {p q : Cell} :
    q ∈ g.neighbors p ↔ Step g.n0 g.n1 g.occupied p q := by
  constructor
  · intro h
    obtain ⟨a, b, c⟩ := neighbors_sound h
    refine ⟨a, b, fun h1 h2 => ⟨?_, (c h1 h2).1⟩⟩
    by_cases hd : q.1 = p.1 - 1 ∧ q.2 = p.2 - 1
    · obtain ⟨x, y⟩ := p
      obtain ⟨u, v⟩ := q
      simp only at hd h1 h2 ⊢
      obtain ⟨rfl, rfl⟩ := hd
      unfold Grid.neighbors at h
      simp only [List.mem_filter] at h
      have ha := h.2
      unfold Grid.isAccessible at ha
      simp only at ha
      rw [if_pos ⟨h1, h2⟩, if_neg (by omega), if_neg (by omega), if_neg (by omega), if_pos (by simp), hg,
        Bool.and_eq_true] at ha
      have f4 := free_add g x y 0 (-1)
      push_cast at f4
      simp only [add_zero, ← sub_eq_add_neg] at f4
      exact f4.1 ha.1
    · exact (c h1 h2).2 hd
  · rintro ⟨ha, hf, hc⟩
    by_cases hs : p.1 = q.1 ∨ p.2 = q.2
    · exact neighbors_straight ha hf hs
    · push Not at hs
      obtain ⟨c1, c2⟩ := hc hs.1 hs.2
      obtain ⟨x, y⟩ := p
      obtain ⟨u, v⟩ := q
      have f1 := free_add g x y 0 1
      have f2 := free_add g x y 1 0
      have f3 := free_add g x y (-1) 0
      have f4 := free_add g x y 0 (-1)
      push_cast at f1 f2 f3 f4
      simp only [add_zero] at f1 f2 f3 f4
      simp only [← sub_eq_add_neg] at f1 f2 f3 f4
      unfold Adjacent at ha
      simp only [ne_eq, Prod.mk.injEq, abs_le] at ha hs c1 c2
      unfold Grid.neighbors
      simp only [List.mem_filter, free_cast]
      refine ⟨⟨⟨?_, ?_⟩, hf⟩, ?_⟩
      · simp only [List.mem_cons, Prod.mk.injEq, List.not_mem_nil, or_false]
        omega
      · rw [inBounds_cast]; exact ⟨hf.1, hf.2.1⟩
      · unfold Grid.isAccessible
        simp only
        rw [if_pos hs, hg]
        split_ifs with k1 k2 k3 k4
        · simp only [Bool.and_eq_true, f1, f2]; rw [k1.1, k1.2]; exact ⟨c1, c2⟩
        · simp only [Bool.and_eq_true, f1, f3]; rw [k2.1, k2.2]; exact ⟨c1, c2⟩
        · simp only [Bool.and_eq_true, f4, f2]; rw [k3.1, k3.2]; exact ⟨c1, c2⟩
        · simp only [Bool.and_eq_true, f4, f3]; rw [k4.1, k4.2]; exact ⟨c1, c2⟩
        · omega

/-- Legal reachability implies reachability along the code's neighbourhood, whatever the cell height: a diagonal
step can be replaced by two straight ones. -/
theorem reach_code {g : Grid K} {p q : Cell} (h : Reachable g.n0 g.n1 g.occupied p q) :
    Relation.ReflTransGen (fun a b => b ∈ g.neighbors a) p q := by
  induction h with
  | refl => exact .refl
  | @tail b c _ hs ih =>
    obtain ⟨ha, hf, hc⟩ := hs
    by_cases hst : b.1 = c.1 ∨ b.2 = c.2
    · exact ih.tail (neighbors_straight ha hf hst)
    · push Not at hst
      have hm := (hc hst.1 hst.2).2
      have ha' : (b ≠ c ∧ |c.1 - b.1| ≤ 1 ∧ |c.2 - b.2| ≤ 1) := ha
      refine (ih.tail (neighbors_straight (q := (c.1, b.2)) ?_ hm (Or.inr rfl))).tail
        (neighbors_straight (p := (c.1, b.2)) ?_ hf (Or.inl rfl))
      · refine ⟨fun h => hst.1 (by have := congrArg Prod.fst h; exact this), ha'.2.1, by simp⟩
      · refine ⟨fun h => hst.2 (by have := congrArg Prod.snd h; exact this), by simp, ha'.2.2⟩

theorem neighbors_ne {g : Grid K} {p q : Cell} (h : q ∈ g.neighbors p) : q ≠ p := fun e => (neighbors_sound h).1.1 e.symm

/-- A cell that was entered from a free cell can be left. -/
theorem neighbors_back {g : Grid K} {p q : Cell} (h : q ∈ g.neighbors p) (hp : Free g.n0 g.n1 g.occupied p) :
    g.neighbors q ≠ [] := by
  obtain ⟨a, -, c⟩ := neighbors_sound h
  obtain ⟨a0, a1, a2⟩ := a
  by_cases hs : p.1 = q.1 ∨ p.2 = q.2
  · exact List.ne_nil_of_mem (neighbors_straight (p := q) (q := p) ⟨fun e => a0 e.symm, by rw [abs_sub_comm]; exact a1,
      by rw [abs_sub_comm]; exact a2⟩ hp (hs.imp Eq.symm Eq.symm))
  · push Not at hs
    exact List.ne_nil_of_mem (neighbors_straight (p := q) (q := (q.1, p.2))
      ⟨fun e => hs.2 (congrArg Prod.snd e).symm, by simp, by rw [abs_sub_comm]; exact a2⟩ (c hs.1 hs.2).1 (Or.inl rfl))

/-! ## The search -/

/-- A node whose parents lead back to the start by neighbourhood steps, not passing through the goal. -/
def Good (g : Grid K) (start goal : Cell) : Node K → Prop
  | .start p => p = start
  | .child p par _ _ _ => Good g start goal par ∧ p ∈ g.neighbors par.pos ∧ par.pos ≠ goal

def poss (l : List (Node K)) : List Cell := l.map Node.pos

theorem mem_poss {l : List (Node K)} {c : Cell} : c ∈ poss l ↔ ∃ n ∈ l, n.pos = c := List.mem_map

theorem any_pos {l : List (Node K)} {c : Cell} : (l.any fun n => n.pos = c) = true ↔ c ∈ poss l := by
  simp [mem_poss]

theorem gCost_ok (g : Grid K) (diag : K) {par : Node K} {pos : Cell} (h : pos ≠ par.pos) :
    ∃ c, gCost g diag par pos = .ok c := by
  unfold gCost
  rw [if_neg (fun e => h (Prod.ext e.1 e.2))]
  split_ifs <;> exact ⟨_, rfl⟩

theorem update_ok (g : Grid K) (diag : K) (start goal : Cell) {cur : Node K} {point : Cell} (hp : point ∈ g.neighbors cur.pos)
    (hc : Good g start goal cur) (hg : cur.pos ≠ goal) (l : List (Node K)) (hl : ∀ n ∈ l, Good g start goal n) :
    ∃ l', update g diag goal cur point l = .ok l' ∧ poss l' = poss l ∧ ∀ n ∈ l', Good g start goal n := by
  induction l with
  | nil => exact ⟨[], rfl, rfl, by simp⟩
  | cons n rest ih =>
    unfold update
    by_cases h : point = n.pos
    · rw [if_pos h]
      obtain ⟨c, ec⟩ := gCost_ok g diag (neighbors_ne hp)
      rw [ec]
      refine ⟨_, rfl, ?_, ?_⟩
      · unfold poss
        rw [List.map_cons, List.map_cons]
        congr 1
        split_ifs
        · exact h
        · rfl
      · intro m hm
        rcases List.mem_cons.1 hm with rfl | hm
        · split_ifs
          · exact ⟨hc, hp, hg⟩
          · exact hl n (List.mem_cons_self)
        · exact hl m (List.mem_cons_of_mem _ hm)
    · rw [if_neg h]
      obtain ⟨l', e, h1, h2⟩ := ih fun m hm => hl m (List.mem_cons_of_mem _ hm)
      rw [e]
      refine ⟨_, rfl, ?_, ?_⟩
      · unfold poss at h1 ⊢
        rw [List.map_cons, List.map_cons, h1]
      · intro m hm
        rcases List.mem_cons.1 hm with rfl | hm
        · exact hl m List.mem_cons_self
        · exact h2 m hm

theorem visit_ok (g : Grid K) (diag : K) (start goal : Cell) {cur : Node K} {point : Cell} (hp : point ∈ g.neighbors cur.pos)
    (hc : Good g start goal cur) (hg : cur.pos ≠ goal) (closed opn : List (Node K)) (hl : ∀ n ∈ opn, Good g start goal n)
    (hn : (poss (closed ++ opn)).Nodup) :
    ∃ l', visit g diag goal cur closed opn point = .ok l' ∧ (∀ n ∈ l', Good g start goal n) ∧
      (poss (closed ++ l')).Nodup ∧ (∀ c, c ∈ poss (closed ++ l') ↔ c = point ∨ c ∈ poss (closed ++ opn)) := by
  obtain ⟨l', e, h1, h2⟩ := update_ok g diag start goal hp hc hg opn hl
  unfold visit
  rw [e]
  simp only [Bool.or_eq_true, any_pos]
  have hpp : ∀ a b : List (Node K), poss (a ++ b) = poss a ++ poss b := fun a b => List.map_append
  split_ifs with hi
  · refine ⟨l', rfl, h2, ?_, ?_⟩
    · rw [hpp, h1, ← hpp]; exact hn
    · intro c
      rw [hpp, h1, ← hpp]
      refine ⟨Or.inr, ?_⟩
      rintro (rfl | h)
      · rw [hpp, List.mem_append]; exact hi
      · exact h
  · obtain ⟨c, ec⟩ := gCost_ok g diag (neighbors_ne hp)
    rw [ec]
    have hni : point ∉ poss (closed ++ opn) := by rw [hpp, List.mem_append]; exact hi
    refine ⟨_, rfl, ?_, ?_, ?_⟩
    · intro m hm
      rcases List.mem_append.1 hm with hm | hm
      · exact h2 m hm
      · rw [List.mem_singleton] at hm
        subst hm
        exact ⟨hc, hp, hg⟩
    · rw [← List.append_assoc, hpp, hpp, h1, ← hpp]
      refine List.nodup_append.2 ⟨hn, by simp [poss], ?_⟩
      intro a ha b hb
      simp only [poss, List.map_cons, List.map_nil, List.mem_singleton, Node.pos] at hb
      subst hb
      exact fun h => hni (h ▸ ha)
    · intro a
      rw [← List.append_assoc, hpp, hpp, h1, ← hpp, List.mem_append]
      simp only [poss, List.map_cons, List.map_nil, List.mem_singleton, Node.pos]
      exact or_comm

theorem visits_ok (g : Grid K) (diag : K) (start goal : Cell) {cur : Node K} (hc : Good g start goal cur) (hg : cur.pos ≠ goal)
    (closed : List (Node K)) (nb : List Cell) (hnb : ∀ c ∈ nb, c ∈ g.neighbors cur.pos) (opn : List (Node K))
    (hl : ∀ n ∈ opn, Good g start goal n) (hn : (poss (closed ++ opn)).Nodup) :
    ∃ l', nb.foldlM (visit g diag goal cur closed) opn = .ok l' ∧ (∀ n ∈ l', Good g start goal n) ∧
      (poss (closed ++ l')).Nodup ∧ (∀ c, c ∈ poss (closed ++ l') ↔ c ∈ nb ∨ c ∈ poss (closed ++ opn)) := by
  induction nb generalizing opn with
  | nil => exact ⟨opn, rfl, hl, hn, by simp⟩
  | cons a nb ih =>
    obtain ⟨l1, e1, g1, n1, m1⟩ := visit_ok g diag start goal (hnb a List.mem_cons_self) hc hg closed opn hl hn
    obtain ⟨l2, e2, g2, n2, m2⟩ := ih (fun c h => hnb c (List.mem_cons_of_mem _ h)) l1 g1 n1
    refine ⟨l2, ?_, g2, n2, ?_⟩
    · rw [List.foldlM_cons, e1]; exact e2
    · intro c
      rw [m2, m1, List.mem_cons]
      constructor
      · rintro (h | h | h)
        · exact Or.inl (Or.inr h)
        · exact Or.inl (Or.inl h)
        · exact Or.inr h
      · rintro ((h | h) | h)
        · exact Or.inr (Or.inl h)
        · exact Or.inl h
        · exact Or.inr (Or.inr h)

theorem lowest_aux (l : List (Node K)) (b : Node K) : ∃ n, (n = b ∨ n ∈ l) ∧
    l.foldl (fun best n => match best with
    | none => some n
    | some b => if n.f < b.f then some n else some b) (some b) = some n := by
  induction l generalizing b with
  | nil => exact ⟨b, Or.inl rfl, rfl⟩
  | cons a l ih =>
    simp only [List.foldl_cons]
    split_ifs
    · obtain ⟨n, h, e⟩ := ih a
      exact ⟨n, h.elim (fun h => Or.inr (h ▸ List.mem_cons_self)) (fun h => Or.inr (List.mem_cons_of_mem _ h)), e⟩
    · obtain ⟨n, h, e⟩ := ih b
      exact ⟨n, h.elim Or.inl (fun h => Or.inr (List.mem_cons_of_mem _ h)), e⟩

theorem lowest_mem {l : List (Node K)} (h : l ≠ []) : ∃ n ∈ l, lowest l = some n := by
  cases l with
  | nil => exact absurd rfl h
  | cons a l =>
    obtain ⟨n, h, e⟩ := lowest_aux l a
    exact ⟨n, h.elim (fun h => h ▸ List.mem_cons_self) (fun h => List.mem_cons_of_mem _ h), e⟩

theorem remove_perm {l : List (Node K)} {n : Node K} (h : n ∈ l) : (poss l).Perm (n.pos :: poss (remove n l)) := by
  induction l with
  | nil => cases h
  | cons a l ih =>
    unfold remove
    rw [List.eraseP_cons]
    by_cases e : a.pos = n.pos
    · rw [e]; simp [poss, e]
    · rcases List.mem_cons.1 h with rfl | h
      · exact absurd rfl e
      · have : (decide (a.pos = n.pos)) = false := by simpa using e
        rw [this]
        simp only [cond_false, poss, List.map_cons]
        exact ((ih h).cons a.pos).trans (List.Perm.swap _ _ _)

theorem remove_sub {l : List (Node K)} {n m : Node K} (h : m ∈ remove n l) : m ∈ l := List.mem_of_mem_eraseP h

/-- The invariant of the search. -/
structure Inv (g : Grid K) (start goal : Cell) (s : State K) : Prop where
  good : ∀ n ∈ s.closed ++ s.opn, Good g start goal n
  cur : s.cur ∈ s.closed
  start : start ∈ poss s.closed
  nodup : (poss (s.closed ++ s.opn)).Nodup
  expanded : ∀ n ∈ s.closed, n.pos ≠ s.cur.pos → n.pos ≠ goal ∧ ∀ c ∈ g.neighbors n.pos, c ∈ poss (s.closed ++ s.opn)
  alive : s.opn ≠ [] ∨ g.neighbors s.cur.pos = [] ∨ ∃ c ∈ g.neighbors s.cur.pos, c ∉ poss s.closed

theorem Inv.init (g : Grid K) (start goal : Cell) : Inv g start goal ⟨.start start, [.start start], []⟩ where
  good := by intro n hn; simp at hn; subst hn; rfl
  cur := by simp
  start := by simp [poss, Node.pos]
  nodup := by simp [poss]
  expanded := by intro n hn h; simp at hn; subst hn; exact absurd rfl h
  alive := by
    right
    rcases h : g.neighbors start with _ | ⟨c, l⟩
    · exact Or.inl h
    · right
      refine ⟨c, by show c ∈ g.neighbors start; rw [h]; exact List.mem_cons_self, ?_⟩
      have : c ∈ g.neighbors start := by rw [h]; exact List.mem_cons_self
      simpa [poss, Node.pos] using neighbors_ne this

/-- Everything one turn of the loop can do. -/
theorem step_cases (g : Grid K) (diag : K) {start goal : Cell} {s : State K} (hi : Inv g start goal s) :
    (s.cur.pos = goal ∧ step g diag goal s = .done (pathBack s.cur).reverse) ∨
    (s.cur.pos ≠ goal ∧ g.neighbors s.cur.pos = [] ∧ step g diag goal s = .fail .noNeighbors) ∨
    (s.cur.pos ≠ goal ∧ ∃ s', Inv g start goal s' ∧ s'.closed.length = s.closed.length + 1 ∧ step g diag goal s = .more s') ∨
    (s.cur.pos ≠ goal ∧ step g diag goal s = .fail .noPath ∧ ∃ closed : List (Node K), (∀ n ∈ closed, Good g start goal n) ∧
      start ∈ poss closed ∧ (∀ n ∈ closed, ∀ c ∈ g.neighbors n.pos, c ∈ poss closed) ∧
      ∃ n ∈ closed, ∀ m ∈ closed, m.pos = goal → m.pos = n.pos) := by
  by_cases hgoal : s.cur.pos = goal
  · exact Or.inl ⟨hgoal, by unfold step; rw [if_pos hgoal]⟩
  by_cases hnb : g.neighbors s.cur.pos = []
  · refine Or.inr (Or.inl ⟨hgoal, hnb, ?_⟩)
    unfold step; rw [if_neg hgoal]; simp only [hnb, if_true]
  have hcur : Good g start goal s.cur := hi.good _ (List.mem_append_left _ hi.cur)
  obtain ⟨l, e, g1, n1, m1⟩ := visits_ok g diag start goal hcur hgoal s.closed (g.neighbors s.cur.pos) (fun c h => h) s.opn
    (fun n hn => hi.good n (List.mem_append_right _ hn)) hi.nodup
  have hpp : ∀ a b : List (Node K), poss (a ++ b) = poss a ++ poss b := fun a b => List.map_append
  have hl : l ≠ [] := by
    rintro rfl
    rcases hi.alive with h | h | ⟨c, hc, hn⟩
    · obtain ⟨n, hn⟩ := List.exists_mem_of_ne_nil _ h
      have h1 : n.pos ∈ poss (s.closed ++ []) := (m1 _).2 (Or.inr (mem_poss.2 ⟨n, List.mem_append_right _ hn, rfl⟩))
      rw [List.append_nil] at h1
      have h2 := hi.nodup
      rw [hpp, List.nodup_append] at h2
      exact h2.2.2 _ h1 _ (mem_poss.2 ⟨n, hn, rfl⟩) rfl
    · exact hnb h
    · have := (m1 c).2 (Or.inl hc)
      rw [List.append_nil] at this
      exact hn this
  obtain ⟨n, hn, en⟩ := lowest_mem hl
  have hperm := remove_perm hn
  have hgood' : ∀ m ∈ (s.closed ++ [n]) ++ remove n l, Good g start goal m := by
    intro m hm
    simp only [List.mem_append, List.mem_singleton] at hm
    rcases hm with (h | rfl) | h
    · exact hi.good m (List.mem_append_left _ h)
    · exact g1 m hn
    · exact g1 m (remove_sub h)
  have hperm2 : (poss ((s.closed ++ [n]) ++ remove n l)).Perm (poss (s.closed ++ l)) := by
    simp only [hpp]
    rw [List.append_assoc]
    exact (hperm.symm.append_left (poss s.closed))
  have hexp : ∀ m ∈ s.closed, m.pos ≠ goal ∧ ∀ c ∈ g.neighbors m.pos, c ∈ poss (s.closed ++ l) := by
    intro m hm
    by_cases hc : m.pos = s.cur.pos
    · rw [hc]; exact ⟨hgoal, fun c h => (m1 c).2 (Or.inl h)⟩
    · obtain ⟨a, b⟩ := hi.expanded m hm hc
      exact ⟨a, fun c h => (m1 c).2 (Or.inr (b c h))⟩
  unfold step
  rw [if_neg hgoal]
  simp only [hnb, if_false, e, en]
  split_ifs with hf
  · refine Or.inr (Or.inr (Or.inr ⟨hgoal, rfl, s.closed ++ [n], ?_, ?_, ?_, n, by simp, ?_⟩))
    · intro m hm; exact hgood' m (List.mem_append_left _ hm)
    · rw [hpp]; exact List.mem_append_left _ hi.start
    · have hall : ∀ c ∈ g.neighbors n.pos, c ∈ poss (s.closed ++ [n]) := by
        intro c hc
        rcases hf.2 with h | h
        · rw [h] at hc; cases hc
        · rw [List.all_eq_true] at h
          exact any_pos.1 (h c hc)
      have h3 : ∀ c, c ∈ poss (s.closed ++ l) → c ∈ poss (s.closed ++ [n]) := by
        intro c hc
        have := hperm2.mem_iff.2 hc
        rwa [hf.1, List.append_nil] at this
      intro m hm
      rcases List.mem_append.1 hm with h | h
      · exact fun c hc => h3 c ((hexp m h).2 c hc)
      · rw [List.mem_singleton] at h; subst h; exact hall
    · intro m hm hmg
      rcases List.mem_append.1 hm with h | h
      · exact absurd hmg (hexp m h).1
      · rw [List.mem_singleton] at h; rw [h]
  · refine Or.inr (Or.inr (Or.inl ⟨hgoal, _, ⟨hgood', by simp, ?_, ?_, ?_, ?_⟩, by simp, rfl⟩))
    · rw [hpp]; exact List.mem_append_left _ hi.start
    · exact hperm2.nodup_iff.2 n1
    · intro m hm hne
      rcases List.mem_append.1 hm with h | h
      · exact ⟨(hexp m h).1, fun c hc => hperm2.mem_iff.2 ((hexp m h).2 c hc)⟩
      · rw [List.mem_singleton] at h; exact absurd (congrArg Node.pos h) hne
    · simp only
      by_cases ho : remove n l = []
      · right
        by_cases hb : g.neighbors n.pos = []
        · exact Or.inl hb
        · right
          by_contra hcon
          push Not at hcon
          refine hf ⟨ho, Or.inr ?_⟩
          rw [List.all_eq_true]
          exact fun c hc => any_pos.2 (hcon c hc)
      · exact Or.inl ho

/-- Closed cells are distinct cells of the grid, apart from the start. -/
theorem Inv.bound {g : Grid K} {start goal : Cell} {s : State K} (hi : Inv g start goal s) :
    s.closed.length ≤ g.n0 * g.n1 + 1 := by
  have hn : (poss s.closed).Nodup := by
    have := hi.nodup
    rw [show poss (s.closed ++ s.opn) = poss s.closed ++ poss s.opn from List.map_append, List.nodup_append] at this
    exact this.1
  have hsub : ∀ c ∈ poss s.closed, c ∈ start :: ((List.range g.n0).flatMap fun i : ℕ => (List.range g.n1).map fun j : ℕ => ((i : ℤ), (j : ℤ))) := by
    intro c hc
    obtain ⟨n, hn, rfl⟩ := mem_poss.1 hc
    have hg := hi.good n (List.mem_append_left _ hn)
    cases n with
    | start p => exact List.mem_cons.2 (Or.inl hg)
    | child p par a b f =>
      refine List.mem_cons_of_mem _ ?_
      have hf := (neighbors_sound hg.2.1).2.1
      obtain ⟨⟨x0, x1⟩, ⟨y0, y1⟩, -⟩ := hf
      rw [List.mem_flatMap]
      refine ⟨p.1.toNat, List.mem_range.2 (by omega), List.mem_map.2 ⟨p.2.toNat, List.mem_range.2 (by omega), ?_⟩⟩
      show ((p.1.toNat : ℤ), (p.2.toNat : ℤ)) = p
      rw [Int.toNat_of_nonneg x0, Int.toNat_of_nonneg y0]
  have := (List.subperm_of_subset hn hsub).length_le
  rw [show (poss s.closed).length = s.closed.length from List.length_map _] at this
  refine this.trans ?_
  rw [List.length_cons, List.length_flatMap]
  simp

end Verif.Planner
