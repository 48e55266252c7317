import Verif.Planner.Lemmas

/-! # Grid planner: properties C19 and C20 -/

set_option linter.unusedSectionVars false

namespace Verif.Planner

variable {K : Type} [Field K] [LinearOrder K] [IsStrictOrderedRing K]

open Spec

namespace Spec

/-- As `Step`, but a step down and to the left may cut the corner of the cell below. -/
def WeakStep (n0 n1 : ℕ) (occ : List Cell) (p q : Cell) : Prop :=
  Adjacent p q ∧ Free n0 n1 occ q ∧
  (p.1 ≠ q.1 → p.2 ≠ q.2 → Free n0 n1 occ (q.1, p.2) ∧
    (¬(q.1 = p.1 - 1 ∧ q.2 = p.2 - 1) → Free n0 n1 occ (p.1, q.2)))

/-- `path` leads from `start` to `goal`, all steps being as `R` allows. -/
def Leads (R : Cell → Cell → Prop) (start goal : Cell) (path : List Cell) : Prop :=
  path.head? = some start ∧ path.getLast? = some goal ∧ path.IsChain R

/-- `c` can be reached without leaving the goal again. -/
def ReachableAvoiding (n0 n1 : ℕ) (occ : List Cell) (goal start c : Cell) : Prop :=
  Relation.ReflTransGen (fun a b => WeakStep n0 n1 occ a b ∧ a ≠ goal) start c

end Spec

/-! ## Lemmas -/

theorem pathBack_spec {g : Grid K} {start goal : Cell} (R : Cell → Cell → Prop)
    (hR : ∀ p q, q ∈ g.neighbors p → R p q) (n : Node K) (h : Good g start goal n) :
    Leads R start n.pos (pathBack n).reverse := by
  induction n with
  | start p =>
    have : p = start := h
    subst this
    exact ⟨rfl, rfl, by simp [pathBack]⟩
  | child p par a b f ih =>
    obtain ⟨h1, h2, -⟩ := h
    obtain ⟨i1, i2, i3⟩ := ih h1
    unfold Leads pathBack
    rw [List.reverse_cons]
    refine ⟨?_, by simp [Node.pos], ?_⟩
    · rw [List.head?_append, i1]; rfl
    · rw [List.isChain_append]
      refine ⟨i3, by simp, ?_⟩
      intro x hx y hy
      rw [i2] at hx
      simp only [List.head?_cons, Option.mem_def, Option.some.injEq] at hx hy
      subst hx hy
      exact hR _ _ h2

theorem loop_ok {g : Grid K} {diag : K} {start goal : Cell} (R : Cell → Cell → Prop)
    (hR : ∀ p q, q ∈ g.neighbors p → R p q) (fuel : ℕ) (s : State K) (hi : Inv g start goal s) (path : List Cell)
    (h : loop g diag goal fuel s = some (.ok path)) : Leads R start goal path := by
  induction fuel generalizing s with
  | zero => cases h
  | succ k ih =>
    unfold loop at h
    rcases step_cases g diag hi with ⟨e, hs⟩ | ⟨-, -, hs⟩ | ⟨-, s', hi', -, hs⟩ | ⟨-, hs, -⟩
    · rw [hs] at h
      simp only [Option.some.injEq, Except.ok.injEq] at h
      rw [← h, ← e]
      exact pathBack_spec R hR s.cur (hi.good _ (List.mem_append_left _ hi.cur))
    · rw [hs] at h; simp at h
    · rw [hs] at h; exact ih s' hi' h
    · rw [hs] at h; simp at h

theorem loop_terminates {g : Grid K} {diag : K} {start goal : Cell} (fuel : ℕ) (s : State K) (hi : Inv g start goal s)
    (hf : g.n0 * g.n1 + 1 < fuel + s.closed.length) :
    ∃ r, loop g diag goal fuel s = some r ∧ ∀ e, r = .error e → e = .noNeighbors ∨ e = .noPath := by
  induction fuel generalizing s with
  | zero => have := hi.bound; omega
  | succ k ih =>
    unfold loop
    rcases step_cases g diag hi with ⟨-, hs⟩ | ⟨-, -, hs⟩ | ⟨-, s', hi', hlen, hs⟩ | ⟨-, hs, -⟩
    · rw [hs]; exact ⟨_, rfl, by simp⟩
    · rw [hs]; exact ⟨_, rfl, by simp⟩
    · rw [hs]; exact ih s' hi' (by omega)
    · rw [hs]; exact ⟨_, rfl, by simp⟩

theorem loop_mono {g : Grid K} {diag : K} {goal : Cell} {fuel k : ℕ} {s : State K} {r : Except Err (List Cell)}
    (h : loop g diag goal fuel s = some r) : loop g diag goal (fuel + k) s = some r := by
  induction fuel generalizing s with
  | zero => cases h
  | succ n ih =>
    rw [Nat.succ_add]
    unfold loop at h ⊢
    cases hs : step g diag goal s with
    | done p => rw [hs] at h; exact h
    | fail e => rw [hs] at h; exact h
    | more s' => rw [hs] at h; exact ih h

theorem good_avoid {g : Grid K} {start goal : Cell} (n : Node K) (h : Good g start goal n) :
    ReachableAvoiding g.n0 g.n1 g.occupied goal start n.pos := by
  induction n with
  | start p => have : p = start := h; subst this; exact .refl
  | child p par a b f ih => exact (ih h.1).tail ⟨neighbors_sound h.2.1, h.2.2⟩

theorem weak_reach {n0 n1 : ℕ} {occ : List Cell} {p q : Cell} (h : WeakStep n0 n1 occ p q) : Reachable n0 n1 occ p q := by
  obtain ⟨⟨a0, a1, a2⟩, hf, hc⟩ := h
  by_cases hs : p.1 = q.1 ∨ p.2 = q.2
  · exact .single ⟨⟨a0, a1, a2⟩, hf, fun h1 h2 => absurd hs (by simp [h1, h2])⟩
  · push Not at hs
    refine (Relation.ReflTransGen.single (b := (q.1, p.2)) ?_).tail ?_
    · exact ⟨⟨fun h => hs.1 (by have := congrArg Prod.fst h; exact this), a1, by simp⟩, (hc hs.1 hs.2).1, fun _ h => absurd rfl h⟩
    · exact ⟨⟨fun h => hs.2 (by have := congrArg Prod.snd h; exact this), by simp, a2⟩, hf, fun h => absurd rfl h⟩

theorem loop_fails {g : Grid K} {diag : K} {start goal : Cell} (hfree : Free g.n0 g.n1 g.occupied start)
    (hr : Reachable g.n0 g.n1 g.occupied start goal) (fuel : ℕ) (s : State K) (hi : Inv g start goal s) (e : Err)
    (h : loop g diag goal fuel s = some (.error e)) :
    e = .noPath ∧ ∀ c, Reachable g.n0 g.n1 g.occupied start c → ReachableAvoiding g.n0 g.n1 g.occupied goal start c := by
  induction fuel generalizing s with
  | zero => cases h
  | succ k ih =>
    unfold loop at h
    rcases step_cases g diag hi with ⟨-, hs⟩ | ⟨hne, hnb, hs⟩ | ⟨-, s', hi', -, hs⟩ | ⟨-, hs, closed, c1, c2, c3, -⟩
    · rw [hs] at h; simp at h
    · exfalso
      have hg := hi.good _ (List.mem_append_left _ hi.cur)
      cases hc : s.cur with
      | start p =>
        rw [hc] at hg hnb hne
        have : p = start := hg
        subst this
        rcases Relation.ReflTransGen.cases_head (reach_code hr) with h0 | ⟨c, h0, -⟩
        · exact hne h0
        · rw [show g.neighbors p = [] from hnb] at h0; cases h0
      | child p par a b f =>
        rw [hc] at hg hnb
        have hpf : Free g.n0 g.n1 g.occupied par.pos := by
          have := hg.1
          cases par with
          | start q => have e : q = start := this; rw [← e] at hfree; exact hfree
          | child q par' _ _ _ => exact (neighbors_sound this.2.1).2.1
        exact neighbors_back hg.2.1 hpf hnb
    · rw [hs] at h; exact ih s' hi' h
    · rw [hs] at h
      simp only [Option.some.injEq, Except.error.injEq] at h
      refine ⟨h.symm, fun c hc => ?_⟩
      have hall : ∀ d, Relation.ReflTransGen (fun a b => b ∈ g.neighbors a) start d → d ∈ poss closed := by
        intro d hd
        induction hd with
        | refl => exact c2
        | tail _ hs ih =>
          obtain ⟨n, hn, rfl⟩ := mem_poss.1 ih
          exact c3 n hn _ hs
      obtain ⟨n, hn, rfl⟩ := mem_poss.1 (hall c (reach_code hc))
      exact good_avoid n (c1 n hn)

/-! ## Properties -/

/-- **C19** (part).  Every returned path leads from start to goal over free neighbouring cells, and cuts no corner
except possibly in steps down and to the left.  (Missing: these steps, see `C19_violated`.) -/
theorem C19_partial (g : Grid K) (diag : K) (start goal : Cell) (fuel : ℕ) (path : List Cell)
    (h : getPath g diag start goal fuel = some (.ok path)) :
    Leads (WeakStep g.n0 g.n1 g.occupied) start goal path :=
  loop_ok _ (fun _ _ h => neighbors_sound h) fuel _ (Inv.init g start goal) path h

/-- **C19** When the cells are one unit high, every returned path is a legal one. -/
theorem C19_unit_height_partial (g : Grid K) (diag : K) (start goal : Cell) (fuel : ℕ) (path : List Cell) (hg : g.height / g.n1 = 1)
    (h : getPath g diag start goal fuel = some (.ok path)) :
    Leads (Step g.n0 g.n1 g.occupied) start goal path :=
  loop_ok _ (fun _ _ h => (neighbors_iff_of_one (by unfold Grid.cellH; rw [mul_one]; exact hg)).1 h) fuel _ (Inv.init g start goal) path h

/-- A 3 by 3 grid of unit cells with an occupied centre. -/
def exGrid : Grid ℚ := ⟨3, 3, (0, 0), 3, 3, [(1, 1)]⟩

theorem exGrid_path : getPath exGrid (7 / 5) (0, 0) (2, 1) 10 = some (.ok [(0, 0), (1, 0), (2, 0), (2, 1)]) := by
  decide +kernel

example : Leads (Step 3 3 [(1, 1)]) (0, 0) (2, 1) [(0, 0), (1, 0), (2, 0), (2, 1)] :=
  C19_unit_height_partial exGrid (7 / 5) (0, 0) (2, 1) 10 _ (by norm_num [exGrid]) exGrid_path

/-- **C19** is false for cells half a unit high: the planner passes diagonally by an occupied cell. -/
theorem C19_violated : ∃ (g : Grid ℚ) (diag : ℚ) (start goal : Cell) (path : List Cell),
    getPath g diag start goal 10 = some (.ok path) ∧ ¬ path.IsChain (Step g.n0 g.n1 g.occupied) := by
  refine ⟨⟨3 / 4, 1, (0, 0), 2, 2, [(1, 0)]⟩, 5 / 8, (1, 1), (0, 0), [(1, 1), (0, 0)], by decide +kernel, ?_⟩
  intro h
  simp only [List.isChain_cons_cons] at h
  exact (h.1.2.2 (by simp) (by simp)).1.2.2 (by simp)

/-- **C20** The search always ends, after at most one turn per cell, with a path or one of the two documented errors,
and a returned path exists: the goal is reachable. -/
theorem C20_terminates (g : Grid K) (diag : K) (start goal : Cell) :
    ∃ r, (∀ fuel, g.n0 * g.n1 + 1 ≤ fuel → getPath g diag start goal fuel = some r) ∧
      ((∃ path, r = .ok path ∧ Reachable g.n0 g.n1 g.occupied start goal) ∨ r = .error .noNeighbors ∨ r = .error .noPath) := by
  obtain ⟨r, h, he⟩ := loop_terminates (diag := diag) (g.n0 * g.n1 + 1) _ (Inv.init g start goal) (by simp)
  refine ⟨r, fun fuel hf => ?_, ?_⟩
  · obtain ⟨k, rfl⟩ := Nat.exists_eq_add_of_le hf
    exact loop_mono h
  · cases r with
    | error e => rcases he e rfl with rfl | rfl <;> simp
    | ok path =>
      left
      refine ⟨path, rfl, ?_⟩
      obtain ⟨h1, h2, h3⟩ := C19_partial g diag start goal _ path h
      cases path with
      | nil => simp at h1
      | cons a l =>
        have ha : a = start := by simpa using h1
        subst ha
        rw [List.getLast?_eq_some_getLast (by simp)] at h2
        have hw : Relation.ReflTransGen (WeakStep g.n0 g.n1 g.occupied) a goal := by
          rw [← Option.some.inj h2]
          exact List.relationReflTransGen_of_exists_isChain_cons l h3 rfl
        clear h h1 h2 h3 he
        induction hw with
        | refl => exact .refl
        | tail _ hs ih => exact ih.trans (weak_reach hs)

/-- **C20** (part).  If the goal can be reached then the planner returns a path, provided that some cell can be reached only
through the goal.  (Missing: goals with nothing behind them; there the search may visit all other cells first and then report
that there is no path, see `C20_violated`.  In particular no other error is possible.) -/
theorem C20_partial (g : Grid K) (diag : K) (start goal : Cell) (hfree : Free g.n0 g.n1 g.occupied start)
    (hr : Reachable g.n0 g.n1 g.occupied start goal) (fuel : ℕ) (hf : g.n0 * g.n1 + 1 ≤ fuel) :
    ((∃ c, Reachable g.n0 g.n1 g.occupied start c ∧ ¬ ReachableAvoiding g.n0 g.n1 g.occupied goal start c) →
      ∃ path, getPath g diag start goal fuel = some (.ok path)) ∧
    ((∃ path, getPath g diag start goal fuel = some (.ok path)) ∨ getPath g diag start goal fuel = some (.error .noPath)) := by
  obtain ⟨r, h, -⟩ := C20_terminates g diag start goal
  have h := h fuel hf
  cases r with
  | ok path => exact ⟨fun _ => ⟨path, h⟩, Or.inl ⟨path, h⟩⟩
  | error e =>
    obtain ⟨rfl, h2⟩ := loop_fails hfree hr fuel _ (Inv.init g start goal) e h
    refine ⟨?_, Or.inr h⟩
    rintro ⟨c, hc, hn⟩
    exact absurd (h2 c hc) hn

/-- A corridor of three cells: the middle one is found. -/
example : ∃ path, getPath (⟨3, 1, (0, 0), 3, 1, []⟩ : Grid ℚ) (7 / 5) (0, 0) (1, 0) 4 = some (.ok path) := by
  refine (C20_partial (⟨3, 1, (0, 0), 3, 1, []⟩ : Grid ℚ) (7 / 5) (0, 0) (1, 0) (by simp [Free]) ?_ 4 (by simp)).1
    ⟨(2, 0), ?_, ?_⟩
  · exact .single (by simp [Step, Adjacent, Free])
  · exact (Relation.ReflTransGen.single (b := (1, 0)) (by simp [Step, Adjacent, Free])).tail (by simp [Step, Adjacent, Free])
  · intro h
    have key : ∀ c, ReachableAvoiding 3 1 [] (1, 0) (0, 0) c → c.1 ≤ 1 := by
      intro c hc
      induction hc with
      | refl => simp
      | @tail a b _ hs ih =>
        obtain ⟨⟨⟨-, h1, -⟩, hf, -⟩, hne⟩ := hs
        by_contra hcon
        have hb : b.1 = 2 := by have := hf.1.2; simp at this; omega
        rw [hb, abs_le] at h1
        have ha1 : a.1 = 1 := by omega
        rename_i hprev
        have ha2 : a.2 = 0 := by
          rcases Relation.ReflTransGen.cases_tail hprev with h0 | ⟨z, -, hz⟩
          · rw [h0]
          · have := hz.1.2.1.2.1; simp at this; omega
        exact hne (Prod.ext ha1 ha2)
    have := key _ h
    simp at this

/-- The planner of `exGrid` reports that there is no path around the centre. -/
theorem exGrid_fails : getPath exGrid (7 / 5) (0, 1) (2, 1) 10 = some (.error .noPath) := by decide +kernel

/-- **C20** is false on a 3 by 3 grid with one obstacle in the middle: the way from the left to the right is found, but the goal
is the last cell to be visited and the planner reports that there is no path. -/
theorem C20_obstacle_violated : Free 3 3 [(1, 1)] (0, 1) ∧ Reachable 3 3 [(1, 1)] (0, 1) (2, 1) ∧
    ∀ fuel, 10 ≤ fuel → getPath exGrid (7 / 5) (0, 1) (2, 1) fuel = some (.error .noPath) := by
  refine ⟨by simp [Free], ?_, ?_⟩
  · refine (((Relation.ReflTransGen.single (b := (0, 2)) ?_).tail (b := (0, 2)) (c := (1, 2)) ?_).tail (c := (2, 2)) ?_).tail ?_ <;>
      simp [Step, Adjacent, Free]
  · intro fuel hf
    obtain ⟨k, rfl⟩ := Nat.exists_eq_add_of_le hf
    exact loop_mono exGrid_fails

/-- **C20** is false: with two cells, the neighbouring cell as goal is reported unreachable. -/
theorem C20_violated : ∃ (g : Grid ℚ) (diag : ℚ) (start goal : Cell), Free g.n0 g.n1 g.occupied start ∧
    Reachable g.n0 g.n1 g.occupied start goal ∧ ∀ fuel, 3 ≤ fuel → getPath g diag start goal fuel = some (.error .noPath) := by
  refine ⟨⟨2, 1, (0, 0), 2, 1, []⟩, 7 / 5, (0, 0), (1, 0), by simp [Free], .single (by simp [Step, Adjacent, Free]), ?_⟩
  intro fuel hf
  obtain ⟨k, rfl⟩ := Nat.exists_eq_add_of_le hf
  exact loop_mono (by rfl)

end Verif.Planner
