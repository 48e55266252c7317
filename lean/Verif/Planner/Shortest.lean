import Verif.Planner.Props
import Mathlib.Analysis.Real.Sqrt

/-! # Grid planner: property C140, how long the returned path is

The model is the one of `Model.lean`.  The heuristic of the planner is the Manhattan distance although diagonal steps are
allowed, and a closed cell is never opened again; the returned path is therefore not the shortest one.  It is at most `√2` times
as long. -/

set_option linter.unusedSectionVars false

namespace Verif.Planner

variable {K : Type} [Field K] [LinearOrder K] [IsStrictOrderedRing K]

open Spec

namespace Spec

/-- The distance between the centres of two surrounding cells of size `w` by `h` with diagonal `d`. -/
def stepLength (w h d : K) (p q : Cell) : K :=
  if p.1 = q.1 then h else if p.2 = q.2 then w else d

/-- The length of a path through cell centres. -/
def pathLength (w h d : K) : List Cell → K
  | a :: b :: l => stepLength w h d a b + pathLength w h d (b :: l)
  | _ => 0

end Spec

/-! ## Lemmas -/

/-- There is a way of length `L` along the code's neighbourhood. -/
inductive Walk (g : Grid K) (diag : K) (a : Cell) : Cell → K → Prop
  | nil : Walk g diag a a 0
  | snoc {u v : Cell} {L : K} : Walk g diag a u L → v ∈ g.neighbors u →
      Walk g diag a v (L + stepLength g.cellW g.cellH diag u v)

theorem Walk.trans {g : Grid K} {diag : K} {a b c : Cell} {L M : K} (h : Walk g diag a b L) (k : Walk g diag b c M) :
    Walk g diag a c (L + M) := by
  induction k with
  | nil => rw [add_zero]; exact h
  | snoc _ hv ih => rw [← add_assoc]; exact ih.snoc hv

/-- Every node carries the cost of the way to it and of the heuristic. -/
def CostOK (g : Grid K) (diag : K) (goal : Cell) : Node K → Prop
  | .start _ => True
  | .child p par c h f => CostOK g diag goal par ∧ c = stepLength g.cellW g.cellH diag par.pos p + par.g ∧
      h = hCost g goal p ∧ f = c + h

theorem gCost_eq {g : Grid K} {diag : K} {par : Node K} {pos : Cell} {c : K} (h : gCost g diag par pos = .ok c) :
    c = stepLength g.cellW g.cellH diag par.pos pos + par.g := by
  unfold gCost at h
  unfold stepLength
  split_ifs at h with h1 h2 h3 <;> simp only [Except.ok.injEq] at h <;> subst h
  · rw [if_neg (fun e => h2.1 e.symm), if_pos h2.2.symm]
  · rw [if_pos h3.1.symm]
  · have a : par.pos.1 ≠ pos.1 := by
      intro e
      by_cases e2 : pos.2 = par.pos.2
      · exact h1 ⟨e.symm, e2⟩
      · exact h3 ⟨e.symm, e2⟩
    have b : par.pos.2 ≠ pos.2 := fun e => h2 ⟨fun e1 => a e1.symm, e.symm⟩
    rw [if_neg a, if_neg b]

theorem update_cost {g : Grid K} {diag : K} {goal : Cell} {cur : Node K} {point : Cell} (hc : CostOK g diag goal cur)
    (l l' : List (Node K)) (hl : ∀ n ∈ l, CostOK g diag goal n) (e : update g diag goal cur point l = .ok l') :
    (∀ n ∈ l', CostOK g diag goal n) ∧ (∀ m ∈ l, ∃ m' ∈ l', m'.pos = m.pos ∧ m'.g ≤ m.g) ∧
    (point ∈ poss l → ∃ m ∈ l', m.pos = point ∧ m.g ≤ cur.g + stepLength g.cellW g.cellH diag cur.pos point) := by
  induction l generalizing l' with
  | nil =>
    unfold update at e
    simp only [Except.ok.injEq] at e
    subst e
    simp [poss]
  | cons n rest ih =>
    unfold update at e
    by_cases h : point = n.pos
    · rw [if_pos h] at e
      cases ec : gCost g diag cur point with
      | error x => rw [ec] at e; simp at e
      | ok c =>
        rw [ec] at e
        simp only [Except.ok.injEq] at e
        subst e
        have hcc := gCost_eq ec
        refine ⟨?_, ?_, ?_⟩
        · intro m hm
          rcases List.mem_cons.1 hm with rfl | hm
          · split_ifs
            · exact ⟨hc, hcc, rfl, rfl⟩
            · exact hl n List.mem_cons_self
          · exact hl m (List.mem_cons_of_mem _ hm)
        · intro m hm
          rcases List.mem_cons.1 hm with rfl | hm
          · refine ⟨_, List.mem_cons_self, ?_⟩
            split_ifs with hle
            · exact ⟨h, hle⟩
            · exact ⟨rfl, le_refl _⟩
          · exact ⟨m, List.mem_cons_of_mem _ hm, rfl, le_refl _⟩
        · intro _
          refine ⟨_, List.mem_cons_self, ?_⟩
          split_ifs with hle
          · refine ⟨rfl, ?_⟩
            show c ≤ _
            rw [hcc, add_comm]
          · refine ⟨h.symm, ?_⟩
            rw [add_comm, ← hcc]
            exact (not_le.1 hle).le
    · rw [if_neg h] at e
      cases er : update g diag goal cur point rest with
      | error x => rw [er] at e; simp at e
      | ok r =>
        rw [er] at e
        simp only [Except.ok.injEq] at e
        subst e
        obtain ⟨i1, i2, i3⟩ := ih r (fun m hm => hl m (List.mem_cons_of_mem _ hm)) er
        refine ⟨?_, ?_, ?_⟩
        · intro m hm
          rcases List.mem_cons.1 hm with rfl | hm
          · exact hl m List.mem_cons_self
          · exact i1 m hm
        · intro m hm
          rcases List.mem_cons.1 hm with rfl | hm
          · exact ⟨m, List.mem_cons_self, rfl, le_refl _⟩
          · obtain ⟨m', h1, h2⟩ := i2 m hm
            exact ⟨m', List.mem_cons_of_mem _ h1, h2⟩
        · intro hp
          have : point ∈ poss rest := by
            rcases List.mem_cons.1 (show point ∈ n.pos :: poss rest from hp) with h0 | h0
            · exact absurd h0 h
            · exact h0
          obtain ⟨m', h1, h2⟩ := i3 this
          exact ⟨m', List.mem_cons_of_mem _ h1, h2⟩

theorem visit_cost {g : Grid K} {diag : K} {goal : Cell} {cur : Node K} {point : Cell} (hc : CostOK g diag goal cur)
    (closed opn l' : List (Node K)) (hl : ∀ n ∈ opn, CostOK g diag goal n) (e : visit g diag goal cur closed opn point = .ok l') :
    (∀ n ∈ l', CostOK g diag goal n) ∧ (∀ m ∈ opn, ∃ m' ∈ l', m'.pos = m.pos ∧ m'.g ≤ m.g) ∧
    (point ∈ poss closed ∨ ∃ m ∈ l', m.pos = point ∧ m.g ≤ cur.g + stepLength g.cellW g.cellH diag cur.pos point) := by
  unfold visit at e
  cases eu : update g diag goal cur point opn with
  | error x => rw [eu] at e; simp at e
  | ok l1 =>
    rw [eu] at e
    obtain ⟨u1, u2, u3⟩ := update_cost hc opn l1 hl eu
    simp only [Bool.or_eq_true, any_pos] at e
    split_ifs at e with hi
    · simp only [Except.ok.injEq] at e
      subst e
      exact ⟨u1, u2, hi.imp id u3⟩
    · cases ec : gCost g diag cur point with
      | error x => rw [ec] at e; simp at e
      | ok c =>
        rw [ec] at e
        simp only [Except.ok.injEq] at e
        subst e
        have hcc := gCost_eq ec
        refine ⟨?_, ?_, Or.inr ⟨_, List.mem_append_right _ (List.mem_singleton_self _), rfl, ?_⟩⟩
        · intro m hm
          rcases List.mem_append.1 hm with hm | hm
          · exact u1 m hm
          · rw [List.mem_singleton] at hm
            subst hm
            exact ⟨hc, hcc, rfl, rfl⟩
        · intro m hm
          obtain ⟨m', h1, h2⟩ := u2 m hm
          exact ⟨m', List.mem_append_left _ h1, h2⟩
        · show c ≤ _
          rw [hcc, add_comm]

theorem visits_cost {g : Grid K} {diag : K} {goal : Cell} {cur : Node K} (hc : CostOK g diag goal cur)
    (closed : List (Node K)) (nb : List Cell) (opn l' : List (Node K)) (hl : ∀ n ∈ opn, CostOK g diag goal n)
    (e : nb.foldlM (visit g diag goal cur closed) opn = .ok l') :
    (∀ n ∈ l', CostOK g diag goal n) ∧ (∀ m ∈ opn, ∃ m' ∈ l', m'.pos = m.pos ∧ m'.g ≤ m.g) ∧
    (∀ c ∈ nb, c ∈ poss closed ∨ ∃ m ∈ l', m.pos = c ∧ m.g ≤ cur.g + stepLength g.cellW g.cellH diag cur.pos c) := by
  induction nb generalizing opn with
  | nil =>
    have : opn = l' := by simpa [pure, Except.pure] using e
    subst this
    exact ⟨hl, fun m hm => ⟨m, hm, rfl, le_refl _⟩, by simp⟩
  | cons a nb ih =>
    rw [List.foldlM_cons] at e
    cases ev : visit g diag goal cur closed opn a with
    | error x => rw [ev] at e; simp [bind, Except.bind] at e
    | ok l1 =>
      rw [ev] at e
      obtain ⟨v1, v2, v3⟩ := visit_cost hc closed opn l1 hl ev
      obtain ⟨i1, i2, i3⟩ := ih l1 v1 e
      refine ⟨i1, ?_, ?_⟩
      · intro m hm
        obtain ⟨m1, h1, h2, h3⟩ := v2 m hm
        obtain ⟨m2, k1, k2, k3⟩ := i2 m1 h1
        exact ⟨m2, k1, k2.trans h2, k3.trans h3⟩
      · intro c hcm
        rcases List.mem_cons.1 hcm with rfl | hcm
        · rcases v3 with h | ⟨m, h1, h2, h3⟩
          · exact Or.inl h
          · obtain ⟨m2, k1, k2, k3⟩ := i2 m h1
            exact Or.inr ⟨m2, k1, k2.trans h2, k3.trans h3⟩
        · exact i3 c hcm

theorem lowest_le_aux (l : List (Node K)) (b n : Node K)
    (e : l.foldl (fun best n => match best with
    | none => some n
    | some b => if n.f < b.f then some n else some b) (some b) = some n) : n.f ≤ b.f ∧ ∀ m ∈ l, n.f ≤ m.f := by
  induction l generalizing b with
  | nil =>
    simp only [List.foldl_nil, Option.some.injEq] at e
    subst e
    exact ⟨le_refl _, by simp⟩
  | cons a l ih =>
    simp only [List.foldl_cons] at e
    split_ifs at e with h
    · obtain ⟨h1, h2⟩ := ih a e
      exact ⟨h1.trans h.le, fun m hm => (List.mem_cons.1 hm).elim (fun h => h ▸ h1) (h2 m)⟩
    · obtain ⟨h1, h2⟩ := ih b e
      exact ⟨h1, fun m hm => (List.mem_cons.1 hm).elim (fun h' => h' ▸ h1.trans (not_lt.1 h)) (h2 m)⟩

theorem lowest_le {l : List (Node K)} {n : Node K} (e : lowest l = some n) : ∀ m ∈ l, n.f ≤ m.f := by
  cases l with
  | nil => simp [lowest] at e
  | cons a l =>
    obtain ⟨h1, h2⟩ := lowest_le_aux l a n e
    exact fun m hm => (List.mem_cons.1 hm).elim (fun h => h ▸ h1) (h2 m)

/-- The heuristic divided by `k` is consistent. -/
theorem hCost_step {g : Grid K} {diag k : K} (goal : Cell) (hw : 0 ≤ g.cellW) (hh : 0 ≤ g.cellH) (hk : 1 ≤ k)
    (hd : g.cellW + g.cellH ≤ k * diag) {p q : Cell} (h : q ∈ g.neighbors p) :
    hCost g goal p ≤ k * stepLength g.cellW g.cellH diag p q + hCost g goal q := by
  obtain ⟨-, a1, a2⟩ := (neighbors_sound h).1
  have t1 : |goal.1 - p.1| ≤ |goal.1 - q.1| + |q.1 - p.1| := by
    rw [show goal.1 - p.1 = (goal.1 - q.1) + (q.1 - p.1) by ring]; exact abs_add_le _ _
  have t2 : |goal.2 - p.2| ≤ |goal.2 - q.2| + |q.2 - p.2| := by
    rw [show goal.2 - p.2 = (goal.2 - q.2) + (q.2 - p.2) by ring]; exact abs_add_le _ _
  have c1 : ((|goal.1 - p.1| : ℤ) : K) ≤ ((|goal.1 - q.1| : ℤ) : K) + ((|q.1 - p.1| : ℤ) : K) := by exact_mod_cast t1
  have c2 : ((|goal.2 - p.2| : ℤ) : K) ≤ ((|goal.2 - q.2| : ℤ) : K) + ((|q.2 - p.2| : ℤ) : K) := by exact_mod_cast t2
  have b1 : ((|q.1 - p.1| : ℤ) : K) ≤ 1 := by exact_mod_cast a1
  have b2 : ((|q.2 - p.2| : ℤ) : K) ≤ 1 := by exact_mod_cast a2
  have m1 := mul_le_mul_of_nonneg_right c1 hw
  have m2 := mul_le_mul_of_nonneg_right c2 hh
  have n1 := mul_le_mul_of_nonneg_right b1 hw
  have n2 := mul_le_mul_of_nonneg_right b2 hh
  unfold hCost stepLength
  split_ifs with e1 e2
  · have z : ((|q.1 - p.1| : ℤ) : K) = 0 := by rw [e1]; simp
    rw [z] at m1
    have := mul_le_mul_of_nonneg_right hk hh
    linarith
  · have z : ((|q.2 - p.2| : ℤ) : K) = 0 := by rw [e2]; simp
    rw [z] at m2
    have := mul_le_mul_of_nonneg_right hk hw
    linarith
  · linarith

theorem hCost_walk {g : Grid K} {diag k : K} (goal : Cell) (hw : 0 ≤ g.cellW) (hh : 0 ≤ g.cellH) (hk : 1 ≤ k)
    (hd : g.cellW + g.cellH ≤ k * diag) {p q : Cell} {L : K} (h : Walk g diag p q L) :
    hCost g goal p ≤ k * L + hCost g goal q := by
  induction h with
  | nil => simp
  | snoc _ hv ih =>
    have := hCost_step goal hw hh hk hd hv
    rw [mul_add]
    linarith

/-- The invariant about costs. -/
structure CInv (g : Grid K) (diag k : K) (start goal : Cell) (s : State K) : Prop where
  ok : ∀ n ∈ s.closed ++ s.opn, CostOK g diag goal n
  best : ∀ n ∈ s.closed, ∀ L, Walk g diag start n.pos L → n.g ≤ k * L
  relaxed : ∀ n ∈ s.closed, n.pos ≠ s.cur.pos → ∀ c ∈ g.neighbors n.pos, c ∈ poss s.closed ∨
    ∃ m ∈ s.opn, m.pos = c ∧ m.g ≤ n.g + stepLength g.cellW g.cellH diag n.pos c

theorem stepLength_nonneg {w h d : K} (hw : 0 ≤ w) (hh : 0 ≤ h) (hd : 0 ≤ d) (p q : Cell) : 0 ≤ stepLength w h d p q := by
  unfold stepLength
  split_ifs <;> assumption

theorem Walk.nonneg {g : Grid K} {diag : K} (hw : 0 ≤ g.cellW) (hh : 0 ≤ g.cellH) (hd : 0 ≤ diag) {a b : Cell} {L : K}
    (h : Walk g diag a b L) : 0 ≤ L := by
  induction h with
  | nil => exact le_refl _
  | snoc _ _ ih => exact add_nonneg ih (stepLength_nonneg hw hh hd _ _)

theorem CInv.init {g : Grid K} {diag k : K} (start goal : Cell) (hw : 0 ≤ g.cellW) (hh : 0 ≤ g.cellH) (hd : 0 ≤ diag)
    (hk : 1 ≤ k) : CInv g diag k start goal ⟨.start start, [.start start], []⟩ where
  ok := by intro n hn; simp at hn; subst hn; trivial
  best := by
    intro n hn L hL
    simp at hn
    subst hn
    exact mul_nonneg (zero_le_one.trans hk) (hL.nonneg hw hh hd)
  relaxed := by intro n hn h; simp at hn; subst hn; exact absurd rfl h

/-- When every closed node is relaxed, a way either ends in a closed cell or passes through an open one that was found by a way
not much longer than this one. -/
theorem frontier {g : Grid K} {diag k : K} {start : Cell} (hw : 0 ≤ g.cellW) (hh : 0 ≤ g.cellH) (hd0 : 0 ≤ diag) (hk : 1 ≤ k)
    {closed l : List (Node K)} (hs : start ∈ poss closed)
    (hb : ∀ n ∈ closed, ∀ L, Walk g diag start n.pos L → n.g ≤ k * L)
    (hr : ∀ n ∈ closed, ∀ c ∈ g.neighbors n.pos, c ∈ poss closed ∨
      ∃ m ∈ l, m.pos = c ∧ m.g ≤ n.g + stepLength g.cellW g.cellH diag n.pos c)
    {v : Cell} {L : K} (h : Walk g diag start v L) :
    v ∈ poss closed ∨ ∃ m ∈ l, ∃ L1 L2, L = L1 + L2 ∧ Walk g diag m.pos v L2 ∧ m.g ≤ k * L1 := by
  induction h with
  | nil => exact Or.inl hs
  | @snoc u v L hu hv ih =>
    rcases ih with h | ⟨m, hm, L1, L2, e, w2, hg⟩
    · obtain ⟨n, hn, rfl⟩ := mem_poss.1 h
      rcases hr n hn v hv with h1 | ⟨m, hm, hp, hg⟩
      · exact Or.inl h1
      · refine Or.inr ⟨m, hm, _, 0, (add_zero _).symm, hp ▸ Walk.nil, hg.trans ?_⟩
        have h1 := hb n hn L hu
        have h2 := mul_le_mul_of_nonneg_right hk (stepLength_nonneg hw hh hd0 n.pos v)
        rw [mul_add]
        linarith
    · exact Or.inr ⟨m, hm, L1, _, by rw [e, add_assoc], w2.snoc hv, hg⟩

theorem pos_inj {l : List (Node K)} (hn : (poss l).Nodup) {a b : Node K} (ha : a ∈ l) (hb : b ∈ l) (h : a.pos = b.pos) : a = b :=
  List.inj_on_of_nodup_map hn ha hb h

theorem f_eq {g : Grid K} {diag : K} {start goal : Cell} {closed : List (Node K)} {n : Node K} (h : CostOK g diag goal n)
    (hg : Good g start goal n) (hs : start ∈ poss closed) (hn : n.pos ∉ poss closed) : n.f = n.g + hCost g goal n.pos := by
  cases n with
  | start p =>
    have : p = start := hg
    subst this
    exact absurd hs hn
  | child p par c x f =>
    obtain ⟨-, -, h1, h2⟩ := h
    show f = c + _
    rw [h2, h1]; rfl

theorem cstep {g : Grid K} {diag k : K} {start goal : Cell} (hw : 0 ≤ g.cellW) (hh : 0 ≤ g.cellH) (hd0 : 0 ≤ diag) (hk : 1 ≤ k)
    (hd : g.cellW + g.cellH ≤ k * diag) {s s' : State K} (hi : Inv g start goal s) (hc : CInv g diag k start goal s)
    (e : step g diag goal s = .more s') : CInv g diag k start goal s' := by
  unfold step at e
  split_ifs at e with hgoal
  simp only at e
  split_ifs at e with hnb
  cases ev : (g.neighbors s.cur.pos).foldlM (visit g diag goal s.cur s.closed) s.opn with
  | error x => rw [ev] at e; simp at e
  | ok l =>
    rw [ev] at e
    simp only at e
    have hcur : Good g start goal s.cur := hi.good _ (List.mem_append_left _ hi.cur)
    obtain ⟨l0, e0, g1, n1, m1⟩ := visits_ok g diag start goal hcur hgoal s.closed (g.neighbors s.cur.pos) (fun c h => h) s.opn
      (fun n hn => hi.good n (List.mem_append_right _ hn)) hi.nodup
    have hl0 : l0 = l := by rw [ev] at e0; simpa using e0.symm
    subst hl0
    obtain ⟨v1, v2, v3⟩ := visits_cost (hc.ok _ (List.mem_append_left _ hi.cur)) s.closed _ s.opn l0
      (fun n hn => hc.ok n (List.mem_append_right _ hn)) ev
    cases en : lowest l0 with
    | none => rw [en] at e; simp at e
    | some n =>
      rw [en] at e
      simp only at e
      split_ifs at e
      simp only [Outcome.more.injEq] at e
      subst e
      have hne : l0 ≠ [] := by rintro rfl; simp [lowest] at en
      obtain ⟨n', hn, en'⟩ := lowest_mem hne
      rw [en] at en'
      simp only [Option.some.injEq] at en'
      subst en'
      have hpp : ∀ a b : List (Node K), poss (a ++ b) = poss a ++ poss b := fun a b => List.map_append
      have hdis : ∀ m ∈ l0, m.pos ∉ poss s.closed := by
        intro m hm hmc
        rw [hpp, List.nodup_append] at n1
        exact n1.2.2 _ hmc _ (mem_poss.2 ⟨m, hm, rfl⟩) rfl
      have hncl : (poss s.closed).Nodup := by
        have := hi.nodup
        rw [hpp, List.nodup_append] at this
        exact this.1
      have hrel : ∀ m ∈ s.closed, ∀ c ∈ g.neighbors m.pos, c ∈ poss s.closed ∨
          ∃ m' ∈ l0, m'.pos = c ∧ m'.g ≤ m.g + stepLength g.cellW g.cellH diag m.pos c := by
        intro m hm c hcm
        by_cases hmc : m.pos = s.cur.pos
        · have := pos_inj hncl hm hi.cur hmc
          subst this
          exact v3 c hcm
        · rcases hc.relaxed m hm hmc c hcm with h | ⟨m1, h1, h2, h3⟩
          · exact Or.inl h
          · obtain ⟨m2, k1, k2, k3⟩ := v2 m1 h1
            exact Or.inr ⟨m2, k1, k2.trans h2, k3.trans h3⟩
      refine ⟨?_, ?_, ?_⟩
      · intro m hm
        simp only [List.mem_append, List.mem_singleton] at hm
        rcases hm with (h | rfl) | h
        · exact hc.ok m (List.mem_append_left _ h)
        · exact v1 m hn
        · exact v1 m (remove_sub h)
      · intro m hm L hL
        simp only [List.mem_append, List.mem_singleton] at hm
        rcases hm with h | rfl
        · exact hc.best m h L hL
        · rcases frontier hw hh hd0 hk hi.start hc.best hrel hL with h | ⟨m', hm', L1, L2, eL, w2, hg⟩
          · exact absurd h (hdis m hn)
          · have f1 := f_eq (v1 m hn) (g1 m hn) hi.start (hdis m hn)
            have f2 := f_eq (v1 m' hm') (g1 m' hm') hi.start (hdis m' hm')
            have f3 := lowest_le en m' hm'
            have f4 := hCost_walk goal hw hh hk hd w2
            rw [eL, mul_add]
            linarith
      · intro m hm hmn c hcm
        simp only at hm hmn ⊢
        rcases List.mem_append.1 hm with h | h
        · rcases hrel m h c hcm with h1 | ⟨m', h1, h2, h3⟩
          · exact Or.inl (by rw [hpp]; exact List.mem_append_left _ h1)
          · by_cases hcn : c = n.pos
            · exact Or.inl (mem_poss.2 ⟨n, by simp, hcn.symm⟩)
            · refine Or.inr ⟨m', ?_, h2, h3⟩
              unfold remove
              rw [List.mem_eraseP_of_neg (by simp [h2, hcn])]
              exact h1
        · rw [List.mem_singleton] at h
          exact absurd (congrArg Node.pos h) hmn

theorem pathLength_snoc (w h d : K) (l : List Cell) (a b : Cell) (ha : l.getLast? = some a) :
    pathLength w h d (l ++ [b]) = pathLength w h d l + stepLength w h d a b := by
  induction l with
  | nil => simp at ha
  | cons x l ih =>
    cases l with
    | nil =>
      simp only [List.getLast?_singleton, Option.some.injEq] at ha
      subst ha
      simp [pathLength]
    | cons y l =>
      rw [List.getLast?_cons_cons] at ha
      have := ih ha
      simp only [List.cons_append, pathLength] at this ⊢
      rw [this, add_assoc]

theorem pathBack_length {g : Grid K} {diag : K} {goal : Cell} (n : Node K) (h : CostOK g diag goal n) :
    pathLength g.cellW g.cellH diag (pathBack n).reverse = n.g := by
  induction n with
  | start p => rfl
  | child p par c x f ih =>
    obtain ⟨h1, h2, -⟩ := h
    unfold pathBack
    rw [List.reverse_cons, pathLength_snoc _ _ _ _ par.pos, ih h1]
    · show _ = c
      rw [h2, add_comm]
    · cases par <;> simp [pathBack, Node.pos]

theorem loop_cost {g : Grid K} {diag k : K} {start goal : Cell} (hw : 0 ≤ g.cellW) (hh : 0 ≤ g.cellH) (hd0 : 0 ≤ diag)
    (hk : 1 ≤ k) (hd : g.cellW + g.cellH ≤ k * diag) (fuel : ℕ) (s : State K) (hi : Inv g start goal s)
    (hc : CInv g diag k start goal s) (path : List Cell) (h : loop g diag goal fuel s = some (.ok path)) (L : K)
    (hL : Walk g diag start goal L) : pathLength g.cellW g.cellH diag path ≤ k * L := by
  induction fuel generalizing s with
  | zero => cases h
  | succ m ih =>
    unfold loop at h
    rcases step_cases g diag hi with ⟨e, hs⟩ | ⟨-, -, hs⟩ | ⟨-, s', hi', -, hs⟩ | ⟨-, hs, -⟩
    · rw [hs] at h
      simp only [Option.some.injEq, Except.ok.injEq] at h
      rw [← h, pathBack_length _ (hc.ok _ (List.mem_append_left _ hi.cur))]
      exact hc.best _ hi.cur L (e ▸ hL)
    · rw [hs] at h; simp at h
    · rw [hs] at h; exact ih s' hi' (cstep hw hh hd0 hk hd hi hc hs) h
    · rw [hs] at h; simp at h

/-- A path whose steps can each be replaced by a way at most `m` times as long. -/
theorem walk_of_chain {g : Grid K} {diag m : K} (R : Cell → Cell → Prop)
    (hR : ∀ p q, R p q → ∃ M, Walk g diag p q M ∧ M ≤ m * stepLength g.cellW g.cellH diag p q) (l : List Cell) (a b : Cell)
    (hb : (a :: l).getLast? = some b) (hc : (a :: l).IsChain R) :
    ∃ L, Walk g diag a b L ∧ L ≤ m * pathLength g.cellW g.cellH diag (a :: l) := by
  induction l generalizing a with
  | nil =>
    simp only [List.getLast?_singleton, Option.some.injEq] at hb
    subst hb
    exact ⟨0, .nil, by simp [pathLength]⟩
  | cons x l ih =>
    rw [List.isChain_cons_cons] at hc
    rw [List.getLast?_cons_cons] at hb
    obtain ⟨M, h1, h2⟩ := hR a x hc.1
    obtain ⟨L, k1, k2⟩ := ih x hb hc.2
    refine ⟨M + L, h1.trans k1, ?_⟩
    show _ ≤ m * (_ + _)
    rw [mul_add]
    linarith

theorem leads_walk {g : Grid K} {diag m : K} {R : Cell → Cell → Prop}
    (hR : ∀ p q, R p q → ∃ M, Walk g diag p q M ∧ M ≤ m * stepLength g.cellW g.cellH diag p q) {start goal : Cell}
    {path : List Cell} (h : Leads R start goal path) :
    ∃ L, Walk g diag start goal L ∧ L ≤ m * pathLength g.cellW g.cellH diag path := by
  obtain ⟨h1, h2, h3⟩ := h
  cases path with
  | nil => simp at h1
  | cons a l =>
    have : a = start := by simpa using h1
    subst this
    exact walk_of_chain R hR l a goal h2 h3

theorem diag_bound {w h d k : K} (hd : 0 ≤ d) (hd2 : d * d = w * w + h * h) (hk : 0 ≤ k) (hk2 : 2 ≤ k * k) :
    w + h ≤ k * d := by
  refine le_of_sq_le_sq ?_ (mul_nonneg hk hd)
  have h1 : 2 * (d * d) ≤ (k * k) * (d * d) := mul_le_mul_of_nonneg_right hk2 (mul_self_nonneg d)
  have h2 := mul_self_nonneg (w - h)
  nlinarith

theorem one_le_of_sq {k : K} (hk : 0 ≤ k) (hk2 : 2 ≤ k * k) : 1 ≤ k := by
  by_contra h
  push Not at h
  have := mul_le_mul h.le h.le hk zero_le_one
  linarith

/-! ## Properties -/

/-- **C140** (part).  With cells one unit high, the returned path is at most `k` times as long as any legal path from the start to
the goal, for every `k` with `k² ≥ 2`: the smallest factor is `√2`.  (Missing: factor one, see `C140_violated`.) -/
theorem C140_unit_height_partial (g : Grid K) (diag k : K) (start goal : Cell) (fuel : ℕ) (path other : List Cell)
    (hw : 0 ≤ g.width) (h1 : g.height / g.n1 = 1) (hd : 0 ≤ diag)
    (hd2 : diag * diag = (g.width / g.n0) * (g.width / g.n0) + (g.height / g.n1) * (g.height / g.n1))
    (hk : 0 ≤ k) (hk2 : 2 ≤ k * k) (h : getPath g diag start goal fuel = some (.ok path))
    (ho : Leads (Step g.n0 g.n1 g.occupied) start goal other) :
    pathLength (g.width / g.n0) (g.height / g.n1) diag path ≤
      k * pathLength (g.width / g.n0) (g.height / g.n1) diag other := by
  have ew : g.cellW = g.width / g.n0 := by unfold Grid.cellW; rw [mul_one]
  have eh : g.cellH = g.height / g.n1 := by unfold Grid.cellH; rw [mul_one]
  rw [← ew, ← eh] at hd2 ⊢
  rw [← eh] at h1
  have cw : 0 ≤ g.cellW := by rw [ew]; exact div_nonneg hw (Nat.cast_nonneg _)
  have ch : 0 ≤ g.cellH := by rw [h1]; exact zero_le_one
  have k1 := one_le_of_sq hk hk2
  obtain ⟨L, w1, w2⟩ := leads_walk (g := g) (diag := diag) (m := 1) (fun p q hs => ⟨_,
    Walk.snoc .nil ((neighbors_iff_of_one h1).2 hs), by rw [zero_add, one_mul]⟩) ho
  rw [one_mul] at w2
  exact (loop_cost cw ch hd k1 (diag_bound hd hd2 hk hk2) fuel _ (Inv.init g start goal) (CInv.init start goal cw ch hd k1)
    path h L w1).trans (mul_le_mul_of_nonneg_left w2 hk)

/-- **C140** (part).  Whatever the size of the cells, the returned path is at most `k²` times as long as any legal path, for every
`k` with `k² ≥ 2`: the smallest factor is two.  (The planner may miss legal steps down and to the left, see C19.) -/
theorem C140_partial (g : Grid K) (diag k : K) (start goal : Cell) (fuel : ℕ) (path other : List Cell)
    (hw : 0 ≤ g.width) (hh : 0 ≤ g.height) (hd : 0 ≤ diag)
    (hd2 : diag * diag = (g.width / g.n0) * (g.width / g.n0) + (g.height / g.n1) * (g.height / g.n1))
    (hk : 0 ≤ k) (hk2 : 2 ≤ k * k) (h : getPath g diag start goal fuel = some (.ok path))
    (ho : Leads (Step g.n0 g.n1 g.occupied) start goal other) :
    pathLength (g.width / g.n0) (g.height / g.n1) diag path ≤
      k * k * pathLength (g.width / g.n0) (g.height / g.n1) diag other := by
  have ew : g.cellW = g.width / g.n0 := by unfold Grid.cellW; rw [mul_one]
  have eh : g.cellH = g.height / g.n1 := by unfold Grid.cellH; rw [mul_one]
  rw [← ew, ← eh] at hd2 ⊢
  have cw : 0 ≤ g.cellW := by rw [ew]; exact div_nonneg hw (Nat.cast_nonneg _)
  have ch : 0 ≤ g.cellH := by rw [eh]; exact div_nonneg hh (Nat.cast_nonneg _)
  have k1 := one_le_of_sq hk hk2
  have db := diag_bound hd hd2 hk hk2
  obtain ⟨L, w1, w2⟩ := leads_walk (g := g) (diag := diag) (m := k) (fun p q hs => by
    obtain ⟨ha, hf, hc⟩ := hs
    by_cases hst : p.1 = q.1 ∨ p.2 = q.2
    · refine ⟨_, Walk.snoc .nil (neighbors_straight ha hf hst), ?_⟩
      rw [zero_add]
      have := mul_le_mul_of_nonneg_right k1 (stepLength_nonneg cw ch hd p q)
      rwa [one_mul] at this
    · push Not at hst
      have ha' : (p ≠ q ∧ |q.1 - p.1| ≤ 1 ∧ |q.2 - p.2| ≤ 1) := ha
      have s1 : (q.1, p.2) ∈ g.neighbors p := neighbors_straight
        ⟨fun h => hst.1 (by have := congrArg Prod.fst h; exact this), ha'.2.1, by simp⟩ (hc hst.1 hst.2).2 (Or.inr rfl)
      have s2 : q ∈ g.neighbors (q.1, p.2) := neighbors_straight
        ⟨fun h => hst.2 (by have := congrArg Prod.snd h; exact this), by simp, ha'.2.2⟩ hf (Or.inl rfl)
      refine ⟨_, (Walk.nil.snoc s1).snoc s2, ?_⟩
      have e1 : stepLength g.cellW g.cellH diag p (q.1, p.2) = g.cellW := by unfold stepLength; rw [if_neg hst.1, if_pos rfl]
      have e2 : stepLength g.cellW g.cellH diag (q.1, p.2) q = g.cellH := by unfold stepLength; rw [if_pos rfl]
      have e3 : stepLength g.cellW g.cellH diag p q = diag := by unfold stepLength; rw [if_neg hst.1, if_neg hst.2]
      rw [e1, e2, e3, zero_add]
      exact db) ho
  refine (loop_cost cw ch hd k1 db fuel _ (Inv.init g start goal) (CInv.init start goal cw ch hd k1) path h L w1).trans ?_
  rw [mul_assoc]
  exact mul_le_mul_of_nonneg_left w2 hk

/-- **C140** (part), with the actual diagonal and the actual factors: for unit cells of any width `√2`, otherwise two. -/
theorem C140_real_partial (g : Grid ℝ) (start goal : Cell) (fuel : ℕ) (path other : List Cell) (hw : 0 ≤ g.width) (hh : 0 ≤ g.height)
    (h : getPath g (Real.sqrt ((g.width / g.n0) * (g.width / g.n0) + (g.height / g.n1) * (g.height / g.n1))) start goal fuel =
      some (.ok path))
    (ho : Leads (Step g.n0 g.n1 g.occupied) start goal other) :
    (g.height / g.n1 = 1 →
      pathLength (g.width / g.n0) (g.height / g.n1)
        (Real.sqrt ((g.width / g.n0) * (g.width / g.n0) + (g.height / g.n1) * (g.height / g.n1))) path ≤
      Real.sqrt 2 * pathLength (g.width / g.n0) (g.height / g.n1)
        (Real.sqrt ((g.width / g.n0) * (g.width / g.n0) + (g.height / g.n1) * (g.height / g.n1))) other) ∧
    pathLength (g.width / g.n0) (g.height / g.n1)
      (Real.sqrt ((g.width / g.n0) * (g.width / g.n0) + (g.height / g.n1) * (g.height / g.n1))) path ≤
    2 * pathLength (g.width / g.n0) (g.height / g.n1)
      (Real.sqrt ((g.width / g.n0) * (g.width / g.n0) + (g.height / g.n1) * (g.height / g.n1))) other := by
  have e := Real.mul_self_sqrt (add_nonneg (mul_self_nonneg (g.width / g.n0)) (mul_self_nonneg (g.height / g.n1)))
  have e2 : Real.sqrt 2 * Real.sqrt 2 = 2 := Real.mul_self_sqrt (by norm_num)
  refine ⟨fun h1 => ?_, ?_⟩
  · exact C140_unit_height_partial g _ _ start goal fuel path other hw h1 (Real.sqrt_nonneg _) e (Real.sqrt_nonneg _) e2.ge h ho
  · have := C140_partial g _ _ start goal fuel path other hw hh (Real.sqrt_nonneg _) e (Real.sqrt_nonneg 2) e2.ge h ho
    rwa [e2] at this

/-- Six by three cells of 3/4 by 1, the cell (2, 1) being occupied. -/
def exShort : Grid ℚ := ⟨9 / 2, 3, (0, 0), 6, 3, [(2, 1)]⟩

theorem exShort_path : getPath exShort (5 / 4) (0, 2) (5, 0) 20 =
    some (.ok [(0, 2), (1, 1), (1, 0), (2, 0), (3, 0), (4, 0), (5, 0)]) := by decide +kernel

theorem exShort_other : Leads (Step 6 3 [(2, 1)]) (0, 2) (5, 0) [(0, 2), (1, 2), (2, 2), (3, 2), (4, 1), (5, 0)] := by
  refine ⟨rfl, rfl, ?_⟩
  simp [Step, Adjacent, Free]

/-- The bound at work: the returned path has length 21/4, the other one 19/4. -/
example : (21 / 4 : ℚ) ≤ 3 / 2 * (19 / 4) := by
  have := C140_unit_height_partial exShort (5 / 4) (3 / 2) (0, 2) (5, 0) 20 _ _ (by norm_num [exShort]) (by norm_num [exShort])
    (by norm_num) (by norm_num [exShort]) (by norm_num) (by norm_num) exShort_path exShort_other
  norm_num [exShort, pathLength, stepLength] at this ⊢

/-- **C140** is false: one occupied cell on a grid whose cells are one unit high, and the planner returns a legal path of length 21/4
although there is a legal path of length 19/4. -/
theorem C140_violated : ∃ (g : Grid ℚ) (diag : ℚ) (start goal : Cell) (path other : List Cell),
    0 < diag ∧ diag * diag = (g.width / g.n0) * (g.width / g.n0) + (g.height / g.n1) * (g.height / g.n1) ∧ g.height / g.n1 = 1 ∧
    (∀ fuel, 20 ≤ fuel → getPath g diag start goal fuel = some (.ok path)) ∧
    Leads (Step g.n0 g.n1 g.occupied) start goal other ∧
    pathLength (g.width / g.n0) (g.height / g.n1) diag other < pathLength (g.width / g.n0) (g.height / g.n1) diag path := by
  refine ⟨exShort, 5 / 4, (0, 2), (5, 0), [(0, 2), (1, 1), (1, 0), (2, 0), (3, 0), (4, 0), (5, 0)], _, by norm_num,
    by norm_num [exShort], by norm_num [exShort], ?_, exShort_other, ?_⟩
  · intro fuel hf
    obtain ⟨k, rfl⟩ := Nat.exists_eq_add_of_le hf
    exact loop_mono exShort_path
  · norm_num [exShort, pathLength, stepLength]

end Verif.Planner
