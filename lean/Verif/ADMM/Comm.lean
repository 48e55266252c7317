import Verif.Fleet.Fleet
import Mathlib.Data.List.Sort
import Mathlib.Data.List.Lookmap
import Mathlib.Data.List.Dedup

/-! # Which variables are shared, and their exchange (C26)

One child per updater takes part in the coupling constraints, the vehicle; vehicles and updaters are identified with their
index.  Names of variables are numbers. -/

set_option linter.unusedSectionVars false

namespace Verif.ADMM

/-! ## Model -/

/-- An ordered dict from names to the indices of the entries in use. -/
abbrev VarDict := List (ℕ × List ℕ)

/-- The vehicles a constraint depends on, with their variables: `dep`, distributedproblem.py:114-126. -/
abbrev Dep := List (ℕ × VarDict)

/-- distributedproblem.py:141-144: append the missing indices, then sort. -/
def addIdx (l new : List ℕ) : List ℕ :=
  (new.foldl (fun acc i => if i ∈ acc then acc else acc ++ [i]) l).mergeSort fun a b => a ≤ b

/-- distributedproblem.py:138-144 for one name. -/
def upsert : VarDict → ℕ × List ℕ → VarDict
  | [], (name, inds) => [(name, addIdx [] inds)]
  | (a, l) :: r, (name, inds) => if a = name then (a, addIdx l inds) :: r else (a, l) :: upsert r (name, inds)

/-- `upd.q_i[vehicle]` of updater `v`, distributedproblem.py:128-145. -/
def qOwn (cons : List Dep) (v : ℕ) : VarDict :=
  cons.foldl (fun q c => match c.lookup v with
    | none => q
    | some dic => dic.foldl upsert q) []

/-- `upd.q_ij[upd2][ch]` of updater `u` for the vehicle `v`, distributedproblem.py:147-161. -/
def qSeen (cons : List Dep) (u v : ℕ) : VarDict :=
  cons.foldl (fun q c => match c.lookup u, c.lookup v with
    | some _, some dic => if u = v then q else dic.foldl upsert q
    | _, _ => q) []

/-- `v in q_ij` of updater `u`, distributedproblem.py:147-152; `q_ji` of `v` has the key `u` exactly then (163-165). -/
def sees (cons : List Dep) (u v : ℕ) : Bool :=
  cons.any fun c => (c.lookup u).isSome && (c.lookup v).isSome && u ≠ v

/-- The entries of a struct in the order in which they are stored, dualmethod.py:27-40. -/
def layout (q : VarDict) : List (ℕ × ℕ) := q.flatMap fun p => p.2.map fun i => (p.1, i)

/-- The values held by an updater: own `x_i`, `z_i`, `l_i`; for each neighbour `z_ij`, `l_ij`, `x_j`, and `z_ji`, `l_ji`. -/
structure Held (K : Type) where
  x : List K
  z : List K
  l : List K
  zn : ℕ → List K
  ln : ℕ → List K
  xn : ℕ → List K
  zr : ℕ → List K
  lr : ℕ → List K

/-- One round of the loop in `ADMM.communicate` of `u` for the neighbour `v`, admm.py:469-475.  The values of `x_i` are copied into
`x_j` by position; `none` when the numbers of entries differ. -/
def receive {K : Type} (cons : List Dep) (u : ℕ) (s : ℕ → Held K) (v : ℕ) : Option (ℕ → Held K) :=
  if (layout (qSeen cons u v)).length = (layout (qOwn cons v)).length then
    some (Function.update s u { s u with
      zr := Function.update (s u).zr v ((s v).zn u)
      lr := Function.update (s u).lr v ((s v).ln u)
      xn := Function.update (s u).xn v (s v).x })
  else none

/-- `updater.communicate()` for all updaters, admm.py:591-592; the loop runs over the keys of `q_ji`. -/
def communicate {K : Type} (cons : List Dep) (N : ℕ) (s : ℕ → Held K) : Option (ℕ → Held K) :=
  (List.range N).foldlM (fun s u => ((List.range N).filter fun v => sees cons v u).foldlM (receive cons u) s) s

/-- The constraints of `FormationPoint2point`, formation.py:51-64: for each couple and each of the `n` coordinates a constraint on
all coefficients of the coordinate of the centre seen by both, and terminal constraints on one vehicle, on the coefficients `term v k`. -/
def formationDeps (couples : List (ℕ × ℕ)) (N n deg : ℕ) (len : ℕ → ℕ → ℕ) (term : ℕ → ℕ → ℕ → List ℕ) : List Dep :=
  (couples.flatMap fun p => (List.range n).map fun (k : ℕ) =>
      ([(p.1, [(k, List.range (len p.1 k))]), (p.2, [(k, List.range (len p.2 k))])] : Dep)) ++
    (List.range N).flatMap fun (v : ℕ) => (List.range n).flatMap fun (k : ℕ) => (List.range deg).map fun (d : ℕ) =>
      ([(v, [(k, term v k d)])] : Dep)

/-! ## Specification -/

/-- Entry `i` of variable `name` of vehicle `v` occurs in constraint `c`. -/
def Spec.Uses (c : Dep) (v name i : ℕ) : Prop := ∃ dic, c.lookup v = some dic ∧ ∃ inds, (name, inds) ∈ dic ∧ i ∈ inds

/-- Two different vehicles occur together in a constraint. -/
def Spec.Coupled2 (cons : List Dep) (u v : ℕ) : Prop := u ≠ v ∧ ∃ c ∈ cons, (∃ d, c.lookup u = some d) ∧ ∃ d, c.lookup v = some d

/-- The value stored for an entry. -/
def Spec.value {K : Type} (lay : List (ℕ × ℕ)) (vals : List K) (key : ℕ × ℕ) : Option K := (lay.zip vals).lookup key

/-! ## Lemmas -/

theorem sees_iff {cons : List Dep} {u v : ℕ} : sees cons u v = true ↔ Spec.Coupled2 cons u v := by
  unfold sees Spec.Coupled2
  simp only [List.any_eq_true, Bool.and_eq_true, Option.isSome_iff_exists, ne_eq, decide_eq_true_eq]
  constructor
  · rintro ⟨c, hc, ⟨h1, h2⟩, h3⟩; exact ⟨h3, c, hc, h1, h2⟩
  · rintro ⟨h3, c, hc, h1, h2⟩; exact ⟨c, hc, ⟨h1, h2⟩, h3⟩

theorem foldl_idx_mem (new : List ℕ) (l : List ℕ) (i : ℕ) :
    i ∈ new.foldl (fun acc i => if i ∈ acc then acc else acc ++ [i]) l ↔ i ∈ l ∨ i ∈ new := by
  induction new generalizing l with
  | nil => simp
  | cons a new ih =>
    rw [List.foldl_cons, ih]
    by_cases h : a ∈ l
    · rw [if_pos h, List.mem_cons]
      constructor
      · rintro (h | h); exacts [Or.inl h, Or.inr (Or.inr h)]
      · rintro (h' | rfl | h'); exacts [Or.inl h', Or.inl h, Or.inr h']
    · rw [if_neg h, List.mem_append, List.mem_singleton, List.mem_cons, or_assoc]

theorem foldl_idx_nodup (new : List ℕ) (l : List ℕ) (h : l.Nodup) :
    (new.foldl (fun acc i => if i ∈ acc then acc else acc ++ [i]) l).Nodup := by
  induction new generalizing l with
  | nil => exact h
  | cons a new ih =>
    rw [List.foldl_cons]
    refine ih _ ?_
    split_ifs with ha
    · exact h
    · exact h.append (List.nodup_singleton a) (by simpa using ha)

theorem addIdx_mem {l new : List ℕ} {i : ℕ} : i ∈ addIdx l new ↔ i ∈ l ∨ i ∈ new := by
  unfold addIdx
  rw [List.mem_mergeSort, foldl_idx_mem]

theorem addIdx_nodup {l new : List ℕ} (h : l.Nodup) : (addIdx l new).Nodup :=
  (List.mergeSort_perm _ _).nodup_iff.2 (foldl_idx_nodup new l h)

theorem foldl_idx_sub (new l : List ℕ) (h : ∀ i ∈ new, i ∈ l) :
    new.foldl (fun acc i => if i ∈ acc then acc else acc ++ [i]) l = l := by
  induction new with
  | nil => rfl
  | cons a new ih =>
    rw [List.foldl_cons, if_pos (h a List.mem_cons_self)]
    exact ih fun i hi => h i (List.mem_cons_of_mem _ hi)

theorem sort_range (m : ℕ) : (List.range m).mergeSort (fun a b => decide (a ≤ b)) = List.range m := by
  refine List.mergeSort_of_pairwise ?_
  refine List.pairwise_lt_range.imp fun h => ?_
  simpa using h.le

theorem addIdx_range_sub {m : ℕ} {new : List ℕ} (h : ∀ i ∈ new, i < m) : addIdx (List.range m) new = List.range m := by
  unfold addIdx
  rw [foldl_idx_sub _ _ (fun i hi => List.mem_range.2 (h i hi)), sort_range]

theorem foldl_idx_nil (m : ℕ) : (List.range m).foldl (fun acc i => if i ∈ acc then acc else acc ++ [i]) ([] : List ℕ) = List.range m := by
  induction m with
  | zero => rfl
  | succ m ih =>
    rw [List.range_succ, List.foldl_append, ih, List.foldl_cons, List.foldl_nil, if_neg (by simp)]

theorem addIdx_nil (m : ℕ) : addIdx [] (List.range m) = List.range m := by
  unfold addIdx
  rw [foldl_idx_nil, sort_range]

/-! Content of a dict of variables. -/

/-- Names are distinct, indices too. -/
def Good (q : VarDict) : Prop := (q.map Prod.fst).Nodup ∧ ∀ p ∈ q, p.2.Nodup

theorem upsert_names (q : VarDict) (p : ℕ × List ℕ) (a : ℕ) : a ∈ (upsert q p).map Prod.fst ↔ a ∈ q.map Prod.fst ∨ a = p.1 := by
  obtain ⟨name, inds⟩ := p
  induction q with
  | nil => simp [upsert]
  | cons b q ih =>
    obtain ⟨b, l⟩ := b
    unfold upsert
    split_ifs with h
    · subst h
      simp only [List.map_cons, List.mem_cons]
      constructor
      · exact fun h => Or.inl h
      · rintro (h | h); exacts [h, Or.inl h]
    · simp only [List.map_cons, List.mem_cons, ih, or_assoc]

theorem upsert_good {q : VarDict} (h : Good q) (p : ℕ × List ℕ) : Good (upsert q p) := by
  obtain ⟨name, inds⟩ := p
  induction q with
  | nil => exact ⟨by simp [upsert], by simp only [upsert, List.mem_singleton, forall_eq]; exact addIdx_nodup List.nodup_nil⟩
  | cons b q ih =>
    obtain ⟨b, l⟩ := b
    obtain ⟨h1, h2⟩ := h
    rw [List.map_cons, List.nodup_cons] at h1
    unfold upsert
    split_ifs with hb
    · refine ⟨by rw [List.map_cons, List.nodup_cons]; exact h1, fun p hp => ?_⟩
      rcases List.mem_cons.1 hp with rfl | hp
      · exact addIdx_nodup (h2 _ List.mem_cons_self)
      · exact h2 p (List.mem_cons_of_mem _ hp)
    · have ih := ih ⟨h1.2, fun p hp => h2 p (List.mem_cons_of_mem _ hp)⟩
      refine ⟨?_, fun p hp => ?_⟩
      · rw [List.map_cons, List.nodup_cons, upsert_names]
        exact ⟨fun h => h.elim h1.1 hb, ih.1⟩
      · rcases List.mem_cons.1 hp with rfl | hp
        · exact h2 _ List.mem_cons_self
        · exact ih.2 p hp

theorem mem_layout {q : VarDict} {name i : ℕ} : (name, i) ∈ layout q ↔ ∃ l, (name, l) ∈ q ∧ i ∈ l := by
  unfold layout
  simp only [List.mem_flatMap, List.mem_map, Prod.mk.injEq]
  constructor
  · rintro ⟨⟨a, l⟩, h, j, hj, rfl, rfl⟩; exact ⟨l, h, hj⟩
  · rintro ⟨l, h, hi⟩; exact ⟨(name, l), h, i, hi, rfl, rfl⟩

theorem layout_nodup {q : VarDict} (h : Good q) : (layout q).Nodup := by
  unfold layout
  rw [List.nodup_flatMap]
  refine ⟨fun p hp => (h.2 p hp).map (fun a b hab => (Prod.mk.inj hab).2), ?_⟩
  have := List.pairwise_map.1 h.1
  refine this.imp fun {p q} hpq => ?_
  intro x hx hy
  obtain ⟨i, -, rfl⟩ := List.mem_map.1 hx
  obtain ⟨j, -, hj⟩ := List.mem_map.1 hy
  exact hpq (Prod.mk.inj hj).1.symm

theorem upsert_mem (q : VarDict) (name inds) (a i : ℕ) :
    (a, i) ∈ layout (upsert q (name, inds)) ↔ (a, i) ∈ layout q ∨ a = name ∧ i ∈ inds := by
  induction q with
  | nil =>
    rw [mem_layout, mem_layout]
    simp only [upsert, List.mem_singleton, Prod.mk.injEq, List.not_mem_nil, false_and, exists_false, false_or]
    constructor
    · rintro ⟨l, ⟨rfl, rfl⟩, h⟩; exact ⟨rfl, by simpa using addIdx_mem.1 h⟩
    · rintro ⟨rfl, h⟩; exact ⟨_, ⟨rfl, rfl⟩, addIdx_mem.2 (Or.inr h)⟩
  | cons b q ih =>
    obtain ⟨b, l⟩ := b
    have hc : ∀ (l : List ℕ) (q : VarDict), (a, i) ∈ layout ((b, l) :: q) ↔ (a = b ∧ i ∈ l) ∨ (a, i) ∈ layout q := by
      intro l q
      simp only [layout, List.flatMap_cons, List.mem_append, List.mem_map, Prod.mk.injEq]
      constructor
      · rintro (⟨j, hj, rfl, rfl⟩ | h); exacts [Or.inl ⟨rfl, hj⟩, Or.inr h]
      · rintro (⟨rfl, hj⟩ | h); exacts [Or.inl ⟨i, hj, rfl, rfl⟩, Or.inr h]
    unfold upsert
    split_ifs with h
    · rw [hc, hc, addIdx_mem, ← h]
      constructor
      · rintro (⟨h1, h2 | h2⟩ | h1); exacts [Or.inl (Or.inl ⟨h1, h2⟩), Or.inr ⟨h1, h2⟩, Or.inl (Or.inr h1)]
      · rintro ((⟨h1, h2⟩ | h1) | ⟨h1, h2⟩); exacts [Or.inl ⟨h1, Or.inl h2⟩, Or.inr h1, Or.inl ⟨h1, Or.inr h2⟩]
    · rw [hc, hc, ih, or_assoc]

theorem upserts_good {q : VarDict} (h : Good q) (dic : VarDict) : Good (dic.foldl upsert q) := by
  induction dic generalizing q with
  | nil => exact h
  | cons p dic ih => exact ih (upsert_good h p)

theorem upserts_mem (dic q : VarDict) (a i : ℕ) :
    (a, i) ∈ layout (dic.foldl upsert q) ↔ (a, i) ∈ layout q ∨ ∃ inds, (a, inds) ∈ dic ∧ i ∈ inds := by
  induction dic generalizing q with
  | nil => simp
  | cons p dic ih =>
    obtain ⟨name, inds⟩ := p
    rw [List.foldl_cons, ih, upsert_mem]
    constructor
    · rintro ((h | ⟨rfl, h⟩) | ⟨l, h1, h2⟩)
      exacts [Or.inl h, Or.inr ⟨inds, List.mem_cons_self, h⟩, Or.inr ⟨l, List.mem_cons_of_mem _ h1, h2⟩]
    · rintro (h | ⟨l, h1, h2⟩)
      · exact Or.inl (Or.inl h)
      · rcases List.mem_cons.1 h1 with h1 | h1
        · obtain ⟨rfl, rfl⟩ := Prod.mk.inj h1; exact Or.inl (Or.inr ⟨rfl, h2⟩)
        · exact Or.inr ⟨l, h1, h2⟩

theorem qOwn_aux (cons : List Dep) (v : ℕ) (q : VarDict) (h : Good q) :
    let r := cons.foldl (fun q c => match c.lookup v with
      | none => q
      | some dic => dic.foldl upsert q) q
    Good r ∧ ∀ a i, (a, i) ∈ layout r ↔ (a, i) ∈ layout q ∨ ∃ c ∈ cons, Spec.Uses c v a i := by
  induction cons generalizing q with
  | nil => exact ⟨h, by simp⟩
  | cons c cons ih =>
    simp only [List.foldl_cons]
    cases hc : c.lookup v with
    | none =>
      obtain ⟨h1, h2⟩ := ih q h
      refine ⟨h1, fun a i => ?_⟩
      rw [h2]
      simp only [List.exists_mem_cons_iff]
      have : ¬ Spec.Uses c v a i := fun ⟨d, hd, _⟩ => by rw [hc] at hd; cases hd
      simp [this]
    | some dic =>
      obtain ⟨h1, h2⟩ := ih _ (upserts_good h dic)
      refine ⟨h1, fun a i => ?_⟩
      rw [h2, upserts_mem]
      simp only [List.exists_mem_cons_iff]
      have : Spec.Uses c v a i ↔ ∃ inds, (a, inds) ∈ dic ∧ i ∈ inds := by
        unfold Spec.Uses; rw [hc]; simp
      rw [this, or_assoc]

theorem qSeen_aux (cons : List Dep) (u v : ℕ) (huv : u ≠ v) (q : VarDict) (h : Good q) :
    let r := cons.foldl (fun q c => match c.lookup u, c.lookup v with
      | some _, some dic => if u = v then q else dic.foldl upsert q
      | _, _ => q) q
    Good r ∧ ∀ a i, (a, i) ∈ layout r ↔ (a, i) ∈ layout q ∨ ∃ c ∈ cons, (∃ d, c.lookup u = some d) ∧ Spec.Uses c v a i := by
  induction cons generalizing q with
  | nil => exact ⟨h, by simp⟩
  | cons c cons ih =>
    simp only [List.foldl_cons]
    cases hu : c.lookup u with
    | none =>
      obtain ⟨h1, h2⟩ := ih q h
      refine ⟨h1, fun a i => ?_⟩
      rw [h2]
      simp [hu]
    | some du =>
      cases hc : c.lookup v with
      | none =>
        obtain ⟨h1, h2⟩ := ih q h
        refine ⟨h1, fun a i => ?_⟩
        rw [h2]
        simp only [List.exists_mem_cons_iff]
        have : ¬ Spec.Uses c v a i := fun ⟨d, hd, _⟩ => by rw [hc] at hd; cases hd
        simp [this]
      | some dic =>
        obtain ⟨h1, h2⟩ := ih _ (upserts_good h dic)
        simp only [if_neg huv] at h1 h2 ⊢
        refine ⟨h1, fun a i => ?_⟩
        rw [h2, upserts_mem]
        simp only [List.exists_mem_cons_iff]
        have : Spec.Uses c v a i ↔ ∃ inds, (a, inds) ∈ dic ∧ i ∈ inds := by
          unfold Spec.Uses; rw [hc]; simp
        rw [this, or_assoc, hu]
        simp

/-! The exchange. -/

variable {K : Type}

/-- What an updater computed itself. -/
def Held.core (h : Held K) : List K × List K × List K × (ℕ → List K) × (ℕ → List K) := (h.x, h.z, h.l, h.zn, h.ln)

theorem receive_spec {cons : List Dep} {u : ℕ} {s s' : ℕ → Held K} {v : ℕ} (h : receive cons u s v = some s') :
    (∀ w, (s' w).core = (s w).core) ∧ (∀ w ≠ u, s' w = s w) ∧
    (s' u).zr = Function.update (s u).zr v ((s v).zn u) ∧ (s' u).lr = Function.update (s u).lr v ((s v).ln u) ∧
    (s' u).xn = Function.update (s u).xn v (s v).x := by
  unfold receive at h
  split_ifs at h
  rw [Option.some.injEq] at h
  subst h
  refine ⟨fun w => ?_, fun w hw => Function.update_of_ne hw _ _, ?_, ?_, ?_⟩
  · by_cases hw : w = u
    · subst hw; rw [Function.update_self]; rfl
    · rw [Function.update_of_ne hw]
  all_goals rw [Function.update_self]

theorem inner_spec {cons : List Dep} {u : ℕ} (L : List ℕ) (s s' : ℕ → Held K) (h : L.foldlM (receive cons u) s = some s') :
    (∀ w, (s' w).core = (s w).core) ∧ (∀ w ≠ u, s' w = s w) ∧
    (∀ v ∈ L, (s' u).zr v = (s v).zn u ∧ (s' u).lr v = (s v).ln u ∧ (s' u).xn v = (s v).x) ∧
    (∀ v ∉ L, (s' u).zr v = (s u).zr v ∧ (s' u).lr v = (s u).lr v ∧ (s' u).xn v = (s u).xn v) := by
  induction L generalizing s with
  | nil =>
    simp only [List.foldlM_nil, Option.pure_def, Option.some.injEq] at h
    subst h
    exact ⟨fun _ => rfl, fun _ _ => rfl, fun v hv => absurd hv List.not_mem_nil, fun _ _ => ⟨rfl, rfl, rfl⟩⟩
  | cons a L ih =>
    rw [List.foldlM_cons] at h
    cases ha : receive cons u s a with
    | none => rw [ha] at h; simp at h
    | some t =>
      rw [ha] at h
      obtain ⟨c1, o1, z1, l1, x1⟩ := receive_spec ha
      obtain ⟨c2, o2, i2, n2⟩ := ih t h
      refine ⟨fun w => (c2 w).trans (c1 w), fun w hw => (o2 w hw).trans (o1 w hw), fun v hv => ?_, fun v hv => ?_⟩
      · by_cases hvL : v ∈ L
        · obtain ⟨e1, e2, e3⟩ := i2 v hvL
          have := c1 v
          simp only [Held.core, Prod.mk.injEq] at this
          exact ⟨by rw [e1, this.2.2.2.1], by rw [e2, this.2.2.2.2], by rw [e3, this.1]⟩
        · obtain rfl : v = a := by simpa [hvL] using hv
          obtain ⟨e1, e2, e3⟩ := n2 v hvL
          rw [e1, e2, e3, z1, l1, x1, Function.update_self, Function.update_self, Function.update_self]
          exact ⟨rfl, rfl, rfl⟩
      · rw [List.mem_cons, not_or] at hv
        obtain ⟨e1, e2, e3⟩ := n2 v hv.2
        rw [e1, e2, e3, z1, l1, x1, Function.update_of_ne hv.1, Function.update_of_ne hv.1, Function.update_of_ne hv.1]
        exact ⟨rfl, rfl, rfl⟩

theorem outer_spec {cons : List Dep} {N : ℕ} (U : List ℕ) (hU : U.Nodup) (s s' : ℕ → Held K)
    (h : U.foldlM (fun s u => ((List.range N).filter fun v => sees cons v u).foldlM (receive cons u) s) s = some s') :
    (∀ w, (s' w).core = (s w).core) ∧ (∀ w ∉ U, s' w = s w) ∧
    ∀ u ∈ U, ∀ v, if v < N ∧ sees cons v u = true then (s' u).zr v = (s v).zn u ∧ (s' u).lr v = (s v).ln u ∧ (s' u).xn v = (s v).x
      else (s' u).zr v = (s u).zr v ∧ (s' u).lr v = (s u).lr v ∧ (s' u).xn v = (s u).xn v := by
  induction U generalizing s with
  | nil =>
    simp only [List.foldlM_nil, Option.pure_def, Option.some.injEq] at h
    subst h
    exact ⟨fun _ => rfl, fun _ _ => rfl, fun v hv => absurd hv List.not_mem_nil⟩
  | cons a U ih =>
    rw [List.foldlM_cons] at h
    cases ha : ((List.range N).filter fun v => sees cons v a).foldlM (receive cons a) s with
    | none => rw [ha] at h; simp at h
    | some t =>
      rw [ha] at h
      obtain ⟨c1, o1, i1, n1⟩ := inner_spec _ _ _ ha
      obtain ⟨c2, o2, i2⟩ := ih (List.nodup_cons.1 hU).2 t h
      refine ⟨fun w => (c2 w).trans (c1 w), fun w hw => ?_, fun u hu v => ?_⟩
      · rw [List.mem_cons, not_or] at hw
        exact (o2 w hw.2).trans (o1 w hw.1)
      · have hmem : v ∈ (List.range N).filter (fun v => sees cons v u) ↔ v < N ∧ sees cons v u = true := by simp
        by_cases hua : u = a
        · subst hua
          rw [o2 u (List.nodup_cons.1 hU).1]
          split_ifs with hv
          · exact i1 v (hmem.2 hv)
          · exact n1 v fun h => hv (hmem.1 h)
        · have huU : u ∈ U := by simpa [hua] using hu
          have := i2 u huU v
          have e := c1 v
          simp only [Held.core, Prod.mk.injEq] at e
          rw [o1 u hua, e.1, e.2.2.2.1, e.2.2.2.2] at this
          exact this

theorem foldlM_total {α β : Type} (f : β → α → Option β) (l : List α) (hf : ∀ a ∈ l, ∀ b, ∃ b', f b a = some b') (b : β) :
    ∃ b', l.foldlM f b = some b' := by
  induction l generalizing b with
  | nil => exact ⟨b, rfl⟩
  | cons a l ih =>
    obtain ⟨b', hb'⟩ := hf a List.mem_cons_self b
    rw [List.foldlM_cons, hb']
    exact ih (fun x hx => hf x (List.mem_cons_of_mem _ hx)) b'

/-! The formation. -/

/-- All coordinates with all coefficients. -/
def full (n : ℕ) (len : ℕ → ℕ) : VarDict := (List.range n).map fun (k : ℕ) => (k, List.range (len k))

theorem upsert_append_last (q : VarDict) (k : ℕ) (inds : List ℕ) (h : k ∉ q.map Prod.fst) : upsert q (k, inds) = q ++ [(k, addIdx [] inds)] := by
  induction q with
  | nil => rfl
  | cons a q ih =>
    obtain ⟨a, l⟩ := a
    rw [List.map_cons, List.mem_cons, not_or] at h
    unfold upsert
    rw [if_neg (fun e => h.1 e.symm), ih h.2]
    rfl

theorem upsert_same (q : VarDict) (k : ℕ) (inds : List ℕ) (h : k ∈ q.map Prod.fst) (hs : ∀ l, (k, l) ∈ q → addIdx l inds = l) :
    upsert q (k, inds) = q := by
  induction q with
  | nil => simp at h
  | cons a q ih =>
    obtain ⟨a, l⟩ := a
    unfold upsert
    split_ifs with ha
    · subst ha; rw [hs l List.mem_cons_self]
    · rw [ih (by simpa [Ne.symm ha] using h) fun l hl => hs l (List.mem_cons_of_mem _ hl)]

theorem upsert_full (n : ℕ) (len : ℕ → ℕ) (k : ℕ) (hk : k < n) (inds : List ℕ) (h : ∀ i ∈ inds, i < len k) :
    upsert (full n len) (k, inds) = full n len := by
  refine upsert_same _ _ _ (by simp [full, hk]) fun l hl => ?_
  unfold full at hl
  obtain ⟨k', -, hk'⟩ := List.mem_map.1 hl
  obtain ⟨rfl, rfl⟩ := Prod.mk.inj hk'
  exact addIdx_range_sub h

theorem fill_full (len : ℕ → ℕ) (n : ℕ) : (List.range n).foldl (fun q (k : ℕ) => upsert q (k, List.range (len k))) [] = full n len := by
  induction n with
  | zero => rfl
  | succ n ih =>
    rw [List.range_succ, List.foldl_append, ih, List.foldl_cons, List.foldl_nil, upsert_append_last _ _ _ (by simp [full]), addIdx_nil]
    simp [full, List.range_succ]

theorem refill_full (len : ℕ → ℕ) (n : ℕ) : (List.range n).foldl (fun q (k : ℕ) => upsert q (k, List.range (len k))) (full n len) = full n len := by
  have : ∀ L : List ℕ, (∀ k ∈ L, k < n) → L.foldl (fun q (k : ℕ) => upsert q (k, List.range (len k))) (full n len) = full n len := by
    intro L
    induction L with
    | nil => intro _; rfl
    | cons a L ih =>
      intro h
      rw [List.foldl_cons, upsert_full n len a (h a List.mem_cons_self) _ (fun i hi => List.mem_range.1 hi)]
      exact ih fun k hk => h k (List.mem_cons_of_mem _ hk)
  exact this _ fun k hk => List.mem_range.1 hk

/-- Steps that either fill or keep. -/
theorem foldl_fill {α : Type} (f : VarDict → α → VarDict) (F : VarDict) (P : α → Prop) [DecidablePred P]
    (h1 : ∀ a, P a → f [] a = F) (h2 : ∀ a, P a → f F a = F) (h3 : ∀ a, ¬ P a → ∀ q, f q a = q) (l : List α) :
    (l.foldl f F = F) ∧ ((∃ a ∈ l, P a) → l.foldl f [] = F) := by
  induction l with
  | nil => exact ⟨rfl, fun ⟨a, ha, _⟩ => absurd ha List.not_mem_nil⟩
  | cons a l ih =>
    refine ⟨?_, ?_⟩
    · rw [List.foldl_cons]
      by_cases hP : P a
      · rw [h2 a hP]; exact ih.1
      · rw [h3 a hP]; exact ih.1
    · rintro ⟨b, hb, hPb⟩
      rw [List.foldl_cons]
      by_cases hP : P a
      · rw [h1 a hP]; exact ih.1
      · rw [h3 a hP]
        rcases List.mem_cons.1 hb with rfl | hb
        · exact absurd hPb hP
        · exact ih.2 ⟨b, hb, hPb⟩

theorem lookup_couple (p : ℕ × ℕ) (da db : VarDict) (v : ℕ) :
    List.lookup v ([(p.1, da), (p.2, db)] : Dep) = if v = p.1 then some da else if v = p.2 then some db else none := by
  rw [List.lookup_cons, List.lookup_cons, List.lookup_nil]
  by_cases h1 : v = p.1
  · simp [h1]
  · by_cases h2 : v = p.2
    · have e1 : (v == p.1) = false := by simp [h1]
      have e2 : (v == p.2) = true := by simp [h2]
      rw [e1, e2, if_neg h1, if_pos h2]
    · have e1 : (v == p.1) = false := by simp [h1]
      have e2 : (v == p.2) = false := by simp [h2]
      simp [e1, e2, h1, h2]

theorem lookup_single (w : ℕ) (d : VarDict) (v : ℕ) : List.lookup v ([(w, d)] : Dep) = if v = w then some d else none := by
  rw [List.lookup_cons, List.lookup_nil]
  by_cases h1 : v = w
  · simp [h1]
  · have e1 : (v == w) = false := by simp [h1]
    simp [e1, h1]

theorem foldl_id {α β : Type} (f : β → α → β) (l : List α) (h : ∀ a ∈ l, ∀ b, f b a = b) (b : β) : l.foldl f b = b := by
  induction l generalizing b with
  | nil => rfl
  | cons a l ih => rw [List.foldl_cons, h a List.mem_cons_self, ih fun x hx => h x (List.mem_cons_of_mem _ hx)]

theorem foldl_fix {α β : Type} (f : β → α → β) (l : List α) (b : β) (h : ∀ a ∈ l, f b a = b) : l.foldl f b = b := by
  induction l with
  | nil => rfl
  | cons a l ih => rw [List.foldl_cons, h a List.mem_cons_self, ih fun x hx => h x (List.mem_cons_of_mem _ hx)]

theorem formation_own (couples : List (ℕ × ℕ)) (N n deg : ℕ) (len : ℕ → ℕ → ℕ) (term : ℕ → ℕ → ℕ → List ℕ)
    (hterm : ∀ v k d, ∀ i ∈ term v k d, i < len v k) (v : ℕ) (hv : ∃ p ∈ couples, v = p.1 ∨ v = p.2) :
    qOwn (formationDeps couples N n deg len term) v = full n (len v) := by
  unfold qOwn formationDeps
  rw [List.foldl_append, List.foldl_flatMap, List.foldl_flatMap]
  have hf := foldl_fill (fun (q : VarDict) (p : ℕ × ℕ) => ((List.range n).map fun (k : ℕ) =>
      ([(p.1, [(k, List.range (len p.1 k))]), (p.2, [(k, List.range (len p.2 k))])] : Dep)).foldl (fun q c => match c.lookup v with
        | none => q
        | some dic => dic.foldl upsert q) q) (full n (len v)) (fun p => v = p.1 ∨ v = p.2) ?_ ?_ ?_ couples
  · rw [hf.2 hv]
    refine foldl_fix _ _ _ fun w _ => ?_
    rw [List.foldl_flatMap]
    refine foldl_fix _ _ _ fun k hk => ?_
    rw [List.foldl_map]
    refine foldl_fix _ _ _ fun d _ => ?_
    rw [lookup_single]
    by_cases hvw : v = w
    · subst hvw
      rw [if_pos rfl]
      exact upsert_full n (len v) k (List.mem_range.1 hk) _ (hterm v k d)
    · rw [if_neg hvw]
  · intro p hp
    rw [List.foldl_map, ← fill_full]
    congr 1
    funext q k
    rw [lookup_couple]
    by_cases h1 : v = p.1
    · subst h1; rw [if_pos rfl]; rfl
    · rw [if_neg h1, if_pos (hp.resolve_left h1)]; rw [hp.resolve_left h1]; rfl
  · intro p hp
    rw [List.foldl_map]
    refine Eq.trans ?_ (refill_full (len v) n)
    congr 1
    funext q k
    rw [lookup_couple]
    by_cases h1 : v = p.1
    · subst h1; rw [if_pos rfl]; rfl
    · rw [if_neg h1, if_pos (hp.resolve_left h1)]; rw [hp.resolve_left h1]; rfl
  · intro p hp q
    rw [not_or] at hp
    rw [List.foldl_map]
    refine foldl_id _ _ (fun k _ q => ?_) q
    rw [lookup_couple, if_neg hp.1, if_neg hp.2]

theorem formation_seen (couples : List (ℕ × ℕ)) (N n deg : ℕ) (len : ℕ → ℕ → ℕ) (term : ℕ → ℕ → ℕ → List ℕ)
    (u v : ℕ) (huv : u ≠ v) (hv : ∃ p ∈ couples, p = (u, v) ∨ p = (v, u)) :
    qSeen (formationDeps couples N n deg len term) u v = full n (len v) := by
  unfold qSeen formationDeps
  rw [List.foldl_append, List.foldl_flatMap, List.foldl_flatMap]
  have hf := foldl_fill (fun (q : VarDict) (p : ℕ × ℕ) => ((List.range n).map fun (k : ℕ) =>
      ([(p.1, [(k, List.range (len p.1 k))]), (p.2, [(k, List.range (len p.2 k))])] : Dep)).foldl (fun q c => match c.lookup u, c.lookup v with
        | some _, some dic => if u = v then q else dic.foldl upsert q
        | _, _ => q) q) (full n (len v)) (fun p => p = (u, v) ∨ p = (v, u)) ?_ ?_ ?_ couples
  · rw [hf.2 hv]
    refine foldl_id _ _ (fun w _ q => ?_) _
    rw [List.foldl_flatMap]
    refine foldl_id _ _ (fun k hk q => ?_) _
    rw [List.foldl_map]
    refine foldl_id _ _ (fun d _ q => ?_) _
    rw [lookup_single, lookup_single]
    by_cases hvw : v = w
    · rw [if_neg (fun h => huv (h.trans hvw.symm))]
    · rw [if_neg hvw]; split <;> simp_all
  · intro p hp
    rw [List.foldl_map, ← fill_full]
    congr 1
    funext q k
    rw [lookup_couple, lookup_couple]
    rcases hp with rfl | rfl
    · simp [huv, huv.symm]
    · simp [huv]
  · intro p hp
    rw [List.foldl_map]
    refine Eq.trans ?_ (refill_full (len v) n)
    congr 1
    funext q k
    rw [lookup_couple, lookup_couple]
    rcases hp with rfl | rfl
    · simp [huv, huv.symm]
    · simp [huv]
  · intro p hp q
    rw [not_or] at hp
    rw [List.foldl_map]
    refine foldl_id _ _ (fun k _ q => ?_) q
    rw [lookup_couple, lookup_couple]
    obtain ⟨a, b⟩ := p
    simp only [Prod.mk.injEq, not_and] at hp ⊢
    by_cases h1 : u = a
    · by_cases h2 : v = b
      · exact absurd h2.symm (hp.1 h1.symm)
      · have : v ≠ a := fun h => huv (h1.trans h.symm)
        simp [h1, h2, this]
    · by_cases h2 : u = b
      · have h3 : v ≠ a := fun h => hp.2 h.symm h2.symm
        have h4 : v ≠ b := fun h => huv (h2.trans h.symm)
        simp [h2, h3, h4]
      · simp [h1, h2]

/-! ## Properties -/

/-- **C26** Updaters are neighbours mutually. -/
theorem C26_symmetric (cons : List Dep) (u v : ℕ) : sees cons u v = sees cons v u := by
  rw [Bool.eq_iff_iff, sees_iff, sees_iff]
  unfold Spec.Coupled2
  constructor <;> rintro ⟨h, c, hc, h1, h2⟩ <;> exact ⟨h.symm, c, hc, h2, h1⟩

/-- **C26** An updater shares exactly the entries of its variables that occur in a coupling constraint, and keeps copies of exactly
the entries of another vehicle that occur in a constraint together with its own; no entry is kept twice. -/
theorem C26_shared (cons : List Dep) (u v : ℕ) :
    ((layout (qOwn cons v)).Nodup ∧ ∀ name i, (name, i) ∈ layout (qOwn cons v) ↔ ∃ c ∈ cons, Spec.Uses c v name i) ∧
    (u ≠ v → (layout (qSeen cons u v)).Nodup ∧
      ∀ name i, (name, i) ∈ layout (qSeen cons u v) ↔ ∃ c ∈ cons, (∃ d, c.lookup u = some d) ∧ Spec.Uses c v name i) := by
  have g0 : Good [] := ⟨List.nodup_nil, by simp⟩
  refine ⟨?_, fun huv => ?_⟩
  · obtain ⟨h1, h2⟩ := qOwn_aux cons v [] g0
    exact ⟨layout_nodup h1, fun a i => (h2 a i).trans (by simp [layout])⟩
  · obtain ⟨h1, h2⟩ := qSeen_aux cons u v huv [] g0
    exact ⟨layout_nodup h1, fun a i => (h2 a i).trans (by simp [layout])⟩

/-- **C26** After the communication step every updater holds what its neighbours computed for it, whatever it held before; nothing
else changes. -/
theorem C26_exchange (cons : List Dep) (N : ℕ) (s s' : ℕ → Held K) (h : communicate cons N s = some s') :
    (∀ u < N, ∀ v < N, Spec.Coupled2 cons u v → (s' u).zr v = (s v).zn u ∧ (s' u).lr v = (s v).ln u ∧ (s' u).xn v = (s v).x) ∧
    (∀ u v, ¬ (u < N ∧ v < N ∧ Spec.Coupled2 cons u v) → (s' u).zr v = (s u).zr v ∧ (s' u).lr v = (s u).lr v ∧ (s' u).xn v = (s u).xn v) ∧
    ∀ u, (s' u).x = (s u).x ∧ (s' u).z = (s u).z ∧ (s' u).l = (s u).l ∧ (s' u).zn = (s u).zn ∧ (s' u).ln = (s u).ln := by
  obtain ⟨hc, ho, hi⟩ := outer_spec _ List.nodup_range s s' h
  refine ⟨fun u hu v hv huv => ?_, fun u v huv => ?_, fun u => ?_⟩
  · have := hi u (List.mem_range.2 hu) v
    rwa [if_pos ⟨hv, by rw [C26_symmetric]; exact sees_iff.2 huv⟩] at this
  · by_cases hu : u < N
    · have := hi u (List.mem_range.2 hu) v
      rwa [if_neg (fun h => huv ⟨hu, h.1, sees_iff.1 (by rw [C26_symmetric]; exact h.2)⟩)] at this
    · rw [ho u (by simpa using hu)]; exact ⟨rfl, rfl, rfl⟩
  · have := hc u
    simpa only [Held.core, Prod.mk.injEq] using this

/-- **C26** (partial) When every vehicle shares the same entries with all its neighbours, the communication step does not fail, and
the copy of entry `i` of variable `name` of a neighbour is the value that the neighbour holds for it.
Missing: vehicles that share other entries with one neighbour than with another, see `C26_sizes_violated`. -/
theorem C26_partial (cons : List Dep) (N : ℕ) (s : ℕ → Held K)
    (hsame : ∀ u < N, ∀ v < N, Spec.Coupled2 cons u v → qSeen cons u v = qOwn cons v) :
    ∃ s', communicate cons N s = some s' ∧ ∀ u < N, ∀ v < N, Spec.Coupled2 cons u v → ∀ key,
      Spec.value (layout (qSeen cons u v)) ((s' u).xn v) key = Spec.value (layout (qOwn cons v)) (s v).x key := by
  have : ∃ s', communicate cons N s = some s' := by
    unfold communicate
    refine foldlM_total _ _ (fun u hu t => foldlM_total _ _ (fun v hv t => ?_) t) s
    have hv := List.mem_filter.1 hv
    unfold receive
    rw [if_pos (by rw [hsame u (List.mem_range.1 hu) v (List.mem_range.1 hv.1) (sees_iff.1 (by rw [C26_symmetric]; exact hv.2))])]
    exact ⟨_, rfl⟩
  obtain ⟨s', hs'⟩ := this
  refine ⟨s', hs', fun u hu v hv huv key => ?_⟩
  rw [hsame u hu v hv huv, ((C26_exchange cons N s s' hs').1 u hu v hv huv).2.2]

/-- **C26** In a formation, of any fleet, every vehicle shares the same entries with all its neighbours: all coefficients of
the coordinates of the centre. -/
theorem C26_formation (kind : Verif.Fleet.Interconnection) (N n deg : ℕ) (len : ℕ → ℕ → ℕ) (term : ℕ → ℕ → ℕ → List ℕ)
    (hterm : ∀ v k d, ∀ i ∈ term v k d, i < len v k) (u v : ℕ)
    (h : Spec.Coupled2 (formationDeps (Verif.Fleet.distributedCouples kind N) N n deg len term) u v) :
    let cons := formationDeps (Verif.Fleet.distributedCouples kind N) N n deg len term
    qSeen cons u v = qOwn cons v ∧ ∀ name i, (name, i) ∈ layout (qOwn cons v) ↔ name < n ∧ i < len v name := by
  obtain ⟨huv, c, hc, ⟨d1, h1⟩, d2, h2⟩ := h
  unfold formationDeps at hc
  have hp : ∃ p ∈ Verif.Fleet.distributedCouples kind N, p = (u, v) ∨ p = (v, u) := by
    rcases List.mem_append.1 hc with hc | hc
    · obtain ⟨p, hp, hc⟩ := List.mem_flatMap.1 hc
      obtain ⟨k, -, rfl⟩ := List.mem_map.1 hc
      rw [lookup_couple] at h1 h2
      refine ⟨p, hp, ?_⟩
      obtain ⟨a, b⟩ := p
      simp only [Prod.mk.injEq] at h1 h2 ⊢
      split_ifs at h1 h2 with e1 e2 e3 e4 e5
      · exact absurd (e1.trans e2.symm) huv
      · exact Or.inl ⟨e1.symm, e3.symm⟩
      · exact Or.inr ⟨e5.symm, e4.symm⟩
      · exact absurd (e4.trans (by assumption : v = b).symm) huv
    · obtain ⟨w, -, hc⟩ := List.mem_flatMap.1 hc
      obtain ⟨k, -, hc⟩ := List.mem_flatMap.1 hc
      obtain ⟨d, -, rfl⟩ := List.mem_map.1 hc
      rw [lookup_single] at h1 h2
      split_ifs at h1 h2 with e1 e2
      exact absurd (e1.trans e2.symm) huv
  have e1 := formation_seen (Verif.Fleet.distributedCouples kind N) N n deg len term u v huv hp
  have e2 := formation_own (Verif.Fleet.distributedCouples kind N) N n deg len term hterm v (by
    obtain ⟨p, hp, rfl | rfl⟩ := hp
    · exact ⟨_, hp, Or.inr rfl⟩
    · exact ⟨_, hp, Or.inl rfl⟩)
  refine ⟨e1.trans e2.symm, fun name i => ?_⟩
  rw [e2, mem_layout]
  unfold full
  constructor
  · rintro ⟨l, hl, hi⟩
    obtain ⟨k, hk, e⟩ := List.mem_map.1 hl
    obtain ⟨rfl, rfl⟩ := Prod.mk.inj e
    exact ⟨List.mem_range.1 hk, List.mem_range.1 hi⟩
  · rintro ⟨hn, hi⟩
    exact ⟨_, List.mem_map.2 ⟨name, List.mem_range.2 hn, rfl⟩, List.mem_range.2 hi⟩

/-- Three vehicles in a circle, two coordinates of three coefficients, terminal constraints on the last two. -/
example : let cons := formationDeps (Verif.Fleet.distributedCouples .circular 3) 3 2 1 (fun _ _ => 3) (fun _ _ _ => [1, 2])
    Spec.Coupled2 cons 0 2 ∧ layout (qOwn cons 2) = [(0, 0), (0, 1), (0, 2), (1, 0), (1, 1), (1, 2)] := by
  intro cons
  have h : Spec.Coupled2 cons 0 2 := sees_iff.1 (by decide +kernel)
  refine ⟨h, ?_⟩
  rw [formation_own _ _ _ _ _ _ (by simp) 2 ⟨(0, 2), by decide +kernel, Or.inr rfl⟩]
  decide

/-- A chain in which the middle vehicle shares one coordinate with the first and another one with the last vehicle: the first
vehicle keeps one value, but is sent two. -/
theorem C26_sizes_violated : let cons : List Dep := [[(0, [(0, [0])]), (1, [(0, [0])])], [(1, [(1, [0])]), (2, [(1, [0])])]]
    Spec.Coupled2 cons 0 1 ∧ layout (qSeen cons 0 1) = [(0, 0)] ∧ layout (qOwn cons 1) = [(0, 0), (1, 0)] ∧
      ∀ s : ℕ → Held ℚ, communicate cons 3 s = none := by
  refine ⟨sees_iff.1 (by decide +kernel), by decide +kernel, by decide +kernel, fun s => ?_⟩
  have e0 : (List.range 3).filter (fun v => sees ([[(0, [(0, [0])]), (1, [(0, [0])])], [(1, [(1, [0])]), (2, [(1, [0])])]] : List Dep) v 0) = [1] := by
    decide +kernel
  unfold communicate
  have e3 : List.range 3 = [0, 1, 2] := rfl
  conv_lhs => rw [e3]
  rw [List.foldlM_cons, ← e3, e0, List.foldlM_cons]
  have : receive ([[(0, [(0, [0])]), (1, [(0, [0])])], [(1, [(1, [0])]), (2, [(1, [0])])]] : List Dep) 0 s 1 = none := by
    unfold receive
    rw [if_neg (by decide +kernel)]
  rw [this]
  rfl

end Verif.ADMM
