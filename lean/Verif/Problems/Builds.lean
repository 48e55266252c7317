import Mathlib.Data.List.Basic
import Mathlib.Data.List.Nodup
import Mathlib.Data.List.Range
import Mathlib.Data.List.Pairwise
import Mathlib.Tactic.NormNum

/-! # Which optimisation problem the vehicles of a fleet solve (C139)

`DistributedProblem.init` builds one problem per vehicle type and number of neighbours, and lets all vehicles of that kind
solve it (`separate_build = False`, the default). -/

set_option linter.unusedSectionVars false

namespace Verif.Builds

/-! ## Model -/

/-- A vehicle, as far as the construction is concerned: the name of its class, its number of neighbours, and all that is written
as numbers into the expressions of its problem (limits on velocity and acceleration, shapes, weights, safety distance, …; e.g.
holonomic.py:62-83). -/
structure Vehicle (D : Type) where
  type : String
  neighbours : ℕ
  data : D

/-- `if k in d: d[k].append(i) else: d[k] = [i]`, fleet.py:180-184 and distributedproblem.py:94-97, on a dictionary that keeps the
order of insertion. -/
def addTo {κ : Type} [DecidableEq κ] (d : List (κ × List ℕ)) (k : κ) (i : ℕ) : List (κ × List ℕ) :=
  if d.any fun e => e.1 = k then d.map fun e => if e.1 = k then (e.1, e.2 ++ [i]) else e else d ++ [(k, [i])]

/-- The loop around it. -/
def groupBy {κ : Type} [DecidableEq κ] (key : ℕ → κ) (l : List ℕ) : List (κ × List ℕ) :=
  l.foldl (fun d i => addTo d (key i) i) []

variable {D : Type}

/-- The entry `i` of the fleet. -/
def typeOf (vs : List (Vehicle D)) (i : ℕ) : String := (vs[i]?.map (·.type)).getD ""

/-- `len(self.fleet.get_neighbors(veh))`. -/
def neighboursOf (vs : List (Vehicle D)) (i : ℕ) : ℕ := (vs[i]?.map (·.neighbours)).getD 0

/-- `Fleet.sort_vehicles`, fleet.py:177-185 (vehicles by their number). -/
def sortVehicles (vs : List (Vehicle D)) : List (String × List ℕ) := groupBy (typeOf vs) (List.range vs.length)

/-- `separate_per_build`, distributedproblem.py:88-103: the groups, in order. -/
def separatePerBuild (vs : List (Vehicle D)) : List (List ℕ) :=
  (sortVehicles vs).flatMap fun e => (groupBy (neighboursOf vs) e.2).map (·.2)

/-- The calls of `updater.init`, distributedproblem.py:72-85: the number of the updater and the one whose problem it gets. -/
def inits (separateBuild : Bool) (vs : List (Vehicle D)) : List (ℕ × ℕ) :=
  if separateBuild then (List.range vs.length).map fun i => (i, i)
  else (separatePerBuild vs).flatMap fun g =>
    match g with
    | [] => []
    | h :: t => (h, h) :: t.map fun u => (u, h)

/-- The data in the problem that updater `i` solves from then on, `problem_upd_x(…)`: that of the last call. -/
def solves (separateBuild : Bool) (vs : List (Vehicle D)) (i : ℕ) : Option D :=
  ((inits separateBuild vs).reverse.find? fun p => p.1 = i).bind fun p => vs[p.2]?.map (·.data)

/-! ## Specification -/

/-- The first vehicle of the same type with the same number of neighbours. -/
def Spec.firstAlike (vs : List (Vehicle D)) (i j : ℕ) : Prop :=
  ∃ v w, vs[i]? = some v ∧ vs[j]? = some w ∧ w.type = v.type ∧ w.neighbours = v.neighbours ∧
    ∀ k < j, ∀ u, vs[k]? = some u → ¬ (u.type = v.type ∧ u.neighbours = v.neighbours)

/-! ## Lemmas -/

section
variable {κ : Type} [DecidableEq κ]

/-- What the dictionary contains: for every key that occurs, the numbers with that key, in order. -/
theorem groupBy_spec (key : ℕ → κ) (l : List ℕ) :
    ((groupBy key l).map (·.1)).Nodup ∧
    (∀ e ∈ groupBy key l, e.2 = l.filter (fun i => key i = e.1) ∧ e.2 ≠ []) ∧
    ∀ i ∈ l, ∃ e ∈ groupBy key l, e.1 = key i := by
  induction l using List.reverseRecOn with
  | nil => simp [groupBy]
  | append_singleton l a ih =>
    obtain ⟨h1, h2, h3⟩ := ih
    have e : groupBy key (l ++ [a]) = addTo (groupBy key l) (key a) a := by simp [groupBy]
    rw [e]
    generalize groupBy key l = d at h1 h2 h3 ⊢
    unfold addTo
    by_cases h : d.any (fun e => e.1 = key a) = true
    · rw [if_pos h]
      obtain ⟨e0, he0, hk0⟩ := List.any_eq_true.1 h
      have hk0 : e0.1 = key a := by simpa using hk0
      have hmap : (d.map fun e => if e.1 = key a then (e.1, e.2 ++ [a]) else e).map (·.1) = d.map (·.1) := by
        rw [List.map_map]
        refine List.map_congr_left fun e _ => ?_
        simp only [Function.comp]
        split_ifs <;> rfl
      refine ⟨by rw [hmap]; exact h1, ?_, ?_⟩
      · intro e he
        obtain ⟨e', he', rfl⟩ := List.mem_map.1 he
        obtain ⟨p1, p2⟩ := h2 e' he'
        rw [List.filter_append]
        by_cases hk : e'.1 = key a
        · simp only [if_pos hk]
          refine ⟨?_, by simp⟩
          rw [← p1, List.filter_cons_of_pos (by simp [hk]), List.filter_nil]
        · simp only [if_neg hk]
          refine ⟨?_, p2⟩
          rw [← p1, List.filter_cons_of_neg (by simpa using fun h => hk h.symm), List.filter_nil, List.append_nil]
      · intro i hi
        have key' : ∀ k, (∃ e ∈ d, e.1 = k) → ∃ e ∈ d.map (fun e => if e.1 = key a then (e.1, e.2 ++ [a]) else e), e.1 = k := by
          rintro k ⟨e, he, rfl⟩
          refine ⟨_, List.mem_map_of_mem he, ?_⟩
          split_ifs <;> rfl
        rcases List.mem_append.1 hi with hi | hi
        · exact key' _ (h3 i hi)
        · rw [List.mem_singleton.1 hi]; exact key' _ ⟨e0, he0, hk0⟩
    · rw [if_neg h]
      have hno : ∀ e ∈ d, e.1 ≠ key a := fun e he hk => h (List.any_eq_true.2 ⟨e, he, by simpa using hk⟩)
      refine ⟨?_, ?_, ?_⟩
      · rw [List.map_append, List.nodup_append]
        refine ⟨h1, by simp, ?_⟩
        intro k hk k' hk' hkk
        obtain ⟨e, he, rfl⟩ := List.mem_map.1 hk
        simp only [List.map_cons, List.map_nil, List.mem_singleton] at hk'
        exact hno e he (hkk.trans hk')
      · intro e he
        rw [List.filter_append]
        rcases List.mem_append.1 he with he | he
        · obtain ⟨p1, p2⟩ := h2 e he
          refine ⟨?_, p2⟩
          rw [← p1, List.filter_cons_of_neg (by simpa using fun h => hno e he h.symm), List.filter_nil, List.append_nil]
        · rw [List.mem_singleton.1 he]
          simp only
          refine ⟨?_, by simp⟩
          rw [List.filter_cons_of_pos (by simp), List.filter_nil]
          have : l.filter (fun i => decide (key i = key a)) = [] := by
            rw [List.filter_eq_nil_iff]
            intro i hi hk
            obtain ⟨e, he, hke⟩ := h3 i hi
            exact hno e he (hke.trans (by simpa using hk))
          rw [this, List.nil_append]
      · intro i hi
        rcases List.mem_append.1 hi with hi | hi
        · obtain ⟨e, he, hk⟩ := h3 i hi
          exact ⟨e, List.mem_append_left _ he, hk⟩
        · exact ⟨(key a, [a]), by simp, by rw [List.mem_singleton.1 hi]⟩
end

/-- Both keys agree. -/
def alike (vs : List (Vehicle D)) (i j : ℕ) : Prop := typeOf vs j = typeOf vs i ∧ neighboursOf vs j = neighboursOf vs i

instance (vs : List (Vehicle D)) (i j : ℕ) : Decidable (alike vs i j) := by unfold alike; infer_instance

theorem group_spec (vs : List (Vehicle D)) (g : List ℕ) (hg : g ∈ separatePerBuild vs) (i : ℕ) (hi : i ∈ g) :
    g = (List.range vs.length).filter (fun j => alike vs i j) := by
  unfold separatePerBuild sortVehicles at hg
  obtain ⟨e, he, hg⟩ := List.mem_flatMap.1 hg
  obtain ⟨e', he', rfl⟩ := List.mem_map.1 hg
  have p := ((groupBy_spec (typeOf vs) (List.range vs.length)).2.1 e he).1
  have q := ((groupBy_spec (neighboursOf vs) e.2).2.1 e' he').1
  rw [q] at hi ⊢
  have hi1 := List.mem_filter.1 hi
  have hn : neighboursOf vs i = e'.1 := by simpa using hi1.2
  rw [p] at hi1 ⊢
  have ht : typeOf vs i = e.1 := by simpa using (List.mem_filter.1 hi1.1).2
  rw [List.filter_filter]
  refine List.filter_congr fun j _ => ?_
  simp only [alike, hn, ht, Bool.decide_and]
  rw [Bool.and_comm]

theorem group_exists (vs : List (Vehicle D)) (i : ℕ) (hi : i < vs.length) : ∃ g ∈ separatePerBuild vs, i ∈ g := by
  obtain ⟨-, s2, s3⟩ := groupBy_spec (typeOf vs) (List.range vs.length)
  obtain ⟨e, he, hk⟩ := s3 i (List.mem_range.2 hi)
  have h1 : i ∈ e.2 := by
    rw [(s2 e he).1]; exact List.mem_filter.2 ⟨List.mem_range.2 hi, by simp [hk]⟩
  obtain ⟨-, t2, t3⟩ := groupBy_spec (neighboursOf vs) e.2
  obtain ⟨e', he', hk'⟩ := t3 i h1
  refine ⟨e'.2, List.mem_flatMap.2 ⟨e, he, List.mem_map.2 ⟨e', he', rfl⟩⟩, ?_⟩
  rw [(t2 e' he').1]; exact List.mem_filter.2 ⟨h1, by simp [hk']⟩

/-- Which problem a call hands over: that of the first vehicle alike. -/
theorem inits_spec (vs : List (Vehicle D)) (p : ℕ × ℕ) (hp : p ∈ inits false vs) :
    p.1 < vs.length ∧ ((List.range vs.length).filter fun j => alike vs p.1 j).head? = some p.2 := by
  unfold inits at hp
  rw [if_neg (by decide)] at hp
  obtain ⟨g, hg, hp⟩ := List.mem_flatMap.1 hp
  match g, hg, hp with
  | h :: t, hg, hp =>
    have hmem : p.1 ∈ h :: t ∧ p.2 = h := by
      rcases List.mem_cons.1 hp with rfl | hp
      · exact ⟨List.mem_cons_self .., rfl⟩
      · obtain ⟨u, hu, rfl⟩ := List.mem_map.1 hp
        exact ⟨List.mem_cons_of_mem _ hu, rfl⟩
    have e := group_spec vs _ hg p.1 hmem.1
    refine ⟨?_, by rw [← e, hmem.2]; rfl⟩
    have := hmem.1
    rw [e] at this
    exact List.mem_range.1 (List.mem_filter.1 this).1

theorem inits_exists (vs : List (Vehicle D)) (i : ℕ) (hi : i < vs.length) : ∃ p ∈ inits false vs, p.1 = i := by
  obtain ⟨g, hg, hig⟩ := group_exists vs i hi
  match g, hg, hig with
  | h :: t, hg, hig =>
    unfold inits
    rw [if_neg (by decide)]
    rcases List.mem_cons.1 hig with rfl | hig
    · exact ⟨(i, i), List.mem_flatMap.2 ⟨_, hg, List.mem_cons_self ..⟩, rfl⟩
    · exact ⟨(i, h), List.mem_flatMap.2 ⟨_, hg, List.mem_cons_of_mem _ (List.mem_map.2 ⟨i, hig, rfl⟩)⟩, rfl⟩

theorem alike_iff (vs : List (Vehicle D)) {i j : ℕ} {v w : Vehicle D} (hv : vs[i]? = some v) (hw : vs[j]? = some w) :
    alike vs i j ↔ w.type = v.type ∧ w.neighbours = v.neighbours := by
  simp [alike, typeOf, neighboursOf, hv, hw]

theorem first_of_head (vs : List (Vehicle D)) (i j : ℕ) (hi : i < vs.length)
    (h : ((List.range vs.length).filter fun j => alike vs i j).head? = some j) : Spec.firstAlike vs i j := by
  have hv : vs[i]? = some vs[i] := List.getElem?_eq_getElem hi
  have hj := List.mem_filter.1 (List.mem_of_head? h)
  have hjl := List.mem_range.1 hj.1
  have hw : vs[j]? = some vs[j] := List.getElem?_eq_getElem hjl
  have ha := (alike_iff vs hv hw).1 (by simpa using hj.2)
  refine ⟨vs[i], vs[j], hv, hw, ha.1, ha.2, ?_⟩
  intro k hk u hu hku
  have hal := (alike_iff vs hv hu).2 hku
  have hkl : k < vs.length := by omega
  have hsorted : ((List.range vs.length).filter fun j => alike vs i j).Pairwise (· < ·) := List.pairwise_lt_range.filter _
  have hmem : k ∈ (List.range vs.length).filter fun j => alike vs i j := List.mem_filter.2 ⟨List.mem_range.2 hkl, by simpa using hal⟩
  match hL : (List.range vs.length).filter (fun j => alike vs i j), h, hsorted, hmem with
  | [], h, _, _ => simp at h
  | a :: L, h, hsorted, hmem =>
    have haj : a = j := by simpa using h
    subst haj
    rcases List.mem_cons.1 hmem with rfl | hm
    · omega
    · have := (List.pairwise_cons.1 hsorted).1 k hm
      omega

theorem solves_shared (vs : List (Vehicle D)) (i : ℕ) (hi : i < vs.length) :
    ∃ j w, Spec.firstAlike vs i j ∧ vs[j]? = some w ∧ solves false vs i = some w.data := by
  obtain ⟨p, hp, hpi⟩ := inits_exists vs i hi
  cases hf : (inits false vs).reverse.find? fun p => p.1 = i with
  | none =>
    have := List.find?_eq_none.1 hf p (List.mem_reverse.2 hp)
    simp [hpi] at this
  | some q =>
    have hq := List.mem_reverse.1 (List.mem_of_find?_eq_some hf)
    have hqi : q.1 = i := by simpa using List.find?_some hf
    obtain ⟨q1, q2⟩ := inits_spec vs q hq
    rw [hqi] at q1 q2
    have hfirst := first_of_head vs i q.2 q1 q2
    obtain ⟨v, w, hv, hw, -⟩ := id hfirst
    refine ⟨q.2, w, hfirst, hw, ?_⟩
    unfold solves
    rw [hf]
    simp [hw]

/-! ## Property -/

/-- **C139** (what is solved) With the default options every vehicle solves the problem built from the data of the first vehicle of
the fleet that has the same type and number of neighbours. -/
theorem C139_first (vs : List (Vehicle D)) (i : ℕ) (hi : i < vs.length) (j : ℕ) (h : Spec.firstAlike vs i j) :
    solves false vs i = vs[j]?.map (·.data) := by
  obtain ⟨j', w, hj', hw, hs⟩ := solves_shared vs i hi
  have : j' = j := by
    obtain ⟨v, w, hv, hw, a1, a2, a3⟩ := h
    obtain ⟨v', w', hv', hw', b1, b2, b3⟩ := hj'
    have hvv : v' = v := by rw [hv] at hv'; exact (Option.some.inj hv').symm
    subst hvv
    rcases Nat.lt_trichotomy j' j with hl | hl | hl
    · exact absurd ⟨b1, b2⟩ (a3 j' hl w' hw')
    · exact hl
    · exact absurd ⟨a1, a2⟩ (b3 j hl w hw)
  subst this
  rw [hs, hw]; rfl

/-- **C139** A vehicle solves the problem with its own data when problems are built separately, and otherwise when all vehicles of its
type and number of neighbours have the same data. -/
theorem C139_own_partial (separateBuild : Bool) (vs : List (Vehicle D)) (i : ℕ) (v : Vehicle D) (hv : vs[i]? = some v)
    (h : separateBuild = true ∨ ∀ w ∈ vs, w.type = v.type → w.neighbours = v.neighbours → w.data = v.data) :
    solves separateBuild vs i = some v.data := by
  have hi : i < vs.length := by
    by_contra hc
    rw [List.getElem?_eq_none (by omega)] at hv
    cases hv
  by_cases hb : separateBuild = true
  · subst hb
    cases hf : (inits true vs).reverse.find? fun p => p.1 = i with
    | none =>
      have := List.find?_eq_none.1 hf (i, i) (List.mem_reverse.2 (by
        unfold inits; rw [if_pos rfl]; exact List.mem_map.2 ⟨i, List.mem_range.2 hi, rfl⟩))
      simp at this
    | some q =>
      have hq := List.mem_reverse.1 (List.mem_of_find?_eq_some hf)
      have hqi : q.1 = i := by simpa using List.find?_some hf
      unfold inits at hq
      rw [if_pos rfl] at hq
      obtain ⟨k, -, rfl⟩ := List.mem_map.1 hq
      unfold solves
      rw [hf]
      simp only at hqi
      subst hqi
      simp [hv]
  · rw [Bool.not_eq_true] at hb
    subst hb
    obtain ⟨j, w, ⟨v', w', hv', hw', a1, a2, -⟩, hw, hs⟩ := solves_shared vs i hi
    rw [hv] at hv'
    rw [hw] at hw'
    rw [← Option.some.inj hv', ← Option.some.inj hw'] at a1 a2
    rw [hs, (h.resolve_left (by decide)) w (List.mem_of_getElem? hw) a1 a2]

/-- **C139** (refuted) Otherwise it does not: a vehicle whose data differ from those of the first vehicle of its type and number of
neighbours never solves its own problem, e.g. it is not kept to its own velocity limits. -/
theorem C139_own_violated (vs : List (Vehicle D)) (i j : ℕ) (v w : Vehicle D) (hv : vs[i]? = some v) (hw : vs[j]? = some w)
    (h : Spec.firstAlike vs i j) (hd : w.data ≠ v.data) : solves false vs i ≠ some v.data := by
  have hi : i < vs.length := by
    by_contra hc
    rw [List.getElem?_eq_none (by omega)] at hv
    cases hv
  rw [C139_first vs i hi j h, hw]
  intro hc
  exact hd (Option.some.inj hc)

/-- **C139** (all are prepared) Every vehicle is given a problem, and no other. -/
theorem C139_all (separateBuild : Bool) (vs : List (Vehicle D)) (i : ℕ) :
    (solves separateBuild vs i).isSome ↔ i < vs.length := by
  constructor
  · intro h
    by_contra hi
    have : (inits separateBuild vs).reverse.find? (fun p => p.1 = i) = none := by
      rw [List.find?_eq_none]
      intro p hp hpi
      have hpi : p.1 = i := by simpa using hpi
      have hp := List.mem_reverse.1 hp
      cases separateBuild with
      | false => exact hi (hpi ▸ (inits_spec vs p hp).1)
      | true =>
        unfold inits at hp
        rw [if_pos rfl] at hp
        obtain ⟨k, hk, rfl⟩ := List.mem_map.1 hp
        exact hi (hpi ▸ List.mem_range.1 hk)
    unfold solves at h
    rw [this] at h
    simp at h
  · intro hi
    cases separateBuild with
    | false =>
      obtain ⟨j, w, -, -, hs⟩ := solves_shared vs i hi
      rw [hs]; rfl
    | true =>
      rw [C139_own_partial true vs i vs[i] (List.getElem?_eq_getElem hi) (Or.inl rfl)]; rfl

/-! ### Examples -/

/-- Four vehicles; the data are their velocity limits. The third has the same type and number of neighbours as the first. -/
def fleet : List (Vehicle ℕ) := [⟨"Holonomic", 2, 10⟩, ⟨"Dubins", 2, 7⟩, ⟨"Holonomic", 2, 5⟩, ⟨"Holonomic", 1, 6⟩]

example : (List.range 4).map (solves false fleet) = [some 10, some 7, some 10, some 6] := by decide +kernel

example : (List.range 4).map (solves true fleet) = [some 10, some 7, some 5, some 6] := by decide +kernel

example : Spec.firstAlike fleet 2 0 :=
  ⟨⟨"Holonomic", 2, 5⟩, ⟨"Holonomic", 2, 10⟩, rfl, rfl, rfl, rfl, fun k hk => absurd hk (Nat.not_lt_zero k)⟩

example : solves false fleet 2 ≠ some 5 :=
  C139_own_violated fleet 2 0 _ _ rfl rfl ⟨⟨"Holonomic", 2, 5⟩, ⟨"Holonomic", 2, 10⟩, rfl, rfl, rfl, rfl, fun k hk => absurd hk (Nat.not_lt_zero k)⟩
    (by decide)

example : solves false fleet 3 = some 6 :=
  C139_own_partial false fleet 3 _ rfl (Or.inr (by decide))

end Verif.Builds
