import Verif.Spline.Bernstein
import Mathlib.Analysis.SpecialFunctions.Pow.Real
import Mathlib.Data.List.Sort
import Mathlib.Data.List.Nodup
import Mathlib.Data.List.GetD
import Mathlib.Logic.Relation
import Mathlib.Tactic.Linarith
import Mathlib.Tactic.NormNum

/-! # Fleets: neighbours, configurations, coupling constraints (C21, C22, C23)

Vehicles are distinct objects; they are identified with their index in `fleet.vehicles`. -/

set_option linter.unusedSectionVars false

namespace Verif.Fleet

open Verif.Spline

/-! ## Model -/

/-- The supported values of `interconnection`, fleet.py:53-58. -/
inductive Interconnection
  | circular
  | full
  deriving DecidableEq

/-- `Fleet.set_neighbors` for vehicle `l` of `N`, fleet.py:49-60. -/
def neighbors (kind : Interconnection) (N l : ℕ) : List ℕ :=
  match kind with
  | .circular => [(N + l + 1) % N, (N + l - 1) % N]
  | .full => (List.range N).filter fun k => k ≠ l

/-- A configuration given by the user for one vehicle: a list, or a dict (its items in insertion order). -/
inductive Config (K : Type)
  | list (l : List K)
  | dict (d : List (ℕ × K))

section
variable {K : Type} [Field K] [LinearOrder K]

def Config.len : Config K → ℕ
  | .list l => l.length
  | .dict d => d.length

/-- `config[i]`; `none` is an `IndexError` or `KeyError`. -/
def Config.get (i : ℕ) : Config K → Option K
  | .list l => l[i]?
  | .dict d => d.lookup i

/-- fleet.py:68-74: turn configurations of two entries over `-orientation` (`c`, `s` are its cosine and sine) and store
every configuration as a dict. -/
def store (c s : K) (cfg : Config K) : Option (List (ℕ × K)) :=
  if cfg.len = 2 then
    match cfg.get 0, cfg.get 1 with
    | some x, some y => some [(0, x * c - y * s), (1, x * s + y * c)]
    | _, _ => none
  else
    match cfg with
    | .dict d => some d
    | .list l => some ((List.range l.length).zip l)

/-- `[conf[ind] for ind in sorted(conf.keys())]`. -/
def sortedVals (d : List (ℕ × K)) : List K := (d.mergeSort fun a b => a.1 ≤ b.1).map Prod.snd

/-- What `set_configuration` leaves in the fleet: `configuration` and `rel_config`. -/
structure Configured (K : Type) where
  conf : List (List (ℕ × K))
  rel : List (List (ℕ × List K))

/-- The inner loop of fleet.py:77-91 for one pair; `none` is the `ValueError`. -/
def relPair (a b : List (ℕ × K)) : Option (List K) :=
  if a.length ≠ b.length then none else some (List.zipWith (· - ·) (sortedVals a) (sortedVals b))

/-- `Fleet.set_configuration`, fleet.py:62-91, for a fleet of `N` vehicles; `none` when it raises. -/
def setConfiguration (kind : Interconnection) (N : ℕ) (c s : K) (cfgs : List (Config K)) : Option (Configured K) :=
  if cfgs.length ≠ N then none
  else
    match cfgs.mapM (store c s) with
    | none => none
    | some conf =>
      match (List.range N).mapM (fun i => (neighbors kind N i).mapM fun j =>
          (relPair (conf.getD i []) (conf.getD j [])).map fun r => (j, r)) with
      | none => none
      | some rel => some ⟨conf, rel⟩

/-- `fleet.get_rel_config(i)[j]`. -/
def Configured.relConfig (r : Configured K) (i j : ℕ) : Option (List K) := (r.rel.getD i []).lookup j

/-- `veh.rel_pos_c`, fleet.py:93-98. -/
def Configured.relPosC (r : Configured K) (i : ℕ) : List K := (sortedVals (r.conf.getD i [])).map fun x => -x

end

/-- The loop that collects couples of neighbours, each couple once, formation_central.py:52-56 and (with the constraints in
the loop) formation.py:48-58, rendezvous.py:49-58. -/
def addCouple (veh : ℕ) (couples : ℕ → List ℕ) (nghb : ℕ) : ℕ → List ℕ :=
  if veh ∉ couples nghb ∧ nghb ∉ couples veh then Function.update couples veh (couples veh ++ [nghb]) else couples

def couplesOf (kind : Interconnection) (N : ℕ) : ℕ → List ℕ :=
  (List.range N).foldl (fun cpl veh => (neighbors kind N veh).foldl (addCouple veh) cpl) fun _ => []

/-- The couples that get a constraint in `FormationPoint2pointCentral`, formation_central.py:51-60: in a circular fleet
those of the last two vehicles are removed; `self.vehicles[-2]` raises for a single vehicle. -/
def centralCouples (kind : Interconnection) (N : ℕ) : Option (List (ℕ × ℕ)) :=
  match kind with
  | .full => some ((List.range N).flatMap fun v => (couplesOf .full N v).map fun n => (v, n))
  | .circular =>
    if N < 2 then none
    else some (((List.range N).filter fun v => v ≠ N - 1 ∧ v ≠ N - 2).flatMap fun v => (couplesOf .circular N v).map fun n => (v, n))

/-- The couples that get a constraint in the distributed `FormationPoint2point` and `RendezVous`, formation.py:48-58. -/
def distributedCouples (kind : Interconnection) (N : ℕ) : List (ℕ × ℕ) :=
  (List.range N).flatMap fun v => (couplesOf kind N v).map fun n => (v, n)

section
variable {K : Type} [Field K] [LinearOrder K]

/-- `define_constraint(expr, 0., 0.)` on a spline expression: all coefficients vanish. -/
def ImposedZero (e : Expr K) : Prop :=
  ∃ v, e.Runs v ∧ match v with
    | .num _ => True
    | .spl s => ∀ c ∈ s.coeffs, c = 0

/-- `Vehicle.get_fleet_center`, vehicle.py:234-240: entry `k` is spline `k` plus `rel_pos_c[k]`. -/
def centre (spl : ℕ → BSpline K) (relPos : List K) (k : ℕ) : Expr K := .add (.spl (spl k)) (.num (relPos.getD k 0))

/-- The coupling constraints for a list of couples, formation_central.py:64-81 without `soft_formation`, for configurations of
`n` entries with keys `0, ..., n-1`. -/
def CouplingImposed (couples : List (ℕ × ℕ)) (spl : ℕ → ℕ → BSpline K) (relPos : ℕ → List K) (n : ℕ) : Prop :=
  ∀ p ∈ couples, ∀ k < n, ImposedZero ((centre (spl p.1) (relPos p.1) k).sub (centre (spl p.2) (relPos p.2) k))

end

/-! ## Lemmas -/

theorem circ_succ {N l : ℕ} (h : l + 1 < N) : (N + l + 1) % N = l + 1 := by
  rw [Nat.add_assoc, Nat.add_mod_left, Nat.mod_eq_of_lt h]

theorem circ_last {N l : ℕ} (h : l + 1 = N) : (N + l + 1) % N = 0 := by
  rw [Nat.add_assoc, Nat.add_mod_left, h, Nat.mod_self]

theorem circ_pred {N l : ℕ} (h : l < N) (h0 : 0 < l) : (N + l - 1) % N = l - 1 := by
  rw [show N + l - 1 = N + (l - 1) by omega, Nat.add_mod_left, Nat.mod_eq_of_lt (by omega)]

theorem circ_first {N : ℕ} (h : 0 < N) : (N + 0 - 1) % N = N - 1 := by
  rw [Nat.add_zero, Nat.mod_eq_of_lt (by omega)]

theorem mem_circular {N i j : ℕ} (hi : i < N) :
    j ∈ neighbors .circular N i ↔ j = (if i + 1 = N then 0 else i + 1) ∨ j = (if i = 0 then N - 1 else i - 1) := by
  unfold neighbors
  simp only [List.mem_cons, List.not_mem_nil, or_false]
  have e1 : (N + i + 1) % N = if i + 1 = N then 0 else i + 1 := by
    split_ifs with h
    · exact circ_last h
    · exact circ_succ (by omega)
  have e2 : (N + i - 1) % N = if i = 0 then N - 1 else i - 1 := by
    split_ifs with h
    · subst h; exact circ_first hi
    · exact circ_pred hi (by omega)
  rw [e1, e2]

theorem mem_full {N i j : ℕ} : j ∈ neighbors .full N i ↔ j < N ∧ j ≠ i := by
  unfold neighbors
  simp [List.mem_filter]

theorem neighbors_lt {kind : Interconnection} {N i j : ℕ} (hi : i < N) (h : j ∈ neighbors kind N i) : j < N := by
  cases kind with
  | circular => rw [mem_circular hi] at h; split_ifs at h <;> omega
  | full => exact (mem_full.1 h).1

theorem neighbors_symm {kind : Interconnection} {N i j : ℕ} (hi : i < N) (hj : j < N) (h : j ∈ neighbors kind N i) :
    i ∈ neighbors kind N j := by
  cases kind with
  | circular => rw [mem_circular hi] at h; rw [mem_circular hj]; split_ifs at h ⊢ <;> omega
  | full => rw [mem_full] at h ⊢; exact ⟨hi, fun e => h.2 e.symm⟩

theorem lookup_map_pair {β : Type} (f : ℕ → Option β) : ∀ (l : List ℕ) (r : List (ℕ × β)),
    l.mapM (fun j => (f j).map fun x => (j, x)) = some r → ∀ j ∈ l, r.lookup j = f j
  | [], r, _, j, hj => by simp at hj
  | a :: l, r, h, j, hj => by
    rw [List.mapM_cons] at h
    cases ha : f a with
    | none => rw [ha] at h; simp at h
    | some x =>
      rw [ha] at h
      cases hl : l.mapM (fun j => (f j).map fun x => (j, x)) with
      | none => rw [hl] at h; simp at h
      | some r' =>
        rw [hl] at h
        simp only [Option.map_some, Option.pure_def, Option.bind_eq_bind, Option.bind_some, Option.some.injEq] at h
        subst h
        by_cases e : j = a
        · subst e; simp [ha]
        · rw [List.lookup_cons]
          have : (j == a) = false := by simp [e]
          rw [this]
          exact lookup_map_pair f l r' hl j ((List.mem_cons.1 hj).resolve_left e)

theorem mapM_getD {α β : Type} (f : α → Option β) (d : β) : ∀ (l : List α) (r : List β), l.mapM f = some r →
    r.length = l.length ∧ ∀ i (h : i < l.length), f (l[i]) = some (r.getD i d)
  | [], r, h => by simp at h; subst h; simp
  | a :: l, r, h => by
    rw [List.mapM_cons] at h
    cases ha : f a with
    | none => rw [ha] at h; simp at h
    | some x =>
      rw [ha] at h
      cases hl : l.mapM f with
      | none => rw [hl] at h; simp at h
      | some r' =>
        rw [hl] at h
        simp only [Option.pure_def, Option.bind_eq_bind, Option.bind_some, Option.some.injEq] at h
        subst h
        obtain ⟨h1, h2⟩ := mapM_getD f d l r' hl
        refine ⟨by simp [h1], fun i hi => ?_⟩
        cases i with
        | zero => simpa using ha
        | succ i => simpa using h2 i (by simpa using hi)

theorem mapM_exists {α β : Type} (f : α → Option β) : ∀ l : List α, (∀ a ∈ l, ∃ b, f a = some b) → ∃ r, l.mapM f = some r
  | [], _ => ⟨[], rfl⟩
  | a :: l, h => by
    obtain ⟨b, hb⟩ := h a List.mem_cons_self
    obtain ⟨r, hr⟩ := mapM_exists f l fun x hx => h x (List.mem_cons_of_mem _ hx)
    exact ⟨b :: r, by rw [List.mapM_cons, hb, hr]; rfl⟩

theorem mapM_some_mem {α β : Type} (f : α → Option β) : ∀ (l : List α) (r : List β), l.mapM f = some r → ∀ a ∈ l, ∃ b, f a = some b
  | [], _, _, a, ha => by simp at ha
  | x :: l, r, h, a, ha => by
    rw [List.mapM_cons] at h
    cases hx : f x with
    | none => rw [hx] at h; simp at h
    | some y =>
      cases hl : l.mapM f with
      | none => rw [hx, hl] at h; simp at h
      | some r' =>
        rcases List.mem_cons.1 ha with rfl | ha
        · exact ⟨y, hx⟩
        · exact mapM_some_mem f l r' hl a ha

/-! ### Couples -/

theorem addCouple_mono (v : ℕ) (c : ℕ → List ℕ) (n w x : ℕ) (h : x ∈ c w) : x ∈ addCouple v c n w := by
  unfold addCouple
  split_ifs
  · by_cases e : w = v
    · subst e; simp [h]
    · rw [Function.update_of_ne e]; exact h
  · exact h

theorem addCouples_mono (v : ℕ) (l : List ℕ) : ∀ (c : ℕ → List ℕ) (w x : ℕ), x ∈ c w → x ∈ l.foldl (addCouple v) c w := by
  induction l with
  | nil => intro c w x h; exact h
  | cons a l ih => intro c w x h; exact ih _ w x (addCouple_mono v c a w x h)

theorem addCouples_other (v : ℕ) (l : List ℕ) : ∀ (c : ℕ → List ℕ) (w : ℕ), w ≠ v → l.foldl (addCouple v) c w = c w := by
  induction l with
  | nil => intro c w _; rfl
  | cons a l ih =>
    intro c w h
    rw [List.foldl_cons, ih _ w h]
    unfold addCouple
    split_ifs
    · rw [Function.update_of_ne h]
    · rfl

theorem addCouples_mem (v : ℕ) (l : List ℕ) : ∀ (c : ℕ → List ℕ) (n : ℕ), n ∈ l → n ≠ v →
    (n ∈ l.foldl (addCouple v) c v ∨ v ∈ c n) := by
  induction l with
  | nil => intro c n h; simp at h
  | cons a l ih =>
    intro c n h hnv
    rw [List.foldl_cons]
    by_cases hv : v ∈ c n
    · exact Or.inr hv
    rcases List.mem_cons.1 h with rfl | h
    · left
      refine addCouples_mono v l _ v n ?_
      unfold addCouple
      by_cases hn : n ∈ c v
      · rw [if_neg (fun h => h.2 hn)]; exact hn
      · rw [if_pos ⟨hv, hn⟩, Function.update_self]; simp
    · rcases ih (addCouple v c a) n h hnv with h' | h'
      · exact Or.inl h'
      · right
        unfold addCouple at h'
        split_ifs at h'
        · rwa [Function.update_of_ne hnv] at h'
        · exact h'

/-- Everything in the couples of `v` is a neighbour of `v`. -/
theorem addCouples_sub (v : ℕ) (l : List ℕ) : ∀ (c : ℕ → List ℕ) (x : ℕ), x ∈ l.foldl (addCouple v) c v → x ∈ c v ∨ x ∈ l := by
  induction l with
  | nil => intro c x h; exact Or.inl h
  | cons a l ih =>
    intro c x h
    rcases ih _ x h with h | h
    · unfold addCouple at h
      split_ifs at h
      · rw [Function.update_self, List.mem_append, List.mem_singleton] at h
        rcases h with h | rfl
        · exact Or.inl h
        · exact Or.inr List.mem_cons_self
      · exact Or.inl h
    · exact Or.inr (List.mem_cons_of_mem _ h)

/-- The couples after the vehicles before `m` have been handled. -/
def couplesUpTo (kind : Interconnection) (N m : ℕ) : ℕ → List ℕ :=
  (List.range m).foldl (fun cpl veh => (neighbors kind N veh).foldl (addCouple veh) cpl) fun _ => []

theorem couplesUpTo_succ (kind : Interconnection) (N m : ℕ) :
    couplesUpTo kind N (m + 1) = (neighbors kind N m).foldl (addCouple m) (couplesUpTo kind N m) := by
  unfold couplesUpTo
  rw [List.range_succ, List.foldl_append]
  rfl

theorem couplesUpTo_empty (kind : Interconnection) (N m w : ℕ) (h : m ≤ w) : couplesUpTo kind N m w = [] := by
  induction m with
  | zero => rfl
  | succ m ih => rw [couplesUpTo_succ, addCouples_other _ _ _ _ (by omega), ih (by omega)]

theorem couplesUpTo_mono (kind : Interconnection) (N m k w x : ℕ) (h : m ≤ k) (hx : x ∈ couplesUpTo kind N m w) :
    x ∈ couplesUpTo kind N k w := by
  induction k, h using Nat.le_induction with
  | base => exact hx
  | succ k _ ih => rw [couplesUpTo_succ]; exact addCouples_mono _ _ _ _ _ ih

/-- Of two neighbours, the one with the larger index is in the couples of the other one. -/
theorem couplesOf_mem (kind : Interconnection) (N v n : ℕ) (hv : v < N) (hn : n ∈ neighbors kind N v) (hlt : v < n) :
    n ∈ couplesOf kind N v := by
  have : n ∈ couplesUpTo kind N (v + 1) v := by
    rw [couplesUpTo_succ]
    rcases addCouples_mem v _ (couplesUpTo kind N v) n hn (by omega) with h | h
    · exact h
    · rw [couplesUpTo_empty kind N v n (by omega)] at h; simp at h
  exact couplesUpTo_mono kind N (v + 1) N v n (by omega) this

theorem couplesOf_sub (kind : Interconnection) (N v n : ℕ) (h : n ∈ couplesOf kind N v) : v < N ∧ n ∈ neighbors kind N v := by
  have key : ∀ m, n ∈ couplesUpTo kind N m v → v < m ∧ n ∈ neighbors kind N v := by
    intro m
    induction m with
    | zero => intro h; simp [couplesUpTo] at h
    | succ m ih =>
      intro h
      rw [couplesUpTo_succ] at h
      by_cases e : v = m
      · subst e
        rcases addCouples_sub v _ _ n h with h | h
        · exact absurd (ih h).1 (by omega)
        · exact ⟨by omega, h⟩
      · rw [addCouples_other _ _ _ _ e] at h
        exact ⟨by have := (ih h).1; omega, (ih h).2⟩
  exact key N h

/-! ### Connectivity -/

/-- All vehicles of the fleet are linked by couples. -/
def Connected (couples : List (ℕ × ℕ)) (N : ℕ) : Prop :=
  ∀ i < N, Relation.EqvGen (fun a b => (a, b) ∈ couples) 0 i

theorem central_circular_connected (N : ℕ) (hN : 3 ≤ N) :
    ∃ l, centralCouples .circular N = some l ∧ Connected l N := by
  refine ⟨_, by unfold centralCouples; rw [if_neg (by omega)], ?_⟩
  set l := ((List.range N).filter fun v => v ≠ N - 1 ∧ v ≠ N - 2).flatMap fun v => (couplesOf .circular N v).map fun n => (v, n) with hl
  have mem : ∀ v n, v < N → v ≠ N - 1 → v ≠ N - 2 → n ∈ neighbors .circular N v → v < n → (v, n) ∈ l := by
    intro v n h1 h2 h3 h4 h5
    rw [hl, List.mem_flatMap]
    exact ⟨v, List.mem_filter.2 ⟨List.mem_range.2 h1, by simp [h2, h3]⟩, List.mem_map.2 ⟨n, couplesOf_mem _ N v n h1 h4 h5, rfl⟩⟩
  have chain : ∀ i, i ≤ N - 2 → Relation.EqvGen (fun a b => (a, b) ∈ l) 0 i := by
    intro i
    induction i with
    | zero => intro _; exact Relation.EqvGen.refl _
    | succ i ih =>
      intro h
      refine Relation.EqvGen.trans _ _ _ (ih (by omega)) (Relation.EqvGen.rel _ _ (mem i (i + 1) (by omega) (by omega) (by omega) ?_ (by omega)))
      rw [mem_circular (by omega)]; left; rw [if_neg (by omega)]
  intro i hi
  by_cases h : i ≤ N - 2
  · exact chain i h
  · refine Relation.EqvGen.rel _ _ (mem 0 i (by omega) (by omega) (by omega) ?_ (by omega))
    rw [mem_circular (by omega)]; right; rw [if_pos rfl]; omega

theorem full_connected (N : ℕ) : Connected (distributedCouples .full N) N := by
  intro i hi
  by_cases h : i = 0
  · subst h; exact Relation.EqvGen.refl _
  · refine Relation.EqvGen.rel _ _ ?_
    unfold distributedCouples
    rw [List.mem_flatMap]
    exact ⟨0, List.mem_range.2 (by omega), List.mem_map.2 ⟨i, couplesOf_mem _ N 0 i (by omega) (mem_full.2 ⟨hi, h⟩) (by omega), rfl⟩⟩

theorem distributed_circular_connected (N : ℕ) : Connected (distributedCouples .circular N) N := by
  intro i
  induction i with
  | zero => intro _; exact Relation.EqvGen.refl _
  | succ i ih =>
    intro hi
    refine Relation.EqvGen.trans _ _ _ (ih (by omega)) (Relation.EqvGen.rel _ _ ?_)
    unfold distributedCouples
    rw [List.mem_flatMap]
    refine ⟨i, List.mem_range.2 (by omega), List.mem_map.2 ⟨i + 1, couplesOf_mem _ N i _ (by omega) ?_ (by omega), rfl⟩⟩
    rw [mem_circular (by omega)]; left; rw [if_neg (by omega)]

section
variable {K : Type} [Field K] [LinearOrder K] [IsStrictOrderedRing K]

theorem imposedZero_val {e : Expr K} {lo hi : K} (h : ImposedZero e) (he : e.On lo hi) (hs : e.hasSpline) (τ : K) (h0 : lo ≤ τ) (h1 : τ ≤ hi) :
    e.val τ = 0 := by
  obtain ⟨v, hr, hv⟩ := h
  have hm := Expr.runs_means hr he
  obtain ⟨s, rfl⟩ := Expr.runs_spline hr hs
  obtain ⟨_, h2, _, _, h5⟩ := hm
  rw [← h5 τ h0 h1, BSpline.eval_eq h2]
  refine Finset.sum_eq_zero fun i hi => ?_
  have hi : i < s.coeffs.length := by rw [h2]; exact Finset.mem_range.1 hi
  rw [List.getD_eq_getElem _ _ hi, hv _ (List.getElem_mem _), zero_mul]

/-- Coupling constraints along couples that link all vehicles fix the configuration. -/
theorem coupled_config (couples : List (ℕ × ℕ)) (N n : ℕ) (lo hi : K) (spl : ℕ → ℕ → BSpline K) (cfg : ℕ → List K)
    (hon : ∀ i < N, ∀ k < n, (Expr.spl (spl i k)).On lo hi) (hcon : Connected couples N) (hlt : ∀ p ∈ couples, p.1 < N ∧ p.2 < N)
    (himp : CouplingImposed couples spl (fun i => (cfg i).map fun x => -x) n)
    (i j : ℕ) (hi' : i < N) (hj : j < N) (k : ℕ) (hk : k < n) (hki : k < (cfg i).length) (hkj : k < (cfg j).length)
    (τ : K) (h0 : lo ≤ τ) (h1 : τ ≤ hi) :
    (spl i k).eval τ - (spl j k).eval τ = (cfg i)[k] - (cfg j)[k] := by
  have hstep : ∀ a b, Relation.EqvGen (fun a b => (a, b) ∈ couples) a b →
      (centre (spl a) ((cfg a).map fun x => -x) k).val τ = (centre (spl b) ((cfg b).map fun x => -x) k).val τ := by
    intro a b h
    induction h with
    | rel a b hab =>
      have hz := himp (a, b) hab k hk
      have hl := hlt (a, b) hab
      have := imposedZero_val hz (lo := lo) (hi := hi) ⟨⟨hon a hl.1 k hk, trivial⟩, hon b hl.2 k hk, trivial⟩ (Or.inl (Or.inl trivial)) τ h0 h1
      have e : ∀ e f : Expr K, (e.sub f).val τ = e.val τ - f.val τ := fun e f => (sub_eq_add_neg _ _).symm
      rw [e] at this
      exact sub_eq_zero.1 this
    | refl a => rfl
    | symm a b _ ih => exact ih.symm
    | trans a b c _ _ ih1 ih2 => exact ih1.trans ih2
  have h2 := (hstep 0 i (hcon i hi')).symm.trans (hstep 0 j (hcon j hj))
  simp only [centre, Expr.val] at h2
  rw [List.getD_eq_getElem _ _ (by simpa using hki), List.getD_eq_getElem _ _ (by simpa using hkj), List.getElem_map, List.getElem_map] at h2
  linarith

/-! ## Properties -/

/-- **C21** (partial) In a fully connected fleet, and in a circular fleet of at least three vehicles: being neighbours is
symmetric, nobody is its own neighbour, no neighbour is listed twice, and all neighbours are vehicles of the fleet.
Missing: circular fleets of one and two vehicles, see `C21_one_violated`, `C21_two_violated`. -/
theorem C21_partial (kind : Interconnection) (N : ℕ) (hN : kind = .circular → 3 ≤ N) (i j : ℕ) (hi : i < N) (hj : j < N) :
    (j ∈ neighbors kind N i ↔ i ∈ neighbors kind N j) ∧ i ∉ neighbors kind N i ∧ (neighbors kind N i).Nodup ∧
    ∀ k ∈ neighbors kind N i, k < N := by
  refine ⟨⟨neighbors_symm hi hj, neighbors_symm hj hi⟩, ?_, ?_, fun k hk => neighbors_lt hi hk⟩
  · cases kind with
    | circular =>
      have := hN rfl
      rw [mem_circular hi]; split_ifs <;> omega
    | full => rw [mem_full]; exact fun h => h.2 rfl
  · cases kind with
    | circular =>
      have := hN rfl
      have h1 : (N + i + 1) % N ≠ (N + i - 1) % N := by
        rcases Nat.lt_or_ge (i + 1) N with h | h
        · rw [circ_succ h]
          rcases Nat.eq_zero_or_pos i with rfl | h0
          · rw [circ_first hi]; omega
          · rw [circ_pred hi h0]; omega
        · rw [circ_last (by omega), circ_pred hi (by omega)]; omega
      simp [neighbors, h1]
    | full => exact List.nodup_range.filter _

/-- **C21** Symmetry holds for every fleet. -/
theorem C21_symmetric (kind : Interconnection) (N i j : ℕ) (hi : i < N) (hj : j < N) :
    j ∈ neighbors kind N i ↔ i ∈ neighbors kind N j := ⟨neighbors_symm hi hj, neighbors_symm hj hi⟩

example : neighbors .circular 4 0 = [1, 3] ∧ neighbors .circular 4 3 = [0, 2] ∧ neighbors .full 3 1 = [0, 2] := by decide

/-- **C21** A circular fleet: the neighbours are exactly the next and the previous vehicle, where the
vehicle after the last one is the first, and the vehicle before the first one is the last. -/
theorem C21_circular (N i j : ℕ) (hi : i < N) :
    j ∈ neighbors .circular N i ↔
      j = (if i + 1 = N then 0 else i + 1) ∨ j = (if i = 0 then N - 1 else i - 1) := mem_circular hi

example : 0 ∈ neighbors .circular 5 4 ∧ 3 ∈ neighbors .circular 5 4 ∧ 2 ∉ neighbors .circular 5 4 := by
  decide

/-- A fully connected fleet: everybody else is a neighbour. -/
theorem C21_full (N i j : ℕ) : j ∈ neighbors .full N i ↔ j < N ∧ j ≠ i := mem_full

/-- The only vehicle of a circular fleet is its own neighbour. -/
theorem C21_one_violated : 0 ∈ neighbors .circular 1 0 := by decide

/-- In a circular fleet of two the other vehicle is listed twice. -/
theorem C21_two_violated : neighbors .circular 2 0 = [1, 1] ∧ neighbors .circular 2 1 = [0, 0] := by decide

theorem relPair_symm {a b : List (ℕ × K)} {r : List K} (h : relPair a b = some r) : relPair b a = some (r.map fun x => -x) := by
  unfold relPair at h ⊢
  split_ifs at h with hl
  rw [if_neg (fun e => hl e.symm)]
  simp only [Option.some.injEq] at h ⊢
  subst h
  generalize sortedVals a = u
  generalize sortedVals b = v
  induction u generalizing v with
  | nil => cases v <;> rfl
  | cons x u ih =>
    cases v with
    | nil => rfl
    | cons y v => simp [ih]

/-- The configuration and relative configuration that result from the user's input. -/
theorem setConfiguration_spec {kind : Interconnection} {N : ℕ} {c s : K} {cfgs : List (Config K)} {r : Configured K}
    (h : setConfiguration kind N c s cfgs = some r) :
    cfgs.length = N ∧ (∀ i (hi : i < cfgs.length), store c s cfgs[i] = some (r.conf.getD i [])) ∧
    ∀ i < N, ∀ j ∈ neighbors kind N i, ∃ x, relPair (r.conf.getD i []) (r.conf.getD j []) = some x ∧ r.relConfig i j = some x := by
  unfold setConfiguration at h
  split_ifs at h with hl
  have hl : cfgs.length = N := by simpa using hl
  cases hc : cfgs.mapM (store c s) with
  | none => rw [hc] at h; simp at h
  | some conf =>
    rw [hc] at h
    simp only at h
    cases hm : (List.range N).mapM (fun i => (neighbors kind N i).mapM fun j =>
        (relPair (conf.getD i []) (conf.getD j [])).map fun r => (j, r)) with
    | none => rw [hm] at h; simp at h
    | some rel =>
      rw [hm] at h
      simp only [Option.some.injEq] at h
      subst h
      refine ⟨hl, (mapM_getD _ [] _ _ hc).2, fun i hi j hj => ?_⟩
      have h1 := (mapM_getD _ [] _ _ hm).2 i (by simpa using hi)
      simp only [List.getElem_range] at h1
      have h2 := lookup_map_pair (fun j => relPair (conf.getD i []) (conf.getD j [])) _ _ h1 j hj
      have h3 := mapM_some_mem _ _ _ h1 j hj
      obtain ⟨x, hx⟩ := h3
      simp only [Option.map_eq_some_iff] at hx
      obtain ⟨y, hy, -⟩ := hx
      exact ⟨y, hy, by unfold Configured.relConfig; rw [h2]; exact hy⟩

/-- **C22** Relative configurations of neighbours are each other's negative. -/
theorem C22_antisymmetric (kind : Interconnection) (N : ℕ) (c s : K) (cfgs : List (Config K)) (r : Configured K)
    (h : setConfiguration kind N c s cfgs = some r) (i j : ℕ) (hi : i < N) (hj : j ∈ neighbors kind N i) :
    ∃ d, r.relConfig i j = some d ∧ r.relConfig j i = some (d.map fun x => -x) := by
  obtain ⟨-, -, hs⟩ := setConfiguration_spec h
  obtain ⟨x, hx, h1⟩ := hs i hi j hj
  have hjN := neighbors_lt hi hj
  obtain ⟨y, hy, h2⟩ := hs j hjN i (neighbors_symm hi hjN hj)
  rw [relPair_symm hx] at hy
  exact ⟨x, h1, by rw [h2, ← hy]⟩

theorem sortedVals_two (a b : K) : sortedVals [(0, a), (1, b)] = [a, b] := by
  have : ([(0, a), (1, b)] : List (ℕ × K)).mergeSort (fun x y => decide (x.1 ≤ y.1)) = [(0, a), (1, b)] := by
    refine List.mergeSort_of_pairwise ?_
    simp
  unfold sortedVals
  rw [this]; rfl

theorem sortedVals_enum (l : List K) : sortedVals ((List.range l.length).zip l) = l := by
  have : ((List.range l.length).zip l).mergeSort (fun x y => decide (x.1 ≤ y.1)) = (List.range l.length).zip l := by
    refine List.mergeSort_of_pairwise ?_
    rw [List.pairwise_iff_getElem]
    intro i j hi hj hij
    simp only [List.getElem_zip, List.getElem_range, decide_eq_true_eq]
    exact hij.le
  unfold sortedVals
  rw [this, List.map_snd_zip (by simp)]

/-- **C22** In the plane, the relative configuration is the difference of the given configurations, turned over minus the
orientation (`c`, `s` its cosine and sine); its length is the distance between the given configurations. -/
theorem C22_plane (kind : Interconnection) (N : ℕ) (c s : K) (hcs : c ^ 2 + s ^ 2 = 1) (cfg : ℕ → K × K) (r : Configured K)
    (h : setConfiguration kind N c s ((List.range N).map fun i => .list [(cfg i).1, (cfg i).2]) = some r)
    (i j : ℕ) (hi : i < N) (hj : j ∈ neighbors kind N i) :
    ∃ u v, r.relConfig i j = some [u, v] ∧
      u = ((cfg i).1 - (cfg j).1) * c - ((cfg i).2 - (cfg j).2) * s ∧ v = ((cfg i).1 - (cfg j).1) * s + ((cfg i).2 - (cfg j).2) * c ∧
      u ^ 2 + v ^ 2 = ((cfg i).1 - (cfg j).1) ^ 2 + ((cfg i).2 - (cfg j).2) ^ 2 := by
  obtain ⟨-, hst, hs⟩ := setConfiguration_spec h
  have key : ∀ k < N, r.conf.getD k [] = [(0, (cfg k).1 * c - (cfg k).2 * s), (1, (cfg k).1 * s + (cfg k).2 * c)] := by
    intro k hk
    have := hst k (by simpa using hk)
    simpa [store, Config.len, Config.get] using this.symm
  obtain ⟨x, hx, h1⟩ := hs i hi j hj
  rw [key i hi, key j (neighbors_lt hi hj)] at hx
  simp only [relPair, List.length_cons, List.length_nil, ne_eq, not_true_eq_false, if_false, sortedVals_two, List.zipWith_cons_cons,
    List.zipWith_nil_left, Option.some.injEq] at hx
  refine ⟨_, _, by rw [h1, ← hx], by ring, by ring, ?_⟩
  linear_combination (((cfg i).1 - (cfg j).1) ^ 2 + ((cfg i).2 - (cfg j).2) ^ 2) * hcs

/-- **C22** In other dimensions than two the orientation does not matter: the relative configuration is the difference. -/
theorem C22_space (kind : Interconnection) (N : ℕ) (c s : K) (cfg : ℕ → List K) (n : ℕ) (hn : n ≠ 2) (hlen : ∀ i, (cfg i).length = n) (r : Configured K)
    (h : setConfiguration kind N c s ((List.range N).map fun i => .list (cfg i)) = some r)
    (i j : ℕ) (hi : i < N) (hj : j ∈ neighbors kind N i) :
    r.relConfig i j = some (List.zipWith (· - ·) (cfg i) (cfg j)) := by
  obtain ⟨-, hst, hs⟩ := setConfiguration_spec h
  have key : ∀ k < N, r.conf.getD k [] = (List.range (cfg k).length).zip (cfg k) := by
    intro k hk
    have := hst k (by simpa using hk)
    simp only [List.getElem_map, List.getElem_range, store, Config.len, hlen, if_neg hn, Option.some.injEq] at this
    rw [← this, hlen]
  obtain ⟨x, hx, h1⟩ := hs i hi j hj
  rw [key i hi, key j (neighbors_lt hi hj)] at hx
  unfold relPair at hx
  rw [if_neg (by simp [hlen]), sortedVals_enum, sortedVals_enum] at hx
  rw [h1, hx]

/-- Every list of configurations of equal length is accepted. -/
theorem C22_accepts (kind : Interconnection) (N : ℕ) (c s : K) (cfg : ℕ → List K) (n : ℕ) (hlen : ∀ i, (cfg i).length = n) :
    ∃ r, setConfiguration kind N c s ((List.range N).map fun i => .list (cfg i)) = some r := by
  have hst : ∀ i, ∃ d, store c s (.list (cfg i)) = some d ∧ d.length = n := by
    intro i
    unfold store
    by_cases h2 : n = 2
    · subst h2
      obtain ⟨x, y, hxy⟩ := List.length_eq_two.1 (hlen i)
      simp [Config.len, Config.get, hxy]
    · rw [if_neg (by simpa [Config.len, hlen] using h2)]
      exact ⟨_, rfl, by simp [hlen]⟩
  unfold setConfiguration
  rw [if_neg (by simp)]
  have hm : ∃ conf, ((List.range N).map fun i => Config.list (cfg i)).mapM (store c s) = some conf := by
    rw [List.mapM_map]
    exact mapM_exists _ _ fun i _ => ⟨_, (hst i).choose_spec.1⟩
  obtain ⟨conf, hconf⟩ := hm
  obtain ⟨hl, hg⟩ := mapM_getD _ [] _ _ hconf
  rw [hconf]
  have hcl : ∀ k < N, (conf.getD k []).length = n := by
    intro k hk
    have := hg k (by simpa using hk)
    simp only [List.getElem_map, List.getElem_range] at this
    obtain ⟨d, hd, hdn⟩ := hst k
    rw [hd] at this
    rw [← Option.some.inj this, hdn]
  have hrel : ∃ rel, (List.range N).mapM (fun i => (neighbors kind N i).mapM fun j =>
      (relPair (conf.getD i []) (conf.getD j [])).map fun r => (j, r)) = some rel := by
    refine mapM_exists _ _ fun i hi => mapM_exists _ _ fun j hj => ?_
    have hi := List.mem_range.1 hi
    unfold relPair
    rw [if_neg (by rw [hcl i hi, hcl j (neighbors_lt hi hj)]; simp)]
    exact ⟨_, rfl⟩
  obtain ⟨rel, hrel⟩ := hrel
  exact ⟨⟨conf, rel⟩, by simp only [hrel]⟩

/-- Three vehicles on a triangle, turned by a rotation with cosine 3/5. -/
example : ∃ r : Configured ℚ, setConfiguration .circular 3 (3 / 5) (4 / 5) [.list [5, 0], .list [0, 5], .list [0, 0]] = some r ∧
    r.relConfig 0 1 = some [7, 1] ∧ r.relConfig 1 0 = some [-7, -1] := by
  obtain ⟨r, hr⟩ := C22_accepts .circular 3 (3 / 5 : ℚ) (4 / 5) (fun i => if i = 0 then [5, 0] else if i = 1 then [0, 5] else [0, 0]) 2
    (by intro i; split_ifs <;> rfl)
  have e : (List.range 3).map (fun i : ℕ => Config.list (if i = 0 then [5, 0] else if i = 1 then [0, 5] else [(0 : ℚ), 0]))
      = [.list [5, 0], .list [0, 5], .list [0, 0]] := by simp [List.range_succ]
  rw [e] at hr
  have e' : (List.range 3).map (fun i : ℕ => Config.list [(if i = 0 then (5, 0) else if i = 1 then (0, 5) else ((0 : ℚ), (0 : ℚ))).1,
      (if i = 0 then (5, 0) else if i = 1 then (0, 5) else ((0 : ℚ), (0 : ℚ))).2]) = [.list [5, 0], .list [0, 5], .list [0, 0]] := by
    simp [List.range_succ]
  obtain ⟨u, v, h1, hu, hv, -⟩ := C22_plane .circular 3 (3 / 5 : ℚ) (4 / 5) (by norm_num)
    (fun i => if i = 0 then (5, 0) else if i = 1 then (0, 5) else (0, 0)) r (by rw [e']; exact hr) 0 1 (by norm_num) (by decide)
  obtain ⟨d, h2, h3⟩ := C22_antisymmetric _ _ _ _ _ r hr 0 1 (by norm_num) (by decide)
  norm_num at hu hv
  subst hu hv
  rw [h1] at h2
  obtain rfl := Option.some.inj h2
  exact ⟨r, hr, h1, by rw [h3]; norm_num⟩

/-- A dict with two entries under other keys than 0 and 1 raises, although the keys of the user are meant to select the
coordinates. -/
theorem C22_dict_violated : setConfiguration .full 2 (1 : ℚ) 0 [.dict [(1, 1), (2, 0)], .dict [(1, 0), (2, 1)]] = none := by
  rfl

/-- What is stored for a planar configuration. -/
theorem conf_plane {kind : Interconnection} {N : ℕ} {c s : K} {cfg : ℕ → K × K} {r : Configured K}
    (h : setConfiguration kind N c s ((List.range N).map fun i => .list [(cfg i).1, (cfg i).2]) = some r) (i : ℕ) (hi : i < N) :
    sortedVals (r.conf.getD i []) = [(cfg i).1 * c - (cfg i).2 * s, (cfg i).1 * s + (cfg i).2 * c] := by
  obtain ⟨-, hst, -⟩ := setConfiguration_spec h
  have := hst i (by simpa using hi)
  have : r.conf.getD i [] = [(0, (cfg i).1 * c - (cfg i).2 * s), (1, (cfg i).1 * s + (cfg i).2 * c)] := by
    simpa [store, Config.len, Config.get] using this.symm
  rw [this, sortedVals_two]

/-- Two stored planar configurations differ by the turned difference of the positions the user gave. -/
theorem conf_plane_sub {kind : Interconnection} {N : ℕ} {c s : K} {cfg : ℕ → K × K} {r : Configured K}
    (h : setConfiguration kind N c s ((List.range N).map fun i => .list [(cfg i).1, (cfg i).2]) = some r) {i j : ℕ} (hi : i < N) (hj : j < N)
    (x y : ℕ → K)
    (hx : ∀ (hki : 0 < (sortedVals (r.conf.getD i [])).length) (hkj : 0 < (sortedVals (r.conf.getD j [])).length),
      x i - x j = (sortedVals (r.conf.getD i []))[0] - (sortedVals (r.conf.getD j []))[0])
    (hy : ∀ (hki : 1 < (sortedVals (r.conf.getD i [])).length) (hkj : 1 < (sortedVals (r.conf.getD j [])).length),
      y i - y j = (sortedVals (r.conf.getD i []))[1] - (sortedVals (r.conf.getD j []))[1]) :
    x i - x j = ((cfg i).1 - (cfg j).1) * c - ((cfg i).2 - (cfg j).2) * s ∧
      y i - y j = ((cfg i).1 - (cfg j).1) * s + ((cfg i).2 - (cfg j).2) * c := by
  simp only [conf_plane h i hi, conf_plane h j hj, List.getElem_cons_zero, List.getElem_cons_succ, List.length_cons, List.length_nil] at hx hy
  rw [hx (by norm_num) (by norm_num), hy (by norm_num) (by norm_num)]
  exact ⟨by ring, by ring⟩

/-- **C23** (partial) In a centralised formation problem with a fully connected fleet, or a circular fleet of at least three vehicles: if the
coupling constraints hold, then at every instant of the horizon the vehicles are in the configuration the user asked for, that is,
all see the same formation centre.  `spl i k` is coordinate `k` of vehicle `i`, and `rel i` the negative of its configuration.
Missing: circular fleets of one and two vehicles, see `C23_two_violated`, `C23_one_violated`. -/
theorem C23_partial (kind : Interconnection) (N : ℕ) (hN : kind = .circular → 3 ≤ N) (n : ℕ) (lo hi : K)
    (spl : ℕ → ℕ → BSpline K) (cfg : ℕ → List K) (hon : ∀ i < N, ∀ k < n, (Expr.spl (spl i k)).On lo hi)
    (couples : List (ℕ × ℕ)) (hc : centralCouples kind N = some couples)
    (himp : CouplingImposed couples spl (fun i => (cfg i).map fun x => -x) n)
    (i j : ℕ) (hi' : i < N) (hj : j < N) (k : ℕ) (hk : k < n) (hki : k < (cfg i).length) (hkj : k < (cfg j).length)
    (τ : K) (h0 : lo ≤ τ) (h1 : τ ≤ hi) :
    (spl i k).eval τ - (spl j k).eval τ = (cfg i)[k] - (cfg j)[k] := by
  have hcon : Connected couples N := by
    cases kind with
    | circular =>
      obtain ⟨l, hl, h⟩ := central_circular_connected N (hN rfl)
      rw [hl] at hc
      obtain rfl := Option.some.inj hc
      exact h
    | full =>
      have := full_connected N
      have e : centralCouples .full N = some (distributedCouples .full N) := rfl
      rw [e] at hc
      obtain rfl := Option.some.inj hc
      exact this
  have hlt : ∀ p ∈ couples, p.1 < N ∧ p.2 < N := by
    intro p hp
    have : p.1 < N ∧ p.2 ∈ couplesOf kind N p.1 := by
      cases kind with
      | circular =>
        unfold centralCouples at hc
        simp only at hc
        split_ifs at hc
        obtain rfl := Option.some.inj hc
        rw [List.mem_flatMap] at hp
        obtain ⟨v, hv, hp⟩ := hp
        obtain ⟨m, hm, rfl⟩ := List.mem_map.1 hp
        exact ⟨List.mem_range.1 (List.mem_filter.1 hv).1, hm⟩
      | full =>
        unfold centralCouples at hc
        obtain rfl := Option.some.inj hc
        rw [List.mem_flatMap] at hp
        obtain ⟨v, hv, hp⟩ := hp
        obtain ⟨m, hm, rfl⟩ := List.mem_map.1 hp
        exact ⟨List.mem_range.1 hv, hm⟩
    exact ⟨this.1, neighbors_lt this.1 (couplesOf_sub _ _ _ _ this.2).2⟩
  exact coupled_config couples N n lo hi spl cfg hon hcon hlt himp i j hi' hj k hk hki hkj τ h0 h1

/-- **C23** (partial) The same from the configuration given to `set_configuration`: planar vehicles in a centralised formation are,
at every instant, in the configuration the user gave, turned over the orientation of the fleet (`c`, `s` its cosine and sine). -/
theorem C23_plane_partial (kind : Interconnection) (N : ℕ) (hN : kind = .circular → 3 ≤ N) (lo hi c s : K)
    (cfg : ℕ → K × K) (r : Configured K)
    (h : setConfiguration kind N c s ((List.range N).map fun i => .list [(cfg i).1, (cfg i).2]) = some r)
    (spl : ℕ → ℕ → BSpline K) (hon : ∀ i < N, ∀ k < 2, (Expr.spl (spl i k)).On lo hi)
    (couples : List (ℕ × ℕ)) (hc : centralCouples kind N = some couples)
    (himp : CouplingImposed couples spl r.relPosC 2) (i j : ℕ) (hi' : i < N) (hj : j < N) (τ : K) (h0 : lo ≤ τ) (h1 : τ ≤ hi) :
    (spl i 0).eval τ - (spl j 0).eval τ = ((cfg i).1 - (cfg j).1) * c - ((cfg i).2 - (cfg j).2) * s ∧
      (spl i 1).eval τ - (spl j 1).eval τ = ((cfg i).1 - (cfg j).1) * s + ((cfg i).2 - (cfg j).2) * c :=
  conf_plane_sub h hi' hj (fun i => (spl i 0).eval τ) (fun i => (spl i 1).eval τ)
    (fun a b => C23_partial kind N hN 2 lo hi spl (fun i => sortedVals (r.conf.getD i [])) hon couples hc himp i j hi' hj 0 (by norm_num) a b τ h0 h1)
    (fun a b => C23_partial kind N hN 2 lo hi spl (fun i => sortedVals (r.conf.getD i [])) hon couples hc himp i j hi' hj 1 (by norm_num) a b τ h0 h1)

end

/-- In a circular fleet of two no coupling constraint is left: any two trajectories are accepted. -/
theorem C23_two_violated : centralCouples .circular 2 = some [] ∧
    ∀ (spl : ℕ → ℕ → BSpline ℚ) (rel : ℕ → List ℚ) (n : ℕ), CouplingImposed [] spl rel n :=
  ⟨by decide, fun _ _ _ _ h => absurd h (List.not_mem_nil)⟩

/-- A circular fleet of one vehicle raises. -/
theorem C23_one_violated : centralCouples .circular 1 = none := by decide

/-- **C60** In the distributed formation and rendez-vous problems the constraints link all vehicles, for every fleet, and each
couple is a couple of neighbours. -/
theorem C60_linked (kind : Interconnection) (N : ℕ) : Connected (distributedCouples kind N) N ∧
    ∀ p ∈ distributedCouples kind N, p.1 < N ∧ p.2 ∈ neighbors kind N p.1 := by
  refine ⟨?_, ?_⟩
  · cases kind with
    | circular => exact distributed_circular_connected N
    | full => exact full_connected N
  · intro p hp
    unfold distributedCouples at hp
    rw [List.mem_flatMap] at hp
    obtain ⟨v, hv, hp⟩ := hp
    obtain ⟨m, hm, rfl⟩ := List.mem_map.1 hp
    exact couplesOf_sub _ _ _ _ hm

/-- **C60** Trajectories that satisfy the constraints of the distributed formation problem are in the configuration the user
asked for at every instant, for every fleet. -/
theorem C60_formation {K : Type} [Field K] [LinearOrder K] [IsStrictOrderedRing K] (kind : Interconnection) (N n : ℕ) (lo hi : K)
    (spl : ℕ → ℕ → BSpline K) (cfg : ℕ → List K) (hon : ∀ i < N, ∀ k < n, (Expr.spl (spl i k)).On lo hi)
    (himp : CouplingImposed (distributedCouples kind N) spl (fun i => (cfg i).map fun x => -x) n)
    (i j : ℕ) (hi' : i < N) (hj : j < N) (k : ℕ) (hk : k < n) (hki : k < (cfg i).length) (hkj : k < (cfg j).length)
    (τ : K) (h0 : lo ≤ τ) (h1 : τ ≤ hi) :
    (spl i k).eval τ - (spl j k).eval τ = (cfg i)[k] - (cfg j)[k] :=
  coupled_config _ N n lo hi spl cfg hon (C60_linked kind N).1
    (fun p hp => ⟨((C60_linked kind N).2 p hp).1, neighbors_lt ((C60_linked kind N).2 p hp).1 ((C60_linked kind N).2 p hp).2⟩)
    himp i j hi' hj k hk hki hkj τ h0 h1

/-- **C60** The same from the configuration given to `set_configuration`: planar vehicles in a distributed formation are,
at every instant, in the configuration the user gave, turned over the orientation of the fleet (`c`, `s` its cosine and sine). -/
theorem C60_plane {K : Type} [Field K] [LinearOrder K] [IsStrictOrderedRing K] (kind : Interconnection) (N : ℕ) (lo hi c s : K)
    (cfg : ℕ → K × K) (r : Configured K)
    (h : setConfiguration kind N c s ((List.range N).map fun i => .list [(cfg i).1, (cfg i).2]) = some r)
    (spl : ℕ → ℕ → BSpline K) (hon : ∀ i < N, ∀ k < 2, (Expr.spl (spl i k)).On lo hi)
    (himp : CouplingImposed (distributedCouples kind N) spl r.relPosC 2) (i j : ℕ) (hi' : i < N) (hj : j < N) (τ : K) (h0 : lo ≤ τ) (h1 : τ ≤ hi) :
    (spl i 0).eval τ - (spl j 0).eval τ = ((cfg i).1 - (cfg j).1) * c - ((cfg i).2 - (cfg j).2) * s ∧
      (spl i 1).eval τ - (spl j 1).eval τ = ((cfg i).1 - (cfg j).1) * s + ((cfg i).2 - (cfg j).2) * c :=
  conf_plane_sub h hi' hj (fun i => (spl i 0).eval τ) (fun i => (spl i 1).eval τ)
    (fun a b => C60_formation kind N 2 lo hi spl (fun i => sortedVals (r.conf.getD i [])) hon himp i j hi' hj 0 (by norm_num) a b τ h0 h1)
    (fun a b => C60_formation kind N 2 lo hi spl (fun i => sortedVals (r.conf.getD i [])) hon himp i j hi' hj 1 (by norm_num) a b τ h0 h1)

example : centralCouples .circular 5 = some [(0, 1), (0, 4), (1, 2), (2, 3)] ∧ centralCouples .full 3 = some [(0, 1), (0, 2), (1, 2)] := by
  decide

/-! ### A concrete formation -/

/-- A constraint over polynomial splines whose value vanishes is satisfied. -/
theorem allBz_zero {e : Expr ℝ} (h : e.AllBz) {D : ℕ} (hd : e.bdeg = some D) (hD : D ≤ 250)
    (hv : ∀ x, 0 ≤ x → x ≤ 1 → e.val x = 0) : ImposedZero e := by
  obtain ⟨s, hs, hb⟩ := (h.runs).2 D hd hD
  refine ⟨_, hs, ?_⟩
  obtain ⟨g1, g2, g3, g4, g5⟩ := Expr.runs_means hs h.on
  intro a ha
  obtain ⟨i, hi, rfl⟩ := List.getElem_of_mem ha
  have hi' : i < (Bz D).len := by rw [← hb, ← g2]; exact hi
  have := Bz_regular hD (fun i => s.coeffs.getD i 0) (fun x hx => ?_) i hi'
  · rwa [List.getD_eq_getElem _ _ hi] at this
  · have hx' := xmax_mem (Bz_clamped D) hx
    rw [Bz_len, Bz_k, Bz_k, if_pos (Nat.zero_le _), if_neg (by omega)] at hx'
    have e1 := g5 x hx'.1 hx'.2
    rw [hv x hx'.1 hx'.2, BSpline.eval_eq g2, hb] at e1
    exact e1

/-- Three vehicles move along a line, one unit apart. -/
noncomputable def convoy (i _k : ℕ) : BSpline ℝ := ⟨Bz 2, [(i : ℝ), i + 1, i + 5]⟩

example (τ : ℝ) (h0 : 0 ≤ τ) (h1 : τ ≤ 1) : (convoy 2 0).eval τ - (convoy 1 0).eval τ = 1 := by
  have hv : ∀ i x, 0 ≤ x → x ≤ 1 → (convoy i 0).eval x = i + (2 * x * (1 - x) + 5 * x ^ 2) := by
    intro i x h0 h1
    unfold convoy
    rw [Bz_eval rfl h0 h1]
    simp [Finset.sum_range_succ, bern]
    ring
  have := C23_partial (K := ℝ) .circular 3 (fun _ => le_rfl) 1 0 1 convoy (fun i => [(i : ℝ)]) (fun i _ k _ => Bz_on rfl) [(0, 1), (0, 2)]
    (by decide) ?_ 2 1 (by norm_num) (by norm_num) 0 (by norm_num) (by simp) (by simp) τ h0 h1
  · rw [this]; norm_num
  · intro p _ k hk
    obtain rfl : k = 0 := by omega
    refine allBz_zero (D := 2) ⟨⟨⟨rfl, rfl⟩, trivial⟩, ⟨rfl, rfl⟩, trivial⟩ rfl (by norm_num) fun x h0 h1 => ?_
    simp only [centre, Expr.sub, Expr.val, hv _ x h0 h1]
    simp only [List.map_cons, List.map_nil, List.getD_cons_zero]
    ring

/-! ### Rendez-vous: when to stop -/

/-- `RendezVous.stop_criterium`, rendezvous.py:72-86: `pos v` is the list of current coordinates of vehicle `v`, `rel v n` the
relative configuration of neighbours, `n` the number of coordinates. -/
noncomputable def rendezvousRes (kind : Interconnection) (N n : ℕ) (pos : ℕ → ℕ → ℝ) (rel : ℕ → ℕ → ℕ → ℝ) : ℝ :=
  ((List.range N).map fun v => ((neighbors kind N v).map fun m =>
    ((List.range n).map fun k => |pos v k - pos m k - rel v m k| ^ 2).sum).sum).sum

noncomputable def rendezvousStop (kind : Interconnection) (N n : ℕ) (pos : ℕ → ℕ → ℝ) (rel : ℕ → ℕ → ℕ → ℝ) : Bool :=
  if √(rendezvousRes kind N n pos rel) > 5 / 100 then false else true

theorem le_sum_of_mem {l : List ℕ} {f : ℕ → ℝ} (hf : ∀ x ∈ l, 0 ≤ f x) {a : ℕ} (ha : a ∈ l) : f a ≤ (l.map f).sum := by
  induction l with
  | nil => simp at ha
  | cons b l ih =>
    rw [List.map_cons, List.sum_cons]
    have h0 : 0 ≤ (l.map f).sum := List.sum_nonneg (by
      intro x hx; obtain ⟨y, hy, rfl⟩ := List.mem_map.1 hx; exact hf y (List.mem_cons_of_mem _ hy))
    have hb := hf b List.mem_cons_self
    rcases List.mem_cons.1 ha with rfl | ha
    · linarith
    · have := ih (fun x hx => hf x (List.mem_cons_of_mem _ hx)) ha; linarith

/-- **C60** When the rendez-vous stops, neighbours are within 5 cm of the configuration asked for, and vehicles that are
exactly in that configuration do stop. -/
theorem C60_rendezvous (kind : Interconnection) (N n : ℕ) (pos : ℕ → ℕ → ℝ) (rel : ℕ → ℕ → ℕ → ℝ) :
    (rendezvousStop kind N n pos rel = true → ∀ v < N, ∀ m ∈ neighbors kind N v, ∀ k < n, |pos v k - pos m k - rel v m k| ≤ 5 / 100) ∧
    ((∀ v < N, ∀ m ∈ neighbors kind N v, ∀ k < n, pos v k - pos m k = rel v m k) → rendezvousStop kind N n pos rel = true) := by
  refine ⟨fun h v hv m hm k hk => ?_, fun h => ?_⟩
  · unfold rendezvousStop at h
    split_ifs at h with hs
    have hs : √(rendezvousRes kind N n pos rel) ≤ 5 / 100 := not_lt.1 hs
    have n3 : ∀ v m, 0 ≤ ((List.range n).map fun k => |pos v k - pos m k - rel v m k| ^ 2).sum := fun v m => List.sum_nonneg (by
      intro x hx; obtain ⟨y, hy, rfl⟩ := List.mem_map.1 hx; positivity)
    have n2 : ∀ v, 0 ≤ ((neighbors kind N v).map fun m => ((List.range n).map fun k => |pos v k - pos m k - rel v m k| ^ 2).sum).sum :=
      fun v => List.sum_nonneg (by intro x hx; obtain ⟨y, hy, rfl⟩ := List.mem_map.1 hx; exact n3 v y)
    have l1 := le_sum_of_mem (f := fun k => |pos v k - pos m k - rel v m k| ^ 2) (fun _ _ => by positivity) (List.mem_range.2 hk)
    have l2 := le_sum_of_mem (f := fun m => ((List.range n).map fun k => |pos v k - pos m k - rel v m k| ^ 2).sum) (fun x _ => n3 v x) hm
    have l3 := le_sum_of_mem (f := fun v => ((neighbors kind N v).map fun m => ((List.range n).map fun k => |pos v k - pos m k - rel v m k| ^ 2).sum).sum)
      (fun x _ => n2 x) (List.mem_range.2 hv)
    have l4 : |pos v k - pos m k - rel v m k| ^ 2 ≤ rendezvousRes kind N n pos rel := l1.trans (l2.trans l3)
    exact (Real.le_sqrt (abs_nonneg _) ((sq_nonneg _).trans l4)).2 l4 |>.trans hs
  · have : rendezvousRes kind N n pos rel = 0 := by
      unfold rendezvousRes
      refine List.sum_eq_zero fun x hx => ?_
      obtain ⟨v, hv, rfl⟩ := List.mem_map.1 hx
      refine List.sum_eq_zero fun x hx => ?_
      obtain ⟨m, hm, rfl⟩ := List.mem_map.1 hx
      refine List.sum_eq_zero fun x hx => ?_
      obtain ⟨k, hk, rfl⟩ := List.mem_map.1 hx
      rw [h v (List.mem_range.1 hv) m hm k (List.mem_range.1 hk)]; simp
    unfold rendezvousStop
    rw [this]; norm_num

/-- Three vehicles in a line, exactly in place. -/
example : rendezvousStop .circular 3 1 (fun v _ => v) (fun v m _ => (v : ℝ) - m) = true :=
  (C60_rendezvous _ _ _ _ _).2 fun _ _ _ _ _ _ => rfl

end Verif.Fleet
