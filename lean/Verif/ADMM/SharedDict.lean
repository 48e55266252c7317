import Mathlib.Data.List.Nodup
import Mathlib.Data.List.Basic
import Mathlib.Data.List.Infix
import Mathlib.Tactic.NormNum

/-! # What neighbours share, moved to the new knots (C197) -/

set_option linter.unusedSectionVars false

namespace Verif.ADMM.SharedDict

variable {V : Type}

/-! ## Model -/

/-- Which variables are shared, per neighbour, of which of its objects: the dictionaries `q_ij` and `q_ji` (distributedproblem.py:146-162), with labels for
the objects. -/
abbrev Own := List (String × List String)
abbrev Layout := List (String × Own)

/-- A Python dictionary, in the order of insertion. -/
abbrev Dict (A : Type) := List (String × A)

/-- `d[k] = a`. -/
def put {A : Type} (d : Dict A) (k : String) (a : A) : Dict A :=
  if k ∈ d.map Prod.fst then d.map fun e => if e.1 = k then (k, a) else e else d ++ [(k, a)]

/-- A CasADi struct with three-part keys: an assignment to a key that it does not have raises (`none`), and so does reading it. -/
abbrev Struct (V : Type) := List ((String × String × String) × V)

def Struct.get (s : Struct V) (k : String × String × String) : Option V := s.lookup k
def Struct.set (s : Struct V) (k : String × String × String) (v : V) : Option (Struct V) :=
  if k ∈ s.map Prod.fst then some (s.map fun e => if e.1 = k then (k, v) else e) else none

/-- The keys of the struct of a layout, dualmethod.py:27-38. -/
def keys (l : Layout) : List (String × String × String) := l.flatMap fun n => n.2.flatMap fun c => c.2.map fun x => (n.1, c.1, x)

/-- `_struct2dict` for neighbours, dualmethod.py:83-97. An empty layout raises (`list(dic.keys())[0]`). -/
def toDict (s : Struct V) (l : Layout) : Option (Dict (Dict (Dict V))) :=
  if l = [] then none
  else l.foldlM (fun ret n => do
    let inner ← n.2.foldlM (fun r c => do
      let e ← c.2.foldlM (fun q x => do
        let v ← s.get (n.1, c.1, x)
        some (put q x v)) []
      some (put r c.1 e)) []
    some (put ret n.1 inner)) []

/-- `_transform_spline` for neighbours, dualmethod.py:159-178, on dictionaries: `t` is what happens to one variable. `var[..][..][sl] = v` writes in place. An
empty inner layout raises. -/
def transform (t : String → String → String → V → V) (d : Dict (Dict (Dict V))) (l : Layout) : Option (Dict (Dict (Dict V))) :=
  if l = [] then none
  else l.foldlM (fun ret n => do
    let d1 ← d.lookup n.1
    if n.2 = [] then none
    else
      let d1' ← n.2.foldlM (fun (r : Dict (Dict V)) c => c.2.foldlM (fun (r : Dict (Dict V)) x => do
        let e ← r.lookup c.1
        let v ← e.lookup x
        some (put r c.1 (put e x (t n.1 c.1 x v)))) r) d1
      some (put ret n.1 d1')) []

/-- `'dd' in label or 'admm' in label`, dualmethod.py:109. -/
def marked (label : String) : Bool := decide (['d', 'd'] <:+: label.toList) || decide (['a', 'd', 'm', 'm'] <:+: label.toList)

/-- `_dict2struct`, dualmethod.py:106-121, for a struct of numbers that is zero at first. If the first label has no mark, the dictionary is taken for one of two
levels, which raises. -/
def toStruct (zero : V) (d : Dict (Dict (Dict V))) (l : Layout) : Option (Struct V) :=
  match d with
  | [] => none
  | n0 :: _ =>
    if marked n0.1 then
      (d.flatMap fun n => n.2.flatMap fun c => c.2.map fun x => ((n.1, c.1, x.1), x.2)).foldlM (fun s e => s.set e.1 e.2) ((keys l).map fun k => (k, zero))
    else none

/-- `_transform_spline` of a struct, dualmethod.py:154-157. -/
def move (zero : V) (t : String → String → String → V → V) (s : Struct V) (l : Layout) : Option (Struct V) := do
  let d ← toDict s l
  let d' ← transform t d l
  toStruct zero d' l

/-! ## Specification -/

/-- Labels and names are not used twice. -/
structure Spec.Distinct (l : Layout) : Prop where
  neighbours : (l.map Prod.fst).Nodup
  children : ∀ n ∈ l, (n.2.map Prod.fst).Nodup
  names : ∀ n ∈ l, ∀ c ∈ n.2, c.2.Nodup

/-! ## Lemmas -/

theorem put_new {A : Type} (d : Dict A) (k : String) (a : A) (h : k ∉ d.map Prod.fst) : put d k a = d ++ [(k, a)] := by
  unfold put
  rw [if_neg h]

/-- Filling a dictionary with distinct keys. -/
theorem foldlM_put {A B : Type} (key : B → String) (f : B → Option A) (g : B → A) (l : List B) (h : (l.map key).Nodup) (hf : ∀ b ∈ l, f b = some (g b)) :
    ∀ d : Dict A, (∀ b ∈ l, key b ∉ d.map Prod.fst) →
      l.foldlM (fun r b => do let a ← f b; some (put r (key b) a)) d = some (d ++ l.map fun b => (key b, g b)) := by
  induction l with
  | nil => intro d _; simp
  | cons b l ih =>
    intro d hd
    rw [List.map_cons, List.nodup_cons] at h
    rw [List.foldlM_cons, hf b (by simp)]
    simp only [Option.bind_eq_bind, Option.bind_some]
    rw [put_new _ _ _ (hd b (by simp))]
    have := ih h.2 (fun c hc => hf c (by simp [hc])) (d ++ [(key b, g b)]) (by
      intro c hc hm
      rw [List.map_append, List.mem_append] at hm
      rcases hm with hm | hm
      · exact hd c (by simp [hc]) hm
      · simp only [List.map_cons, List.map_nil, List.mem_singleton] at hm
        exact h.1 (hm ▸ List.mem_map_of_mem hc))
    simp only [Option.bind_eq_bind] at this
    rw [this]
    simp

/-- The dictionary of all values. -/
def full (f : String → String → String → V) (l : Layout) : Dict (Dict (Dict V)) :=
  l.map fun n => (n.1, n.2.map fun c => (c.1, c.2.map fun x => (x, f n.1 c.1 x)))

theorem toDict_full (s : Struct V) (f : String → String → String → V) (l : Layout) (hl : l ≠ []) (hd : Spec.Distinct l)
    (hs : ∀ k ∈ keys l, s.get k = some (f k.1 k.2.1 k.2.2)) : toDict s l = some (full f l) := by
  unfold toDict
  rw [if_neg hl]
  have h1 : ∀ n ∈ l, ∀ c ∈ n.2, c.2.foldlM (fun q x => do let v ← s.get (n.1, c.1, x); some (put q x v)) [] = some (c.2.map fun x => (x, f n.1 c.1 x)) := by
    intro n hn c hc
    have := foldlM_put id (fun x => s.get (n.1, c.1, x)) (fun x => f n.1 c.1 x) c.2 (by simpa using hd.names n hn c hc) (fun x hx => hs (n.1, c.1, x) (by
      simp only [keys, List.mem_flatMap, List.mem_map]
      exact ⟨n, hn, c, hc, x, hx, rfl⟩)) [] (by simp)
    simpa using this
  have h2 : ∀ n ∈ l, n.2.foldlM (fun r c => do
      let e ← c.2.foldlM (fun q x => do let v ← s.get (n.1, c.1, x); some (put q x v)) []
      some (put r c.1 e)) [] = some (n.2.map fun c => (c.1, c.2.map fun x => (x, f n.1 c.1 x))) := by
    intro n hn
    have := foldlM_put Prod.fst (fun c : String × List String => c.2.foldlM (fun q x => do let v ← s.get (n.1, c.1, x); some (put q x v)) [])
      (fun c => c.2.map fun x => (x, f n.1 c.1 x)) n.2 (hd.children n hn) (fun c hc => h1 n hn c hc) [] (by simp)
    simpa using this
  have := foldlM_put Prod.fst (fun n : String × Own => n.2.foldlM (fun r c => do
      let e ← c.2.foldlM (fun q x => do let v ← s.get (n.1, c.1, x); some (put q x v)) []
      some (put r c.1 e)) []) (fun n => n.2.map fun c => (c.1, c.2.map fun x => (x, f n.1 c.1 x))) l hd.neighbours (fun n hn => h2 n hn) [] (by simp)
  rw [List.nil_append] at this
  exact this

theorem lookup_map {A B : Type} (key : B → String) (g : B → A) (l : List B) (h : (l.map key).Nodup) (b : B) (hb : b ∈ l) :
    (l.map fun b => (key b, g b)).lookup (key b) = some (g b) := by
  induction l with
  | nil => cases hb
  | cons c l ih =>
    rw [List.map_cons, List.nodup_cons] at h
    rw [List.map_cons, List.lookup_cons]
    by_cases e : key b = key c
    · rcases List.mem_cons.1 hb with rfl | hb
      · simp
      · exact absurd (e ▸ List.mem_map_of_mem hb) h.1
    · rcases List.mem_cons.1 hb with rfl | hb
      · exact absurd rfl e
      · have : (key b == key c) = false := by simpa using e
        rw [this]
        exact ih h.2 hb

theorem put_map {A B : Type} (key : B → String) (g : B → A) (l : List B) (k : String) (a : A) (hk : k ∈ l.map key) :
    put (l.map fun b => (key b, g b)) k a = l.map fun b => (key b, if key b = k then a else g b) := by
  unfold put
  rw [if_pos (by simpa [List.map_map, Function.comp_def] using hk), List.map_map]
  refine List.map_congr_left fun b _ => ?_
  by_cases e : key b = k
  · simp [e]
  · simp [e]

/-- The dictionary of the variables of the objects of one neighbour. -/
def inner (own : Own) (F : String → String → V) : Dict (Dict V) := own.map fun c => (c.1, c.2.map fun x => (x, F c.1 x))

/-- One variable is replaced in place. -/
theorem inner_put (own : Own) (hc : (own.map Prod.fst).Nodup) (F : String → String → V) (c : String × List String) (hm : c ∈ own) (x : String) (hx : x ∈ c.2)
    (v : V) : put (inner own F) c.1 (put (c.2.map fun x => (x, F c.1 x)) x v) = inner own fun c' x' => if c' = c.1 ∧ x' = x then v else F c' x' := by
  have h1 := put_map id (fun x => F c.1 x) c.2 x v (by simpa using hx)
  simp only [id] at h1
  rw [h1]
  unfold inner
  rw [put_map Prod.fst (fun c : String × List String => c.2.map fun x => (x, F c.1 x)) own c.1 _ (List.mem_map_of_mem hm)]
  refine List.map_congr_left fun d hd => ?_
  by_cases e : d.1 = c.1
  · have : d = c := List.inj_on_of_nodup_map hc hd hm e
    subst this
    simp
  · simp [e]

theorem fold_names (t : String → String → V → V) (own : Own) (hc : (own.map Prod.fst).Nodup) (hn : ∀ c ∈ own, c.2.Nodup) (c : String × List String)
    (hm : c ∈ own) (xs : List String) : ∀ (F : String → String → V), xs.Nodup → (∀ x ∈ xs, x ∈ c.2) →
    xs.foldlM (fun (r : Dict (Dict V)) x => do
        let e ← r.lookup c.1
        let v ← e.lookup x
        some (put r c.1 (put e x (t c.1 x v)))) (inner own F) =
      some (inner own fun c' x' => if c' = c.1 ∧ x' ∈ xs then t c' x' (F c' x') else F c' x') := by
  induction xs with
  | nil => intro F _ _; simp
  | cons x xs ih =>
    intro F hnd hsub
    rw [List.nodup_cons] at hnd
    have e1 : (inner own F).lookup c.1 = some (c.2.map fun x => (x, F c.1 x)) :=
      lookup_map Prod.fst (fun c : String × List String => c.2.map fun x => (x, F c.1 x)) own hc c hm
    have e2 : (c.2.map fun x => (x, F c.1 x)).lookup x = some (F c.1 x) :=
      lookup_map id (fun x => F c.1 x) c.2 (by simpa using hn c hm) x (hsub x (by simp))
    rw [List.foldlM_cons, e1]
    simp only [Option.bind_eq_bind, Option.bind_some, e2]
    rw [inner_put own hc F c hm x (hsub x (by simp))]
    have := ih (fun c' x' => if c' = c.1 ∧ x' = x then t c.1 x (F c.1 x) else F c' x') hnd.2 (fun y hy => hsub y (by simp [hy]))
    simp only [Option.bind_eq_bind] at this
    rw [this]
    congr 2
    funext c' x'
    by_cases h1 : c' = c.1
    · by_cases h2 : x' = x
      · subst h1 h2
        simp [hnd.1]
      · simp [h1, h2]
    · simp [h1]

theorem fold_children (t : String → String → V → V) (own : Own) (hc : (own.map Prod.fst).Nodup) (hn : ∀ c ∈ own, c.2.Nodup) (cs : Own) :
    ∀ (F : String → String → V), (cs.map Prod.fst).Nodup → (∀ c ∈ cs, c ∈ own) →
    cs.foldlM (fun (r : Dict (Dict V)) c => c.2.foldlM (fun (r : Dict (Dict V)) x => do
        let e ← r.lookup c.1
        let v ← e.lookup x
        some (put r c.1 (put e x (t c.1 x v)))) r) (inner own F) =
      some (inner own fun c' x' => if ∃ c ∈ cs, c' = c.1 ∧ x' ∈ c.2 then t c' x' (F c' x') else F c' x') := by
  induction cs with
  | nil => intro F _ _; simp
  | cons c cs ih =>
    intro F hnd hsub
    rw [List.map_cons, List.nodup_cons] at hnd
    have hm := hsub c (by simp)
    have h1 := fold_names t own hc hn c hm c.2 F (hn c hm) (fun x hx => hx)
    have h2 := ih (fun c' x' => if c' = c.1 ∧ x' ∈ c.2 then t c' x' (F c' x') else F c' x') hnd.2 (fun d hd => hsub d (by simp [hd]))
    rw [List.foldlM_cons, h1]
    simp only [Option.bind_eq_bind, Option.bind_some] at h2 ⊢
    rw [h2]
    congr 2
    funext c' x'
    by_cases h3 : c' = c.1
    · have h4 : ¬ ∃ d ∈ cs, c' = d.1 ∧ x' ∈ d.2 := by
        rintro ⟨d, hd, e, -⟩
        exact hnd.1 (h3 ▸ e ▸ List.mem_map_of_mem hd)
      rw [if_neg h4]
      by_cases h5 : x' ∈ c.2
      · rw [if_pos ⟨h3, h5⟩, if_pos ⟨c, by simp, h3, h5⟩]
      · rw [if_neg (fun h => h5 h.2), if_neg]
        rintro ⟨d, hd, e, hx⟩
        rcases List.mem_cons.1 hd with rfl | hd
        · exact h5 hx
        · exact h4 ⟨d, hd, e, hx⟩
    · rw [if_neg (c := c' = c.1 ∧ x' ∈ c.2) (fun h => h3 h.1)]
      refine if_congr ⟨?_, ?_⟩ rfl rfl
      · rintro ⟨d, hd, h⟩
        exact ⟨d, by simp [hd], h⟩
      · rintro ⟨d, hd, h⟩
        rcases List.mem_cons.1 hd with rfl | hd
        · exact absurd h.1 h3
        · exact ⟨d, hd, h⟩

theorem transform_full (t : String → String → String → V → V) (f : String → String → String → V) (l : Layout) (hl : l ≠ []) (hne : ∀ n ∈ l, n.2 ≠ [])
    (hd : Spec.Distinct l) : transform t (full f l) l = some (full (fun n c x => t n c x (f n c x)) l) := by
  unfold transform
  rw [if_neg hl]
  have key : ∀ n ∈ l, (do
      let d1 ← (full f l).lookup n.1
      if n.2 = [] then none
      else n.2.foldlM (fun (r : Dict (Dict V)) c => c.2.foldlM (fun (r : Dict (Dict V)) x => do
        let e ← r.lookup c.1
        let v ← e.lookup x
        some (put r c.1 (put e x (t n.1 c.1 x v)))) r) d1) = some (inner n.2 fun c x => t n.1 c x (f n.1 c x)) := by
    intro n hn
    have e1 : (full f l).lookup n.1 = some (inner n.2 (f n.1)) :=
      lookup_map Prod.fst (fun n : String × Own => inner n.2 (f n.1)) l hd.neighbours n hn
    rw [e1]
    simp only [Option.bind_eq_bind, Option.bind_some, if_neg (hne n hn)]
    have := fold_children (t n.1) n.2 (hd.children n hn) (hd.names n hn) n.2 (f n.1) (hd.children n hn) (fun c hc => hc)
    simp only [Option.bind_eq_bind] at this
    rw [this]
    congr 1
    unfold inner
    refine List.map_congr_left fun c hc => ?_
    congr 1
    refine List.map_congr_left fun x hx => ?_
    simp only
    rw [if_pos ⟨c, hc, rfl, hx⟩]
  have := foldlM_put Prod.fst _ _ l hd.neighbours key [] (by simp)
  rw [List.nil_append] at this
  rw [show full (fun n c x => t n c x (f n c x)) l = l.map fun n => (n.1, inner n.2 fun c x => t n.1 c x (f n.1 c x)) from rfl, ← this]
  congr 1
  funext ret n
  simp only [Option.bind_eq_bind]
  cases (full f l).lookup n.1 with
  | none => rfl
  | some d1 =>
    simp only [Option.bind_some]
    split_ifs <;> simp

theorem set_map (ks : List (String × String × String)) (g : String × String × String → V) (k : String × String × String) (hk : k ∈ ks) (v : V) :
    Struct.set (ks.map fun k => (k, g k)) k v = some (ks.map fun k' => (k', if k' = k then v else g k')) := by
  unfold Struct.set
  rw [if_pos (by simpa [List.map_map, Function.comp_def] using hk), List.map_map]
  congr 1
  refine List.map_congr_left fun b _ => ?_
  by_cases e : b = k
  · simp [e]
  · simp [e]

theorem fold_set (ks : List (String × String × String)) (f : String × String × String → V) (es : List (String × String × String)) :
    ∀ g : String × String × String → V, (∀ k ∈ es, k ∈ ks) →
    (es.map fun k => (k, f k)).foldlM (fun s e => Struct.set s e.1 e.2) (ks.map fun k => (k, g k)) = some (ks.map fun k => (k, if k ∈ es then f k else g k)) := by
  induction es with
  | nil => intro g _; simp
  | cons e es ih =>
    intro g h
    rw [List.map_cons, List.foldlM_cons, set_map ks g e (h e (by simp))]
    simp only [Option.bind_eq_bind, Option.bind_some]
    rw [ih _ fun k hk => h k (by simp [hk])]
    congr 1
    refine List.map_congr_left fun k _ => ?_
    by_cases h1 : k ∈ es
    · simp [h1]
    · by_cases h2 : k = e
      · simp [h2]
      · simp [h1, h2]

theorem full_entries (f : String → String → String → V) (l : Layout) :
    ((full f l).flatMap fun n => n.2.flatMap fun c => c.2.map fun x => ((n.1, c.1, x.1), x.2)) = (keys l).map fun k => (k, f k.1 k.2.1 k.2.2) := by
  simp [full, keys, List.flatMap_map, List.map_flatMap, Function.comp_def]

theorem lookup_keys (ks : List (String × String × String)) (g : String × String × String → V) (k : String × String × String) (hk : k ∈ ks) :
    (ks.map fun k => (k, g k)).lookup k = some (g k) := by
  induction ks with
  | nil => cases hk
  | cons c ks ih =>
    rw [List.map_cons, List.lookup_cons]
    by_cases e : k = c
    · simp [e]
    · have : (k == c) = false := by simpa using e
      rw [this]
      exact ih ((List.mem_cons.1 hk).resolve_left e)

/-! ## Theorems -/

/-- **C197** (with neighbours) What a vehicle holds of its neighbours is moved to the new knots variable by variable: the new struct has, for every neighbour,
object and variable, the old value of just that variable moved, and nothing else. The first neighbour has a label as the updaters of the toolbox get it. -/
theorem C197_partial (zero : V) (t : String → String → String → V → V) (s : Struct V) (l : Layout) (hd : Spec.Distinct l) (hl : l ≠ [])
    (hne : ∀ n ∈ l, n.2 ≠ []) (hlab : ∃ number : String, (l.head hl).1 = "admm" ++ number ∨ (l.head hl).1 = "dd" ++ number)
    (hs : ∀ k ∈ keys l, ∃ v, s.get k = some v) :
    ∃ s', move zero t s l = some s' ∧ s'.map Prod.fst = keys l ∧
      ∀ n c x v, (n, c, x) ∈ keys l → s.get (n, c, x) = some v → s'.get (n, c, x) = some (t n c x v) := by
  let f : String → String → String → V := fun n c x => (s.get (n, c, x)).getD zero
  have hf : ∀ k ∈ keys l, s.get k = some (f k.1 k.2.1 k.2.2) := fun k hk => by
    obtain ⟨v, hv⟩ := hs k hk
    have : s.get (k.1, k.2.1, k.2.2) = some v := hv
    simp only [f, this, Option.getD_some]
  have hm : marked (l.head hl).1 = true := by
    obtain ⟨i, h | h⟩ := hlab
    · rw [h]
      unfold marked
      rw [Bool.or_eq_true]
      exact Or.inr (decide_eq_true ⟨[], i.toList, by rw [String.toList_append]; rfl⟩)
    · rw [h]
      unfold marked
      rw [Bool.or_eq_true]
      exact Or.inl (decide_eq_true ⟨[], i.toList, by rw [String.toList_append]; rfl⟩)
  refine ⟨(keys l).map fun k => (k, t k.1 k.2.1 k.2.2 (f k.1 k.2.1 k.2.2)), ?_, by simp [List.map_map, Function.comp_def], ?_⟩
  · unfold move
    rw [toDict_full s f l hl hd hf]
    simp only [Option.bind_eq_bind, Option.bind_some]
    rw [transform_full t f l hl hne hd]
    simp only [Option.bind_some]
    have e := full_entries (fun n c x => t n c x (f n c x)) l
    have e2 := fold_set (keys l) (fun k => t k.1 k.2.1 k.2.2 (f k.1 k.2.1 k.2.2)) (keys l) (fun _ => zero) (fun k hk => hk)
    obtain ⟨n0, l', rfl⟩ := List.exists_cons_of_ne_nil hl
    unfold toStruct
    have e3 : full (fun n c x => t n c x (f n c x)) (n0 :: l') =
      (n0.1, n0.2.map fun c => (c.1, c.2.map fun x => (x, t n0.1 c.1 x (f n0.1 c.1 x)))) :: full (fun n c x => t n c x (f n c x)) l' := rfl
    rw [e3] at e ⊢
    simp only
    rw [if_pos (by simpa using hm), e, e2]
    congr 1
    exact List.map_congr_left fun k hk => by rw [if_pos hk]
  · intro n c x v hk hv
    unfold Struct.get
    rw [lookup_keys (keys l) _ (n, c, x) hk]
    simp only [f, hv, Option.getD_some]

/-- **C197** fails for a vehicle without neighbours: the attempt to move what it holds of them, in a struct or in a dictionary, is an error. -/
theorem C197_lonely_violated (zero : V) (t : String → String → String → V → V) (s : Struct V) (d : Dict (Dict (Dict V))) :
    move zero t s [] = none ∧ transform t d [] = none := ⟨rfl, rfl⟩

/-! ## Example: two neighbours, the second with two objects -/

def exLayout : Layout := [("admm1", [("vehicle1", ["splines0", "T"])]), ("admm2", [("vehicle2", ["splines0"]), ("p2p2", ["T"])])]
def exStruct : Struct ℕ := [(("admm1", "vehicle1", "splines0"), 1), (("admm1", "vehicle1", "T"), 2), (("admm2", "vehicle2", "splines0"), 3), (("admm2", "p2p2", "T"), 4)]
def exMove : String → String → String → ℕ → ℕ := fun _ _ x v => if x = "T" then v else 10 * v

example : ∃ s', move 0 exMove exStruct exLayout = some s' ∧ s'.get ("admm2", "vehicle2", "splines0") = some 30 ∧ s'.get ("admm2", "p2p2", "T") = some 4 := by
  obtain ⟨s', h1, -, h3⟩ := C197_partial 0 exMove exStruct exLayout ⟨by decide, by decide, by decide⟩ (by decide) (by decide) ⟨"1", Or.inl (by decide)⟩
    (by
      intro k hk
      have : k ∈ exStruct.map Prod.fst := hk
      simp only [exStruct, List.map_cons, List.map_nil, List.mem_cons, List.not_mem_nil, or_false] at this
      rcases this with rfl | rfl | rfl | rfl
      · exact ⟨1, by decide⟩
      · exact ⟨2, by decide⟩
      · exact ⟨3, by decide⟩
      · exact ⟨4, by decide⟩)
  exact ⟨s', h1, h3 _ _ _ 3 (by decide) (by decide), h3 _ _ _ 4 (by decide) (by decide)⟩

end Verif.ADMM.SharedDict
