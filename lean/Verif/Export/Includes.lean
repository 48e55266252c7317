import Verif.Export.Files
import Verif.Export.Template

/-! # The includes of the exported sources (C199) -/

set_option linter.unusedSectionVars false

namespace Verif.Export.Includes

open Verif.Export.Files Verif.Export.Template

/-! ## Model -/

/-- The files of the source directory that are looked at, export.py:105-108: those with extension `cpp` or `hpp`
(simplified: the listing contains no directories). -/
def sources (listing : List (List Char)) : List (List Char) :=
  listing.filter fun f => decide (last (split '.' f) = some ['c', 'p', 'p'] ∨ last (split '.' f) = some ['h', 'p', 'p'])

/-- `change_includes` for the text of one file, export.py:113-115: for every file of the directory, in the order of the
listing, its name without label is replaced by the name with label; `none` is an `IndexError`. -/
def changeIncludes (ns : List Char) (listing : List (List Char)) (body : List Char) : Option (List Char) :=
  ((sources listing).mapM rmvLabel).bind fun names => names.foldlM (fun b src => (addLabel ns src).map fun new => replace src new b) body

/-! ## Specification -/

/-- The name `stem.ext` of a file. -/
def Spec.plain (f : List Char × List Char) : List Char := f.1 ++ '.' :: f.2

/-- The name `stem_ns.ext` under which it is exported. -/
def Spec.exported (ns : List Char) (f : List Char × List Char) : List Char := f.1 ++ '_' :: ns ++ '.' :: f.2

/-- A source text: some text, then names in quotes, each followed by some text. -/
def Spec.source (t : List Char) (incs : List (List Char × List Char)) : List Char :=
  t ++ incs.flatMap fun i => '"' :: (i.1 ++ '"' :: i.2)

/-- Names of C++ files without further dots, underscores and quotes. -/
structure Spec.File (f : List Char × List Char) : Prop where
  ext : f.2 = ['c', 'p', 'p'] ∨ f.2 = ['h', 'p', 'p']
  dot : '.' ∉ f.1
  bar : '_' ∉ f.1
  quote : '"' ∉ f.1

/-! ## Lemmas -/

theorem replace_nil (p v : List Char) : replace p v [] = [] := by rw [replace]

theorem replace_none (p v s : List Char) (h : ¬ p <:+: s) : replace p v s = s := by
  induction s with
  | nil => exact replace_nil p v
  | cons c s ih =>
    rw [replace, if_neg fun hp => h hp.isInfix, ih fun hi => h (hi.trans (List.suffix_cons c s).isInfix)]

theorem prefix_sep {p a b : List Char} {q : Char} (hq : q ∉ p) (h : p <+: a ++ q :: b) : p <+: a := by
  induction p generalizing a with
  | nil => exact List.nil_prefix
  | cons c p ih =>
    rw [List.mem_cons, not_or] at hq
    cases a with
    | nil => exact absurd (List.cons_prefix_cons.1 h).1.symm hq.1
    | cons d a =>
      have h' := List.cons_prefix_cons.1 h
      exact List.cons_prefix_cons.2 ⟨h'.1, ih hq.2 h'.2⟩

/-- Text on both sides of a character that the name does not contain. -/
theorem replace_sep (p v : List Char) (q : Char) (hq : q ∉ p) (hp : p ≠ []) (a b : List Char) :
    replace p v (a ++ q :: b) = replace p v a ++ q :: replace p v b := by
  have hlen : 0 < p.length := List.length_pos_iff.2 hp
  induction hn : a.length using Nat.strong_induction_on generalizing a with
  | _ n ih =>
    cases a with
    | nil =>
      rw [replace_nil, List.nil_append, List.nil_append, replace, if_neg]
      intro h
      have := (prefix_sep (a := []) hq h).length_le
      simp at this
      exact hp this
    | cons c a =>
      rw [List.cons_append, replace]
      by_cases h : p <+: c :: a
      · have hl : p.length ≤ a.length + 1 := by simpa using h.length_le
        rw [if_pos (show p <+: c :: (a ++ q :: b) from h.trans ⟨q :: b, rfl⟩), replace, if_pos h, List.drop_append_of_le_length (by omega),
          ih _ (by rw [List.length_drop]; simp only [List.length_cons] at hn; omega) _ rfl, List.append_assoc]
      · rw [if_neg (fun h' : p <+: c :: (a ++ q :: b) => h (prefix_sep (a := c :: a) hq h')), replace, if_neg h,
          ih _ (by simp only [List.length_cons] at hn; omega) _ rfl, List.cons_append]

theorem replace_self (p v : List Char) (hp : p ≠ []) : replace p v p = v := by
  cases p with
  | nil => exact absurd rfl hp
  | cons c p =>
    rw [replace, if_pos List.prefix_rfl, show (c :: p).length - 1 = p.length by simp, List.drop_length, replace_nil, List.append_nil]

theorem dot_eq {s w x e : List Char} (hs : '.' ∉ s) (hw : '.' ∉ w) (h : s ++ '.' :: x <+: w ++ '.' :: e) : s = w := by
  induction s generalizing w with
  | nil =>
    cases w with
    | nil => rfl
    | cons c w => exact absurd (by rw [show '.' = c from (List.cons_prefix_cons.1 h).1]; simp) hw
  | cons d s ih =>
    cases w with
    | nil =>
      have := (List.cons_prefix_cons.1 h).1
      exact absurd (by simp [this]) hs
    | cons c w =>
      have h' := List.cons_prefix_cons.1 h
      rw [List.mem_cons, not_or] at hs hw
      rw [h'.1, ih hs.2 hw.2 h'.2]

/-- The name occurs at the end. -/
theorem replace_hit (u s x v : List Char) (hd : '.' ∉ u ++ s) : replace (s ++ '.' :: x) v (u ++ s ++ '.' :: x) = u ++ v := by
  induction u with
  | nil => exact replace_self _ _ (by simp)
  | cons c u ih =>
    have hd' : '.' ∉ u ++ s := fun h => hd (by simp only [List.cons_append]; exact List.mem_cons_of_mem _ h)
    rw [List.cons_append, List.cons_append, replace, if_neg, ih hd', List.cons_append]
    intro h
    have hs : '.' ∉ s := fun h => hd' (List.mem_append_right _ h)
    have := congrArg List.length (dot_eq (w := c :: (u ++ s)) hs (by simpa using hd) (by simpa using h))
    simp at this
    omega

/-- Where a name can occur in another one. -/
theorem infix_name {s x w e : List Char} (hw : '.' ∉ w) (he : '.' ∉ e) (h : s ++ '.' :: x <:+: w ++ '.' :: e) : s <:+ w ∧ x <+: e := by
  obtain ⟨a, b, h⟩ := h
  have h' : (a ++ s) ++ '.' :: (x ++ b) = w ++ '.' :: e := by rw [← h]; simp
  rcases List.append_eq_append_iff.1 h' with ⟨k, h1, h2⟩ | ⟨k, h1, h2⟩
  · cases k with
    | nil =>
      rw [List.append_nil] at h1
      rw [List.nil_append, List.cons.injEq] at h2
      exact ⟨⟨a, h1.symm⟩, ⟨b, h2.2⟩⟩
    | cons c k =>
      rw [List.cons_append, List.cons.injEq] at h2
      exact absurd (by rw [h1, ← h2.1]; simp) hw
  · cases k with
    | nil =>
      rw [List.append_nil] at h1
      rw [List.nil_append, List.cons.injEq] at h2
      exact ⟨⟨a, h1⟩, ⟨b, h2.2.symm⟩⟩
    | cons c k =>
      rw [List.cons_append, List.cons.injEq] at h2
      exact absurd (by rw [h2.2]; simp) he

theorem File.ext_dot {f : List Char × List Char} (h : Spec.File f) : '.' ∉ f.2 := by
  rcases h.ext with h | h <;> rw [h] <;> decide

theorem File.no_quote {f : List Char × List Char} (h : Spec.File f) : '"' ∉ Spec.plain f := by
  unfold Spec.plain
  rcases h.ext with h1 | h1 <;> rw [h1] <;> simp [h.quote]

/-- What one replacement does to one name. -/
def one (ns : List Char) (f w : List Char × List Char) : List Char × List Char :=
  if f.1 <:+ w.1 ∧ f.2 = w.2 then (w.1 ++ '_' :: ns, w.2) else w

theorem replace_one (ns : List Char) (f w : List Char × List Char) (hw : '.' ∉ w.1) (hwe : '.' ∉ w.2) (hx : f.2 <+: w.2 → f.2 = w.2) :
    replace (Spec.plain f) (Spec.exported ns f) (Spec.plain w) = Spec.plain (one ns f w) := by
  unfold one
  split_ifs with h
  · obtain ⟨⟨u, hu⟩, hx'⟩ := h
    unfold Spec.plain Spec.exported
    rw [← hx', ← hu]
    have := replace_hit u f.1 f.2 (f.1 ++ '_' :: ns ++ '.' :: f.2) (by rw [hu]; exact hw)
    rw [this]
    simp
  · exact replace_none _ _ _ fun hi => h ⟨(infix_name hw hwe hi).1, hx (infix_name hw hwe hi).2⟩

theorem rmv_exported (ns : List Char) (hn : '.' ∉ ns) (hn' : '_' ∉ ns) (f : List Char × List Char) (hf : Spec.File f) :
    rmvLabel (Spec.exported ns f) = some (Spec.plain f) := by
  have h := C115_roundTrip_partial ns f.1 f.2 hf.dot (File.ext_dot hf) hn hf.bar hn'
  rw [C115_label_partial ns f.1 f.2 hf.dot (File.ext_dot hf), Option.bind_some] at h
  exact h

theorem mapM_of {A B C : Type} (g : B → Option C) (mk : A → B) (un : A → C) (l : List A) (h : ∀ a ∈ l, g (mk a) = some (un a)) :
    (l.map mk).mapM g = some (l.map un) := by
  induction l with
  | nil => rfl
  | cons a l ih =>
    rw [List.map_cons, List.mapM_cons, h a (by simp), ih fun b hb => h b (by simp [hb])]
    rfl

theorem list_of {A B : Type} (mk : A → B) (P : A → Prop) (l : List B) (h : ∀ b ∈ l, ∃ a, P a ∧ b = mk a) : ∃ as : List A, (∀ a ∈ as, P a) ∧ l = as.map mk := by
  induction l with
  | nil => exact ⟨[], by simp, rfl⟩
  | cons b l ih =>
    obtain ⟨a, ha, rfl⟩ := h b (by simp)
    obtain ⟨as, h1, h2⟩ := ih fun b hb => h b (by simp [hb])
    exact ⟨a :: as, by simpa using ⟨ha, h1⟩, by rw [h2]; rfl⟩

/-- The quoted names after some replacements. -/
theorem fold_source (ns : List Char) (fs : List (List Char × List Char)) (hf : ∀ f ∈ fs, Spec.File f) (hns : '.' ∉ ns) (t : List Char)
    (incs : List ((List Char × List Char) × List Char)) (ht : ∀ f ∈ fs, ¬ Spec.plain f <:+: t) (hi : ∀ i ∈ incs, '.' ∉ i.1.1 ∧ (i.1.2 = ['c', 'p', 'p'] ∨ i.1.2 = ['h', 'p', 'p']) ∧ ∀ f ∈ fs, ¬ Spec.plain f <:+: i.2) :
    (fs.map Spec.plain).foldlM (fun b src => (addLabel ns src).map fun new => replace src new b) (Spec.source t (incs.map fun i => (Spec.plain i.1, i.2))) =
      some (Spec.source t (incs.map fun i => (Spec.plain (fs.foldl (fun w f => one ns f w) i.1), i.2))) := by
  induction fs generalizing incs with
  | nil => rfl
  | cons f fs ih =>
    have hff := hf f (by simp)
    have hq := File.no_quote hff
    have hne : Spec.plain f ≠ [] := by simp [Spec.plain]
    have hlab : addLabel ns (Spec.plain f) = some (Spec.exported ns f) := C115_label_partial ns f.1 f.2 hff.dot (File.ext_dot hff)
    have hrest : ∀ (t : List Char) (incs : List ((List Char × List Char) × List Char)), ¬ Spec.plain f <:+: t → (∀ i ∈ incs, '.' ∉ i.1.1 ∧ (i.1.2 = ['c', 'p', 'p'] ∨ i.1.2 = ['h', 'p', 'p']) ∧ ¬ Spec.plain f <:+: i.2) →
        replace (Spec.plain f) (Spec.exported ns f) (Spec.source t (incs.map fun i => (Spec.plain i.1, i.2))) =
          Spec.source t (incs.map fun i => (Spec.plain (one ns f i.1), i.2)) := by
      intro t incs
      induction incs generalizing t with
      | nil =>
        intro h _
        simpa [Spec.source] using replace_none _ _ _ h
      | cons i incs ihi =>
        intro h hi
        obtain ⟨h1, h2, h3⟩ := hi i (by simp)
        have e : ∀ g : (List Char × List Char) → List Char × List Char, Spec.source t ((i :: incs).map fun i => (Spec.plain (g i.1), i.2)) =
            t ++ '"' :: (Spec.plain (g i.1) ++ '"' :: Spec.source i.2 (incs.map fun i => (Spec.plain (g i.1), i.2))) := by
          intro g
          simp [Spec.source]
        have hid := e id
        simp only [id] at hid
        have hwd : '.' ∉ i.1.2 := by rcases h2 with h2 | h2 <;> rw [h2] <;> decide
        rw [hid, e (one ns f), replace_sep _ _ _ hq hne, replace_none _ _ _ h, replace_sep _ _ _ hq hne, ihi _ h3 fun j hj => hi j (by simp [hj]),
          replace_one ns f i.1 h1 hwd fun hp => by
            rcases hff.ext with h4 | h4 <;> rcases h2 with h5 | h5 <;> rw [h4, h5] at hp ⊢ <;> revert hp <;> decide]
    rw [List.map_cons, List.foldlM_cons, hlab]
    simp only [Option.map_some]
    rw [hrest t incs (ht f (by simp)) fun i hi' => ⟨(hi i hi').1, (hi i hi').2.1, (hi i hi').2.2 f (by simp)⟩]
    have hstep : (incs.map fun i => (Spec.plain (one ns f i.1), i.2)) = (incs.map fun i => (one ns f i.1, i.2)).map fun i => (Spec.plain i.1, i.2) := by
      rw [List.map_map]; rfl
    rw [hstep]
    refine (ih (fun g hg => hf g (by simp [hg])) (incs.map fun i => (one ns f i.1, i.2)) (fun g hg => ht g (by simp [hg])) ?_).trans ?_
    · intro j hj
      obtain ⟨i, hi', rfl⟩ := List.mem_map.1 hj
      obtain ⟨h1, h2, h3⟩ := hi i hi'
      refine ⟨?_, ?_, fun g hg => h3 g (by simp [hg])⟩
      · simp only [one]
        split_ifs
        · simp [h1, hns]
        · exact h1
      · simp only [one]
        split_ifs <;> exact h2
    · rw [List.map_map]
      rfl

theorem fold_done (ns : List Char) (fs : List (List Char × List Char)) (w e : List Char) (h : ∀ f ∈ fs, '_' ∉ f.1 ∧ ¬ f.1 <:+ ns) :
    fs.foldl (fun w f => one ns f w) (w ++ '_' :: ns, e) = (w ++ '_' :: ns, e) := by
  induction fs with
  | nil => rfl
  | cons f fs ih =>
    obtain ⟨h1, h2⟩ := h f (by simp)
    have : one ns f (w ++ '_' :: ns, e) = (w ++ '_' :: ns, e) := by
      unfold one
      rw [if_neg]
      rintro ⟨hs, -⟩
      rcases List.suffix_or_suffix_of_suffix hs (List.suffix_append w ('_' :: ns)) with h3 | h3
      · rcases List.suffix_cons_iff.1 h3 with h4 | h4
        · exact h1 (by rw [h4]; simp)
        · exact h2 h4
      · exact h1 (h3.subset (by simp))
    rw [List.foldl_cons, this, ih fun g hg => h g (by simp [hg])]

theorem fold_label (ns : List Char) (fs : List (List Char × List Char)) (w : List Char × List Char) (h : ∀ f ∈ fs, '_' ∉ f.1 ∧ ¬ f.1 <:+ ns) (hw : w ∈ fs) :
    fs.foldl (fun w f => one ns f w) w = (w.1 ++ '_' :: ns, w.2) := by
  induction fs with
  | nil => exact absurd hw (by simp)
  | cons f fs ih =>
    rw [List.foldl_cons]
    by_cases hh : f.1 <:+ w.1 ∧ f.2 = w.2
    · rw [one, if_pos hh, fold_done ns fs _ _ fun g hg => h g (by simp [hg])]
    · rw [one, if_neg hh]
      refine ih (fun g hg => h g (by simp [hg])) ((List.mem_cons.1 hw).resolve_left ?_)
      rintro rfl
      exact hh ⟨List.suffix_rfl, rfl⟩

theorem exported_last (ns : List Char) (hn : '.' ∉ ns) (f : List Char × List Char) (hf : Spec.File f) : last (split '.' (Spec.exported ns f)) = some f.2 := by
  have := split_name (f.1 ++ '_' :: ns) f.2 (by simp [hf.dot, hn]) (File.ext_dot hf)
  unfold name at this
  unfold Spec.exported
  rw [this]
  rfl

/-! ## Theorems -/

/-- **C199** (part) Let the source directory hold the exported files (and possibly others that are no C++ files), in whatever order they are listed. Then every quoted
name of an exported file becomes the name under which that file is exported, also if one name ends with another one, and the remaining text stays as it is.
Missing: namespaces that end with the name of a file (`C199_ending_violated`) or have an underscore (`C199_underscore_violated`). -/
theorem C199_partial (ns : List Char) (hn : '.' ∉ ns) (hn' : '_' ∉ ns) (files : List (List Char × List Char)) (hf : ∀ f ∈ files, Spec.File f)
    (hend : ∀ f ∈ files, ¬ f.1 <:+ ns) (listing : List (List Char)) (hin : ∀ f ∈ files, Spec.exported ns f ∈ listing)
    (hout : ∀ g ∈ listing, (∃ f ∈ files, g = Spec.exported ns f) ∨ last (split '.' g) ≠ some ['c', 'p', 'p'] ∧ last (split '.' g) ≠ some ['h', 'p', 'p'])
    (t : List Char) (incs : List ((List Char × List Char) × List Char)) (ht : ∀ f ∈ files, ¬ Spec.plain f <:+: t)
    (hi : ∀ i ∈ incs, i.1 ∈ files ∧ ∀ f ∈ files, ¬ Spec.plain f <:+: i.2) :
    changeIncludes ns listing (Spec.source t (incs.map fun i => (Spec.plain i.1, i.2))) =
      some (Spec.source t (incs.map fun i => (Spec.exported ns i.1, i.2))) := by
  obtain ⟨fs, h1, h2⟩ := list_of (Spec.exported ns) (· ∈ files) (sources listing) (by
    intro g hg
    obtain ⟨h1, h2⟩ := List.mem_filter.1 hg
    rcases hout g h1 with ⟨f, hf', rfl⟩ | ⟨h3, h4⟩
    · exact ⟨f, hf', rfl⟩
    · rw [decide_eq_true_eq] at h2
      exact absurd h2 (by simp [h3, h4]))
  have hmem : ∀ f ∈ files, f ∈ fs := by
    intro f hf'
    have hs : Spec.exported ns f ∈ sources listing := by
      refine List.mem_filter.2 ⟨hin f hf', ?_⟩
      rw [decide_eq_true_eq, exported_last ns hn f (hf f hf')]
      exact (hf f hf').ext.imp (congrArg some) (congrArg some)
    rw [h2] at hs
    obtain ⟨g, hg, he⟩ := List.mem_map.1 hs
    have hF := hf f hf'
    have hG := hf g (h1 g hg)
    have := C115_injective_partial ns g.1 f.1 g.2 f.2 hG.dot (File.ext_dot hG) hn hF.dot (File.ext_dot hF)
      (by rw [C115_label_partial ns g.1 g.2 hG.dot (File.ext_dot hG), C115_label_partial ns f.1 f.2 hF.dot (File.ext_dot hF)]; exact congrArg some he)
    rwa [show f = g from Prod.ext this.1.symm this.2.symm]
  unfold changeIncludes
  rw [h2, mapM_of rmvLabel (Spec.exported ns) Spec.plain fs fun f hf' => rmv_exported ns hn hn' f (hf f (h1 f hf')), Option.bind_some,
    fold_source ns fs (fun f h => hf f (h1 f h)) hn t incs (fun f h => ht f (h1 f h)) fun i hi' => ⟨(hf _ (hi i hi').1).dot, (hf _ (hi i hi').1).ext, fun f h => (hi i hi').2 f (h1 f h)⟩]
  congr 2
  refine List.map_congr_left fun i hi' => ?_
  rw [fold_label ns fs i.1 (fun f h => ⟨(hf f (h1 f h)).bar, hend f (h1 f h)⟩) (hmem _ (hi i hi').1)]
  simp [Spec.plain, Spec.exported]

/-- **C199** fails if the namespace is the name of a file (here `b`): the include of another file `a` gets the label twice, and names a file that is not
exported, if the files are listed in this order. In the other order it is right. -/
theorem C199_ending_violated (a b : List Char) (ha : Spec.File (a, ['h', 'p', 'p'])) (hb : Spec.File (b, ['h', 'p', 'p'])) (hab : ¬ b <:+ a) :
    changeIncludes b [Spec.exported b (a, ['h', 'p', 'p']), Spec.exported b (b, ['h', 'p', 'p'])] (Spec.source [] [(Spec.plain (a, ['h', 'p', 'p']), [])]) =
        some (Spec.source [] [(Spec.exported b (a ++ '_' :: b, ['h', 'p', 'p']), [])]) ∧
      changeIncludes b [Spec.exported b (b, ['h', 'p', 'p']), Spec.exported b (a, ['h', 'p', 'p'])] (Spec.source [] [(Spec.plain (a, ['h', 'p', 'p']), [])]) =
        some (Spec.source [] [(Spec.exported b (a, ['h', 'p', 'p']), [])]) := by
  have key : ∀ fs : List (List Char × List Char), (∀ f ∈ fs, f = (a, ['h', 'p', 'p']) ∨ f = (b, ['h', 'p', 'p'])) →
      changeIncludes b (fs.map (Spec.exported b)) (Spec.source [] [(Spec.plain (a, ['h', 'p', 'p']), [])]) =
        some (Spec.source [] [(Spec.plain (fs.foldl (fun w f => one b f w) (a, ['h', 'p', 'p'])), [])]) := by
    intro fs hfs
    have hF : ∀ f ∈ fs, Spec.File f := fun f h => (hfs f h).elim (fun e => e ▸ ha) fun e => e ▸ hb
    have hs : sources (fs.map (Spec.exported b)) = fs.map (Spec.exported b) := by
      refine List.filter_eq_self.2 fun g hg => ?_
      obtain ⟨f, hf, rfl⟩ := List.mem_map.1 hg
      rw [decide_eq_true_eq, exported_last b hb.dot f (hF f hf)]
      exact (hF f hf).ext.imp (congrArg some) (congrArg some)
    unfold changeIncludes
    rw [hs, mapM_of rmvLabel (Spec.exported b) Spec.plain fs fun f hf => rmv_exported b hb.dot hb.bar f (hF f hf), Option.bind_some]
    refine fold_source b fs hF hb.dot [] [((a, ['h', 'p', 'p']), [])] (fun f _ h => ?_) fun i hi => ?_
    · have := h.length_le
      simp [Spec.plain] at this
    · obtain rfl := List.mem_singleton.1 hi
      refine ⟨ha.dot, Or.inr rfl, fun f _ h => ?_⟩
      have := h.length_le
      simp [Spec.plain] at this
  constructor
  · refine (key [(a, ['h', 'p', 'p']), (b, ['h', 'p', 'p'])] (by simp)).trans ?_
    have e1 : one b (a, ['h', 'p', 'p']) (a, ['h', 'p', 'p']) = (a ++ '_' :: b, ['h', 'p', 'p']) := by simp [one]
    have e2 : one b (b, ['h', 'p', 'p']) (a ++ '_' :: b, ['h', 'p', 'p']) = (a ++ '_' :: b ++ '_' :: b, ['h', 'p', 'p']) := by
      unfold one
      rw [if_pos ⟨(List.suffix_cons '_' b).trans (List.suffix_append _ _), rfl⟩]
    simp only [List.foldl_cons, List.foldl_nil]
    rw [e1, e2]
    rfl
  · refine (key [(b, ['h', 'p', 'p']), (a, ['h', 'p', 'p'])] (by simp)).trans ?_
    have e1 : one b (b, ['h', 'p', 'p']) (a, ['h', 'p', 'p']) = (a, ['h', 'p', 'p']) := by simp [one, hab]
    have e2 : one b (a, ['h', 'p', 'p']) (a, ['h', 'p', 'p']) = (a ++ '_' :: b, ['h', 'p', 'p']) := by simp [one]
    simp only [List.foldl_cons, List.foldl_nil]
    rw [e1, e2]
    rfl

/-- **C199** fails for namespaces with an underscore: whatever the exported files, a text that does not happen to contain the names `n1.cpp` and `n1.hpp` is not
changed at all; its includes keep the old names. -/
theorem C199_underscore_violated (n1 n2 : List Char) (h1 : '.' ∉ n1 ∧ '_' ∉ n1) (h2 : '.' ∉ n2 ∧ '_' ∉ n2) (files : List (List Char × List Char)) (hf : ∀ f ∈ files, Spec.File f)
    (body : List Char) (hb : ¬ Spec.plain (n1, ['c', 'p', 'p']) <:+: body) (hb' : ¬ Spec.plain (n1, ['h', 'p', 'p']) <:+: body) :
    changeIncludes (n1 ++ '_' :: n2) (files.map (Spec.exported (n1 ++ '_' :: n2))) body = some body := by
  have hns : '.' ∉ n1 ++ '_' :: n2 := by simp [h1.1, h2.1]
  have hs : sources (files.map (Spec.exported (n1 ++ '_' :: n2))) = files.map (Spec.exported (n1 ++ '_' :: n2)) := by
    refine List.filter_eq_self.2 fun g hg => ?_
    obtain ⟨f, hf', rfl⟩ := List.mem_map.1 hg
    rw [decide_eq_true_eq, exported_last _ hns f (hf f hf')]
    exact (hf f hf').ext.imp (congrArg some) (congrArg some)
  unfold changeIncludes
  rw [hs, mapM_of rmvLabel (Spec.exported (n1 ++ '_' :: n2)) (fun f => Spec.plain (n1, f.2)) files fun f hf' => by
    have hF := hf f hf'
    have h := C115_namespace_violated n1 n2 f.1 f.2 hF.dot (File.ext_dot hF) h1.1 h2.1 hF.bar h1.2 h2.2
    rw [C115_label_partial _ f.1 f.2 hF.dot (File.ext_dot hF), Option.bind_some] at h
    exact h, Option.bind_some]
  clear hs
  induction files with
  | nil => rfl
  | cons f fs ih =>
    have hF := hf f (by simp)
    have hno : ¬ Spec.plain (n1, f.2) <:+: body := by rcases hF.ext with h | h <;> rw [h] <;> assumption
    rw [List.map_cons, List.foldlM_cons, show addLabel (n1 ++ '_' :: n2) (Spec.plain (n1, f.2)) = _ from C115_label_partial _ n1 f.2 h1.1 (File.ext_dot hF)]
    simp only [Option.map_some]
    rw [replace_none _ _ _ hno]
    exact ih fun g hg => hf g (by simp [hg])

/-! ## Examples -/

/-- Two files, the name of one ends with the name of the other. -/
def exFiles : List (List Char × List Char) := [("P2P".toList, "hpp".toList), ("ADMMP2P".toList, "hpp".toList)]

theorem exFile (s : List Char) (h : '.' ∉ s ∧ '_' ∉ s ∧ '"' ∉ s) : Spec.File (s, "hpp".toList) := ⟨Or.inr rfl, h.1, h.2.1, h.2.2⟩

example : changeIncludes "omg".toList ["ADMMP2P_omg.hpp".toList, "notes.txt".toList, "P2P_omg.hpp".toList] "#include \"ADMMP2P.hpp\"\n#include \"P2P.hpp\"\n".toList =
    some "#include \"ADMMP2P_omg.hpp\"\n#include \"P2P_omg.hpp\"\n".toList := by
  have h := C199_partial "omg".toList (by decide) (by decide) exFiles
    (by
      intro f hf
      simp only [exFiles, List.mem_cons, List.not_mem_nil, or_false] at hf
      rcases hf with rfl | rfl <;> exact exFile _ (by decide))
    (by decide) ["ADMMP2P_omg.hpp".toList, "notes.txt".toList, "P2P_omg.hpp".toList] (by decide) (by decide) "#include ".toList
    [(("ADMMP2P".toList, "hpp".toList), "\n#include ".toList), (("P2P".toList, "hpp".toList), "\n".toList)] (by decide) (by decide)
  have e1 : Spec.source "#include ".toList ([(("ADMMP2P".toList, "hpp".toList), "\n#include ".toList), (("P2P".toList, "hpp".toList), "\n".toList)].map fun i => (Spec.plain i.1, i.2)) =
      "#include \"ADMMP2P.hpp\"\n#include \"P2P.hpp\"\n".toList := by decide
  rw [e1] at h
  rw [h]
  decide

example : changeIncludes "B".toList ["A_B.hpp".toList, "B_B.hpp".toList] "\"A.hpp\"".toList = some "\"A_B_B.hpp\"".toList :=
  (C199_ending_violated ['A'] ['B'] (exFile _ (by decide)) (exFile _ (by decide)) (by decide)).1

example : changeIncludes "my_ns".toList ["A_my_ns.hpp".toList] "\"A.hpp\"".toList = some "\"A.hpp\"".toList :=
  C199_underscore_violated ['m', 'y'] ['n', 's'] (by decide) (by decide) [(['A'], ['h', 'p', 'p'])]
    (fun f hf => by obtain rfl := List.mem_singleton.1 hf; exact exFile _ (by decide)) _ (by decide) (by decide)

end Verif.Export.Includes
