import Verif.Export.Files

/-! # Where the exported files are put (C202) -/

set_option linter.unusedSectionVars false

namespace Verif.Export.Places

open Verif.Export.Files

/-! ## Model -/

/-- `os.path.join(a, b)`. -/
def join (a b : List Char) : List Char :=
  if b.head? = some '/' then b else if a = [] ∨ a.getLast? = some '/' then a ++ b else a ++ '/' :: b

/-- `os.path.dirname(p)` (simplified: slashes in front of the last one are kept). -/
def dirname (p : List Char) : List Char := ((p.reverse.dropWhile (· != '/')).drop 1).reverse

/-- `no_src`, export.py:167. -/
def noSrc : List (List Char) := ["Makefile".toList, "instructions.txt".toList]

/-- Where `copy_files` puts a file of the templates, export.py:172-175. -/
def target (ns dir f : List Char) : Option (List Char) :=
  if f ∈ noSrc then some (join dir f) else addLabel ns (join (join dir "src/".toList) f)

/-- `shutil.move(cwd+'/'+g, destination+'src/'+g)`, export.py:207, export_p2p.py:58, export_admm.py:80-83; `none`: an exception, since the directory does not exist. -/
def move (dirs : List (List Char)) (dir g : List Char) : Option (List Char) :=
  if dirname (dir ++ "src/".toList ++ g) ∈ dirs then some (dir ++ "src/".toList ++ g) else none

/-- `copy_files` and `export_casadi_problems`, export.py:67-69: the files of the templates are copied, and their directories are made (export.py:176-179); the files
with the optimization problem are moved. The result are the places of all files. `dirs` are the directories that exist before. -/
def exportFiles (ns : List Char) (dirs : List (List Char)) (dir : List Char) (templates generated : List (List Char)) : Option (List (List Char)) :=
  (templates.mapM (target ns dir)).bind fun copied => (generated.mapM (move (dirs ++ copied.map dirname) dir)).map fun moved => copied ++ moved

/-! ## Specification -/

/-- A file name `stem.ext` without further dots and without slashes. -/
structure Spec.Name (f : List Char × List Char) : Prop where
  dot : '.' ∉ f.1
  dot' : '.' ∉ f.2
  slash : '/' ∉ f.1
  slash' : '/' ∉ f.2

/-- The place of a source file of the templates: in `dir/src`, with label; `dir` ends with a slash. -/
def Spec.place (ns dir : List Char) (f : List Char × List Char) : List Char := dir ++ "src/".toList ++ (f.1 ++ '_' :: ns ++ '.' :: f.2)

/-- A template: a source file, or one of the files that keep their name and place. -/
inductive Spec.Template where
  | source (f : List Char × List Char)
  | other (t : List Char)

/-- Its name. -/
def Spec.Template.name : Spec.Template → List Char
  | .source f => f.1 ++ '.' :: f.2
  | .other t => t

/-- Its place; `dir` ends with a slash. -/
def Spec.Template.place (ns dir : List Char) : Spec.Template → List Char
  | .source f => Spec.place ns dir f
  | .other t => dir ++ t

/-- The other files are `Makefile` and `instructions.txt`. -/
def Spec.Template.Valid : Spec.Template → Prop
  | .source f => Spec.Name f ∧ f.1 ++ '.' :: f.2 ≠ "instructions.txt".toList
  | .other t => t = "Makefile".toList ∨ t = "instructions.txt".toList

/-! ## Lemmas -/

theorem dirname_slash (a f : List Char) (h : '/' ∉ f) : dirname (a ++ '/' :: f) = a := by
  unfold dirname
  rw [List.reverse_append, List.reverse_cons, List.append_assoc, List.dropWhile_append_of_pos]
  · simp
  · intro c hc
    rw [List.mem_reverse] at hc
    simp only [bne_iff_ne, ne_eq]
    rintro rfl
    exact h hc

theorem join_src (d f : List Char) (hf : '/' ∉ f) (hne : d ≠ []) :
    join (join d "src/".toList) f = d ++ (if d.getLast? = some '/' then [] else ['/']) ++ "src/".toList ++ f := by
  have h1 : ¬ f.head? = some '/' := fun h => hf (List.mem_of_head? h)
  have h2 : join d "src/".toList = d ++ (if d.getLast? = some '/' then [] else ['/']) ++ "src/".toList := by
    unfold join
    rw [if_neg (by decide)]
    split_ifs with h h' h'
    · simp
    · exact absurd (h.resolve_left hne) h'
    · exact absurd (Or.inr h') h
    · simp
  have h3 : (join d "src/".toList).getLast? = some '/' := by rw [h2, List.getLast?_append]; rfl
  rw [join, if_neg h1, if_pos (Or.inr h3), h2]

theorem mapM_some_of {A B : Type} (g : A → Option B) (h : A → B) (l : List A) (hl : ∀ a ∈ l, g a = some (h a)) : l.mapM g = some (l.map h) := by
  induction l with
  | nil => rfl
  | cons a l ih =>
    rw [List.mapM_cons, hl a (by simp), ih fun b hb => hl b (by simp [hb])]
    rfl

theorem mapM_none_of {A B : Type} (g : A → Option B) (l : List A) (a : A) (ha : a ∈ l) (h : g a = none) : l.mapM g = none := by
  induction l with
  | nil => exact absurd ha (by simp)
  | cons b l ih =>
    rw [List.mapM_cons]
    rcases List.mem_cons.1 ha with rfl | ha
    · rw [h]
      rfl
    · rw [ih ha]
      cases g b <;> rfl

theorem target_source (ns d : List Char) (f : List Char × List Char) (hf : Spec.Name f) (hns : f.1 ++ '.' :: f.2 ∉ noSrc) (hd : '.' ∉ d) (hne : d ≠ []) :
    target ns d (f.1 ++ '.' :: f.2) = some (d ++ (if d.getLast? = some '/' then [] else ['/']) ++ "src/".toList ++ (f.1 ++ '_' :: ns ++ '.' :: f.2)) := by
  have hsl : '/' ∉ f.1 ++ '.' :: f.2 := by simp [hf.slash, hf.slash']
  rw [target, if_neg hns, join_src d _ hsl hne]
  have := C115_label_partial ns (d ++ (if d.getLast? = some '/' then [] else ['/']) ++ "src/".toList ++ f.1) f.2 (by
    rw [List.mem_append, List.mem_append, List.mem_append]
    rintro (((h | h) | h) | h)
    · exact hd h
    · split_ifs at h
      · exact absurd h (by simp)
      · exact absurd h (by decide)
    · exact absurd h (by decide)
    · exact hf.dot h) hf.dot'
  simpa using this

theorem not_noSrc {f : List Char × List Char} (h : Spec.Template.Valid (.source f)) : f.1 ++ '.' :: f.2 ∉ noSrc := by
  unfold noSrc
  rw [List.mem_cons, List.mem_singleton, not_or]
  refine ⟨fun he => ?_, h.2⟩
  have : '.' ∈ "Makefile".toList := he ▸ by simp
  exact absurd this (by decide)

theorem target_other (ns d t : List Char) (ht : Spec.Template.Valid (.other t)) (hne : d ≠ []) :
    target ns d t = some (d ++ (if d.getLast? = some '/' then [] else ['/']) ++ t) ∧ '/' ∉ t := by
  have hm : t ∈ noSrc := by
    unfold noSrc
    rw [List.mem_cons, List.mem_singleton]
    exact ht
  have hs : '/' ∉ t := by rcases ht with rfl | rfl <;> decide
  refine ⟨?_, hs⟩
  rw [target, if_pos hm, join, if_neg fun h => hs (List.mem_of_head? h)]
  congr 1
  split_ifs with h h' h'
  · simp
  · exact absurd (h.resolve_left hne) h'
  · exact absurd (Or.inr h') h
  · simp

theorem split_append (c : Char) (a b : List Char) : split c (a ++ c :: b) = split c a ++ split c b := by
  induction a with
  | nil => simp [split]
  | cons x a ih =>
    rw [List.cons_append, split, split]
    split_ifs
    · rw [ih]
      rfl
    · rw [ih]
      cases h : split c a with
      | nil => exact absurd h (split_ne_nil c a)
      | cons y r => rfl

theorem label_dot (ns a b ext : List Char) (hb : '.' ∉ b) (he : '.' ∉ ext) : addLabel ns (a ++ '.' :: (b ++ '.' :: ext)) = some (b ++ '_' :: ns ++ '.' :: ext) := by
  unfold addLabel
  rw [split_append, split_cons _ _ _ hb, split_none _ _ he]
  simp [last2, last]

/-! ## Theorems -/

/-- **C202** (part) If the name of the export directory ends with a slash (and has no dot), all sources are put into its subdirectory `src`: those of the templates, with
label, and those with the optimization problem. The other files are put into the directory itself.
Missing: directories without slash at the end (`C202_slash_violated`), directories with a dot (`C202_dot_violated`). -/
theorem C202_partial (ns : List Char) (hn : '/' ∉ ns) (dirs : List (List Char)) (d : List Char) (hs : d.getLast? = some '/') (hd : '.' ∉ d)
    (ts : List Spec.Template) (hts : ∀ t ∈ ts, t.Valid) (f : List Char × List Char) (hf : .source f ∈ ts) (generated : List (List Char)) (hg : ∀ g ∈ generated, '/' ∉ g) :
    exportFiles ns dirs d (ts.map Spec.Template.name) generated = some (ts.map (Spec.Template.place ns d) ++ generated.map fun g => d ++ "src/".toList ++ g) := by
  have hdne : d ≠ [] := by
    rintro rfl
    simp at hs
  have h1 : (ts.map Spec.Template.name).mapM (target ns d) = some (ts.map (Spec.Template.place ns d)) := by
    rw [List.mapM_map]
    refine mapM_some_of _ _ _ fun t ht => ?_
    cases t with
    | source f =>
      rw [Function.comp_apply, Spec.Template.name, target_source ns d f (hts _ ht).1 (not_noSrc (hts _ ht)) hd hdne, if_pos hs, List.append_nil]
      rfl
    | other t =>
      rw [Function.comp_apply, Spec.Template.name, (target_other ns d t (hts _ ht) hdne).1, if_pos hs, List.append_nil]
      rfl
  have hsplit : ∀ x : List Char, d ++ "src/".toList ++ x = (d ++ "src".toList) ++ '/' :: x := fun x => by simp
  have hin : d ++ "src".toList ∈ dirs ++ (ts.map (Spec.Template.place ns d)).map dirname := by
    refine List.mem_append_right _ (List.mem_map.2 ⟨_, List.mem_map_of_mem hf, ?_⟩)
    rw [Spec.Template.place, Spec.place, hsplit, dirname_slash]
    simp [(hts _ hf).1.slash, (hts _ hf).1.slash', hn]
  have h2 : generated.mapM (move (dirs ++ (ts.map (Spec.Template.place ns d)).map dirname) d) = some (generated.map fun g => d ++ "src/".toList ++ g) := by
    refine mapM_some_of _ _ _ fun g hg' => ?_
    rw [move, if_pos]
    rw [hsplit, dirname_slash _ _ (hg g hg')]
    exact hin
  unfold exportFiles
  rw [h1, Option.bind_some, h2]
  rfl

/-- **C202** fails for every other name of the directory: the files with the optimization problem should be moved to another directory, whose name ends with `src`.
If that does not happen to exist, the export stops with an exception, after the templates have been copied. -/
theorem C202_slash_violated (ns : List Char) (hn : '/' ∉ ns) (dirs : List (List Char)) (d : List Char) (hs : d.getLast? ≠ some '/') (hdne : d ≠ []) (hd : '.' ∉ d)
    (hdirs : d ++ "src".toList ∉ dirs) (ts : List Spec.Template) (hts : ∀ t ∈ ts, t.Valid) (generated : List (List Char)) (hg : ∀ g ∈ generated, '/' ∉ g) (hne : generated ≠ []) :
    exportFiles ns dirs d (ts.map Spec.Template.name) generated = none := by
  have h1 : (ts.map Spec.Template.name).mapM (target ns d) = some (ts.map (Spec.Template.place ns (d ++ ['/']))) := by
    rw [List.mapM_map]
    refine mapM_some_of _ _ _ fun t ht => ?_
    cases t with
    | source f =>
      rw [Function.comp_apply, Spec.Template.name, target_source ns d f (hts _ ht).1 (not_noSrc (hts _ ht)) hd hdne, if_neg hs]
      rfl
    | other t =>
      rw [Function.comp_apply, Spec.Template.name, (target_other ns d t (hts _ ht) hdne).1, if_neg hs]
      rfl
  obtain ⟨g, hg'⟩ := List.exists_mem_of_ne_nil _ hne
  unfold exportFiles
  rw [h1, Option.bind_some, mapM_none_of _ generated g hg' ?_]
  · rfl
  · rw [move, if_neg]
    rw [show d ++ "src/".toList ++ g = (d ++ "src".toList) ++ '/' :: g by simp, dirname_slash _ _ (hg g hg'), List.mem_append, not_or]
    refine ⟨hdirs, fun h => ?_⟩
    obtain ⟨p, hp, he⟩ := List.mem_map.1 h
    obtain ⟨t, ht, rfl⟩ := List.mem_map.1 hp
    cases t with
    | source f =>
      rw [Spec.Template.place, Spec.place, show d ++ ['/'] ++ "src/".toList ++ (f.1 ++ '_' :: ns ++ '.' :: f.2) = (d ++ "/src".toList) ++ '/' :: (f.1 ++ '_' :: ns ++ '.' :: f.2) by simp,
        dirname_slash _ _ (by simp [(hts _ ht).1.slash, (hts _ ht).1.slash', hn])] at he
      exact absurd (congrArg List.length he) (by simp)
    | other t =>
      rw [Spec.Template.place, show d ++ ['/'] ++ t = d ++ '/' :: t by simp, dirname_slash _ _ (target_other ns d t (hts _ ht) hdne).2] at he
      exact absurd (congrArg List.length he) (by simp)

/-- **C202** fails for directories with a dot in their name, as `./export/`: the sources of the templates are put into `src` of the part `b` behind the last dot, the files with the
optimization problem should be moved to the directory that the user gave. If that does not happen to have a subdirectory `src`, the export stops with an exception. -/
theorem C202_dot_violated (ns : List Char) (hn : '/' ∉ ns) (dirs : List (List Char)) (a b : List Char) (hb : '.' ∉ b) (hs : b.getLast? = some '/')
    (hdirs : a ++ '.' :: b ++ "src".toList ∉ dirs) (ts : List Spec.Template) (hts : ∀ t ∈ ts, t.Valid) (generated : List (List Char)) (hg : ∀ g ∈ generated, '/' ∉ g) (hne : generated ≠ []) :
    (∀ f, .source f ∈ ts → target ns (a ++ '.' :: b) (f.1 ++ '.' :: f.2) = some (Spec.place ns b f)) ∧
      exportFiles ns dirs (a ++ '.' :: b) (ts.map Spec.Template.name) generated = none := by
  have hl : (a ++ '.' :: b).getLast? = some '/' := by rw [List.getLast?_append, List.getLast?_cons, hs]; rfl
  have hdne : a ++ '.' :: b ≠ [] := by simp
  have h0 : ∀ f, .source f ∈ ts → target ns (a ++ '.' :: b) (f.1 ++ '.' :: f.2) = some (Spec.place ns b f) := by
    intro f hf
    have hN := (hts _ hf).1
    have hsl : '/' ∉ f.1 ++ '.' :: f.2 := by simp [hN.slash, hN.slash']
    rw [target, if_neg (not_noSrc (hts _ hf)), join_src _ _ hsl hdne, if_pos hl,
      show a ++ '.' :: b ++ [] ++ "src/".toList ++ (f.1 ++ '.' :: f.2) = a ++ '.' :: ((b ++ "src/".toList ++ f.1) ++ '.' :: f.2) by simp,
      label_dot ns a _ f.2 (by
        rw [List.mem_append, List.mem_append, not_or, not_or]
        exact ⟨⟨hb, by decide⟩, hN.dot⟩) hN.dot']
    simp [Spec.place]
  refine ⟨h0, ?_⟩
  have h1 : (ts.map Spec.Template.name).mapM (target ns (a ++ '.' :: b)) = some (ts.map fun t => match t with
      | .source f => Spec.place ns b f
      | .other t => a ++ '.' :: b ++ t) := by
    rw [List.mapM_map]
    refine mapM_some_of _ _ _ fun t ht => ?_
    cases t with
    | source f => exact h0 f ht
    | other t => rw [Function.comp_apply, Spec.Template.name, (target_other ns _ t (hts _ ht) hdne).1, if_pos hl, List.append_nil]
  obtain ⟨g, hg'⟩ := List.exists_mem_of_ne_nil _ hne
  obtain ⟨b', rfl⟩ : ∃ b', b = b' ++ ['/'] := by
    obtain ⟨b', hb'⟩ := List.getLast?_eq_some_iff.1 hs
    exact ⟨b', hb'⟩
  unfold exportFiles
  rw [h1, Option.bind_some, mapM_none_of _ generated g hg' ?_]
  · rfl
  · rw [move, if_neg]
    rw [show a ++ '.' :: (b' ++ ['/']) ++ "src/".toList ++ g = (a ++ '.' :: (b' ++ ['/']) ++ "src".toList) ++ '/' :: g by simp, dirname_slash _ _ (hg g hg'), List.mem_append, not_or]
    refine ⟨hdirs, fun h => ?_⟩
    obtain ⟨p, hp, he⟩ := List.mem_map.1 h
    obtain ⟨t, ht, rfl⟩ := List.mem_map.1 hp
    cases t with
    | source f =>
      have hN := (hts _ ht).1
      simp only [Spec.place] at he
      rw [show b' ++ ['/'] ++ "src/".toList ++ (f.1 ++ '_' :: ns ++ '.' :: f.2) = (b' ++ "/src".toList) ++ '/' :: (f.1 ++ '_' :: ns ++ '.' :: f.2) by simp,
        dirname_slash _ _ (by simp [hN.slash, hN.slash', hn])] at he
      have := congrArg List.length he
      simp at this
      omega
    | other t =>
      simp only at he
      rw [show a ++ '.' :: (b' ++ ['/']) ++ t = (a ++ '.' :: b') ++ '/' :: t by simp, dirname_slash _ _ (target_other ns _ t (hts _ ht) hdne).2] at he
      have := congrArg List.length he
      simp at this

/-! ## Examples -/

/-- A source file and the file for `make`. -/
def exTemplates : List Spec.Template := [.source ("Vehicle".toList, "cpp".toList), .other "Makefile".toList]

theorem exValid : ∀ t ∈ exTemplates, t.Valid := by
  intro t ht
  simp only [exTemplates, List.mem_cons, List.not_mem_nil, or_false] at ht
  rcases ht with rfl | rfl
  · exact ⟨⟨by decide, by decide, by decide, by decide⟩, by decide⟩
  · exact Or.inl rfl

example : exportFiles "omg".toList [] "export/".toList ["Vehicle.cpp".toList, "Makefile".toList] ["nlp.c".toList] =
    some ["export/src/Vehicle_omg.cpp".toList, "export/Makefile".toList, "export/src/nlp.c".toList] :=
  C202_partial "omg".toList (by decide) [] "export/".toList (by decide) (by decide) exTemplates exValid ("Vehicle".toList, "cpp".toList) (by simp [exTemplates]) ["nlp.c".toList] (by decide)

example : exportFiles "omg".toList [] "export".toList ["Vehicle.cpp".toList, "Makefile".toList] ["nlp.c".toList] = none :=
  C202_slash_violated "omg".toList (by decide) [] "export".toList (by decide) (by decide) (by decide) (by decide) exTemplates exValid ["nlp.c".toList] (by decide) (by decide)

example : exportFiles "omg".toList [] "./export/".toList ["Vehicle.cpp".toList, "Makefile".toList] ["nlp.c".toList] = none :=
  (C202_dot_violated "omg".toList (by decide) [] [] "/export/".toList (by decide) (by decide) (by decide) exTemplates exValid ["nlp.c".toList] (by decide) (by decide)).2

end Verif.Export.Places
