import Verif.Export.Includes

/-! # The include guards of the exported headers (C200) -/

set_option linter.unusedSectionVars false

namespace Verif.Export.Guards

open Verif.Export.Files Verif.Export.Template Verif.Export.Includes

/-! ## Model -/

/-- `body.replace(p, v)` of Python; an empty pattern is found in front of every character and at the end. -/
def pyReplace (p v s : List Char) : List Char :=
  if p = [] then v ++ s.flatMap (fun c => c :: v) else replace p v s

/-- `body[body.find(p):]`, if `p` is found. -/
def foundAt (p : List Char) : List Char → Option (List Char)
  | [] => none
  | c :: s => if p <+: c :: s then some (c :: s) else foundAt p s

/-- `body[ind:]`, export.py:154-155; `find` gives `-1` if nothing is found, and `body[-1:]` is the last character. -/
def behind (p body : List Char) : List Char :=
  (foundAt p body).getD (body.drop (body.length - 1))

/-- `body[ind:].split('\n')[0].split(' ')[-1]`, export.py:155. -/
def label (body : List Char) : List Char :=
  (last (split ' ' ((split '\n' (behind ['#', 'i', 'f', 'n', 'd', 'e', 'f'] body)).headD []))).getD []

/-- `set_includeguards` for the text of one header, export.py:153-156; upper case as for the characters of ASCII. -/
def setGuard (ns body : List Char) : List Char :=
  pyReplace (label body) (label body ++ '_' :: ns.map Char.toUpper) body

/-! ## Specification -/

/-- A header with include guard: some text (the licence), the two lines of the guard, the rest. -/
def Spec.header (pre guard rest : List Char) : List Char :=
  pre ++ "#ifndef ".toList ++ guard ++ "\n#define ".toList ++ guard ++ '\n' :: rest

/-- A guard: not empty, one word without `#`, not a part of the words `ifndef` and `define`. -/
structure Spec.Guard (g : List Char) : Prop where
  ne : g ≠ []
  space : ' ' ∉ g
  line : '\n' ∉ g
  hash : '#' ∉ g
  ifndef : ¬ g <:+: "ifndef".toList
  define : ¬ g <:+: "define".toList

/-! ## Lemmas -/

theorem foundAt_skip (p pre s : List Char) (c : Char) (hp : c ∉ pre) : foundAt (c :: p) (pre ++ s) = foundAt (c :: p) s := by
  induction pre with
  | nil => rfl
  | cons d pre ih =>
    rw [List.mem_cons, not_or] at hp
    rw [List.cons_append, foundAt, if_neg fun h => hp.1 (List.cons_prefix_cons.1 h).1, ih hp.2]

theorem foundAt_none (p s : List Char) (h : ¬ p <:+: s) : foundAt p s = none := by
  induction s with
  | nil => rfl
  | cons c s ih => rw [foundAt, if_neg fun hp => h hp.isInfix, ih fun hi => h (hi.trans (List.suffix_cons c s).isInfix)]

theorem header_eq (pre guard rest : List Char) : Spec.header pre guard rest =
    pre ++ '#' :: ("ifndef".toList ++ ' ' :: (guard ++ '\n' :: ([] ++ '#' :: ("define".toList ++ ' ' :: (guard ++ '\n' :: rest))))) := by
  simp [Spec.header]

theorem label_header (pre guard rest : List Char) (hp : '#' ∉ pre) (hs : ' ' ∉ guard) (hn : '\n' ∉ guard) : label (Spec.header pre guard rest) = guard := by
  unfold label behind
  rw [header_eq, foundAt_skip _ _ _ _ hp, foundAt, if_pos (by
    rw [show ['#', 'i', 'f', 'n', 'd', 'e', 'f'] = '#' :: "ifndef".toList by decide, List.cons_prefix_cons]
    exact ⟨rfl, List.prefix_append _ _⟩), Option.getD_some]
  have e : '#' :: ("ifndef".toList ++ ' ' :: (guard ++ '\n' :: ([] ++ '#' :: ("define".toList ++ ' ' :: (guard ++ '\n' :: rest))))) =
      ("#ifndef".toList ++ ' ' :: guard) ++ '\n' :: ('#' :: ("define".toList ++ ' ' :: (guard ++ '\n' :: rest))) := by simp
  rw [e, split_cons _ _ _ (by
    rw [List.mem_append, List.mem_cons, not_or, not_or]
    exact ⟨by decide, by decide, hn⟩), List.headD_cons, split_cons _ _ _ (by decide), split_none _ _ hs]
  rfl

theorem set_header (ns pre g rest : List Char) (hg : Spec.Guard g) (hp : '#' ∉ pre) (h1 : ¬ g <:+: pre) :
    setGuard ns (Spec.header pre g rest) = Spec.header pre (g ++ '_' :: ns.map Char.toUpper) (replace g (g ++ '_' :: ns.map Char.toUpper) rest) := by
  unfold setGuard pyReplace
  rw [label_header pre g rest hp hg.space hg.line, if_neg hg.ne, header_eq, header_eq, replace_sep _ _ _ hg.hash hg.ne, replace_none _ _ _ h1,
    replace_sep _ _ _ hg.space hg.ne, replace_none _ _ _ hg.ifndef, replace_sep _ _ _ hg.line hg.ne, replace_self _ _ hg.ne,
    replace_sep _ _ _ hg.hash hg.ne, replace_nil, replace_sep _ _ _ hg.space hg.ne, replace_none _ _ _ hg.define,
    replace_sep _ _ _ hg.line hg.ne, replace_self _ _ hg.ne]

/-! ## Theorems -/

/-- **C200** (part) If the guard does not occur elsewhere in the header, both lines of the guard get the name of the namespace in upper case, and everything else stays.
Missing: headers in which the guard is part of other words (`C200_word_violated`), headers without guard (`C200_none_violated`), namespaces that differ in upper
and lower case only (`C200_case_violated`). -/
theorem C200_partial (ns pre g rest : List Char) (hg : Spec.Guard g) (hp : '#' ∉ pre) (h1 : ¬ g <:+: pre) (h2 : ¬ g <:+: rest) :
    setGuard ns (Spec.header pre g rest) = Spec.header pre (g ++ '_' :: ns.map Char.toUpper) rest := by
  rw [set_header ns pre g rest hg hp h1, replace_none _ _ _ h2]

/-- **C200** fails for other words that begin with the guard: such a word `g ++ m` of the header is changed too, in the middle. -/
theorem C200_word_violated (ns pre g m after : List Char) (hg : Spec.Guard g) (hp : '#' ∉ pre) (h1 : ¬ g <:+: pre) (h2 : ¬ g <:+: m) (h3 : ¬ g <:+: after) :
    setGuard ns (Spec.header pre g (g ++ m ++ ' ' :: after)) =
      Spec.header pre (g ++ '_' :: ns.map Char.toUpper) (g ++ '_' :: ns.map Char.toUpper ++ m ++ ' ' :: after) := by
  rw [set_header ns pre g _ hg hp h1, replace_sep _ _ _ hg.space hg.ne, replace_none _ _ _ h3]
  have : replace g (g ++ '_' :: ns.map Char.toUpper) (g ++ m) = g ++ '_' :: ns.map Char.toUpper ++ m := by
    have hlen := List.length_pos_iff.2 hg.ne
    cases hgm : g ++ m with
    | nil => exact absurd (List.append_eq_nil_iff.1 hgm).1 hg.ne
    | cons c s =>
      rw [replace, if_pos (by rw [← hgm]; exact List.prefix_append _ _)]
      have : s.drop (g.length - 1) = m := by
        have e := congrArg (List.drop g.length) hgm
        rw [List.drop_left] at e
        rw [e]
        obtain ⟨k, hk⟩ := Nat.exists_eq_succ_of_ne_zero (Nat.pos_iff_ne_zero.1 hlen)
        rw [hk, List.drop_succ_cons, Nat.succ_sub_one]
      rw [this, replace_none _ _ _ h2]
  rw [this]

/-- **C200** fails for headers without `#ifndef` that end with a line break: the name of the namespace is put in front of every single character. -/
theorem C200_none_violated (ns body : List Char) (h : ¬ "#ifndef".toList <:+: body ++ ['\n']) :
    setGuard ns (body ++ ['\n']) = '_' :: ns.map Char.toUpper ++ (body ++ ['\n']).flatMap fun c => c :: '_' :: ns.map Char.toUpper := by
  have hl : label (body ++ ['\n']) = [] := by
    unfold label behind
    rw [foundAt_none _ _ (by rwa [show "#ifndef".toList = ['#', 'i', 'f', 'n', 'd', 'e', 'f'] by decide] at h), Option.getD_none,
      show (body ++ ['\n']).length - 1 = body.length by simp, List.drop_left]
    decide
  unfold setGuard pyReplace
  rw [hl, if_pos rfl]
  rfl

/-- **C200** fails for two namespaces that differ in upper and lower case only: the guards are the same, the second header is left out when both are included. -/
theorem C200_case_violated (ns ns' body : List Char) (h : ns.map Char.toUpper = ns'.map Char.toUpper) : setGuard ns body = setGuard ns' body := by
  unfold setGuard
  rw [h]

/-! ## Examples -/

theorem exGuard : Spec.Guard "VEHICLE".toList := ⟨by decide, by decide, by decide, by decide, by decide, by decide⟩

example : setGuard "omg".toList "// a\n#ifndef VEHICLE\n#define VEHICLE\nclass Vehicle{};\n#endif\n".toList =
    "// a\n#ifndef VEHICLE_OMG\n#define VEHICLE_OMG\nclass Vehicle{};\n#endif\n".toList :=
  C200_partial "omg".toList "// a\n".toList "VEHICLE".toList "class Vehicle{};\n#endif\n".toList exGuard (by decide) (by decide) (by decide)

example : setGuard "omg".toList "#ifndef VEHICLE\n#define VEHICLE\nVEHICLELBL x".toList = "#ifndef VEHICLE_OMG\n#define VEHICLE_OMG\nVEHICLE_OMGLBL x".toList :=
  C200_word_violated "omg".toList [] "VEHICLE".toList "LBL".toList "x".toList exGuard (by decide) (by decide) (by decide) (by decide)

example : setGuard "a".toList "int i;\n".toList = "_Ai_An_At_A _Ai_A;_A\n_A".toList := C200_none_violated ['a'] "int i;".toList (by decide)

example : setGuard "omg".toList = setGuard "Omg".toList := funext fun _ => C200_case_violated _ _ _ (by decide)

end Verif.Export.Guards
