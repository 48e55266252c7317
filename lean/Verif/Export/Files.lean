import Mathlib.Data.List.Basic
import Mathlib.Tactic.Common

/-! # The names of the exported files

Mirrors `add_label` and `rmv_label` of `omgtools/export/export.py`.  Strings are lists of characters. -/

namespace Verif.Export.Files

/-- Python's `s.split(c)` for one character. -/
def split (c : Char) : List Char → List (List Char)
  | [] => [[]]
  | x :: r => if x = c then [] :: split c r else
    match split c r with
    | [] => [[x]]
    | h :: t => (x :: h) :: t

/-- Python's `l[-1]`. -/
def last {A : Type} (l : List A) : Option A := l.getLast?

/-- Python's `l[-2]`. -/
def last2 {A : Type} (l : List A) : Option A := l.dropLast.getLast?

/-- `add_label` of one file, export.py:91-93: `split[-2]+'_'+namespace+'.'+split[-1]`; `none` is an
`IndexError`. -/
def addLabel (ns file : List Char) : Option (List Char) :=
  match last2 (split '.' file), last (split '.' file) with
  | some a, some e => some (a ++ '_' :: ns ++ '.' :: e)
  | _, _ => none

/-- `rmv_label` of one file, export.py:99-101: `split[0].split('_')[-2] + '.' + split[-1]`. -/
def rmvLabel (file : List Char) : Option (List Char) :=
  match (split '.' file).head?.bind fun h => last2 (split '_' h), last (split '.' file) with
  | some a, some e => some (a ++ '.' :: e)
  | _, _ => none

/-! ## Lemmas -/

theorem split_none (c : Char) (a : List Char) (h : c ∉ a) : split c a = [a] := by
  induction a with
  | nil => rfl
  | cons x r ih =>
    simp only [List.mem_cons, not_or] at h
    rw [split, if_neg (Ne.symm h.1), ih h.2]

theorem split_cons (c : Char) (a b : List Char) (h : c ∉ a) : split c (a ++ c :: b) = a :: split c b := by
  induction a with
  | nil => simp [split]
  | cons x r ih =>
    simp only [List.mem_cons, not_or] at h
    rw [List.cons_append, split, if_neg (Ne.symm h.1), ih h.2]

theorem split_ne_nil (c : Char) (a : List Char) : split c a ≠ [] := by
  cases a with
  | nil => simp [split]
  | cons x r =>
    rw [split]
    split_ifs
    · simp
    · cases split c r <;> simp

/-- A name `stem.ext`. -/
def name (stem ext : List Char) : List Char := stem ++ '.' :: ext

theorem split_name (stem ext : List Char) (hs : '.' ∉ stem) (he : '.' ∉ ext) :
    split '.' (name stem ext) = [stem, ext] := by
  rw [name, split_cons _ _ _ hs, split_none _ _ he]

theorem addLabel_name (ns stem ext : List Char) (hs : '.' ∉ stem) (he : '.' ∉ ext) :
    addLabel ns (name stem ext) = some (name (stem ++ '_' :: ns) ext) := by
  unfold addLabel
  rw [split_name stem ext hs he]
  simp [last2, last, name]

/-! ## Properties -/

/-- C115: the labelled name (partial: no dot in the name in front of the last one, see `C115_path_violated`): the
exported file has the name of the source file with the namespace in front of the extension. -/
theorem C115_label_partial (ns stem ext : List Char) (hs : '.' ∉ stem) (he : '.' ∉ ext) :
    addLabel ns (stem ++ '.' :: ext) = some (stem ++ '_' :: ns ++ '.' :: ext) := by
  have := addLabel_name ns stem ext hs he
  simpa [name] using this

example : addLabel "omg".toList "src/Point2Point.cpp".toList = some "src/Point2Point_omg.cpp".toList := by decide

/-- C115 is violated by every export directory with a dot in its path: the part of the path up to the dot is lost,
the file is written elsewhere. -/
theorem C115_path_violated (ns dir rest ext : List Char) (hd : '.' ∉ dir) (hr : '.' ∉ rest) (he : '.' ∉ ext) :
    addLabel ns (dir ++ '.' :: (rest ++ '.' :: ext)) = some (rest ++ '_' :: ns ++ '.' :: ext) := by
  unfold addLabel
  rw [split_cons _ _ _ hd, split_cons _ _ _ hr, split_none _ _ he]
  simp [last2, last]

example : addLabel "omg".toList "/home/me/v1.2/export/src/Vehicle.cpp".toList =
    some "2/export/src/Vehicle_omg.cpp".toList := by decide

/-- C115: the label can be taken off again (partial: neither the name nor the namespace has an underscore, see
`C115_namespace_violated` and `C115_stem_violated`). -/
theorem C115_roundTrip_partial (ns stem ext : List Char) (hs : '.' ∉ stem) (he : '.' ∉ ext) (hn : '.' ∉ ns)
    (hs' : '_' ∉ stem) (hn' : '_' ∉ ns) :
    (addLabel ns (stem ++ '.' :: ext)).bind rmvLabel = some (stem ++ '.' :: ext) := by
  have h := addLabel_name ns stem ext hs he
  rw [name] at h
  rw [h, Option.bind_some]
  unfold rmvLabel
  rw [split_name _ _ (by simp [hs, hn]) he]
  simp only [List.head?_cons, Option.bind_some]
  rw [split_cons _ _ _ hs', split_none _ _ hn']
  simp [last2, last]

example : (addLabel "omg".toList "Point2Point.cpp".toList).bind rmvLabel = some "Point2Point.cpp".toList := by decide

/-- C115: different files keep different names (with the guard of `C115_roundTrip_partial`). -/
theorem C115_injective_partial (ns stem stem' ext ext' : List Char) (hs : '.' ∉ stem) (he : '.' ∉ ext) (hn : '.' ∉ ns)
    (hs' : '.' ∉ stem') (he' : '.' ∉ ext')
    (h : addLabel ns (stem ++ '.' :: ext) = addLabel ns (stem' ++ '.' :: ext')) : stem = stem' ∧ ext = ext' := by
  have h1 := addLabel_name ns stem ext hs he
  have h2 := addLabel_name ns stem' ext' hs' he'
  rw [name] at h1 h2
  rw [h1, h2, Option.some.injEq] at h
  have e := congrArg (split '.') h
  rw [split_name _ _ (by simp [hs, hn]) he, split_name _ _ (by simp [hs', hn]) he'] at e
  simp only [List.cons.injEq, and_true] at e
  exact ⟨List.append_cancel_right e.1, e.2⟩

/-- C115 is violated by every namespace with an underscore: taking the label off gives another name, the includes of
the exported files are not adapted. -/
theorem C115_namespace_violated (n1 n2 stem ext : List Char) (hs : '.' ∉ stem) (he : '.' ∉ ext)
    (h1 : '.' ∉ n1) (h2 : '.' ∉ n2) (hs' : '_' ∉ stem) (h1' : '_' ∉ n1) (h2' : '_' ∉ n2) :
    (addLabel (n1 ++ '_' :: n2) (stem ++ '.' :: ext)).bind rmvLabel = some (n1 ++ '.' :: ext) := by
  have h := addLabel_name (n1 ++ '_' :: n2) stem ext hs he
  rw [name] at h
  rw [h, Option.bind_some]
  unfold rmvLabel
  rw [split_name _ _ (by simp [hs, h1, h2]) he]
  simp only [List.head?_cons, Option.bind_some]
  rw [split_cons _ _ _ hs', split_cons _ _ _ h1', split_none _ _ h2']
  simp [last2, last]

example : (addLabel "my_ns".toList "Vehicle.hpp".toList).bind rmvLabel = some "my.hpp".toList := by decide

/-- C115 is violated by every file with an underscore in its name: the part in front of it is lost. -/
theorem C115_stem_violated (ns s1 s2 ext : List Char) (h1 : '.' ∉ s1) (h2 : '.' ∉ s2) (he : '.' ∉ ext) (hn : '.' ∉ ns)
    (h1' : '_' ∉ s1) (h2' : '_' ∉ s2) (hn' : '_' ∉ ns) :
    (addLabel ns (s1 ++ '_' :: s2 ++ '.' :: ext)).bind rmvLabel = some (s2 ++ '.' :: ext) := by
  have h := addLabel_name ns (s1 ++ '_' :: s2) ext (by simp [h1, h2]) he
  rw [name] at h
  rw [h, Option.bind_some]
  unfold rmvLabel
  rw [split_name _ _ (by simp [h1, h2, hn]) he]
  simp only [List.head?_cons, Option.bind_some, List.append_assoc, List.cons_append]
  rw [split_cons _ _ _ h1', split_cons _ _ _ h2', split_none _ _ hn']
  simp [last2, last]

example : (addLabel "omg".toList "my_vehicle.hpp".toList).bind rmvLabel = some "vehicle.hpp".toList := by decide

end Verif.Export.Files
