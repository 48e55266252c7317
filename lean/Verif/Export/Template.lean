import Mathlib.Data.List.Basic
import Mathlib.Data.List.Infix
import Mathlib.Data.List.Nodup

/-! # Filling in the templates of the exported program (C198) -/

set_option linter.unusedSectionVars false

namespace Verif.Export.Template

/-! ## Model -/

/-- `body.replace(p, v)` of Python for a pattern that is not empty: from the left, without overlaps. -/
def replace (p v : List Char) : List Char → List Char
  | [] => []
  | c :: s => if p <+: c :: s then v ++ replace p v (s.drop (p.length - 1)) else c :: replace p v s
termination_by s => s.length
decreasing_by
  · simp only [List.length_drop, List.length_cons]
    omega
  · simp

/-- `fill_template` for one file, export.py:183-197: one replacement after the other, in the order of the dictionary `data`. -/
def fill (data : List (List Char × List Char)) (body : List Char) : List Char :=
  data.foldl (fun b e => replace ('@' :: (e.1 ++ ['@'])) e.2 b) body

/-! ## Specification -/

/-- A template consists of plain text, single `@` signs (as `$@` in a Makefile) and places to be filled in. -/
inductive Spec.Piece where
  | text (t : List Char)
  | hole (key : List Char)
  | sign

/-- The text of the template. -/
def Spec.Piece.render : Spec.Piece → List Char
  | .text t => t
  | .hole k => '@' :: (k ++ ['@'])
  | .sign => ['@']

def Spec.render (ps : List Spec.Piece) : List Char := ps.flatMap Spec.Piece.render

/-- Every place gets its own value; places without a value stay. -/
def Spec.filled (data : List (List Char × List Char)) (ps : List Spec.Piece) : List Char :=
  ps.flatMap fun
    | .text t => t
    | .hole k => (data.lookup k).getD ('@' :: (k ++ ['@']))
    | .sign => ['@']

/-- The text up to the next place or sign contains a line break, if there is a next one. -/
def Spec.breaks : List Spec.Piece → Prop
  | [] => True
  | .hole _ :: _ => False
  | .sign :: _ => False
  | .text t :: l => '\n' ∈ t ∨ Spec.breaks l

/-- The places and signs are on different lines. -/
def Spec.OwnLines : List Spec.Piece → Prop
  | [] => True
  | .hole _ :: l => Spec.breaks l ∧ Spec.OwnLines l
  | .sign :: l => Spec.breaks l ∧ Spec.OwnLines l
  | .text _ :: l => Spec.OwnLines l

/-- Text without `@`, keys without `@` and line breaks. -/
def Spec.Piece.Clean : Spec.Piece → Prop
  | .text t => '@' ∉ t
  | .hole k => '@' ∉ k ∧ '\n' ∉ k
  | .sign => True

/-! ## Lemmas -/

theorem replace_text (k v t s : List Char) (ht : '@' ∉ t) : replace ('@' :: k) v (t ++ s) = t ++ replace ('@' :: k) v s := by
  induction t with
  | nil => rfl
  | cons c t ih =>
    rw [List.mem_cons, not_or] at ht
    rw [List.cons_append, replace, if_neg, ih ht.2, List.cons_append]
    intro h
    exact ht.1 (List.cons_prefix_cons.1 h).1

/-- Two texts that end at the first `@`. -/
theorem key_eq {k k' r : List Char} (hk : '@' ∉ k) (hk' : '@' ∉ k') (h : k ++ ['@'] <+: k' ++ ('@' :: r)) : k = k' := by
  induction k generalizing k' with
  | nil =>
    cases k' with
    | nil => rfl
    | cons c k' =>
      have h' : '@' = c := (List.cons_prefix_cons.1 h).1
      exact absurd (by rw [h']; simp) hk'
  | cons d k ih =>
    cases k' with
    | nil =>
      have := (List.cons_prefix_cons.1 h).1
      exact absurd (by simp [this]) hk
    | cons c k' =>
      have := List.cons_prefix_cons.1 h
      rw [List.mem_cons, not_or] at hk hk'
      rw [this.1, ih hk.2 hk'.2 this.2]

/-- No key begins behind a place. -/
theorem not_behind (l : List Spec.Piece) (hc : ∀ p ∈ l, p.Clean) (hb : Spec.breaks l) : ∀ k : List Char, '\n' ∉ k → ¬ k ++ ['@'] <+: Spec.render l := by
  induction l with
  | nil =>
    intro k _ h
    have := h.length_le
    simp [Spec.render] at this
  | cons p l ih =>
    cases p with
    | hole k => exact absurd hb (by simp [Spec.breaks])
    | sign => exact absurd hb (by simp [Spec.breaks])
    | text t =>
      have ht : '@' ∉ t := hc (.text t) (by simp)
      have hrest := ih fun p hp => hc p (by simp [hp])
      have e : Spec.render (.text t :: l) = t ++ Spec.render l := rfl
      rw [e]
      -- through the text, character by character
      have key : ∀ t : List Char, '@' ∉ t → ('\n' ∈ t ∨ Spec.breaks l) → ∀ k : List Char, '\n' ∉ k → ¬ k ++ ['@'] <+: t ++ Spec.render l := by
        intro t
        induction t with
        | nil =>
          intro _ h k hk
          exact hrest (h.resolve_left (by simp)) k hk
        | cons c t iht =>
          intro ht h k hk hp
          rw [List.mem_cons, not_or] at ht
          cases k with
          | nil => exact ht.1 (List.cons_prefix_cons.1 hp).1
          | cons d k =>
            have hp' := List.cons_prefix_cons.1 hp
            rw [List.mem_cons, not_or] at hk
            refine iht ht.2 ?_ k hk.2 hp'.2
            rcases h with h | h
            · rcases List.mem_cons.1 h with h | h
              · exact absurd (h.trans hp'.1.symm) hk.1
              · exact Or.inl h
            · exact Or.inr h
      exact key t ht hb

/-- One key is filled in. -/
def fillOne (k v : List Char) (p : Spec.Piece) : Spec.Piece :=
  match p with
  | .text t => .text t
  | .hole k' => if k' = k then .text v else .hole k'
  | .sign => .sign

theorem replace_render (k v : List Char) (hk : '@' ∉ k) (hkn : '\n' ∉ k) (l : List Spec.Piece) (hc : ∀ p ∈ l, p.Clean) (hs : Spec.OwnLines l) :
    replace ('@' :: (k ++ ['@'])) v (Spec.render l) = Spec.render (l.map (fillOne k v)) := by
  induction l with
  | nil => simp [Spec.render, replace]
  | cons p l ih =>
    have hc' : ∀ p ∈ l, p.Clean := fun p hp => hc p (by simp [hp])
    cases p with
    | text t =>
      have e : Spec.render (.text t :: l) = t ++ Spec.render l := rfl
      rw [e, replace_text _ _ _ _ (hc (.text t) (by simp)), ih hc' hs]
      rfl
    | sign =>
      obtain ⟨hb, hs'⟩ := hs
      have e : Spec.render (.sign :: l) = '@' :: Spec.render l := rfl
      rw [e, replace, if_neg fun h => not_behind l hc' hb k hkn (List.cons_prefix_cons.1 h).2, ih hc' hs']
      rfl
    | hole k' =>
      obtain ⟨hb, hs'⟩ := hs
      obtain ⟨h1, h2⟩ : '@' ∉ k' ∧ '\n' ∉ k' := hc (.hole k') (by simp)
      have e : Spec.render (.hole k' :: l) = '@' :: (k' ++ ('@' :: Spec.render l)) := by simp [Spec.render, Spec.Piece.render]
      rw [e, replace]
      by_cases hk' : k' = k
      · subst hk'
        rw [if_pos (by simp), show ('@' :: (k' ++ ['@'])).length - 1 = (k' ++ ['@']).length from by simp]
        have : (k' ++ '@' :: Spec.render l).drop (k' ++ ['@']).length = Spec.render l := by
          rw [show k' ++ '@' :: Spec.render l = (k' ++ ['@']) ++ Spec.render l by simp, List.drop_left]
        rw [this, ih hc' hs']
        simp [Spec.render, fillOne, Spec.Piece.render]
      · rw [if_neg fun h => hk' (key_eq hk h1 (List.cons_prefix_cons.1 h).2).symm, replace_text _ _ _ _ h1, replace,
          if_neg fun h => not_behind l hc' hb k hkn (List.cons_prefix_cons.1 h).2, ih hc' hs']
        simp [Spec.render, fillOne, Spec.Piece.render, hk']

theorem fillOne_clean (k v : List Char) (hv : '@' ∉ v) {p : Spec.Piece} (h : p.Clean) : (fillOne k v p).Clean := by
  cases p with
  | text t => exact h
  | sign => exact h
  | hole k' =>
    unfold fillOne
    simp only
    split_ifs
    · exact hv
    · exact h

theorem fillOne_breaks (k v : List Char) (l : List Spec.Piece) (h : Spec.breaks l) : Spec.breaks (l.map (fillOne k v)) := by
  induction l with
  | nil => trivial
  | cons p l ih =>
    cases p with
    | text t => exact h.imp_right ih
    | hole k' => exact absurd h (by simp [Spec.breaks])
    | sign => exact absurd h (by simp [Spec.breaks])

theorem fillOne_lines (k v : List Char) (l : List Spec.Piece) (h : Spec.OwnLines l) : Spec.OwnLines (l.map (fillOne k v)) := by
  induction l with
  | nil => trivial
  | cons p l ih =>
    cases p with
    | text t => exact ih h
    | sign => exact ⟨fillOne_breaks k v l h.1, ih h.2⟩
    | hole k' =>
      rw [List.map_cons]
      unfold fillOne
      simp only
      split_ifs
      · exact ih h.2
      · exact ⟨fillOne_breaks k v l h.1, ih h.2⟩

/-! ## Theorems -/

/-- **C198** (part) If the places and `@` signs of a template are on different lines and no value contains `@`, every place is filled with its own value, places without a
value stay, and all other text is unchanged, whatever the order of the dictionary.
Missing: several places on one line (`C198_line_violated`), values with `@` (`C198_value_violated`). -/
theorem C198_partial (data : List (List Char × List Char)) (hd : (data.map Prod.fst).Nodup) (hk : ∀ e ∈ data, '@' ∉ e.1 ∧ '\n' ∉ e.1 ∧ '@' ∉ e.2)
    (ps : List Spec.Piece) (hc : ∀ p ∈ ps, p.Clean) (hs : Spec.OwnLines ps) : fill data (Spec.render ps) = Spec.filled data ps := by
  induction data generalizing ps with
  | nil =>
    unfold fill Spec.filled Spec.render
    simp only [List.foldl_nil]
    congr 1
  | cons e data ih =>
    obtain ⟨h1, h2, h3⟩ := hk e (by simp)
    rw [List.map_cons, List.nodup_cons] at hd
    have step : fill (e :: data) (Spec.render ps) = fill data (replace ('@' :: (e.1 ++ ['@'])) e.2 (Spec.render ps)) := rfl
    rw [step, replace_render e.1 e.2 h1 h2 ps hc hs, ih hd.2 (fun d hd' => hk d (by simp [hd'])) _ (fun p hp => by
      obtain ⟨q, hq, rfl⟩ := List.mem_map.1 hp
      exact fillOne_clean _ _ h3 (hc q hq)) (fillOne_lines _ _ _ hs)]
    unfold Spec.filled
    rw [List.flatMap_map]
    congr 1
    funext p
    cases p with
    | text t => rfl
    | sign => rfl
    | hole k =>
      by_cases he : k = e.1
      · subst he
        obtain ⟨a, b⟩ := e
        simp [fillOne]
      · have : (k == e.1) = false := by simpa using he
        obtain ⟨a, b⟩ := e
        simp only [fillOne, List.lookup_cons]
        simp only at he this
        rw [if_neg he, this]

/-- **C198** fails for two places on one line, if the text between them is a key too and comes first in the dictionary: that text is replaced, and the two
places are not filled. -/
theorem C198_line_violated (k u w vk vu vw : List Char) (h1 : '@' ∉ k ∧ '@' ∉ u ∧ '@' ∉ w) (h2 : '@' ∉ vk) (hne : u ≠ k) (hv : vk ≠ []) :
    fill [(k, vk), (u, vu), (w, vw)] (Spec.render [.hole u, .text k, .hole w]) = '@' :: (u ++ vk ++ w ++ ['@']) := by
  obtain ⟨hk, hu, hw⟩ := h1
  have e : Spec.render [.hole u, .text k, .hole w] = '@' :: (u ++ ('@' :: (k ++ ('@' :: (w ++ ['@']))))) := by simp [Spec.render, Spec.Piece.render]
  have e1 : replace ('@' :: (k ++ ['@'])) vk ('@' :: (u ++ ('@' :: (k ++ ('@' :: (w ++ ['@'])))))) = '@' :: (u ++ vk ++ w ++ ['@']) := by
    rw [replace, if_neg fun h => hne (key_eq hk hu (List.cons_prefix_cons.1 h).2).symm, replace_text _ _ _ _ hu, replace, if_pos (by
      rw [List.cons_prefix_cons]
      exact ⟨rfl, w ++ ['@'], by simp⟩), show ('@' :: (k ++ ['@'])).length - 1 = (k ++ ['@']).length from by simp,
      show k ++ '@' :: (w ++ ['@']) = (k ++ ['@']) ++ (w ++ ['@']) by simp, List.drop_left, replace_text _ _ _ _ hw, replace,
      if_neg (fun h => by have := h.length_le; simp at this)]
    simp [replace]
  have e2 : ∀ x v : List Char, '@' ∉ x → x ≠ u ++ vk ++ w → replace ('@' :: (x ++ ['@'])) v ('@' :: (u ++ vk ++ w ++ ['@'])) = '@' :: (u ++ vk ++ w ++ ['@']) := by
    intro x v hx hxe
    have hm : '@' ∉ u ++ vk ++ w := by simp [hu, h2, hw]
    rw [replace, if_neg fun h => hxe (key_eq (r := []) hx hm (List.cons_prefix_cons.1 h).2), replace_text _ _ _ _ hm, replace,
      if_neg (fun h => by have := h.length_le; simp at this)]
    simp [replace]
  unfold fill
  simp only [List.foldl_cons, List.foldl_nil]
  have hpos : 0 < vk.length := List.length_pos_iff.2 hv
  rw [e, e1, e2 u vu hu (fun h => by have := congrArg List.length h; simp only [List.length_append] at this; omega),
    e2 w vw hw (fun h => by have := congrArg List.length h; simp only [List.length_append] at this; omega)]

/-- **C198** fails for values that look like a place: the place of `a` shows the value of `b`, or not, depending on the order of the dictionary. -/
theorem C198_value_violated (a b vb : List Char) (ha : '@' ∉ a ∧ '\n' ∉ a) (hb : '@' ∉ b ∧ '\n' ∉ b) (hne : a ≠ b) :
    fill [(a, '@' :: (b ++ ['@'])), (b, vb)] (Spec.render [.hole a]) = vb ∧
      fill [(b, vb), (a, '@' :: (b ++ ['@']))] (Spec.render [.hole a]) = '@' :: (b ++ ['@']) := by
  have hca : ∀ p ∈ [Spec.Piece.hole a], p.Clean := fun p hp => by
    obtain rfl := List.mem_singleton.1 hp
    exact ha
  have hcb : ∀ p ∈ [Spec.Piece.hole b], p.Clean := fun p hp => by
    obtain rfl := List.mem_singleton.1 hp
    exact hb
  have e1 := replace_render a ('@' :: (b ++ ['@'])) ha.1 ha.2 [.hole a] hca ⟨trivial, trivial⟩
  have e2 := replace_render b vb hb.1 hb.2 [.hole b] hcb ⟨trivial, trivial⟩
  have e3 := replace_render b vb hb.1 hb.2 [.hole a] hca ⟨trivial, trivial⟩
  simp only [List.map_cons, List.map_nil, fillOne, if_true, if_neg hne] at e1 e2 e3
  have r1 : Spec.render [.text ('@' :: (b ++ ['@']))] = Spec.render [.hole b] := rfl
  unfold fill
  simp only [List.foldl_cons, List.foldl_nil]
  rw [e1, r1, e2, e3, e1]
  exact ⟨by simp [Spec.render, Spec.Piece.render], by simp [Spec.render, Spec.Piece.render]⟩

/-! ## Examples -/

/-- Three lines, the second with a place that stays, the third with a sign. -/
def exTemplate : List Spec.Piece := [.text "A=".toList, .hole "cflags".toList, .text "\nB=".toList, .hole "none".toList, .text "\n$".toList, .sign]

example : Spec.render exTemplate = "A=@cflags@\nB=@none@\n$@".toList := by decide

example : fill [("cflags".toList, "-O3".toList), ("ldflags".toList, "-lm".toList)] "A=@cflags@\nB=@none@\n$@".toList = "A=-O3\nB=@none@\n$@".toList := by
  have h := C198_partial [("cflags".toList, "-O3".toList), ("ldflags".toList, "-lm".toList)] (by decide) (by decide) exTemplate
    (by
      intro p hp
      simp only [exTemplate, List.mem_cons, List.not_mem_nil, or_false] at hp
      rcases hp with rfl | rfl | rfl | rfl | rfl | rfl
      · show '@' ∉ "A=".toList; decide
      · show '@' ∉ "cflags".toList ∧ '\n' ∉ "cflags".toList; decide
      · show '@' ∉ "\nB=".toList; decide
      · show '@' ∉ "none".toList ∧ '\n' ∉ "none".toList; decide
      · show '@' ∉ "\n$".toList; decide
      · trivial)
    ⟨Or.inl (by decide), Or.inl (by decide), trivial, trivial⟩
  have e : Spec.render exTemplate = "A=@cflags@\nB=@none@\n$@".toList := by decide
  rw [← e, h]
  decide

example : fill [("b".toList, "X".toList), ("a".toList, "Y".toList), ("c".toList, "Z".toList)] (Spec.render [.hole "a".toList, .text "b".toList, .hole "c".toList]) =
    "@aXc@".toList := C198_line_violated ['b'] ['a'] ['c'] ['X'] ['Y'] ['Z'] (by decide) (by decide) (by decide) (by decide)

example : fill [("a".toList, "@b@".toList), ("b".toList, "1".toList)] (Spec.render [.hole "a".toList]) = "1".toList :=
  (C198_value_violated ['a'] ['b'] ['1'] (by decide) (by decide) (by decide)).1

end Verif.Export.Template
