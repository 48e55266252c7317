import Verif.GCode.Blocks

/-! # The words of a GCode line (C117)

Properties of the reading of words, `omgtools/gui/gcode_block.py:294-315` (modelled in `Verif.GCode.Blocks`). -/

set_option linter.unusedSectionVars false

namespace Verif.GCode

variable {K : Type} [Ring K] [DecidableEq K]

/-! ## Specification -/

namespace Spec

/-- The coordinates of a line. -/
inductive Letter where
  | X | Y | Z | I | J | K
deriving DecidableEq

/-- How a coordinate is written. -/
def Letter.char : Letter → Char
  | .X => 'X' | .Y => 'Y' | .Z => 'Z' | .I => 'I' | .J => 'J' | .K => 'K'

/-- A word of a line: a command or a coordinate with the text of its number. -/
inductive Word where
  | command (k : Kind)
  | coord (l : Letter) (text : List Char)

/-- How a word is written. -/
def Word.chars : Word → List Char
  | .command .g00 => "G00".toList
  | .command .g01 => "G01".toList
  | .command .g02 => "G02".toList
  | .command .g03 => "G03".toList
  | .coord l t => l.char :: t

/-- The text has none of the letters the reader looks for. -/
def PlainText (t : List Char) : Prop := ∀ c ∈ t, c ∉ "(XYZIJK".toList

/-- The last command of a line. -/
def lastCommand (ws : List Word) : Option Kind :=
  (ws.filterMap fun w => match w with | .command k => some k | .coord _ _ => none).getLast?

/-- The text of the last word for a coordinate. -/
def lastText (l : Letter) (ws : List Word) : Option (List Char) :=
  (ws.filterMap fun w => match w with | .command _ => none | .coord l' t => if l' = l then some t else none).getLast?

/-- The value of a coordinate in what the reader makes of a line. -/
def coordinate (d : Cmd K) : Letter → Option K
  | .X => d.x | .Y => d.y | .Z => d.z | .I => d.i | .J => d.j | .K => d.k

end Spec

open Spec

/-! ## Lemmas -/

theorem word_command (num : List Char → Option K) (d : Cmd K) (k : Kind) :
    word num d (Word.command k).chars = some { d with type := some k } := by
  cases k <;> rfl

/-- Sets a coordinate. -/
def setCoord (d : Cmd K) (v : K) : Letter → Cmd K
  | .X => { d with x := some v } | .Y => { d with y := some v } | .Z => { d with z := some v }
  | .I => { d with i := some v } | .J => { d with j := some v } | .K => { d with k := some v }

theorem word_coord (num : List Char → Option K) (d : Cmd K) (l : Letter) (t : List Char) (ht : PlainText t) (v : K)
    (hv : num t = some v) : word num d (Word.coord l t).chars = some (setCoord d v l) := by
  have h : ∀ c ∈ "(XYZIJK".toList, c ∉ t := fun c hc h => ht c h hc
  have a0 := h '(' (by decide)
  have a1 := h 'X' (by decide)
  have a2 := h 'Y' (by decide)
  have a3 := h 'Z' (by decide)
  have a4 := h 'I' (by decide)
  have a5 := h 'J' (by decide)
  have a6 := h 'K' (by decide)
  cases l <;> simp [word, Word.chars, Letter.char, setCoord, a0, a1, a2, a3, a4, a5, a6, hv]

theorem lastCommand_append (ws : List Word) (w : Word) :
    lastCommand (ws ++ [w]) = (match w with | .command k => some k | .coord _ _ => lastCommand ws) := by
  cases w <;> simp [lastCommand, List.filterMap_append]

theorem lastText_append (l : Letter) (ws : List Word) (w : Word) :
    lastText l (ws ++ [w]) =
      (match w with | .command _ => lastText l ws | .coord l' t => if l' = l then some t else lastText l ws) := by
  cases w with
  | command k => simp [lastText, List.filterMap_append]
  | coord l' t =>
    by_cases e : l' = l <;> simp [lastText, List.filterMap_append, e]

/-! ## Properties -/

/-- C117 (partial: the words are separated by spaces and the commands written with two digits, see
`C117_digit_violated` and `C117_joined_violated`): the type of a line is that of the command written last, and every
coordinate has the value written last behind its letter; coordinates that are not written have no value. -/
theorem C117_partial (num : List Char → Option K) (ws : List Word)
    (h : ∀ l t, Word.coord l t ∈ ws → PlainText t ∧ num t ≠ none) :
    ∃ d, parse num (ws.map Word.chars) = some d ∧ d.type = lastCommand ws ∧
      ∀ l, coordinate d l = (lastText l ws).bind num := by
  induction ws using List.reverseRecOn with
  | nil => exact ⟨Cmd.empty, rfl, rfl, fun l => by cases l <;> rfl⟩
  | append_singleton ws w ih =>
    obtain ⟨d, h1, h2, h3⟩ := ih (fun l t hm => h l t (by simp [hm]))
    unfold parse at h1 ⊢
    rw [List.map_append, List.foldlM_append, h1, lastCommand_append]
    cases w with
    | command k =>
      refine ⟨{ d with type := some k }, ?_, rfl, ?_⟩
      · simp [word_command]
      · intro l
        rw [lastText_append]
        dsimp only
        rw [← h3]
        cases l <;> rfl
    | coord l' t =>
      obtain ⟨hp, hn⟩ := h l' t (by simp)
      obtain ⟨v, hv⟩ := Option.ne_none_iff_exists'.1 hn
      refine ⟨setCoord d v l', ?_, ?_, ?_⟩
      · simp [word_coord num d l' t hp v hv]
      · cases l' <;> exact h2
      · intro l
        rw [lastText_append]
        dsimp only
        by_cases e : l' = l
        · subst e
          rw [if_pos rfl, Option.bind_some, hv]
          cases l' <;> rfl
        · rw [if_neg e, ← h3]
          cases l' <;> cases l <;> first | rfl | exact absurd rfl e

/-- The line `G03 X5 Y5 J7`. -/
example : ∀ l t, Word.coord l t ∈ [.command .g03, .coord .X ['5'], .coord .Y ['5'], .coord .J ['7']] →
    PlainText t ∧ (fun c : List Char => if c = ['5'] then some (5 : ℚ) else if c = ['7'] then some 7 else none) t ≠ none := by
  intro l t h
  simp only [List.mem_cons, reduceCtorEq, Word.coord.injEq, List.not_mem_nil, or_false, false_or] at h
  rcases h with ⟨_, h⟩ | ⟨_, h⟩ | ⟨_, h⟩ <;> subst h <;> exact ⟨by unfold PlainText; decide, by decide⟩

/-- C117 is violated: `G1` is the same command as `G01`, but a line with `G1` is not read as a movement. -/
theorem C117_digit_violated (num : List Char → Option K) (v : K) (hv : num ['5'] = some v) :
    ∃ d, parse num ["G1".toList, "X5".toList] = some d ∧ ∀ prev, generate d prev = none := by
  refine ⟨⟨none, some v, none, none, none, none, none⟩, ?_, fun prev => rfl⟩
  simp [parse, word, Cmd.empty, hv]

/-- C117 is violated: GCode does not need spaces between the words, but with a command or a coordinate in front
of another the text behind the first letter is not a number and the reader fails. -/
theorem C117_joined_violated (num : List Char → Option K) (t : List Char) (hn : num ("01X".toList ++ t) = none)
    (hc : '(' ∉ t) : parse num [("G01X".toList ++ t)] = none := by
  simp only [show ("01X".toList ++ t) = '0' :: '1' :: 'X' :: t from rfl] at hn
  simp [parse, word, Cmd.empty, hc, hn]

example : (fun c : List Char => if c = ['5'] then some (5 : ℚ) else none) ("01X".toList ++ ['5']) = none := by decide

end Verif.GCode
