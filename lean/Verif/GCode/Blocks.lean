import Mathlib.Data.List.Chain
import Mathlib.Algebra.Order.Ring.Defs
import Mathlib.Data.Rat.Cast.Order
import Mathlib.Tactic.Ring
import Mathlib.Tactic.Abel

/-! # GCode programs: blocks, parts, conversion and reading (C43, C44, C78-C82)

Mirrors `omgtools/gui/gcode_block.py:1-60, 294-344` and `omgtools/gui/gcode_reader.py`.  Lines are lists of words, words lists of
characters; the conversion of text to numbers (`float`) is a parameter. -/

set_option linter.unusedSectionVars false

namespace Verif.GCode

variable {K : Type} [Ring K] [DecidableEq K]

/-! ## Model: words -/

/-- The supported commands. -/
inductive Kind where
  | g00 | g01 | g02 | g03
deriving DecidableEq

/-- `command_dict`, gcode_block.py:297: the entry `type` and the values for `X`, `Y`, `Z`, `I`, `J`, `K`. -/
structure Cmd (K : Type) where
  type : Option Kind
  x : Option K
  y : Option K
  z : Option K
  i : Option K
  j : Option K
  k : Option K
deriving DecidableEq

/-- The empty dictionary. -/
def Cmd.empty : Cmd K := ⟨none, none, none, none, none, none, none⟩

/-- One word of a line, gcode_block.py:298-315; `none` stands for the `ValueError` of `float`. -/
def word (num : List Char → Option K) (d : Cmd K) (c : List Char) : Option (Cmd K) :=
  if c = ['G', '0', '0'] then some { d with type := some .g00 }
  else if c = ['G', '0', '1'] then some { d with type := some .g01 }
  else if c = ['G', '0', '2'] then some { d with type := some .g02 }
  else if c = ['G', '0', '3'] then some { d with type := some .g03 }
  else if '(' ∈ c then some d
  else if 'X' ∈ c then (num (c.drop 1)).map fun v => { d with x := some v }
  else if 'Y' ∈ c then (num (c.drop 1)).map fun v => { d with y := some v }
  else if 'Z' ∈ c then (num (c.drop 1)).map fun v => { d with z := some v }
  else if 'I' ∈ c then (num (c.drop 1)).map fun v => { d with i := some v }
  else if 'J' ∈ c then (num (c.drop 1)).map fun v => { d with j := some v }
  else if 'K' ∈ c then (num (c.drop 1)).map fun v => { d with k := some v }
  else some d

/-- The loop over the words of a line, gcode_block.py:296-315. -/
def parse (num : List Char → Option K) (line : List (List Char)) : Option (Cmd K) := line.foldlM (word num) Cmd.empty

/-! ## Model: blocks -/

/-- A GCode block: kind, start, end and the values for `I`, `J`, `K`. -/
structure Block (K : Type) where
  kind : Kind
  start : K × K × K
  stop : K × K × K
  i : Option K
  j : Option K
  k : Option K
deriving DecidableEq

/-- `generate_gcodeblock` after the parsing and the constructor of the block, gcode_block.py:5-31, 317-344. -/
def generate (c : Cmd K) (prev : Option (Block K)) : Option (Block K) :=
  match c.type with
  | none => none
  | some t =>
    let s : K × K × K := match prev with
      | some p => p.stop
      | none => if t = .g00 then (c.x.getD 0, c.y.getD 0, c.z.getD 0) else (0, 0, 0)
    some ⟨t, s, (c.x.getD s.1, c.y.getD s.2.1, c.z.getD s.2.2), c.i, c.j, c.k⟩

/-- The test for a straight block without movement, gcode_reader.py:170-174. -/
def Block.still (b : Block K) : Bool := (decide (b.kind = .g00) || decide (b.kind = .g01)) && decide (b.start = b.stop)

/-- One round of the loop in `create_blocks`, gcode_reader.py:167-183: the blocks and the previous block. -/
def addBlock (s : List (Block K) × Option (Block K)) (c : Cmd K) : List (Block K) × Option (Block K) :=
  match generate c s.2 with
  | none => s
  | some b => if b.still then (s.1, some b) else (s.1 ++ [b], some b)

/-- `create_blocks`, gcode_reader.py:159-183, with the blocks there are already. -/
def createBlocks (blocks : List (Block K)) (cs : List (Cmd K)) : List (Block K) := (cs.foldl addBlock (blocks, blocks.getLast?)).1

/-- A block that moves the z-axis, gcode_reader.py:207. -/
def Block.vertical (b : Block K) : Bool := (decide (b.kind = .g00) || decide (b.kind = .g01)) && !decide (b.start.2.2 = b.stop.2.2)

/-- The loop in `get_block_division`, gcode_reader.py:204-220: the parts and the blocks of the current part. -/
def divideLoop : List (Block K) → List (List (Block K)) → List (Block K) → List (List (Block K))
  | [], parts, cur => parts ++ [cur]
  | b :: rest, parts, cur =>
    if b.vertical then divideLoop rest ((if cur ≠ [] then parts ++ [cur] else parts) ++ [[b]]) [] else divideLoop rest parts (cur ++ [b])

/-- `get_block_division`, gcode_reader.py:188-220. -/
def divide (bs : List (Block K)) : List (List (Block K)) := divideLoop bs [] []

/-! ## Model: the reader -/

/-- `commands` and `blocks` of a reader. -/
structure Reader (K : Type) where
  commands : List (Cmd K)
  blocks : List (Block K)

/-- `read` and `create_blocks` for a program, gcode_reader.py:124-157, 159-183, 248-255; `run` does not call `reset`. -/
def Reader.run (r : Reader K) (program : List (Cmd K)) : Reader K :=
  let cs := r.commands ++ program
  ⟨cs, createBlocks r.blocks cs⟩

/-- `reset`, gcode_reader.py:28-30. -/
def Reader.reset (_ : Reader K) : Reader K := ⟨[], []⟩

/-- A line of a file for `read`: a command or the call of a subfile. -/
inductive Line (K : Type) where
  | cmd (c : Cmd K)
  | call (name : ℕ)

/-- `read`, gcode_reader.py:124-157: the commands of the file, then those of all subfiles (which have no calls themselves). -/
def readFile (sub : ℕ → List (Cmd K)) (file : List (Line K)) : List (Cmd K) :=
  (file.filterMap fun l => match l with | .cmd c => some c | .call _ => none) ++
    (file.filterMap fun l => match l with | .cmd _ => none | .call n => some n).flatMap sub

/-- `get_connections`, gcode_reader.py:222-229; `none` stands for the `IndexError` of an empty program. -/
def connections (bs : List (Block K)) : Option (List (K × K × K)) :=
  match bs.getLast?, bs.head? with
  | some l, some h => some (bs.map Block.start ++ [l.start] ++ [h.start])
  | _, _ => none

/-- The shift and the scaling of a command in `convert`, gcode_reader.py:72-112. -/
def convert (a b s : K) (c : Cmd K) : Cmd K :=
  { c with x := c.x.map fun v => (v - a) * s, y := c.y.map fun v => (v - b) * s, i := c.i.map (· * s), j := c.j.map (· * s) }

/-! ## Specification -/

/-- Every block starts where the one before ended. -/
def Spec.Chained (bs : List (Block K)) : Prop := bs.IsChain fun a b => b.start = a.stop

/-- The value given last in a program, zero if there is none; lines that are no command do not count. -/
def Spec.last (f : Cmd K → Option K) (cs : List (Cmd K)) : K := ((cs.filter fun c => c.type.isSome).filterMap f).getLast?.getD 0

/-- The last programmed position. -/
def Spec.position (cs : List (Cmd K)) : K × K × K := (Spec.last Cmd.x cs, Spec.last Cmd.y cs, Spec.last Cmd.z cs)

/-- The movement of command number `n`: kind, start and end; a first command `G00` gives the start of the program. -/
def Spec.move (cs : List (Cmd K)) (n : ℕ) : Option (Kind × (K × K × K) × (K × K × K)) :=
  match cs[n]?.bind Cmd.type with
  | none => none
  | some t =>
    let p := Spec.position (cs.take n)
    let q := Spec.position (cs.take (n + 1))
    if t = .g00 ∧ ∀ c ∈ cs.take n, c.type = none then none
    else if (t = .g00 ∨ t = .g01) ∧ p = q then none else some (t, p, q)

/-- All movements of a program in the order of the program. -/
def Spec.moves (cs : List (Cmd K)) : List (Kind × (K × K × K) × (K × K × K)) := (List.range cs.length).filterMap (Spec.move cs)

/-- The file with every call replaced by the called subfile. -/
def Spec.expand (sub : ℕ → List (Cmd K)) (file : List (Line K)) : List (Cmd K) :=
  file.flatMap fun l => match l with | .cmd c => [c] | .call n => sub n

/-- The shift and scaling of a point. -/
def Spec.image (a b s : K) (p : K × K × K) : K × K × K := ((p.1 - a) * s, (p.2.1 - b) * s, p.2.2)

/-- The shift and scaling of a block; the centre of an arc relative to the start is scaled. -/
def Spec.imageBlock (a b s : K) (u : Block K) : Block K :=
  { u with start := Spec.image a b s u.start, stop := Spec.image a b s u.stop, i := u.i.map (· * s), j := u.j.map (· * s) }

/-! ## Lemmas -/

theorem last_append (f : Cmd K → Option K) (cs : List (Cmd K)) (c : Cmd K) :
    Spec.last f (cs ++ [c]) = if c.type.isSome then (f c).getD (Spec.last f cs) else Spec.last f cs := by
  unfold Spec.last
  rw [List.filter_append]
  by_cases h : c.type.isSome = true
  · rw [if_pos h]
    simp only [List.filter_cons, h, if_true, List.filter_nil, List.filterMap_append, List.filterMap_cons, List.filterMap_nil]
    cases hf : f c with
    | none => simp
    | some v => simp
  · rw [if_neg h]
    simp [h]

/-- What the previous block knows. -/
def Knows (cs : List (Cmd K)) (prev : Option (Block K)) : Prop :=
  match prev with
  | none => ∀ c ∈ cs, c.type = none
  | some p => p.stop = Spec.position cs ∧ ∃ c ∈ cs, c.type.isSome = true

theorem knows_position_none {cs : List (Cmd K)} (h : Knows cs none) : Spec.position cs = (0, 0, 0) := by
  have : cs.filter (fun c => c.type.isSome) = [] := by
    rw [List.filter_eq_nil_iff]
    intro c hc; simp [h c hc]
  simp [Spec.position, Spec.last, this]

theorem generate_some {cs : List (Cmd K)} {prev : Option (Block K)} {c : Cmd K} {t : Kind} (ht : c.type = some t) (hk : Knows cs prev) :
    ∃ b, generate c prev = some b ∧ b.kind = t ∧ b.stop = Spec.position (cs ++ [c]) ∧ (∀ p, prev = some p → b.start = p.stop) ∧
      (prev = none → b.start = if t = .g00 then b.stop else (0, 0, 0)) := by
  have hpos : Spec.position (cs ++ [c]) = (c.x.getD (Spec.last Cmd.x cs), c.y.getD (Spec.last Cmd.y cs), c.z.getD (Spec.last Cmd.z cs)) := by
    simp [Spec.position, last_append, ht]
  unfold generate
  rw [ht]
  cases prev with
  | some p =>
    refine ⟨_, rfl, rfl, ?_, ?_, ?_⟩
    · rw [hpos]
      have : p.stop = Spec.position cs := hk.1
      simp [this, Spec.position]
    · intro q hq; cases hq; rfl
    · intro h; simp at h
  | none =>
    have h0 := knows_position_none hk
    simp only [Spec.position, Prod.mk.injEq] at h0
    refine ⟨_, rfl, rfl, ?_, ?_, ?_⟩
    · rw [hpos, h0.1, h0.2.1, h0.2.2]
      simp only
      split <;> [(cases c.x <;> cases c.y <;> cases c.z <;> simp); simp]
    · intro p hp; simp at hp
    · intro _
      simp only
      split <;> [(cases c.x <;> cases c.y <;> cases c.z <;> simp); simp]

/-- The invariant of the loop: `cs` are the commands so far. -/
def Inv (cs : List (Cmd K)) (s : List (Block K) × Option (Block K)) : Prop :=
  Knows cs s.2 ∧ Spec.Chained s.1 ∧ (∀ b ∈ s.1.getLast?, ∃ p, s.2 = some p ∧ b.stop = p.stop) ∧
    s.1.map (fun b => (b.kind, b.start, b.stop)) = Spec.moves cs

theorem moves_append (cs : List (Cmd K)) (c : Cmd K) :
    Spec.moves (cs ++ [c]) = Spec.moves cs ++ (Spec.move (cs ++ [c]) cs.length).toList := by
  unfold Spec.moves
  rw [List.length_append, List.length_singleton, List.range_succ, List.filterMap_append]
  congr 1
  · apply List.filterMap_congr
    intro n hn
    have hn' : n < cs.length := List.mem_range.1 hn
    unfold Spec.move
    rw [List.getElem?_append_left hn', List.take_append_of_le_length (by omega), List.take_append_of_le_length (by omega)]

theorem move_last (cs : List (Cmd K)) (c : Cmd K) :
    Spec.move (cs ++ [c]) cs.length = match c.type with
      | none => none
      | some t =>
        if t = .g00 ∧ ∀ d ∈ cs, d.type = none then none
        else if (t = .g00 ∨ t = .g01) ∧ Spec.position cs = Spec.position (cs ++ [c]) then none
        else some (t, Spec.position cs, Spec.position (cs ++ [c])) := by
  unfold Spec.move
  have e : List.take (cs.length + 1) (cs ++ [c]) = cs ++ [c] := List.take_of_length_le (by simp)
  simp only [e, List.take_left, List.getElem?_concat_length, Option.bind_some]

theorem inv_step {cs : List (Cmd K)} {s : List (Block K) × Option (Block K)} (h : Inv cs s) (c : Cmd K) : Inv (cs ++ [c]) (addBlock s c) := by
  obtain ⟨h1, h2, h3, h4⟩ := h
  unfold addBlock
  cases ht : c.type with
  | none =>
    have hg : generate c s.2 = none := by unfold generate; rw [ht]
    rw [hg]
    refine ⟨?_, h2, h3, ?_⟩
    · cases hs : s.2 with
      | none =>
        rw [hs] at h1
        intro d hd
        rcases List.mem_append.1 hd with hd | hd
        · exact h1 d hd
        · rw [List.mem_singleton] at hd; rw [hd]; exact ht
      | some p =>
        rw [hs] at h1
        obtain ⟨e, d, hd, hd'⟩ := h1
        refine ⟨?_, d, List.mem_append_left _ hd, hd'⟩
        rw [e]
        simp [Spec.position, last_append, ht]
    · rw [moves_append, move_last, ht]; simpa using h4
  | some t =>
    obtain ⟨b, hb, hk, hst, hch, h0⟩ := generate_some ht h1
    rw [hb]
    simp only
    have hstart : ¬ (t = .g00 ∧ s.2 = none) → b.start = Spec.position cs := by
      intro hn
      cases hs : s.2 with
      | none =>
        rw [h0 hs, if_neg (fun e => hn ⟨e, hs⟩)]
        rw [hs] at h1
        exact (knows_position_none h1).symm
      | some p => rw [hs] at h1; rw [hch p hs]; exact h1.1
    have hm := move_last cs c
    rw [ht] at hm
    simp only at hm
    by_cases hs : b.still = true
    · rw [if_pos hs]
      have hs' := hs
      simp only [Block.still, Bool.and_eq_true, Bool.or_eq_true, decide_eq_true_eq, hk] at hs'
      refine ⟨⟨hst, c, by simp, by simp [ht]⟩, h2, ?_, ?_⟩
      · intro d hd
        obtain ⟨p, hp, e⟩ := h3 d hd
        refine ⟨b, rfl, ?_⟩
        rw [e, ← hs'.2, hch p hp]
      · rw [moves_append, hm]
        have : (if t = Kind.g00 ∧ ∀ d ∈ cs, d.type = none then none
          else if (t = Kind.g00 ∨ t = Kind.g01) ∧ Spec.position cs = Spec.position (cs ++ [c]) then none
            else some (t, Spec.position cs, Spec.position (cs ++ [c]))) = none := by
          by_cases hz : t = .g00 ∧ ∀ d ∈ cs, d.type = none
          · rw [if_pos hz]
          · rw [if_neg hz, if_pos]
            refine ⟨hs'.1, ?_⟩
            rw [← hst, ← hs'.2, hstart]
            rintro ⟨e1, e2⟩
            rw [e2] at h1
            exact hz ⟨e1, h1⟩
        rw [this]
        simpa using h4
    · rw [if_neg hs]
      have hs' := hs
      simp only [Block.still, Bool.and_eq_true, Bool.or_eq_true, decide_eq_true_eq, hk] at hs'
      have hn : ¬ (t = .g00 ∧ s.2 = none) := by
        rintro ⟨e1, e2⟩
        exact hs' ⟨Or.inl e1, by rw [h0 e2, if_pos e1]⟩
      refine ⟨⟨hst, c, by simp, by simp [ht]⟩, ?_, ?_, ?_⟩
      · unfold Spec.Chained
        rw [List.isChain_append]
        refine ⟨h2, List.IsChain.singleton _, ?_⟩
        intro x hx y hy
        obtain ⟨p, hp, e⟩ := h3 x hx
        simp only [List.head?_cons, Option.mem_def, Option.some.injEq] at hy
        subst hy
        rw [hch p hp, e]
      · intro d hd
        simp only [List.getLast?_concat, Option.mem_def, Option.some.injEq] at hd
        subst hd
        exact ⟨b, rfl, rfl⟩
      · rw [moves_append, hm, List.map_append, h4]
        congr 1
        rw [hst, hstart hn] at hs'
        rw [if_neg, if_neg hs']
        · simp [hk, hst, hstart hn]
        · rintro ⟨e1, e2⟩
          refine hn ⟨e1, ?_⟩
          cases hp : s.2 with
          | none => rfl
          | some p =>
            rw [hp] at h1
            obtain ⟨d, hd, hd'⟩ := h1.2
            rw [e2 d hd] at hd'; simp at hd'

theorem inv_all (cs : List (Cmd K)) : Inv cs (cs.foldl addBlock ([], none)) := by
  induction cs using List.reverseRecOn with
  | nil => exact ⟨fun c hc => by simp at hc, List.IsChain.nil, by simp, by simp [Spec.moves]⟩
  | append_singleton cs c ih => rw [List.foldl_append]; exact inv_step ih c

theorem createBlocks_nil (cs : List (Cmd K)) : createBlocks [] cs = (cs.foldl addBlock ([], none)).1 := rfl

theorem still_image {a b s : K} [NoZeroDivisors K] (hs : s ≠ 0) (u : Block K) : (Spec.imageBlock a b s u).still = u.still := by
  have h1 : ∀ x y c : K, (x - c) * s = (y - c) * s ↔ x = y := by
    intro x y c
    constructor
    · intro h
      have : (x - y) * s = 0 := by
        have : (x - y) * s = (x - c) * s - (y - c) * s := by rw [← sub_mul]; congr 1; abel
        rw [this, h, sub_self]
      rcases mul_eq_zero.1 this with h | h
      · exact sub_eq_zero.1 h
      · exact absurd h hs
    · rintro rfl; rfl
  have h2 : Spec.image a b s u.start = Spec.image a b s u.stop ↔ u.start = u.stop := by
    simp only [Spec.image, Prod.ext_iff, h1]
  simp only [Block.still, Spec.imageBlock]
  congr 1
  exact decide_eq_decide.2 h2

theorem generate_image (a b s : K) (c : Cmd K) (p : Block K) :
    generate (convert a b s c) (some (Spec.imageBlock a b s p)) = (generate c (some p)).map (Spec.imageBlock a b s) := by
  unfold generate
  cases ht : c.type with
  | none => simp [convert, ht]
  | some t =>
    simp only [convert, ht, Option.map_some, Spec.imageBlock, Spec.image]
    cases c.x <;> cases c.y <;> simp

theorem foldl_image {a b s : K} [NoZeroDivisors K] (hs : s ≠ 0) (cs : List (Cmd K)) : ∀ (bs : List (Block K)) (p : Block K),
    (cs.map (convert a b s)).foldl addBlock (bs.map (Spec.imageBlock a b s), some (Spec.imageBlock a b s p)) =
      ((cs.foldl addBlock (bs, some p)).1.map (Spec.imageBlock a b s), (cs.foldl addBlock (bs, some p)).2.map (Spec.imageBlock a b s)) := by
  induction cs with
  | nil => intro bs p; rfl
  | cons c rest ih =>
    intro bs p
    simp only [List.map_cons, List.foldl_cons]
    cases hg : generate c (some p) with
    | none =>
      have h1 : addBlock (bs, some p) c = (bs, some p) := by simp [addBlock, hg]
      have h2 : addBlock (bs.map (Spec.imageBlock a b s), some (Spec.imageBlock a b s p)) (convert a b s c) =
          (bs.map (Spec.imageBlock a b s), some (Spec.imageBlock a b s p)) := by simp [addBlock, generate_image, hg]
      rw [h1, h2]; exact ih bs p
    | some u =>
      by_cases hu : u.still = true
      · have h1 : addBlock (bs, some p) c = (bs, some u) := by simp [addBlock, hg, hu]
        have h2 : addBlock (bs.map (Spec.imageBlock a b s), some (Spec.imageBlock a b s p)) (convert a b s c) =
            (bs.map (Spec.imageBlock a b s), some (Spec.imageBlock a b s u)) := by simp [addBlock, generate_image, hg, still_image hs, hu]
        rw [h1, h2]; exact ih bs u
      · have h1 : addBlock (bs, some p) c = (bs ++ [u], some u) := by simp [addBlock, hg, hu]
        have h2 : addBlock (bs.map (Spec.imageBlock a b s), some (Spec.imageBlock a b s p)) (convert a b s c) =
            ((bs ++ [u]).map (Spec.imageBlock a b s), some (Spec.imageBlock a b s u)) := by simp [addBlock, generate_image, hg, still_image hs, hu]
        rw [h1, h2]; exact ih (bs ++ [u]) u

theorem foldlM_append_skip (num : List Char → Option K) (w : List Char) (h : '(' ∈ w) (d : Cmd K) : word num d w = some d := by
  have h1 : ∀ l : List Char, '(' ∉ l → w ≠ l := fun l hl e => hl (e ▸ h)
  unfold word
  rw [if_neg (h1 _ (by decide)), if_neg (h1 _ (by decide)), if_neg (h1 _ (by decide)), if_neg (h1 _ (by decide)), if_pos h]

theorem divideLoop_spec (bs : List (Block K)) : ∀ (parts : List (List (Block K))) (cur : List (Block K)),
    (divideLoop bs parts cur).flatten = parts.flatten ++ cur ++ bs ∧
    ((∀ p ∈ parts, ∀ b ∈ p, b.vertical = true → p = [b]) → (∀ b ∈ cur, b.vertical = false) →
      ∀ p ∈ divideLoop bs parts cur, ∀ b ∈ p, b.vertical = true → p = [b]) ∧
    ((∀ p ∈ parts, p ≠ []) → ∀ p ∈ (divideLoop bs parts cur).dropLast, p ≠ []) ∧
    (divideLoop bs parts cur ≠ []) ∧
    ((divideLoop bs parts cur).getLast? = some [] ↔ (bs = [] ∧ cur = []) ∨ ∃ b, bs.getLast? = some b ∧ b.vertical = true) := by
  induction bs with
  | nil =>
    intro parts cur
    simp only [divideLoop]
    refine ⟨by simp, ?_, ?_, by simp, by simp⟩
    · intro h1 h2 p hp b hb hv
      rcases List.mem_append.1 hp with hp | hp
      · exact h1 p hp b hb hv
      · rw [List.mem_singleton] at hp; subst hp
        rw [h2 b hb] at hv; simp at hv
    · intro h p hp
      rw [List.dropLast_concat] at hp
      exact h p hp
  | cons b rest ih =>
    intro parts cur
    simp only [divideLoop]
    by_cases hv : b.vertical = true
    · rw [if_pos hv]
      obtain ⟨i1, i2, i3, i4, i5⟩ := ih ((if cur ≠ [] then parts ++ [cur] else parts) ++ [[b]]) []
      refine ⟨?_, ?_, ?_, i4, ?_⟩
      · rw [i1]
        by_cases hc : cur = [] <;> simp [hc]
      · intro h1 h2
        refine i2 ?_ (by simp)
        intro p hp d hd hdv
        rcases List.mem_append.1 hp with hp | hp
        · have : p ∈ parts ∨ p = cur := by
            split at hp
            · rcases List.mem_append.1 hp with hp | hp
              · exact Or.inl hp
              · exact Or.inr (List.mem_singleton.1 hp)
            · exact Or.inl hp
          rcases this with hp | hp
          · exact h1 p hp d hd hdv
          · subst hp; rw [h2 d hd] at hdv; simp at hdv
        · rw [List.mem_singleton] at hp; subst hp
          rw [List.mem_singleton] at hd; rw [hd]
      · intro h
        refine i3 ?_
        intro p hp
        rcases List.mem_append.1 hp with hp | hp
        · split at hp
          · rename_i hc
            rcases List.mem_append.1 hp with hp | hp
            · exact h p hp
            · rw [List.mem_singleton] at hp; rw [hp]; exact hc
          · exact h p hp
        · rw [List.mem_singleton] at hp; rw [hp]; simp
      · rw [i5]
        cases rest with
        | nil => simp [hv]
        | cons r rs => simp
    · rw [if_neg hv]
      have hv' : b.vertical = false := by simpa using hv
      obtain ⟨i1, i2, i3, i4, i5⟩ := ih parts (cur ++ [b])
      refine ⟨by rw [i1]; simp, ?_, i3, i4, ?_⟩
      · intro h1 h2
        refine i2 h1 ?_
        intro d hd
        rcases List.mem_append.1 hd with hd | hd
        · exact h2 d hd
        · rw [List.mem_singleton] at hd; rw [hd]; exact hv'
      · rw [i5]
        cases rest with
        | nil => simp [hv']
        | cons r rs => simp

/-! ## Properties -/

/-- C43: the blocks are exactly the movements of the program, in the order of the program. -/
theorem C43_moves (cs : List (Cmd K)) : (createBlocks [] cs).map (fun b => (b.kind, b.start, b.stop)) = Spec.moves cs := (inv_all cs).2.2.2

/-- C43: every block starts where the one before ended. -/
theorem C43_chain (cs : List (Cmd K)) : Spec.Chained (createBlocks [] cs) := (inv_all cs).2.1

/-- C43: the last block ends in the last programmed position. -/
theorem C43_end (cs : List (Cmd K)) : ∀ b ∈ (createBlocks [] cs).getLast?, b.stop = Spec.position cs := by
  intro b hb
  obtain ⟨h1, _, h3, _⟩ := inv_all cs
  obtain ⟨p, hp, e⟩ := h3 b hb
  rw [hp] at h1
  rw [e]; exact h1.1

/-- The program `G00 X1 Y1`, a line without a command, `G01 X1`, `G01 X4`, `G02 X4 Y5 J2`, `G01 Z-1`. -/
def exProgram : List (Cmd ℚ) :=
  [⟨some .g00, some 1, some 1, none, none, none, none⟩, ⟨none, some 9, none, none, none, none, none⟩,
   ⟨some .g01, some 1, none, none, none, none, none⟩, ⟨some .g01, some 4, none, none, none, none, none⟩,
   ⟨some .g02, some 4, some 5, none, none, some 2, none⟩, ⟨some .g01, none, none, some (-1), none, none, none⟩]

example : (createBlocks [] exProgram).map (fun b => (b.kind, b.start, b.stop)) =
    [(.g01, (1, 1, 0), (4, 1, 0)), (.g02, (4, 1, 0), (4, 5, 0)), (.g01, (4, 5, 0), (4, 5, -1))] := by decide +kernel

/-- C44: the parts put together are the program in its order. -/
theorem C44_concat (bs : List (Block K)) : (divide bs).flatten = bs := by
  unfold divide; simpa using (divideLoop_spec bs [] []).1

/-- C44: a vertical movement is the only block of its part. -/
theorem C44_vertical (bs : List (Block K)) (p : List (Block K)) (hp : p ∈ divide bs) (b : Block K) (hb : b ∈ p)
    (hk : b.kind = .g00 ∨ b.kind = .g01) (hz : b.start.2.2 ≠ b.stop.2.2) : p = [b] := by
  refine (divideLoop_spec bs [] []).2.1 (by simp) (by simp) p hp b hb ?_
  simp only [Block.vertical, Bool.and_eq_true, Bool.or_eq_true, decide_eq_true_eq, Bool.not_eq_true', decide_eq_false_iff_not]
  exact ⟨hk, hz⟩

example : (divide (createBlocks [] (exProgram ++ [⟨some .g01, some 0, none, none, none, none, none⟩]))).map List.length = [2, 1, 1] := by
  decide +kernel

/-- C79: all parts but the last one have a block, and the last one has none exactly if the program is empty or ends with a vertical
movement. -/
theorem C79_partial (bs : List (Block K)) :
    (∀ p ∈ (divide bs).dropLast, p ≠ []) ∧
    ((divide bs).getLast? = some [] ↔ bs = [] ∨ ∃ b, bs.getLast? = some b ∧ (b.kind = .g00 ∨ b.kind = .g01) ∧ b.start.2.2 ≠ b.stop.2.2) := by
  obtain ⟨_, _, h3, _, h5⟩ := divideLoop_spec bs [] []
  refine ⟨h3 (by simp), ?_⟩
  have : ∀ b : Block K, b.vertical = true ↔ ((b.kind = .g00 ∨ b.kind = .g01) ∧ b.start.2.2 ≠ b.stop.2.2) := by
    intro b
    simp only [Block.vertical, Bool.and_eq_true, Bool.or_eq_true, decide_eq_true_eq, Bool.not_eq_true', decide_eq_false_iff_not, ne_eq]
  unfold divide; simpa only [this, and_true] using h5

/-- C79 is violated: a program that ends with a retraction of the tool gets an empty part. -/
theorem C79_violated : ∃ cs : List (Cmd ℚ), createBlocks [] cs ≠ [] ∧ [] ∈ divide (createBlocks [] cs) :=
  ⟨exProgram, by decide +kernel, by decide +kernel⟩

/-- C78: a comment without spaces does not change what a line means. -/
theorem C78_partial (num : List Char → Option K) (pre post : List (List Char)) (w : List Char) (h : '(' ∈ w) :
    parse num (pre ++ [w] ++ post) = parse num (pre ++ post) := by
  unfold parse
  rw [List.append_assoc, List.foldlM_append, List.foldlM_append]
  congr 1
  funext d
  simp [foldlM_append_skip num w h d]

example : parse (fun c => if c = ['5'] then some (5 : ℚ) else none) [['G', '0', '1'], ['(', 'X', ')'], ['X', '5']] =
    some ⟨some .g01, some 5, none, none, none, none, none⟩ := by decide +kernel

/-- C78 is violated: the words of a comment with spaces are read as coordinates. -/
theorem C78_violated : ∃ (num : List Char → Option ℚ) (pre comment : List (List Char)), comment.flatten.head? = some '(' ∧
    comment.flatten.getLast? = some ')' ∧ parse num (pre ++ comment) ≠ parse num pre ∧ (parse num (pre ++ comment)).isSome = true :=
  ⟨fun c => if c = ['5'] then some 5 else none, [['G', '0', '1'], ['Y', '5']], [['(', 'a', 't'], ['X', '5'], [')']],
    by decide +kernel, by decide +kernel, by decide +kernel, by decide +kernel⟩

/-- C78 is violated: a comment can make the reader fail on a program. -/
theorem C78_fails_violated : ∃ (num : List Char → Option ℚ) (pre comment : List (List Char)), comment.flatten.head? = some '(' ∧
    comment.flatten.getLast? = some ')' ∧ (parse num pre).isSome = true ∧ parse num (pre ++ comment) = none :=
  ⟨fun c => if c = ['5'] then some 5 else none, [['G', '0', '1'], ['Y', '5']], [['(', 'F', 'I', 'R', 'S', 'T'], ['X', ')']],
    by decide +kernel, by decide +kernel, by decide +kernel, by decide +kernel⟩

/-- C80: after a reset the reader gives the blocks of the program alone. -/
theorem C80_partial (r : Reader K) (program : List (Cmd K)) : (r.reset.run program).blocks = createBlocks [] program := by
  simp [Reader.reset, Reader.run]

/-- C80 is violated: without a reset the second program of a reader holds the first one twice. -/
theorem C80_violated : ∃ p q : List (Cmd ℚ), createBlocks [] q ≠ [] ∧
    (((Reader.mk [] []).run p).run q).blocks ≠ createBlocks [] q ∧
    (((Reader.mk [] []).run p).run q).blocks.length = 2 * (createBlocks [] p).length + (createBlocks [] q).length :=
  ⟨[⟨some .g01, some 1, none, none, none, none, none⟩, ⟨some .g01, some 2, none, none, none, none, none⟩],
    [⟨some .g01, some 3, none, none, none, none, none⟩], by decide +kernel, by decide +kernel, by decide +kernel⟩

/-- C81: if all calls of subfiles are at the end of the file, the commands are in the order of the program. -/
theorem C81_partial (sub : ℕ → List (Cmd K)) (cs : List (Cmd K)) (ns : List ℕ) :
    readFile sub (cs.map Line.cmd ++ ns.map Line.call) = Spec.expand sub (cs.map Line.cmd ++ ns.map Line.call) := by
  have h1 : ∀ cs : List (Cmd K), List.filterMap (fun l : Line K => match l with | .cmd c => some c | .call _ => none) (cs.map Line.cmd) = cs := by
    intro cs; induction cs <;> simp_all
  have h2 : ∀ cs : List (Cmd K), List.filterMap (fun l : Line K => match l with | .cmd _ => none | .call n => some n) (cs.map Line.cmd) = [] := by
    intro cs; induction cs <;> simp_all
  have h3 : ∀ ns : List ℕ, List.filterMap (fun l : Line K => match l with | .cmd c => some c | .call _ => none) (ns.map Line.call) = [] := by
    intro ns; induction ns <;> simp_all
  have h4 : ∀ ns : List ℕ, List.filterMap (fun l : Line K => match l with | .cmd _ => none | .call n => some n) (ns.map Line.call) = ns := by
    intro ns; induction ns <;> simp_all
  unfold readFile Spec.expand
  rw [List.filterMap_append, List.filterMap_append, h1, h2, h3, h4, List.flatMap_append (xs := cs.map Line.cmd), List.flatMap_map, List.flatMap_map]
  simp

/-- C81: in any case no command is lost or added. -/
theorem C81_same (sub : ℕ → List (Cmd K)) (file : List (Line K)) : (readFile sub file).Perm (Spec.expand sub file) := by
  unfold readFile Spec.expand
  induction file with
  | nil => exact List.Perm.refl _
  | cons l rest ih =>
    cases l with
    | cmd c => simpa using ih
    | call n =>
      simp only [List.filterMap_cons, List.flatMap_cons]
      refine List.Perm.trans ?_ (List.Perm.append_left _ ih)
      rw [← List.append_assoc, ← List.append_assoc]
      exact List.Perm.append_right _ List.perm_append_comm

/-- C81 is violated: the commands after the call of a subfile are carried out before it, so the tool ends in another place. -/
theorem C81_violated : ∃ (sub : ℕ → List (Cmd ℚ)) (file : List (Line ℚ)), readFile sub file ≠ Spec.expand sub file ∧
    Spec.position (readFile sub file) ≠ Spec.position (Spec.expand sub file) :=
  ⟨fun _ => [⟨some .g01, some 2, none, none, none, none, none⟩], [.call 0, .cmd ⟨some .g01, some 3, none, none, none, none, none⟩],
    by decide +kernel, by decide +kernel⟩

example : readFile (fun n => [⟨some .g01, some (n : ℚ), none, none, none, none, none⟩])
    [.cmd ⟨some .g00, some 1, none, none, none, none, none⟩, .call 2, .call 3] =
    [⟨some .g00, some 1, none, none, none, none, none⟩, ⟨some .g01, some 2, none, none, none, none, none⟩,
      ⟨some .g01, some 3, none, none, none, none, none⟩] := by decide +kernel

/-- C82: a program that starts with a `G00` to a given point becomes the shifted and scaled program. -/
theorem C82_partial [NoZeroDivisors K] (a b s : K) (hs : s ≠ 0) (c : Cmd K) (rest : List (Cmd K)) (ht : c.type = some .g00)
    (hx : c.x.isSome = true) (hy : c.y.isSome = true) :
    createBlocks [] ((c :: rest).map (convert a b s)) = (createBlocks [] (c :: rest)).map (Spec.imageBlock a b s) := by
  obtain ⟨x, hx⟩ := Option.isSome_iff_exists.1 hx
  obtain ⟨y, hy⟩ := Option.isSome_iff_exists.1 hy
  have hg : generate c none = some ⟨.g00, (x, y, c.z.getD 0), (x, y, c.z.getD 0), c.i, c.j, c.k⟩ := by
    unfold generate; cases hz : c.z <;> simp [ht, hx, hy]
  have hg' : generate (convert a b s c) none =
      some (Spec.imageBlock a b s ⟨.g00, (x, y, c.z.getD 0), (x, y, c.z.getD 0), c.i, c.j, c.k⟩) := by
    unfold generate; cases hz : c.z <;> simp [convert, ht, hx, hy, hz, Spec.imageBlock, Spec.image]
  have h1 : addBlock ([], none) c = ([], some ⟨.g00, (x, y, c.z.getD 0), (x, y, c.z.getD 0), c.i, c.j, c.k⟩) := by
    simp [addBlock, hg, Block.still]
  have h2 : addBlock ([], none) (convert a b s c) =
      ([], some (Spec.imageBlock a b s ⟨.g00, (x, y, c.z.getD 0), (x, y, c.z.getD 0), c.i, c.j, c.k⟩)) := by
    simp [addBlock, hg', Block.still, Spec.imageBlock]
  rw [createBlocks_nil, createBlocks_nil, List.map_cons, List.foldl_cons, List.foldl_cons, h1, h2]
  exact congrArg Prod.fst (foldl_image hs rest [] _)

example : createBlocks [] (exProgram.map (convert 1 1 2)) =
    [⟨.g01, (0, 0, 0), (6, 0, 0), none, none, none⟩, ⟨.g02, (6, 0, 0), (6, 8, 0), none, some 4, none⟩,
     ⟨.g01, (6, 8, 0), (6, 8, -1), none, none, none⟩] := by decide +kernel

/-- C82 is violated: the start of a program that begins with a `G01` is not shifted. -/
theorem C82_violated : ∃ (a b s : ℚ) (cs : List (Cmd ℚ)), s ≠ 0 ∧
    createBlocks [] (cs.map (convert a b s)) ≠ (createBlocks [] cs).map (Spec.imageBlock a b s) :=
  ⟨1, 1, 1, [⟨some .g01, some 2, some 2, none, none, none, none⟩], by decide +kernel, by decide +kernel⟩

/-- C83: the starts of all blocks are among the connections. -/
theorem C83_partial (bs : List (Block K)) (ps : List (K × K × K)) (h : connections bs = some ps) : ∀ b ∈ bs, b.start ∈ ps := by
  unfold connections at h
  split at h
  · simp only [Option.some.injEq] at h
    subst h
    intro b hb
    simp only [List.append_assoc, List.mem_append, List.mem_map]
    exact Or.inl ⟨b, hb, rfl⟩
  · simp at h

/-- C83: so are the ends of all blocks of a program but the last one. -/
theorem C83_ends_partial (cs : List (Cmd K)) (ps : List (K × K × K)) (h : connections (createBlocks [] cs) = some ps) :
    ∀ b ∈ (createBlocks [] cs).dropLast, b.stop ∈ ps := by
  have hc := C43_chain cs
  have hp := C83_partial _ ps h
  generalize createBlocks [] cs = bs at hc hp
  clear h
  intro b hb
  induction bs with
  | nil => simp at hb
  | cons u rest ih =>
    cases rest with
    | nil => simp at hb
    | cons v rest =>
      unfold Spec.Chained at hc
      rw [List.isChain_cons_cons] at hc
      rw [List.dropLast_cons_cons, List.mem_cons] at hb
      rcases hb with rfl | hb
      · rw [← hc.1]; exact hp v (by simp)
      · exact ih hc.2 (fun d hd => hp d (List.mem_cons_of_mem _ hd)) hb

example : connections (createBlocks [] exProgram) = some [(1, 1, 0), (4, 1, 0), (4, 5, 0), (4, 5, 0), (1, 1, 0)] := by decide +kernel

/-- C83 is violated: the end of the program is not among the connections. -/
theorem C83_violated : ∃ (cs : List (Cmd ℚ)) (ps : List (ℚ × ℚ × ℚ)), connections (createBlocks [] cs) = some ps ∧
    ∃ b ∈ createBlocks [] cs, b.stop ∉ ps :=
  ⟨exProgram, [(1, 1, 0), (4, 1, 0), (4, 5, 0), (4, 5, 0), (1, 1, 0)], by decide +kernel, by decide +kernel⟩

end Verif.GCode
