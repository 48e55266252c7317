import Mathlib.Algebra.Order.Floor.Ring
import Mathlib.Data.Rat.Floor
import Mathlib.Data.List.TakeWhile
import Mathlib.Data.List.GetD
import Mathlib.Tactic.NormNum
import Mathlib.Tactic.Linarith

/-! # The points of the curves of a drawing (C196) -/

set_option linter.unusedSectionVars false

namespace Verif.SvgPath

/-! ## Model -/

/-- ASCII whitespace: the class `\s`, and what `strip` removes. -/
def isSpace (c : Char) : Bool := c = ' ' || c = '\t' || c = '\n' || c = '\r' || c = '\x0b' || c = '\x0c'

/-- The character class of the pattern in svg_reader.py:62. -/
def inClass (c : Char) : Bool := isSpace c || c = '.' || c = ',' || c = '-' || c.isDigit

/-- The letters of the pattern. -/
def isLetter (c : Char) : Bool := c = 'M' || c = 'C' || c = 'm' || c = 'c'

/-- `re.findall('[MCmc][\s.,0-9-]+', d)`, svg_reader.py:62: every match as its letter and the rest. Everything else is skipped. -/
def findall : List Char → List (Char × List Char)
  | [] => []
  | c :: s =>
    if isLetter c ∧ s.takeWhile inClass ≠ [] then (c, s.takeWhile inClass) :: findall (s.dropWhile inClass) else findall s
termination_by s => s.length
decreasing_by
  · have := (List.dropWhile_suffix (p := inClass) (l := s)).length_le
    simp only [List.length_cons]
    omega
  · simp

/-- `line[1:].replace(",", " ")`, svg_reader.py:67. -/
def commas (s : List Char) : List Char := s.map fun c => if c = ',' then ' ' else c

/-- `.replace("-", " -")`, svg_reader.py:68. (The replacement of `c` in svg_reader.py:69 finds none.) -/
def minuses (s : List Char) : List Char := s.flatMap fun c => if c = '-' then [' ', '-'] else [c]

/-- `.strip()`. -/
def strip (s : List Char) : List Char := ((s.dropWhile isSpace).reverse.dropWhile isSpace).reverse

/-- `.split(' ')`: at every single space. -/
def split : List Char → List (List Char)
  | [] => [[]]
  | c :: s => if c = ' ' then [] :: split s else
    match split s with
    | [] => [[c]]
    | h :: t => (c :: h) :: t

/-- A Python number: an integer or a float (as an exact fraction). -/
inductive Num where
  | int (z : ℤ)
  | flt (r : ℚ)

def Num.val : Num → ℚ
  | .int z => z
  | .flt r => r

def Num.neg : Num → Num
  | .int z => .int (-z)
  | .flt r => .flt (-r)

def digits (s : List Char) : ℕ := s.foldl (fun a c => 10 * a + (c.toNat - '0'.toNat)) 0

/-- `eval` of a literal without sign: digits, or digits with one point; nothing, several points, and integers with leading zeros are errors. -/
def evalPos (t : List Char) : Option Num :=
  let a := t.takeWhile Char.isDigit
  match t.dropWhile Char.isDigit with
  | [] => if a = [] ∨ (a.head? = some '0' ∧ a.any (· ≠ '0')) then none else some (.int (digits a))
  | '.' :: b => if b.all Char.isDigit ∧ (a ≠ [] ∨ b ≠ []) then some (.flt (digits a + digits b / 10 ^ b.length)) else none
  | _ => none

/-- `eval` of a token. -/
def evalTok : List Char → Option Num
  | '-' :: t => (evalPos t).map Num.neg
  | t => evalPos t

/-- `np.array(...)` of numbers, svg_reader.py:71: integers if all are, else floats. -/
def isIntArray (xs : List Num) : Bool := xs.all fun | .int _ => true | .flt _ => false

/-- `int(...)`: towards zero. -/
def trunc (r : ℚ) : ℤ := if 0 ≤ r then ⌊r⌋ else ⌈r⌉

/-- The values of an array; storing into an array of integers cuts off the fraction. -/
def store (ints : Bool) (r : ℚ) : Num := if ints then .int (trunc r) else .flt r

/-- One match, svg_reader.py:64-77: the new points, given the points so far. `none` is an exception. -/
def addLine (points : List Num) (line : Char × List Char) : Option (List Num) := do
  let new ← (split (strip (minuses (commas line.2)))).mapM evalTok
  let ints := isIntArray new
  let new := if ints then new else new.map fun x => .flt x.val
  if line.1 = 'c' then
    if points.length < 2 then none
    else
      let px := (points.getD (points.length - 2) (.int 0)).val
      let py := (points.getD (points.length - 1) (.int 0)).val
      some (points ++ new.mapIdx fun i x => if i < 6 then store ints (x.val + if i % 2 = 0 then px else py) else x)
  else some (points ++ new)

/-- The points of a path with the text `d`, svg_reader.py:60-77. -/
def readPath (d : List Char) : Option (List Num) := (findall d).foldlM addLine []

/-! ## Specification -/

/-- Commands of a path: curves with control points and end point, absolute or relative to where the curve begins. -/
inductive Spec.Cmd where
  | curveTo (p q r : ℚ × ℚ)
  | curveBy (p q r : ℚ × ℚ)

/-- The six numbers of a command. -/
def Spec.Cmd.numbers : Spec.Cmd → List ℚ
  | .curveTo p q r => [p.1, p.2, q.1, q.2, r.1, r.2]
  | .curveBy p q r => [p.1, p.2, q.1, q.2, r.1, r.2]

def Spec.Cmd.relative : Spec.Cmd → Bool
  | .curveTo .. => false
  | .curveBy .. => true

/-- The absolute control and end points that the commands mean, from the current point. -/
def Spec.draw : ℚ × ℚ → List Spec.Cmd → List ℚ
  | _, [] => []
  | _, .curveTo p q r :: l => [p.1, p.2, q.1, q.2, r.1, r.2] ++ Spec.draw r l
  | c, .curveBy p q r :: l =>
    [c.1 + p.1, c.2 + p.2, c.1 + q.1, c.2 + q.2, c.1 + r.1, c.2 + r.2] ++ Spec.draw (c.1 + r.1, c.2 + r.2) l

/-- The text of a command: a letter, whitespace, number literals with separators, whitespace. -/
structure Spec.Seg where
  letter : Char
  lead : List Char
  first : List Char
  rest : List (List Char × List Char)
  trail : List Char

def Spec.Seg.body (g : Spec.Seg) : List Char := g.lead ++ g.first ++ g.rest.flatMap (fun p => p.1 ++ p.2) ++ g.trail
def Spec.Seg.text (g : Spec.Seg) : List Char := g.letter :: g.body
def Spec.Seg.literals (g : Spec.Seg) : List (List Char) := g.first :: g.rest.map Prod.snd

/-- Separators: a comma or a space before a literal without sign, nothing before one with a minus sign. -/
def Spec.Separated (p : List Char × List Char) : Prop :=
  if p.2.head? = some '-' then p.1 = [] else p.1 = [','] ∨ p.1 = [' ']

structure Spec.Seg.Good (g : Spec.Seg) : Prop where
  lead : ∀ c ∈ g.lead, isSpace c
  trail : ∀ c ∈ g.trail, isSpace c
  separated : ∀ p ∈ g.rest, Spec.Separated p

/-- The text of a segment is that of a command: its literals have the numbers of the command as values; for a relative one, not all literals are integers. -/
structure Spec.Seg.Means (g : Spec.Seg) (c : Spec.Cmd) : Prop where
  good : g.Good
  letter : g.letter = if c.relative then 'c' else 'C'
  values : ∃ xs, g.literals.mapM evalTok = some xs ∧ xs.map Num.val = c.numbers ∧ (c.relative = true → isIntArray xs = false)

/-! ## Lemmas -/

/-- Digits and points. -/
def plain (c : Char) : Bool := c.isDigit || c = '.'

theorem evalPos_plain {t : List Char} {x : Num} (h : evalPos t = some x) : t ≠ [] ∧ ∀ c ∈ t, plain c = true := by
  have hsplit := List.takeWhile_append_dropWhile (p := Char.isDigit) (l := t)
  have ha : ∀ c ∈ t.takeWhile Char.isDigit, c.isDigit = true := fun c hc => (List.mem_takeWhile_imp) hc
  unfold evalPos at h
  simp only at h
  generalize t.takeWhile Char.isDigit = a at *
  generalize t.dropWhile Char.isDigit = r at *
  split at h
  · split at h
    · cases h
    · next hn =>
      push Not at hn
      rw [List.append_nil] at hsplit
      subst hsplit
      exact ⟨hn.1, fun c hc => by simp [plain, ha c hc]⟩
  · next b =>
    split at h
    · next hb =>
      subst hsplit
      refine ⟨by simp, fun c hc => ?_⟩
      rcases List.mem_append.1 hc with hc | hc
      · simp [plain, ha c hc]
      · rcases List.mem_cons.1 hc with rfl | hc
        · simp [plain]
        · simp [plain, List.all_eq_true.1 hb.1 c hc]
    · cases h
  · cases h

/-- A token that is a number: an optional minus sign and digits and points. -/
theorem evalTok_shape {t : List Char} {x : Num} (h : evalTok t = some x) :
    (∃ u, t = '-' :: u ∧ u ≠ [] ∧ ∀ c ∈ u, plain c = true) ∨ (t ≠ [] ∧ ∀ c ∈ t, plain c = true) := by
  unfold evalTok at h
  split at h
  · next u =>
    obtain ⟨y, hy, -⟩ := Option.map_eq_some_iff.1 h
    exact Or.inl ⟨u, rfl, evalPos_plain hy⟩
  · exact Or.inr (evalPos_plain h)

theorem plain_ne {c : Char} (h : plain c = true) : c ≠ ' ' ∧ c ≠ ',' ∧ c ≠ '-' ∧ isSpace c = false ∧ inClass c = true := by
  have hall : ∀ d : Char, plain d = true → d = '.' ∨ d.isDigit = true := fun d hd => by
    unfold plain at hd
    rcases Bool.or_eq_true_iff.1 hd with h | h
    · exact Or.inr h
    · exact Or.inl (of_decide_eq_true h)
  rcases hall c h with rfl | hd
  · decide
  · have h1 : ∀ d : Char, d.isDigit = false → c ≠ d := fun d h1 h2 => by rw [h2, h1] at hd; cases hd
    refine ⟨h1 _ (by decide), h1 _ (by decide), h1 _ (by decide), ?_, ?_⟩
    · unfold isSpace
      simp [h1 ' ' (by decide), h1 '\t' (by decide), h1 '\n' (by decide), h1 '\r' (by decide), h1 '\x0b' (by decide), h1 '\x0c' (by decide)]
    · unfold inClass
      simp [hd]

theorem space_ne {c : Char} (h : isSpace c = true) : inClass c = true ∧ c ≠ ',' ∧ c ≠ '-' := by
  refine ⟨by simp [inClass, h], ?_, ?_⟩ <;> rintro rfl <;> exact absurd h (by decide)

/-- What a token becomes. -/
theorem commas_plain {t : List Char} (h : ∀ c ∈ t, plain c = true) : minuses (commas t) = t := by
  induction t with
  | nil => rfl
  | cons c t ih =>
    have hc := plain_ne (h c (by simp))
    have := ih fun d hd => h d (by simp [hd])
    simp only [commas, minuses, List.map_cons, List.flatMap_cons] at this ⊢
    rw [this]
    simp [hc.2.1, hc.2.2.1]

theorem commas_append (s t : List Char) : minuses (commas (s ++ t)) = minuses (commas s) ++ minuses (commas t) := by
  simp [commas, minuses]

theorem commas_space {t : List Char} (h : ∀ c ∈ t, isSpace c = true) : minuses (commas t) = t := by
  induction t with
  | nil => rfl
  | cons c t ih =>
    have hc := space_ne (h c (by simp))
    have := ih fun d hd => h d (by simp [hd])
    simp only [commas, minuses, List.map_cons, List.flatMap_cons] at this ⊢
    rw [this]
    simp [hc.2.1, hc.2.2]

theorem commas_tok {t : List Char} {x : Num} (h : evalTok t = some x) :
    minuses (commas t) = (if t.head? = some '-' then [' '] else []) ++ t := by
  rcases evalTok_shape h with ⟨u, rfl, -, hu⟩ | ⟨-, ht⟩
  · have : minuses (commas ('-' :: u)) = [' ', '-'] ++ minuses (commas u) := by simp [commas, minuses]
    rw [this, commas_plain hu]
    simp
  · rw [commas_plain ht]
    have : t.head? ≠ some '-' := fun e => (plain_ne (ht '-' (List.mem_of_mem_head? e))).2.2.1 rfl
    simp [this]

theorem tok_chars {t : List Char} {x : Num} (h : evalTok t = some x) : t ≠ [] ∧ ∀ c ∈ t, isSpace c = false ∧ c ≠ ' ' ∧ inClass c = true := by
  rcases evalTok_shape h with ⟨u, rfl, -, hu⟩ | ⟨ht, hp⟩
  · refine ⟨by simp, fun c hc => ?_⟩
    rcases List.mem_cons.1 hc with rfl | hc
    · decide
    · have := plain_ne (hu c hc)
      exact ⟨this.2.2.2.1, this.1, this.2.2.2.2⟩
  · refine ⟨ht, fun c hc => ?_⟩
    have := plain_ne (hp c hc)
    exact ⟨this.2.2.2.1, this.1, this.2.2.2.2⟩

/-- The tokens after the first one, joined by single spaces. -/
def spaced (l : List (List Char)) : List Char := l.flatMap fun t => ' ' :: t

theorem commas_rest {l : List (List Char × List Char)} (hs : ∀ p ∈ l, Spec.Separated p) (hv : ∀ p ∈ l, ∃ x, evalTok p.2 = some x) :
    minuses (commas (l.flatMap fun p => p.1 ++ p.2)) = spaced (l.map Prod.snd) := by
  induction l with
  | nil => rfl
  | cons p l ih =>
    obtain ⟨x, hx⟩ := hv p (by simp)
    have h1 := hs p (by simp)
    have := ih (fun q hq => hs q (by simp [hq])) (fun q hq => hv q (by simp [hq]))
    simp only [List.flatMap_cons, List.map_cons, spaced] at this ⊢
    rw [commas_append, commas_append, this, commas_tok hx]
    unfold Spec.Separated at h1
    split_ifs at h1 ⊢ with hm
    · rw [h1]
      simp [commas, minuses]
    · rcases h1 with h1 | h1 <;> rw [h1] <;> simp [commas, minuses]

theorem dropWhile_all {l r : List Char} (h : ∀ c ∈ l, isSpace c = true) : (l ++ r).dropWhile isSpace = r.dropWhile isSpace := by
  induction l with
  | nil => rfl
  | cons c l ih => simp [h c (by simp), ih fun d hd => h d (by simp [hd])]

/-- Stripping takes off the whitespace around a text that begins and ends with something else. -/
theorem strip_around {l m r : List Char} (hl : ∀ c ∈ l, isSpace c = true) (hr : ∀ c ∈ r, isSpace c = true)
    (h1 : ∀ c, m.head? = some c → isSpace c = false) (h2 : ∀ c, m.getLast? = some c → isSpace c = false) (hm : m ≠ []) : strip (l ++ m ++ r) = m := by
  have key : ∀ n k : List Char, (∀ c, n.head? = some c → isSpace c = false) → n ≠ [] → (n ++ k).dropWhile isSpace = n ++ k := by
    intro n k hn h0
    cases n with
    | nil => exact absurd rfl h0
    | cons c n => simp [hn c rfl]
  unfold strip
  rw [List.append_assoc, dropWhile_all hl, key m r h1 hm, List.reverse_append, dropWhile_all (fun c hc => hr c (List.mem_reverse.1 hc))]
  have := key m.reverse [] (fun c hc => h2 c (by rwa [List.head?_reverse] at hc)) (by simpa using hm)
  rw [List.append_nil] at this
  rw [this, List.reverse_reverse]

theorem split_ne (s : List Char) : split s ≠ [] := by
  cases s with
  | nil => simp [split]
  | cons c s =>
    unfold split
    split_ifs
    · simp
    · split <;> simp

theorem split_tok {t : List Char} (h : ∀ c ∈ t, c ≠ ' ') : split t = [t] := by
  induction t with
  | nil => rfl
  | cons c t ih =>
    rw [split, if_neg (h c (by simp)), ih fun d hd => h d (by simp [hd])]

theorem split_append {t : List Char} (h : ∀ c ∈ t, c ≠ ' ') (s : List Char) : split (t ++ ' ' :: s) = t :: split s := by
  induction t with
  | nil => simp [split]
  | cons c t ih =>
    rw [List.cons_append, split, if_neg (h c (by simp)), ih fun d hd => h d (by simp [hd])]

theorem split_spaced (t : List Char) (l : List (List Char)) (h : ∀ u ∈ t :: l, ∀ c ∈ u, c ≠ ' ') : split (t ++ spaced l) = t :: l := by
  induction l generalizing t with
  | nil => simpa [spaced] using split_tok (h t (by simp))
  | cons u l ih =>
    have : spaced (u :: l) = ' ' :: (u ++ spaced l) := by simp [spaced]
    rw [this, split_append (h t (by simp)), ih u fun v hv => h v (by simp at hv ⊢; exact Or.inr hv)]

theorem spaced_last (t : List Char) (l : List (List Char)) (h : ∀ u ∈ t :: l, u ≠ [] ∧ ∀ c ∈ u, isSpace c = false) :
    ∀ c, (t ++ spaced l).getLast? = some c → isSpace c = false := by
  induction l generalizing t with
  | nil =>
    intro c hc
    simp only [spaced, List.flatMap_nil, List.append_nil] at hc
    exact (h t (by simp)).2 c (List.mem_of_getLast? hc)
  | cons u l ih =>
    intro c hc
    have e : t ++ spaced (u :: l) = (t ++ [' ']) ++ (u ++ spaced l) := by simp [spaced]
    rw [e, List.getLast?_append_of_ne_nil _ (by simp [(h u (by simp)).1])] at hc
    exact ih u (fun v hv => h v (by simp at hv ⊢; exact Or.inr hv)) c hc

theorem mapM_some {l : List (List Char)} {xs : List Num} (h : l.mapM evalTok = some xs) : ∀ t ∈ l, ∃ x, evalTok t = some x := by
  induction l generalizing xs with
  | nil => simp
  | cons t l ih =>
    rw [List.mapM_cons] at h
    cases h1 : evalTok t with
    | none => rw [h1] at h; simp at h
    | some x =>
      cases h2 : l.mapM evalTok with
      | none => rw [h1, h2] at h; simp at h
      | some ys =>
        intro u hu
        rcases List.mem_cons.1 hu with rfl | hu
        · exact ⟨x, h1⟩
        · exact ih h2 u hu

/-- The literals of a well separated text are found again. -/
theorem tokens_good {g : Spec.Seg} (hg : g.Good) (hv : ∀ t ∈ g.literals, ∃ x, evalTok t = some x) :
    split (strip (minuses (commas g.body))) = g.literals := by
  have h1 : ∃ x, evalTok g.first = some x := hv _ (by simp [Spec.Seg.literals])
  have h2 : ∀ p ∈ g.rest, ∃ x, evalTok p.2 = some x := fun p hp => hv _ (by
    simp only [Spec.Seg.literals, List.mem_cons, List.mem_map]
    exact Or.inr ⟨p, hp, rfl⟩)
  have hc : ∀ u ∈ g.literals, u ≠ [] ∧ ∀ c ∈ u, isSpace c = false ∧ c ≠ ' ' ∧ inClass c = true := fun u hu => by
    obtain ⟨x, hx⟩ := hv u hu
    exact tok_chars hx
  obtain ⟨x, hx⟩ := h1
  unfold Spec.Seg.body
  rw [commas_append, commas_append, commas_append, commas_space hg.lead, commas_space hg.trail, commas_rest hg.separated h2, commas_tok hx]
  have e : ∀ k : List Char, g.lead ++ (k ++ g.first) ++ spaced (g.rest.map Prod.snd) ++ g.trail =
      (g.lead ++ k) ++ (g.first ++ spaced (g.rest.map Prod.snd)) ++ g.trail := fun k => by simp
  have hne := (hc g.first (by simp [Spec.Seg.literals])).1
  rw [e, strip_around]
  · exact split_spaced _ _ fun u hu c hcu => ((hc u hu).2 c hcu).2.1
  · intro c hcm
    rcases List.mem_append.1 hcm with hcm | hcm
    · exact hg.lead c hcm
    · split_ifs at hcm
      · obtain rfl := List.mem_singleton.1 hcm
        decide
      · cases hcm
  · exact hg.trail
  · intro c hcm
    rw [List.head?_append_of_ne_nil _ hne] at hcm
    exact ((hc g.first (by simp [Spec.Seg.literals])).2 c (List.mem_of_mem_head? hcm)).1
  · exact spaced_last _ _ fun u hu => ⟨(hc u hu).1, fun c hcu => ((hc u hu).2 c hcu).1⟩
  · simp [hne]

theorem body_class {g : Spec.Seg} (hg : g.Good) (hv : ∀ t ∈ g.literals, ∃ x, evalTok t = some x) : g.body ≠ [] ∧ ∀ c ∈ g.body, inClass c = true := by
  have hc : ∀ u ∈ g.literals, u ≠ [] ∧ ∀ c ∈ u, inClass c = true := fun u hu => by
    obtain ⟨x, hx⟩ := hv u hu
    exact ⟨(tok_chars hx).1, fun c hcu => ((tok_chars hx).2 c hcu).2.2⟩
  have hf := hc g.first (by simp [Spec.Seg.literals])
  refine ⟨by simp [Spec.Seg.body, hf.1], fun c hcb => ?_⟩
  simp only [Spec.Seg.body, List.mem_append, List.mem_flatMap] at hcb
  rcases hcb with ((h | h) | ⟨p, hp, h⟩) | h
  · exact (space_ne (hg.lead c h)).1
  · exact hf.2 c h
  · rcases h with h | h
    · have hs := hg.separated p hp
      unfold Spec.Separated at hs
      split_ifs at hs
      · rw [hs] at h; cases h
      · rcases hs with hs | hs <;> rw [hs, List.mem_singleton] at h <;> rw [h] <;> decide
    · exact (hc p.2 (by simp only [Spec.Seg.literals, List.mem_cons, List.mem_map]; exact Or.inr ⟨p, hp, rfl⟩)).2 c h
  · exact (space_ne (hg.trail c h)).1

theorem takeWhile_body {b r : List Char} (hb : ∀ c ∈ b, inClass c = true) (hr : ∀ c, r.head? = some c → inClass c = false) :
    (b ++ r).takeWhile inClass = b ∧ (b ++ r).dropWhile inClass = r := by
  induction b with
  | nil =>
    cases r with
    | nil => simp
    | cons c r => simp [hr c rfl]
  | cons c b ih =>
    have := ih fun d hd => hb d (by simp [hd])
    simp [hb c (by simp), this.1, this.2]

/-- The commands of the text are found one by one. -/
theorem findall_rest (gs : List Spec.Seg) (h : ∀ g ∈ gs, isLetter g.letter = true ∧ g.body ≠ [] ∧ ∀ c ∈ g.body, inClass c = true)
    (r : List Char) (hr0 : ∀ c, r.head? = some c → inClass c = false) :
    findall (gs.flatMap Spec.Seg.text ++ r) = (gs.map fun g => (g.letter, g.body)) ++ findall r := by
  induction gs with
  | nil => simp
  | cons g gs ih =>
    obtain ⟨h1, h2, h3⟩ := h g (by simp)
    have hl : ∀ c : Char, isLetter c = true → inClass c = false := by
      intro c hc
      simp only [isLetter, Bool.or_eq_true, decide_eq_true_eq] at hc
      rcases hc with ((rfl | rfl) | rfl) | rfl <;> decide
    have hr : ∀ c, (gs.flatMap Spec.Seg.text ++ r).head? = some c → inClass c = false := by
      intro c hc
      cases gs with
      | nil => exact hr0 c (by simpa using hc)
      | cons g' gs =>
        simp only [List.flatMap_cons, Spec.Seg.text, List.cons_append, List.head?_cons, Option.some.injEq] at hc
        exact hl c (hc ▸ (h g' (by simp)).1)
    obtain ⟨e1, e2⟩ := takeWhile_body h3 hr
    rw [List.flatMap_cons, Spec.Seg.text, List.append_assoc, List.cons_append, findall, e1, e2, if_pos ⟨h1, h2⟩, ih fun g' hg' => h g' (by simp [hg'])]
    rfl

theorem findall_text (gs : List Spec.Seg) (h : ∀ g ∈ gs, isLetter g.letter = true ∧ g.body ≠ [] ∧ ∀ c ∈ g.body, inClass c = true) :
    findall (gs.flatMap Spec.Seg.text) = gs.map fun g => (g.letter, g.body) := by
  have := findall_rest gs h [] (by simp)
  simpa [findall] using this

theorem findall_none (s : List Char) (h : ∀ c ∈ s, isLetter c = false) : findall s = [] := by
  induction s with
  | nil => simp [findall]
  | cons c s ih =>
    rw [findall, if_neg (by simp [h c (by simp)])]
    exact ih fun d hd => h d (by simp [hd])

theorem flt_val (r : ℚ) : (Num.flt r).val = r := rfl

/-- One command that is read as it is meant, with the current point at the end of the points so far. -/
theorem addLine_means {g : Spec.Seg} {c : Spec.Cmd} (h : g.Means c) {points : List Num} {pre : List Num} {x y : Num} (hp : points = pre ++ [x, y]) :
    ∃ new u v, addLine points (g.letter, g.body) = some (points ++ (new ++ [u, v])) ∧ (∀ l, (new ++ [u, v]).map Num.val ++ Spec.draw (u.val, v.val) l =
      Spec.draw (x.val, y.val) (c :: l)) := by
  obtain ⟨xs, h1, h2, h3⟩ := h.values
  have htok := tokens_good h.good (mapM_some h1)
  have hlen : xs.length = 6 := by
    have := congrArg List.length h2
    rw [List.length_map] at this
    rw [this]
    cases c <;> rfl
  obtain ⟨a1, a2, a3, a4, a5, a6, rfl⟩ : ∃ a1 a2 a3 a4 a5 a6, xs = [a1, a2, a3, a4, a5, a6] := by
    match xs, hlen with
    | [a1, a2, a3, a4, a5, a6], _ => exact ⟨a1, a2, a3, a4, a5, a6, rfl⟩
  have hx : (points.getD (points.length - 2) (.int 0)) = x := by
    subst hp
    have : (pre ++ [x, y]).length - 2 = pre.length := by simp
    rw [this, List.getD_append_right _ _ _ _ (le_refl _)]
    simp
  have hy : (points.getD (points.length - 1) (.int 0)) = y := by
    subst hp
    have : (pre ++ [x, y]).length - 1 = pre.length + 1 := by simp
    rw [this, List.getD_append_right _ _ _ _ (by omega)]
    simp
  have hl : ¬ points.length < 2 := by subst hp; simp
  unfold addLine
  simp only [htok, h1, h.letter, Option.bind_eq_bind, Option.bind_some]
  cases c with
  | curveTo p q r =>
    simp only [Spec.Cmd.numbers, List.map_cons, List.map_nil, List.cons.injEq, and_true] at h2
    obtain ⟨e1, e2, e3, e4, e5, e6⟩ := h2
    have hC : ¬ ((if Spec.Cmd.relative (.curveTo p q r) = true then 'c' else 'C') = 'c') := by simp [Spec.Cmd.relative]
    rw [if_neg hC]
    cases isIntArray [a1, a2, a3, a4, a5, a6] with
    | true =>
      refine ⟨[a1, a2, a3, a4], a5, a6, by simp, fun l => ?_⟩
      simp [Spec.draw, e1, e2, e3, e4, e5, e6]
    | false =>
      refine ⟨[.flt a1.val, .flt a2.val, .flt a3.val, .flt a4.val], .flt a5.val, .flt a6.val, by simp, fun l => ?_⟩
      simp [Spec.draw, flt_val, e1, e2, e3, e4, e5, e6]
  | curveBy p q r =>
    simp only [Spec.Cmd.numbers, List.map_cons, List.map_nil, List.cons.injEq, and_true] at h2
    obtain ⟨e1, e2, e3, e4, e5, e6⟩ := h2
    have hC : (if Spec.Cmd.relative (.curveBy p q r) = true then 'c' else 'C') = 'c' := by simp [Spec.Cmd.relative]
    rw [if_pos hC, if_neg hl, h3 rfl, hx, hy]
    refine ⟨[.flt (a1.val + x.val), .flt (a2.val + y.val), .flt (a3.val + x.val), .flt (a4.val + y.val)], .flt (a5.val + x.val), .flt (a6.val + y.val),
      ?_, fun l => ?_⟩
    · simp [store, flt_val, List.mapIdx_cons]
    · simp [Spec.draw, flt_val, e1, e2, e3, e4, e5, e6, add_comm]

theorem fold_means (gs : List Spec.Seg) (cs : List Spec.Cmd) (h : List.Forall₂ Spec.Seg.Means gs cs) : ∀ (points pre : List Num) (x y : Num),
    points = pre ++ [x, y] → ∃ all, (gs.map fun g => (g.letter, g.body)).foldlM addLine points = some all ∧
      all.map Num.val = points.map Num.val ++ Spec.draw (x.val, y.val) cs := by
  induction h with
  | nil => intro points pre x y _; exact ⟨points, rfl, by simp [Spec.draw]⟩
  | cons hg _ ih =>
    intro points pre x y hp
    obtain ⟨new, u, v, e, hd⟩ := addLine_means hg hp
    obtain ⟨all, e1, e2⟩ := ih (points ++ (new ++ [u, v])) (points ++ new) u v (by simp)
    refine ⟨all, ?_, ?_⟩
    · rw [List.map_cons, List.foldlM_cons, e]
      exact e1
    · rw [e2, List.map_append, List.append_assoc, hd]

/-! ## Theorems -/

/-- **C196** (part) A path that starts with `M` (or `m`) and two numbers, followed by any number of curves, absolute or relative to the point reached, each with
its own letter and its six numbers, comes out as the absolute points that it means.
Missing: a sign after a comma or space (`C196_sign_violated`), relative curves in integers (`C196_integers_violated`), several curves after one letter
(`C196_several_violated`), other commands (`C196_lines_violated`). -/
theorem C196_partial (g0 : Spec.Seg) (x y : Num) (gs : List Spec.Seg) (cs : List Spec.Cmd) (h0 : g0.Good) (hl : g0.letter = 'M' ∨ g0.letter = 'm')
    (hv : g0.literals.mapM evalTok = some [x, y]) (h : List.Forall₂ Spec.Seg.Means gs cs) :
    ∃ all, readPath ((g0 :: gs).flatMap Spec.Seg.text) = some all ∧ all.map Num.val = [x.val, y.val] ++ Spec.draw (x.val, y.val) cs := by
  have hgs : ∀ g ∈ gs, isLetter g.letter = true ∧ g.body ≠ [] ∧ ∀ c ∈ g.body, inClass c = true := by
    intro g hg
    obtain ⟨c, -, hm⟩ : ∃ c ∈ cs, g.Means c := by
      clear hv
      induction h with
      | nil => cases hg
      | cons hm _ ih =>
        rcases List.mem_cons.1 hg with rfl | hg
        · exact ⟨_, by simp, hm⟩
        · obtain ⟨c, hc, hm'⟩ := ih hg
          exact ⟨c, by simp [hc], hm'⟩
    obtain ⟨xs, h1, -⟩ := hm.values
    refine ⟨?_, body_class hm.good (mapM_some h1)⟩
    rw [hm.letter]
    cases c.relative <;> decide
  have hall : ∀ g ∈ g0 :: gs, isLetter g.letter = true ∧ g.body ≠ [] ∧ ∀ c ∈ g.body, inClass c = true := by
    intro g hg
    rcases List.mem_cons.1 hg with rfl | hg
    · refine ⟨?_, body_class h0 (mapM_some hv)⟩
      rcases hl with hl | hl <;> rw [hl] <;> decide
    · exact hgs g hg
  unfold readPath
  rw [findall_text _ hall, List.map_cons, List.foldlM_cons]
  have hc : g0.letter ≠ 'c' := by rcases hl with hl | hl <;> rw [hl] <;> decide
  have e0 : ∃ u v, addLine [] (g0.letter, g0.body) = some [u, v] ∧ u.val = x.val ∧ v.val = y.val := by
    unfold addLine
    simp only [tokens_good h0 (mapM_some hv), hv, Option.bind_eq_bind, Option.bind_some, if_neg hc]
    cases isIntArray [x, y] with
    | true => exact ⟨x, y, by simp, rfl, rfl⟩
    | false => exact ⟨.flt x.val, .flt y.val, by simp, rfl, rfl⟩
  obtain ⟨u, v, e0, hu, hv'⟩ := e0
  obtain ⟨all, e1, e2⟩ := fold_means gs cs h [u, v] [] u v rfl
  refine ⟨all, ?_, ?_⟩
  · rw [e0]; exact e1
  · rw [e2]; simp [hu, hv']

/-- A path of a start and one relative command, with any number of numbers. -/
theorem read_two (g0 g : Spec.Seg) (x y : Num) (xs : List Num) (h0 : g0.Good) (hl : g0.letter = 'M') (hv : g0.literals.mapM evalTok = some [x, y])
    (hg : g.Good) (hc : g.letter = 'c') (hx : g.literals.mapM evalTok = some xs) :
    ∃ u v : Num, u.val = x.val ∧ v.val = y.val ∧ readPath (g0.text ++ g.text) = some ([u, v] ++
      (if isIntArray xs then xs else xs.map fun x => .flt x.val).mapIdx fun i z =>
        if i < 6 then store (isIntArray xs) (z.val + if i % 2 = 0 then x.val else y.val) else z) := by
  have hall : ∀ k ∈ [g0, g], isLetter k.letter = true ∧ k.body ≠ [] ∧ ∀ c ∈ k.body, inClass c = true := by
    intro k hk
    simp only [List.mem_cons, List.not_mem_nil, or_false] at hk
    rcases hk with rfl | rfl
    · exact ⟨by rw [hl]; decide, body_class h0 (mapM_some hv)⟩
    · exact ⟨by rw [hc]; decide, body_class hg (mapM_some hx)⟩
  have e0 : ∃ u v, addLine [] (g0.letter, g0.body) = some [u, v] ∧ u.val = x.val ∧ v.val = y.val := by
    unfold addLine
    simp only [tokens_good h0 (mapM_some hv), hv, hl, Option.bind_eq_bind, Option.bind_some]
    rw [if_neg (by decide)]
    cases isIntArray [x, y] with
    | true => exact ⟨x, y, by simp, rfl, rfl⟩
    | false => exact ⟨.flt x.val, .flt y.val, by simp, rfl, rfl⟩
  obtain ⟨u, v, e0, hu, hv'⟩ := e0
  refine ⟨u, v, hu, hv', ?_⟩
  have := findall_text [g0, g] hall
  simp only [List.flatMap_cons, List.flatMap_nil, List.append_nil, List.map_cons, List.map_nil] at this
  unfold readPath
  rw [this, List.foldlM_cons, e0]
  simp only [Option.bind_eq_bind, Option.bind_some, List.foldlM_cons, List.foldlM_nil]
  unfold addLine
  simp only [tokens_good hg (mapM_some hx), hx, hc, Option.bind_eq_bind, Option.bind_some]
  simp [hu, hv']

/-- **C196** fails for a negative number after a comma or a space, as most drawing programs write it: the reader stops with an error. -/
theorem C196_sign_violated (a b : List Char) (x y : Num) (sep : Char) (ha : evalTok a = some x) (hb : evalTok b = some y) (hneg : b.head? = some '-')
    (hs : sep = ',' ∨ sep = ' ') : readPath ('M' :: (a ++ sep :: b)) = none := by
  obtain ⟨a0, a1⟩ := tok_chars ha
  obtain ⟨b0, b1⟩ := tok_chars hb
  have hclass : ∀ c ∈ a ++ sep :: b, inClass c = true := by
    intro c hc
    simp only [List.mem_append, List.mem_cons] at hc
    rcases hc with hc | rfl | hc
    · exact (a1 c hc).2.2
    · rcases hs with rfl | rfl <;> decide
    · exact (b1 c hc).2.2
  have hf : findall ('M' :: (a ++ sep :: b)) = [('M', a ++ sep :: b)] := by
    obtain ⟨e1, e2⟩ := takeWhile_body (r := []) hclass (by simp)
    rw [List.append_nil] at e1 e2
    rw [findall, e1, e2, if_pos ⟨by decide, by simp⟩]
    simp [findall]
  have hm : minuses (commas (a ++ sep :: b)) = (if a.head? = some '-' then [' '] else []) ++ (a ++ ' ' :: ' ' :: b) ++ [] := by
    have : a ++ sep :: b = a ++ ([sep] ++ b) := rfl
    rw [this, commas_append, commas_append, commas_tok ha, commas_tok hb, if_pos hneg]
    rcases hs with rfl | rfl <;> simp [commas, minuses]
  have hst : strip (minuses (commas (a ++ sep :: b))) = a ++ ' ' :: ' ' :: b := by
    rw [hm, strip_around]
    · intro c hc
      split_ifs at hc
      · obtain rfl := List.mem_singleton.1 hc
        decide
      · cases hc
    · simp
    · intro c hc
      rw [List.head?_append_of_ne_nil _ a0] at hc
      exact (a1 c (List.mem_of_mem_head? hc)).1
    · intro c hc
      have e : a ++ ' ' :: ' ' :: b = (a ++ [' ', ' ']) ++ b := by simp
      rw [e, List.getLast?_append_of_ne_nil _ b0] at hc
      exact (b1 c (List.mem_of_getLast? hc)).1
    · simp
  have hsp : split (a ++ ' ' :: ' ' :: b) = [a, [], b] := by
    have h2 : split (' ' :: b) = [[], b] := by rw [split, if_pos rfl, split_tok fun c hc => (b1 c hc).2.1]
    rw [split_append fun c hc => (a1 c hc).2.1, h2]
  have h0 : evalTok [] = none := by decide
  unfold readPath
  rw [hf, List.foldlM_cons]
  have : addLine [] ('M', a ++ sep :: b) = none := by
    unfold addLine
    simp only [hst, hsp, List.mapM_cons, ha, h0]
    rfl
  rw [this]
  rfl

/-- **C196** fails for a relative curve that is written in whole numbers, from a point that is not: the fractions are cut off. -/
theorem C196_integers_violated (g0 g : Spec.Seg) (x y : Num) (p q r : ℚ × ℚ) (xs : List Num) (h0 : g0.Good) (hl : g0.letter = 'M')
    (hv : g0.literals.mapM evalTok = some [x, y]) (hg : g.Good) (hc : g.letter = 'c') (hx : g.literals.mapM evalTok = some xs)
    (hxs : xs.map Num.val = (Spec.Cmd.curveBy p q r).numbers) (hi : isIntArray xs = true) (hfrac : ∀ z : ℤ, x.val ≠ z) :
    ∃ all, readPath (g0.text ++ g.text) = some all ∧ all.map Num.val ≠ [x.val, y.val] ++ Spec.draw (x.val, y.val) [.curveBy p q r] ∧
      (all.map Num.val)[2]? = some (if 0 ≤ x.val + p.1 then (⌊x.val + p.1⌋ : ℚ) else (⌈x.val + p.1⌉ : ℚ)) := by
  obtain ⟨u, v, hu, hv', e⟩ := read_two g0 g x y xs h0 hl hv hg hc hx
  refine ⟨_, e, fun hne => ?_, ?_⟩
  · match xs, hxs, hi with
    | .int z :: xs, hxs, hi =>
      simp only [hi, if_true, List.mapIdx_cons, List.cons_append, List.nil_append, List.map_cons, Spec.draw, List.cons.injEq] at hne
      simp only [List.map_cons, Spec.Cmd.numbers, List.cons.injEq] at hxs
      have h1 := hne.2.2.1
      have h2 : (z : ℚ) = p.1 := hxs.1
      simp only [store, if_true] at h1
      norm_num at h1
      apply hfrac (trunc ((Num.int z).val + x.val) - z)
      push_cast
      have h3 : ((trunc ((Num.int z).val + x.val) : ℤ) : ℚ) = x.val + p.1 := h1
      linarith
    | .flt z :: xs, _, hi => simp [isIntArray] at hi
    | [], hxs, _ => simp [Spec.Cmd.numbers] at hxs
  · match xs, hxs, hi with
    | .int z :: xs, hxs, hi =>
      simp only [List.map_cons, Spec.Cmd.numbers, List.cons.injEq] at hxs
      have h2 : (Num.int z).val = p.1 := hxs.1
      simp only [hi, if_true, List.mapIdx_cons, List.cons_append, List.nil_append, List.map_cons, List.getElem?_cons_succ, List.getElem?_cons_zero, store, h2]
      norm_num
      rw [add_comm p.1]
      show ((trunc (x.val + p.1) : ℤ) : ℚ) = _
      unfold trunc
      split_ifs <;> rfl
    | .flt z :: xs, _, hi => simp [isIntArray] at hi
    | [], hxs, _ => simp [Spec.Cmd.numbers] at hxs

/-- **C196** fails for several relative curves after one letter: the second is not placed where the first ends. -/
theorem C196_several_violated (g0 g : Spec.Seg) (x y : Num) (p q r p' q' r' : ℚ × ℚ) (xs : List Num) (h0 : g0.Good) (hl : g0.letter = 'M')
    (hv : g0.literals.mapM evalTok = some [x, y]) (hg : g.Good) (hc : g.letter = 'c') (hx : g.literals.mapM evalTok = some xs)
    (hxs : xs.map Num.val = (Spec.Cmd.curveBy p q r).numbers ++ (Spec.Cmd.curveBy p' q' r').numbers) (hend : x.val + r.1 ≠ 0) :
    ∃ all, readPath (g0.text ++ g.text) = some all ∧
      all.map Num.val ≠ [x.val, y.val] ++ Spec.draw (x.val, y.val) [.curveBy p q r, .curveBy p' q' r'] := by
  obtain ⟨u, v, hu, hv', e⟩ := read_two g0 g x y xs h0 hl hv hg hc hx
  refine ⟨_, e, fun hne => hend ?_⟩
  have hlen : xs.length = 12 := by
    have := congrArg List.length hxs
    rwa [List.length_map] at this
  have h7 : (xs.map Num.val)[6]? = some p'.1 := by rw [hxs]; rfl
  have k := congrArg (fun l : List ℚ => l[8]?) hne
  simp only [Spec.draw] at k
  have h6 : 6 < xs.length := by omega
  have hv6 : (xs[6]).val = p'.1 := by
    rw [List.getElem?_map, List.getElem?_eq_getElem h6] at h7
    simpa using h7
  cases hi : isIntArray xs with
  | true =>
    simp [hi, List.getElem?_mapIdx, List.getElem?_eq_getElem h6, hv6] at k
    linarith
  | false =>
    simp [hi, List.getElem?_mapIdx, List.getElem?_eq_getElem h6, hv6, flt_val] at k
    linarith

/-- **C196** fails for straight lines: they are left out without notice. -/
theorem C196_lines_violated (gs : List Spec.Seg) (h : ∀ g ∈ gs, isLetter g.letter = true ∧ g.Good ∧ ∃ xs, g.literals.mapM evalTok = some xs)
    (letter : Char) (hl : letter ∈ ['L', 'l', 'H', 'h', 'V', 'v', 'Z', 'z']) (s : List Char) (hs : ∀ c ∈ s, isLetter c = false) :
    readPath (gs.flatMap Spec.Seg.text ++ letter :: s) = readPath (gs.flatMap Spec.Seg.text) := by
  have hall : ∀ g ∈ gs, isLetter g.letter = true ∧ g.body ≠ [] ∧ ∀ c ∈ g.body, inClass c = true := fun g hg => by
    obtain ⟨h1, h2, xs, h3⟩ := h g hg
    exact ⟨h1, body_class h2 (mapM_some h3)⟩
  have hl2 : inClass letter = false ∧ isLetter letter = false := by
    simp only [List.mem_cons, List.not_mem_nil, or_false] at hl
    rcases hl with rfl | rfl | rfl | rfl | rfl | rfl | rfl | rfl <;> decide
  unfold readPath
  rw [findall_rest gs hall (letter :: s) (fun c hc => by simp at hc; rw [← hc]; exact hl2.1), findall_text gs hall, findall_none (letter :: s), List.append_nil]
  intro c hc
  rcases List.mem_cons.1 hc with rfl | hc
  · exact hl2.2
  · exact hs c hc

/-! ## Examples -/

/-- `M 10,20`, `c1.5-2,3,4 5,6`, `C 1,2 3,4 5,6 `. -/
def exM : Spec.Seg := ⟨'M', [' '], ['1', '0'], [([','], ['2', '0'])], []⟩
def exRel : Spec.Seg := ⟨'c', [], "1.5".toList, [([], "-2".toList), ([','], "3".toList), ([','], "4".toList), ([' '], "5".toList), ([','], "6".toList)], []⟩
def exAbs : Spec.Seg := ⟨'C', [' '], "1".toList, [([','], "2".toList), ([' '], "3".toList), ([','], "4".toList), ([' '], "5".toList), ([','], "6".toList)], [' ']⟩

example : [exM, exRel, exAbs].flatMap Spec.Seg.text = "M 10,20c1.5-2,3,4 5,6C 1,2 3,4 5,6 ".toList := by decide

example : ∃ all, readPath "M 10,20c1.5-2,3,4 5,6C 1,2 3,4 5,6 ".toList = some all ∧
    all.map Num.val = [10, 20, 23 / 2, 18, 13, 24, 15, 26, 1, 2, 3, 4, 5, 6] := by
  have h := C196_partial exM (.int 10) (.int 20) [exRel, exAbs] [.curveBy (3 / 2, -2) (3, 4) (5, 6), .curveTo (1, 2) (3, 4) (5, 6)]
    ⟨by decide, by decide, by simp [exM, Spec.Separated]⟩ (Or.inl rfl) rfl
    (.cons ⟨⟨by decide, by decide, by simp [exRel, Spec.Separated]⟩, rfl,
      ⟨[.flt (1 + 5 / 10 ^ 1), .int (-2), .int 3, .int 4, .int 5, .int 6], by rfl, by norm_num [Num.val, Spec.Cmd.numbers], fun _ => rfl⟩⟩
      (.cons ⟨⟨by decide, by decide, by simp [exAbs, Spec.Separated]⟩, rfl,
        ⟨[.int 1, .int 2, .int 3, .int 4, .int 5, .int 6], by rfl, by norm_num [Num.val, Spec.Cmd.numbers], fun h => by cases h⟩⟩ .nil))
  have e : [exM, exRel, exAbs].flatMap Spec.Seg.text = "M 10,20c1.5-2,3,4 5,6C 1,2 3,4 5,6 ".toList := by decide
  rw [e] at h
  obtain ⟨all, h1, h2⟩ := h
  refine ⟨all, h1, ?_⟩
  rw [h2]
  norm_num [Spec.draw, Num.val]

-- `M10,-20` is an error
example : readPath "M10,-20".toList = none := C196_sign_violated ['1', '0'] ['-', '2', '0'] (.int 10) (.int (-20)) ',' rfl rfl rfl (Or.inl rfl)

/-- `M0.5,0`, `c1,2,3,4,5,6`, and twelve numbers. -/
def exHalf : Spec.Seg := ⟨'M', [], "0.5".toList, [([','], "0".toList)], []⟩
def exInts : Spec.Seg := ⟨'c', [], "1".toList, ["2", "3", "4", "5", "6"].map fun t => ([','], t.toList), []⟩
def exTwelve : Spec.Seg := ⟨'c', [], "1".toList, ["2", "3", "4", "5", "6", "1", "2", "3", "4", "5", "6"].map fun t => ([','], t.toList), []⟩

example : ∃ all, readPath (exHalf.text ++ exInts.text) = some all ∧
    all.map Num.val ≠ [(Num.flt (0 + 5 / 10 ^ 1)).val, (Num.int 0).val] ++ Spec.draw ((Num.flt (0 + 5 / 10 ^ 1)).val, (Num.int 0).val) [.curveBy (1, 2) (3, 4) (5, 6)] ∧
    (all.map Num.val)[2]? = some (if 0 ≤ (Num.flt (0 + 5 / 10 ^ 1)).val + 1 then (⌊(Num.flt (0 + 5 / 10 ^ 1)).val + 1⌋ : ℚ) else (⌈(Num.flt (0 + 5 / 10 ^ 1)).val + 1⌉ : ℚ)) :=
  C196_integers_violated exHalf exInts (.flt (0 + 5 / 10 ^ 1)) (.int 0) (1, 2) (3, 4) (5, 6)
    [.int 1, .int 2, .int 3, .int 4, .int 5, .int 6] ⟨by decide, by decide, by simp [exHalf, Spec.Separated]⟩ rfl (by rfl)
    ⟨by decide, by decide, by simp [exInts, Spec.Separated]⟩ rfl (by rfl)
    (by norm_num [Num.val, Spec.Cmd.numbers]) rfl (fun z hz => by
      have h2 : (1 : ℚ) = 2 * z := by rw [← hz]; norm_num [Num.val]
      have h3 : (1 : ℤ) = 2 * z := by exact_mod_cast h2
      omega)

example : ∃ all, readPath (exM.text ++ exTwelve.text) = some all ∧
    all.map Num.val ≠ [(Num.int 10).val, (Num.int 20).val] ++
      Spec.draw ((Num.int 10).val, (Num.int 20).val) [.curveBy (1, 2) (3, 4) (5, 6), .curveBy (1, 2) (3, 4) (5, 6)] :=
  C196_several_violated exM exTwelve (.int 10) (.int 20) (1, 2) (3, 4) (5, 6) (1, 2) (3, 4) (5, 6)
    [.int 1, .int 2, .int 3, .int 4, .int 5, .int 6, .int 1, .int 2, .int 3, .int 4, .int 5, .int 6]
    ⟨by decide, by decide, by simp [exM, Spec.Separated]⟩ rfl (by rfl) ⟨by decide, by decide, by simp [exTwelve, Spec.Separated]⟩ rfl (by rfl)
    (by norm_num [Num.val, Spec.Cmd.numbers]) (by norm_num [Num.val])

-- the line of `M 10,20L5,5` is left out
example : readPath ([exM].flatMap Spec.Seg.text ++ 'L' :: "5,5".toList) = readPath ([exM].flatMap Spec.Seg.text) :=
  C196_lines_violated [exM] (fun g hg => by
    obtain rfl := List.mem_singleton.1 hg
    exact ⟨by decide, ⟨by decide, by decide, by simp [exM, Spec.Separated]⟩, [.int 10, .int 20], by rfl⟩) 'L' (by decide) _ (by decide)

end Verif.SvgPath
