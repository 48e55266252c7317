import Mathlib.Data.List.Basic
import Mathlib.Tactic.Linarith
import Mathlib.Tactic.IntervalCases

/-! # The window of the GCode scheduler (C47, C86, C88, C90)

Mirrors `reinitialize`, `solve`, `update_segments`, `generate_problem` and `stop_criterium` of
`omgtools/problems/gcodeschedulerproblem.py:81-172, 598-623, 738-745` and the check in the constructor of
`omgtools/problems/gcodeproblem.py:32-37`.  The decision to move on (`check_segments`) is an input; numbers of rooms are those given by
`get_environment`, lines 235-504, and `split_ring_segment`, lines 506-556. -/

set_option linter.unusedSectionVars false

namespace Verif.GCode.Window

variable {R : Type}

/-! ## Model: numbers of rooms -/

/-- What matters of a block for the number of its rooms: a straight block, and whether it is long enough to be split, or an arc, and whether
it has more than 135 degrees. -/
inductive Shape where
  | line (long : Bool)
  | arc (large : Bool)
deriving DecidableEq

/-- The numbers of the rooms of a block, counted from the number of its first room, gcodeschedulerproblem.py:246-310, 354-500, 506-556. -/
def offsets (variableTol splitCircle : Bool) : Shape → List ℕ
  | .line long => if variableTol && long then [0, 1, 2] else [0]
  | .arc large =>
    let rings := if splitCircle && large then [0, 1] else [0]
    if variableTol then rings.flatMap fun _ => [0, 1, 2] else rings

/-- The loop over the blocks, gcodeschedulerproblem.py:241-504. -/
def numbers (variableTol splitCircle : Bool) : List Shape → ℕ → List ℕ
  | [], _ => []
  | b :: bs, number =>
    (offsets variableTol splitCircle b).map (number + ·) ++ numbers variableTol splitCircle bs (number + (offsets variableTol splitCircle b).length)

/-! ## Model: the centre of an arc -/

/-- A block for `get_environment`: a straight one, or an arc with `center` and whether it has more than 135 degrees. -/
inductive Item (K : Type) where
  | line
  | arc (center : List K) (large : Bool)

/-- The centre of a block when its room is made: the difference of `block.start` and `block.center` needs three entries
(gcodeschedulerproblem.py:317-318, `none` stands for the `ValueError`); `pose` is a copy if the circle is split (line 541) and `block.center`
itself, which is made longer by three zeros, if it is not (lines 551-552). -/
def useItem {K : Type} [Zero K] (splitCircle : Bool) : Item K → Option (Item K)
  | .line => some .line
  | .arc c large =>
    if c.length ≠ 3 then none
    else if splitCircle && large then some (.arc c large) else some (.arc (c ++ [0, 0, 0]) large)

/-- The blocks of a program after `get_environment`. -/
def useProgram {K : Type} [Zero K] (splitCircle : Bool) (p : List (Item K)) : Option (List (Item K)) := p.mapM (useItem splitCircle)

/-! ## Model: the window -/

/-- The state: `segments`, `n_segments`, `n_current_block` and `next_segment`. -/
structure State (R : Type) where
  segments : List R
  n : ℕ
  block : ℕ
  next : Option R

/-- `reinitialize`, gcodeschedulerproblem.py:81-96. -/
def start (rooms : List R) (n : ℕ) : State R := ⟨rooms.take n, n, 0, if n = 1 ∧ 1 < rooms.length then rooms[1]? else none⟩

/-- `update_segments` after the step of `n_current_block`, gcodeschedulerproblem.py:131-132, 598-617; `none` stands for the `IndexError`. -/
def update (num : R → ℕ) (rooms : List R) (s : State R) : Option (State R) :=
  match s.segments.getLast? with
  | none => none
  | some l =>
    if num l < rooms.length - 1 then
      match rooms[s.block + 1 + (s.n - 1)]? with
      | none => none
      | some r =>
        let next := if s.n = 1 then (if num r < rooms.length - 1 then rooms[s.block + 1 + 1]? else none) else s.next
        some ⟨(s.segments ++ [r]).tail, s.n, s.block + 1, next⟩
    else some ⟨s.segments.tail, s.n - 1, s.block + 1, s.next⟩

/-- The state after `k` updates. -/
def run (num : R → ℕ) (rooms : List R) (n : ℕ) : ℕ → Option (State R)
  | 0 => some (start rooms n)
  | k + 1 => (run num rooms n k).bind (update num rooms)

/-- The rooms of the local problem: `generate_problem`, gcodeschedulerproblem.py:738-743, and the check in `GCodeProblem.__init__`,
gcodeproblem.py:35-37; `none` stands for the `RuntimeError`. -/
def localRooms (rooms : List R) (s : State R) : Option (List R) :=
  let l := (rooms.drop s.block).take s.n
  if l.length < s.n then none else some l

/-- `stop_criterium`, gcodeschedulerproblem.py:165-172, where `arrived` is the answer of the local problem; `None` counts as `False`. -/
def stops [DecidableEq R] {P : Type} [DecidableEq P] (stop : R → P) (goal : P) (s : State R) (arrived : Bool) : Bool :=
  match s.segments.head? with
  | none => false
  | some r => decide (stop r = goal) && arrived

/-! ## Specification -/

/-- Rooms `k`, ..., `k + n - 1` of the program, as far as they exist. -/
def Spec.next (rooms : List R) (k n : ℕ) : List R := (List.range n).filterMap fun i => rooms[k + i]?

/-- The number of a room is its place in the program. -/
def Spec.Numbered (num : R → ℕ) (rooms : List R) : Prop := ∀ i r, rooms[i]? = some r → num r = i

/-! ## Lemmas -/

theorem next_eq (rooms : List R) (k n : ℕ) : Spec.next rooms k n = (rooms.drop k).take n := by
  unfold Spec.next
  induction n with
  | zero => simp
  | succ n ih =>
    rw [List.range_succ, List.filterMap_append, ih, List.take_add_one, List.getElem?_drop]
    congr 1

theorem window_last {rooms : List R} {k n : ℕ} (hk : k < rooms.length) (hn : 0 < n) (hkn : k + n ≤ rooms.length) :
    ((rooms.drop k).take n).getLast? = rooms[k + n - 1]? := by
  rw [List.getLast?_eq_getElem?]
  have hl : ((rooms.drop k).take n).length = n := by simp; omega
  rw [hl, List.getElem?_take_of_lt (by omega), List.getElem?_drop]
  congr 1; omega

theorem window_tail (rooms : List R) (k n : ℕ) : ((rooms.drop k).take n).tail = (rooms.drop (k + 1)).take (n - 1) := by
  cases n with
  | zero => simp
  | succ n =>
    rw [← List.drop_one, List.drop_take, List.drop_drop]

theorem window_snoc {rooms : List R} {k n : ℕ} {r : R} (hr : rooms[k + n]? = some r) :
    (((rooms.drop k).take n) ++ [r]).tail = (rooms.drop (k + 1)).take n := by
  have h1 : ((rooms.drop k).take n) ++ [r] = (rooms.drop k).take (n + 1) := by
    rw [List.take_add_one, List.getElem?_drop, hr]; rfl
  rw [h1, window_tail]; rfl

/-- The invariant. -/
theorem run_spec (num : R → ℕ) (rooms : List R) (n : ℕ) (hn : 1 ≤ n) (hlen : n ≤ rooms.length) (hnum : Spec.Numbered num rooms) :
    ∀ k, k < rooms.length → ∃ s, run num rooms n k = some s ∧ s.segments = (rooms.drop k).take n ∧ s.n = min n (rooms.length - k) ∧
      s.block = k ∧ (n = 1 → s.next = rooms[k + 1]?) := by
  intro k
  induction k with
  | zero =>
    intro _
    refine ⟨start rooms n, rfl, by simp [start], by simp [start]; omega, rfl, ?_⟩
    intro h1
    simp only [start, h1, true_and]
    split
    · rfl
    · rename_i h; rw [List.getElem?_eq_none (by omega)]
  | succ k ih =>
    intro hk
    obtain ⟨s, h1, h2, h3, h4, h5⟩ := ih (by omega)
    simp only [run, h1, Option.bind_some]
    have hseg : s.segments = (rooms.drop k).take s.n := by
      rw [h2, h3]
      rcases Nat.le_total n (rooms.length - k) with h | h
      · rw [Nat.min_eq_left h]
      · rw [Nat.min_eq_right h, List.take_of_length_le (by simp; omega), List.take_of_length_le (by simp)]
    have hlast : s.segments.getLast? = rooms[k + s.n - 1]? := by
      rw [hseg]; exact window_last (by omega) (by omega) (by omega)
    have hb : k + s.n - 1 < rooms.length := by omega
    unfold update
    rw [hlast, List.getElem?_eq_getElem hb]
    have hnl : num rooms[k + s.n - 1] = k + s.n - 1 := hnum _ _ (List.getElem?_eq_getElem hb)
    simp only [hnl]
    by_cases hend : k + s.n - 1 < rooms.length - 1
    · rw [if_pos hend]
      have hidx : s.block + 1 + (s.n - 1) = k + s.n := by omega
      have hb' : k + s.n < rooms.length := by omega
      have hnk : s.n = n := by omega
      rw [hidx, List.getElem?_eq_getElem hb']
      have hnr : num rooms[k + s.n] = k + s.n := hnum _ _ (List.getElem?_eq_getElem hb')
      simp only [hnr]
      refine ⟨_, rfl, ?_, ?_, ?_, ?_⟩
      · simp only
        rw [hseg, window_snoc (List.getElem?_eq_getElem hb'), hnk]
      · simp only; omega
      · simp only; omega
      · intro hn1
        simp only
        rw [if_pos (by omega)]
        split
        · rw [h4]
        · rw [List.getElem?_eq_none (by omega)]
    · rw [if_neg hend]
      refine ⟨_, rfl, ?_, ?_, ?_, ?_⟩
      · simp only
        rw [h2, window_tail, List.take_of_length_le (by simp; omega), List.take_of_length_le (by simp; omega)]
      · simp only; omega
      · simp only; omega
      · intro hn1
        omega

theorem numbers_spec (variableTol splitCircle : Bool) (h : variableTol = false ∨ splitCircle = false) (bs : List Shape) :
    ∀ number, numbers variableTol splitCircle bs number = List.range' number (numbers variableTol splitCircle bs number).length := by
  have hoff : ∀ b, offsets variableTol splitCircle b = List.range (offsets variableTol splitCircle b).length := by
    intro b
    rcases h with rfl | rfl
    · cases b with
      | line l => cases l <;> rfl
      | arc l => cases l <;> cases splitCircle <;> rfl
    · cases b with
      | line l => cases l <;> cases variableTol <;> rfl
      | arc l => cases l <;> cases variableTol <;> rfl
  induction bs with
  | nil => intro number; rfl
  | cons b bs ih =>
    intro number
    simp only [numbers, List.length_append, List.length_map]
    rw [ih (number + (offsets variableTol splitCircle b).length), hoff b]
    simp only [List.length_range', List.range_eq_range', List.map_add_range', Nat.add_zero]
    rw [List.range'_append_1]

/-! ## Properties -/

/-- C88: if circles are not split or the tolerance is constant, the rooms of every program are numbered in order from zero. -/
theorem C88_partial (variableTol splitCircle : Bool) (h : variableTol = false ∨ splitCircle = false) (bs : List Shape) :
    numbers variableTol splitCircle bs 0 = List.range (numbers variableTol splitCircle bs 0).length := by
  rw [List.range_eq_range']; exact numbers_spec variableTol splitCircle h bs 0

example : numbers true false [.line true, .arc true, .line false] 0 = [0, 1, 2, 3, 4, 5, 6] := by decide

/-- C88 is violated: a split circle with variable tolerance repeats its numbers. -/
theorem C88_violated : ∃ bs : List Shape, numbers true true bs 0 ≠ List.range (numbers true true bs 0).length ∧
    ¬ (numbers true true bs 0).Nodup := ⟨[.arc true], by decide, by decide⟩

/-- C47: with numbered rooms and a window that is not larger than the program, after `k` updates the window has the rooms `k`, `k + 1`, ... of
the program in order, it is smaller than at the start only if it reaches the end, and the local problem is made of these rooms. -/
theorem C47_partial (num : R → ℕ) (rooms : List R) (n k : ℕ) (hn : 1 ≤ n) (hlen : n ≤ rooms.length) (hnum : Spec.Numbered num rooms)
    (hk : k < rooms.length) :
    ∃ s, run num rooms n k = some s ∧ s.segments = Spec.next rooms k n ∧ s.segments.head? = rooms[k]? ∧
      s.segments.length = s.n ∧ (s.n < n → s.segments.getLast? = rooms.getLast?) ∧ localRooms rooms s = some s.segments := by
  obtain ⟨s, h1, h2, h3, h4, _⟩ := run_spec num rooms n hn hlen hnum k hk
  have hl : s.segments.length = s.n := by rw [h2, h3]; simp
  refine ⟨s, h1, by rw [next_eq, h2], ?_, hl, ?_, ?_⟩
  · rw [h2, List.head?_take, if_neg (by omega), List.head?_drop]
  · intro hs
    rw [h2, List.take_of_length_le (by simp; omega), List.getLast?_drop, if_neg (by omega)]
  · have e : (rooms.drop s.block).take s.n = s.segments := by
      rw [h4, h2, h3]
      rcases Nat.le_total n (rooms.length - k) with h | h
      · rw [Nat.min_eq_left h]
      · rw [Nat.min_eq_right h, List.take_of_length_le (by simp), List.take_of_length_le (by simp; omega)]
    unfold localRooms
    simp only [e]
    rw [if_neg (by omega)]

/-- C47: with a window of one room the room that is watched for the next update is the next one of the program, until there is none. -/
theorem C47_next (num : R → ℕ) (rooms : List R) (k : ℕ) (hnum : Spec.Numbered num rooms) (hk : k < rooms.length) :
    ∃ s, run num rooms 1 k = some s ∧ s.next = rooms[k + 1]? := by
  obtain ⟨s, h1, _, _, _, h5⟩ := run_spec num rooms 1 le_rfl (by omega) hnum k hk
  exact ⟨s, h1, h5 rfl⟩

example : Spec.Numbered id [0, 1, 2, 3] ∧ (run id [0, 1, 2, 3] 2 3).map State.segments = some [3] := by
  refine ⟨?_, by decide⟩
  intro i r h
  have hi : i < 4 := by
    by_contra hc
    rw [List.getElem?_eq_none (by simp; omega)] at h
    simp at h
  interval_cases i <;> simp_all

/-- C47 is violated: with fewer rooms than the size of the window no local problem can be made, for all programs. -/
theorem C47_short_violated (rooms : List R) (n : ℕ) (h : rooms.length < n) : localRooms rooms (start rooms n) = none := by
  unfold localRooms start
  simp only
  rw [if_pos]
  simp; omega

/-- C47 is violated: with the numbers of a split circle with variable tolerance, the updates fail before the last room. -/
theorem C47_numbers_violated : ∃ bs : List Shape, (numbers true true bs 0).length = 6 ∧
    run (fun p : ℕ × ℕ => p.2) ((List.range 6).zip (numbers true true bs 0)) 2 5 = none := ⟨[.arc true], by decide, by decide⟩

section Stop

variable [DecidableEq R] {P : Type} [DecidableEq P]

/-- C90: if only the last room ends in the goal, the scheduler stops only on the last room. -/
theorem C90_partial (num : R → ℕ) (rooms : List R) (n k : ℕ) (hn : 1 ≤ n) (hlen : n ≤ rooms.length) (hnum : Spec.Numbered num rooms)
    (hk : k < rooms.length) (stop : R → P) (goal : P) (hgoal : ∀ i r, rooms[i]? = some r → stop r = goal → i + 1 = rooms.length)
    (s : State R) (hs : run num rooms n k = some s) (arrived : Bool) (h : stops stop goal s arrived = true) :
    k + 1 = rooms.length ∧ arrived = true := by
  obtain ⟨s', h1, _, h3, _⟩ := C47_partial num rooms n k hn hlen hnum hk
  rw [hs, Option.some.injEq] at h1
  subst h1
  unfold stops at h
  rw [h3, List.getElem?_eq_getElem hk] at h
  simp only [Bool.and_eq_true, decide_eq_true_eq] at h
  exact ⟨hgoal k _ (List.getElem?_eq_getElem hk) h.1, h.2⟩

end Stop

/-- C90 is violated: if an earlier room ends in the goal, the scheduler stops there; the rooms are given by number and end. -/
theorem C90_violated : ∃ (rooms : List (ℕ × ℕ)) (s : State (ℕ × ℕ)), Spec.Numbered Prod.fst rooms ∧
    run Prod.fst rooms 1 1 = some s ∧ stops Prod.snd 0 s true = true ∧ 2 < rooms.length := by
  refine ⟨[(0, 1), (1, 0), (2, 1), (3, 0)], ⟨[(1, 0)], 1, 1, some (2, 1)⟩, ?_, by rfl, by decide, by decide⟩
  intro i r h
  have hi : i < 4 := by
    by_contra hc
    rw [List.getElem?_eq_none (by simp; omega)] at h
    simp at h
  interval_cases i <;> simp_all <;> rw [← h]

section Reuse

variable {K : Type} [Zero K]

/-- C86: a program in which every arc is a circle that is split is not changed by making the rooms, so it can be used again. -/
theorem C86_partial (splitCircle : Bool) (p : List (Item K))
    (h : ∀ b ∈ p, ∀ c large, b = Item.arc c large → c.length = 3 ∧ splitCircle = true ∧ large = true) : useProgram splitCircle p = some p := by
  unfold useProgram
  induction p with
  | nil => rfl
  | cons b rest ih =>
    have hb : useItem splitCircle b = some b := by
      cases hbe : b with
      | line => rfl
      | arc c large =>
        obtain ⟨h1, h2, h3⟩ := h b (by simp) c large hbe
        simp [useItem, h1, h2, h3]
    rw [List.mapM_cons, hb, ih (fun d hd => h d (List.mem_cons_of_mem _ hd))]
    rfl

/-- C86 is violated: with any other arc the rooms of the program can be made once, but not a second time. -/
theorem C86_violated (splitCircle : Bool) (c : List K) (large : Bool) (hc : c.length = 3) (hs : (splitCircle && large) = false)
    (pre post : List (Item K)) :
    ((useProgram splitCircle [Item.arc c large]).isSome = true) ∧
    (useProgram splitCircle (pre ++ Item.arc c large :: post)).bind (useProgram splitCircle) = none := by
  have h1 : useItem splitCircle (Item.arc c large) = some (Item.arc (c ++ [0, 0, 0]) large) := by simp [useItem, hc, hs]
  have h2 : useItem splitCircle (Item.arc (c ++ [0, 0, 0]) large) = none := by simp [useItem, hc]
  refine ⟨by simp [useProgram, h1], ?_⟩
  unfold useProgram
  cases hp : List.mapM (useItem splitCircle) (pre ++ Item.arc c large :: post) with
  | none => rfl
  | some q =>
    simp only [Option.bind_some]
    rw [List.mapM_append, List.mapM_cons, h1] at hp
    cases hp1 : List.mapM (useItem splitCircle) pre with
    | none => rw [hp1] at hp; simp at hp
    | some q1 =>
      cases hp2 : List.mapM (useItem splitCircle) post with
      | none => rw [hp1, hp2] at hp; simp at hp
      | some q2 =>
        rw [hp1, hp2] at hp
        simp only [Option.pure_def, Option.bind_eq_bind, Option.bind_some, Option.some.injEq] at hp
        rw [← hp, List.mapM_append, List.mapM_cons, h2]
        cases List.mapM (useItem splitCircle) q1 <;> rfl

example : (useProgram true [Item.line, Item.arc [(1 : ℤ), 2, 0] true]).isSome = true ∧
    useProgram false [Item.line, Item.arc [(1 : ℤ), 2, 0, 0, 0, 0] true] = none := by decide

end Reuse

end Verif.GCode.Window
