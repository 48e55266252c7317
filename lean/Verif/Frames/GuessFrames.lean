import Verif.Frames.Scheduler

/-! # Which guess belongs to which frame (C186)

Mirrors `get_init_guess` of `omgtools/problems/schedulerproblem.py:481-521` for the windows of frames of C70. -/

set_option linter.unusedSectionVars false

namespace Verif.Frames

section GuessFrames

variable {P : Type} [DecidableEq P]

/-! ## Model -/

/-- Where a guess comes from: the combination of the first two segments of the old solution, a segment of the old solution, or the
waypoints of a frame. -/
inductive Source (P : Type) where
  | combined
  | old (k : ℕ)
  | path (f : Fr P)
  deriving DecidableEq

/-- `get_init_guess` with the loop over `guess_idx`, schedulerproblem.py:497-519: `solved` says whether there is an old solution; `none` is
the `IndexError` of `self.frames[k]`. -/
def getGuess (w : Window P) (solved : Bool) : Option (List (Source P)) :=
  let n := w.n.toNat
  let first : List (Source P) :=
    if solved then (if n > 1 then [.combined] else []) ++ (if n > 2 then (List.range' 2 (n - 2)).map .old else []) else []
  let idx := if solved then [n - 1] else List.range n
  (idx.mapM fun k => (w.frames[k]?).map Source.path).map fun l => first ++ l

/-! ## Specification -/

/-- The guess is for the new frame number `k`: the old solution in the same frame, or in it and in the frame that has just been left, or
the waypoints of the frame itself. -/
def Spec.For (before after : List (Fr P)) (k : ℕ) : Source P → Prop
  | .combined => k = 0 ∧ 2 ≤ before.length ∧ after[k]? = before[1]?
  | .old j => j < before.length ∧ after[k]? = before[j]?
  | .path f => after[k]? = some f

/-- One guess for every frame, each one for its frame. -/
def Spec.Matched (before after : List (Fr P)) (src : List (Source P)) : Prop :=
  src.length = after.length ∧ ∀ k (h : k < src.length), Spec.For before after k src[k]

/-! ## Properties -/

/-- One update from a window of the right length. -/
theorem getGuess_update (before : List (Fr P)) (w : Window P) (h2 : 2 ≤ before.length) (hlen : (w.frames.length : ℤ) = w.n)
    (hn : 1 ≤ w.n) (hdrop : w.frames = before.drop 1 ∨ ∃ f, w.frames = before.drop 1 ++ [f]) :
    ∃ src, getGuess w true = some src ∧ Spec.Matched before w.frames src := by
  obtain ⟨n, hn'⟩ : ∃ n : ℕ, w.n = n := ⟨w.n.toNat, by omega⟩
  have hl : w.frames.length = n := by omega
  have hpos : 1 ≤ n := by omega
  have hlt : n - 1 < w.frames.length := by omega
  have hsame : ∀ k, k + 1 < before.length → w.frames[k]? = before[k + 1]? := by
    intro k hk
    rcases hdrop with h | ⟨f, h⟩
    · rw [h, List.getElem?_drop, Nat.add_comm]
    · rw [h, List.getElem?_append_left (by simp; omega), List.getElem?_drop, Nat.add_comm]
  have hb : n ≤ before.length := by
    rw [← hl]
    rcases hdrop with h | ⟨f, h⟩ <;> rw [h] <;> simp only [List.length_append, List.length_drop, List.length_singleton] <;> omega
  have hget : getGuess w true = some (((if n > 1 then [.combined] else []) ++
      (if n > 2 then (List.range' 2 (n - 2)).map .old else [])) ++ [.path w.frames[n - 1]]) := by
    simp [getGuess, hn', List.getElem?_eq_getElem hlt]
  refine ⟨_, hget, ?_, ?_⟩
  · rw [hl]
    by_cases a : n > 1
    · by_cases b : n > 2
      · simp [a, b]; omega
      · simp [a, b]; omega
    · simp [a, show ¬n > 2 by omega]; omega
  · intro k hk
    by_cases a : n > 1
    · cases k with
      | zero =>
        simp only [a, if_true, List.cons_append, List.nil_append, List.getElem_cons_zero]
        exact ⟨rfl, h2, hsame 0 (by omega)⟩
      | succ k =>
        by_cases b : n > 2
        · simp only [a, b, if_true, List.cons_append, List.nil_append, List.getElem_cons_succ]
          simp only [a, b, if_true, List.cons_append, List.nil_append, List.length_cons, List.length_append, List.length_map,
            List.length_range', List.length_nil] at hk
          rcases Nat.lt_or_ge k (n - 2) with l | g
          · rw [List.getElem_append_left (by simpa using l), List.getElem_map, List.getElem_range']
            refine ⟨by omega, ?_⟩
            rw [hsame (k + 1) (by omega)]
            congr 1
            omega
          · obtain rfl : k = n - 2 := by omega
            rw [List.getElem_append_right (by simp)]
            simp only [List.length_map, List.length_range', Nat.sub_self, List.getElem_cons_zero]
            show w.frames[n - 2 + 1]? = _
            rw [show n - 2 + 1 = n - 1 by omega, List.getElem?_eq_getElem hlt]
        · simp only [a, b, if_true, if_false, List.cons_append, List.nil_append, List.append_nil, List.length_cons, List.length_nil] at hk
          obtain rfl : k = 0 := by omega
          simp only [a, b, if_true, if_false, List.cons_append, List.nil_append, List.append_nil, List.getElem_cons_succ,
            List.getElem_cons_zero]
          show w.frames[0 + 1]? = _
          rw [show 0 + 1 = n - 1 by omega, List.getElem?_eq_getElem hlt]
    · have b : ¬n > 2 := by omega
      simp only [a, b, if_false, List.nil_append, List.length_cons, List.length_nil] at hk
      obtain rfl : k = 0 := by omega
      simp only [a, b, if_false, List.nil_append, List.getElem_cons_zero]
      show w.frames[0]? = _
      rw [show 0 = n - 1 by omega, List.getElem?_eq_getElem hlt]

/-- The guesses before there is a solution. -/
theorem getGuess_first (w : Window P) (hlen : (w.frames.length : ℤ) = w.n) :
    getGuess w false = some (w.frames.map .path) := by
  have h : w.n.toNat = w.frames.length := by omega
  have : (List.range w.frames.length).mapM (fun k => (w.frames[k]?).map Source.path) = some (w.frames.map .path) := by
    generalize w.frames = fs
    have key : ∀ (k : ℕ) (l : List ℕ), (∀ j ∈ l, j < fs.length) →
        l.mapM (fun k => (fs[k]?).map Source.path) = some (l.filterMap fun k => (fs[k]?).map Source.path) := by
      intro _ l hl
      induction l with
      | nil => rfl
      | cons a l ih =>
        have ha := hl a (by simp)
        simp [List.mapM_cons, List.getElem?_eq_getElem ha, ih fun j hj => hl j (by simp [hj])]
    rw [key 0 _ fun j hj => List.mem_range.1 hj]
    congr 1
    induction fs using List.reverseRecOn with
    | nil => rfl
    | append_singleton fs f ih =>
      rw [List.length_append, List.length_singleton, List.range_succ, List.filterMap_append, List.map_append]
      congr 1
      · rw [← ih (fun k l hl => by
          induction l with
          | nil => rfl
          | cons a l ih =>
            have ha := hl a (by simp)
            simp [List.mapM_cons, List.getElem?_eq_getElem ha, ih fun j hj => hl j (by simp [hj])])]
        refine List.filterMap_congr fun k hk => ?_
        rw [List.getElem?_append_left (List.mem_range.1 hk)]
      · simp
  simp [getGuess, h, this]

/-- C186, for all runs whose first call gives as many frames as are asked for, or one less: there is always exactly one guess for
every frame; at the start each one is made from the waypoints of its frame, and after each update each one is for its frame: the first one combines
the old solution in the first two old frames (the vehicle is in the second of them), the next ones are the old solution in the same
frame, and the last one is made from the waypoints of the last frame. -/
theorem C186_partial (goal : P) (mk0 : P → P) (curr0 : P) (n : ℕ) (hn : 1 ≤ n) (w0 : Window P)
    (h0 : startFrames mk0 goal curr0 n = some w0) (hmany : n ≤ w0.frames.length + 1) (hist : List ((P → P) × P)) :
    getGuess w0 false = some (w0.frames.map .path) ∧
    ∃ w, updates goal hist w0 = some w ∧ (w.n = 1 ∨ ∀ (mk : P → P) (curr : P), ∃ w' src, createFrames mk goal curr w = some w' ∧
      getGuess w' true = some src ∧ Spec.Matched w.frames w'.frames src) := by
  obtain ⟨w1, e1, hl, -, h1, -⟩ := C70_start_partial mk0 goal curr0 n hn
  rw [h0, Option.some.injEq] at e1
  subst e1
  obtain ⟨h1, h2⟩ := h1 hmany
  refine ⟨getGuess_first w0 h1, ?_⟩
  obtain ⟨w, a, b, c, -, d⟩ := C70_partial goal hist w0 h1 hl h2
  refine ⟨w, a, ?_⟩
  by_cases h : w.n = 1
  · exact .inl h
  · refine .inr fun mk curr => ?_
    obtain ⟨w', e, f, g, -, k⟩ := C70_update mk goal curr w (by omega) b d
    obtain ⟨src, s1, s2⟩ := getGuess_update w.frames w' (by omega) f g (by
      rcases k with k | ⟨x, -, -, k⟩
      · exact .inl k.1
      · exact .inr ⟨_, k⟩)
    exact ⟨w', src, e, s1, s2⟩

/-- C186 fails: if at least three frames are asked for and the first one reaches the goal, the guess for the second one is asked for,
which does not exist: an `IndexError` at the start. -/
theorem C186_violated (mk : P → P) (goal curr : P) (h : mk curr = goal) (n : ℕ) (hn : 3 ≤ n) :
    ∃ w, startFrames mk goal curr n = some w ∧ w.frames = [⟨curr, goal⟩] ∧ getGuess w false = none := by
  obtain ⟨k, rfl⟩ : ∃ k, n = k + 3 := ⟨n - 3, by omega⟩
  refine ⟨⟨(k + 3 : ℕ) - 1, [⟨curr, goal⟩]⟩, ?_, rfl, ?_⟩
  · have e : (((k + 3 : ℕ) : ℤ)).toNat = k + 2 + 1 := by omega
    rw [startFrames, createFrames, if_neg (by simp), e]
    simp [createLoop, h]
  · have e : (((k + 3 : ℕ) : ℤ) - 1).toNat = k + 2 := by omega
    simp only [getGuess, e]
    rw [List.range_succ_eq_map, List.range_succ_eq_map]
    simp [List.mapM_cons]

/-- Four frames at a time: an update in the middle, and the one that reaches the goal. -/
example : let mk := fun p : ℕ => min (p + 2) 9
    let w : Window ℕ := ⟨4, [⟨0, 2⟩, ⟨2, 4⟩, ⟨4, 6⟩, ⟨6, 8⟩]⟩
    startFrames mk 9 0 4 = some w ∧
    (createFrames mk 9 1 w).bind (getGuess · true) = some [.combined, .old 2, .old 3, .path ⟨8, 9⟩] ∧
    ((createFrames mk 9 1 w).bind (createFrames mk 9 3)).bind (getGuess · true) = some [.combined, .old 2, .path ⟨8, 9⟩] := by decide

end GuessFrames

end Verif.Frames
