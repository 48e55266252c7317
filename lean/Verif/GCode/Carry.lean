import Verif.GCode.Window
import Mathlib.Data.List.GetD

/-! # The guesses for the next window of a machining program (C155)

`get_init_guess` (gcodeschedulerproblem.py:752-821) with `set_init_spline_values` (vehicle.py:89-100), called by `reinitialize`
(lines 81-106) and `update_segments` (lines 598-623). -/

set_option linter.unusedSectionVars false

namespace Verif.GCode.Carry

open Verif.GCode.Window

variable {R G : Type}

/-! ## Model -/

/-- The segments of the previous solution that are used again, gcodeschedulerproblem.py:767-803. -/
def kept (n n0 : ℕ) : List ℕ :=
  (if 1 < n then [1] else []) ++ (if 2 < n then List.range' 2 (n - 2) else []) ++ (if n = 1 ∧ 1 < n0 then [1] else [])

/-- `guess_idx`, gcodeschedulerproblem.py:784-805; `none` if it is not assigned. -/
def fresh (n n0 : ℕ) : Option (List ℕ) :=
  if n = 1 ∧ 1 < n0 then some [] else if n0 = 1 then some [0] else if 1 < n then some [n - 1] else none

/-- `get_init_guess`, gcodeschedulerproblem.py:752-821: a guess stands for the coefficients and the motion time of one segment, `sol` is the
previous solution, if there is one, and `mk` is `get_init_guess_new_segment` (C154). `none` stands for exceptions: `guess_idx` not
assigned, missing variables or segments, and fewer guesses than segments in `set_init_spline_values`. -/
def getInitGuess (n n0 : ℕ) (sol : Option (List G)) (mk : R → G) (segs : List R) : Option (List G) :=
  let old : Option (List G) := match sol with
    | none => some []
    | some v => (kept n n0).mapM fun k => v[k]?
  let idx : Option (List ℕ) := match sol with
    | none => some (List.range n)
    | some _ => fresh n n0
  old.bind fun o => idx.bind fun ks => (ks.mapM fun k => segs[k]?.map mk).bind fun new =>
    if (o ++ new).length < n then none else some (o ++ new)

/-- A window, the guesses it got and the solution found for it. -/
structure Plan (R G : Type) where
  window : State R
  guess : List G
  sol : List G

/-- The windows with their guesses and solutions, gcodeschedulerproblem.py:81-106, 108-143: `solve k` is what the solver makes of the guesses
of window `k`. -/
def plan (num : R → ℕ) (rooms : List R) (n : ℕ) (mk : R → G) (solve : ℕ → List G → List G) : ℕ → Option (Plan R G)
  | 0 =>
    let s := start rooms n
    (getInitGuess s.n n none mk s.segments).map fun g => ⟨s, g, solve 0 g⟩
  | k + 1 =>
    (plan num rooms n mk solve k).bind fun p => (update num rooms p.window).bind fun s =>
      (getInitGuess s.n n (some p.sol) mk s.segments).map fun g => ⟨s, g, solve (k + 1) g⟩

/-! ## Specification -/

/-- The number of blocks that are planned together when block `k` of a program with `N` blocks is the first one. -/
def Spec.size (N n k : ℕ) : ℕ := min n (N - k)

/-! ## Lemmas -/

theorem mapM_some {A B : Type} (l : List A) (f : A → Option B) (g : A → B) (h : ∀ a ∈ l, f a = some (g a)) : l.mapM f = some (l.map g) := by
  induction l with
  | nil => rfl
  | cons a l ih =>
    rw [List.mapM_cons, h a (by simp), ih fun b hb => h b (List.mem_cons_of_mem _ hb)]
    rfl

theorem first_guess (mk : R → G) (segs : List R) (n n0 : ℕ) (h : segs.length = n) :
    getInitGuess n n0 none mk segs = some (segs.map mk) := by
  unfold getInitGuess
  simp only [Option.bind_some, List.nil_append]
  have : (List.range n).mapM (fun k => segs[k]?.map mk) = some (segs.map mk) := by
    cases segs with
    | nil => subst h; rfl
    | cons r rest =>
      rw [mapM_some _ _ (fun k => mk ((r :: rest).getD k r))]
      · congr 1
        apply List.ext_getElem
        · simp [← h]
        · intro i h1 h2
          simp only [List.length_map, List.length_range] at h1
          rw [List.getElem_map, List.getElem_map, List.getElem_range, List.getD_eq_getElem _ _ (by omega)]
      · intro k hk
        rw [List.mem_range] at hk
        rw [List.getElem?_eq_getElem (by omega), List.getD_eq_getElem _ _ (by omega)]
        rfl
  rw [this]
  simp [h]

theorem kept_many {n n0 : ℕ} (h : 1 < n) : kept n n0 = List.range' 1 (n - 1) := by
  unfold kept
  rw [if_pos h, if_neg (show ¬(n = 1 ∧ 1 < n0) by omega), List.append_nil]
  obtain ⟨m, rfl⟩ : ∃ m, n = m + 2 := ⟨n - 2, by omega⟩
  rcases Nat.eq_zero_or_pos m with rfl | hm
  · rfl
  · rw [if_pos (by omega)]
    show [1] ++ List.range' 2 m = List.range' 1 (m + 1)
    rw [List.range'_succ]
    rfl

theorem next_many (mk : R → G) (segs : List R) (v : List G) {n n0 : ℕ} (h : 1 < n) (h0 : n0 ≠ 1) (hs : segs.length = n) (hv : n ≤ v.length) :
    ∃ g, getInitGuess n n0 (some v) mk segs = some g ∧ g.length = n ∧ (∀ i, i + 1 < n → g[i]? = v[i + 1]?) ∧
      g[n - 1]? = segs[n - 1]?.map mk := by
  unfold getInitGuess
  simp only
  obtain ⟨d, hd⟩ : ∃ d, d ∈ v := List.exists_mem_of_length_pos (by omega)
  rw [kept_many h, mapM_some _ _ (fun k => v.getD k d)]
  swap
  · intro k hk
    rw [List.mem_range'_1] at hk
    rw [List.getElem?_eq_getElem (by omega), List.getD_eq_getElem _ _ (by omega)]
  have hf : fresh n n0 = some [n - 1] := by
    unfold fresh
    rw [if_neg (by omega), if_neg h0, if_pos h]
  rw [hf]
  have hn1 : n - 1 < segs.length := by omega
  have e : [n - 1].mapM (fun k => segs[k]?.map mk) = some [mk segs[n - 1]] := by
    rw [mapM_some _ _ (fun _ => mk segs[n - 1])]
    · rfl
    · intro k hk
      rw [List.mem_singleton] at hk
      subst hk
      rw [List.getElem?_eq_getElem hn1]
      rfl
  simp only [Option.bind_some, e]
  have hl : ((List.range' 1 (n - 1)).map fun k => v.getD k d).length = n - 1 := by simp
  rw [if_neg (by rw [List.length_append, hl]; simp; omega)]
  refine ⟨_, rfl, by rw [List.length_append, hl]; simp; omega, fun i hi => ?_, ?_⟩
  · rw [List.getElem?_append_left (by rw [hl]; omega), List.getElem?_map, List.getElem?_range' (by omega)]
    simp only [Option.map_some, one_mul]
    rw [List.getD_eq_getElem _ _ (by omega), List.getElem?_eq_getElem (by omega)]
    congr 2; omega
  · rw [List.getElem?_append_right (by rw [hl]), hl, List.getElem?_eq_getElem hn1]
    simp

theorem next_one (mk : R → G) (segs : List R) (v : List G) {n0 : ℕ} (h0 : 1 < n0) (hv : 2 ≤ v.length) :
    ∃ g, getInitGuess 1 n0 (some v) mk segs = some g ∧ g.length = 1 ∧ g[0]? = v[1]? := by
  unfold getInitGuess
  have hk : kept 1 n0 = [1] := by unfold kept; simp [h0]
  have hf : fresh 1 n0 = some [] := by unfold fresh; rw [if_pos ⟨rfl, h0⟩]
  obtain ⟨a, b, r, rfl⟩ : ∃ a b r, v = a :: b :: r := by
    match v, hv with
    | a :: b :: r, _ => exact ⟨a, b, r, rfl⟩
  simp only [hk, hf]
  exact ⟨[b], rfl, rfl, rfl⟩

theorem next_single (mk : R → G) (segs : List R) (v : List G) (hs : segs.length = 1) :
    ∃ g, getInitGuess 1 1 (some v) mk segs = some g ∧ g.length = 1 ∧ g[0]? = segs[0]?.map mk := by
  unfold getInitGuess
  have hk : kept 1 1 = [] := by decide
  have hf : fresh 1 1 = some [0] := by decide
  obtain ⟨a, rfl⟩ : ∃ a, segs = [a] := List.length_eq_one_iff.1 hs
  simp only [hk, hf]
  exact ⟨[mk a], rfl, rfl, rfl⟩

section

variable (num : R → ℕ) (rooms : List R) (n : ℕ) (mk : R → G) (solve : ℕ → List G → List G)

theorem update_of_run {num rooms n} {k : ℕ} {s : State R} (h : run num rooms n k = some s) : run num rooms n (k + 1) = update num rooms s := by
  simp [run, h]

/-- The invariant: plans exist and have the size of the window. -/
theorem plan_spec (hn : 1 ≤ n) (hlen : n ≤ rooms.length) (hnum : Spec.Numbered num rooms) (hsol : ∀ k g, (solve k g).length = g.length) :
    ∀ k, k < rooms.length → ∃ p, plan num rooms n mk solve k = some p ∧ run num rooms n k = some p.window ∧
      p.window.n = Spec.size rooms.length n k ∧ p.window.segments = (rooms.drop k).take n ∧
      p.guess.length = Spec.size rooms.length n k ∧ p.sol = solve k p.guess := by
  intro k
  induction k with
  | zero =>
    intro hk
    obtain ⟨s, h1, h2, h3, -⟩ := run_spec num rooms n hn hlen hnum 0 hk
    have hs : start rooms n = s := by simpa [run] using h1
    have hl : s.segments.length = s.n := by rw [h2, h3]; simp
    refine ⟨⟨s, s.segments.map mk, solve 0 (s.segments.map mk)⟩, ?_, h1, h3, h2, by simp only [List.length_map, hl, h3, Spec.size], rfl⟩
    unfold plan
    simp only [hs]
    rw [first_guess mk _ _ _ hl]
    rfl
  | succ k ih =>
    intro hk
    obtain ⟨p, p1, p2, p3, p4, p5, p6⟩ := ih (by omega)
    obtain ⟨s, h1, h2, h3, -⟩ := run_spec num rooms n hn hlen hnum (k + 1) hk
    have hu := update_of_run p2
    rw [h1] at hu
    have hl : s.segments.length = s.n := by rw [h2, h3]; simp
    have hps : p.sol.length = Spec.size rooms.length n k := by rw [p6, hsol, p5]
    have hle : s.n ≤ p.sol.length := by rw [hps, h3, Spec.size]; omega
    have : ∃ g, getInitGuess s.n n (some p.sol) mk s.segments = some g ∧ g.length = s.n := by
      rcases Nat.lt_or_ge 1 s.n with h | h
      · obtain ⟨g, a, b, -⟩ := next_many mk s.segments p.sol h (show n ≠ 1 by omega) hl hle
        exact ⟨g, a, b⟩
      · have e : s.n = 1 := by omega
        rw [e] at hl ⊢
        rcases Nat.lt_or_ge 1 n with h' | h'
        · obtain ⟨g, a, b, -⟩ := next_one mk s.segments p.sol h' (by rw [hps, Spec.size]; omega)
          exact ⟨g, a, b⟩
        · have : n = 1 := by omega
          subst this
          obtain ⟨g, a, b, -⟩ := next_single mk s.segments p.sol hl
          exact ⟨g, a, b⟩
    obtain ⟨g, hg, hgl⟩ := this
    refine ⟨⟨s, g, solve (k + 1) g⟩, ?_, h1, h3, h2, by simp only [hgl, h3, Spec.size], rfl⟩
    unfold plan
    rw [p1, Option.bind_some, ← hu, Option.bind_some, hg]
    rfl

/-! ## Properties -/

/-- **C155** (while the window does not get smaller, or is down to one block) Every block of every window gets exactly one guess: in the
first window one based on its line; later the plan that the previous window found for this very block, if it was part of it, and one
based on its line if it is new. -/
theorem C155_partial (hn : 1 ≤ n) (hlen : n ≤ rooms.length) (hnum : Spec.Numbered num rooms) (hsol : ∀ k g, (solve k g).length = g.length) :
    (∃ p, plan num rooms n mk solve 0 = some p ∧ p.guess.length = n ∧ ∀ i, i < n → p.guess[i]? = rooms[i]?.map mk) ∧
    ∀ k, k + 1 < rooms.length → ∃ p p', plan num rooms n mk solve k = some p ∧ plan num rooms n mk solve (k + 1) = some p' ∧
      p.sol = solve k p.guess ∧ p'.guess.length = Spec.size rooms.length n (k + 1) ∧
      (Spec.size rooms.length n (k + 1) = n ∨ Spec.size rooms.length n (k + 1) = 1 → ∀ i, i < Spec.size rooms.length n (k + 1) →
        p'.guess[i]? = if i + 1 < Spec.size rooms.length n k then p.sol[i + 1]? else rooms[k + 1 + i]?.map mk) := by
  constructor
  · obtain ⟨p, p1, p2, p3, p4, p5, p6⟩ := plan_spec num rooms n mk solve hn hlen hnum hsol 0 (by omega)
    refine ⟨p, p1, by rw [p5, Spec.size]; omega, fun i hi => ?_⟩
    unfold plan at p1
    have hl : (start rooms n).segments.length = (start rooms n).n := by simp [start]; omega
    simp only at p1
    rw [first_guess mk _ _ _ hl, Option.map_some, Option.some.injEq] at p1
    rw [← p1]
    simp only [start, List.getElem?_map]
    rw [List.getElem?_take_of_lt hi]
  · intro k hk
    obtain ⟨p, p1, p2, p3, p4, p5, p6⟩ := plan_spec num rooms n mk solve hn hlen hnum hsol k (by omega)
    obtain ⟨p', q1, q2, q3, q4, q5, q6⟩ := plan_spec num rooms n mk solve hn hlen hnum hsol (k + 1) hk
    refine ⟨p, p', p1, q1, p6, q5, fun hc i hi => ?_⟩
    have hu := update_of_run p2
    rw [q2] at hu
    have hps : p.sol.length = Spec.size rooms.length n k := by rw [p6, hsol, p5]
    have hl : p'.window.segments.length = p'.window.n := by rw [q4, q3, Spec.size]; simp
    have hle : p'.window.n ≤ p.sol.length := by rw [hps, q3, Spec.size, Spec.size]; omega
    have hg : getInitGuess p'.window.n n (some p.sol) mk p'.window.segments = some p'.guess := by
      unfold plan at q1
      rw [p1, Option.bind_some, ← hu, Option.bind_some] at q1
      obtain ⟨g, a, b⟩ := Option.map_eq_some_iff.1 q1
      rw [a, ← b]
    have hroom : ∀ j, j < n → p'.window.segments[j]? = rooms[k + 1 + j]? := fun j hj => by
      rw [q4, List.getElem?_take_of_lt hj, List.getElem?_drop]
    have e1 : Spec.size rooms.length n (k + 1) = min n (rooms.length - (k + 1)) := rfl
    have e0 : Spec.size rooms.length n k = min n (rooms.length - k) := rfl
    rcases Nat.lt_or_ge 1 p'.window.n with h | h
    · obtain ⟨g, a, b, c, d⟩ := next_many mk p'.window.segments p.sol h (show n ≠ 1 by omega) hl hle
      rw [hg, Option.some.injEq] at a
      subst a
      rcases Nat.lt_or_ge (i + 1) p'.window.n with h' | h'
      · rw [if_pos (by omega), c i h']
      · have hi' : i = p'.window.n - 1 := by omega
        rw [if_neg (by omega), hi', d, hroom _ (by omega)]
    · have e : p'.window.n = 1 := by omega
      have hi0 : i = 0 := by omega
      subst hi0
      rw [e] at hg hl
      rcases Nat.lt_or_ge 1 n with h' | h'
      · obtain ⟨g, a, b, c⟩ := next_one mk p'.window.segments p.sol h' (by omega)
        rw [hg, Option.some.injEq] at a
        subst a
        rw [c, if_pos (by omega)]
      · have hn1 : n = 1 := by omega
        rw [hn1] at hg
        obtain ⟨g, a, b, c⟩ := next_single mk p'.window.segments p.sol hl
        rw [hg, Option.some.injEq] at a
        subst a
        rw [c, if_neg (by omega), hroom 0 (by omega)]

/-- **C155** violated at the end of a program: each time the window gets smaller but keeps two blocks or more, the plan of the last block
is thrown away and a guess based on its line takes its place. -/
theorem C155_violated (hn : 1 ≤ n) (hlen : n ≤ rooms.length) (hnum : Spec.Numbered num rooms) (hsol : ∀ k g, (solve k g).length = g.length)
    (k : ℕ) (h1 : rooms.length - (k + 1) < n) (h2 : 2 ≤ rooms.length - (k + 1)) :
    ∃ p p', plan num rooms n mk solve k = some p ∧ plan num rooms n mk solve (k + 1) = some p' ∧
      p.window.segments.getLast? = rooms.getLast? ∧ p'.window.segments.getLast? = rooms.getLast? ∧
      p'.guess.getLast? = rooms.getLast?.map mk := by
  obtain ⟨p, p1, p2, p3, p4, p5, p6⟩ := plan_spec num rooms n mk solve hn hlen hnum hsol k (by omega)
  obtain ⟨p', q1, q2, q3, q4, q5, q6⟩ := plan_spec num rooms n mk solve hn hlen hnum hsol (k + 1) (by omega)
  have hu := update_of_run p2
  rw [q2] at hu
  have e1 : Spec.size rooms.length n (k + 1) = min n (rooms.length - (k + 1)) := rfl
  have e0 : Spec.size rooms.length n k = min n (rooms.length - k) := rfl
  have hps : p.sol.length = Spec.size rooms.length n k := by rw [p6, hsol, p5]
  have hl : p'.window.segments.length = p'.window.n := by rw [q4, q3, Spec.size]; simp
  have hg : getInitGuess p'.window.n n (some p.sol) mk p'.window.segments = some p'.guess := by
    unfold plan at q1
    rw [p1, Option.bind_some, ← hu, Option.bind_some] at q1
    obtain ⟨g, a, b⟩ := Option.map_eq_some_iff.1 q1
    rw [a, ← b]
  have hlast : ∀ j : ℕ, j < rooms.length → rooms.length - j ≤ n → ((rooms.drop j).take n).getLast? = rooms.getLast? := fun j hj hjn => by
    rw [List.take_of_length_le (by simp; omega), List.getLast?_drop, if_neg (by omega)]
  obtain ⟨g, a, b, c, d⟩ := next_many mk p'.window.segments p.sol (by omega) (show n ≠ 1 by omega) hl (by omega)
  rw [hg, Option.some.injEq] at a
  subst a
  refine ⟨p, p', p1, q1, by rw [p4]; exact hlast k (by omega) (by omega), by rw [q4]; exact hlast (k + 1) (by omega) (by omega), ?_⟩
  rw [List.getLast?_eq_getElem?, b, d]
  have : p'.window.segments[p'.window.n - 1]? = rooms.getLast? := by
    rw [← hlast (k + 1) (by omega) (by omega), ← q4, List.getLast?_eq_getElem?, hl]
  rw [this]

end

-- four blocks, three at a time; the solver adds 10 to each guess
example : Spec.Numbered id [0, 1, 2, 3] ∧
    (plan id [0, 1, 2, 3] 3 (fun r => r + 100) (fun _ g => g.map (· + 10)) 1).map Plan.guess = some [111, 112, 103] ∧
    (plan id [0, 1, 2, 3] 3 (fun r => r + 100) (fun _ g => g.map (· + 10)) 2).map Plan.guess = some [122, 103] ∧
    (plan id [0, 1, 2, 3] 3 (fun r => r + 100) (fun _ g => g.map (· + 10)) 3).map Plan.guess = some [113] := by
  refine ⟨?_, by decide, by decide, by decide⟩
  intro i r h
  have hi : i < 4 := by
    by_contra hc
    rw [List.getElem?_eq_none (by simp; omega)] at h
    simp at h
  interval_cases i <;> simp_all

end Verif.GCode.Carry
