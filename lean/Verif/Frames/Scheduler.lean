import Mathlib.Data.List.Chain
import Mathlib.Tactic.Linarith

/-! # The scheduler: new local problems and the list of frames (C42, C70)

Mirrors `omgtools/problems/schedulerproblem.py:138-209, 309-383`. -/

namespace Verif.Frames

/-! ## Model: new local problems -/

/-- `frame.moving_obstacles` of all frames, and the moving obstacles with which the local problem has been generated
(`generate_problem`, schedulerproblem.py:708-714), both per frame. -/
structure Sched where
  moving : List (List ℕ)
  problem : List (List ℕ)
deriving DecidableEq

/-- `set(a) != set(b)`. -/
def differ (a b : List ℕ) : Bool := !(decide (a ⊆ b) && decide (b ⊆ a))

/-- The loop over the frames, schedulerproblem.py:183-191: pairs of `frame.moving_obstacles` and what
`frame.get_moving_obstacles` returns now; the flag is overwritten in every round. -/
def checkMoving : List (List ℕ × List ℕ) → Bool → List (List ℕ) × Bool
  | [], flag => ([], flag)
  | (old, now) :: rest, _ =>
    if differ now old then
      let r := checkMoving rest true
      (now :: r.1, r.2)
    else
      let r := checkMoving rest false
      (old :: r.1, r.2)

/-- One call of `solve` while the frames stay valid, schedulerproblem.py:182-201. -/
def Sched.update (s : Sched) (now : List (List ℕ)) : Sched :=
  let r := checkMoving (s.moving.zip now) false
  if r.2 then ⟨r.1, r.1⟩ else ⟨r.1, s.problem⟩

/-- After `update_frames` and `generate_problem`, schedulerproblem.py:159-162, 466-467: everything agrees. -/
def Sched.new (now : List (List ℕ)) : Sched := ⟨now, now⟩

/-! ## Model: the list of frames -/

section Window

variable {P : Type} [DecidableEq P]

/-- A frame: where it starts and its last waypoint. -/
structure Fr (P : Type) where
  start : P
  last : P
deriving DecidableEq

/-- `n_frames` and `frames` of the scheduler. -/
structure Window (P : Type) where
  n : ℤ
  frames : List (Fr P)
deriving DecidableEq

/-- The loop in `create_frames`, schedulerproblem.py:333-361: `mk` gives the last waypoint of the frame created from a start
position, `frame` is the frame created last. -/
def createLoop (mk : P → P) (goal curr : P) : ℕ → Option (Fr P) → Window P → Window P
  | 0, _, w => w
  | k + 1, frame, w =>
    if frame.any fun f => f.last = goal then { w with n := w.n - 1 }
    else
      let s := (frame.map Fr.last).getD curr
      let f : Fr P := ⟨s, mk s⟩
      createLoop mk goal curr k (some f) { w with frames := w.frames ++ [f] }

/-- `create_frames`, schedulerproblem.py:309-361; `none` stands for the `IndexError` of `self.frames[-1]` for an empty list. -/
def createFrames (mk : P → P) (goal curr : P) (w : Window P) : Option (Window P) :=
  if w.frames ≠ [] then
    let fs := if w.n ≠ 1 then w.frames.drop 1 else w.frames
    match fs.getLast? with
    | none => none
    | some f => some (createLoop mk goal curr 1 (some f) { w with frames := fs })
  else some (createLoop mk goal curr w.n.toNat none w)

/-- First call (`reinitialize`) with `n` frames asked for. -/
def startFrames (mk : P → P) (goal curr : P) (n : ℕ) : Option (Window P) := createFrames mk goal curr ⟨n, []⟩

/-- A sequence of calls when the vehicle has left the first frame (`update_frames`, schedulerproblem.py:433-473, for several frames);
every time with a new global path and a new state of the vehicle.  When only one of several frames is left it contains the goal and
is kept (`check_frames`, schedulerproblem.py:412, 428-431). -/
def updates (goal : P) : List ((P → P) × P) → Window P → Option (Window P)
  | [], w => some w
  | (mk, curr) :: rest, w => if w.n = 1 then updates goal rest w else (createFrames mk goal curr w).bind (updates goal rest)

end Window

/-! ## Specification -/

/-- The local problem knows, frame by frame, exactly the moving obstacles that were seen last. -/
def Spec.UpToDate (s : Sched) (now : List (List ℕ)) : Prop :=
  List.Forall₂ (fun a b => ∀ o, o ∈ a ↔ o ∈ b) s.problem now

/-- Every frame starts at the last waypoint of the frame before. -/
def Spec.Linked {P : Type} (fs : List (Fr P)) : Prop := fs.IsChain fun a b => b.start = a.last

/-! ## Lemmas -/

theorem differ_eq_false {a b : List ℕ} : differ a b = false ↔ ∀ o, o ∈ a ↔ o ∈ b := by
  simp only [differ, Bool.not_eq_false', Bool.and_eq_true, decide_eq_true_eq, List.subset_def]
  exact ⟨fun h o => ⟨fun i => h.1 i, fun i => h.2 i⟩, fun h => ⟨fun {o} => (h o).1, fun {o} => (h o).2⟩⟩

/-- The frames know what was seen last. -/
theorem checkMoving_fst (old now : List (List ℕ)) (h : old.length = now.length) (flag : Bool) :
    List.Forall₂ (fun a b => ∀ o, o ∈ a ↔ o ∈ b) (checkMoving (old.zip now) flag).1 now := by
  induction old generalizing now flag with
  | nil =>
    cases now with
    | nil => exact .nil
    | cons _ _ => simp at h
  | cons a old ih =>
    cases now with
    | nil => simp at h
    | cons b now =>
      have h : old.length = now.length := by simpa using h
      simp only [List.zip_cons_cons, checkMoving]
      by_cases hd : differ b a = true
      · rw [if_pos hd]; exact .cons (fun _ => Iff.rfl) (ih _ h _)
      · rw [if_neg hd]
        rw [Bool.not_eq_true, differ_eq_false] at hd
        exact .cons (fun o => (hd o).symm) (ih _ h _)

theorem checkMoving_length (l : List (List ℕ × List ℕ)) (flag : Bool) : (checkMoving l flag).1.length = l.length := by
  induction l generalizing flag with
  | nil => rfl
  | cons p l ih => simp only [checkMoving]; split <;> simp [ih]

/-- The flag tells whether the last frame has changed. -/
theorem checkMoving_snd (l : List (List ℕ × List ℕ)) (flag : Bool) :
    (checkMoving l flag).2 = match l.getLast? with | none => flag | some p => differ p.2 p.1 := by
  induction l generalizing flag with
  | nil => rfl
  | cons p l ih =>
    simp only [checkMoving]
    by_cases hd : differ p.2 p.1 = true
    · rw [if_pos hd]
      simp only [ih]
      cases l with
      | nil => simp [hd]
      | cons q l => rw [List.getLast?_cons_cons]; cases h : (q :: l).getLast? <;> simp at h ⊢
    · rw [if_neg hd]
      simp only [ih]
      rw [Bool.not_eq_true] at hd
      cases l with
      | nil => simp [hd]
      | cons q l => rw [List.getLast?_cons_cons]; cases h : (q :: l).getLast? <;> simp at h ⊢

/-- Without any change nothing happens. -/
theorem checkMoving_same (l : List (List ℕ × List ℕ)) (flag : Bool) (h : ∀ p ∈ l, differ p.2 p.1 = false) :
    (checkMoving l flag).1 = l.map Prod.fst := by
  induction l generalizing flag with
  | nil => rfl
  | cons p l ih =>
    simp only [checkMoving, h p List.mem_cons_self, Bool.false_eq_true, if_false, List.map_cons]
    rw [ih _ fun q hq => h q (List.mem_cons_of_mem _ hq)]

/-! ## Properties -/

/-- C42, for every update in which the last frame changes or none does: the local problem is up to date afterwards. -/
theorem C42_update_partial (s : Sched) (now : List (List ℕ)) (hlen : s.moving.length = now.length) (hs : s.problem = s.moving)
    (hg : (∀ p ∈ s.moving.zip now, ∀ o, o ∈ p.2 ↔ o ∈ p.1) ∨ ∃ p, (s.moving.zip now).getLast? = some p ∧ ¬∀ o, o ∈ p.2 ↔ o ∈ p.1) :
    Spec.UpToDate (s.update now) now ∧ (s.update now).problem = (s.update now).moving := by
  have h1 := checkMoving_fst s.moving now hlen false
  rcases hg with hg | ⟨p, hp, hd⟩
  · have hsame := checkMoving_same (s.moving.zip now) false fun p hp => differ_eq_false.2 (hg p hp)
    rw [List.map_fst_zip hlen.le] at hsame
    have hm : (s.update now).problem = s.moving ∧ (s.update now).moving = s.moving := by
      unfold Sched.update
      simp only
      split <;> simp [hsame, hs]
    refine ⟨?_, hm.1.trans hm.2.symm⟩
    unfold Spec.UpToDate
    rw [hm.1, ← hsame]
    exact h1
  · have h2 := checkMoving_snd (s.moving.zip now) false
    rw [hp] at h2
    have hd : differ p.2 p.1 = true := by
      by_contra h
      rw [Bool.not_eq_true, differ_eq_false] at h
      exact hd h
    simp only [hd] at h2
    unfold Sched.update
    simp only [h2, if_true]
    exact ⟨h1, trivial⟩

/-- C42 for one frame: after every history of updates the local problem knows exactly the moving obstacles seen last. -/
theorem C42_one_partial (first : List ℕ) (hist : List (List ℕ)) :
    Spec.UpToDate ((hist.map fun now => [now]).foldl Sched.update (Sched.new [first])) [hist.getLast?.getD first] := by
  suffices h : Spec.UpToDate ((hist.map fun now => [now]).foldl Sched.update (Sched.new [first])) [hist.getLast?.getD first] ∧
      ∃ m, (hist.map fun now => [now]).foldl Sched.update (Sched.new [first]) = ⟨[m], [m]⟩ from h.1
  induction hist using List.reverseRecOn with
  | nil => exact ⟨.cons (fun _ => Iff.rfl) .nil, first, rfl⟩
  | append_singleton l a ih =>
    obtain ⟨_, m, hm⟩ := ih
    rw [List.map_append, List.foldl_append, hm]
    simp only [List.map_cons, List.map_nil, List.foldl_cons, List.foldl_nil, List.getLast?_concat, Option.getD_some]
    by_cases h : differ a m = true
    · have : Sched.update ⟨[m], [m]⟩ [a] = ⟨[a], [a]⟩ := by simp [Sched.update, checkMoving, h]
      rw [this]
      exact ⟨.cons (fun _ => Iff.rfl) .nil, a, rfl⟩
    · have : Sched.update ⟨[m], [m]⟩ [a] = ⟨[m], [m]⟩ := by simp [Sched.update, checkMoving, h]
      rw [this]
      rw [Bool.not_eq_true, differ_eq_false] at h
      exact ⟨.cons (fun o => (h o).symm) .nil, m, rfl⟩

/-- With two frames an obstacle that enters the first one is not passed on to the local problem, however often it is updated. -/
theorem C42_violated :
    let now := [[7], []]
    ∀ k : ℕ, let s := (List.replicate (k + 1) now).foldl Sched.update (Sched.new [[], []])
      s = ⟨[[7], []], [[], []]⟩ ∧ ¬Spec.UpToDate s now := by
  intro now k s
  have hs : s = ⟨[[7], []], [[], []]⟩ := by
    have h1 : Sched.update (Sched.new [[], []]) now = ⟨[[7], []], [[], []]⟩ := by decide
    have h2 : Sched.update ⟨[[7], []], [[], []]⟩ now = ⟨[[7], []], [[], []]⟩ := by decide
    show (List.replicate (k + 1) now).foldl Sched.update (Sched.new [[], []]) = _
    rw [List.replicate_succ, List.foldl_cons, h1]
    induction k with
    | zero => rfl
    | succ k ih => rw [List.replicate_succ, List.foldl_cons, h2]; exact ih
  refine ⟨hs, ?_⟩
  rw [hs]
  intro h
  have h : List.Forall₂ (fun a b => ∀ o, o ∈ a ↔ o ∈ b) ([[], []] : List (List ℕ)) [[7], []] := h
  rw [List.forall₂_cons] at h
  exact absurd ((h.1 7).2 (by simp)) (by simp)

/-- An obstacle enters the second of two frames and leaves it again. -/
example : let s := (Sched.new [[1], []]).update [[1], [7]]
    s = ⟨[[1], [7]], [[1], [7]]⟩ ∧ s.update [[1], []] = ⟨[[1], []], [[1], []]⟩ := by decide

section Window

variable {P : Type} [DecidableEq P]

theorem createLoop_spec (mk : P → P) (goal curr : P) (k : ℕ) (frame : Option (Fr P)) (w : Window P) (hf : w.frames.getLast? = frame)
    (hl : Spec.Linked w.frames) :
    Spec.Linked (createLoop mk goal curr k frame w).frames ∧ w.frames <+: (createLoop mk goal curr k frame w).frames ∧
      ((createLoop mk goal curr k frame w).n = w.n ∧ (createLoop mk goal curr k frame w).frames.length = w.frames.length + k ∨
        (createLoop mk goal curr k frame w).n = w.n - 1 ∧ ((createLoop mk goal curr k frame w).frames.getLast?.any fun f => f.last = goal) ∧
        (createLoop mk goal curr k frame w).frames.length < w.frames.length + k) := by
  induction k generalizing frame w with
  | zero => exact ⟨hl, List.prefix_rfl, .inl ⟨rfl, rfl⟩⟩
  | succ k ih =>
    simp only [createLoop]
    by_cases hg : (frame.any fun f => f.last = goal) = true
    · rw [if_pos hg]
      exact ⟨hl, List.prefix_rfl, .inr ⟨rfl, by simpa [hf] using hg, by simp⟩⟩
    · rw [if_neg hg]
      obtain ⟨a, b, c⟩ := ih (some ⟨(frame.map Fr.last).getD curr, mk ((frame.map Fr.last).getD curr)⟩)
        { w with frames := w.frames ++ [⟨(frame.map Fr.last).getD curr, mk ((frame.map Fr.last).getD curr)⟩] } (by simp) (by
          unfold Spec.Linked
          rw [List.isChain_append]
          refine ⟨hl, List.isChain_singleton _, ?_⟩
          intro x hx y hy
          simp only [List.head?_cons, Option.mem_def, Option.some.injEq] at hy
          subst hy
          rw [Option.mem_def, hf] at hx
          subst hx
          rfl)
      refine ⟨a, (List.prefix_append _ _).trans b, ?_⟩
      simp only [List.length_append, List.length_cons, List.length_nil] at c
      rcases c with c | c
      · exact .inl ⟨c.1, by rw [c.2]; omega⟩
      · exact .inr ⟨c.1, c.2.1, by have := c.2.2; omega⟩

/-- C70: the frames of the first call are linked, start at the vehicle, and are as many as `n_frames` says, if no frame before the
last but one reaches the goal. -/
theorem C70_start_partial (mk : P → P) (goal curr : P) (n : ℕ) (hn : 1 ≤ n) :
    ∃ w, startFrames mk goal curr n = some w ∧ Spec.Linked w.frames ∧ (∃ f, w.frames.head? = some f ∧ f.start = curr) ∧
      (n ≤ w.frames.length + 1 → (w.frames.length : ℤ) = w.n ∧ 1 ≤ w.n) ∧
      (w.frames.length < n → ∃ f, w.frames.getLast? = some f ∧ f.last = goal) := by
  obtain ⟨k, rfl⟩ : ∃ k, n = k + 1 := ⟨n - 1, by omega⟩
  refine ⟨createLoop mk goal curr (k + 1) none ⟨(k + 1 : ℕ), []⟩, by simp [startFrames, createFrames], ?_⟩
  obtain ⟨a, b, c⟩ := createLoop_spec mk goal curr (k + 1) none ⟨(k + 1 : ℕ), []⟩ rfl List.isChain_nil
  have hcons : createLoop mk goal curr (k + 1) none ⟨(k + 1 : ℕ), []⟩ =
      createLoop mk goal curr k (some ⟨curr, mk curr⟩) ⟨(k + 1 : ℕ), [⟨curr, mk curr⟩]⟩ := by simp [createLoop]
  obtain ⟨_, b', _⟩ := createLoop_spec mk goal curr k (some ⟨curr, mk curr⟩) ⟨(k + 1 : ℕ), [⟨curr, mk curr⟩]⟩ rfl (List.isChain_singleton _)
  rw [← hcons] at b'
  generalize createLoop mk goal curr (k + 1) none ⟨(k + 1 : ℕ), []⟩ = w at a b b' c ⊢
  clear hcons b
  simp only [List.length_nil, Nat.zero_add] at c
  obtain ⟨t, ht⟩ := b'
  simp only at ht
  refine ⟨a, ⟨⟨curr, mk curr⟩, by rw [← ht]; rfl, rfl⟩, ?_, ?_⟩
  · intro h
    have hpos : 1 ≤ w.frames.length := by rw [← ht]; simp
    rcases c with c | c
    · rw [c.1, c.2]; exact ⟨rfl, by push_cast; omega⟩
    · have := c.2.2
      push_cast at c
      omega
  · intro h
    rcases c with c | c
    · omega
    · have hc := c.2.1
      cases hl : w.frames.getLast? with
      | none => rw [hl] at hc; simp at hc
      | some f => rw [hl] at hc; exact ⟨f, rfl, by simpa using hc⟩

/-- C70: from then on, as long as at least two frames are considered: an update drops the first frame, and either adds one that
starts at the last waypoint of the last frame, or the goal has been reached by the last frame and one frame less is considered. -/
theorem C70_update (mk : P → P) (goal curr : P) (w : Window P) (h2 : 2 ≤ w.n) (hlen : (w.frames.length : ℤ) = w.n)
    (hl : Spec.Linked w.frames) :
    ∃ w', createFrames mk goal curr w = some w' ∧ (w'.frames.length : ℤ) = w'.n ∧ 1 ≤ w'.n ∧ Spec.Linked w'.frames ∧
      (w'.frames = w.frames.drop 1 ∧ (∃ f, w.frames.getLast? = some f ∧ f.last = goal) ∨
        ∃ f, w.frames.getLast? = some f ∧ f.last ≠ goal ∧ w'.frames = w.frames.drop 1 ++ [⟨f.last, mk f.last⟩]) := by
  obtain ⟨n, fs⟩ := w
  simp only at h2 hlen hl ⊢
  match fs, hlen, hl with
  | [], hlen, _ => simp at hlen; omega
  | [a], hlen, _ => simp at hlen; omega
  | a :: b :: fs, hlen, hl =>
    obtain ⟨f, hf⟩ : ∃ f, (b :: fs).getLast? = some f := ⟨(b :: fs).getLast (by simp), List.getLast?_eq_some_getLast (by simp)⟩
    have hf' : (a :: b :: fs).getLast? = some f := by rw [List.getLast?_cons_cons]; exact hf
    have hl' : Spec.Linked (b :: fs) := by
      unfold Spec.Linked at hl ⊢
      rw [List.isChain_cons_cons] at hl
      exact hl.2
    simp only [List.length_cons] at hlen
    by_cases hg : f.last = goal
    · refine ⟨⟨n - 1, b :: fs⟩, ?_, ?_, ?_, hl', .inl ⟨rfl, f, hf', hg⟩⟩
      · simp [createFrames, hf, createLoop, hg, show n ≠ 1 by omega]
      · simp only [List.length_cons]; push_cast at hlen ⊢; omega
      · simp only; omega
    · refine ⟨⟨n, b :: fs ++ [⟨f.last, mk f.last⟩]⟩, ?_, ?_, ?_, ?_, .inr ⟨f, hf', hg, rfl⟩⟩
      · simp [createFrames, hf, createLoop, hg, show n ≠ 1 by omega]
      · simp only [List.length_append, List.length_cons, List.length_nil]; push_cast at hlen ⊢; omega
      · simp only; omega
      · unfold Spec.Linked
        rw [List.isChain_append]
        refine ⟨hl', List.isChain_singleton _, ?_⟩
        intro x hx y hy
        rw [Option.mem_def, hf] at hx
        cases hx
        simp only [List.head?_cons, Option.mem_def, Option.some.injEq] at hy
        subst hy
        rfl

/-- C70 for histories: after every sequence of updates the frames are linked and `n_frames` in number. -/
theorem C70_partial (goal : P) (hist : List ((P → P) × P)) (w : Window P) (hlen : (w.frames.length : ℤ) = w.n)
    (hl : Spec.Linked w.frames) (hn : 1 ≤ w.n) :
    ∃ w', updates goal hist w = some w' ∧ (w'.frames.length : ℤ) = w'.n ∧ 1 ≤ w'.n ∧ w'.n ≤ w.n ∧ Spec.Linked w'.frames := by
  induction hist generalizing w with
  | nil => exact ⟨w, rfl, hlen, hn, le_rfl, hl⟩
  | cons p hist ih =>
    obtain ⟨mk, curr⟩ := p
    by_cases h1 : w.n = 1
    · obtain ⟨w', h⟩ := ih w hlen hl hn
      exact ⟨w', by simpa [updates, h1] using h.1, h.2⟩
    · obtain ⟨w1, e, a, b, c, d⟩ := C70_update mk goal curr w (by omega) hlen hl
      obtain ⟨w', h2, h3, h4, h5, h6⟩ := ih w1 a c b
      refine ⟨w', by simpa [updates, h1, e] using h2, h3, h4, h5.trans ?_, h6⟩
      rw [← a, ← hlen]
      rcases d with ⟨d, _⟩ | ⟨f, _, _, d⟩ <;> rw [d] <;>
        simp only [List.length_append, List.length_drop, List.length_cons, List.length_nil] <;> omega

/-- If three frames are asked for and the first one already reaches the goal, `n_frames` is 2 but there is only one frame. -/
theorem C70_violated :
    startFrames (fun _ : ℕ => 5) 5 0 3 = some ⟨2, [⟨0, 5⟩]⟩ := by decide

/-- Frames of length 2 towards 5, three at a time: two updates, then the goal is reached. -/
example : let mk := fun p : ℕ => min (p + 2) 5
    startFrames mk 5 0 2 = some ⟨2, [⟨0, 2⟩, ⟨2, 4⟩]⟩ ∧
    updates 5 [(mk, 1)] ⟨2, [⟨0, 2⟩, ⟨2, 4⟩]⟩ = some ⟨2, [⟨2, 4⟩, ⟨4, 5⟩]⟩ ∧
    updates 5 [(mk, 1), (mk, 3)] ⟨2, [⟨0, 2⟩, ⟨2, 4⟩]⟩ = some ⟨1, [⟨4, 5⟩]⟩ := by decide

end Window

end Verif.Frames
