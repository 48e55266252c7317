import Mathlib.Data.List.Basic
import Mathlib.Data.List.Induction
import Mathlib.Data.List.TakeWhile
import Mathlib.Tactic.Linarith

/-! # Adding obstacles to an environment (C31) -/

set_option linter.unusedSectionVars false

namespace Verif.Environment

/-! ## Model -/

/-- What `add_obstacle` looks at: who the obstacle is, and its dimension. -/
structure Obst where
  id : ℕ
  dim : ℕ
deriving DecidableEq

/-- The argument of `add_obstacle`: an obstacle or a list (of lists ...). -/
inductive Arg where
  | one (o : Obst)
  | many (l : List Arg)

/-- `n_dim`, `obstacles`, `n_obs` of an environment, and the entries `obstacles` of its rooms. -/
structure Env where
  dim : ℕ
  obstacles : List Obst
  n_obs : ℕ
  rooms : List (Option (List Obst))
deriving DecidableEq

mutual
/-- `Environment.add_obstacle`, environment.py:76-91.  The second component says whether it raised; what has been added before
stays. -/
def add : Arg → Env → Env × Bool
  | .one o, e => if o.dim = 3 ∧ e.dim = 2 then (e, true) else ({ e with obstacles := e.obstacles ++ [o], n_obs := e.n_obs + 1 }, false)
  | .many l, e => addAll l e
/-- The loop over a list. -/
def addAll : List Arg → Env → Env × Bool
  | [], e => (e, false)
  | a :: l, e => match add a e with
    | (e, true) => (e, true)
    | (e, false) => addAll l e
end

/-- `Environment.fill_room`, environment.py:93-100, for the room with index `idx`; raises if the room is unknown. -/
def fill (idx : ℕ) (obs : List Obst) (e : Env) : Env × Bool :=
  if idx < e.rooms.length then
    (obs.foldl (fun e o => if o ∈ e.obstacles then e else { e with obstacles := e.obstacles ++ [o] })
      { e with rooms := e.rooms.set idx (some obs) }, false)
  else (e, true)

/-- An operation of the user on an environment. -/
inductive Op where
  | add (a : Arg)
  | fill (idx : ℕ) (obs : List Obst)

/-- Its effect; exceptions are caught by the user. -/
def Op.run (op : Op) (e : Env) : Env :=
  match op with
  | .add a => (Verif.Environment.add a e).1
  | .fill i obs => (Verif.Environment.fill i obs e).1

/-- A new environment, environment.py:31-61, with rooms of dimension `dim`: no obstacles, then `add_obstacle` for those given. -/
def Env.new (dim nRooms : ℕ) (obstacles : List Arg) : Env × Bool :=
  addAll obstacles ⟨dim, [], 0, List.replicate nRooms none⟩

/-! ## Specification -/

mutual
/-- The obstacles in an argument, in order. -/
def Spec.flat : Arg → List Obst
  | .one o => [o]
  | .many l => Spec.flatAll l
/-- The obstacles in a list of arguments. -/
def Spec.flatAll : List Arg → List Obst
  | [] => []
  | a :: l => Spec.flat a ++ Spec.flatAll l
end

/-- An obstacle of three dimensions does not fit in a room of two. -/
def Spec.fits (dim : ℕ) (o : Obst) : Bool := !(o.dim = 3 ∧ dim = 2)

/-! ## Lemmas -/

/-- Adding takes the obstacles up to the first one that does not fit. -/
theorem add_spec : (∀ (a : Arg) (e : Env), add a e =
      ({ e with obstacles := e.obstacles ++ (Spec.flat a).takeWhile (Spec.fits e.dim),
                n_obs := e.n_obs + ((Spec.flat a).takeWhile (Spec.fits e.dim)).length }, !(Spec.flat a).all (Spec.fits e.dim))) := by
  intro a
  refine Arg.rec (motive_1 := fun a => ∀ e : Env, add a e =
      ({ e with obstacles := e.obstacles ++ (Spec.flat a).takeWhile (Spec.fits e.dim),
                n_obs := e.n_obs + ((Spec.flat a).takeWhile (Spec.fits e.dim)).length }, !(Spec.flat a).all (Spec.fits e.dim)))
    (motive_2 := fun l => ∀ e : Env, addAll l e =
      ({ e with obstacles := e.obstacles ++ (Spec.flatAll l).takeWhile (Spec.fits e.dim),
                n_obs := e.n_obs + ((Spec.flatAll l).takeWhile (Spec.fits e.dim)).length }, !(Spec.flatAll l).all (Spec.fits e.dim)))
    ?_ ?_ ?_ ?_ a
  · intro o e
    rw [add]
    by_cases h : o.dim = 3 ∧ e.dim = 2
    · rw [if_pos h]
      have : Spec.fits e.dim o = false := by simp [Spec.fits, h]
      simp [Spec.flat, this]
    · rw [if_neg h]
      have : Spec.fits e.dim o = true := by simp only [Spec.fits, h]; rfl
      simp [Spec.flat, this]
  · intro l ih e
    rw [add, ih e]
    simp [Spec.flat]
  · intro e
    rw [addAll]
    simp [Spec.flatAll]
  · intro a l iha ihl e
    rw [addAll, iha e, Spec.flatAll]
    cases h : (Spec.flat a).all (Spec.fits e.dim) with
    | true =>
      have ht : (Spec.flat a).takeWhile (Spec.fits e.dim) = Spec.flat a :=
        List.takeWhile_eq_self_iff.2 (fun x hx => List.all_eq_true.1 h x hx)
      simp only [Bool.not_true]
      rw [ihl]
      simp only
      rw [List.takeWhile_append_of_pos (List.all_eq_true.1 h), ht, List.all_append, h]
      simp [Nat.add_assoc]
    | false =>
      simp only [Bool.not_false]
      have : (Spec.flat a ++ Spec.flatAll l).takeWhile (Spec.fits e.dim) = (Spec.flat a).takeWhile (Spec.fits e.dim) := by
        rw [List.takeWhile_append, if_neg]
        intro hl
        have := List.takeWhile_eq_self_iff.1 (List.IsPrefix.eq_of_length (List.takeWhile_prefix _) hl)
        rw [List.all_eq_true.2 this] at h
        exact absurd h (by simp)
      rw [this, List.all_append, h]
      simp

theorem addAll_spec (l : List Arg) (e : Env) : addAll l e =
      ({ e with obstacles := e.obstacles ++ (Spec.flatAll l).takeWhile (Spec.fits e.dim),
                n_obs := e.n_obs + ((Spec.flatAll l).takeWhile (Spec.fits e.dim)).length }, !(Spec.flatAll l).all (Spec.fits e.dim)) := by
  have := add_spec (.many l) e
  rw [add] at this
  rw [this]
  simp [Spec.flat]

/-- `fill_room` with known obstacles changes nothing but the room. -/
theorem fill_known (idx : ℕ) (obs : List Obst) (e : Env) (h : ∀ o ∈ obs, o ∈ e.obstacles) :
    (fill idx obs e).1.obstacles = e.obstacles ∧ (fill idx obs e).1.n_obs = e.n_obs ∧ (fill idx obs e).1.dim = e.dim := by
  unfold fill
  split
  · have : ∀ (obs : List Obst) (e : Env), (∀ o ∈ obs, o ∈ e.obstacles) →
        obs.foldl (fun e o => if o ∈ e.obstacles then e else { e with obstacles := e.obstacles ++ [o] }) e = e := by
      intro obs
      induction obs with
      | nil => intro e _; rfl
      | cons o obs ih =>
        intro e h
        rw [List.foldl_cons, if_pos (h o (by simp))]
        exact ih e fun o ho => h o (by simp [ho])
    simp only
    rw [this obs _ (by simpa using h)]
    exact ⟨rfl, rfl, rfl⟩
  · exact ⟨rfl, rfl, rfl⟩

/-! ## Properties -/

/-- **C31** A new environment contains the given obstacles, in order and out of their nested lists, up to the first one that does
not fit in; that one raises. -/
theorem C31_new (dim nRooms : ℕ) (l : List Arg) :
    (Env.new dim nRooms l).1.obstacles = (Spec.flatAll l).takeWhile (Spec.fits dim) ∧
    ((Env.new dim nRooms l).2 = true ↔ ∃ o ∈ Spec.flatAll l, Spec.fits dim o = false) := by
  unfold Env.new
  rw [addAll_spec]
  refine ⟨by simp, ?_⟩
  simp

/-- **C31** (partial) The number of obstacles reported equals the number in the list, after any sequence of additions (also of
nested lists, also those that raise) and of fills with obstacles that the environment already has.
Missing: fills with new obstacles, see `C31_fill_violated`. -/
theorem C31_partial (dim nRooms : ℕ) (l : List Arg) (ops : List Op)
    (hops : ∀ pre idx obs post, ops = pre ++ Op.fill idx obs :: post →
      ∀ o ∈ obs, o ∈ (pre.foldl (fun e op => op.run e) (Env.new dim nRooms l).1).obstacles) :
    (ops.foldl (fun e op => op.run e) (Env.new dim nRooms l).1).n_obs =
      (ops.foldl (fun e op => op.run e) (Env.new dim nRooms l).1).obstacles.length := by
  have h0 : (Env.new dim nRooms l).1.n_obs = (Env.new dim nRooms l).1.obstacles.length := by
    unfold Env.new
    rw [addAll_spec]
    simp
  induction ops using List.reverseRecOn with
  | nil => exact h0
  | append_singleton ops op ih =>
    have ih := ih fun pre idx obs post h => hops pre idx obs (post ++ [op]) (by rw [h]; simp)
    rw [List.foldl_append, List.foldl_cons, List.foldl_nil]
    cases op with
    | add a =>
      show (add a _).1.n_obs = (add a _).1.obstacles.length
      rw [add_spec]
      simp [ih]
    | fill idx obs =>
      obtain ⟨h1, h2, -⟩ := fill_known idx obs _ (hops ops idx obs [] (by simp))
      show (fill idx obs _).1.n_obs = (fill idx obs _).1.obstacles.length
      rw [h1, h2, ih]

/-- Filling a room with a new obstacle does not count it. -/
theorem C31_fill_violated : ∃ (e : Env) (op : Op), e = (Env.new 2 1 []).1 ∧ (op.run e).obstacles.length = 1 ∧ (op.run e).n_obs = 0 :=
  ⟨_, .fill 0 [⟨7, 2⟩], rfl, by decide, by decide⟩

/-- A nested list with an obstacle that does not fit: two obstacles are added before it raises; one of them is put in the room. -/
example : let e := (Env.new 2 1 [.one ⟨1, 2⟩, .many [.one ⟨2, 2⟩, .many [.one ⟨3, 3⟩]], .one ⟨4, 2⟩]).1
    ((Op.fill 0 [⟨2, 2⟩]).run e).obstacles = [⟨1, 2⟩, ⟨2, 2⟩] ∧ ((Op.fill 0 [⟨2, 2⟩]).run e).n_obs = 2 := by
  decide

end Verif.Environment
