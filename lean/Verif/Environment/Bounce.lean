import Mathlib.Algebra.Order.Field.Basic
import Mathlib.Data.Rat.Defs
import Mathlib.Algebra.Order.Field.Rat
import Mathlib.Tactic.Linarith
import Mathlib.Tactic.NormNum
import Mathlib.Tactic.Ring

/-! # Bouncing obstacles (C29) -/

set_option linter.unusedSectionVars false

namespace Verif.Environment

variable {K : Type} [Field K] [LinearOrder K] [IsStrictOrderedRing K]

/-! ## Model -/

/-- Last columns of the signals `position` and `velocity`.  `vel` in the code is a view of the last column (environment.py:201), so
it follows every assignment to the signal. -/
structure Ball (K : Type) where
  pos : K × K
  vel : K × K

/-- `obstacle.signals['position'][:,-1] += [dx, dy]`. -/
def Ball.shift (b : Ball K) (d : K × K) : Ball K := { b with pos := (b.pos.1 + d.1, b.pos.2 + d.2) }

/-- One bounce, environment.py:208-262 and 268-323 (the two are the same, with `overlaps_with(obs)` and `is_outside_of(room)`):
`hit` is that test as a function of the position of the obstacle.  The obstacle is moved to try a direction and put back. -/
def bounce (hit : K × K → Bool) (b : Ball K) : Ball K :=
  if b.vel.1 = 0 ∨ b.vel.2 = 0 then { b with vel := (-b.vel.1, -b.vel.2) }
  else
    let old := b.pos
    let vel := b.vel
    let r : Ball K × (K × K) :=
      if vel.1 > 0 ∧ vel.2 > 0 then
        let b := b.shift (15 / 100, -(15 / 100))
        if !hit b.pos then (b, (vel.1, -vel.2)) else (b, (-vel.1, vel.2))
      else if vel.1 < 0 ∧ vel.2 > 0 then
        let b := b.shift (-(15 / 100), -(15 / 100))
        if !hit b.pos then (b, (vel.1, -vel.2)) else (b, (-vel.1, vel.2))
      else if vel.1 > 0 ∧ vel.2 < 0 then
        let b := b.shift (-(15 / 100), -(15 / 100))
        if !hit b.pos then (b, (-vel.1, vel.2)) else (b, (vel.1, -vel.2))
      else
        let b := b.shift (15 / 100, -(15 / 100))
        if !hit b.pos then (b, (-vel.1, vel.2)) else (b, (vel.1, -vel.2))
    { r.1 with pos := old, vel := r.2 }

/-- The tests of one simulation step, environment.py:203-323: all other obstacles in turn, then the border of the room.  Every test
is a function of the position of the obstacle. -/
def bounces (others : List (K × K → Bool)) (outside : K × K → Bool) (b : Ball K) : Ball K :=
  let b := others.foldl (fun b hit => if hit b.pos then bounce hit b else b) b
  if outside b.pos then bounce outside b else b

/-! ## Specification -/

/-- How many things the obstacle hits where it is. -/
def Spec.hits (tests : List (K × K → Bool)) (p : K × K) : ℕ := tests.countP fun hit => hit p

/-! ## Lemmas -/

theorem bounce_pos (hit : K × K → Bool) (b : Ball K) : (bounce hit b).pos = b.pos := by
  unfold bounce; split <;> rfl

/-- Straight back, or exactly one component changes sign. -/
theorem bounce_vel (hit : K × K → Bool) (b : Ball K) :
    ((b.vel.1 = 0 ∨ b.vel.2 = 0) ∧ (bounce hit b).vel = (-b.vel.1, -b.vel.2)) ∨
    ((b.vel.1 ≠ 0 ∧ b.vel.2 ≠ 0) ∧ ((bounce hit b).vel = (b.vel.1, -b.vel.2) ∨ (bounce hit b).vel = (-b.vel.1, b.vel.2))) := by
  unfold bounce
  by_cases h : b.vel.1 = 0 ∨ b.vel.2 = 0
  · left; rw [if_pos h]; exact ⟨h, rfl⟩
  · right
    rw [if_neg h]
    refine ⟨not_or.1 h, ?_⟩
    simp only
    split_ifs <;> simp

theorem fold_tests (others : List (K × K → Bool)) (outside : K × K → Bool) (b : Ball K) :
    bounces others outside b = (others ++ [outside]).foldl (fun b hit => if hit b.pos then bounce hit b else b) b := by
  rw [List.foldl_append]; rfl

theorem fold_pos (tests : List (K × K → Bool)) : ∀ b : Ball K,
    (tests.foldl (fun b hit => if hit b.pos then bounce hit b else b) b).pos = b.pos := by
  induction tests with
  | nil => intro b; rfl
  | cons hit tests ih =>
    intro b
    rw [List.foldl_cons, ih]
    split
    · exact bounce_pos hit b
    · rfl

/-! ## Properties -/

/-- **C29** Whatever an obstacle hits, and however often, it stays where it is and each component of its velocity keeps its absolute
value. -/
theorem C29_keeps (others : List (K × K → Bool)) (outside : K × K → Bool) (b : Ball K) :
    (bounces others outside b).pos = b.pos ∧ |(bounces others outside b).vel.1| = |b.vel.1| ∧ |(bounces others outside b).vel.2| = |b.vel.2| := by
  rw [fold_tests]
  refine ⟨fold_pos _ b, ?_⟩
  generalize others ++ [outside] = tests
  induction tests generalizing b with
  | nil => exact ⟨rfl, rfl⟩
  | cons hit tests ih =>
    rw [List.foldl_cons]
    refine (ih _).imp (·.trans ?_) (·.trans ?_)
    · split
      · rcases bounce_vel hit b with ⟨-, h⟩ | ⟨-, h | h⟩ <;> rw [h] <;> simp
      · rfl
    · split
      · rcases bounce_vel hit b with ⟨-, h⟩ | ⟨-, h | h⟩ <;> rw [h] <;> simp
      · rfl

/-- **C29** An obstacle that hits nothing keeps its velocity. -/
theorem C29_free (others : List (K × K → Bool)) (outside : K × K → Bool) (b : Ball K)
    (h : Spec.hits (others ++ [outside]) b.pos = 0) : bounces others outside b = b := by
  rw [fold_tests]
  revert h
  generalize others ++ [outside] = tests
  induction tests with
  | nil => intro _; rfl
  | cons hit tests ih =>
    intro h
    unfold Spec.hits at h
    rw [List.countP_cons] at h
    have h1 : hit b.pos = false := by cases e : hit b.pos <;> simp_all
    rw [List.foldl_cons, if_neg (by rw [h1]; simp)]
    exact ih (by unfold Spec.hits; omega)

/-- **C29** (partial) An obstacle that hits exactly one thing changes direction: it turns back when it moves along an axis (or not
at all), otherwise exactly one component of the velocity changes sign.
Missing: several hits at once, see `C29_twice_violated`. -/
theorem C29_turns_partial (others : List (K × K → Bool)) (outside : K × K → Bool) (b : Ball K)
    (h : Spec.hits (others ++ [outside]) b.pos = 1) :
    let v := (bounces others outside b).vel
    (b.vel ≠ (0, 0) → v ≠ b.vel) ∧ ((b.vel.1 = 0 ∨ b.vel.2 = 0) → v = (-b.vel.1, -b.vel.2)) ∧
      (b.vel.1 ≠ 0 ∧ b.vel.2 ≠ 0 → v = (b.vel.1, -b.vel.2) ∨ v = (-b.vel.1, b.vel.2)) := by
  have key : ∃ hit : K × K → Bool, (bounces others outside b).vel = (bounce hit b).vel := by
    rw [fold_tests]
    revert h
    generalize others ++ [outside] = tests
    induction tests with
    | nil => intro h; simp [Spec.hits] at h
    | cons hit tests ih =>
      intro h
      unfold Spec.hits at h
      rw [List.countP_cons] at h
      rw [List.foldl_cons]
      cases e : hit b.pos with
      | false =>
        rw [if_neg (by simp)]
        exact ih (by unfold Spec.hits; simpa [e] using h)
      | true =>
        rw [if_pos rfl]
        refine ⟨hit, ?_⟩
        have h0 : tests.countP (fun hit => hit b.pos) = 0 := by simpa [e] using h
        have : ∀ (tests : List (K × K → Bool)) (c : Ball K), c.pos = b.pos → tests.countP (fun hit => hit b.pos) = 0 →
            tests.foldl (fun b hit => if hit b.pos then bounce hit b else b) c = c := by
          intro tests
          induction tests with
          | nil => intro c _ _; rfl
          | cons g tests ih =>
            intro c hc h
            rw [List.countP_cons] at h
            have h1 : g b.pos = false := by cases e : g b.pos <;> simp_all
            rw [List.foldl_cons, if_neg (by rw [hc, h1]; simp)]
            exact ih c hc (by omega)
        rw [this tests _ (bounce_pos hit b) h0]
  obtain ⟨hit, e⟩ := key
  rw [e]
  have ne : ∀ x : K, x ≠ 0 → -x ≠ x := fun x hx h => hx (by linarith)
  rcases bounce_vel hit b with ⟨h0, h⟩ | ⟨h0, h⟩
  · rw [h]
    refine ⟨fun hv he => hv ?_, fun _ => rfl, fun h1 => absurd h0 (by rintro (h | h); exacts [h1.1 h, h1.2 h])⟩
    have e1 : -b.vel.1 = b.vel.1 := congrArg Prod.fst he
    have e2 : -b.vel.2 = b.vel.2 := congrArg Prod.snd he
    exact Prod.ext (by show b.vel.1 = 0; linarith) (by show b.vel.2 = 0; linarith)
  · refine ⟨fun _ he => ?_, fun h1 => absurd h1 (by rintro (h | h); exacts [h0.1 h, h0.2 h]), fun _ => h⟩
    rcases h with h | h
    · rw [h] at he; exact ne _ h0.2 (congrArg Prod.snd he)
    · rw [h] at he; exact ne _ h0.1 (congrArg Prod.fst he)

/-- **C29** Which component changes: of the two directions that differ from the present one in one sign, the obstacle takes the
downward one if it is free a step (0.15 along each axis) in that direction, the opposite one otherwise. -/
theorem C29_choice (hit : K × K → Bool) (b : Ball K) (h1 : b.vel.1 ≠ 0) (h2 : b.vel.2 ≠ 0) :
    let w := if b.vel.2 > 0 then (b.vel.1, -b.vel.2) else (-b.vel.1, b.vel.2)
    let step := (b.pos.1 + (if w.1 > 0 then 15 / 100 else -(15 / 100)), b.pos.2 - 15 / 100)
    w.2 < 0 ∧ (bounce hit b).vel = if hit step then (-w.1, -w.2) else w := by
  have a1 := lt_or_gt_of_ne h1
  have a2 := lt_or_gt_of_ne h2
  unfold bounce
  rw [if_neg (not_or.2 ⟨h1, h2⟩)]
  rcases a1 with a1 | a1 <;> rcases a2 with a2 | a2 <;>
    simp only [a1, a2, gt_iff_lt, a1.not_gt, a2.not_gt, if_true, if_false, and_true, true_and, and_false, Ball.shift, neg_neg,
      Left.neg_neg_iff, Left.neg_pos_iff, and_self, sub_eq_add_neg] <;>
    split_ifs <;> simp_all

/-- **C29** In general an obstacle that moves along an axis turns once for every hit. -/
theorem C29_axis (others : List (K × K → Bool)) (outside : K × K → Bool) (b : Ball K) (h : b.vel.1 = 0 ∨ b.vel.2 = 0) :
    (bounces others outside b).vel =
      ((-1) ^ Spec.hits (others ++ [outside]) b.pos * b.vel.1, (-1) ^ Spec.hits (others ++ [outside]) b.pos * b.vel.2) := by
  rw [fold_tests]
  generalize others ++ [outside] = tests
  induction tests generalizing b with
  | nil => simp [Spec.hits]
  | cons hit tests ih =>
    rw [List.foldl_cons]
    cases e : hit b.pos with
    | false =>
      rw [if_neg (by simp), ih b h]
      simp [Spec.hits, e]
    | true =>
      have hv : (bounce hit b).vel = (-b.vel.1, -b.vel.2) := by
        rcases bounce_vel hit b with ⟨-, h1⟩ | ⟨h1, -⟩
        · exact h1
        · rcases h with h | h
          · exact absurd h h1.1
          · exact absurd h h1.2
      rw [if_pos rfl, ih (bounce hit b) (by rw [hv]; simpa using h), bounce_pos, hv]
      simp only [Spec.hits, List.countP_cons, e, if_true, pow_succ]
      simp

/-- An obstacle that flies into the corner between another obstacle and the border: the second bounce undoes the first one. -/
theorem C29_twice_violated : ∃ (other outside : ℚ × ℚ → Bool) (b : Ball ℚ), other b.pos = true ∧ outside b.pos = true ∧
    b.vel ≠ (0, 0) ∧ bounces [other] outside b = b := by
  refine ⟨fun _ => true, fun _ => true, ⟨(0, 0), (1, 0)⟩, rfl, rfl, by norm_num, ?_⟩
  norm_num [bounces, bounce]

/-- A diagonal bounce off a wall on the right: only the first component changes. -/
example : let wall : ℚ × ℚ → Bool := fun p => decide (10 ≤ p.1)
    Spec.hits [(fun _ => false), wall] ((10, 0) : ℚ × ℚ) = 1 ∧ (bounces [fun _ => false] wall ⟨(10, 0), (1, 2)⟩).vel = (-1, 2) := by
  constructor
  · simp [Spec.hits]
  · norm_num [bounces, bounce, Ball.shift]

end Verif.Environment
