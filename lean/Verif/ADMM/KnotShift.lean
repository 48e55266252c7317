import Verif.Timing.KnotClock
import Mathlib.Logic.Function.Iterate

/-! # Own and shared splines are moved over a knot together (C204) -/

namespace Verif.KnotShift

open Verif.Timing

variable {K : Type} [Field K] [LinearOrder K] [IsStrictOrderedRing K] [FloorRing K]

/-! ## Model -/

/-- One vehicle of a distributed problem: the knot clock of its own problem, and how often the shared splines it holds
(`x_i`, `z_i`, `z_ij`, `l_i`, ... of `var_admm` and `var_dd`) were moved over a knot. -/
structure Vehicle (K : Type) where
  own : Clock K
  shared : ℕ

/-- `init_step` of the updater of a vehicle, admm.py:477-491 and dualdecomposition.py:232-247: first `init_step` of the own problem,
point2point.py:187-199, which compares the knot intervals of the previous and the current time; then the shared splines, moved when
the current time is a multiple of the knot time. Exact arithmetic instead of floats. -/
def initShared (kt cur : K) (v : Vehicle K) : Vehicle K :=
  { own := initStep kt cur v.own
    shared := if 0 < cur ∧ pyMod (round6 cur) kt = 0 then v.shared + 1 else v.shared }

/-- The updates at the given times, each with `p` iterations (option `max_iter_per_update`; `solve`, dualmethod.py:218-224): every
iteration begins with `init_step` (`dual_update`, admm.py:584-588 and dualdecomposition.py:279-283). -/
def run (kt : K) (p : ℕ) (v : Vehicle K) : List K → Vehicle K
  | [] => v
  | t :: ts => run kt p ((initShared kt t)^[p] v) ts

/-- A vehicle before the first update. -/
def fresh : Vehicle K := ⟨⟨0, 0⟩, 0⟩

/-! ## Specification -/

/-- The updates, at the listed multiples of some time unit, come one after the other (the first may be at time zero), and there is an
update at every knot: no multiple of `q` is strictly between two updates. -/
def Spec.hits (q : ℕ) : ℕ → List ℕ → Prop
  | _, [] => True
  | a, b :: l => (a < b ∨ a = 0 ∧ b = 0) ∧ (∀ m, a < m → m < b → ¬ q ∣ m) ∧ Spec.hits q b l

/-! ## Lemmas -/

theorem div_hit {q a b : ℕ} (hq : 0 < q) (hab : a < b) (h : ∀ m, a < m → m < b → ¬ q ∣ m) :
    b / q = if q ∣ b then a / q + 1 else a / q := by
  have h1 : a < q * (a / q + 1) := by
    have := Nat.div_add_mod a q
    have := Nat.mod_lt a hq
    rw [Nat.mul_add, Nat.mul_one]; omega
  have h2 : b ≤ q * (a / q + 1) := by
    by_contra hc
    exact h _ h1 (by omega) (Nat.dvd_mul_right _ _)
  have h3 : a / q ≤ b / q := Nat.div_le_div_right hab.le
  have h4 : b / q ≤ a / q + 1 := by
    have := Nat.div_le_div_right (c := q) h2
    rwa [Nat.mul_div_cancel_left _ hq] at this
  split
  · rename_i hd
    obtain ⟨c, rfl⟩ := hd
    rw [Nat.mul_div_cancel_left _ hq] at *
    have : a / q < c := by rw [Nat.div_lt_iff_lt_mul hq, Nat.mul_comm]; exact hab
    omega
  · rename_i hd
    rcases Nat.lt_or_ge (b / q) (a / q + 1) with h5 | h5
    · omega
    · exfalso
      have h6 : b = q * (a / q + 1) := by
        have := Nat.div_mul_le_self b q
        have h7 : b / q = a / q + 1 := by omega
        rw [h7, Nat.mul_comm] at this
        omega
      exact hd ⟨_, h6⟩

theorem step_grid (q d : ℕ) (hd : 0 < d) (hq : 0 < q) (hb : q < 2 * 10 ^ 6) (a b s s' : ℕ) :
    initShared ((q : K) * ((d : K) / 10 ^ 6)) ((b : K) * ((d : K) / 10 ^ 6)) ⟨⟨(a : K) * ((d : K) / 10 ^ 6), s⟩, s'⟩
      = ⟨⟨(b : K) * ((d : K) / 10 ^ 6), if a / q < b / q then s + 1 else s⟩, if 0 < b ∧ q ∣ b then s' + 1 else s'⟩ := by
  have hdK : (0 : K) < (d : K) / 10 ^ 6 := by
    have : (0 : K) < d := by exact_mod_cast hd
    positivity
  have e1 := samples_grid a q _ hdK hq hb
  have e2 := samples_grid b q _ hdK hq hb
  have e3 := paramT_grid (K := K) b q d hd hq
  unfold paramT at e3
  have c1 : (0 < (b : K) * ((d : K) / 10 ^ 6)) ↔ 0 < b := by
    rw [mul_pos_iff_of_pos_right hdK]; exact Nat.cast_pos
  have c2 : (((b % q : ℕ) : K) * ((d : K) / 10 ^ 6) = 0) ↔ q ∣ b := by
    rw [mul_eq_zero, or_iff_left hdK.ne', Nat.cast_eq_zero, Nat.dvd_iff_mod_eq_zero]
  simp only [initShared, initStep, e1, e2, e3, c1, c2, Nat.cast_lt]

theorem again_grid (q d : ℕ) (hd : 0 < d) (hq : 0 < q) (hb : q < 2 * 10 ^ 6) (b s n : ℕ) : ∀ s',
    (initShared ((q : K) * ((d : K) / 10 ^ 6)) ((b : K) * ((d : K) / 10 ^ 6)))^[n] ⟨⟨(b : K) * ((d : K) / 10 ^ 6), s⟩, s'⟩
      = ⟨⟨(b : K) * ((d : K) / 10 ^ 6), s⟩, if 0 < b ∧ q ∣ b then s' + n else s'⟩ := by
  induction n with
  | zero => intro s'; simp
  | succ n ih =>
    intro s'
    rw [Function.iterate_succ_apply, step_grid q d hd hq hb, if_neg (lt_irrefl _), ih]
    congr 1
    split <;> omega

theorem run_grid (q d p : ℕ) (hd : 0 < d) (hq : 0 < q) (hb : q < 2 * 10 ^ 6) (hp : 0 < p) (ms : List ℕ) : ∀ a, Spec.hits q a ms →
    run ((q : K) * ((d : K) / 10 ^ 6)) p ⟨⟨(a : K) * ((d : K) / 10 ^ 6), a / q⟩, p * (a / q)⟩
        (ms.map fun (m : ℕ) => (m : K) * ((d : K) / 10 ^ 6))
      = ⟨⟨((ms.getLast?.getD a : ℕ) : K) * ((d : K) / 10 ^ 6), ms.getLast?.getD a / q⟩, p * (ms.getLast?.getD a / q)⟩ := by
  obtain ⟨n, rfl⟩ : ∃ n, p = n + 1 := ⟨p - 1, by omega⟩
  induction ms with
  | nil => intro a _; rfl
  | cons b l ih =>
    intro a ⟨h1, h2, h3⟩
    have hl : (b :: l).getLast?.getD a = l.getLast?.getD b := by
      rw [List.getLast?_cons]; rfl
    rw [List.map_cons, run, Function.iterate_succ_apply, step_grid q d hd hq hb, again_grid q d hd hq hb, hl, ← ih b h3]
    congr 1
    rcases h1 with h1 | ⟨rfl, rfl⟩
    · have hdv := div_hit hq h1 h2
      have hb0 : 0 < b := by omega
      by_cases hqb : q ∣ b
      · simp only [hdv, hqb, hb0, and_self, if_true, Nat.lt_succ_self, Vehicle.mk.injEq, true_and]
        ring
      · simp [hdv, hqb]
    · simp

theorem hits_take (q : ℕ) (l : List ℕ) : ∀ (a k : ℕ), Spec.hits q a l → Spec.hits q a (l.take k) := by
  induction l with
  | nil => intro a k _; simp [Spec.hits]
  | cons b l ih =>
    intro a k h
    cases k with
    | zero => simp [Spec.hits]
    | succ k => exact ⟨h.1, h.2.1, ih b k h.2.2⟩

/-! ## Properties -/

/-- C204, for updates at every knot with one iteration each: after every update the own splines of a vehicle and the shared splines
it holds have been moved over the same number of knots, that of the knots passed. Times are multiples of a unit of a whole number of
microseconds; the knot time is `q` units. Missing: more iterations per update and updates which jump over a knot (see below), and the
rounding of floats in the remainder. -/
theorem C204_partial (q d : ℕ) (hd : 0 < d) (hq : 0 < q) (hb : q < 2 * 10 ^ 6) (ms : List ℕ) (hm : Spec.hits q 0 ms) (k : ℕ) :
    let δ : K := (d : K) / 10 ^ 6
    let v := run ((q : K) * δ) 1 fresh ((ms.take k).map fun (m : ℕ) => (m : K) * δ)
    v.own.shifts = (ms.take k).getLast?.getD 0 / q ∧ v.shared = (ms.take k).getLast?.getD 0 / q := by
  have h := run_grid (K := K) q d 1 hd hq hb Nat.one_pos (ms.take k) 0 (hits_take q ms 0 k hm)
  simp only [Nat.cast_zero, zero_mul, Nat.zero_div, mul_zero, one_mul] at h
  simp only [fresh, h, and_self]

/-- Updates every 0.1 s, the first at time zero, with a knot every 0.3 s: at 0.7 s both are moved over two knots. -/
example : Spec.hits 3 0 [0, 1, 2, 3, 4, 5, 6, 7] ∧ ([0, 1, 2, 3, 4, 5, 6, 7].getLast?.getD 0) / 3 = 2 := by
  refine ⟨?_, rfl⟩
  simp only [Spec.hits, and_true]
  refine ⟨by simp, ?_, by simp, ?_, by simp, ?_, by simp, ?_, by simp, ?_, by simp, ?_, by simp, ?_, by simp, ?_⟩ <;>
    intro m _ _ <;> omega

/-- C204 fails with more iterations per update (option `max_iter_per_update`): after passing a knot the shared splines are moved once
for every iteration, the own splines once. -/
theorem C204_iterations_violated (q d p : ℕ) (hd : 0 < d) (hq : 0 < q) (hb : q < 2 * 10 ^ 6) (hp : 2 ≤ p) (ms : List ℕ)
    (hm : Spec.hits q 0 ms) (hl : q ≤ ms.getLast?.getD 0) :
    let δ : K := (d : K) / 10 ^ 6
    let v := run ((q : K) * δ) p fresh (ms.map fun (m : ℕ) => (m : K) * δ)
    v.own.shifts = ms.getLast?.getD 0 / q ∧ v.shared = p * (ms.getLast?.getD 0 / q) ∧ v.own.shifts < v.shared := by
  have h := run_grid (K := K) q d p hd hq hb (by omega) ms 0 hm
  simp only [Nat.cast_zero, zero_mul, Nat.zero_div, mul_zero] at h
  simp only [fresh, h, true_and]
  have h1 : 0 < ms.getLast?.getD 0 / q := Nat.div_pos hl hq
  nlinarith

/-- Updates at 0.5 s and at the knot at 1 s. -/
example : Spec.hits 2 0 [1, 2] ∧ 2 ≤ [1, 2].getLast?.getD 0 := by
  refine ⟨⟨by simp, ?_, by simp, ?_, trivial⟩, le_refl _⟩ <;> intro m _ _ <;> omega

/-- C204 fails for all update times which jump over the knots, also with one iteration per update: if no update is at a knot, the
shared splines are never moved, while the own splines are moved over all knots passed. -/
theorem C204_jump_violated (q d : ℕ) (hd : 0 < d) (hq : 0 < q) (hb : q < 2 * 10 ^ 6) (ms : List ℕ) (hs : Timing.Spec.steps q 0 ms)
    (hm : ∀ m ∈ ms, ¬ q ∣ m) :
    let δ : K := (d : K) / 10 ^ 6
    let v := run ((q : K) * δ) 1 fresh (ms.map fun (m : ℕ) => (m : K) * δ)
    v.own.shifts = ms.getLast?.getD 0 / q ∧ v.shared = 0 := by
  have ho : ∀ (kt : K) (l : List K) (v : Vehicle K), (run kt 1 v l).own = updates kt v.own l := by
    intro kt l
    induction l with
    | nil => intro v; rfl
    | cons t l ih => intro v; rw [run, ih]; rfl
  have hsh : ∀ (l : List ℕ), (∀ m ∈ l, ¬ q ∣ m) → ∀ v : Vehicle K,
      (run ((q : K) * ((d : K) / 10 ^ 6)) 1 v (l.map fun (m : ℕ) => (m : K) * ((d : K) / 10 ^ 6))).shared = v.shared := by
    intro l
    induction l with
    | nil => intro _ v; rfl
    | cons b l ih =>
      intro h v
      rw [List.map_cons, run, ih (fun m hm => h m (List.mem_cons_of_mem _ hm))]
      have hdK : (0 : K) < (d : K) / 10 ^ 6 := by
        have : (0 : K) < d := by exact_mod_cast hd
        positivity
      have e3 := paramT_grid (K := K) b q d hd hq
      unfold paramT at e3
      have : ((b % q : ℕ) : K) * ((d : K) / 10 ^ 6) ≠ 0 := by
        rw [Ne, mul_eq_zero, or_iff_left hdK.ne', Nat.cast_eq_zero, ← Nat.dvd_iff_mod_eq_zero]
        exact h b List.mem_cons_self
      simp only [Function.iterate_one, initShared, e3, this, and_false, if_false]
  refine ⟨?_, hsh ms hm _⟩
  have := (C33_partial (K := K) q d hd hq hb ms hs).2.1
  rw [ho]
  exact this

/-- A knot every second, updates every 0.3 s from 0.3 s to 2.7 s: the own splines are moved twice, the shared ones never. -/
example : Timing.Spec.steps 10 0 [3, 6, 9, 12, 15, 18, 21, 24, 27] ∧ (∀ m ∈ [3, 6, 9, 12, 15, 18, 21, 24, 27], ¬ 10 ∣ m) ∧
    ([3, 6, 9, 12, 15, 18, 21, 24, 27].getLast?.getD 0) / 10 = 2 := by
  refine ⟨?_, ?_, rfl⟩
  · simp [Timing.Spec.steps]
  · decide

end Verif.KnotShift
