import Mathlib.Data.List.Basic
import Mathlib.Logic.Function.Iterate
import Mathlib.Tactic.Linarith
import Mathlib.Tactic.Ring

/-! # The plot of the residuals of a distributed problem (C205) -/

namespace Verif.ResidualPlot

variable {R : Type}

/-! ## Model -/

/-- The residuals after one call of `solve` (dualmethod.py:218-224): every `dual_update` appends one value (admm.py:624-627). `r i` is
the residual of iteration `i`, counted from zero; `p` is the option `max_iter_per_update`. -/
def solveRes (r : ℕ → R) (p : ℕ) (rs : List R) : List R := rs ++ (List.range p).map fun i => r (rs.length + i)

/-- The residuals after `initialize` (dualmethod.py:209-216, `init` calls of `solve`) and `n` updates. -/
def residuals (r : ℕ → R) (init p n : ℕ) : List R := (solveRes r p)^[n] ((solveRes r p)^[init] [])

/-- What `update_plot` gives for one of the residuals: `None`, an exception, a dictionary with a line, or a list of lines. -/
inductive Data (R : Type)
  | none
  | error
  | dict (l : List (ℕ × R))
  | lines (its : List ℕ) (vals : List R)

/-- The outcome of drawing. -/
inductive Drawn (R : Type)
  | nothing
  | points (l : List (ℕ × R))
  | error
  deriving DecidableEq

/-- `update_plot` of `ADMMProblem` for one of the residuals, admm.py:650-670: `t` is the index of the logged instant that is shown,
`none` stands for `-1`, the current one. `np.vstack` of rows of different lengths raises an exception. The values are not replaced by
their logarithms. -/
def dataADMM (init p : ℕ) (rs : List R) (t : Option ℕ) : Data R :=
  if rs.length = 0 then .none
  else match t with
    | none => .dict (((List.range rs.length).map (· + 1)).zip rs)
    | some t =>
      let ind := init + t * p
      let its := (List.range (ind + 1)).map (· + 1)
      let shown := rs.take (ind + 1)
      if its.length = shown.length then .dict (its.zip shown) else .error

/-- `update_plot` of `DDProblem`, dualdecomposition.py:331-351: lists instead of arrays and dictionaries. -/
def dataDD (init p : ℕ) (rs : List R) (t : Option ℕ) : Data R :=
  if rs.length = 0 then .none
  else match t with
    | none => .lines ((List.range rs.length).map (· + 1)) rs
    | some t => .lines ((List.range (init + t * p + 1)).map (· + 1)) (rs.take (init + t * p + 1))

/-- `_update_plot` and `_update_axis_2d`, plotlayer.py:256-270 and 90-93: lines are drawn if `'lines' in data`, which is false for a
list. -/
def draw : Data R → Drawn R
  | .none => .nothing
  | .error => .error
  | .dict l => .points l
  | .lines _ _ => .nothing

/-! ## Specification -/

/-- The number of iterations performed when the logged instant `t` is reached, if there are `u` samples per update: those of the
initialization, and those of the updates at the instants `0, u, 2 u, ...` up to `t`. -/
def Spec.performed (init p u t : ℕ) : ℕ := init * p + p * (t / u + 1)

/-- The points of the first `n` iterations: number of the iteration, counted from one, and residual. -/
def Spec.points (r : ℕ → R) (n : ℕ) : List (ℕ × R) := (List.range n).map fun i => (i + 1, r i)

/-! ## Lemmas -/

theorem solve_range (r : ℕ → R) (p m : ℕ) : solveRes r p ((List.range m).map r) = (List.range (m + p)).map r := by
  unfold solveRes
  rw [List.range_add, List.map_append, List.map_map, List.length_map, List.length_range]
  rfl

theorem iterate_range (r : ℕ → R) (p n : ℕ) : ∀ m, (solveRes r p)^[n] ((List.range m).map r) = (List.range (m + n * p)).map r := by
  induction n with
  | zero => intro m; simp
  | succ n ih =>
    intro m
    rw [Function.iterate_succ_apply, solve_range, ih]
    congr 2
    ring

theorem residuals_range (r : ℕ → R) (init p n : ℕ) : residuals r init p n = (List.range (init * p + n * p)).map r := by
  unfold residuals
  have := iterate_range r p init 0
  simp only [List.range_zero, List.map_nil, Nat.zero_add] at this
  rw [this, iterate_range]

theorem zip_points (r : ℕ → R) (n : ℕ) : ((List.range n).map (· + 1)).zip ((List.range n).map r) = Spec.points r n := by
  rw [List.zip_map']
  rfl

theorem plot_at (r : ℕ → R) (init p n t : ℕ) (h : init + t * p + 1 ≤ init * p + n * p) :
    draw (dataADMM init p (residuals r init p n) (some t)) = .points (Spec.points r (init + t * p + 1)) := by
  rw [residuals_range]
  have h0 : ((List.range (init * p + n * p)).map r).length ≠ 0 := by rw [List.length_map, List.length_range]; omega
  have ht : ((List.range (init * p + n * p)).map r).take (init + t * p + 1) = (List.range (init + t * p + 1)).map r := by
    rw [← List.map_take, List.take_range, Nat.min_eq_left h]
  rw [dataADMM, if_neg h0]
  simp only [ht, List.length_map, if_true, zip_points, draw]

/-! ## Properties -/

/-- C205 for the current instant: the plot shows the residuals of all iterations performed, with any options (alternating direction method). -/
theorem C205_current (r : ℕ → R) (init p n : ℕ) (h : 0 < (init + n) * p) :
    draw (dataADMM init p (residuals r init p n) none) = .points (Spec.points r (init * p + n * p)) := by
  rw [residuals_range]
  have h0 : ((List.range (init * p + n * p)).map r).length ≠ 0 := by
    rw [List.length_map, List.length_range]
    rw [Nat.add_mul] at h
    omega
  rw [dataADMM, if_neg h0]
  simp only [List.length_map, List.length_range, zip_points, draw]

/-- With five initial calls, two iterations per update and three updates: sixteen points. -/
example : 0 < (5 + 3) * 2 ∧ draw (dataADMM 1 2 (residuals (fun i => i * i) 1 2 1) none) = .points [(1, 0), (2, 1), (3, 4), (4, 9)] := by
  decide

/-- C205 for a logged instant, as in movies, if an update is made at every sample, with one iteration each: the plot shows the
iterations performed up to that instant. Missing: more samples or iterations per update (see below). -/
theorem C205_partial (r : ℕ → R) (init n t : ℕ) (h : t < n) :
    draw (dataADMM init 1 (residuals r init 1 n) (some t)) = .points (Spec.points r (Spec.performed init 1 1 t)) := by
  rw [plot_at r init 1 n t (by omega)]
  congr 2
  simp [Spec.performed]
  omega

example : draw (dataADMM 1 1 (residuals (fun i => i * i) 1 1 3) (some 1)) = .points [(1, 0), (2, 1), (3, 4)] := by decide

/-- C205 fails with one iteration per update, if there are two or more samples per update: after the first instant never the
iterations performed up to then are shown, but more; the residuals of the future as long as there are some, and then the plot stops
with an exception. -/
theorem C205_samples_violated (r : ℕ → R) (init n u t : ℕ) (hu : 2 ≤ u) (ht : 0 < t) (hn : 0 < n) :
    Spec.performed init 1 u t < init + t + 1 ∧
    (t < n → draw (dataADMM init 1 (residuals r init 1 n) (some t)) = .points (Spec.points r (init + t + 1))) ∧
    (n ≤ t → draw (dataADMM init 1 (residuals r init 1 n) (some t)) = .error) := by
  refine ⟨?_, ?_, ?_⟩
  · have : t / u < t := Nat.div_lt_self ht hu
    simp only [Spec.performed]
    omega
  · intro h
    have := plot_at r init 1 n t (by omega)
    simpa using this
  · intro h
    rw [residuals_range]
    have h0 : ((List.range (init * 1 + n * 1)).map r).length ≠ 0 := by rw [List.length_map, List.length_range]; omega
    rw [dataADMM, if_neg h0]
    simp only []
    rw [if_neg]
    · rfl
    simp only [List.length_map, List.length_range, List.length_take]
    omega

/-- Ten samples per update, three updates: at the instant of the third sample the plot fails. -/
example : (2 : ℕ) ≤ 10 ∧ draw (dataADMM 1 1 (residuals (fun i => i * i) 1 1 3) (some 3)) = .error := by decide

/-- C205 fails with two or more iterations per update, also if an update is made at every sample: fewer iterations are shown than were
performed. -/
theorem C205_iterations_violated (r : ℕ → R) (init p n t : ℕ) (hp : 2 ≤ p) (h : t < n) :
    draw (dataADMM init p (residuals r init p n) (some t)) = .points (Spec.points r (init + t * p + 1)) ∧
    init + t * p + 1 < Spec.performed init p 1 t := by
  have h1 : init ≤ init * p := Nat.le_mul_of_pos_right _ (by omega)
  have h2 : t * p + p ≤ n * p := by
    have := Nat.mul_le_mul_right p (Nat.succ_le_of_lt h)
    rw [Nat.succ_mul] at this
    exact this
  refine ⟨plot_at r init p n t (by omega), ?_⟩
  simp only [Spec.performed, Nat.div_one, Nat.mul_add, Nat.mul_one, Nat.mul_comm p t]
  omega

/-- Five initial calls and two iterations per update: at the first instant six points instead of twelve. -/
example : 5 + 0 * 2 + 1 = 6 ∧ Spec.performed 5 2 1 0 = 12 := by decide

/-- C205 fails for dual decomposition, for all options and instants: nothing is drawn. -/
theorem C205_dd_violated (r : ℕ → R) (init p n : ℕ) (t : Option ℕ) : draw (dataDD init p (residuals r init p n) t) = .nothing := by
  unfold dataDD
  split
  · rfl
  · cases t <;> rfl

/-- After five initial iterations and three updates there are eight residuals. -/
example : (residuals (fun i => i) 5 1 3).length = 8 ∧ draw (dataDD 5 1 (residuals (fun i => i) 5 1 3) none) = .nothing := by decide

end Verif.ResidualPlot
