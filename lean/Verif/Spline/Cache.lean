import Verif.Spline.ArithProps

/-! # Caching of bases and of their values (C174)

Mirrors `memoize` and `cached_class` of `omgtools/basics/spline.py`: every evaluation of a B-spline basis goes through a table that is shared by
all bases and lives as long as the program.  Assumption: md5 has no collisions, so the digest stands for the bytes. -/

set_option linter.unusedSectionVars false

namespace Verif.Spline.Cache

section Model
variable {K : Type*} [Field K] [LinearOrder K]

/-- Element types of numpy arrays (64 bit). -/
inductive DType
  | float
  | int
  deriving DecidableEq

/-- An argument of an evaluation: a number (`shape = []`) or an array; its 64-bit words in memory order; and whether it is contiguous (a slice
like `t[::2]` is not). -/
structure Arg where
  dtype : DType
  shape : List ℕ
  words : List ℕ
  contiguous : Bool

/-- The number a word stands for; `float64 w` is the floating-point number with bit pattern `w`. -/
def Arg.value (float64 : ℕ → K) (a : Arg) (w : ℕ) : K :=
  match a.dtype with
  | .float => float64 w
  | .int => (w : K)

/-- `b = 0*x` keeps the integer type; where the first `bottom` is zero and the second is not, `b += …` adds floats to it in place, spline.py:
221-231, which raises for arrays. -/
def addsInPlace (b : Basis K) : Bool :=
  (List.range b.degree).any fun d => (List.range (b.knots.length - (d + 1) - 1)).any fun i =>
    decide (b.k (i + (d + 1)) = b.k i) && decide (b.k (i + (d + 1) + 1) ≠ b.k (i + 1))

/-- `eval_basis` without the table, spline.py:212-233: one row per point, `none` when it raises (arrays of integers, see above; arrays with two
or more axes, of which no `csr_matrix` can be made).  Negative integers and empty arrays are not modelled. -/
def fresh (float64 : ℕ → K) (b : Basis K) (a : Arg) : Option (List (List K)) :=
  if 2 ≤ a.shape.length then none
  else if a.dtype = .int ∧ a.shape ≠ [] ∧ addsInPlace b = true then none
  else some (a.words.map fun w => b.eval (a.value float64 w))

/-- The table: for each basis and bytes the matrix that was returned. -/
abbrev Table (K : Type*) := List ((Basis K × List ℕ) × List (List K))

/-- `memoize`, spline.py:39-55.  The key consists of the basis, compared by `__eq__` (knots and degree, 179-180), and the md5 of the bytes of
`np.atleast_1d(x)`; hashing a non-contiguous array raises. -/
def call (float64 : ℕ → K) (st : Table K) (b : Basis K) (a : Arg) : Table K × Option (List (List K)) :=
  if a.contiguous = false then (st, none)
  else
    match st.find? fun e => e.1.1.pyEq b && decide (e.1.2 = a.words) with
    | some e => (st, some e.2)
    | none =>
      match fresh float64 b a with
      | none => (st, none)
      | some r => (((b, a.words), r) :: st, some r)

/-- The table after a history of calls. -/
def run (float64 : ℕ → K) (h : List (Basis K × Arg)) : Table K := h.foldl (fun st c => (call float64 st c.1 c.2).1) []

/-- The table of `cached_class`, spline.py:58-83: the bytes of knots and degree and the basis that was built. -/
abbrev Bases (K : Type*) := List ((List ℕ × ℕ) × Basis K)

/-- `BSplineBasis(knots, degree)`, spline.py:66-78. -/
def build (float64 : ℕ → K) (st : Bases K) (a : Arg) (degree : ℕ) : Bases K × Basis K :=
  match st.find? fun e => decide (e.1 = (a.words, degree)) with
  | some e => (st, e.2)
  | none =>
    let b : Basis K := ⟨a.words.map (a.value float64), degree⟩
    (((a.words, degree), b) :: st, b)

def builds (float64 : ℕ → K) (h : List (Arg × ℕ)) : Bases K := h.foldl (fun st c => (build float64 st c.1 c.2).1) []

/-- Floating-point numbers and one-dimensional contiguous arrays of them. -/
def Arg.Plain (a : Arg) : Prop := a.dtype = .float ∧ a.shape.length ≤ 1 ∧ a.contiguous = true

end Model

/-! ## Helpers -/

variable {K : Type*} [Field K] [LinearOrder K] [IsStrictOrderedRing K]

theorem pyEq_eq {a b : Basis K} (h : a.pyEq b = true) : a = b := (C08_hash a b (fun _ => 0) (fun _ => 0) h).1

theorem pyEq_self (b : Basis K) : b.pyEq b = true := by
  unfold Basis.pyEq
  simp only [decide_true, Bool.true_and, Bool.and_true, List.all_eq_true, decide_eq_true_eq]
  intro p hp
  obtain ⟨i, hi, rfl⟩ := List.getElem_of_mem hp
  simp

theorem fresh_plain (float64 : ℕ → K) (b : Basis K) (a : Arg) (ha : a.Plain) :
    fresh float64 b a = some (a.words.map fun w => b.eval (float64 w)) := by
  obtain ⟨h1, h2, -⟩ := ha
  unfold fresh Arg.value
  rw [if_neg (by omega), if_neg (by rw [h1]; simp), h1]

/-- The table is right. -/
def Right (float64 : ℕ → K) (st : Table K) : Prop := ∀ e ∈ st, e.2 = e.1.2.map fun w => e.1.1.eval (float64 w)

theorem call_spec (float64 : ℕ → K) (st : Table K) (hst : Right float64 st) (b : Basis K) (a : Arg) (ha : a.Plain) :
    Right float64 (call float64 st b a).1 ∧ (call float64 st b a).2 = some (a.words.map fun w => b.eval (float64 w)) := by
  unfold call
  rw [if_neg (by rw [ha.2.2]; simp)]
  cases h : st.find? fun e => e.1.1.pyEq b && decide (e.1.2 = a.words) with
  | some e =>
    have hm := List.mem_of_find?_eq_some h
    have hp := List.find?_some h
    rw [Bool.and_eq_true, decide_eq_true_eq] at hp
    refine ⟨hst, ?_⟩
    show some e.2 = _
    rw [hst e hm, pyEq_eq hp.1, hp.2]
  | none =>
    dsimp only
    rw [fresh_plain float64 b a ha]
    refine ⟨fun e he => ?_, rfl⟩
    rcases List.mem_cons.1 he with rfl | he
    · rfl
    · exact hst e he

/-! ## Properties -/

/-- **C174** (partial: floating-point numbers and contiguous one-dimensional arrays of them) Whatever was evaluated before, on this or any other
basis, evaluating a basis gives one row per point, with the values of the basis functions there. -/
theorem C174_history_partial (float64 : ℕ → K) (h : List (Basis K × Arg)) (hh : ∀ c ∈ h, c.2.Plain) (b : Basis K) (a : Arg) (ha : a.Plain) :
    (call float64 (run float64 h) b a).2 = some (a.words.map fun w => b.eval (float64 w)) := by
  have key : ∀ (l : List (Basis K × Arg)) (st : Table K), (∀ c ∈ l, c.2.Plain) → Right float64 st →
      Right float64 (l.foldl (fun st c => (call float64 st c.1 c.2).1) st) := by
    intro l
    induction l with
    | nil => intro st _ h; exact h
    | cons c l ih =>
      intro st hl hst
      exact ih _ (fun c hc => hl c (List.mem_cons_of_mem _ hc)) (call_spec float64 st hst c.1 c.2 (hl c List.mem_cons_self)).1
  exact (call_spec float64 _ (key h [] hh (by intro e he; simp at he)) b a ha).2

/-- **C174** A basis built from floating-point knots has those knots and that degree, whatever was built before. -/
theorem C174_basis_partial (float64 : ℕ → K) (h : List (Arg × ℕ)) (hh : ∀ c ∈ h, c.1.dtype = .float) (a : Arg) (ha : a.dtype = .float)
    (degree : ℕ) : (build float64 (builds float64 h) a degree).2 = ⟨a.words.map float64, degree⟩ := by
  have val : ∀ a : Arg, a.dtype = .float → a.words.map (a.value float64) = a.words.map float64 := by
    intro a ha
    unfold Arg.value
    rw [ha]
  have step : ∀ (st : Bases K), (∀ e ∈ st, e.2 = ⟨e.1.1.map float64, e.1.2⟩) → ∀ (a : Arg) (d : ℕ), a.dtype = .float →
      (∀ e ∈ (build float64 st a d).1, e.2 = ⟨e.1.1.map float64, e.1.2⟩) ∧ (build float64 st a d).2 = ⟨a.words.map float64, d⟩ := by
    intro st hst a d ha
    unfold build
    cases hf : st.find? fun e => decide (e.1 = (a.words, d)) with
    | some e =>
      have hp := List.find?_some hf
      rw [decide_eq_true_eq] at hp
      refine ⟨hst, ?_⟩
      show e.2 = _
      rw [hst e (List.mem_of_find?_eq_some hf), hp]
    | none =>
      dsimp only
      rw [val a ha]
      refine ⟨fun e he => ?_, rfl⟩
      rcases List.mem_cons.1 he with rfl | he
      · rfl
      · exact hst e he
  have key : ∀ (l : List (Arg × ℕ)) (st : Bases K), (∀ c ∈ l, c.1.dtype = .float) → (∀ e ∈ st, e.2 = ⟨e.1.1.map float64, e.1.2⟩) →
      ∀ e ∈ l.foldl (fun st c => (build float64 st c.1 c.2).1) st, e.2 = ⟨e.1.1.map float64, e.1.2⟩ := by
    intro l
    induction l with
    | nil => intro st _ h; exact h
    | cons c l ih =>
      intro st hl hst
      exact ih _ (fun c hc => hl c (List.mem_cons_of_mem _ hc)) (step st hst c.1 c.2 (hl c List.mem_cons_self)).1
  exact (step _ (key h [] hh (by intro e he; simp at he)) a degree ha).2

/-- **C174** violated: a slice that is not contiguous raises, whatever was evaluated before. -/
theorem C174_slice_violated (float64 : ℕ → K) (st : Table K) (b : Basis K) (a : Arg) (ha : a.contiguous = false) :
    (call float64 st b a).2 = none := by
  unfold call; rw [if_pos ha]

/-- **C174** violated: an array with two axes raises, unless the same numbers were evaluated as a one-dimensional array before. -/
theorem C174_shape_violated (float64 : ℕ → K) (b : Basis K) (rows cols : ℕ) (words : List ℕ) :
    (call float64 (run float64 []) b ⟨.float, [rows, cols], words, true⟩).2 = none ∧
    (call float64 (run float64 [(b, ⟨.float, [rows * cols], words, true⟩)]) b ⟨.float, [rows, cols], words, true⟩).2
      = some (words.map fun w => b.eval (float64 w)) := by
  have e := pyEq_self b
  constructor
  · simp [call, run, fresh]
  · simp [call, run, fresh, Arg.value, e]

/-- **C174** violated: the integer `1` has the bytes of the smallest positive floating-point number: after the one has been evaluated, the other
gets its values. -/
theorem C174_integer_violated (float64 : ℕ → K) (b : Basis K) (n : ℕ) :
    (call float64 (run float64 []) b ⟨.int, [], [n], true⟩).2 = some [b.eval (n : K)] ∧
    (call float64 (run float64 [(b, ⟨.float, [], [n], true⟩)]) b ⟨.int, [], [n], true⟩).2 = some [b.eval (float64 n)] := by
  have e := pyEq_self b
  constructor <;> simp [call, run, fresh, Arg.value, e]

/-- **C174** violated: an array of integers raises on every clamped basis of positive degree, when nothing was evaluated before; after floats
with the same bytes (zeros, say) it does not. -/
theorem C174_integers_violated (float64 : ℕ → K) (b : Basis K) (hb : b.Clamped) (hd : 1 ≤ b.degree) (words : List ℕ) :
    (call float64 (run float64 []) b ⟨.int, [words.length], words, true⟩).2 = none ∧
    (call float64 (run float64 [(b, ⟨.float, [words.length], words, true⟩)]) b ⟨.int, [words.length], words, true⟩).2
      = some (words.map fun w => b.eval (float64 w)) := by
  have hl := hb.length_eq
  have hlt := hb.lt_len
  have e : addsInPlace b = true := by
    unfold addsInPlace
    rw [List.any_eq_true]
    refine ⟨0, List.mem_range.2 hd, ?_⟩
    rw [List.any_eq_true]
    refine ⟨b.degree - 1, List.mem_range.2 (by omega), ?_⟩
    rw [Bool.and_eq_true, decide_eq_true_eq, decide_eq_true_eq]
    have h1 : b.degree - 1 + (0 + 1) = b.degree := by omega
    rw [h1]
    exact ⟨(hb.first b.degree le_rfl).trans (hb.first (b.degree - 1) (by omega)).symm, hb.start.ne'⟩
  have e' := pyEq_self b
  constructor <;> simp [call, run, fresh, Arg.value, e, e']

/-! ## Concrete cases -/

/-- A history on two bases: the evaluation of the second is not mistaken for one of the first. -/
example (float64 : ℕ → ℚ) : (call float64 (run float64 [(exLin, ⟨.float, [2], [3, 4], true⟩), (exQuad, ⟨.float, [2], [3, 4], true⟩)]) exQuad
    ⟨.float, [], [3], true⟩).2 = some [exQuad.eval (float64 3)] :=
  C174_history_partial float64 _ (by intro c hc; simp at hc; rcases hc with rfl | rfl <;> exact ⟨rfl, by simp, rfl⟩) _ _ ⟨rfl, by simp, rfl⟩

example (float64 : ℕ → ℚ) : (build float64 (builds float64 [(⟨.float, [2], [0, 5], true⟩, 0)]) ⟨.float, [2], [0, 5], true⟩ 1).2
    = ⟨[float64 0, float64 5], 1⟩ :=
  C174_basis_partial float64 _ (by intro c hc; simp at hc; rw [hc]) _ rfl 1

/-- The values of integer and floating-point number with the same bytes differ, e.g. on `[0,1]` for `1` and `5e-324`. -/
example (float64 : ℕ → ℚ) (h0 : 0 < float64 1) (h1 : float64 1 < 1) :
    exLin.eval ((1 : ℕ) : ℚ) ≠ exLin.eval (float64 1) := by
  intro h
  have e : ∀ x : ℚ, (exLin.eval x).getD 0 0 = exLin.fn 0 x := by
    intro x; rfl
  have := congrArg (fun l : List ℚ => l.getD 0 0) h
  simp only [e] at this
  rw [(exLin_fn (by norm_num) (by norm_num)).1, (exLin_fn h0.le h1.le).1] at this
  norm_num at this
  linarith

example (words : List ℕ) : (call (fun _ => (0 : ℚ)) (run (fun _ => 0) []) exQuad ⟨.int, [words.length], words, true⟩).2 = none :=
  (C174_integers_violated _ exQuad exQuad_clamped (by decide) words).1

end Verif.Spline.Cache
