import Verif.Spline.Integral

/-! # Property C07: scaling the time axis -/

set_option linter.unusedSectionVars false

namespace Verif.Spline

open Finset

section Model
variable {K : Type*} [Field K] [LinearOrder K]

/-- `Basis.scale`, spline.py:201-205: `knots*factor + shift`. -/
def Basis.scale (b : Basis K) (factor shift : K) : Basis K :=
  ⟨b.knots.map (fun t => t * factor + shift), b.degree⟩

/-- `BSpline.scale`, spline.py:508-512: scaled basis, same coefficients. -/
def BSpline.scale (s : BSpline K) (factor shift : K) : BSpline K :=
  ⟨s.basis.scale factor shift, s.coeffs⟩

end Model

variable {K : Type*} [Field K] [LinearOrder K] [IsStrictOrderedRing K]

theorem scale_k {b : Basis K} (hb : b.Clamped) (f h : K) (i : ℕ) :
    (b.scale f h).k i = b.k i * f + h := by
  have hl := hb.length_eq
  unfold Basis.k Basis.scale
  dsimp only
  rcases Nat.lt_or_ge i b.knots.length with hi | hi
  · rw [List.getD_eq_getElem _ _ (by simpa using hi), List.getD_eq_getElem _ _ hi, List.getElem_map]
  · rw [List.getD_eq_default _ _ (by simpa using hi), List.getD_eq_default _ _ hi,
      List.getLastD_eq_getLast?, List.getLastD_eq_getLast?, List.getLast?_map]
    have hne : b.knots ≠ [] := by intro e; rw [e] at hl; simp at hl
    rw [List.getLast?_eq_some_getLast hne]
    simp

theorem scale_clamped {b : Basis K} (hb : b.Clamped) {f : K} (hf : 0 < f) (h : K) :
    (b.scale f h).Clamped := by
  have hkl : (b.scale f h).knots.length = b.knots.length := by simp [Basis.scale]
  have hlen : (b.scale f h).len = b.len := by unfold Basis.len; rw [hkl]; rfl
  refine ⟨?_, by rw [hkl]; exact hb.size, ?_, ?_, ?_⟩
  · unfold Basis.scale
    rw [List.pairwise_map]
    exact hb.sorted.imp fun hab => by
      have := mul_le_mul_of_nonneg_right hab hf.le
      linarith
  · intro i hi
    rw [scale_k hb, scale_k hb, hb.first i hi]
  · rw [scale_k hb, scale_k hb]
    have := mul_lt_mul_of_pos_right hb.start hf
    exact add_lt_add_left this h
  · intro i h1 h2
    rw [hlen] at *
    rw [scale_k hb, scale_k hb, hb.last i h1]

theorem scale_cox {k : ℕ → K} {f : K} (hf : 0 < f) (h : K) (p : ℕ) (x : K) (d i : ℕ) :
    cox (fun j => k j * f + h) p (x * f + h) d i = cox k p x d i := by
  have le : ∀ a b : K, a * f + h ≤ b * f + h ↔ a ≤ b := fun a b => by
    rw [add_le_add_iff_right, mul_le_mul_iff_left₀ hf]
  have lt : ∀ a b : K, a * f + h < b * f + h ↔ a < b := fun a b => by
    rw [add_lt_add_iff_right, mul_lt_mul_iff_left₀ hf]
  have eq : ∀ a b : K, a * f + h = b * f + h ↔ a = b := fun a b => by
    rw [add_left_inj, mul_left_inj' hf.ne']
  induction d generalizing i with
  | zero => simp only [cox, ind, le, lt, eq]
  | succ d ih =>
    have sub : ∀ a b : K, a * f + h - (b * f + h) = (a - b) * f := fun a b => by ring
    rw [cox_succ, cox_succ, ih, ih]
    simp only [sub]
    congr 1
    · rw [mul_right_comm, mul_div_mul_right _ _ hf.ne']
    · rw [mul_right_comm, mul_div_mul_right _ _ hf.ne']

/-- **C07** Scaling the time axis by a positive factor and shifting it moves the trajectory along:
the scaled trajectory at the scaled time is the original trajectory. -/
theorem C07_scale (s : BSpline K) (hb : s.basis.Clamped) (f h : K) (hf : 0 < f) (x : K) :
    (s.scale f h).eval (x * f + h) = s.eval x := by
  have hk : (s.basis.scale f h).k = fun j => s.basis.k j * f + h := funext (scale_k hb f h)
  have hlen : (s.basis.scale f h).len = s.basis.len := by simp [Basis.len, Basis.scale]
  unfold BSpline.eval BSpline.scale Basis.eval Basis.fn
  dsimp only
  rw [hlen, hk]
  simp only [scale_cox hf]
  rfl

/-- **C07** The domain is scaled and shifted. -/
theorem C07_domain (s : BSpline K) (hb : s.basis.Clamped) (f h : K) :
    (s.scale f h).basis.knots.headD 0 = s.basis.knots.headD 0 * f + h ∧
    (s.scale f h).basis.knots.getLastD 0 = s.basis.knots.getLastD 0 * f + h := by
  have hl := hb.length_eq
  have hne : s.basis.knots ≠ [] := by intro e; rw [e] at hl; simp at hl
  simp [BSpline.scale, Basis.scale, List.head?_eq_some_head hne, List.getLast?_eq_some_getLast hne]

/-- One differentiation of a scaled spline. -/
theorem scale_derivative_one {s : BSpline K} (hb : s.basis.Clamped) (hs : s.WF)
    (hp : 1 ≤ s.basis.degree) {f : K} (hf : 0 < f) (h : K) :
    ((s.scale f h).derivative 1).basis = (s.derivative 1).basis.scale f h ∧
    ((s.scale f h).derivative 1).coeffs = (s.derivative 1).coeffs.map (· / f) := by
  have hl := hb.length_eq
  have hlt := hb.lt_len
  have hb' := scale_clamped hb hf h
  have hlen : (s.basis.scale f h).len = s.basis.len := by simp [Basis.len, Basis.scale]
  have hs' : (s.scale f h).WF := by
    unfold BSpline.WF BSpline.scale; dsimp only; rw [hlen]; exact hs
  obtain ⟨g1, g2, g3, g4, g5, g6⟩ := derivative_one_spec hb hs hp
  obtain ⟨e1, e2, e3, e4, e5, e6⟩ := derivative_one_spec (s := s.scale f h) hb' hs' hp
  constructor
  · show Basis.mk _ _ = Basis.mk _ _
    congr 1
    simp [BSpline.scale, Basis.scale, BSpline.derivative, List.map_take]
  · have l1 : ((s.scale f h).derivative 1).coeffs.length = s.basis.len - 1 := by
      have : ((s.scale f h).derivative 1).coeffs.length = ((s.scale f h).derivative 1).basis.len := e4
      rw [this, e3]; show (s.basis.scale f h).len - 1 = _; rw [hlen]
    have l2 : (s.derivative 1).coeffs.length = s.basis.len - 1 := by
      have : (s.derivative 1).coeffs.length = (s.derivative 1).basis.len := g4
      rw [this, g3]
    apply List.ext_getElem
    · rw [List.length_map, l1, l2]
    · intro i a1 a2
      have h1 := e6 i (by show i < (s.basis.scale f h).len - 1; omega)
      have h2 := g6 i (by omega)
      rw [List.getD_eq_getElem _ _ a1] at h1
      rw [List.getD_eq_getElem _ _ (by omega)] at h2
      rw [List.getElem_map, h1, h2]
      show (s.basis.degree : K) * (s.coeffs.getD (i + 1) 0 - s.coeffs.getD i 0)
        / ((s.basis.scale f h).k (i + s.basis.degree + 1) - (s.basis.scale f h).k (i + 1)) = _
      rw [scale_k hb, scale_k hb, div_div]
      congr 1; ring

theorem eval_map_div (s : BSpline K) (f x : K) :
    (BSpline.mk s.basis (s.coeffs.map (· / f))).eval x = s.eval x / f := by
  unfold BSpline.eval
  dsimp only
  generalize s.basis.eval x = l
  generalize s.coeffs = c
  induction l generalizing c with
  | nil => simp
  | cons a l ih =>
    cases c with
    | nil => simp
    | cons b c => simp only [List.map_cons, List.zipWith_cons_cons, List.sum_cons, ih, add_div]; ring

/-- Derivative coefficients are linear under division by a constant. -/
theorem derivative_map_div (s : BSpline K) (f : K) (o : ℕ) :
    (BSpline.mk s.basis (s.coeffs.map (· / f))).derivative o
      = ⟨(s.derivative o).basis, (s.derivative o).coeffs.map (· / f)⟩ := by
  have gm : ∀ (l : List K) j, (l.map (· / f)).getD j 0 = l.getD j 0 / f := by
    intro l j
    rw [List.getD_eq_getElem?_getD, List.getD_eq_getElem?_getD, List.getElem?_map]
    cases l[j]? <;> simp
  have key : ∀ (deg : ℕ) (kn c : List K),
      (List.range o).foldl (derivStep deg) (kn, c.map (· / f))
        = (((List.range o).foldl (derivStep deg) (kn, c)).1,
            ((List.range o).foldl (derivStep deg) (kn, c)).2.map (· / f)) := by
    intro deg kn c
    induction o with
    | zero => simp
    | succ o ih =>
      simp only [List.range_succ, List.foldl_append, List.foldl_cons, List.foldl_nil]
      rw [ih]
      unfold derivStep
      dsimp only
      congr 1
      rw [List.length_map, List.map_map]
      refine List.map_congr_left fun j _ => ?_
      dsimp only [Function.comp]
      rw [gm, gm]
      ring
  unfold BSpline.derivative
  by_cases ho : o = 0
  · rw [if_pos ho, if_pos ho]
  · rw [if_neg ho, if_neg ho]
    dsimp only
    rw [key]

/-- **C07** Derivatives of the scaled trajectory are the original derivatives divided by the factor
to the power of the order, e.g. velocities in physical time are `1/T` of those in unit time. -/
theorem C07_derivative (s : BSpline K) (hb : s.basis.Clamped) (hs : s.WF) (f h : K) (hf : 0 < f)
    (o : ℕ) (ho : o ≤ s.basis.degree) (x : K) :
    ((s.scale f h).derivative o).eval (x * f + h) = (s.derivative o).eval x / f ^ o := by
  induction o generalizing s with
  | zero =>
    have e : ∀ t : BSpline K, t.derivative 0 = t := fun t => by unfold BSpline.derivative; rw [if_pos rfl]
    rw [e, e, pow_zero, div_one, C07_scale s hb f h hf]
  | succ o ih =>
    have step : ∀ t : BSpline K, t.derivative (o + 1) = (t.derivative 1).derivative o := by
      intro t
      rw [C04_iterate, C04_iterate _ o, Function.iterate_succ_apply]
    obtain ⟨b1, b2⟩ := scale_derivative_one hb hs (by omega) hf h
    obtain ⟨g1, g2, g3, g4, g5⟩ := clamped_derivative hb hs 1 (by omega)
    have := ih (s.derivative 1) g1 g2 (by omega)
    rw [step, step s]
    have e : (s.scale f h).derivative 1
        = ⟨((s.derivative 1).scale f h).basis, ((s.derivative 1).scale f h).coeffs.map (· / f)⟩ := by
      show BSpline.mk _ _ = BSpline.mk _ _
      congr 1
    rw [e, derivative_map_div, eval_map_div]
    show ((((s.derivative 1).scale f h).derivative o).eval (x * f + h)) / f = _
    rw [this, pow_succ, div_div]

example : (BSpline.scale ⟨exBasis, [1, 2, 4, 3]⟩ 5 7).eval ((1/3) * 5 + 7)
    = (BSpline.mk exBasis [1, 2, 4, 3]).eval (1/3) :=
  C07_scale _ exBasis_clamped 5 7 (by norm_num) _

example : ((BSpline.scale ⟨exBasis, [1, 2, 4, 3]⟩ 5 7).derivative 2).eval ((1/3) * 5 + 7)
    = ((BSpline.mk exBasis [1, 2, 4, 3]).derivative 2).eval (1/3) / 5 ^ 2 :=
  C07_derivative _ exBasis_clamped (by rfl) 5 7 (by norm_num) 2 (by decide) _

end Verif.Spline
