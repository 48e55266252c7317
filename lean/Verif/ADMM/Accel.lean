import Mathlib.Analysis.SpecialFunctions.Pow.Real
import Mathlib.Tactic.Linarith
import Mathlib.Tactic.FieldSimp
import Mathlib.Tactic.Module

/-! # Accelerated ADMM (C25) -/

set_option linter.unusedSectionVars false

namespace Verif.ADMM

variable {W : Type} [AddCommGroup W] [Module ℝ W]

/-! ## Model -/

/-- Options used by `accelerate`, admm.py:570-573. -/
structure AccOpt where
  eta : ℝ
  reset : Bool
  ama : Bool

/-- What `accelerate` reads and writes: `z` stands for `(z_i, z_ij)`, `zp` for `(z_i_p, z_ij_p)`, `l`, `lp` for the multipliers;
`alpha` and `cp` (`c_res_p`) are missing before the first call. -/
structure Acc (W : Type) where
  z : W
  l : W
  zp : W
  lp : W
  alpha : Option ℝ
  cp : Option ℝ

/-- admm.py:528: `0.5*(1. + np.sqrt(1 + 4.*alpha_p**2))`. -/
noncomputable def nextAlpha (a : ℝ) : ℝ := 1 / 2 * (1 + √(1 + 4 * a ^ 2))

/-- admm.py:529-533: the extrapolation with the old parameter `a`. -/
noncomputable def momentum (o : AccOpt) (a : ℝ) (s : Acc W) (c : ℝ) : Acc W :=
  { s with
    alpha := some (nextAlpha a)
    z := if o.ama then s.z else s.z + ((a - 1) / nextAlpha a) • (s.z - s.zp)
    l := s.l + ((a - 1) / nextAlpha a) • (s.l - s.lp)
    cp := some c }

/-- `ADMM.accelerate`, admm.py:510-554. -/
noncomputable def accelerate (o : AccOpt) (c : ℝ) (s : Acc W) : Acc W :=
  let cp := s.cp.getD (1 / o.eta * c)
  let a := s.alpha.getD 1
  if o.reset then
    if c ≤ o.eta * cp then momentum o a s c
    else { s with alpha := some 1, z := s.zp, l := s.lp, cp := some (1 / o.eta * cp) }
  else momentum o a s c

/-- The part of an iteration that concerns the copies and multipliers: `update_z` and `update_l` save the old values
(admm.py:406-407, 447-448) and write new ones, then `accelerate` is called with the combined residual. -/
noncomputable def accStep (o : AccOpt) (s : Acc W) (inp : W × W × ℝ) : Acc W :=
  accelerate o inp.2.2 { s with zp := s.z, lp := s.l, z := inp.1, l := inp.2.1 }

/-- A new updater: `alpha` and `c_res_p` not set. -/
def accInit (z l zp lp : W) : Acc W := ⟨z, l, zp, lp, none, none⟩

/-- The state after a history of updates. -/
noncomputable def accRun (o : AccOpt) (s : Acc W) (hist : List (W × W × ℝ)) : Acc W := hist.foldl (accStep o) s

/-! ## Specification -/

/-- The momentum parameter in use (1 before the first iteration). -/
def Spec.param (s : Acc W) : ℝ := s.alpha.getD 1

/-- The iteration is rejected: the combined residual has not decreased by the factor `eta`. -/
def Spec.Rejected (o : AccOpt) (s : Acc W) (c : ℝ) : Prop := o.reset = true ∧ ∃ p, s.cp = some p ∧ o.eta * p < c

/-! ## Lemmas -/

theorem nextAlpha_ge (a : ℝ) (ha : 0 ≤ a) : a + 1 / 2 ≤ nextAlpha a := by
  have : 2 * a ≤ √(1 + 4 * a ^ 2) := by
    rw [Real.le_sqrt (by linarith) (by positivity)]
    nlinarith
  unfold nextAlpha
  linarith

theorem nextAlpha_gt (a : ℝ) (ha : 0 ≤ a) : a + 1 / 2 < nextAlpha a := by
  have : 2 * a < √(1 + 4 * a ^ 2) := by
    rw [Real.lt_sqrt (by linarith)]
    nlinarith
  unfold nextAlpha
  linarith

theorem accelerate_cases (o : AccOpt) (c : ℝ) (s : Acc W) (he : 0 < o.eta) :
    (Spec.Rejected o s c ∧ ∃ p, s.cp = some p ∧
      accelerate o c s = { s with alpha := some 1, z := s.zp, l := s.lp, cp := some (1 / o.eta * p) }) ∨
    (¬ Spec.Rejected o s c ∧ accelerate o c s = momentum o (s.alpha.getD 1) s c) := by
  unfold accelerate Spec.Rejected
  cases hr : o.reset with
  | false => right; simp
  | true =>
    simp only [if_true, true_and]
    cases hc : s.cp with
    | none =>
      right
      refine ⟨by simp, ?_⟩
      rw [Option.getD_none, if_pos]
      rw [← mul_assoc, mul_one_div_cancel he.ne', one_mul]
    | some p =>
      rw [Option.getD_some]
      by_cases h : c ≤ o.eta * p
      · right
        rw [if_pos h]
        exact ⟨fun ⟨q, hq, hlt⟩ => by obtain rfl := Option.some.inj hq; linarith, rfl⟩
      · left
        rw [if_neg h]
        exact ⟨⟨p, rfl, not_le.1 h⟩, p, rfl, rfl⟩

/-! ## Properties -/

/-- **C25** The momentum parameter never drops below one, whatever the history of iterations. -/
theorem C25_parameter (o : AccOpt) (he : 0 < o.eta) (z l zp lp : W) (hist : List (W × W × ℝ)) :
    1 ≤ Spec.param (accRun o (accInit z l zp lp) hist) := by
  have key : ∀ (hist : List (W × W × ℝ)) (s : Acc W), 1 ≤ Spec.param s → 1 ≤ Spec.param (accRun o s hist) := by
    intro hist
    induction hist with
    | nil => intro s h; exact h
    | cons inp hist ih =>
      intro s h
      refine ih (accStep o s inp) ?_
      unfold accStep
      rcases accelerate_cases o inp.2.2 { s with zp := s.z, lp := s.l, z := inp.1, l := inp.2.1 } he with ⟨-, p, -, e⟩ | ⟨-, e⟩ <;> rw [e]
      · simp [Spec.param]
      · have := nextAlpha_ge _ (zero_le_one.trans h)
        unfold Spec.param at *
        simp only [momentum, Option.getD_some] at *
        linarith
  exact key hist _ (by simp [Spec.param, accInit])

/-- **C25** After any history, an iteration that is not rejected extrapolates the new multipliers (and, without `AMA`, the new
copies) along the last change, with a weight in `[0, 1)`. -/
theorem C25_extrapolates (o : AccOpt) (he : 0 < o.eta) (z l zp lp : W) (hist : List (W × W × ℝ)) (z' l' : W) (c : ℝ)
    (h : ¬ Spec.Rejected o (accRun o (accInit z l zp lp) hist) c) :
    ∃ w : ℝ, 0 ≤ w ∧ w < 1 ∧
      let s := accRun o (accInit z l zp lp) hist
      let r := accStep o s (z', l', c)
      r.z = (if o.ama then z' else z' + w • (z' - s.z)) ∧ r.l = l' + w • (l' - s.l) ∧
        w = (Spec.param s - 1) / Spec.param r ∧ r.cp = some c := by
  have h1 := C25_parameter o he z l zp lp hist
  generalize accRun o (accInit z l zp lp) hist = s at *
  have hg := nextAlpha_gt _ (zero_le_one.trans h1)
  refine ⟨(Spec.param s - 1) / nextAlpha (Spec.param s), div_nonneg (by linarith) (by linarith), ?_, ?_⟩
  · rw [div_lt_one (by linarith)]; linarith
  · rcases accelerate_cases o c { s with zp := s.z, lp := s.l, z := z', l := l' } he with ⟨hr, -⟩ | ⟨-, e⟩
    · exact absurd hr h
    · simp only [accStep]
      rw [e]
      exact ⟨rfl, rfl, rfl, rfl⟩

/-- **C25** After any history, an accepted iteration takes the next parameter of the accelerated gradient method: the positive
root of `r² - r = s²` where `s` was the parameter so far. -/
theorem C25_recursion (o : AccOpt) (he : 0 < o.eta) (z l zp lp : W) (hist : List (W × W × ℝ)) (z' l' : W) (c : ℝ)
    (h : ¬ Spec.Rejected o (accRun o (accInit z l zp lp) hist) c) :
    let s := accRun o (accInit z l zp lp) hist
    let r := accStep o s (z', l', c)
    Spec.param r ^ 2 - Spec.param r = Spec.param s ^ 2 ∧ 0 < Spec.param r := by
  have h1 := C25_parameter o he z l zp lp hist
  generalize accRun o (accInit z l zp lp) hist = s at *
  rcases accelerate_cases o c { s with zp := s.z, lp := s.l, z := z', l := l' } he with ⟨hr, -⟩ | ⟨-, e⟩
  · exact absurd hr h
  · have hp : Spec.param (accStep o s (z', l', c)) = nextAlpha (Spec.param s) := by
      simp only [accStep]
      rw [e]
      rfl
    refine ⟨?_, ?_⟩
    · simp only [hp]
      have hq : √(1 + 4 * Spec.param s ^ 2) ^ 2 = 1 + 4 * Spec.param s ^ 2 := Real.sq_sqrt (by positivity)
      unfold nextAlpha
      nlinarith
    · simp only [hp]
      have := nextAlpha_gt _ (zero_le_one.trans h1)
      linarith

/-- **C25** A rejected iteration restores the previous iterate and starts the momentum again; the residual that the next iteration
has to beat is relaxed by the factor `1/eta`. -/
theorem C25_rejected (o : AccOpt) (he : 0 < o.eta) (s : Acc W) (z' l' : W) (c : ℝ) (h : Spec.Rejected o s c) :
    let r := accStep o s (z', l', c)
    r.z = s.z ∧ r.l = s.l ∧ Spec.param r = 1 ∧ ∃ p, s.cp = some p ∧ r.cp = some (1 / o.eta * p) := by
  rcases accelerate_cases o c { s with zp := s.z, lp := s.l, z := z', l := l' } he with ⟨-, p, hp, e⟩ | ⟨hr, -⟩
  · simp only [accStep]
    rw [e]
    exact ⟨rfl, rfl, rfl, p, hp, rfl⟩
  · exact absurd h hr

/-- **C25** Without rejections the parameter grows at least linearly, so that the weight tends to one. -/
theorem C25_growth (o : AccOpt) (he : 0 < o.eta) (hr : o.reset = false) (z l zp lp : W) (hist : List (W × W × ℝ)) :
    1 + hist.length / 2 ≤ Spec.param (accRun o (accInit z l zp lp) hist) := by
  have key : ∀ (hist : List (W × W × ℝ)) (s : Acc W) (b : ℝ), 0 ≤ b → b ≤ Spec.param s →
      b + hist.length / 2 ≤ Spec.param (accRun o s hist) := by
    intro hist
    induction hist with
    | nil => intro s b _ h; simpa [accRun] using h
    | cons inp hist ih =>
      intro s b hb h
      have := ih (accStep o s inp) (b + 1 / 2) (by linarith) (by
        unfold accStep
        rcases accelerate_cases o inp.2.2 { s with zp := s.z, lp := s.l, z := inp.1, l := inp.2.1 } he with ⟨hrej, -⟩ | ⟨-, e⟩
        · exact absurd hrej.1 (by simp [hr])
        · rw [e]
          have := nextAlpha_ge _ (hb.trans h)
          unfold Spec.param at *
          simp only [momentum, Option.getD_some] at *
          linarith)
      simp only [List.length_cons, Nat.cast_add, Nat.cast_one]
      unfold accRun at *
      rw [List.foldl_cons]
      linarith
  exact key hist _ 1 (by norm_num) (by simp [Spec.param, accInit])

/-- **C25** The first iteration is never rejected. -/
theorem C25_first (o : AccOpt) (z l zp lp : W) (c : ℝ) : ¬ Spec.Rejected o (accInit z l zp lp) c := by
  rintro ⟨-, p, hp, -⟩
  simp [accInit] at hp

/-- **C25** What a rejection costs: when the updates are a function of the copies and multipliers, a rejected iteration is repeated
with the same result until the threshold has been relaxed enough.  After `k` consecutive rejections the copies and multipliers
are those before the first of them. -/
theorem C25_rejections (o : AccOpt) (he : 0 < o.eta) (F : W → W → W × W × ℝ) (s : Acc W) (p : ℝ) (hp : s.cp = some p) (k : ℕ)
    (hrej : ∀ j < k, Spec.Rejected o (((fun s => accStep o s (F s.z s.l))^[j]) s) ((F s.z s.l).2.2)) :
    let r := ((fun s => accStep o s (F s.z s.l))^[k]) s
    r.z = s.z ∧ r.l = s.l ∧ F r.z r.l = F s.z s.l ∧ r.cp = some (p / o.eta ^ k) := by
  induction k with
  | zero => simp [hp]
  | succ k ih =>
    obtain ⟨h1, h2, h3, h4⟩ := ih fun j hj => hrej j (by omega)
    have hk := hrej k (by omega)
    simp only [Function.iterate_succ', Function.comp] at *
    generalize ((fun s => accStep o s (F s.z s.l))^[k]) s = r at *
    have hrr : Spec.Rejected o r (F r.z r.l).2.2 := by rw [h3]; exact hk
    obtain ⟨e1, e2, -, q, hq, hq'⟩ := C25_rejected o he r (F r.z r.l).1 (F r.z r.l).2.1 _ hrr
    simp only [Prod.mk.eta] at e1 e2 hq'
    refine ⟨e1.trans h1, e2.trans h2, by rw [e1, e2]; exact h3, ?_⟩
    rw [hq', Option.some.injEq]
    rw [h4] at hq
    rw [← Option.some.inj hq, pow_succ]
    field_simp

/-- A rejected iteration: the residual doubles in the second iteration. -/
example : let o : AccOpt := ⟨1 / 2, true, false⟩
    let s := accRun o (accInit (0 : ℝ) 0 0 0) [(1, 1, 3)]
    Spec.Rejected o s 6 ∧ (accStep o s (5, 7, 6)).z = 1 := by
  have he : (0 : ℝ) < (⟨1 / 2, true, false⟩ : AccOpt).eta := by norm_num
  obtain ⟨w, h0, -, hz, -, hw, hc⟩ := C25_extrapolates ⟨1 / 2, true, false⟩ he (0 : ℝ) 0 0 0 [] 1 1 3 (C25_first _ _ _ _ _ _)
  have hw0 : w = 0 := by rw [hw]; simp [accRun, accInit, Spec.param]
  have hr : Spec.Rejected ⟨1 / 2, true, false⟩ (accRun ⟨1 / 2, true, false⟩ (accInit (0 : ℝ) 0 0 0) [(1, 1, 3)]) 6 :=
    ⟨rfl, 3, hc, by norm_num⟩
  refine ⟨hr, ?_⟩
  rw [(C25_rejected _ he _ 5 7 6 hr).1]
  refine Eq.trans hz ?_
  rw [hw0]; simp

end Verif.ADMM
