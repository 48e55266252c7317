import Verif.ADMM.Ama
import Verif.ADMM.Accel
import Mathlib.Analysis.InnerProductSpace.Orthogonal
import Mathlib.Analysis.PSeries

/-! # The accelerated distributed iteration converges (C194) -/

set_option linter.unusedSectionVars false

namespace Verif.ADMM

open Matrix Filter Topology

variable {V m n : Type} [Fintype V] [DecidableEq V] [Fintype m] [Fintype n]
variable {E : Type} [AddCommGroup E] [Module ℝ E]
variable {nb : V → V → Prop} [∀ i j, Decidable (nb i j)]

/-! ## Model -/

/-- Copies (or multipliers) of all updaters: own ones and those for the neighbours. -/
abbrev Joint (V n : Type) := (V → n → ℝ) × (V → V → n → ℝ)

/-- The copies and multipliers with which the next iteration starts. All updaters have the same `alpha` and `c_res_p`, as they are all
given the same combined residual (admm.py:606-610). -/
def Acc.vars (a : Acc (Joint V n)) : Vars V n := ⟨a.z.1, a.l.1, a.z.2, a.l.2⟩

/-- `ADMMProblem.dual_update` with `nesterov_acceleration`, admm.py:584-612 (at the start of a knot interval): the updates of `Iterate`,
whose results are `s'`, then `accelerate` with the combined residual. -/
def AccIterate (P : Problem V m n E nb) (ρ : ℝ) (o : AccOpt) (a : Acc (Joint V n)) (y : V → E) (s' : Vars V n) (a' : Acc (Joint V n)) : Prop :=
  Iterate P ρ a.vars y s' ∧ a' = accStep o a ((s'.z, s'.zn), (s'.l, s'.ln), combined P ρ a.vars y s')

/-! ## Lemmas -/

section Abstract

variable {H : Type*} [NormedAddCommGroup H] [InnerProductSpace ℝ H]

/-- Two iterations in any space: what changes decreases. -/
theorem two_steps {a0 e0 a1 e1 : H} {ρ : ℝ} (h : inner ℝ (e1 + ρ • (a1 - a0)) (ρ • a1 + e1 - e0) ≤ 0) (ho : inner ℝ a1 e1 = 0) :
    ρ ^ 2 * ‖a1‖ ^ 2 + ‖e1‖ ^ 2 ≤ ρ ^ 2 * ‖a0‖ ^ 2 + ‖e0‖ ^ 2 := by
  have n1 : ‖ρ • a1 + e1‖ ^ 2 = ρ ^ 2 * ‖a1‖ ^ 2 + ‖e1‖ ^ 2 := by
    rw [norm_add_sq_real, inner_smul_left, ho, norm_smul, mul_pow, Real.norm_eq_abs, sq_abs]
    simp
  have n2 : ‖ρ • a0 + e0‖ ^ 2 = ρ ^ 2 * ‖a0‖ ^ 2 + ‖e0‖ ^ 2 + 2 * (ρ * inner ℝ a0 e0) := by
    rw [norm_add_sq_real, inner_smul_left, norm_smul, mul_pow, Real.norm_eq_abs, sq_abs, conj_trivial]
    ring
  have n3 : ‖ρ • a0 - e0‖ ^ 2 = ρ ^ 2 * ‖a0‖ ^ 2 + ‖e0‖ ^ 2 - 2 * (ρ * inner ℝ a0 e0) := by
    rw [norm_sub_sq_real, inner_smul_left, norm_smul, mul_pow, Real.norm_eq_abs, sq_abs, conj_trivial]
    ring
  have e : inner ℝ (e1 + ρ • (a1 - a0)) (ρ • a1 + e1 - e0) =
      ‖ρ • a1 + e1‖ ^ 2 - inner ℝ (ρ • a1 + e1) (ρ • a0 + e0) + ρ * inner ℝ a0 e0 := by
    have e1' : e1 + ρ • (a1 - a0) = (ρ • a1 + e1) - ρ • a0 := by module
    rw [e1', inner_sub_left, inner_sub_right, inner_sub_right, real_inner_self_eq_norm_sq, inner_add_right (ρ • a1 + e1),
      real_inner_comm (ρ • a1 + e1) (ρ • a0), inner_smul_left (x := a0) (y := e0), conj_trivial]
    ring
  have hcs := real_inner_le_norm (ρ • a1 + e1) (ρ • a0 + e0)
  rw [e] at h
  rw [← n1]
  set u := ‖ρ • a1 + e1‖
  set r := ‖ρ • a0 + e0‖
  set q := ‖ρ • a0 - e0‖
  have hq : 0 ≤ q := norm_nonneg _
  have h1 : (2 * u - r) ^ 2 ≤ q ^ 2 := by nlinarith
  have h2 := abs_le_of_sq_le_sq h1 hq
  have h3 : 2 * u ≤ r + q := by linarith [(abs_le.1 h2).2]
  have hu : 0 ≤ u := norm_nonneg _
  have h4 : (2 * u) ^ 2 ≤ (r + q) ^ 2 := pow_le_pow_left₀ (by linarith) h3 2
  nlinarith [sq_nonneg (r - q)]

/-- The step of the method is firmly nonexpansive in `ρ z + l`. -/
theorem firm {K : Submodule ℝ H} {ρ : ℝ} (hρ : 0 < ρ) {z z' l l' x : H} (hz : z ∈ Kᗮ) (hz' : z' ∈ Kᗮ) (hl : l ∈ K) (hl' : l' ∈ K)
    (hu : l' = l + ρ • (x - z')) (h : inner ℝ (l' + ρ • (z' - z)) x ≤ 0) :
    inner ℝ (ρ • z' + l') ((ρ • z' + l') - (ρ • z + l)) ≤ 0 := by
  have o : ∀ {a b : H}, a ∈ K → b ∈ Kᗮ → inner ℝ a b = 0 := fun ha hb => Submodule.inner_right_of_mem_orthogonal ha hb
  have o' : ∀ {a b : H}, a ∈ K → b ∈ Kᗮ → inner ℝ b a = 0 := fun ha hb => Submodule.inner_left_of_mem_orthogonal ha hb
  have hx : ρ • x = ρ • z' + (l' - l) := by rw [hu]; module
  have h1 := mul_nonpos_of_nonneg_of_nonpos hρ.le h
  rw [← real_inner_smul_right, hx] at h1
  have e : inner ℝ (l' + ρ • (z' - z)) (ρ • z' + (l' - l)) = inner ℝ (ρ • z' + l') ((ρ • z' + l') - (ρ • z + l)) := by
    have e1 : (ρ • z' + l') - (ρ • z + l) = ρ • (z' - z) + (l' - l) := by module
    have hd : z' - z ∈ Kᗮ := Kᗮ.sub_mem hz' hz
    have hm : l' - l ∈ K := K.sub_mem hl' hl
    rw [e1, inner_add_left, inner_add_left, inner_add_right, inner_add_right, inner_add_right, inner_add_right]
    simp only [inner_smul_left, inner_smul_right, o hl' hz', o' hm hd, o hl' hd, o' hm hz', real_inner_comm z' (z' - z)]
    ring
  rw [e] at h1
  exact h1

theorem norm_parts {K : Submodule ℝ H} {ρ : ℝ} {z l : H} (hz : z ∈ Kᗮ) (hl : l ∈ K) : ‖ρ • z + l‖ ^ 2 = ρ ^ 2 * ‖z‖ ^ 2 + ‖l‖ ^ 2 := by
  rw [norm_add_sq_real, inner_smul_left, Submodule.inner_left_of_mem_orthogonal hl hz, norm_smul, mul_pow, Real.norm_eq_abs, sq_abs]
  simp

/-- Relaxed steps: the distance to the solution, which is 0, decreases. -/
theorem relaxed_fejer {v v' w : H} {τ : ℝ} (h0 : 0 ≤ τ) (hsol : inner ℝ v' (v' - v) ≤ 0) (hw : w = v + τ • (v' - v)) :
    ‖w‖ ^ 2 + τ * (2 - τ) * ‖v' - v‖ ^ 2 ≤ ‖v‖ ^ 2 := by
  have e : inner ℝ v' (v' - v) = inner ℝ v (v' - v) + ‖v' - v‖ ^ 2 := by
    rw [← real_inner_self_eq_norm_sq, ← inner_add_left]
    congr 1
    abel
  rw [e] at hsol
  rw [hw, norm_add_sq_real, inner_smul_right, norm_smul, mul_pow, Real.norm_eq_abs, sq_abs]
  have := mul_le_mul_of_nonneg_left hsol h0
  linarith

/-- Relaxed steps: what the next one would change is not more. -/
theorem relaxed_residual {v v' w w' : H} {τ : ℝ} (h0 : 0 ≤ τ) (h2 : τ ≤ 2) (hw : w = v + τ • (v' - v))
    (hf : inner ℝ (w' - v') ((w' - v') - (w - v)) ≤ 0) : ‖w' - w‖ ^ 2 ≤ ‖v' - v‖ ^ 2 := by
  obtain ⟨d, hd⟩ : ∃ d, d = v' - v := ⟨_, rfl⟩
  obtain ⟨d', hd'⟩ : ∃ d', d' = w' - w := ⟨_, rfl⟩
  have e1 : w' - v' = d' + (τ - 1) • d := by
    have : w' - v' = d' + (w - v) - d := by rw [hd, hd']; abel
    rw [this, hw, ← hd]
    module
  have e2 : (w' - v') - (w - v) = d' - d := by rw [hd, hd']; abel
  rw [e2, e1] at hf
  rw [← hd, ← hd']
  rcases h0.eq_or_lt with rfl | hpos
  · have : d' + ((0 : ℝ) - 1) • d = d' - d := by module
    rw [this, real_inner_self_eq_norm_sq] at hf
    have h3 : ‖d' - d‖ = 0 := by
      have := sq_nonneg ‖d' - d‖
      exact pow_eq_zero_iff (two_ne_zero) |>.1 (le_antisymm hf this)
    rw [norm_eq_zero, sub_eq_zero] at h3
    rw [h3]
  · have h3 : inner ℝ (d' + (τ - 1) • d) (d' - d) = ‖d'‖ ^ 2 - (2 - τ) * inner ℝ d' d - (τ - 1) * ‖d‖ ^ 2 := by
      rw [inner_add_left, inner_sub_right, inner_sub_right, inner_smul_left, inner_smul_left, real_inner_self_eq_norm_sq,
        real_inner_self_eq_norm_sq, conj_trivial, real_inner_comm d d']
      ring
    rw [h3] at hf
    have h4 := norm_sub_sq_real d' d
    have h5 := sq_nonneg ‖d' - d‖
    have h6 : inner ℝ d' d ≤ (‖d'‖ ^ 2 + ‖d‖ ^ 2) / 2 := by linarith
    have h7 := mul_le_mul_of_nonneg_left h6 (show 0 ≤ 2 - τ by linarith)
    have h8 : 0 ≤ τ / 2 * (‖d‖ ^ 2 - ‖d'‖ ^ 2) := by linarith
    have := nonneg_of_mul_nonneg_right h8 (by linarith)
    linarith

end Abstract

theorem pair_slope (P : Problem V m n E nb) (hsym : ∀ i j, nb i j → nb j i) (hf : ∀ i, ConvexOn ℝ (P.C i) (P.f i)) {ρ : ℝ}
    {s s' t t' : Vars V n} {y u : V → E} (h : Iterate P ρ s y s') (g : Iterate P ρ t u t') :
    inner ℝ ((vec nb s'.l s'.ln + ρ • (vec nb s'.z s'.zn - vec nb s.z s.zn)) - (vec nb t'.l t'.ln + ρ • (vec nb t'.z t'.zn - vec nb t.z t.zn)))
      (plans P y - plans P u) ≤ 0 := by
  have h1 := iterate_slope P hsym hf h fun i => (g.1 i).1
  have h2 := iterate_slope P hsym hf g fun i => (h.1 i).1
  have e1 : vec nb s.l s.ln + ρ • (plans P y - vec nb s.z s.zn) = vec nb s'.l s'.ln + ρ • (vec nb s'.z s'.zn - vec nb s.z s.zn) := by
    rw [iterate_l P h.2]; module
  have e2 : vec nb t.l t.ln + ρ • (plans P u - vec nb t.z t.zn) = vec nb t'.l t'.ln + ρ • (vec nb t'.z t'.zn - vec nb t.z t.zn) := by
    rw [iterate_l P g.2]; module
  rw [e1, ← neg_sub (plans P y), inner_neg_right] at h1
  rw [e2] at h2
  rw [inner_sub_left]
  linarith

/-- The combined residual of an iteration that starts where the previous one ended. -/
theorem residual_le (P : Problem V m n E nb) (hsym : ∀ i j, nb i j → nb j i) (hf : ∀ i, ConvexOn ℝ (P.C i) (P.f i)) {ρ : ℝ}
    (hρ : 0 < ρ) {s s' s'' : Vars V n} {y y' : V → E} (h : Iterate P ρ s y s') (h' : Iterate P ρ s' y' s'') :
    combined P ρ s' y' s'' ≤ combined P ρ s y s' := by
  have h1 := pair_slope P hsym hf h' h
  have l0 := iterate_l P h.2
  have l1 := iterate_l P h'.2
  have ho : inner ℝ (vec nb s''.z s''.zn - vec nb s'.z s'.zn) (vec nb s''.l s''.ln - vec nb s'.l s'.ln) = 0 := by
    rw [real_inner_comm, inner_sub_left, multipliers_flat P hρ h'.2 (iterate_coupled P h'.2) (iterate_coupled P h.2),
      multipliers_flat P hρ h.2 (iterate_coupled P h'.2) (iterate_coupled P h.2), sub_zero]
  rw [combined_eq, combined_eq]
  generalize vec nb s.l s.ln = L at l0
  generalize vec nb s.z s.zn = Z at h1 ⊢
  generalize vec nb s'.l s'.ln = L' at l0 l1 h1 ho
  generalize vec nb s'.z s'.zn = Z' at l0 h1 ho ⊢
  generalize vec nb s''.l s''.ln = L'' at l1 h1 ho
  generalize vec nb s''.z s''.zn = Z'' at l1 h1 ho ⊢
  generalize plans P y = X at l0 h1 ⊢
  generalize plans P y' = X' at l1 h1 ⊢
  have e0 : L' - L = ρ • (X - Z') := by rw [l0]; abel
  have e1 : L'' - L' = ρ • (X' - Z'') := by rw [l1]; abel
  have key := two_steps (a0 := Z' - Z) (e0 := L' - L) (a1 := Z'' - Z') (e1 := L'' - L') (ρ := ρ) (by
    have e2 : ρ • (Z'' - Z') + (L'' - L') - (L' - L) = ρ • (X' - X) := by rw [e0, e1]; module
    have e3 : L'' - L' + ρ • ((Z'' - Z') - (Z' - Z)) = (L'' + ρ • (Z'' - Z')) - (L' + ρ • (Z' - Z)) := by module
    rw [e2, e3, inner_smul_right]
    exact mul_nonpos_of_nonneg_of_nonpos hρ.le h1) ho
  rw [e0, e1, norm_smul, norm_smul, mul_pow, mul_pow, Real.norm_eq_abs, sq_abs] at key
  have h2 : 0 ≤ ρ ^ 2 * ((‖X - Z'‖ ^ 2 + ‖Z' - Z‖ ^ 2) - (‖X' - Z''‖ ^ 2 + ‖Z'' - Z'‖ ^ 2)) := by linarith
  have h3 := nonneg_of_mul_nonneg_right h2 (pow_pos hρ 2)
  exact mul_le_mul_of_nonneg_left (by linarith) hρ.le

theorem nextAlpha_le (a : ℝ) (ha : 0 ≤ a) : nextAlpha a ≤ a + 1 := by
  have : √(1 + 4 * a ^ 2) ≤ 1 + 2 * a := by
    rw [Real.sqrt_le_left (by linarith)]
    nlinarith
  unfold nextAlpha
  linarith

/-- What `accelerate` does to a state, as a relaxed step. -/
theorem accStep_relaxed (o : AccOpt) (he : 0 < o.eta) (ha : o.ama = false) {W : Type} [AddCommGroup W] [Module ℝ W] (a : Acc W) (z' l' : W)
    (c : ℝ) :
    (∃ p, a.cp = some p ∧ o.eta * p < c ∧ (accStep o a (z', l', c)).z = a.z ∧ (accStep o a (z', l', c)).l = a.l ∧
      Spec.param (accStep o a (z', l', c)) = 1 ∧ (accStep o a (z', l', c)).cp = some (1 / o.eta * p)) ∨
    ((∀ p, a.cp = some p → o.reset = true → c ≤ o.eta * p) ∧
      (accStep o a (z', l', c)).z = z' + ((Spec.param a - 1) / nextAlpha (Spec.param a)) • (z' - a.z) ∧
      (accStep o a (z', l', c)).l = l' + ((Spec.param a - 1) / nextAlpha (Spec.param a)) • (l' - a.l) ∧
      Spec.param (accStep o a (z', l', c)) = nextAlpha (Spec.param a) ∧ (accStep o a (z', l', c)).cp = some c) := by
  rcases accelerate_cases o c { a with zp := a.z, lp := a.l, z := z', l := l' } he with ⟨⟨-, q, hq, hlt⟩, p, hp, e⟩ | ⟨hr, e⟩
  · left
    obtain rfl := Option.some.inj (hq.symm.trans hp)
    refine ⟨q, hp, hlt, ?_⟩
    unfold accStep
    rw [e]
    exact ⟨rfl, rfl, rfl, rfl⟩
  · right
    refine ⟨fun p hp hres => ?_, ?_⟩
    · by_contra hcon
      exact hr ⟨hres, p, hp, not_le.1 hcon⟩
    · unfold accStep
      simp only
      rw [e]
      simp [momentum, ha, Spec.param]

/-- The relaxation of step `k` of a run. -/
noncomputable def relaxation (o : AccOpt) (a : Acc (Joint V n)) (c : ℝ) : ℝ :=
  open Classical in if Spec.Rejected o a c then 0 else 1 + (Spec.param a - 1) / nextAlpha (Spec.param a)

/-- A run of the accelerated iteration in which the first plans may be any. -/
structure AccRun (P : Problem V m n E nb) (ρ : ℝ) (o : AccOpt) (a : ℕ → Acc (Joint V n)) (y : ℕ → V → E) (s' : ℕ → Vars V n) : Prop where
  copies : ∀ k, Copies P ρ (a k).vars (y k) (s' k)
  next : ∀ k i, XUpdate P ρ (a (k + 1)).vars i (y (k + 1) i)
  acc : ∀ k, a (k + 1) = accStep o (a k) (((s' k).z, (s' k).zn), ((s' k).l, (s' k).ln), combined P ρ (a k).vars (y k) (s' k))

theorem AccRun.iterate {P : Problem V m n E nb} {ρ : ℝ} {o : AccOpt} {a : ℕ → Acc (Joint V n)} {y : ℕ → V → E} {s' : ℕ → Vars V n}
    (h : AccRun P ρ o a y s') (k : ℕ) : Iterate P ρ (a (k + 1)).vars (y (k + 1)) (s' (k + 1)) := ⟨h.next k, h.copies (k + 1)⟩

theorem AccRun.of {P : Problem V m n E nb} {ρ : ℝ} {o : AccOpt} {a : ℕ → Acc (Joint V n)} {y : ℕ → V → E} {s' : ℕ → Vars V n}
    (h : ∀ k, AccIterate P ρ o (a k) (y k) (s' k) (a (k + 1))) : AccRun P ρ o a y s' :=
  ⟨fun k => (h k).1.2, fun k => (h (k + 1)).1.1, fun k => (h k).2⟩

section Run

variable {P : Problem V m n E nb} {ρ : ℝ} {o : AccOpt} {a : ℕ → Acc (Joint V n)} {y : ℕ → V → E} {s' : ℕ → Vars V n}
variable {ys : V → E} {p : V → n → ℝ} {pn : V → V → n → ℝ}

/-- Copies, multipliers, and their new values, as vectors; the former relative to the solution. -/
noncomputable def zs (P : Problem V m n E nb) (ys : V → E) (s : Vars V n) : EuclideanSpace ℝ (Ix V n nb) := vec nb s.z s.zn - plans P ys
noncomputable def ls (p : V → n → ℝ) (pn : V → V → n → ℝ) (nb : V → V → Prop) [∀ i j, Decidable (nb i j)] (s : Vars V n) :
    EuclideanSpace ℝ (Ix V n nb) := vec nb s.l s.ln - vec nb p pn

theorem acc_relaxed (he : 0 < o.eta) (ha : o.ama = false) (h : AccRun P ρ o a y s') (k : ℕ) :
    vec nb (a (k + 1)).vars.z (a (k + 1)).vars.zn = vec nb (a k).vars.z (a k).vars.zn +
      relaxation o (a k) (combined P ρ (a k).vars (y k) (s' k)) • (vec nb (s' k).z (s' k).zn - vec nb (a k).vars.z (a k).vars.zn) ∧
    vec nb (a (k + 1)).vars.l (a (k + 1)).vars.ln = vec nb (a k).vars.l (a k).vars.ln +
      relaxation o (a k) (combined P ρ (a k).vars (y k) (s' k)) • (vec nb (s' k).l (s' k).ln - vec nb (a k).vars.l (a k).vars.ln) := by
  rw [(h.acc k)]
  generalize combined P ρ (a k).vars (y k) (s' k) = c
  unfold relaxation
  rcases accelerate_cases o c { a k with zp := (a k).z, lp := (a k).l, z := ((s' k).z, (s' k).zn), l := ((s' k).l, (s' k).ln) } he with ⟨hr, q, -, e⟩ | ⟨hr, e⟩
  · rw [if_pos (show Spec.Rejected o (a k) c from hr)]
    unfold accStep
    rw [e]
    simp [Acc.vars]
  · rw [if_neg (show ¬ Spec.Rejected o (a k) c from hr)]
    unfold accStep
    rw [e]
    simp only [momentum, ha, Acc.vars, Bool.false_eq_true, if_false, Spec.param]
    constructor <;>
    · rw [vec_sub, vec_smul, vec_add]
      refine congrArg₂ (vec nb) ?_ ?_
      · funext i
        simp only [Prod.fst_add, Prod.smul_fst, Prod.fst_sub, Pi.add_apply, Pi.smul_apply, Pi.sub_apply]
        module
      · funext i j
        simp only [Prod.snd_add, Prod.smul_snd, Prod.snd_sub, Pi.add_apply, Pi.smul_apply, Pi.sub_apply]
        module

/-- The momentum parameter after `k` steps. -/
theorem acc_param (he : 0 < o.eta) (ha : o.ama = false) (h0 : (a 0).alpha = none) (h : AccRun P ρ o a y s') (k : ℕ) :
    1 ≤ Spec.param (a k) ∧ Spec.param (a k) ≤ k + 1 := by
  induction k with
  | zero => simp [Spec.param, h0]
  | succ k ih =>
    rw [(h.acc k)]
    have hk : (0 : ℝ) ≤ k := k.cast_nonneg
    rcases accStep_relaxed o he ha (a k) ((s' k).z, (s' k).zn) ((s' k).l, (s' k).ln) (combined P ρ (a k).vars (y k) (s' k)) with
      ⟨q, -, -, -, -, e, -⟩ | ⟨-, -, -, e, -⟩
    · rw [e]
      push_cast
      constructor <;> linarith
    · rw [e]
      have h1 := nextAlpha_le _ (zero_le_one.trans ih.1)
      have h2 := nextAlpha_ge _ (zero_le_one.trans ih.1)
      push_cast
      constructor <;> linarith

theorem relaxation_range (he : 0 < o.eta) (ha : o.ama = false) (h0 : (a 0).alpha = none) (h : AccRun P ρ o a y s')
    (k : ℕ) (c : ℝ) : 0 ≤ relaxation o (a k) c ∧ relaxation o (a k) c ≤ 2 ∧
      (¬ Spec.Rejected o (a k) c → 1 / ((k : ℝ) + 2) ≤ relaxation o (a k) c * (2 - relaxation o (a k) c)) := by
  obtain ⟨h1, h2⟩ := acc_param he ha h0 h k
  have g1 := nextAlpha_le _ (zero_le_one.trans h1)
  have g2 := nextAlpha_gt (Spec.param (a k)) (zero_le_one.trans h1)
  unfold relaxation
  generalize Spec.param (a k) = α at *
  generalize nextAlpha α = α' at *
  have hα : 0 < α' := by linarith
  have b0 : 0 ≤ (α - 1) / α' := div_nonneg (by linarith) hα.le
  have b1 : (α - 1) / α' ≤ 1 := by rw [div_le_one hα]; linarith
  split
  · next hr => exact ⟨le_rfl, by norm_num, fun hn => absurd hr hn⟩
  · refine ⟨by linarith, by linarith, fun _ => ?_⟩
    have hk : (0 : ℝ) ≤ k := k.cast_nonneg
    have b2 : 1 / ((k : ℝ) + 2) ≤ 1 - (α - 1) / α' := by
      rw [one_sub_div hα.ne', div_le_div_iff₀ (by linarith) hα]
      nlinarith
    nlinarith

/-- The first step is an iteration without acceleration. -/
theorem acc_first (he : 0 < o.eta) (ha : o.ama = false) (h0 : (a 0).alpha = none) (h0' : (a 0).cp = none)
    (h : AccRun P ρ o a y s') : (a 1).vars = s' 0 := by
  have e := (h.acc 0)
  rcases accStep_relaxed o he ha (a 0) ((s' 0).z, (s' 0).zn) ((s' 0).l, (s' 0).ln) (combined P ρ (a 0).vars (y 0) (s' 0)) with
    ⟨q, hq, -⟩ | ⟨-, e1, e2, -⟩
  · rw [h0'] at hq
    cases hq
  · rw [← e] at e1 e2
    have hp : Spec.param (a 0) = 1 := by simp [Spec.param, h0]
    rw [hp, sub_self, zero_div, zero_smul, add_zero] at e1 e2
    unfold Acc.vars
    rw [show (a 1).z = _ from e1, show (a 1).l = _ from e2]

/-- The multipliers and prices span a space orthogonal to the differences of the copies. -/
theorem acc_space (hρ : 0 < ρ) (hp : Spec.Prices P ys p pn) (he : 0 < o.eta) (ha : o.ama = false) (h0 : (a 0).alpha = none)
    (h0' : (a 0).cp = none) (h : AccRun P ρ o a y s') :
    ∃ K : Submodule ℝ (EuclideanSpace ℝ (Ix V n nb)), ∀ k, zs P ys (s' k) ∈ Kᗮ ∧ ls p pn nb (s' k) ∈ K ∧
      zs P ys (a (k + 1)).vars ∈ Kᗮ ∧ ls p pn nb (a (k + 1)).vars ∈ K := by
  let K : Submodule ℝ (EuclideanSpace ℝ (Ix V n nb)) :=
    Submodule.span ℝ (Set.range (fun k => vec nb (s' k).l (s' k).ln) ∪ {vec nb p pn})
  have hpK : vec nb p pn ∈ K := Submodule.subset_span (Or.inr rfl)
  have hlK : ∀ k, vec nb (s' k).l (s' k).ln ∈ K := fun k => Submodule.subset_span (Or.inl ⟨k, rfl⟩)
  have hl' : ∀ k, ls p pn nb (s' k) ∈ K := fun k => K.sub_mem (hlK k) hpK
  have hzs : ∀ i, Spec.Coupled (P.A i) (P.b i) (P.S i (ys i)) (fun q => P.S q.1 (ys q.1) q.2) := fun i => (hp.feasible i).2
  have hz' : ∀ k, zs P ys (s' k) ∈ Kᗮ := by
    intro k
    rw [Submodule.mem_orthogonal]
    intro u hu
    induction hu using Submodule.span_induction with
    | mem u hu =>
      rcases hu with ⟨j, rfl⟩ | hu
      · exact multipliers_flat P hρ (h.copies j) (iterate_coupled P (h.copies k)) hzs
      · rw [Set.mem_singleton_iff.1 hu]
        exact prices_flat hp (iterate_coupled P (h.copies k))
    | zero => exact inner_zero_left _
    | add u w _ _ hu hw => rw [inner_add_left, hu, hw, add_zero]
    | smul r u _ hu => rw [inner_smul_left, hu, mul_zero]
  refine ⟨K, fun k => ⟨hz' k, hl' k, ?_⟩⟩
  induction k with
  | zero => rw [acc_first he ha h0 h0' h]; exact ⟨hz' 0, hl' 0⟩
  | succ k ih =>
    obtain ⟨e1, e2⟩ := acc_relaxed he ha h (k + 1)
    generalize relaxation o (a (k + 1)) _ = τ at e1 e2
    constructor
    · have : zs P ys (a (k + 1 + 1)).vars = zs P ys (a (k + 1)).vars + τ • (zs P ys (s' (k + 1)) - zs P ys (a (k + 1)).vars) := by
        unfold zs
        rw [e1]
        module
      rw [this]
      exact Kᗮ.add_mem ih.1 (Kᗮ.smul_mem _ (Kᗮ.sub_mem (hz' _) ih.1))
    · have : ls p pn nb (a (k + 1 + 1)).vars = ls p pn nb (a (k + 1)).vars + τ • (ls p pn nb (s' (k + 1)) - ls p pn nb (a (k + 1)).vars) := by
        unfold ls
        rw [e2]
        module
      rw [this]
      exact K.add_mem ih.2 (K.smul_mem _ (K.sub_mem (hl' _) ih.2))

/-- One step of a run, after the first one. -/
theorem acc_step (hsym : ∀ i j, nb i j → nb j i) (hf : ∀ i, ConvexOn ℝ (P.C i) (P.f i)) (hρ : 0 < ρ) (hp : Spec.Prices P ys p pn)
    (he : 0 < o.eta) (ha : o.ama = false) (h0 : (a 0).alpha = none)
    (h0' : (a 0).cp = none) (h : AccRun P ρ o a y s') (k : ℕ) :
    let c := fun k => combined P ρ (a k).vars (y k) (s' k)
    let τ := relaxation o (a (k + 1)) (c (k + 1))
    Spec.gap P ρ ys p pn (a (k + 2)).vars + τ * (2 - τ) * c (k + 1) ≤ Spec.gap P ρ ys p pn (a (k + 1)).vars ∧
    c (k + 2) ≤ c (k + 1) ∧ Spec.gap P ρ ys p pn (s' (k + 1)) ≤ Spec.gap P ρ ys p pn (a (k + 1)).vars := by
  intro c τ
  obtain ⟨K, hK⟩ := acc_space hρ hp he ha h0 h0' h
  have hτ := relaxation_range he ha h0 h (k + 1) (c (k + 1))
  change 0 ≤ τ ∧ τ ≤ 2 ∧ _ at hτ
  -- the joint vector
  let v : Vars V n → EuclideanSpace ℝ (Ix V n nb) := fun s => ρ • zs P ys s + ls p pn nb s
  have hgap : ∀ s : Vars V n, zs P ys s ∈ Kᗮ → ls p pn nb s ∈ K → Spec.gap P ρ ys p pn s = ‖v s‖ ^ 2 / ρ := by
    intro s h1 h2
    rw [gap_eq, norm_parts h1 h2]
    unfold zs ls
    field_simp
  have hcomb : ∀ j, c (j + 1) = ‖v (s' (j + 1)) - v (a (j + 1)).vars‖ ^ 2 / ρ := by
    intro j
    have e : v (s' (j + 1)) - v (a (j + 1)).vars =
        ρ • (zs P ys (s' (j + 1)) - zs P ys (a (j + 1)).vars) + (ls p pn nb (s' (j + 1)) - ls p pn nb (a (j + 1)).vars) := by
      simp only [v]; module
    rw [e, norm_parts (Kᗮ.sub_mem (hK _).1 (hK j).2.2.1) (K.sub_mem (hK _).2.1 (hK j).2.2.2)]
    have e1 : ls p pn nb (s' (j + 1)) - ls p pn nb (a (j + 1)).vars = ρ • (plans P (y (j + 1)) - vec nb (s' (j + 1)).z (s' (j + 1)).zn) := by
      unfold ls
      rw [iterate_l P (h.copies (j + 1))]
      module
    have e2 : zs P ys (s' (j + 1)) - zs P ys (a (j + 1)).vars =
        vec nb (s' (j + 1)).z (s' (j + 1)).zn - vec nb (a (j + 1)).vars.z (a (j + 1)).vars.zn := by
      unfold zs; abel
    rw [e1, e2, norm_smul, mul_pow, Real.norm_eq_abs, sq_abs]
    simp only [c]
    rw [combined_eq]
    field_simp
    ring
  have hrel : v (a (k + 2)).vars = v (a (k + 1)).vars + τ • (v (s' (k + 1)) - v (a (k + 1)).vars) := by
    obtain ⟨e1, e2⟩ := acc_relaxed he ha h (k + 1)
    change _ = _ + τ • _ at e1
    change _ = _ + τ • _ at e2
    simp only [v, zs, ls]
    rw [e1, e2]
    module
  have hsol : inner ℝ (v (s' (k + 1))) (v (s' (k + 1)) - v (a (k + 1)).vars) ≤ 0 := by
    refine firm (x := plans P (y (k + 1)) - plans P ys) hρ (hK k).2.2.1 (hK (k + 1)).1 (hK k).2.2.2 (hK (k + 1)).2.1 ?_ ?_
    · unfold zs ls
      rw [iterate_l P (h.copies (k + 1))]
      module
    · have h1 := iterate_slope P hsym hf (h.iterate k) fun i => (hp.feasible i).1
      have h2 := prices_le P hp (fun i => ((h.next k i).1)) (h.copies (k + 1))
      have h3 := prices_flat hp (iterate_coupled P (h.copies (k + 1)))
      have h4 := iterate_l P (h.copies (k + 1))
      unfold zs ls
      generalize vec nb (s' (k + 1)).l (s' (k + 1)).ln = L' at *
      generalize vec nb (s' (k + 1)).z (s' (k + 1)).zn = Z' at *
      generalize vec nb (a (k + 1)).vars.l (a (k + 1)).vars.ln = L at *
      generalize vec nb (a (k + 1)).vars.z (a (k + 1)).vars.zn = Z at *
      generalize plans P (y (k + 1)) = X at *
      generalize plans P ys = xs at *
      generalize vec nb p pn = q at *
      have e1 : L + ρ • (X - Z) = L' + ρ • (Z' - Z) := by rw [h4]; module
      have e2 : L' - q + ρ • (Z' - xs - (Z - xs)) = (L' + ρ • (Z' - Z)) - q := by module
      rw [e1, ← neg_sub X, inner_neg_right] at h1
      rw [e2, inner_sub_left]
      have e3 : inner ℝ q (X - xs) = inner ℝ q (X - Z') := by
        have : X - xs = (X - Z') + (Z' - xs) := by abel
        rw [this, inner_add_right, h3, add_zero]
      linarith
  have hpair : inner ℝ (v (s' (k + 2)) - v (s' (k + 1))) ((v (s' (k + 2)) - v (s' (k + 1))) - (v (a (k + 2)).vars - v (a (k + 1)).vars)) ≤ 0 := by
    have e : ∀ s t : Vars V n, v s - v t = ρ • (zs P ys s - zs P ys t) + (ls p pn nb s - ls p pn nb t) := fun s t => by
      simp only [v]; module
    rw [e, e]
    refine firm (x := plans P (y (k + 2)) - plans P (y (k + 1))) hρ (Kᗮ.sub_mem (hK (k + 1)).2.2.1 (hK k).2.2.1)
      (Kᗮ.sub_mem (hK (k + 2)).1 (hK (k + 1)).1) (K.sub_mem (hK (k + 1)).2.2.2 (hK k).2.2.2) (K.sub_mem (hK (k + 2)).2.1 (hK (k + 1)).2.1) ?_ ?_
    · unfold zs ls
      rw [iterate_l P (h.copies (k + 1)), iterate_l P (h.copies (k + 2))]
      module
    · have h1 := pair_slope P hsym hf (h.iterate (k + 1)) (h.iterate k)
      unfold zs ls
      refine le_of_eq_of_le (congrArg₂ _ ?_ rfl) h1
      module
  refine ⟨?_, ?_, ?_⟩
  · rw [hgap _ (hK (k + 1)).2.2.1 (hK (k + 1)).2.2.2, hgap _ (hK k).2.2.1 (hK k).2.2.2, hcomb, ← mul_div_assoc, ← add_div]
    exact div_le_div_of_nonneg_right (relaxed_fejer hτ.1 hsol hrel) hρ.le
  · rw [show c (k + 2) = _ from hcomb (k + 1), hcomb k]
    exact div_le_div_of_nonneg_right (relaxed_residual hτ.1 hτ.2.1 hrel hpair) hρ.le
  · rw [hgap _ (hK (k + 1)).1 (hK (k + 1)).2.1, hgap _ (hK k).2.2.1 (hK k).2.2.2]
    refine div_le_div_of_nonneg_right ?_ hρ.le
    have := relaxed_fejer (τ := 1) (by norm_num) hsol (w := v (s' (k + 1))) (by module)
    have h2 := sq_nonneg ‖v (s' (k + 1)) - v (a (k + 1)).vars‖
    linarith

/-- No two steps in a row are rejected, once one is known whose residual is at most the one remembered after it. -/
theorem acc_rejected (hρ : 0 < ρ) (he : 0 < o.eta) (he1 : o.eta ≤ 1) (ha : o.ama = false) (h : AccRun P ρ o a y s') {M : ℕ}
    (hM : ∀ q, (a (M + 1)).cp = some q → combined P ρ (a M).vars (y M) (s' M) ≤ q)
    (hanti : ∀ k, M ≤ k → combined P ρ (a (k + 1)).vars (y (k + 1)) (s' (k + 1)) ≤ combined P ρ (a k).vars (y k) (s' k)) (k : ℕ) (hk : M ≤ k)
    (hr : Spec.Rejected o (a (k + 1)) (combined P ρ (a (k + 1)).vars (y (k + 1)) (s' (k + 1)))) :
    ¬ Spec.Rejected o (a (k + 2)) (combined P ρ (a (k + 2)).vars (y (k + 2)) (s' (k + 2))) := by
  have inv : ∀ k, M ≤ k → ∀ q, (a (k + 1)).cp = some q → combined P ρ (a k).vars (y k) (s' k) ≤ q := by
    intro k hk
    induction k, hk using Nat.le_induction with
    | base => exact hM
    | succ k hk ih =>
      intro q hq
      rcases accStep_relaxed o he ha (a (k + 1)) ((s' (k + 1)).z, (s' (k + 1)).zn) ((s' (k + 1)).l, (s' (k + 1)).ln)
        (combined P ρ (a (k + 1)).vars (y (k + 1)) (s' (k + 1))) with ⟨r, hr, -, -, -, -, e⟩ | ⟨-, -, -, -, e⟩
      · rw [h.acc (k + 1), e] at hq
        rw [← Option.some.inj hq]
        have h1 := ih r hr
        have h2 := hanti k hk
        have h3 := combined_nonneg P hρ (a k).vars (s' k) (y k)
        have h4 : 1 ≤ 1 / o.eta := by rw [le_div_iff₀ he]; linarith
        nlinarith
      · rw [h.acc (k + 1), e] at hq
        exact (Option.some.inj hq).le
  obtain ⟨hres, q, hq, hlt⟩ := hr
  rintro ⟨-, r, hr, hlt'⟩
  rcases accStep_relaxed o he ha (a (k + 1)) ((s' (k + 1)).z, (s' (k + 1)).zn) ((s' (k + 1)).l, (s' (k + 1)).ln)
      (combined P ρ (a (k + 1)).vars (y (k + 1)) (s' (k + 1))) with ⟨r', hr', -, -, -, -, e⟩ | ⟨hacc, -⟩
  · obtain rfl := Option.some.inj (hr'.symm.trans hq)
    rw [show k + 2 = k + 1 + 1 from rfl, h.acc (k + 1), e] at hr
    rw [← Option.some.inj hr, ← mul_assoc, mul_one_div_cancel he.ne', one_mul] at hlt'
    have h1 := inv k hk r' hq
    have h2 := hanti (k + 1) (by omega)
    have h3 := hanti k hk
    simp only [show k + 1 + 1 = k + 2 from rfl] at h2
    linarith
  · exact absurd (hacc q hq hres) (not_le.2 hlt)

/-- The residual times a sum of weights. -/
theorem acc_bound (hsym : ∀ i j, nb i j → nb j i) (hf : ∀ i, ConvexOn ℝ (P.C i) (P.f i)) (hρ : 0 < ρ) (hp : Spec.Prices P ys p pn)
    (he : 0 < o.eta) (ha : o.ama = false) (h0 : (a 0).alpha = none) (h0' : (a 0).cp = none) (h : AccRun P ρ o a y s') {M : ℕ}
    (hrej : ∀ k, M ≤ k → Spec.Rejected o (a (k + 1)) (combined P ρ (a (k + 1)).vars (y (k + 1)) (s' (k + 1))) →
      ¬ Spec.Rejected o (a (k + 2)) (combined P ρ (a (k + 2)).vars (y (k + 2)) (s' (k + 2)))) (N : ℕ) :
    combined P ρ (a (M + 2 * N + 1)).vars (y (M + 2 * N + 1)) (s' (M + 2 * N + 1)) * ∑ j ∈ Finset.range N, 1 / ((M : ℝ) + 2 * j + 4) ≤
      Spec.gap P ρ ys p pn (a (M + 1)).vars := by
  have hanti : Antitone fun k => combined P ρ (a (k + 1)).vars (y (k + 1)) (s' (k + 1)) :=
    antitone_nat_of_succ_le fun k => (acc_step hsym hf hρ hp he ha h0 h0' h k).2.1
  have hn := combined_nonneg P hρ (a (M + 2 * N + 1)).vars (s' (M + 2 * N + 1)) (y (M + 2 * N + 1))
  have hle : ∀ k ≤ M + 2 * N, combined P ρ (a (M + 2 * N + 1)).vars (y (M + 2 * N + 1)) (s' (M + 2 * N + 1)) ≤
    combined P ρ (a (k + 1)).vars (y (k + 1)) (s' (k + 1)) := fun k hk => hanti hk
  generalize combined P ρ (a (M + 2 * N + 1)).vars (y (M + 2 * N + 1)) (s' (M + 2 * N + 1)) = c at *
  have key : ∀ L ≤ N, Spec.gap P ρ ys p pn (a (M + 2 * L + 1)).vars + c * ∑ j ∈ Finset.range L, 1 / ((M : ℝ) + 2 * j + 4) ≤
      Spec.gap P ρ ys p pn (a (M + 1)).vars := by
    intro L
    induction L with
    | zero => intro _; simp
    | succ L ih =>
      intro hL
      have ih := ih (by omega)
      have e : M + 2 * (L + 1) + 1 = M + 2 * L + 3 := by ring
      rw [e, Finset.sum_range_succ, mul_add c]
      have s1 := (acc_step hsym hf hρ hp he ha h0 h0' h (M + 2 * L)).1
      have s2 := (acc_step hsym hf hρ hp he ha h0 h0' h (M + 2 * L + 1)).1
      have r1 := relaxation_range he ha h0 h (M + 2 * L + 1) (combined P ρ (a (M + 2 * L + 1)).vars (y (M + 2 * L + 1)) (s' (M + 2 * L + 1)))
      have r2 := relaxation_range he ha h0 h (M + 2 * L + 2) (combined P ρ (a (M + 2 * L + 2)).vars (y (M + 2 * L + 2)) (s' (M + 2 * L + 2)))
      have m1 := hle (M + 2 * L) (by omega)
      have m2 := hle (M + 2 * L + 1) (by omega)
      have hj := hrej (M + 2 * L) (by omega)
      simp only [show M + 2 * L + 1 + 1 = M + 2 * L + 2 from rfl, show M + 2 * L + 1 + 2 = M + 2 * L + 3 from rfl] at s1 s2 m1 m2
      generalize relaxation o (a (M + 2 * L + 1)) _ = τ1 at *
      generalize relaxation o (a (M + 2 * L + 2)) _ = τ2 at *
      generalize combined P ρ (a (M + 2 * L + 1)).vars (y (M + 2 * L + 1)) (s' (M + 2 * L + 1)) = c1 at *
      generalize combined P ρ (a (M + 2 * L + 2)).vars (y (M + 2 * L + 2)) (s' (M + 2 * L + 2)) = c2 at *
      push_cast at r1 r2
      have w1 := mul_nonneg r1.1 (sub_nonneg.2 r1.2.1)
      have w2 := mul_nonneg r2.1 (sub_nonneg.2 r2.2.1)
      have hL0 : (0 : ℝ) ≤ L := L.cast_nonneg
      have hM0 : (0 : ℝ) ≤ M := M.cast_nonneg
      have n1 := mul_nonneg w1 (hn.trans m1)
      have n2 := mul_nonneg w2 (hn.trans m2)
      by_cases hr : Spec.Rejected o (a (M + 2 * L + 1)) c1
      · have w := r2.2.2 (hj hr)
        have e : (M : ℝ) + 2 * L + 2 + 2 = M + 2 * L + 4 := by ring
        rw [e] at w
        have : c * (1 / ((M : ℝ) + 2 * L + 4)) ≤ τ2 * (2 - τ2) * c2 := by
          rw [mul_comm]
          exact mul_le_mul w m2 hn w2
        linarith
      · have w := r1.2.2 hr
        have w' : 1 / ((M : ℝ) + 2 * L + 4) ≤ τ1 * (2 - τ1) :=
          (one_div_le_one_div_of_le (by linarith) (by linarith)).trans w
        have : c * (1 / ((M : ℝ) + 2 * L + 4)) ≤ τ1 * (2 - τ1) * c1 := by
          rw [mul_comm]
          exact mul_le_mul w' m1 hn w1
        linarith
  have := key N le_rfl
  have h2 := gap_nonneg P hρ ys p pn (a (M + 2 * N + 1)).vars
  linarith

theorem acc_gap_antitone (hsym : ∀ i j, nb i j → nb j i) (hf : ∀ i, ConvexOn ℝ (P.C i) (P.f i)) (hρ : 0 < ρ) (hp : Spec.Prices P ys p pn)
    (he : 0 < o.eta) (ha : o.ama = false) (h0 : (a 0).alpha = none) (h0' : (a 0).cp = none) (h : AccRun P ρ o a y s') :
    Antitone fun k => Spec.gap P ρ ys p pn (a (k + 1)).vars := by
  refine antitone_nat_of_succ_le fun k => ?_
  have h1 := (acc_step hsym hf hρ hp he ha h0 h0' h k).1
  obtain ⟨r1, r2, -⟩ := relaxation_range he ha h0 h (k + 1) (combined P ρ (a (k + 1)).vars (y (k + 1)) (s' (k + 1)))
  have h2 := mul_nonneg (mul_nonneg r1 (sub_nonneg.2 r2)) (combined_nonneg P hρ (a (k + 1)).vars (s' (k + 1)) (y (k + 1)))
  simp only at h1
  linarith

theorem acc_converges (hsym : ∀ i j, nb i j → nb j i) (hf : ∀ i, ConvexOn ℝ (P.C i) (P.f i)) (hρ : 0 < ρ) (hp : Spec.Prices P ys p pn)
    (he : 0 < o.eta) (ha : o.ama = false) (h0 : (a 0).alpha = none) (h0' : (a 0).cp = none) (h : AccRun P ρ o a y s') {M : ℕ}
    (hrej : ∀ k, M ≤ k → Spec.Rejected o (a (k + 1)) (combined P ρ (a (k + 1)).vars (y (k + 1)) (s' (k + 1))) →
      ¬ Spec.Rejected o (a (k + 2)) (combined P ρ (a (k + 2)).vars (y (k + 2)) (s' (k + 2)))) :
    Tendsto (fun k => combined P ρ (a k).vars (y k) (s' k)) atTop (𝓝 0) ∧
    (∀ i, Tendsto (fun k => P.A i *ᵥ Sum.elim (P.S i (y k i)) (fun q : {j // nb i j} × n => P.S q.1 (y k q.1) q.2)) atTop (𝓝 (P.b i))) ∧
    Tendsto (fun k => ∑ i, P.f i (y k i)) atTop (𝓝 (∑ i, P.f i (ys i))) := by
  have hanti : Antitone fun k => combined P ρ (a (k + 1)).vars (y (k + 1)) (s' (k + 1)) :=
    antitone_nat_of_succ_le fun k => (acc_step hsym hf hρ hp he ha h0 h0' h k).2.1
  have hM0 : (0 : ℝ) ≤ M := M.cast_nonneg
  have hdiv : Tendsto (fun N => ∑ j ∈ Finset.range N, 1 / ((M : ℝ) + 2 * j + 4)) atTop atTop := by
    have h1 := (Real.tendsto_sum_range_one_div_nat_succ_atTop).const_mul_atTop (show (0 : ℝ) < 1 / (M + 4) by positivity)
    refine tendsto_atTop_mono (fun N => ?_) h1
    rw [Finset.mul_sum]
    refine Finset.sum_le_sum fun j _ => ?_
    have hj : (0 : ℝ) ≤ j := j.cast_nonneg
    rw [one_div_mul_one_div, div_le_div_iff₀ (by positivity) (by positivity)]
    nlinarith [mul_nonneg hM0 hj]
  have hc1 : Tendsto (fun k => combined P ρ (a (k + 1)).vars (y (k + 1)) (s' (k + 1))) atTop (𝓝 0) := by
    have hb : BddBelow (Set.range fun k => combined P ρ (a (k + 1)).vars (y (k + 1)) (s' (k + 1))) := ⟨0, by
      rintro _ ⟨k, rfl⟩
      exact combined_nonneg P hρ _ _ _⟩
    have h1 := tendsto_atTop_ciInf hanti hb
    have h2 : Tendsto (fun N => combined P ρ (a (M + 2 * N + 1)).vars (y (M + 2 * N + 1)) (s' (M + 2 * N + 1))) atTop (𝓝 0) := by
      refine squeeze_zero' (Eventually.of_forall fun N => combined_nonneg P hρ _ _ _)
        ((hdiv.eventually_gt_atTop 0).mono fun N hN => ?_) (hdiv.const_div_atTop (Spec.gap P ρ ys p pn (a (M + 1)).vars))
      rw [le_div_iff₀ hN]
      exact acc_bound hsym hf hρ hp he ha h0 h0' h hrej N
    have h3 := h1.comp (tendsto_atTop_mono (fun N => by simp only [id]; omega) tendsto_id : Tendsto (fun N => M + 2 * N) atTop atTop)
    rw [tendsto_nhds_unique h3 h2] at h1
    exact h1
  have hc : Tendsto (fun k => combined P ρ (a k).vars (y k) (s' k)) atTop (𝓝 0) :=
    (tendsto_add_atTop_iff_nat (f := fun k => combined P ρ (a k).vars (y k) (s' k)) 1).1 hc1
  obtain ⟨g1, g2⟩ := iterate_limits P hsym hf hρ hp (fun k => h.iterate k) hc1 (G := Spec.gap P ρ ys p pn (a 1).vars) fun k =>
    ((acc_step hsym hf hρ hp he ha h0 h0' h k).2.2).trans (acc_gap_antitone hsym hf hρ hp he ha h0 h0' h (Nat.zero_le k))
  refine ⟨hc, fun i => ?_, ?_⟩
  · exact (tendsto_add_atTop_iff_nat
      (f := fun k => P.A i *ᵥ Sum.elim (P.S i (y k i)) (fun q : {j // nb i j} × n => P.S q.1 (y k q.1) q.2)) 1).1 (g1 i)
  · exact (tendsto_add_atTop_iff_nat (f := fun k => ∑ i, P.f i (y k i)) 1).1 g2

end Run

/-! ## C194 -/

/-- **C194**: without acceleration, the combined residual never increases from one iteration to the next. -/
theorem C194_plain (P : Problem V m n E nb) (hsym : ∀ i j, nb i j → nb j i) (hf : ∀ i, ConvexOn ℝ (P.C i) (P.f i)) {ρ : ℝ}
    (hρ : 0 < ρ) {s : ℕ → Vars V n} {y : ℕ → V → E} (h : ∀ k, Iterate P ρ (s k) (y k) (s (k + 1))) :
    Antitone fun k => combined P ρ (s k) (y k) (s (k + 1)) :=
  antitone_nat_of_succ_le fun k => residual_le P hsym hf hρ (h k) (h (k + 1))

/-- **C194**: with acceleration, with or without restarts, the combined residual never increases, nor does, after the first
iteration, the distance to a solution, neither that of what the iterations start with nor that of what they compute; and of two
iterations in a row at least one is accepted. -/
theorem C194_monotone (P : Problem V m n E nb) (hsym : ∀ i j, nb i j → nb j i) (hf : ∀ i, ConvexOn ℝ (P.C i) (P.f i)) {ρ : ℝ}
    (hρ : 0 < ρ) {o : AccOpt} (he : 0 < o.eta) (he1 : o.eta ≤ 1) (ha : o.ama = false) {a : ℕ → Acc (Joint V n)} {y : ℕ → V → E}
    {s' : ℕ → Vars V n} {ys : V → E} {p : V → n → ℝ} {pn : V → V → n → ℝ} (hp : Spec.Prices P ys p pn)
    {z l zp lp : Joint V n} (h0 : a 0 = accInit z l zp lp) (h : ∀ k, AccIterate P ρ o (a k) (y k) (s' k) (a (k + 1))) :
    (Antitone fun k => combined P ρ (a k).vars (y k) (s' k)) ∧
    (Antitone fun k => Spec.gap P ρ ys p pn (a (k + 1)).vars) ∧
    (∀ k, Spec.gap P ρ ys p pn (s' (k + 1)) ≤ Spec.gap P ρ ys p pn (a (k + 1)).vars) ∧
    ∀ k, Spec.Rejected o (a k) (combined P ρ (a k).vars (y k) (s' k)) →
      ¬ Spec.Rejected o (a (k + 1)) (combined P ρ (a (k + 1)).vars (y (k + 1)) (s' (k + 1))) := by
  have ha0 : (a 0).alpha = none := by rw [h0]; rfl
  have hc0 : (a 0).cp = none := by rw [h0]; rfl
  have hrun := AccRun.of h
  have hanti : Antitone fun k => combined P ρ (a k).vars (y k) (s' k) := by
    refine antitone_nat_of_succ_le fun k => ?_
    cases k with
    | zero =>
      have h1 := (h 1).1
      rw [acc_first he ha ha0 hc0 hrun] at h1
      simp only [zero_add]
      rw [acc_first he ha ha0 hc0 hrun]
      exact residual_le P hsym hf hρ (h 0).1 h1
    | succ k => exact (acc_step hsym hf hρ hp he ha ha0 hc0 hrun k).2.1
  refine ⟨hanti, acc_gap_antitone hsym hf hρ hp he ha ha0 hc0 hrun, fun k => (acc_step hsym hf hρ hp he ha ha0 hc0 hrun k).2.2,
    fun k hr => ?_⟩
  cases k with
  | zero =>
    obtain ⟨-, q, hq, -⟩ := hr
    rw [hc0] at hq
    cases hq
  | succ k =>
    refine acc_rejected hρ he he1 ha hrun (M := 0) (fun q hq => ?_) (fun k _ => hanti (Nat.le_succ k)) k (Nat.zero_le k) hr
    rcases accStep_relaxed o he ha (a 0) ((s' 0).z, (s' 0).zn) ((s' 0).l, (s' 0).ln) (combined P ρ (a 0).vars (y 0) (s' 0)) with
      ⟨q, hq, -⟩ | ⟨-, -, -, -, e⟩
    · rw [hc0] at hq; cases hq
    · rw [hrun.acc 0, e] at hq
      exact (Option.some.inj hq).le

/-- **C194**: how fast the accelerated iteration converges at least: the residual times a sum that grows without bound stays below
the distance to a solution after the first iteration. -/
theorem C194_bound (P : Problem V m n E nb) (hsym : ∀ i j, nb i j → nb j i) (hf : ∀ i, ConvexOn ℝ (P.C i) (P.f i)) {ρ : ℝ}
    (hρ : 0 < ρ) {o : AccOpt} (he : 0 < o.eta) (he1 : o.eta ≤ 1) (ha : o.ama = false) {a : ℕ → Acc (Joint V n)} {y : ℕ → V → E}
    {s' : ℕ → Vars V n} {ys : V → E} {p : V → n → ℝ} {pn : V → V → n → ℝ} (hp : Spec.Prices P ys p pn)
    {z l zp lp : Joint V n} (h0 : a 0 = accInit z l zp lp) (h : ∀ k, AccIterate P ρ o (a k) (y k) (s' k) (a (k + 1))) (N : ℕ) :
    combined P ρ (a (2 * N + 1)).vars (y (2 * N + 1)) (s' (2 * N + 1)) * ∑ j ∈ Finset.range N, 1 / (2 * (j : ℝ) + 4) ≤
      Spec.gap P ρ ys p pn (s' 0) := by
  have ha0 : (a 0).alpha = none := by rw [h0]; rfl
  have hc0 : (a 0).cp = none := by rw [h0]; rfl
  have hrej := (C194_monotone P hsym hf hρ he he1 ha hp h0 h).2.2.2
  have := acc_bound hsym hf hρ hp he ha ha0 hc0 (AccRun.of h) (M := 0) (fun k _ => hrej (k + 1)) N
  rw [zero_add, zero_add, acc_first he ha ha0 hc0 (AccRun.of h)] at this
  simpa using this

/-- **C194**: with Nesterov acceleration, with or without restarts, the distributed iteration converges from every start: the combined
residual goes to 0, the plans to coupled ones and their total cost to the least. -/
theorem C194_converges (P : Problem V m n E nb) (hsym : ∀ i j, nb i j → nb j i) (hf : ∀ i, ConvexOn ℝ (P.C i) (P.f i)) {ρ : ℝ}
    (hρ : 0 < ρ) {o : AccOpt} (he : 0 < o.eta) (he1 : o.eta ≤ 1) (ha : o.ama = false) {a : ℕ → Acc (Joint V n)} {y : ℕ → V → E}
    {s' : ℕ → Vars V n} {ys : V → E} {p : V → n → ℝ} {pn : V → V → n → ℝ} (hp : Spec.Prices P ys p pn)
    {z l zp lp : Joint V n} (h0 : a 0 = accInit z l zp lp) (h : ∀ k, AccIterate P ρ o (a k) (y k) (s' k) (a (k + 1))) :
    Tendsto (fun k => combined P ρ (a k).vars (y k) (s' k)) atTop (𝓝 0) ∧
    (∀ i, Tendsto (fun k => P.A i *ᵥ Sum.elim (P.S i (y k i)) (fun q : {j // nb i j} × n => P.S q.1 (y k q.1) q.2)) atTop (𝓝 (P.b i))) ∧
    Tendsto (fun k => ∑ i, P.f i (y k i)) atTop (𝓝 (∑ i, P.f i (ys i))) := by
  have ha0 : (a 0).alpha = none := by rw [h0]; rfl
  have hc0 : (a 0).cp = none := by rw [h0]; rfl
  have hrej := (C194_monotone P hsym hf hρ he he1 ha hp h0 h).2.2.2
  exact acc_converges hsym hf hρ hp he ha ha0 hc0 (AccRun.of h) (M := 0) fun k _ => hrej (k + 1)

/-- Two vehicles that must keep a distance, from any start, with the default options (`eta` 0.999) and restarts. -/
example (z l zp lp : Joint Bool Unit) : ∃ (a : ℕ → Acc (Joint Bool Unit)) (y : ℕ → Bool → ℝ) (s' : ℕ → Vars Bool Unit),
    a 0 = accInit z l zp lp ∧ (∀ k, AccIterate exP 2 ⟨0.999, true, false⟩ (a k) (y k) (s' k) (a (k + 1))) ∧
    Tendsto (fun k => combined exP 2 (a k).vars (y k) (s' k)) atTop (𝓝 0) ∧
    Tendsto (fun k => exP.f true (y k true) + exP.f false (y k false)) atTop (𝓝 2) := by
  choose t ht using exP_iterate
  let nx : Acc (Joint Bool Unit) → Acc (Joint Bool Unit) := fun b =>
    accStep ⟨0.999, true, false⟩ b (((t b.vars).2.z, (t b.vars).2.zn), ((t b.vars).2.l, (t b.vars).2.ln), combined exP 2 b.vars (t b.vars).1 (t b.vars).2)
  let a : ℕ → Acc (Joint Bool Unit) := fun k => k.rec (accInit z l zp lp) fun _ b => nx b
  have hit : ∀ k, AccIterate exP 2 ⟨0.999, true, false⟩ (a k) (t (a k).vars).1 (t (a k).vars).2 (a (k + 1)) := fun k => ⟨ht _, rfl⟩
  have hp := C190_prices exP (fun i j h => h.symm) exP_convex (by norm_num) exIterate
  obtain ⟨h1, -, h3⟩ := C194_converges exP (fun i j h => h.symm) exP_convex (by norm_num) (by norm_num) (by norm_num) rfl hp rfl hit
  refine ⟨a, fun k => (t (a k).vars).1, fun k => (t (a k).vars).2, rfl, hit, h1, ?_⟩
  simp only [Fintype.sum_bool, exP] at h3
  norm_num [exP] at h3 ⊢
  exact h3

end Verif.ADMM
