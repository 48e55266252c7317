import Verif.ADMM.FixedPoint
import Verif.ADMM.Iter
import Mathlib.Analysis.InnerProductSpace.PiL2
import Mathlib.Topology.Algebra.InfiniteSum.Order
import Mathlib.Topology.Algebra.InfiniteSum.Real

/-! # The distributed iteration converges (C190) -/

set_option linter.unusedSectionVars false

namespace Verif.ADMM

open Matrix Filter Topology

variable {V m n : Type} [Fintype V] [DecidableEq V] [Fintype m] [Fintype n]
variable {E : Type} [AddCommGroup E] [Module ℝ E]
variable {nb : V → V → Prop} [∀ i j, Decidable (nb i j)]

/-! ## Model -/

/-- What `get_residuals` of updater `i` reads in the iteration from `s` to `s'` with plans `y`, admm.py:493-508 (at the start of a
knot interval, so that no spline is shifted). -/
def resIn (P : Problem V m n E nb) (s : Vars V n) (y : V → E) (s' : Vars V n) (i : V) : ResIn (n ⊕ ({j // nb i j} × n)) :=
  ⟨Sum.elim (P.S i (y i)) (fun p => P.S p.1 (y p.1) p.2), Sum.elim (s'.z i) (fun p => s'.zn i p.1 p.2),
    Sum.elim (s.z i) (fun p => s.zn i p.1 p.2)⟩

/-- The combined residual that `dual_update` reports: the sum over the updaters, admm.py:594-606. -/
def combined (P : Problem V m n E nb) (ρ : ℝ) (s : Vars V n) (y : V → E) (s' : Vars V n) : ℝ := ∑ i, cr ρ (resIn P s y s' i)

/-- The z- and multiplier updates of all updaters, admm.py:117-150 and 248-268, that follow the solution `y` of the x-updates: the part of `Iterate` after the
x-updates. -/
def Copies (P : Problem V m n E nb) (ρ : ℝ) (s : Vars V n) (y : V → E) (s' : Vars V n) : Prop :=
  (∀ i, ZUpdate ρ (P.A i) (P.b i) (P.S i (y i)) (s.l i) (fun p => P.S p.1 (y p.1) p.2) (fun p => s.ln i p.1 p.2)
    (s'.z i) (fun p => s'.zn i p.1 p.2)) ∧
  (∀ i, s'.l i = lUpdate ρ (s.l i) (P.S i (y i)) (s'.z i)) ∧
  (∀ i j, nb i j → s'.ln i j = lUpdate ρ (s.ln i j) (P.S j (y j)) (s'.zn i j))

/-! ## Specification -/

/-- Prices `p` (of own variables) and `pn` (of the neighbours' variables) at which it does not pay for the vehicles to disagree:
`ys` satisfies all constraints, and no plans that satisfy the constraints of the single vehicles, with copies that satisfy the
coupling equations but need not agree with the plans, are better when the disagreement is paid for. -/
structure Spec.Prices (P : Problem V m n E nb) (ys : V → E) (p : V → n → ℝ) (pn : V → V → n → ℝ) : Prop where
  feasible : Spec.Feasible P ys
  best : ∀ (y : V → E) (c : V → n → ℝ) (cn : V → V → n → ℝ), (∀ i, y i ∈ P.C i) →
    (∀ i, Spec.Coupled (P.A i) (P.b i) (c i) (fun q => cn i q.1 q.2)) →
    ∑ i, P.f i (ys i) ≤ ∑ i, P.f i (y i) + ∑ i, (p i ⬝ᵥ (P.S i (y i) - c i) + ∑ j with nb i j, pn i j ⬝ᵥ (P.S j (y j) - cn i j))

/-- Sum of the squares of all entries, own ones and those for neighbours. -/
def Spec.square (nb : V → V → Prop) [∀ i j, Decidable (nb i j)] (a : V → n → ℝ) (an : V → V → n → ℝ) : ℝ :=
  ∑ i, (∑ k, a i k ^ 2 + ∑ j with nb i j, ∑ k, an i j k ^ 2)

/-- How far copies and multipliers are from the solution. -/
noncomputable def Spec.gap (P : Problem V m n E nb) (ρ : ℝ) (ys : V → E) (p : V → n → ℝ) (pn : V → V → n → ℝ) (s : Vars V n) : ℝ :=
  ρ * Spec.square nb (fun i => s.z i - P.S i (ys i)) (fun i j => s.zn i j - P.S j (ys j)) +
    Spec.square nb (fun i => s.l i - p i) (fun i j => s.ln i j - pn i j) / ρ

/-! ## Lemmas -/

/-- The index set of all shared entries, with the copies for neighbours. -/
abbrev Ix (V n : Type) (nb : V → V → Prop) := Σ i : V, n ⊕ ({j // nb i j} × n)

/-- All copies in one vector. -/
noncomputable def vec (nb : V → V → Prop) (a : V → n → ℝ) (an : V → V → n → ℝ) : EuclideanSpace ℝ (Ix V n nb) :=
  WithLp.toLp 2 fun q => Sum.elim (a q.1) (fun p => an q.1 p.1 p.2) q.2

theorem vec_sub (a b : V → n → ℝ) (an bn : V → V → n → ℝ) :
    vec nb a an - vec nb b bn = vec nb (fun i => a i - b i) (fun i j => an i j - bn i j) := by
  ext ⟨i, q⟩
  cases q <;> simp [vec]

theorem vec_add (a b : V → n → ℝ) (an bn : V → V → n → ℝ) :
    vec nb a an + vec nb b bn = vec nb (fun i => a i + b i) (fun i j => an i j + bn i j) := by
  ext ⟨i, q⟩
  cases q <;> simp [vec]

theorem vec_smul (r : ℝ) (a : V → n → ℝ) (an : V → V → n → ℝ) :
    r • vec nb a an = vec nb (fun i => r • a i) (fun i j => r • an i j) := by
  ext ⟨i, q⟩
  cases q <;> simp [vec]

theorem vec_congr {a : V → n → ℝ} {an bn : V → V → n → ℝ} (h : ∀ i j, nb i j → an i j = bn i j) :
    vec nb a an = vec nb a bn := by
  ext ⟨i, q⟩
  rcases q with q | q
  · simp [vec]
  · simp [vec, h i q.1 q.1.2]

theorem vec_inner (a b : V → n → ℝ) (an bn : V → V → n → ℝ) :
    inner ℝ (vec nb a an) (vec nb b bn) =
      ∑ i, (Sum.elim (a i) (fun p : {j // nb i j} × n => an i p.1 p.2) ⬝ᵥ Sum.elim (b i) (fun p : {j // nb i j} × n => bn i p.1 p.2)) := by
  rw [PiLp.inner_apply, Fintype.sum_sigma]
  refine Finset.sum_congr rfl fun i _ => Finset.sum_congr rfl fun q _ => ?_
  simp only [vec, RCLike.inner_apply, conj_trivial]
  ring

theorem elim_dot (i : V) (a b : n → ℝ) (an bn : V → n → ℝ) :
    Sum.elim a (fun p : {j // nb i j} × n => an p.1 p.2) ⬝ᵥ Sum.elim b (fun p : {j // nb i j} × n => bn p.1 p.2) =
      a ⬝ᵥ b + ∑ j with nb i j, an j ⬝ᵥ bn j := by
  simp only [dotProduct, Fintype.sum_sum_type, Sum.elim_inl, Sum.elim_inr, Fintype.sum_prod_type]
  congr 1
  exact (Finset.sum_subtype (Finset.univ.filter (nb i)) (by simp) fun j => ∑ k, an j k * bn j k).symm

theorem vec_inner' (a b : V → n → ℝ) (an bn : V → V → n → ℝ) :
    inner ℝ (vec nb a an) (vec nb b bn) = ∑ i, (a i ⬝ᵥ b i + ∑ j with nb i j, an i j ⬝ᵥ bn i j) := by
  rw [vec_inner]
  exact Finset.sum_congr rfl fun i _ => elim_dot i _ _ _ _

theorem vec_norm (a : V → n → ℝ) (an : V → V → n → ℝ) : ‖vec nb a an‖ ^ 2 = Spec.square nb a an := by
  rw [← real_inner_self_eq_norm_sq, vec_inner']
  unfold Spec.square
  refine Finset.sum_congr rfl fun i _ => ?_
  simp only [dotProduct, sq]

/-- All plans, as seen by everybody. -/
noncomputable def plans (P : Problem V m n E nb) (y : V → E) : EuclideanSpace ℝ (Ix V n nb) :=
  vec nb (fun i => P.S i (y i)) (fun _ j => P.S j (y j))

/-- First-order optimality of the x-update. -/
theorem xUpdate_slope_gen (P : Problem V m n E nb) (hf : ∀ i, ConvexOn ℝ (P.C i) (P.f i)) {ρ : ℝ} {s : Vars V n} {i : V} {y : E}
    (h : XUpdate P ρ s i y) {y' : E} (hy' : y' ∈ P.C i) :
    0 ≤ P.f i y' - P.f i y + ((s.l i + ρ • (P.S i y - s.z i)) ⬝ᵥ (P.S i y' - P.S i y) +
      ∑ j with nb i j, (s.ln j i + ρ • (P.S i y - s.zn j i)) ⬝ᵥ (P.S i y' - P.S i y)) := by
  obtain ⟨hy, hmin⟩ := h
  have hS : ∀ t : ℝ, P.S i (AffineMap.lineMap y y' t) = P.S i y + t • (P.S i y' - P.S i y) := by
    intro t
    rw [AffineMap.apply_lineMap, AffineMap.lineMap_apply]
    simp [add_comm]
  refine slope_nonneg (c := (1 + ∑ j with nb i j, (1 : ℝ)) * (ρ / 2) * ((P.S i y' - P.S i y) ⬝ᵥ (P.S i y' - P.S i y))) fun t h0 h1 => ?_
  have hl : AffineMap.lineMap y y' t = (1 - t) • y + t • y' := by
    rw [AffineMap.lineMap_apply_module]
  have hmem : AffineMap.lineMap y y' t ∈ P.C i := by
    rw [hl]; exact (hf i).1 hy hy' (by linarith) h0.le (by ring)
  have hc := (hf i).2 hy hy' (show (0 : ℝ) ≤ 1 - t by linarith) h0.le (by ring)
  rw [← hl] at hc
  have hm := hmin _ hmem
  unfold xObjective at hm
  rw [hS] at hm
  generalize hd : P.S i y' - P.S i y = d at hm ⊢
  have one : ∀ l z : n → ℝ, l ⬝ᵥ (P.S i y + t • d - z) + ρ / 2 * ((P.S i y + t • d - z) ⬝ᵥ (P.S i y + t • d - z)) =
      l ⬝ᵥ (P.S i y - z) + ρ / 2 * ((P.S i y - z) ⬝ᵥ (P.S i y - z)) + t * ((l + ρ • (P.S i y - z)) ⬝ᵥ d) + ρ / 2 * t ^ 2 * (d ⬝ᵥ d) := by
    intro l z
    have : P.S i y + t • d - z = (P.S i y - z) + t • d := by abel
    rw [this]
    simp only [dotProduct_add, add_dotProduct, dotProduct_smul, smul_dotProduct, smul_eq_mul]
    rw [dotProduct_comm d (P.S i y - z)]
    ring
  simp only [one, Finset.sum_add_distrib, ← Finset.mul_sum] at hm
  simp only [Finset.sum_const, nsmul_eq_mul, mul_one] at hm ⊢
  have h2 : P.f i (AffineMap.lineMap y y' t) ≤ (1 - t) * P.f i y + t * P.f i y' := by simpa using hc
  nlinarith

/-- The multipliers after an iteration do not change the value of copies that satisfy the coupling equations. -/
theorem multipliers_flat (P : Problem V m n E nb) {ρ : ℝ} (hρ : 0 < ρ) {s s' : Vars V n} {y : V → E} (h : Copies P ρ s y s')
    {c d : V → n → ℝ} {cn dn : V → V → n → ℝ} (hc : ∀ i, Spec.Coupled (P.A i) (P.b i) (c i) (fun q => cn i q.1 q.2))
    (hd : ∀ i, Spec.Coupled (P.A i) (P.b i) (d i) (fun q => dn i q.1 q.2)) :
    inner ℝ (vec nb s'.l s'.ln) (vec nb c cn - vec nb d dn) = 0 := by
  obtain ⟨hz, hl, hln⟩ := h
  rw [vec_sub, vec_inner]
  refine Finset.sum_eq_zero fun i _ => ?_
  obtain ⟨mu, -, hi, hj⟩ := hz i
  have hlu := lUpdate_zvec hρ.ne' (P.A i) (Sum.elim (s.l i) (fun p : {j // nb i j} × n => s.ln i p.1 p.2))
    (Sum.elim (P.S i (y i)) (fun p : {j // nb i j} × n => P.S p.1 (y p.1) p.2)) mu
  rw [← elim_comp (zvec _ _ _ _), ← hi, ← hj] at hlu
  have e : Sum.elim (s'.l i) (fun p : {j // nb i j} × n => s'.ln i p.1 p.2) = (P.A i)ᵀ *ᵥ mu := by
    rw [← hlu]
    funext q
    rcases q with q | q
    · simp [hl i, lUpdate]
    · simp [hln i q.1 q.1.2, lUpdate]
  rw [e, transpose_dot]
  have e2 : Sum.elim (c i - d i) (fun p : {j // nb i j} × n => (cn i p.1 - dn i p.1) p.2) =
      Sum.elim (c i) (fun q : {j // nb i j} × n => cn i q.1 q.2) - Sum.elim (d i) (fun q : {j // nb i j} × n => dn i q.1 q.2) := by
    funext q
    rcases q with q | q <;> simp
  rw [e2, Matrix.mulVec_sub, hc i, hd i, sub_self, dotProduct_zero]

theorem iterate_coupled (P : Problem V m n E nb) {ρ : ℝ} {s s' : Vars V n} {y : V → E} (h : Copies P ρ s y s') (i : V) :
    Spec.Coupled (P.A i) (P.b i) (s'.z i) (fun q => s'.zn i q.1 q.2) := C24_feasible _ _ _ _ _ _ _ _ _ (h.1 i)

/-- The vehicles' updates together. -/
theorem iterate_slope (P : Problem V m n E nb) (hsym : ∀ i j, nb i j → nb j i) (hf : ∀ i, ConvexOn ℝ (P.C i) (P.f i)) {ρ : ℝ}
    {s s' : Vars V n} {y : V → E} (h : Iterate P ρ s y s') {ys : V → E} (hys : ∀ i, ys i ∈ P.C i) :
    0 ≤ ∑ i, P.f i (ys i) - ∑ i, P.f i (y i) +
      inner ℝ (vec nb s.l s.ln + ρ • (plans P y - vec nb s.z s.zn)) (plans P ys - plans P y) := by
  have hsum := Finset.sum_nonneg fun i (_ : i ∈ Finset.univ) => xUpdate_slope_gen P hf (h.1 i) (hys i)
  rw [Finset.sum_add_distrib, Finset.sum_sub_distrib, Finset.sum_add_distrib] at hsum
  unfold plans
  rw [vec_sub, vec_sub, vec_smul, vec_add, vec_inner', Finset.sum_add_distrib]
  have hswap : ∑ i, ∑ j with nb i j, (s.ln j i + ρ • (P.S i (y i) - s.zn j i)) ⬝ᵥ (P.S i (ys i) - P.S i (y i))
      = ∑ i, ∑ j with nb i j, (s.ln i j + ρ • (P.S j (y j) - s.zn i j)) ⬝ᵥ (P.S j (ys j) - P.S j (y j)) := by
    simp only [Finset.sum_filter]
    rw [Finset.sum_comm]
    refine Finset.sum_congr rfl fun i _ => Finset.sum_congr rfl fun j _ => ?_
    by_cases hij : nb i j
    · rw [if_pos hij, if_pos (hsym i j hij)]
    · rw [if_neg hij, if_neg (fun h => hij (hsym j i h))]
  rw [hswap] at hsum
  exact hsum

theorem iterate_l (P : Problem V m n E nb) {ρ : ℝ} {s s' : Vars V n} {y : V → E} (h : Copies P ρ s y s') :
    vec nb s'.l s'.ln = vec nb s.l s.ln + ρ • (plans P y - vec nb s'.z s'.zn) := by
  unfold plans
  rw [vec_sub, vec_smul, vec_add]
  have : s'.l = fun i => s.l i + ρ • (P.S i (y i) - s'.z i) := funext fun i => by rw [h.2.1 i]; rfl
  rw [this]
  exact vec_congr fun i j hij => by rw [h.2.2 i j hij]; rfl

/-- One step of the method in any space. -/
theorem fejer {H : Type*} [NormedAddCommGroup H] [InnerProductSpace ℝ H] {ρ : ℝ} (hρ : 0 < ρ) {x z z' l l' xs ls : H} {f fs : ℝ}
    (hl : l' = l + ρ • (x - z')) (hx : 0 ≤ fs - f + inner ℝ (l + ρ • (x - z)) (xs - x)) (hs : fs ≤ f + inner ℝ ls (x - z'))
    (hz : inner ℝ l' (xs - z') = 0) (ho : inner ℝ (l' - l) (z' - z) = 0) :
    ρ * ‖z' - xs‖ ^ 2 + ‖l' - ls‖ ^ 2 / ρ + ρ * (‖x - z'‖ ^ 2 + ‖z' - z‖ ^ 2) ≤ ρ * ‖z - xs‖ ^ 2 + ‖l - ls‖ ^ 2 / ρ := by
  obtain ⟨r, hr⟩ : ∃ r, r = x - z' := ⟨_, rfl⟩
  obtain ⟨d, hd⟩ : ∃ d, d = z' - z := ⟨_, rfl⟩
  obtain ⟨e, he⟩ : ∃ e, e = xs - z' := ⟨_, rfl⟩
  obtain ⟨g, hg⟩ : ∃ g, g = ls - l' := ⟨_, rfl⟩
  have e1 : l + ρ • (x - z) = l' + ρ • d := by
    rw [hl, hd]; module
  have e2 : xs - x = e - r := by rw [he, hr]; abel
  have e3 : z' - xs = -e := by rw [he]; abel
  have e4 : z - xs = -(e + d) := by rw [he, hd]; abel
  have e5 : l' - ls = -g := by rw [hg]; abel
  have e6 : l - ls = -(g + ρ • r) := by rw [hg, hl, hr]; module
  have e7 : l' - l = ρ • r := by rw [hl, hr]; module
  rw [e1, e2] at hx
  rw [e7, ← hd, inner_smul_left] at ho
  rw [← he] at hz
  rw [← hr] at hs
  rw [e3, e4, e5, e6, ← hr, ← hd, norm_neg, norm_neg, norm_neg, norm_neg, norm_add_sq_real, norm_add_sq_real, norm_smul, inner_smul_right]
  have hls : ls = g + l' := by rw [hg]; abel
  rw [hls, inner_add_left] at hs
  simp only [inner_add_left, inner_sub_right, inner_smul_left, conj_trivial, hz] at hx ho
  rw [real_inner_comm d r] at ho
  rw [real_inner_comm e d] at hx
  have hsq : (‖ρ‖ * ‖r‖) ^ 2 = ρ ^ 2 * ‖r‖ ^ 2 := by rw [mul_pow, Real.norm_eq_abs, sq_abs]
  rw [hsq]
  have hfin : 0 ≤ ρ * inner ℝ e d + inner ℝ g r := by
    linarith
  have e8 : (‖g‖ ^ 2 + 2 * (ρ * inner ℝ g r) + ρ ^ 2 * ‖r‖ ^ 2) / ρ = ‖g‖ ^ 2 / ρ + 2 * inner ℝ g r + ρ * ‖r‖ ^ 2 := by
    field_simp
  rw [e8]
  linarith

theorem combined_eq (P : Problem V m n E nb) (ρ : ℝ) (s s' : Vars V n) (y : V → E) :
    combined P ρ s y s' = ρ * (‖plans P y - vec nb s'.z s'.zn‖ ^ 2 + ‖vec nb s'.z s'.zn - vec nb s.z s.zn‖ ^ 2) := by
  unfold combined plans
  rw [vec_sub, vec_sub, ← real_inner_self_eq_norm_sq, ← real_inner_self_eq_norm_sq, vec_inner, vec_inner, mul_add, Finset.mul_sum,
    Finset.mul_sum, ← Finset.sum_add_distrib]
  refine Finset.sum_congr rfl fun i _ => ?_
  unfold cr pr dr resIn
  rw [dotProduct, dotProduct, Finset.mul_sum, Finset.mul_sum, Finset.mul_sum]
  congr 1 <;> refine Finset.sum_congr rfl fun q _ => ?_ <;> rcases q with q | q <;> simp

theorem gap_eq (P : Problem V m n E nb) (ρ : ℝ) (ys : V → E) (p : V → n → ℝ) (pn : V → V → n → ℝ) (s : Vars V n) :
    Spec.gap P ρ ys p pn s = ρ * ‖vec nb s.z s.zn - plans P ys‖ ^ 2 + ‖vec nb s.l s.ln - vec nb p pn‖ ^ 2 / ρ := by
  unfold Spec.gap plans
  rw [vec_sub, vec_sub, vec_norm, vec_norm]

theorem prices_le (P : Problem V m n E nb) {ρ : ℝ} {ys : V → E} {p : V → n → ℝ} {pn : V → V → n → ℝ} (hp : Spec.Prices P ys p pn)
    {s s' : Vars V n} {y : V → E} (hy : ∀ i, y i ∈ P.C i) (h : Copies P ρ s y s') :
    ∑ i, P.f i (ys i) ≤ ∑ i, P.f i (y i) + inner ℝ (vec nb p pn) (plans P y - vec nb s'.z s'.zn) := by
  have := hp.best y s'.z s'.zn hy (iterate_coupled P h)
  unfold plans
  rw [vec_sub, vec_inner']
  exact this

/-- Progress of one iteration, from the second one on. -/
theorem iterate_gap (P : Problem V m n E nb) (hsym : ∀ i j, nb i j → nb j i) (hf : ∀ i, ConvexOn ℝ (P.C i) (P.f i)) {ρ : ℝ}
    (hρ : 0 < ρ) {s s' s'' : Vars V n} {y y' ys : V → E} {p : V → n → ℝ} {pn : V → V → n → ℝ} (hp : Spec.Prices P ys p pn)
    (h : Iterate P ρ s y s') (h' : Iterate P ρ s' y' s'') :
    Spec.gap P ρ ys p pn s'' + combined P ρ s' y' s'' ≤ Spec.gap P ρ ys p pn s' := by
  rw [gap_eq, gap_eq, combined_eq]
  have hzs : ∀ i, Spec.Coupled (P.A i) (P.b i) (P.S i (ys i)) (fun q => P.S q.1 (ys q.1) q.2) := fun i => (hp.feasible i).2
  refine fejer hρ (iterate_l P h'.2) (iterate_slope P hsym hf h' fun i => (hp.feasible i).1) (prices_le P hp (fun i => (h'.1 i).1) h'.2) ?_ ?_
  · exact multipliers_flat P hρ h'.2 hzs (iterate_coupled P h'.2)
  · rw [inner_sub_left, multipliers_flat P hρ h'.2 (iterate_coupled P h'.2) (iterate_coupled P h.2),
      multipliers_flat P hρ h.2 (iterate_coupled P h'.2) (iterate_coupled P h.2), sub_zero]

theorem combined_nonneg (P : Problem V m n E nb) {ρ : ℝ} (hρ : 0 < ρ) (s s' : Vars V n) (y : V → E) : 0 ≤ combined P ρ s y s' := by
  rw [combined_eq]; positivity

theorem gap_nonneg (P : Problem V m n E nb) {ρ : ℝ} (hρ : 0 < ρ) (ys : V → E) (p : V → n → ℝ) (pn : V → V → n → ℝ) (s : Vars V n) :
    0 ≤ Spec.gap P ρ ys p pn s := by
  rw [gap_eq]; positivity

theorem sum_gap (P : Problem V m n E nb) (hsym : ∀ i j, nb i j → nb j i) (hf : ∀ i, ConvexOn ℝ (P.C i) (P.f i)) {ρ : ℝ}
    (hρ : 0 < ρ) {s : ℕ → Vars V n} {y : ℕ → V → E} {ys : V → E} {p : V → n → ℝ} {pn : V → V → n → ℝ} (hp : Spec.Prices P ys p pn)
    (h : ∀ k, Iterate P ρ (s k) (y k) (s (k + 1))) (N : ℕ) :
    Spec.gap P ρ ys p pn (s (N + 1)) + ∑ k ∈ Finset.range N, combined P ρ (s (k + 1)) (y (k + 1)) (s (k + 2)) ≤
      Spec.gap P ρ ys p pn (s 1) := by
  induction N with
  | zero => simp
  | succ N ih =>
    rw [Finset.sum_range_succ]
    have := iterate_gap P hsym hf hρ hp (h N) (h (N + 1))
    linarith

/-- Where the combined residual tends to zero and the copies and multipliers stay at a bounded distance, the plans come to satisfy the
coupling equations and their cost tends to the optimum. -/
theorem iterate_limits (P : Problem V m n E nb) (hsym : ∀ i j, nb i j → nb j i) (hf : ∀ i, ConvexOn ℝ (P.C i) (P.f i)) {ρ : ℝ}
    (hρ : 0 < ρ) {s s' : ℕ → Vars V n} {y : ℕ → V → E} {ys : V → E} {p : V → n → ℝ} {pn : V → V → n → ℝ} (hp : Spec.Prices P ys p pn)
    (h : ∀ k, Iterate P ρ (s k) (y k) (s' k)) (hc : Tendsto (fun k => combined P ρ (s k) (y k) (s' k)) atTop (𝓝 0)) {G : ℝ}
    (hgap : ∀ k, Spec.gap P ρ ys p pn (s' k) ≤ G) :
    (∀ i, Tendsto (fun k => P.A i *ᵥ Sum.elim (P.S i (y k i)) (fun q : {j // nb i j} × n => P.S q.1 (y k q.1) q.2)) atTop (𝓝 (P.b i))) ∧
    Tendsto (fun k => ∑ i, P.f i (y k i)) atTop (𝓝 (∑ i, P.f i (ys i))) := by
  -- the two residuals
  have hr : Tendsto (fun k => ‖plans P (y k) - vec nb (s' k).z (s' k).zn‖) atTop (𝓝 0) := by
    have : Tendsto (fun k => Real.sqrt (combined P ρ (s k) (y k) (s' k) / ρ)) atTop (𝓝 0) := by
      have := (Real.continuous_sqrt.tendsto _).comp (hc.div_const ρ)
      simpa [Function.comp_def] using this
    refine squeeze_zero (fun _ => norm_nonneg _) (fun k => ?_) this
    refine Real.le_sqrt_of_sq_le ?_
    rw [combined_eq, mul_div_cancel_left₀ _ hρ.ne']
    nlinarith [sq_nonneg ‖vec nb (s' k).z (s' k).zn - vec nb (s k).z (s k).zn‖]
  have hd : Tendsto (fun k => ‖vec nb (s' k).z (s' k).zn - vec nb (s k).z (s k).zn‖) atTop (𝓝 0) := by
    have : Tendsto (fun k => Real.sqrt (combined P ρ (s k) (y k) (s' k) / ρ)) atTop (𝓝 0) := by
      have := (Real.continuous_sqrt.tendsto _).comp (hc.div_const ρ)
      simpa [Function.comp_def] using this
    refine squeeze_zero (fun _ => norm_nonneg _) (fun k => ?_) this
    refine Real.le_sqrt_of_sq_le ?_
    rw [combined_eq, mul_div_cancel_left₀ _ hρ.ne']
    nlinarith [sq_nonneg ‖plans P (y k) - vec nb (s' k).z (s' k).zn‖]
  refine ⟨fun i => ?_, ?_⟩
  · -- coupling
    rw [tendsto_pi_nhds]
    intro a
    have hent : ∀ q : n ⊕ ({j // nb i j} × n), Tendsto (fun k => (plans P (y k) - vec nb (s' k).z (s' k).zn) ⟨i, q⟩)
        atTop (𝓝 0) := by
      intro q
      rw [tendsto_zero_iff_norm_tendsto_zero]
      refine squeeze_zero (fun _ => norm_nonneg _) (fun k => ?_) hr
      exact PiLp.norm_apply_le _ _
    have hall : Tendsto (fun k => ∑ q, P.A i a q * (plans P (y k) - vec nb (s' k).z (s' k).zn) ⟨i, q⟩) atTop (𝓝 0) := by
      have := tendsto_finsetSum (Finset.univ : Finset (n ⊕ ({j // nb i j} × n))) fun q _ => (hent q).const_mul (P.A i a q)
      simpa using this
    have heq : ∀ k, (P.A i *ᵥ Sum.elim (P.S i (y k i)) (fun q : {j // nb i j} × n => P.S q.1 (y k q.1) q.2)) a =
        P.b i a + ∑ q, P.A i a q * (plans P (y k) - vec nb (s' k).z (s' k).zn) ⟨i, q⟩ := by
      intro k
      have hcpl := congrFun (show P.A i *ᵥ _ = P.b i from iterate_coupled P (h k).2 i) a
      rw [← hcpl, mulVec, mulVec, dotProduct, dotProduct, ← Finset.sum_add_distrib]
      refine Finset.sum_congr rfl fun q _ => ?_
      rcases q with q | q <;> simp [plans, vec] <;> ring
    simp only [heq]
    simpa using hall.const_add (P.b i a)
  · -- cost
    have hbd : ∀ k, ‖vec nb (s' k).z (s' k).zn - plans P ys‖ ≤ Real.sqrt (G / ρ) ∧
        ‖vec nb (s' k).l (s' k).ln‖ ≤ ‖vec nb p pn‖ + Real.sqrt (ρ * G) := by
      intro k
      have h1 := hgap k
      rw [gap_eq] at h1
      have h3 : 0 ≤ ρ * ‖vec nb (s' k).z (s' k).zn - plans P ys‖ ^ 2 := by positivity
      have h4 : 0 ≤ ‖vec nb (s' k).l (s' k).ln - vec nb p pn‖ ^ 2 / ρ := by positivity
      constructor
      · refine Real.le_sqrt_of_sq_le ?_
        rw [le_div_iff₀ hρ]
        linarith
      · have h5 : ‖vec nb (s' k).l (s' k).ln - vec nb p pn‖ ≤ Real.sqrt (ρ * G) := by
          refine Real.le_sqrt_of_sq_le ?_
          rw [mul_comm, ← div_le_iff₀ hρ]
          linarith
        have h6 := norm_sub_norm_le (vec nb (s' k).l (s' k).ln) (vec nb p pn)
        linarith
    set L := ‖vec nb p pn‖ + Real.sqrt (ρ * G)
    set M := Real.sqrt (G / ρ)
    have hlow : ∀ k, ∑ i, P.f i (ys i) - ‖vec nb p pn‖ * ‖plans P (y k) - vec nb (s' k).z (s' k).zn‖ ≤ ∑ i, P.f i (y k i) := by
      intro k
      have h1 := prices_le P hp (fun i => ((h k).1 i).1) (h k).2
      have h2 := real_inner_le_norm (vec nb p pn) (plans P (y k) - vec nb (s' k).z (s' k).zn)
      linarith
    have hup : ∀ k, ∑ i, P.f i (y k i) ≤ ∑ i, P.f i (ys i) + (L * ‖plans P (y k) - vec nb (s' k).z (s' k).zn‖ +
        ρ * ‖vec nb (s' k).z (s' k).zn - vec nb (s k).z (s k).zn‖ *
          (M + ‖plans P (y k) - vec nb (s' k).z (s' k).zn‖)) := by
      intro k
      have h1 := iterate_slope P hsym hf (h k) fun i => (hp.feasible i).1
      have h2 := iterate_l P (h k).2
      have h3 : inner ℝ (vec nb (s' k).l (s' k).ln) (plans P ys - vec nb (s' k).z (s' k).zn) = 0 :=
        multipliers_flat P hρ (h k).2 (fun i => (hp.feasible i).2) (iterate_coupled P (h k).2)
      have h4 := hbd k
      generalize vec nb (s' k).l (s' k).ln = l' at h2 h3 h4
      generalize vec nb (s' k).z (s' k).zn = z' at h2 h3 h4 ⊢
      generalize vec nb (s k).l (s k).ln = l at h1 h2
      generalize vec nb (s k).z (s k).zn = z at h1 ⊢
      generalize plans P ys = xs at h1 h3 h4
      generalize plans P (y k) = x at h1 h2 ⊢
      have e1 : l + ρ • (x - z) = l' + ρ • (z' - z) := by rw [h2]; module
      have e2 : xs - x = (xs - z') - (x - z') := by abel
      rw [e1, e2, inner_add_left, inner_sub_right, h3, inner_smul_left, conj_trivial] at h1
      have h5 : -(L * ‖x - z'‖) ≤ inner ℝ l' (x - z') := by
        have := neg_le_of_abs_le (abs_real_inner_le_norm l' (x - z'))
        have h7 : ‖l'‖ * ‖x - z'‖ ≤ L * ‖x - z'‖ := mul_le_mul_of_nonneg_right h4.2 (norm_nonneg _)
        linarith
      have h6 : inner ℝ (z' - z) (xs - z' - (x - z')) ≤ ‖z' - z‖ * (M + ‖x - z'‖) := by
        refine (real_inner_le_norm _ _).trans (mul_le_mul_of_nonneg_left ?_ (norm_nonneg _))
        refine (norm_sub_le _ _).trans ?_
        rw [norm_sub_rev xs z']
        linarith [h4.1]
      have h7 := mul_le_mul_of_nonneg_left h6 hρ.le
      linarith
    refine tendsto_of_tendsto_of_tendsto_of_le_of_le ?_ ?_ hlow hup
    · simpa using (hr.const_mul ‖vec nb p pn‖).const_sub (∑ i, P.f i (ys i))
    · have := ((hr.const_mul L).add ((hd.const_mul ρ).mul (hr.const_add M))).const_add (∑ i, P.f i (ys i))
      simpa using this

/-! ## C190 -/

/-- **C190**: the combined residuals of any number of iterations, the first one left out, add up to no more than the distance of the
copies and multipliers after the first iteration from the solution; so among any `N` iterations there is one whose combined residual
is at most an `N`-th of that. -/
theorem C190_progress (P : Problem V m n E nb) (hsym : ∀ i j, nb i j → nb j i) (hf : ∀ i, ConvexOn ℝ (P.C i) (P.f i)) {ρ : ℝ}
    (hρ : 0 < ρ) {s : ℕ → Vars V n} {y : ℕ → V → E} {ys : V → E} {p : V → n → ℝ} {pn : V → V → n → ℝ} (hp : Spec.Prices P ys p pn)
    (h : ∀ k, Iterate P ρ (s k) (y k) (s (k + 1))) (N : ℕ) :
    ∑ k ∈ Finset.range N, combined P ρ (s (k + 1)) (y (k + 1)) (s (k + 2)) ≤ Spec.gap P ρ ys p pn (s 1) ∧
    (0 < N → ∃ k < N, combined P ρ (s (k + 1)) (y (k + 1)) (s (k + 2)) ≤ Spec.gap P ρ ys p pn (s 1) / N) := by
  have h1 : ∑ k ∈ Finset.range N, combined P ρ (s (k + 1)) (y (k + 1)) (s (k + 2)) ≤ Spec.gap P ρ ys p pn (s 1) := by
    have := sum_gap P hsym hf hρ hp h N
    have := gap_nonneg P hρ ys p pn (s (N + 1))
    linarith
  refine ⟨h1, fun hN => ?_⟩
  by_contra hcon
  push Not at hcon
  have hN' : (0 : ℝ) < N := by exact_mod_cast hN
  have hlt : ∑ k ∈ Finset.range N, Spec.gap P ρ ys p pn (s 1) / N <
      ∑ k ∈ Finset.range N, combined P ρ (s (k + 1)) (y (k + 1)) (s (k + 2)) :=
    Finset.sum_lt_sum_of_nonempty (by simpa using hN.ne') fun k hk => hcon k (Finset.mem_range.1 hk)
  rw [Finset.sum_const, Finset.card_range, nsmul_eq_mul, mul_div_cancel₀ _ hN'.ne'] at hlt
  linarith

/-- **C190**: the reported residual tends to zero, the plans come to satisfy the coupling equations of every vehicle, and their total
cost tends to the cost of the solution. -/
theorem C190_converges (P : Problem V m n E nb) (hsym : ∀ i j, nb i j → nb j i) (hf : ∀ i, ConvexOn ℝ (P.C i) (P.f i)) {ρ : ℝ}
    (hρ : 0 < ρ) {s : ℕ → Vars V n} {y : ℕ → V → E} {ys : V → E} {p : V → n → ℝ} {pn : V → V → n → ℝ} (hp : Spec.Prices P ys p pn)
    (h : ∀ k, Iterate P ρ (s k) (y k) (s (k + 1))) :
    Tendsto (fun k => combined P ρ (s k) (y k) (s (k + 1))) atTop (𝓝 0) ∧
    (∀ i, Tendsto (fun k => P.A i *ᵥ Sum.elim (P.S i (y k i)) (fun q : {j // nb i j} × n => P.S q.1 (y k q.1) q.2)) atTop (𝓝 (P.b i))) ∧
    Tendsto (fun k => ∑ i, P.f i (y k i)) atTop (𝓝 (∑ i, P.f i (ys i))) := by
  have hsum : Summable fun k => combined P ρ (s (k + 1)) (y (k + 1)) (s (k + 2)) :=
    summable_of_sum_range_le (fun k => combined_nonneg P hρ _ _ _) fun N => (C190_progress P hsym hf hρ hp h N).1
  have hc1 := hsum.tendsto_atTop_zero
  have hc : Tendsto (fun k => combined P ρ (s k) (y k) (s (k + 1))) atTop (𝓝 0) :=
    (tendsto_add_atTop_iff_nat (f := fun k => combined P ρ (s k) (y k) (s (k + 1))) 1).1 hc1
  refine ⟨hc, iterate_limits P hsym hf hρ hp h hc (G := Spec.gap P ρ ys p pn (s 1)) fun k => ?_⟩
  have h1 := sum_gap P hsym hf hρ hp h k
  have h2 : 0 ≤ ∑ k ∈ Finset.range k, combined P ρ (s (k + 1)) (y (k + 1)) (s (k + 2)) :=
    Finset.sum_nonneg fun k _ => combined_nonneg P hρ _ _ _
  linarith

/-- **C190**: where an iteration changes nothing, its plans are a solution and its multipliers are prices at which it does not pay to
disagree: so one fixed point suffices for the convergence from every start. -/
theorem C190_prices (P : Problem V m n E nb) (hsym : ∀ i j, nb i j → nb j i) (hf : ∀ i, ConvexOn ℝ (P.C i) (P.f i)) {ρ : ℝ}
    (hρ : 0 < ρ) {s : Vars V n} {ys : V → E} (h : Iterate P ρ s ys s) : Spec.Prices P ys s.l s.ln := by
  have hplan : plans P ys = vec nb s.z s.zn := by
    have := iterate_l P h.2
    have h2 : ρ • (plans P ys - vec nb s.z s.zn) = 0 := by
      have := congrArg (fun v => v - vec nb s.l s.ln) this
      simpa using this.symm
    exact sub_eq_zero.1 ((smul_eq_zero.1 h2).resolve_left hρ.ne')
  have hfeas : ∀ i, Spec.Coupled (P.A i) (P.b i) (P.S i (ys i)) (fun q => P.S q.1 (ys q.1) q.2) := by
    intro i
    have hc := iterate_coupled P h.2 i
    have hent : ∀ q : n ⊕ ({j // nb i j} × n), plans P ys ⟨i, q⟩ = vec nb s.z s.zn ⟨i, q⟩ := fun q => by rw [hplan]
    have e : Sum.elim (P.S i (ys i)) (fun q : {j // nb i j} × n => P.S q.1 (ys q.1) q.2) =
        Sum.elim (s.z i) (fun q : {j // nb i j} × n => s.zn i q.1 q.2) := by
      funext q
      have := hent q
      rcases q with q | q <;> simpa [plans, vec] using this
    unfold Spec.Coupled at hc ⊢
    rw [e]
    exact hc
  refine ⟨fun i => ⟨(h.1 i).1, hfeas i⟩, fun y c cn hy hc => ?_⟩
  have h1 := iterate_slope P hsym hf h hy
  rw [hplan, sub_self, smul_zero, add_zero] at h1
  have h2 := multipliers_flat P hρ h.2 hc (iterate_coupled P h.2)
  have h3 : inner ℝ (vec nb s.l s.ln) (plans P y - vec nb c cn) =
      ∑ i, (s.l i ⬝ᵥ (P.S i (y i) - c i) + ∑ j with nb i j, s.ln i j ⬝ᵥ (P.S j (y j) - cn i j)) := by
    unfold plans
    rw [vec_sub, vec_inner']
  rw [← h3]
  have e : plans P y - vec nb s.z s.zn = (plans P y - vec nb c cn) + (vec nb c cn - vec nb s.z s.zn) := by abel
  rw [e, inner_add_right, h2] at h1
  linarith

/-! ### The two vehicles on a line, from any start -/

theorem exP_convex (i : Bool) : ConvexOn ℝ (exP.C i) (exP.f i) := by
  refine ⟨convex_univ, fun x _ y _ a b ha hb hab => ?_⟩
  obtain rfl : b = 1 - a := by linarith
  simp only [exP, smul_eq_mul]
  nlinarith [mul_nonneg (mul_nonneg ha hb) (sq_nonneg (x - y))]

theorem exP_iterate (s : Vars Bool Unit) : ∃ t : (Bool → ℝ) × Vars Bool Unit, Iterate exP 2 s t.1 t.2 := by
  let y : Bool → ℝ := fun i => (2 * (if i then 3 else 0) - s.l i () - s.ln (!i) i () + 2 * s.z i () + 2 * s.zn (!i) i ()) / 6
  have hz := fun i : Bool => C24_defined (2 : ℝ) (by norm_num) (exP.A i)
    (fun c hc => by
      funext k
      have := congrFun hc (Sum.inl ())
      cases i <;> simpa [exP, Matrix.mulVec, dotProduct] using this)
    (exP.b i) (exP.S i (y i)) (s.l i) (fun p : {j // i ≠ j} × Unit => exP.S p.1 (y p.1) p.2) (fun p => s.ln i p.1 p.2)
  choose z zn hzz using hz
  refine ⟨⟨y, ⟨z, fun i => lUpdate 2 (s.l i) (exP.S i (y i)) (z i),
    fun i j k => if h : i ≠ j then zn i (⟨j, h⟩, k) else 0,
    fun i j => lUpdate 2 (s.ln i j) (exP.S j (y j)) (fun k => if h : i ≠ j then zn i (⟨j, h⟩, k) else 0)⟩⟩, fun i => ⟨Set.mem_univ _, fun y' _ => ?_⟩,
    fun i => ?_, fun i => rfl, fun i j hij => rfl⟩
  · cases i
    · have : (Finset.univ.filter fun j : Bool => false ≠ j) = {true} := by decide
      simp only [xObjective, this, Finset.sum_singleton]
      simp [exP, dotProduct, y]
      nlinarith [sq_nonneg (y' - (-s.l false () - s.ln true false () + 2 * s.z false () + 2 * s.zn true false ()) / 6)]
    · have : (Finset.univ.filter fun j : Bool => true ≠ j) = {false} := by decide
      simp only [xObjective, this, Finset.sum_singleton]
      simp [exP, dotProduct, y]
      nlinarith [sq_nonneg (y' - (2 * 3 - s.l true () - s.ln false true () + 2 * s.z true () + 2 * s.zn false true ()) / 6)]
  · have e : (fun p : {j // i ≠ j} × Unit => if h : i ≠ p.1 then zn i (⟨p.1, h⟩, p.2) else 0) = zn i := by
      funext p
      rw [dif_pos p.1.2]
    have := hzz i
    rw [← e] at this
    exact this

/-- Whatever the two vehicles begin with, the iteration goes on for ever, and its total cost tends to 2, the cost of standing at 1
and 2. -/
example (s0 : Vars Bool Unit) : ∃ (s : ℕ → Vars Bool Unit) (y : ℕ → Bool → ℝ), s 0 = s0 ∧ (∀ k, Iterate exP 2 (s k) (y k) (s (k + 1))) ∧
    Tendsto (fun k => combined exP 2 (s k) (y k) (s (k + 1))) atTop (𝓝 0) ∧
    Tendsto (fun k => (y k true - 3) ^ 2 + (y k false - 0) ^ 2) atTop (𝓝 2) := by
  choose t ht using exP_iterate
  let s : ℕ → Vars Bool Unit := fun k => k.rec s0 fun _ s => (t s).2
  have hit : ∀ k, Iterate exP 2 (s k) (t (s k)).1 (s (k + 1)) := fun k => ht (s k)
  have hp := C190_prices exP (fun i j h => h.symm) exP_convex (by norm_num) exIterate
  obtain ⟨h1, -, h3⟩ := C190_converges exP (fun i j h => h.symm) exP_convex (by norm_num) hp hit
  refine ⟨s, fun k => (t (s k)).1, rfl, hit, h1, ?_⟩
  simp only [Fintype.sum_bool, exP] at h3
  norm_num at h3 ⊢
  exact h3

/-- Among a hundred iterations one has a residual of at most a hundredth of the distance after the first. -/
example (s : ℕ → Vars Bool Unit) (y : ℕ → Bool → ℝ) (h : ∀ k, Iterate exP 2 (s k) (y k) (s (k + 1))) :
    ∃ k < 100, combined exP 2 (s (k + 1)) (y (k + 1)) (s (k + 2)) ≤
      Spec.gap exP 2 (fun i => if i then 2 else 1) exS.l exS.ln (s 1) / (100 : ℕ) :=
  (C190_progress exP (fun i j h => h.symm) exP_convex (by norm_num)
    (C190_prices exP (fun i j h => h.symm) exP_convex (by norm_num) exIterate) h 100).2 (by norm_num)

end Verif.ADMM
