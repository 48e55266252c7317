import Verif.ADMM.AccConverge

/-! # The start of the distributed iteration, and what the updaters have received (C195) -/

set_option linter.unusedSectionVars false

namespace Verif.ADMM

open Matrix Filter Topology

variable {V m n : Type} [Fintype V] [DecidableEq V] [Fintype m] [Fintype n]
variable {E : Type} [AddCommGroup E] [Module ℝ E]
variable {nb : V → V → Prop} [∀ i j, Decidable (nb i j)]

/-! ## Model -/

/-- All updaters: what they hold, and what they have received: `zr i j` and `lr i j` are the entries `z_ji` and `l_ji` of updater `i` for its
neighbour `j`, admm.py:34-40. -/
structure Received (V n : Type) where
  a : Acc (Joint V n)
  zr : V → V → n → ℝ
  lr : V → V → n → ℝ

/-- What the x-updates read, admm.py:372-381: the own copies and the received ones. -/
def Received.seen (w : Received V n) : Vars V n := ⟨w.a.z.1, w.a.l.1, fun j i => w.zr i j, fun j i => w.lr i j⟩

/-- `ADMM.communicate` of all updaters, admm.py:468-475. -/
def gossip (nb : V → V → Prop) [∀ i j, Decidable (nb i j)] (w : Received V n) : Received V n :=
  { w with
    zr := fun i j => if nb i j then w.a.z.2 j i else w.zr i j
    lr := fun i j => if nb i j then w.a.l.2 j i else w.lr i j }

/-- New updaters after `init_var_admm`, admm.py:360-370, where `guess i` are the shared variables of the first guess of vehicle `i`: `z_i` and
`z_ji` are set, everything else is zero (admm.py:34-40). -/
def beginAt (guess : V → n → ℝ) : Received V n := ⟨accInit (guess, 0) 0 0 0, fun i _ => guess i, 0⟩

/-- `ADMMProblem.reinitialize`, admm.py:574-577: `init_var_admm` again, of updaters that have been used. -/
def restartAt (guess : V → n → ℝ) (w : Received V n) : Received V n :=
  { w with a := { w.a with z := (guess, w.a.z.2) }, zr := fun i _ => guess i }

/-- `dual_update`, admm.py:584-612, at the start of a knot interval; `o` are the options of the acceleration if it is used. (The communication between the
x- and the z-updates is needed for `x_j` only; what it does to `z_ji` and `l_ji` is undone by the one at the end.) -/
structure Round (P : Problem V m n E nb) (ρ : ℝ) (o : Option AccOpt) (w : Received V n) (y : V → E) (s' : Vars V n) (w' : Received V n) : Prop where
  x : ∀ i, XUpdate P ρ w.seen i (y i)
  copies : Copies P ρ w.a.vars y s'
  next : w' = gossip nb { w with
    a := match o with
      | none => { w.a with zp := w.a.z, lp := w.a.l, z := (s'.z, s'.zn), l := (s'.l, s'.ln) }
      | some o => accStep o w.a ((s'.z, s'.zn), (s'.l, s'.ln), combined P ρ w.a.vars y s') }

/-! ## Lemmas -/

theorem xUpdate_seen (P : Problem V m n E nb) {ρ : ℝ} {w : Received V n} (h : ∀ i j, nb i j → w.zr i j = w.a.z.2 j i ∧ w.lr i j = w.a.l.2 j i)
    (i : V) (y : E) : XUpdate P ρ w.seen i y ↔ XUpdate P ρ w.a.vars i y := by
  have e : ∀ y, xObjective P ρ w.seen i y = xObjective P ρ w.a.vars i y := by
    intro y
    unfold xObjective
    congr 1
    refine Finset.sum_congr rfl fun j hj => ?_
    obtain ⟨h1, h2⟩ := h i j (Finset.mem_filter.1 hj).2
    change w.lr i j ⬝ᵥ _ + _ = w.a.l.2 j i ⬝ᵥ _ + _
    rw [h2]
    change _ + ρ / 2 * ((P.S i y - w.zr i j) ⬝ᵥ (P.S i y - w.zr i j)) = _ + ρ / 2 * ((P.S i y - w.a.z.2 j i) ⬝ᵥ (P.S i y - w.a.z.2 j i))
    rw [h1]
    change _ ⬝ᵥ (P.S i y - w.zr i j) + _ = _ ⬝ᵥ (P.S i y - w.a.z.2 j i) + _
    rw [h1]
  unfold XUpdate
  simp only [e]

/-- With restarts and `eta` below 1 some iteration is accepted after the first. -/
theorem some_accepted {P : Problem V m n E nb} {ρ : ℝ} {o : AccOpt} {a : ℕ → Acc (Joint V n)} {y : ℕ → V → E} {s' : ℕ → Vars V n}
    (he : 0 < o.eta) (he1 : o.eta < 1) (ha : o.ama = false) (h0' : (a 0).cp = none) (h : AccRun P ρ o a y s')
    (hanti : Antitone fun k => combined P ρ (a (k + 1)).vars (y (k + 1)) (s' (k + 1))) (hc : 0 < combined P ρ (a 0).vars (y 0) (s' 0)) :
    ∃ k, ¬ Spec.Rejected o (a (k + 1)) (combined P ρ (a (k + 1)).vars (y (k + 1)) (s' (k + 1))) := by
  by_contra hcon
  push Not at hcon
  have hcp : ∀ k, (a (k + 1)).cp = some ((1 / o.eta) ^ k * combined P ρ (a 0).vars (y 0) (s' 0)) := by
    intro k
    induction k with
    | zero =>
      rcases accStep_relaxed o he ha (a 0) ((s' 0).z, (s' 0).zn) ((s' 0).l, (s' 0).ln) (combined P ρ (a 0).vars (y 0) (s' 0)) with
        ⟨q, hq, -⟩ | ⟨-, -, -, -, e⟩
      · rw [h0'] at hq; cases hq
      · rw [h.acc 0, e, pow_zero, one_mul]
    | succ k ih =>
      rcases accStep_relaxed o he ha (a (k + 1)) ((s' (k + 1)).z, (s' (k + 1)).zn) ((s' (k + 1)).l, (s' (k + 1)).ln)
        (combined P ρ (a (k + 1)).vars (y (k + 1)) (s' (k + 1))) with ⟨q, hq, -, -, -, -, e⟩ | ⟨hacc, -⟩
      · rw [ih] at hq
        rw [h.acc (k + 1), e, ← Option.some.inj hq, pow_succ]
        congr 1
        ring
      · obtain ⟨hres, q, hq, hlt⟩ := hcon k
        exact absurd (hacc q hq hres) (not_le.2 hlt)
  obtain ⟨k, hk⟩ := pow_unbounded_of_one_lt (combined P ρ (a 1).vars (y 1) (s' 1) / combined P ρ (a 0).vars (y 0) (s' 0))
    (show 1 < 1 / o.eta by rw [lt_div_iff₀ he]; linarith)
  obtain ⟨-, q, hq, hlt⟩ := hcon (k + 1)
  rw [hcp] at hq
  rw [← Option.some.inj hq, pow_succ, mul_comm _ (1 / o.eta), mul_assoc, ← mul_assoc o.eta, mul_one_div_cancel he.ne', one_mul] at hlt
  rw [div_lt_iff₀ hc] at hk
  have := hanti (Nat.zero_le (k + 1))
  simp only [zero_add] at this
  linarith

/-! ## C195 -/

/-- **C195**: whatever the updaters held and had received before, after an iteration every updater has received what its neighbours hold. -/
theorem C195_agree (P : Problem V m n E nb) {ρ : ℝ} {o : Option AccOpt} {w w' : Received V n} {y : V → E} {s' : Vars V n}
    (h : Round P ρ o w y s' w') (i j : V) (hij : nb i j) : w'.zr i j = w'.a.z.2 j i ∧ w'.lr i j = w'.a.l.2 j i := by
  rw [h.next]
  simp [gossip, hij]

/-- **C195**: so every iteration but the first is one of the method: those of C190 without, of C194 with acceleration. -/
theorem C195_refines (P : Problem V m n E nb) {ρ : ℝ} {o : Option AccOpt} {w : ℕ → Received V n} {y : ℕ → V → E} {s' : ℕ → Vars V n}
    (h : ∀ k, Round P ρ o (w k) (y k) (s' k) (w (k + 1))) (k : ℕ) :
    match o with
    | none => Iterate P ρ (w (k + 1)).a.vars (y (k + 1)) (w (k + 2)).a.vars
    | some o => AccIterate P ρ o (w (k + 1)).a (y (k + 1)) (s' (k + 1)) (w (k + 2)).a := by
  have hit : Iterate P ρ (w (k + 1)).a.vars (y (k + 1)) (s' (k + 1)) :=
    ⟨fun i => (xUpdate_seen P (C195_agree P (h k)) i _).1 ((h (k + 1)).x i), (h (k + 1)).copies⟩
  have hn := (h (k + 1)).next
  cases o with
  | none =>
    have e : (w (k + 2)).a.vars = s' (k + 1) := by rw [show k + 2 = k + 1 + 1 from rfl, hn]; rfl
    simp only
    rw [e]
    exact hit
  | some o =>
    refine ⟨hit, ?_⟩
    rw [show k + 2 = k + 1 + 1 from rfl, hn]
    rfl

theorem accRun_of_rounds {P : Problem V m n E nb} {ρ : ℝ} {o : AccOpt} {w : ℕ → Received V n} {y : ℕ → V → E} {s' : ℕ → Vars V n}
    (h : ∀ k, Round P ρ (some o) (w k) (y k) (s' k) (w (k + 1))) : AccRun P ρ o (fun k => (w k).a) y s' :=
  ⟨fun k => (h k).copies, fun k => (C195_refines P h k).1.1, fun k => by
    rw [(h k).next]
    rfl⟩

/-- **C195**: without acceleration the iteration converges from whatever the updaters hold and have received, so from the start of the code and after any
reinitialisation. -/
theorem C195_plain (P : Problem V m n E nb) (hsym : ∀ i j, nb i j → nb j i) (hf : ∀ i, ConvexOn ℝ (P.C i) (P.f i)) {ρ : ℝ}
    (hρ : 0 < ρ) {w : ℕ → Received V n} {y : ℕ → V → E} {s' : ℕ → Vars V n} {ys : V → E} {p : V → n → ℝ} {pn : V → V → n → ℝ}
    (hp : Spec.Prices P ys p pn) (h : ∀ k, Round P ρ none (w k) (y k) (s' k) (w (k + 1))) :
    Tendsto (fun k => combined P ρ (w k).a.vars (y k) (s' k)) atTop (𝓝 0) ∧
    (∀ i, Tendsto (fun k => P.A i *ᵥ Sum.elim (P.S i (y k i)) (fun q : {j // nb i j} × n => P.S q.1 (y k q.1) q.2)) atTop (𝓝 (P.b i))) ∧
    Tendsto (fun k => ∑ i, P.f i (y k i)) atTop (𝓝 (∑ i, P.f i (ys i))) := by
  have hs : ∀ k, (w (k + 1)).a.vars = s' k := fun k => by rw [(h k).next]; rfl
  obtain ⟨h1, h2, h3⟩ := C190_converges P hsym hf hρ hp (s := fun k => (w (k + 1)).a.vars) (y := fun k => y (k + 1)) (C195_refines P h)
  refine ⟨?_, fun i => ?_, ?_⟩
  · refine (tendsto_add_atTop_iff_nat (f := fun k => combined P ρ (w k).a.vars (y k) (s' k)) 1).1 ?_
    simp only [hs] at h1 ⊢
    exact h1
  · exact (tendsto_add_atTop_iff_nat
      (f := fun k => P.A i *ᵥ Sum.elim (P.S i (y k i)) (fun q : {j // nb i j} × n => P.S q.1 (y k q.1) q.2)) 1).1 (h2 i)
  · exact (tendsto_add_atTop_iff_nat (f := fun k => ∑ i, P.f i (y k i)) 1).1 h3

/-- **C195**, partially (missing: updaters that were used before; `eta = 1`): with acceleration the iteration converges from the start of the code, without
restarts, or with restarts if `eta < 1` and the first iteration has a positive residual. -/
theorem C195_accelerated_partial (P : Problem V m n E nb) (hsym : ∀ i j, nb i j → nb j i) (hf : ∀ i, ConvexOn ℝ (P.C i) (P.f i)) {ρ : ℝ}
    (hρ : 0 < ρ) {o : AccOpt} (he : 0 < o.eta) (ha : o.ama = false) {w : ℕ → Received V n} {y : ℕ → V → E} {s' : ℕ → Vars V n}
    {ys : V → E} {p : V → n → ℝ} {pn : V → V → n → ℝ} (hp : Spec.Prices P ys p pn) (guess : V → n → ℝ) (h0 : w 0 = beginAt guess)
    (h : ∀ k, Round P ρ (some o) (w k) (y k) (s' k) (w (k + 1)))
    (hr : o.reset = true → o.eta < 1 ∧ 0 < combined P ρ (w 0).a.vars (y 0) (s' 0)) :
    Tendsto (fun k => combined P ρ (w k).a.vars (y k) (s' k)) atTop (𝓝 0) ∧
    (∀ i, Tendsto (fun k => P.A i *ᵥ Sum.elim (P.S i (y k i)) (fun q : {j // nb i j} × n => P.S q.1 (y k q.1) q.2)) atTop (𝓝 (P.b i))) ∧
    Tendsto (fun k => ∑ i, P.f i (y k i)) atTop (𝓝 (∑ i, P.f i (ys i))) := by
  have hrun := accRun_of_rounds h
  have ha0 : (w 0).a.alpha = none := by rw [h0]; rfl
  have hc0 : (w 0).a.cp = none := by rw [h0]; rfl
  have hstep := acc_step hsym hf hρ hp he ha ha0 hc0 hrun
  have hanti : Antitone fun k => combined P ρ (w (k + 1)).a.vars (y (k + 1)) (s' (k + 1)) :=
    antitone_nat_of_succ_le fun k => (hstep k).2.1
  cases hres : o.reset with
  | false =>
    exact acc_converges hsym hf hρ hp he ha ha0 hc0 hrun (M := 0) fun k _ hrej => by rw [hrej.1] at hres; cases hres
  | true =>
    obtain ⟨he1, hc⟩ := hr hres
    obtain ⟨K, hK⟩ := some_accepted he he1 ha hc0 hrun hanti hc
    refine acc_converges hsym hf hρ hp he ha ha0 hc0 hrun (M := K + 1) (acc_rejected hρ he he1.le ha hrun (fun q hq => ?_) fun k hk => ?_)
    · rcases accStep_relaxed o he ha (w (K + 1)).a ((s' (K + 1)).z, (s' (K + 1)).zn) ((s' (K + 1)).l, (s' (K + 1)).ln)
        (combined P ρ (w (K + 1)).a.vars (y (K + 1)) (s' (K + 1))) with ⟨r, hr, hlt, -⟩ | ⟨-, -, -, -, e⟩
      · exact absurd ⟨hres, r, hr, hlt⟩ hK
      · have e' : (w (K + 1 + 1)).a = _ := hrun.acc (K + 1)
        rw [e', e] at hq
        exact (Option.some.inj hq).le
    · obtain ⟨k, rfl⟩ : ∃ k', k = k' + 1 := ⟨k - 1, by omega⟩
      exact hanti (Nat.le_succ k)

/-! ### Two vehicles that must meet -/

/-- Both vehicles want to be at 90, and must be at the same place. -/
noncomputable def exQ : Problem Bool Unit Unit ℝ (fun i j => i ≠ j) where
  f _ y := (y - 90) ^ 2
  C _ := Set.univ
  S _ := (LinearMap.pi fun _ => LinearMap.id).toAffineMap
  A _ := Matrix.of fun _ => Sum.elim (fun _ => 1) (fun _ => -1)
  b _ := 0

/-- What the x-updates return with penalty 9. -/
noncomputable def planQ (w : Received Bool Unit) (i : Bool) : ℝ :=
  (180 - w.a.l.1 i () - w.lr i (!i) () + 9 * w.a.z.1 i () + 9 * w.zr i (!i) ()) / 20

noncomputable def meanQ (w : Received Bool Unit) (i : Bool) : ℝ :=
  (planQ w i + w.a.l.1 i () / 9 + (planQ w (!i) + w.a.l.2 i (!i) () / 9)) / 2

noncomputable def varsQ (w : Received Bool Unit) : Vars Bool Unit where
  z i := fun _ => meanQ w i
  l i := fun _ => w.a.l.1 i () + 9 * (planQ w i - meanQ w i)
  zn i _ := fun _ => meanQ w i
  ln i j := fun _ => w.a.l.2 i j () + 9 * (planQ w j - meanQ w i)

noncomputable def nextQ (o : AccOpt) (w : Received Bool Unit) : Received Bool Unit :=
  gossip (fun i j => i ≠ j) { w with a := accStep o w.a (((varsQ w).z, (varsQ w).zn), ((varsQ w).l, (varsQ w).ln),
    combined exQ 9 w.a.vars (planQ w) (varsQ w)) }

theorem subF : (Finset.univ : Finset {j : Bool // false ≠ j}) = {⟨true, by decide⟩} := by decide

theorem subT : (Finset.univ : Finset {j : Bool // true ≠ j}) = {⟨false, by decide⟩} := by decide

theorem roundQ (o : AccOpt) (w : Received Bool Unit) : Round exQ 9 (some o) w (planQ w) (varsQ w) (nextQ o w) where
  x i := by
    refine ⟨trivial, fun y' _ => ?_⟩
    cases i
    · have : (Finset.univ.filter fun j : Bool => false ≠ j) = {true} := by decide
      simp only [xObjective, this, Finset.sum_singleton]
      simp [exQ, dotProduct, Received.seen, planQ]
      nlinarith [sq_nonneg (y' - (180 - w.a.l.1 false () - w.lr false true () + 9 * w.a.z.1 false () + 9 * w.zr false true ()) / 20)]
    · have : (Finset.univ.filter fun j : Bool => true ≠ j) = {false} := by decide
      simp only [xObjective, this, Finset.sum_singleton]
      simp [exQ, dotProduct, Received.seen, planQ]
      nlinarith [sq_nonneg (y' - (180 - w.a.l.1 true () - w.lr true false () + 9 * w.a.z.1 true () + 9 * w.zr true false ()) / 20)]
  copies := by
    refine ⟨fun i => ⟨fun _ => ((w.a.l.1 i () + 9 * planQ w i) - (w.a.l.2 i (!i) () + 9 * planQ w (!i))) / 2, ?_, ?_, ?_⟩, fun i => ?_, fun i j _ => ?_⟩
    · funext k
      cases i
      · simp [gmat, hvec, fvec, Matrix.mulVec, Matrix.mul_apply, dotProduct, exQ, Acc.vars, Fintype.sum_prod_type, subF]
        ring
      · simp [gmat, hvec, fvec, Matrix.mulVec, Matrix.mul_apply, dotProduct, exQ, Acc.vars, Fintype.sum_prod_type, subT]
        ring
    · funext k
      simp [zvec, fvec, Matrix.mulVec, dotProduct, exQ, Acc.vars, varsQ, meanQ]
      ring
    · funext k
      obtain ⟨⟨j, hj⟩, u⟩ := k
      obtain rfl : j = !i := by cases i <;> cases j <;> simp_all
      simp [zvec, fvec, Matrix.mulVec, dotProduct, exQ, Acc.vars, varsQ, meanQ]
      ring
    · funext k
      simp [varsQ, lUpdate, Acc.vars, exQ]
    · funext k
      simp [varsQ, lUpdate, Acc.vars, exQ]
  next := rfl

theorem combinedQ (s s' : Vars Bool Unit) (y : Bool → ℝ) : combined exQ 9 s y s' = 9 * (
    (y true - s'.z true ()) ^ 2 + (y false - s'.zn true false ()) ^ 2 + (y false - s'.z false ()) ^ 2 + (y true - s'.zn false true ()) ^ 2 +
    ((s'.z true () - s.z true ()) ^ 2 + (s'.zn true false () - s.zn true false ()) ^ 2 + (s'.z false () - s.z false ()) ^ 2 +
      (s'.zn false true () - s.zn false true ()) ^ 2)) := by
  have h1 : (Finset.univ.filter fun j : Bool => false ≠ j) = {true} := by decide
  have h2 : (Finset.univ.filter fun j : Bool => true ≠ j) = {false} := by decide
  rw [combined_eq]
  unfold plans
  rw [vec_sub, vec_sub, vec_norm, vec_norm]
  unfold Spec.square
  rw [Fintype.sum_bool, Fintype.sum_bool, h1, h2]
  simp [exQ]
  ring

/-- Where the updaters agree on 0, the next iteration would move them to 9. -/
theorem stuckQ (o : AccOpt) (he : 0 < o.eta) (hr : o.reset = true) (ha : o.ama = false) (w : Received Bool Unit) (hz : w.a.z = 0) (hl : w.a.l = 0)
    (hzr : ∀ i, w.zr i (!i) = 0) (hlr : ∀ i, w.lr i (!i) = 0) {q : ℝ} (hq : w.a.cp = some q) (hlt : o.eta * q < 2916) :
    combined exQ 9 w.a.vars (planQ w) (varsQ w) = 2916 ∧ Spec.Rejected o w.a (combined exQ 9 w.a.vars (planQ w) (varsQ w)) ∧
    (nextQ o w).a.z = 0 ∧ (nextQ o w).a.l = 0 ∧ (∀ i, (nextQ o w).zr i (!i) = 0) ∧ (∀ i, (nextQ o w).lr i (!i) = 0) ∧
    (nextQ o w).a.cp = some (1 / o.eta * q) := by
  have hp : ∀ i, planQ w i = 9 := by
    intro i
    unfold planQ
    rw [hz, hl, hzr, hlr]
    norm_num
  have hm : ∀ i, meanQ w i = 9 := by
    intro i
    unfold meanQ
    rw [hp, hp, hl]
    norm_num
  have hc : combined exQ 9 w.a.vars (planQ w) (varsQ w) = 2916 := by
    rw [combinedQ]
    simp only [varsQ, hp, hm, Acc.vars, hz]
    norm_num
  have hrej : Spec.Rejected o w.a (combined exQ 9 w.a.vars (planQ w) (varsQ w)) := ⟨hr, q, hq, by rw [hc]; exact hlt⟩
  rcases accStep_relaxed o he ha w.a ((varsQ w).z, (varsQ w).zn) ((varsQ w).l, (varsQ w).ln) (combined exQ 9 w.a.vars (planQ w) (varsQ w)) with
    ⟨p, hp, -, e1, e2, -, e3⟩ | ⟨hacc, -⟩
  · obtain rfl := Option.some.inj (hp.symm.trans hq)
    have f1 : (nextQ o w).a.z = 0 := e1.trans hz
    have f2 : (nextQ o w).a.l = 0 := e2.trans hl
    refine ⟨hc, hrej, f1, f2, fun i => ?_, fun i => ?_, e3⟩
    · rw [(C195_agree exQ (roundQ o w) i (!i) (by cases i <;> decide)).1, f1]; rfl
    · rw [(C195_agree exQ (roundQ o w) i (!i) (by cases i <;> decide)).2, f2]; rfl
  · have := hacc q hq hr
    rw [hc] at this
    linarith

/-- The run of the code from the guesses `g`. -/
noncomputable def runQ (o : AccOpt) (w : Received Bool Unit) : ℕ → Received Bool Unit
  | 0 => w
  | k + 1 => nextQ o (runQ o w k)

theorem firstQ (o : AccOpt) (he : 0 < o.eta) (ha : o.ama = false) : (nextQ o (beginAt fun _ _ => -10)).a.z = 0 ∧
    (nextQ o (beginAt fun _ _ => -10)).a.l = 0 ∧ (∀ i, (nextQ o (beginAt fun _ _ => -10)).zr i (!i) = 0) ∧
    (∀ i, (nextQ o (beginAt fun _ _ => -10)).lr i (!i) = 0) ∧ (nextQ o (beginAt fun _ _ => -10)).a.cp = some 1800 := by
  obtain ⟨w, hw⟩ : ∃ w : Received Bool Unit, w = beginAt fun _ _ => -10 := ⟨_, rfl⟩
  rw [← hw]
  have hp : ∀ i, planQ w i = 0 := by
    intro i
    unfold planQ
    rw [hw]
    simp [beginAt, accInit]
    norm_num
  have hm : ∀ i, meanQ w i = 0 := by
    intro i
    unfold meanQ
    rw [hp, hp, hw]
    simp [beginAt, accInit]
  have hc : combined exQ 9 w.a.vars (planQ w) (varsQ w) = 1800 := by
    rw [combinedQ]
    simp only [varsQ, hp, hm, Acc.vars]
    rw [hw]
    simp [beginAt, accInit]
    norm_num
  have hz : ((varsQ w).z, (varsQ w).zn) = (0 : Joint Bool Unit) := by
    refine Prod.ext ?_ ?_
    · funext i k; exact hm i
    · funext i j k; exact hm i
  have hl : ((varsQ w).l, (varsQ w).ln) = (0 : Joint Bool Unit) := by
    refine Prod.ext ?_ ?_
    · funext i k; simp only [varsQ, hp, hm]; rw [hw]; simp [beginAt, accInit]
    · funext i j k; simp only [varsQ, hp, hm]; rw [hw]; simp [beginAt, accInit]
  rcases accStep_relaxed o he ha w.a ((varsQ w).z, (varsQ w).zn) ((varsQ w).l, (varsQ w).ln) (combined exQ 9 w.a.vars (planQ w) (varsQ w)) with
    ⟨p, hp, -⟩ | ⟨-, e1, e2, -, e3⟩
  · rw [hw] at hp
    cases hp
  · have h1 : Spec.param w.a = 1 := by rw [hw]; rfl
    rw [h1, sub_self, zero_div, zero_smul, add_zero, hz] at e1
    rw [h1, sub_self, zero_div, zero_smul, add_zero, hl] at e2
    have f1 : (nextQ o w).a.z = 0 := by rw [← e1, ← hz]; rfl
    have f2 : (nextQ o w).a.l = 0 := by rw [← e2, ← hl]; rfl
    rw [hc] at e3
    refine ⟨f1, f2, fun i => ?_, fun i => ?_, ?_⟩
    · rw [(C195_agree exQ (roundQ o w) i (!i) (by cases i <;> decide)).1, f1]; rfl
    · rw [(C195_agree exQ (roundQ o w) i (!i) (by cases i <;> decide)).2, f2]; rfl
    · rw [← e3, ← hc]; rfl

theorem rejectedQ (o : AccOpt) (he : 0 < o.eta) (he1 : o.eta ≤ 1) (hr : o.reset = true) (ha : o.ama = false) {N : ℕ}
    (hb : o.eta * ((1 / o.eta) ^ N * 1800) < 2916) (k : ℕ) (hk : k ≤ N) :
    combined exQ 9 (runQ o (beginAt fun _ _ => -10) (k + 1)).a.vars (planQ (runQ o (beginAt fun _ _ => -10) (k + 1)))
      (varsQ (runQ o (beginAt fun _ _ => -10) (k + 1))) = 2916 ∧
    Spec.Rejected o (runQ o (beginAt fun _ _ => -10) (k + 1)).a (combined exQ 9 (runQ o (beginAt fun _ _ => -10) (k + 1)).a.vars
      (planQ (runQ o (beginAt fun _ _ => -10) (k + 1))) (varsQ (runQ o (beginAt fun _ _ => -10) (k + 1)))) := by
  have hone : 1 ≤ 1 / o.eta := by rw [le_div_iff₀ he]; linarith
  have hb' : ∀ k ≤ N, o.eta * ((1 / o.eta) ^ k * 1800) < 2916 := fun k hk => by
    have h1 := pow_le_pow_right₀ hone hk
    have h2 := mul_le_mul_of_nonneg_left (mul_le_mul_of_nonneg_right h1 (show (0 : ℝ) ≤ 1800 by norm_num)) he.le
    linarith
  have key : ∀ k ≤ N, (runQ o (beginAt fun _ _ => -10) (k + 1)).a.z = 0 ∧ (runQ o (beginAt fun _ _ => -10) (k + 1)).a.l = 0 ∧
      (∀ i, (runQ o (beginAt fun _ _ => -10) (k + 1)).zr i (!i) = 0) ∧ (∀ i, (runQ o (beginAt fun _ _ => -10) (k + 1)).lr i (!i) = 0) ∧
      (runQ o (beginAt fun _ _ => -10) (k + 1)).a.cp = some ((1 / o.eta) ^ k * 1800) := by
    intro k
    induction k with
    | zero =>
      intro _
      obtain ⟨h1, h2, h3, h4, h5⟩ := firstQ o he ha
      exact ⟨h1, h2, h3, h4, by rw [pow_zero, one_mul]; exact h5⟩
    | succ k ih =>
      intro hk
      obtain ⟨h1, h2, h3, h4, h5⟩ := ih (by omega)
      obtain ⟨-, -, g1, g2, g3, g4, g5⟩ := stuckQ o he hr ha _ h1 h2 h3 h4 h5 (hb' k (by omega))
      refine ⟨g1, g2, g3, g4, g5.trans ?_⟩
      rw [pow_succ]
      congr 1
      ring
  obtain ⟨h1, h2, h3, h4, h5⟩ := key k hk
  obtain ⟨g1, g2, -⟩ := stuckQ o he hr ha _ h1 h2 h3 h4 h5 (hb' k hk)
  exact ⟨g1, g2⟩

theorem exQ_convex (i : Bool) : ConvexOn ℝ (exQ.C i) (exQ.f i) := by
  refine ⟨convex_univ, fun x _ y _ a b ha hb hab => ?_⟩
  obtain rfl : b = 1 - a := by linarith
  simp only [exQ, smul_eq_mul]
  nlinarith [mul_nonneg (mul_nonneg ha hb) (sq_nonneg (x - y))]

theorem exQ_prices : Spec.Prices exQ (fun _ => 90) 0 0 where
  feasible i := by
    refine ⟨trivial, ?_⟩
    unfold Spec.Coupled
    funext k
    cases i
    · simp [exQ, Matrix.mulVec, dotProduct]
    · simp [exQ, Matrix.mulVec, dotProduct]
  best y c cn _ _ := by
    simp [exQ]
    positivity

/-- The two vehicles that must meet, with restarts and the default `eta`: in spite of the rejected iterations (see `C195_delay_violated`) they come to 90. -/
example : ∃ (w : ℕ → Received Bool Unit) (y : ℕ → Bool → ℝ) (s' : ℕ → Vars Bool Unit), w 0 = beginAt (fun _ _ => -10) ∧
    (∀ k, Round exQ 9 (some ⟨0.999, true, false⟩) (w k) (y k) (s' k) (w (k + 1))) ∧
    Tendsto (fun k => (y k true - 90) ^ 2 + (y k false - 90) ^ 2) atTop (𝓝 0) := by
  let o : AccOpt := ⟨0.999, true, false⟩
  let w := runQ o (beginAt fun _ _ => -10)
  refine ⟨w, fun k => planQ (w k), fun k => varsQ (w k), rfl, fun k => roundQ _ _, ?_⟩
  have h := (C195_accelerated_partial exQ (fun i j h => h.symm) exQ_convex (by norm_num : (0 : ℝ) < 9) (o := o) (by norm_num [o]) rfl exQ_prices
    (fun _ _ => -10) (w := w) rfl (fun k => roundQ o _) fun _ => ⟨by norm_num [o], ?_⟩).2.2
  · simpa [exQ, Fintype.sum_bool] using h
  · have h1 : (w 1).a.cp = some 1800 := (firstQ o (by norm_num [o]) rfl).2.2.2.2
    rcases accStep_relaxed o (by norm_num [o]) rfl (w 0).a ((varsQ (w 0)).z, (varsQ (w 0)).zn) ((varsQ (w 0)).l, (varsQ (w 0)).ln)
      (combined exQ 9 (w 0).a.vars (planQ (w 0)) (varsQ (w 0))) with ⟨q, hq, -⟩ | ⟨-, -, -, -, e⟩
    · cases hq
    · have := Option.some.inj (h1.symm.trans e)
      rw [← this]
      norm_num

/-- Where the updaters agree on 90 and have no multipliers, nothing changes. -/
theorem restQ (o : AccOpt) (he : 0 < o.eta) (ha : o.ama = false) (w : Received Bool Unit) (hz : w.a.z.1 = fun _ _ => 90) (hl : w.a.l = 0)
    (hzr : ∀ i, w.zr i (!i) = fun _ => 90) (hlr : ∀ i, w.lr i (!i) = 0)
    (hq : w.a.cp = none ∧ w.a.alpha = none ∨ (∃ q, w.a.cp = some q ∧ 0 ≤ q) ∧ w.a.z.2 = fun _ _ _ => 90) :
    (nextQ o w).a.z = (fun _ _ => 90, fun _ _ _ => 90) ∧ (nextQ o w).a.l = 0 ∧ (∀ i, (nextQ o w).zr i (!i) = fun _ => 90) ∧
    (∀ i, (nextQ o w).lr i (!i) = 0) ∧ (nextQ o w).a.cp = some (combined exQ 9 w.a.vars (planQ w) (varsQ w)) ∧
    (w.a.z.2 = (fun _ _ _ => 90) → combined exQ 9 w.a.vars (planQ w) (varsQ w) = 0) := by
  have hp : ∀ i, planQ w i = 90 := by
    intro i
    unfold planQ
    rw [hz, hl, hzr, hlr]
    norm_num
  have hm : ∀ i, meanQ w i = 90 := by
    intro i
    unfold meanQ
    rw [hp, hp, hl]
    norm_num
  have hc : w.a.z.2 = (fun _ _ _ => 90) → combined exQ 9 w.a.vars (planQ w) (varsQ w) = 0 := by
    intro h2
    rw [combinedQ]
    simp only [varsQ, hp, hm, Acc.vars, hz, h2]
    norm_num
  have ez : ((varsQ w).z, (varsQ w).zn) = ((fun _ _ => 90, fun _ _ _ => 90) : Joint Bool Unit) := by
    refine Prod.ext ?_ ?_
    · funext i k; exact hm i
    · funext i j k; exact hm i
  have el : ((varsQ w).l, (varsQ w).ln) = (0 : Joint Bool Unit) := by
    refine Prod.ext ?_ ?_
    · funext i k; simp only [varsQ, hp, hm]; rw [hl]; simp
    · funext i j k; simp only [varsQ, hp, hm]; rw [hl]; simp
  have main : (nextQ o w).a.z = (fun _ _ => 90, fun _ _ _ => 90) ∧ (nextQ o w).a.l = 0 ∧
      (nextQ o w).a.cp = some (combined exQ 9 w.a.vars (planQ w) (varsQ w)) := by
    rcases accStep_relaxed o he ha w.a ((varsQ w).z, (varsQ w).zn) ((varsQ w).l, (varsQ w).ln)
      (combined exQ 9 w.a.vars (planQ w) (varsQ w)) with ⟨p, h1, h2, -⟩ | ⟨-, e1, e2, -, e3⟩
    · rcases hq with ⟨hq, -⟩ | ⟨⟨q, hq, hq0⟩, h90⟩
      · rw [hq] at h1; cases h1
      · obtain rfl := Option.some.inj (h1.symm.trans hq)
        rw [hc h90] at h2
        have := mul_nonneg he.le hq0
        linarith
    · rw [ez] at e1
      rw [el, hl] at e2
      have f1 : (nextQ o w).a.z = (fun _ _ => 90, fun _ _ _ => 90) := by
        rcases hq with ⟨-, hal⟩ | ⟨-, h90⟩
        · have h1 : Spec.param w.a = 1 := by unfold Spec.param; rw [hal]; rfl
          rw [h1, sub_self, zero_div, zero_smul, add_zero] at e1
          rw [← e1, ← ez]; rfl
        · rw [show w.a.z = (fun _ _ => 90, fun _ _ _ => 90) from Prod.ext hz h90, sub_self, smul_zero, add_zero] at e1
          rw [← e1, ← ez]; rfl
      rw [sub_zero, smul_zero, add_zero] at e2
      exact ⟨f1, by rw [← e2, ← el]; rfl, e3⟩
  obtain ⟨f1, f2, f3⟩ := main
  refine ⟨f1, f2, fun i => ?_, fun i => ?_, f3, hc⟩
  · rw [(C195_agree exQ (roundQ o w) i (!i) (by cases i <;> decide)).1, f1]
  · rw [(C195_agree exQ (roundQ o w) i (!i) (by cases i <;> decide)).2, f2]; rfl

/-- With copies at 80 and 90, and the residual 0 of a former solution. -/
theorem stuckR (o : AccOpt) (he : 0 < o.eta) (hr : o.reset = true) (ha : o.ama = false) (w : Received Bool Unit)
    (hz : w.a.z = (fun _ _ => 80, fun _ _ _ => 90)) (hl : w.a.l = 0) {x : ℝ} (hzr : ∀ i, w.zr i (!i) = fun _ => x) (hlr : ∀ i, w.lr i (!i) = 0)
    (hq : w.a.cp = some 0) :
    Spec.Rejected o w.a (combined exQ 9 w.a.vars (planQ w) (varsQ w)) ∧ (∀ i, planQ w i = 45 + 9 * x / 20) ∧
    (nextQ o w).a.z = (fun _ _ => 80, fun _ _ _ => 90) ∧ (nextQ o w).a.l = 0 ∧ (∀ i, (nextQ o w).zr i (!i) = fun _ => 90) ∧
    (∀ i, (nextQ o w).lr i (!i) = 0) ∧ (nextQ o w).a.cp = some 0 := by
  have hp : ∀ i, planQ w i = 45 + 9 * x / 20 := by
    intro i
    unfold planQ
    rw [hz, hl, hzr, hlr]
    simp
    ring
  have hm : ∀ i, meanQ w i = 45 + 9 * x / 20 := by
    intro i
    unfold meanQ
    rw [hp, hp, hl]
    simp
  have hc : 0 < combined exQ 9 w.a.vars (planQ w) (varsQ w) := by
    rw [combinedQ]
    simp only [varsQ, hp, hm, Acc.vars, hz]
    nlinarith [sq_nonneg (45 + 9 * x / 20 - 80), sq_nonneg (45 + 9 * x / 20 - 90), sq_nonneg (45 + 9 * x / 20 - 85)]
  have hrej : Spec.Rejected o w.a (combined exQ 9 w.a.vars (planQ w) (varsQ w)) := ⟨hr, 0, hq, by rw [mul_zero]; exact hc⟩
  rcases accStep_relaxed o he ha w.a ((varsQ w).z, (varsQ w).zn) ((varsQ w).l, (varsQ w).ln) (combined exQ 9 w.a.vars (planQ w) (varsQ w)) with
    ⟨p, h1, -, e1, e2, -, e3⟩ | ⟨hacc, -⟩
  · obtain rfl := Option.some.inj (h1.symm.trans hq)
    have f1 : (nextQ o w).a.z = _ := e1.trans hz
    have f2 : (nextQ o w).a.l = 0 := e2.trans hl
    refine ⟨hrej, hp, f1, f2, fun i => ?_, fun i => ?_, e3.trans (by rw [mul_zero])⟩
    · rw [(C195_agree exQ (roundQ o w) i (!i) (by cases i <;> decide)).1, f1]
    · rw [(C195_agree exQ (roundQ o w) i (!i) (by cases i <;> decide)).2, f2]; rfl
  · have := hacc 0 hq hr
    rw [mul_zero] at this
    linarith

/-- **C195** fails with restarts after `reinitialize`, with the default `eta`: the smallest residual of the former problem is kept. Two vehicles that had met at 90
are reinitialised at 80: every further iteration is rejected, and the plans stay at 85.5. -/
theorem C195_restart_violated : ∃ (w v : ℕ → Received Bool Unit) (y u : ℕ → Bool → ℝ) (s' t' : ℕ → Vars Bool Unit),
    w 0 = beginAt (fun _ _ => 90) ∧ (∀ k, Round exQ 9 (some ⟨0.999, true, false⟩) (w k) (y k) (s' k) (w (k + 1))) ∧
    v 0 = restartAt (fun _ _ => 80) (w 2) ∧ (∀ k, Round exQ 9 (some ⟨0.999, true, false⟩) (v k) (u k) (t' k) (v (k + 1))) ∧
    (∀ k, Spec.Rejected ⟨0.999, true, false⟩ (v k).a (combined exQ 9 (v k).a.vars (u k) (t' k))) ∧ ∀ k i, u (k + 1) i = 85.5 := by
  have he : (0 : ℝ) < (⟨0.999, true, false⟩ : AccOpt).eta := by norm_num
  obtain ⟨a1, a2, a3, a4, a5, -⟩ := restQ ⟨0.999, true, false⟩ he rfl (beginAt fun _ _ => 90) rfl rfl (fun _ => rfl) (fun _ => rfl) (Or.inl ⟨rfl, rfl⟩)
  obtain ⟨b1, b2, b3, b4, b5, b6⟩ := restQ ⟨0.999, true, false⟩ he rfl _ (by rw [a1]) a2 a3 a4
    (Or.inr ⟨⟨_, a5, combined_nonneg exQ (by norm_num) _ _ _⟩, by rw [a1]⟩)
  rw [b6 (by rw [a1])] at b5
  let o : AccOpt := ⟨0.999, true, false⟩
  let v0 := restartAt (fun _ _ => 80) (nextQ o (nextQ o (beginAt fun _ _ => 90)))
  obtain ⟨c1, -, c3⟩ := stuckR o he rfl rfl v0 (x := 80) (by simp only [v0, restartAt]; rw [b1]) b2 (fun _ => rfl) b4 b5
  have key : ∀ k, (runQ o v0 (k + 1)).a.z = (fun _ _ => 80, fun _ _ _ => 90) ∧ (runQ o v0 (k + 1)).a.l = 0 ∧
      (∀ i, (runQ o v0 (k + 1)).zr i (!i) = fun _ => 90) ∧ (∀ i, (runQ o v0 (k + 1)).lr i (!i) = 0) ∧ (runQ o v0 (k + 1)).a.cp = some 0 := by
    intro k
    induction k with
    | zero => exact c3
    | succ k ih =>
      obtain ⟨h1, h2, h3, h4, h5⟩ := ih
      exact (stuckR o he rfl rfl _ h1 h2 h3 h4 h5).2.2
  have key' := fun k => stuckR o he rfl rfl _ (key k).1 (key k).2.1 (key k).2.2.1 (key k).2.2.2.1 (key k).2.2.2.2
  refine ⟨runQ o (beginAt fun _ _ => 90), runQ o v0, fun k => planQ (runQ o (beginAt fun _ _ => 90) k), fun k => planQ (runQ o v0 k),
    fun k => varsQ (runQ o (beginAt fun _ _ => 90) k), fun k => varsQ (runQ o v0 k), rfl, fun k => roundQ _ _, rfl, fun k => roundQ _ _, fun k => ?_,
    fun k i => ?_⟩
  · cases k with
    | zero => exact c1
    | succ k => exact (key' k).1
  · exact ((key' k).2.1 i).trans (by norm_num)

/-- **C195** fails with restarts and `eta = 1`: the copies for neighbours begin at zero, but the vehicles first plan as if they were at their guesses, so that
the first residual can be too small: every further iteration is rejected, for ever, and the residual stays at 2916. -/
theorem C195_stuck_violated : ∃ (w : ℕ → Received Bool Unit) (y : ℕ → Bool → ℝ) (s' : ℕ → Vars Bool Unit), w 0 = beginAt (fun _ _ => -10) ∧
    (∀ k, Round exQ 9 (some ⟨1, true, false⟩) (w k) (y k) (s' k) (w (k + 1))) ∧
    ∀ k, combined exQ 9 (w (k + 1)).a.vars (y (k + 1)) (s' (k + 1)) = 2916 ∧
      Spec.Rejected ⟨1, true, false⟩ (w (k + 1)).a (combined exQ 9 (w (k + 1)).a.vars (y (k + 1)) (s' (k + 1))) :=
  ⟨runQ ⟨1, true, false⟩ (beginAt fun _ _ => -10), fun k => planQ (runQ _ _ k), fun k => varsQ (runQ _ _ k), rfl, fun k => roundQ _ _,
    fun k => rejectedQ ⟨1, true, false⟩ (by norm_num) (by norm_num) rfl rfl (N := k) (by norm_num) k le_rfl⟩

/-- **C195** fails with restarts and the default `eta` of 0.999: for the same reason the 400 iterations after the first can be rejected, one after the other. -/
theorem C195_delay_violated : ∃ (w : ℕ → Received Bool Unit) (y : ℕ → Bool → ℝ) (s' : ℕ → Vars Bool Unit), w 0 = beginAt (fun _ _ => -10) ∧
    (∀ k, Round exQ 9 (some ⟨0.999, true, false⟩) (w k) (y k) (s' k) (w (k + 1))) ∧
    ∀ k < 400, Spec.Rejected ⟨0.999, true, false⟩ (w (k + 1)).a (combined exQ 9 (w (k + 1)).a.vars (y (k + 1)) (s' (k + 1))) :=
  ⟨runQ ⟨0.999, true, false⟩ (beginAt fun _ _ => -10), fun k => planQ (runQ _ _ k), fun k => varsQ (runQ _ _ k), rfl, fun k => roundQ _ _,
    fun k hk => (rejectedQ ⟨0.999, true, false⟩ (by norm_num) (by norm_num) rfl rfl (N := 200 + 200) (by rw [pow_add]; norm_num) k hk.le).2⟩

end Verif.ADMM
