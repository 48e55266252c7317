import Verif.Spline.Expr

/-! # Concrete runs: constant and linear splines

Used by the concrete cases next to the theorems about constraints: expressions that combine constant
splines and splines that are linear in time really do evaluate (`Expr.Runs`), with the coefficients
one expects. -/

set_option linter.unusedSectionVars false
set_option linter.unusedSimpArgs false

namespace Verif.Spline

variable {K : Type*} [Field K] [LinearOrder K] [IsStrictOrderedRing K]

/-- Constants on `[0,1]`. -/
def L0 : Basis K := ⟨[0, 1], 0⟩
/-- Lines on `[0,1]`. -/
def L1 : Basis K := ⟨[0, 0, 1, 1], 1⟩

theorem L0_clamped : (L0 : Basis K).Clamped :=
  ⟨by norm_num [L0], by simp [L0],
    by intro i hi; have : i ≤ 0 := hi; interval_cases i; rfl,
    by norm_num [L0, Basis.k],
    by intro i h1 h2; have a : 1 ≤ i := h1; have b : i < 2 := h2; interval_cases i; rfl⟩

theorem L1_clamped : (L1 : Basis K).Clamped :=
  ⟨by norm_num [L1], by simp [L1],
    by intro i hi; have : i ≤ 1 := hi; interval_cases i <;> rfl,
    by norm_num [L1, Basis.k],
    by intro i h1 h2; have a : 2 ≤ i := h1; have b : i < 4 := h2; interval_cases i <;> rfl⟩

theorem L0_fn {x : K} (h0 : 0 ≤ x) (h1 : x ≤ 1) : (L0 : Basis K).fn 0 x = 1 := by
  by_cases h : x = 0
  · subst h; norm_num [L0, Basis.fn, cox, ind, Basis.k]
  · have : 0 < x := lt_of_le_of_ne h0 (Ne.symm h)
    norm_num [L0, Basis.fn, cox, ind, Basis.k, h0, h1, this]

theorem L1_fn {x : K} (h0 : 0 ≤ x) (h1 : x ≤ 1) : (L1 : Basis K).fn 0 x = 1 - x ∧ (L1 : Basis K).fn 1 x = x := by
  by_cases h : x = 0
  · subst h; norm_num [L1, Basis.fn, cox, ind, Basis.k]
  · have : 0 < x := lt_of_le_of_ne h0 (Ne.symm h)
    constructor <;> norm_num [L1, Basis.fn, cox, ind, Basis.k, h0, h1, this]

theorem L1_xmax : (L1 : Basis K).xmax = [0, 1] := by
  have key : ∀ i, argmaxOn ((L1 : Basis K).fn i) (L1 : Basis K).grid ∈ (L1 : Basis K).grid := fun i =>
    argmaxOn_mem _ _ (by intro h; simp [Basis.grid] at h)
  have dom : ∀ i, 0 ≤ argmaxOn ((L1 : Basis K).fn i) (L1 : Basis K).grid ∧
      argmaxOn ((L1 : Basis K).fn i) (L1 : Basis K).grid ≤ 1 := fun i => grid_mem L1_clamped (key i)
  have gm : ∀ j : ℕ, j ≤ 500 → (j : K) / 500 ∈ (L1 : Basis K).grid := by
    intro j hj
    unfold Basis.grid
    exact List.mem_map.2 ⟨j, List.mem_range.2 (by omega), by
      show (0 : K) + (1 - 0) * (j : K) / 500 = _; ring⟩
  have g0 := argmaxOn_ge ((L1 : Basis K).fn 0) (L1 : Basis K).grid (gm 0 (by omega))
  have g1 := argmaxOn_ge ((L1 : Basis K).fn 1) (L1 : Basis K).grid (gm 500 (by omega))
  rw [(L1_fn (dom 0).1 (dom 0).2).1, (L1_fn (by norm_num) (by norm_num)).1] at g0
  rw [(L1_fn (dom 1).1 (dom 1).2).2, (L1_fn (by norm_num) (by norm_num)).2] at g1
  have a0 : argmaxOn ((L1 : Basis K).fn 0) (L1 : Basis K).grid = 0 := by
    have := (dom 0).1; norm_num at g0; linarith
  have a1 : argmaxOn ((L1 : Basis K).fn 1) (L1 : Basis K).grid = 1 := by
    have := (dom 1).2; norm_num at g1; linarith
  show [argmaxOn ((L1 : Basis K).fn 0) (L1 : Basis K).grid, argmaxOn ((L1 : Basis K).fn 1) (L1 : Basis K).grid] = _
  rw [a0, a1]

theorem basis_ext {a b : Basis K} (hk : a.knots = b.knots) (hd : a.degree = b.degree) : a = b := by
  cases a; cases b; simp_all

theorem combine_eq (a b c : Basis K) (d : ℕ) (had : a.degree ≤ d) (hbd : b.degree ≤ d) (hc : c.degree = d)
    (hs : c.knots.Pairwise (· ≤ ·)) (h : ∀ t, neededMult a b d t = c.knots.count t) : a.combine b d = c := by
  obtain ⟨h1, h2, h3⟩ := C08_multiplicity a b d had hbd
  refine basis_ext (sorted_ext h2 hs fun t => ?_) ?_
  · rw [h3, h]
  · rw [hc]; rfl

theorem L_add : (L0 : Basis K).add L0 = L0 ∧ (L1 : Basis K).add L1 = L1 ∧ (L0 : Basis K).add L1 = L1 ∧
    (L1 : Basis K).add L0 = L1 := by
  refine ⟨C08_idem _ L0_clamped.sorted, C08_idem _ L1_clamped.sorted,
    combine_eq _ _ _ _ (by simp [L0, L1]) (by simp [L0, L1]) rfl L1_clamped.sorted fun t => ?_,
    combine_eq _ _ _ _ (by simp [L0, L1]) (by simp [L0, L1]) rfl L1_clamped.sorted fun t => ?_⟩ <;>
  · simp only [neededMult, L0, L1, List.count_cons, List.count_nil, List.mem_cons, List.not_mem_nil]
    by_cases e0 : t = 0
    · subst e0; norm_num
    · by_cases e1 : t = 1
      · subst e1; norm_num
      · simp [e0, e1, Ne.symm e0, Ne.symm e1]

theorem L_mul : (L0 : Basis K).mul L0 = L0 ∧ (L0 : Basis K).mul L1 = L1 ∧ (L1 : Basis K).mul L0 = L1 := by
  refine ⟨combine_eq _ _ _ _ (by simp [L0, L1]) (by simp [L0, L1]) rfl L0_clamped.sorted fun t => ?_,
    combine_eq _ _ _ _ (by simp [L0, L1]) (by simp [L0, L1]) rfl L1_clamped.sorted fun t => ?_,
    combine_eq _ _ _ _ (by simp [L0, L1]) (by simp [L0, L1]) rfl L1_clamped.sorted fun t => ?_⟩ <;>
  · simp only [neededMult, L0, L1, List.count_cons, List.count_nil, List.mem_cons, List.not_mem_nil]
    by_cases e0 : t = 0
    · subst e0; norm_num
    · by_cases e1 : t = 1
      · subst e1; norm_num
      · simp [e0, e1, Ne.symm e0, Ne.symm e1]

/-- Any matrix works that reproduces the functions on the interval. -/
theorem L0_solves (g : ℕ → K → K) (nc : ℕ) (T : ℕ → ℕ → K)
    (h : ∀ x, 0 ≤ x → x ≤ 1 → ∀ j, j < nc → T 0 j = g j x) : Solves (L0 : Basis K) g nc T := by
  have hx : ∀ x ∈ (L0 : Basis K).xmax, 0 ≤ x ∧ x ≤ 1 := fun x hx => xmax_mem L0_clamped hx
  constructor
  · intro c hc i hi
    have hi : i < 1 := hi
    obtain rfl : i = 0 := by omega
    have hm : argmaxOn ((L0 : Basis K).fn 0) (L0 : Basis K).grid ∈ (L0 : Basis K).xmax := List.mem_singleton.2 rfl
    have := hc _ hm
    obtain ⟨h0, h1⟩ := hx _ hm
    rw [show (L0 : Basis K).len = 1 from rfl, Finset.sum_range_one, L0_fn h0 h1, mul_one] at this
    exact this
  · intro x hx' j hj
    obtain ⟨h0, h1⟩ := hx x hx'
    rw [show (L0 : Basis K).len = 1 from rfl, Finset.sum_range_one, L0_fn h0 h1, one_mul]
    exact h x h0 h1 j hj

theorem L1_solves (g : ℕ → K → K) (nc : ℕ) (T : ℕ → ℕ → K)
    (h : ∀ x, 0 ≤ x → x ≤ 1 → ∀ j, j < nc → (1 - x) * T 0 j + x * T 1 j = g j x) :
    Solves (L1 : Basis K) g nc T := by
  constructor
  · intro c hc i hi
    rw [L1_xmax] at hc
    have c0 := hc 0 (by simp)
    have c1 := hc 1 (by simp)
    rw [show (L1 : Basis K).len = 2 from rfl, Finset.sum_range_succ, Finset.sum_range_one] at c0 c1
    rw [(L1_fn le_rfl (by norm_num)).1, (L1_fn le_rfl (by norm_num)).2] at c0
    rw [(L1_fn (by norm_num) le_rfl).1, (L1_fn (by norm_num) le_rfl).2] at c1
    have hi : i < 2 := hi
    interval_cases i <;> linarith
  · intro x hx j hj
    obtain ⟨h0, h1⟩ : 0 ≤ x ∧ x ≤ 1 := xmax_mem L1_clamped hx
    rw [show (L1 : Basis K).len = 2 from rfl, Finset.sum_range_succ, Finset.sum_range_one,
      (L1_fn h0 h1).1, (L1_fn h0 h1).2]
    exact h x h0 h1 j hj

/-- The expression evaluates to a number or constant spline (`lin = false`, value `u = v`) or to the
linear spline from `u` to `v`. -/
def Aff (e : Expr K) (lin : Bool) (u v : K) : Prop :=
  match lin with
  | false => u = v ∧ (e.Runs (.num u) ∨ e.Runs (.spl ⟨L0, [u]⟩))
  | true => e.Runs (.spl ⟨L1, [u, v]⟩)

theorem Aff.num (c : K) : Aff (.num c) false c c := ⟨rfl, Or.inl (.num c)⟩
theorem Aff.const (c : K) : Aff (.spl ⟨L0, [c]⟩) false c c := ⟨rfl, Or.inr (.spl _)⟩
theorem Aff.line (u v : K) : Aff (.spl ⟨L1, [u, v]⟩) true u v := .spl _

theorem Aff.neg {e : Expr K} {l : Bool} {u v : K} (h : Aff e l u v) : Aff e.neg l (-u) (-v) := by
  cases l with
  | false =>
    obtain ⟨rfl, h | h⟩ := h
    · exact ⟨rfl, Or.inl (.negNum h)⟩
    · exact ⟨rfl, Or.inr (.negSpl h)⟩
  | true => exact .negSpl h

theorem thr_zero (t : K) : thr 0 t = t := by
  unfold thr
  rw [if_neg (not_lt.2 (abs_nonneg t))]

theorem Aff.add {e f : Expr K} {l m : Bool} {u v u' v' : K} (h : Aff e l u v) (g : Aff f m u' v') :
    Aff (e.add f) (l || m) (u + u') (v + v') := by
  cases l <;> cases m
  · obtain ⟨rfl, h⟩ := h
    obtain ⟨rfl, g⟩ := g
    refine ⟨rfl, ?_⟩
    rcases h with h | h <;> rcases g with g | g
    · exact Or.inl (.addNN h g)
    · refine Or.inr ?_
      have := Expr.Runs.addNS h g
      simpa [BSpline.addNum, add_comm] using this
    · exact Or.inr (.addSN h g)
    · refine Or.inr ?_
      have := Expr.Runs.addSS h g (Ts := fun _ _ => 1) (Tt := fun _ _ => 1)
        (by
          rw [L_add.1]
          refine L0_solves _ _ _ fun x h0 h1 j hj => ?_
          have hj : j < 1 := hj
          obtain rfl : j = 0 := by omega
          rw [L0_fn h0 h1])
        (by
          rw [L_add.1]
          refine L0_solves _ _ _ fun x h0 h1 j hj => ?_
          have hj : j < 1 := hj
          obtain rfl : j = 0 := by omega
          rw [L0_fn h0 h1])
      unfold BSpline.addT at this
      dsimp only at this
      rw [L_add.1] at this
      simpa [applyT, show (L0 : Basis K).len = 1 from rfl, List.range_succ, thr_zero] using this
  · obtain ⟨rfl, h⟩ := h
    have g : f.Runs (.spl ⟨L1, [u', v']⟩) := g
    show (e.add f).Runs (.spl ⟨L1, _⟩)
    rcases h with h | h
    · have := Expr.Runs.addNS h g
      simpa [BSpline.addNum, add_comm] using this
    · have := Expr.Runs.addSS h g (Ts := fun _ _ => 1) (Tt := fun i j => if i = j then 1 else 0)
        (by
          rw [L_add.2.2.1]
          refine L1_solves _ _ _ fun x h0 h1 j hj => ?_
          have hj : j < 1 := hj
          obtain rfl : j = 0 := by omega
          rw [L0_fn h0 h1]; ring)
        (by
          rw [L_add.2.2.1]
          refine L1_solves _ _ _ fun x h0 h1 j hj => ?_
          have hj : j < 2 := hj
          obtain ⟨e0, e1⟩ := L1_fn h0 h1
          interval_cases j <;> simp [e0, e1])
      unfold BSpline.addT at this
      dsimp only at this
      rw [L_add.2.2.1] at this
      simpa [applyT, show (L1 : Basis K).len = 2 from rfl, List.range_succ, thr_zero,
        Finset.sum_range_succ] using this
  · have h : e.Runs (.spl ⟨L1, [u, v]⟩) := h
    obtain ⟨rfl, g⟩ := g
    show (e.add f).Runs (.spl ⟨L1, _⟩)
    rcases g with g | g
    · exact .addSN h g
    · have := Expr.Runs.addSS h g (Tt := fun _ _ => 1) (Ts := fun i j => if i = j then 1 else 0)
        (by
          rw [L_add.2.2.2]
          refine L1_solves _ _ _ fun x h0 h1 j hj => ?_
          have hj : j < 2 := hj
          obtain ⟨e0, e1⟩ := L1_fn h0 h1
          interval_cases j <;> simp [e0, e1])
        (by
          rw [L_add.2.2.2]
          refine L1_solves _ _ _ fun x h0 h1 j hj => ?_
          have hj : j < 1 := hj
          obtain rfl : j = 0 := by omega
          rw [L0_fn h0 h1]; ring)
      unfold BSpline.addT at this
      dsimp only at this
      rw [L_add.2.2.2] at this
      simpa [applyT, show (L1 : Basis K).len = 2 from rfl, List.range_succ, thr_zero,
        Finset.sum_range_succ] using this
  · have h : e.Runs (.spl ⟨L1, [u, v]⟩) := h
    have g : f.Runs (.spl ⟨L1, [u', v']⟩) := g
    show (e.add f).Runs (.spl ⟨L1, _⟩)
    have key : Solves ((L1 : Basis K).add L1) (L1 : Basis K).fn (L1 : Basis K).len
        (fun i j => if i = j then 1 else 0) := by
      rw [L_add.2.1]
      refine L1_solves _ _ _ fun x h0 h1 j hj => ?_
      have hj : j < 2 := hj
      obtain ⟨e0, e1⟩ := L1_fn h0 h1
      interval_cases j <;> simp [e0, e1]
    have := Expr.Runs.addSS h g key key
    unfold BSpline.addT at this
    dsimp only at this
    rw [L_add.2.1] at this
    simpa [applyT, show (L1 : Basis K).len = 2 from rfl, List.range_succ, thr_zero,
      Finset.sum_range_succ] using this

theorem L_pairs : (L0 : Basis K).pairs L0 = [(0, 0)] ∧ (L0 : Basis K).pairs L1 = [(0, 0), (0, 1)] ∧
    (L1 : Basis K).pairs L0 = [(0, 0), (1, 0)] := by
  refine ⟨?_, ?_, ?_⟩ <;>
    norm_num [Basis.pairs, L0, L1, Basis.len, overlaps, Basis.support, List.range_succ, List.flatMap_cons]

theorem Aff.mul {e f : Expr K} {l m : Bool} {u v u' v' : K} (h : Aff e l u v) (g : Aff f m u' v')
    (hlm : (l && m) = false) : Aff (e.mul f) (l || m) (u * u') (v * v') := by
  cases l <;> cases m
  · obtain ⟨rfl, h⟩ := h
    obtain ⟨rfl, g⟩ := g
    refine ⟨rfl, ?_⟩
    rcases h with h | h <;> rcases g with g | g
    · exact Or.inl (.mulNN h g)
    · exact Or.inr (.mulNS h g)
    · refine Or.inr ?_
      have := Expr.Runs.mulSN h g
      simpa [BSpline.mulNum, mul_comm] using this
    · refine Or.inr ?_
      have := Expr.Runs.mulSS h g (T := fun _ _ => 1) (by
        rw [L_mul.1]
        refine L0_solves _ _ _ fun x h0 h1 j hj => ?_
        rw [L_pairs.1] at hj
        have hj : j < 1 := hj
        obtain rfl : j = 0 := by omega
        unfold pairFn
        rw [L_pairs.1]
        simp [L0_fn h0 h1])
      unfold BSpline.mulT at this
      dsimp only at this
      rw [L_mul.1, L_pairs.1] at this
      simpa [applyT, show (L0 : Basis K).len = 1 from rfl, List.range_succ, thr_zero] using this
  · obtain ⟨rfl, h⟩ := h
    have g : f.Runs (.spl ⟨L1, [u', v']⟩) := g
    show (e.mul f).Runs (.spl ⟨L1, _⟩)
    rcases h with h | h
    · exact .mulNS h g
    · have := Expr.Runs.mulSS h g (T := fun i j => if i = j then 1 else 0) (by
        rw [L_mul.2.1]
        refine L1_solves _ _ _ fun x h0 h1 j hj => ?_
        rw [L_pairs.2.1] at hj
        have hj : j < 2 := hj
        obtain ⟨e0, e1⟩ := L1_fn h0 h1
        unfold pairFn
        rw [L_pairs.2.1]
        interval_cases j <;> simp [e0, e1, L0_fn h0 h1])
      unfold BSpline.mulT at this
      dsimp only at this
      rw [L_mul.2.1, L_pairs.2.1] at this
      simpa [applyT, show (L1 : Basis K).len = 2 from rfl, List.range_succ, thr_zero,
        Finset.sum_range_succ] using this
  · have h : e.Runs (.spl ⟨L1, [u, v]⟩) := h
    obtain ⟨rfl, g⟩ := g
    show (e.mul f).Runs (.spl ⟨L1, _⟩)
    rcases g with g | g
    · have := Expr.Runs.mulSN h g
      simpa [BSpline.mulNum, mul_comm] using this
    · have := Expr.Runs.mulSS h g (T := fun i j => if i = j then 1 else 0) (by
        rw [L_mul.2.2]
        refine L1_solves _ _ _ fun x h0 h1 j hj => ?_
        rw [L_pairs.2.2] at hj
        have hj : j < 2 := hj
        obtain ⟨e0, e1⟩ := L1_fn h0 h1
        unfold pairFn
        rw [L_pairs.2.2]
        interval_cases j <;> simp [e0, e1, L0_fn h0 h1])
      unfold BSpline.mulT at this
      dsimp only at this
      rw [L_mul.2.2, L_pairs.2.2] at this
      simpa [applyT, show (L1 : Basis K).len = 2 from rfl, List.range_succ, thr_zero,
        Finset.sum_range_succ] using this
  · simp at hlm

theorem Aff.imposed {e : Expr K} {l : Bool} {u v : K} (h : Aff e l u v) {ub : K} (hu : u ≤ ub) (hv : v ≤ ub) :
    e.Imposed ub := by
  cases l with
  | false =>
    obtain ⟨rfl, h | h⟩ := h
    · exact ⟨_, h, trivial⟩
    · exact ⟨_, h, fun c hc => by simp at hc; subst hc; exact hu⟩
  | true =>
    refine ⟨_, h, fun c hc => ?_⟩
    simp at hc
    rcases hc with rfl | rfl <;> assumption

theorem L0_on (c : K) : (Expr.spl (⟨L0, [c]⟩ : BSpline K)).On 0 1 := ⟨L0_clamped, rfl, rfl, rfl⟩
theorem L1_on (u v : K) : (Expr.spl (⟨L1, [u, v]⟩ : BSpline K)).On 0 1 := ⟨L1_clamped, rfl, rfl, rfl⟩

theorem L0_eval (c : K) {x : K} (h0 : 0 ≤ x) (h1 : x ≤ 1) : (⟨L0, [c]⟩ : BSpline K).eval x = c := by
  rw [BSpline.eval_eq (s := ⟨L0, [c]⟩) rfl]
  show ∑ i ∈ Finset.range 1, ([c] : List K).getD i 0 * (L0 : Basis K).fn i x = c
  rw [Finset.sum_range_one, L0_fn h0 h1]
  simp

theorem L1_eval (u v : K) {x : K} (h0 : 0 ≤ x) (h1 : x ≤ 1) :
    (⟨L1, [u, v]⟩ : BSpline K).eval x = u + (v - u) * x := by
  rw [BSpline.eval_eq (s := ⟨L1, [u, v]⟩) rfl]
  show ∑ i ∈ Finset.range 2, ([u, v] : List K).getD i 0 * (L1 : Basis K).fn i x = _
  rw [Finset.sum_range_succ, Finset.sum_range_one, (L1_fn h0 h1).1, (L1_fn h0 h1).2]
  show u * (1 - x) + v * x = _
  ring

end Verif.Spline
