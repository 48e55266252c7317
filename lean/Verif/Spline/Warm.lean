import Verif.Spline.Concat

/-! # The initial guess of free-time problems

`FreeTPoint2point.init_step` (point2point.py:345-361) with `shift_spline` (spline_extra.py:88-99) and `Basis.transform` (spline.py:283-306).
Property **C130**. -/

set_option linter.unusedSectionVars false

namespace Verif.Spline

open Finset

variable {K : Type*} [Field K] [LinearOrder K] [IsStrictOrderedRing K]

section Model

/-- `np.linspace(a, b, n)` for `n ≥ 2`. -/
def linspace (a b : K) (n : ℕ) : List K := (List.range n).map fun (i : ℕ) => a + i * ((b - a) / ((n - 1 : ℕ) : K))

/-- `_x`, spline.py:123, with `NO_POINTS = 501`. -/
def Basis.gridW (b : Basis K) : List K := linspace (b.knots.headD 0) (b.knots.getLastD 0) 501

/-- `np.argmax`: the first index of the largest value. -/
def argmax (l : List K) : ℕ := l.idxOf (l.foldl max (l.headD 0))

/-- `xmax[i]`, spline.py:292-295: the point of the grid where basis function `i` is largest. -/
def Basis.xmaxW (b : Basis K) (i : ℕ) : K := b.gridW.getD (argmax (b.gridW.map (b.fn i))) 0

/-- `b[m, :]`, spline.py:292-293, 299. -/
def Basis.maxA (b : Basis K) : Matrix (Fin b.len) (Fin b.len) K := fun r q => b.fn q (b.xmaxW r)

/-- `self.transform(other).dot(coeffs)`, spline.py:283-306.  Simplification: the entries below `1e-10` are kept. -/
noncomputable def transformTo (b : Basis K) (s : BSpline K) : Option (BSpline K) :=
  (npSolveV b.maxA fun r => s.eval (b.xmaxW r)).map fun c => ⟨b, List.ofFn c⟩

/-- `basis2`, spline_extra.py:91-97. -/
def shiftBasis (b : Basis K) (t : K) : Basis K :=
  let e := b.knots.getLastD 0
  ⟨List.replicate b.degree t ++ linspace t e (b.len - b.degree + 1) ++ List.replicate b.degree e, b.degree⟩

/-- The spline with the coefficients of `shift_spline(coeffs, t, basis)`, spline_extra.py:88-99, in its old basis. -/
noncomputable def shiftSpline (s : BSpline K) (t : K) : Option (BSpline K) :=
  (transformTo (shiftBasis s.basis t) s).map fun r => ⟨s.basis, r.coeffs⟩

/-- The arguments of `shift_spline` and the new guess of the motion time, point2point.py:354-368, for motion time `T` and update time `u`. -/
def freeShift (T u : K) : K × K := if T < 2 * u then ((T - u) / T, T) else (u / (T - u), T - u)

/-- `init_step` of a free-time problem on one spline variable and the motion time; `none` is the exception of a singular system. -/
noncomputable def freeStep (s : BSpline K) (T u : K) : Option (BSpline K × K) :=
  (shiftSpline s (freeShift T u).1).map fun r => (r, (freeShift T u).2)

end Model

/-! ## Lemmas -/

theorem foldl_max_eq {M a : K} {l : List K} (ha : a ≤ M) (hl : ∀ x ∈ l, x ≤ M) (h : M = a ∨ M ∈ l) : l.foldl max a = M := by
  induction l generalizing a with
  | nil => rcases h with h | h
           · simp [h]
           · simp at h
  | cons b l ih =>
    rw [List.foldl_cons]
    have hb : b ≤ M := hl b (by simp)
    refine ih (max_le ha hb) (fun x hx => hl x (List.mem_cons_of_mem _ hx)) ?_
    rcases h with rfl | h
    · exact Or.inl (max_eq_left hb).symm
    · rcases List.mem_cons.1 h with rfl | h
      · exact Or.inl (max_eq_right ha).symm
      · exact Or.inr h

theorem idxOf_first {l : List K} {i : ℕ} (hi : i < l.length) (hlt : ∀ j (h : j < l.length), j < i → l[j] ≠ l[i]) : l.idxOf l[i] = i := by
  induction l generalizing i with
  | nil => simp at hi
  | cons a l ih =>
    cases i with
    | zero => simp
    | succ i =>
      have h0 := hlt 0 (by simp) (by omega)
      simp only [List.getElem_cons_zero, List.getElem_cons_succ] at h0
      simp only [List.getElem_cons_succ]
      rw [List.idxOf_cons_ne _ h0]
      rw [ih (by simpa using hi) fun j h hj => ?_]
      have := hlt (j + 1) (by simpa using h) (by omega)
      simpa only [List.getElem_cons_succ] using this

/-- The first index of the largest value. -/
theorem argmax_eq {l : List K} {i : ℕ} (hi : i < l.length) (hle : ∀ x ∈ l, x ≤ l[i]) (hlt : ∀ j (h : j < l.length), j < i → l[j] ≠ l[i]) :
    argmax l = i := by
  have hne : l ≠ [] := by rintro rfl; simp at hi
  have hm : l.foldl max (l.headD 0) = l[i] := by
    refine foldl_max_eq ?_ hle (Or.inr (List.getElem_mem hi))
    cases l with
    | nil => exact absurd rfl hne
    | cons a l => exact hle a (by simp)
  unfold argmax
  rw [hm]
  exact idxOf_first hi hlt

theorem linspace_length (a b : K) (n : ℕ) : (linspace a b n).length = n := by simp [linspace]

theorem linspace_get (a b : K) (n i : ℕ) (h : i < (linspace a b n).length) : (linspace a b n)[i] = a + i * ((b - a) / ((n - 1 : ℕ) : K)) := by
  simp [linspace]

/-- Row `i` of the system is taken where basis function `i` is largest first. -/
theorem xmaxW_eq {b : Basis K} {i j : ℕ} (hj : j < 501) (h1 : b.fn i (b.gridW.getD j 0) = 1) (hle : ∀ x, b.fn i x ≤ 1)
    (hlt : ∀ j' < j, b.fn i (b.gridW.getD j' 0) ≠ 1) : b.xmaxW i = b.gridW.getD j 0 := by
  have hlen : b.gridW.length = 501 := linspace_length _ _ _
  unfold Basis.xmaxW
  rw [argmax_eq (i := j)]
  · rw [List.length_map]; omega
  · intro x hx
    obtain ⟨y, -, rfl⟩ := List.mem_map.1 hx
    rw [List.getElem_map]
    rw [List.getD_eq_getElem _ _ (by omega)] at h1
    rw [h1]
    exact hle y
  · intro j' h hj'
    have := hlt j' hj'
    rw [List.getD_eq_getElem _ _ (by omega)] at this h1
    rw [List.getElem_map, List.getElem_map, h1]
    exact this

theorem fn_le_one {b : Basis K} (hb : b.Clamped) {i : ℕ} (hi : i < b.len) (x : K) : b.fn i x ≤ 1 := by
  have hlen := hb.lt_len
  rcases lt_trichotomy (b.k 0) x with h | h | h
  · rcases le_or_gt x (b.k b.len) with h' | h'
    · have hs := cox_sum_level hb.mono hlen hb.first hb.last h h' b.degree le_rfl
      rw [Nat.add_sub_cancel] at hs
      rw [← hs]
      exact Finset.single_le_sum (f := fun i => cox b.k b.degree x b.degree i) (fun i _ => cox_nonneg hb.mono h _ i) (Finset.mem_range.2 hi)
    · unfold Basis.fn
      rw [cox_eq_zero hb.mono h]
      · exact zero_le_one
      · right
        exact (k_le_last hb _).trans_lt h'
  · unfold Basis.fn
    rw [← h, cox_first hb.first hb.mono hb.start _ _ le_rfl]
    split_ifs <;> simp
  · rw [Basis.fn_left hb.sorted i h]
    exact zero_le_one

/-- The last basis function reaches one only at the end. -/
theorem fn_last_lt {b : Basis K} (hb : b.Clamped) (hd : 1 ≤ b.degree) (hstop : b.k (b.len - 1) < b.k b.len) {x : K} (hx : x < b.k b.len) :
    b.fn (b.len - 1) x < 1 := by
  have hlen := hb.lt_len
  unfold Basis.fn
  rcases lt_trichotomy (b.k 0) x with h | h | h
  · obtain ⟨d, hd'⟩ : ∃ d, b.degree = d + 1 := ⟨b.degree - 1, by omega⟩
    have hs := cox_sum_level hb.mono hlen hb.first hb.last h hx.le d (by omega)
    have h1 : cox b.k b.degree x d (b.len - 1) ≤ 1 := by
      rw [← hs]
      exact Finset.single_le_sum (f := fun i => cox b.k b.degree x d i) (fun i _ => cox_nonneg hb.mono h d i) (Finset.mem_range.2 (by omega))
    have h0 := cox_nonneg hb.mono h (p := b.degree) d (b.len - 1)
    rw [show cox b.k b.degree x b.degree (b.len - 1) = cox b.k b.degree x (d + 1) (b.len - 1) by rw [← hd'], cox_succ,
      hb.last (b.len - 1 + (d + 1)) (by omega), hb.last (b.len - 1 + (d + 1) + 1) (by omega), hb.last (b.len - 1 + 1) (by omega),
      sub_self, div_zero, add_zero, div_lt_one (sub_pos.2 hstop)]
    rcases le_total x (b.k (b.len - 1)) with hl | hl
    · nlinarith [mul_nonneg (sub_nonneg.2 hl) h0]
    · nlinarith [mul_nonneg (sub_nonneg.2 hl) (sub_nonneg.2 h1)]
  · rw [← h, cox_first hb.first hb.mono hb.start _ _ le_rfl, if_neg (by omega)]
    exact one_pos
  · have := Basis.fn_left hb.sorted (b.len - 1) h
    unfold Basis.fn at this
    rw [this]
    exact one_pos

/-- The knots of the shifted basis. -/
theorem shiftBasis_get {b : Basis K} (hb : b.Clamped) (t : K) (i : ℕ) (hi : i < (shiftBasis b t).knots.length) :
    (shiftBasis b t).knots[i] = t + (min (i - b.degree) (b.len - b.degree) : ℕ) * ((b.knots.getLastD 0 - t) / ((b.len - b.degree : ℕ) : K)) := by
  have hlt := hb.lt_len
  have hne : ((b.len - b.degree : ℕ) : K) ≠ 0 := by
    have : b.len - b.degree ≠ 0 := by omega
    exact_mod_cast this
  have hl : (shiftBasis b t).knots = List.replicate b.degree t ++ linspace t (b.knots.getLastD 0) (b.len - b.degree + 1) ++ List.replicate b.degree (b.knots.getLastD 0) := rfl
  simp only [hl, List.length_append, List.length_replicate, linspace_length] at hi ⊢
  rcases Nat.lt_or_ge i b.degree with h | h
  · rw [List.getElem_append_left (by simp [linspace_length]; omega), List.getElem_append_left (by simpa using h), List.getElem_replicate]
    simp [show i - b.degree = 0 by omega]
  · rcases Nat.lt_or_ge i (b.degree + (b.len - b.degree + 1)) with h' | h'
    · rw [List.getElem_append_left (by simp [linspace_length]; omega), List.getElem_append_right (by simpa using h), linspace_get]
      simp only [List.length_replicate, Nat.add_sub_cancel]
      rw [min_eq_left (by omega)]
    · rw [List.getElem_append_right (by simp [linspace_length]; omega), List.getElem_replicate, min_eq_right (by omega)]
      field_simp
      ring

theorem shiftBasis_length {b : Basis K} (hb : b.Clamped) (t : K) : (shiftBasis b t).knots.length = b.len + b.degree + 1 := by
  have := hb.lt_len
  unfold shiftBasis
  simp only [List.length_append, List.length_replicate, linspace_length]
  omega

theorem shiftBasis_len {b : Basis K} (hb : b.Clamped) (t : K) : (shiftBasis b t).len = b.len := by
  have h := shiftBasis_length hb t
  have : (shiftBasis b t).degree = b.degree := rfl
  unfold Basis.len at h ⊢
  omega

theorem shiftBasis_k {b : Basis K} (hb : b.Clamped) (t : K) (i : ℕ) (hi : i ≤ b.len + b.degree) :
    (shiftBasis b t).k i = t + (min (i - b.degree) (b.len - b.degree) : ℕ) * ((b.knots.getLastD 0 - t) / ((b.len - b.degree : ℕ) : K)) := by
  have h := shiftBasis_length hb t
  unfold Basis.k
  rw [List.getD_eq_getElem _ _ (by omega), shiftBasis_get hb]

theorem shiftBasis_clamped {b : Basis K} (hb : b.Clamped) {t : K} (ht : t < b.knots.getLastD 0) :
    (shiftBasis b t).Clamped ∧ (shiftBasis b t).knots.headD 0 = t ∧ (shiftBasis b t).knots.getLastD 0 = b.knots.getLastD 0 ∧
      (shiftBasis b t).k ((shiftBasis b t).len - 1) < (shiftBasis b t).k (shiftBasis b t).len := by
  have hlt := hb.lt_len
  have hl := shiftBasis_length hb t
  have hln := shiftBasis_len hb t
  have hdeg : (shiftBasis b t).degree = b.degree := rfl
  have hn : (0 : K) < ((b.len - b.degree : ℕ) : K) := by
    have : 0 < b.len - b.degree := by omega
    exact_mod_cast this
  set h := (b.knots.getLastD 0 - t) / ((b.len - b.degree : ℕ) : K) with hh
  have hpos : 0 < h := div_pos (sub_pos.2 ht) hn
  have hc : (shiftBasis b t).Clamped := by
    refine ⟨?_, by rw [hl, hdeg]; omega, fun i hi => ?_, ?_, fun i h1 h2 => ?_⟩
    · rw [List.pairwise_iff_getElem]
      intro i j hi hj hij
      rw [shiftBasis_get hb, shiftBasis_get hb, ← hh]
      have : ((min (i - b.degree) (b.len - b.degree) : ℕ) : K) ≤ (min (j - b.degree) (b.len - b.degree) : ℕ) := by
        exact_mod_cast min_le_min_right _ (by omega)
      nlinarith
    · rw [hdeg] at hi
      rw [shiftBasis_k hb t i (by omega), shiftBasis_k hb t 0 (by omega)]
      simp [show i - b.degree = 0 by omega]
    · rw [hdeg, shiftBasis_k hb t _ (by omega), shiftBasis_k hb t _ (by omega), ← hh, min_eq_left (by omega), min_eq_left (by omega),
        Nat.sub_self, show b.degree + 1 - b.degree = 1 by omega]
      simpa using hpos
    · rw [hln] at h1
      rw [hln, shiftBasis_k hb t _ (by omega), shiftBasis_k hb t _ (by omega), min_eq_right (by omega), min_eq_right (by omega)]
  refine ⟨hc, ?_, ?_, ?_⟩
  · rw [headD_eq_k hc, shiftBasis_k hb t _ (by omega)]
    simp
  · rw [getLastD_eq_k hc, hln, shiftBasis_k hb t _ (by omega), min_eq_right (by omega)]
    field_simp
    ring
  · rw [hln, shiftBasis_k hb t _ (by omega), shiftBasis_k hb t _ (by omega), ← hh, min_eq_left (by omega), min_eq_left (by omega)]
    have : ((b.len - 1 - b.degree : ℕ) : K) < ((b.len - b.degree : ℕ) : K) := by
      exact_mod_cast (by omega : b.len - 1 - b.degree < b.len - b.degree)
    nlinarith

/-- The points of the first and of the last row. -/
theorem xmaxW_ends {b : Basis K} (hb : b.Clamped) (hd : 1 ≤ b.degree) (hstop : b.k (b.len - 1) < b.k b.len) :
    b.xmaxW 0 = b.k 0 ∧ b.xmaxW (b.len - 1) = b.k b.len ∧ (∀ q, b.fn q (b.k 0) = if q = 0 then 1 else 0) ∧
      ∀ q, b.fn q (b.k b.len) = if q = b.len - 1 then 1 else 0 := by
  have hlt := hb.lt_len
  have hk0 := headD_eq_k hb
  have hk1 := getLastD_eq_k hb
  have hg : ∀ j < 501, b.gridW.getD j 0 = b.k 0 + j * ((b.k b.len - b.k 0) / 500) := fun j hj => by
    unfold Basis.gridW
    rw [List.getD_eq_getElem _ _ (by rw [linspace_length]; exact hj), linspace_get, hk0, hk1]
    rfl
  have g0 : b.gridW.getD 0 0 = b.k 0 := by rw [hg 0 (by norm_num)]; simp
  have g1 : b.gridW.getD 500 0 = b.k b.len := by rw [hg 500 (by norm_num)]; push_cast; ring
  have f0 : ∀ q, b.fn q (b.k 0) = if q = 0 then 1 else 0 := by
    intro q
    unfold Basis.fn
    rw [cox_first hb.first hb.mono hb.start _ _ le_rfl]
    by_cases hq : q = 0
    · rw [if_pos (Or.inl (by omega)), if_pos hq]
    · rw [if_neg (by omega), if_neg hq]
  have f1 : ∀ q, b.fn q (b.k b.len) = if q = b.len - 1 then 1 else 0 := fun q => by
    unfold Basis.fn
    exact cox_last (by omega) hb.last hb.mono hstop hb.first_lt_last _ _
  have x0 : b.xmaxW 0 = b.k 0 := by
    rw [xmaxW_eq (j := 0) (by norm_num) (by rw [g0, f0, if_pos rfl]) (fn_le_one hb (by omega)) (fun j hj => by omega), g0]
  have x1 : b.xmaxW (b.len - 1) = b.k b.len := by
    rw [xmaxW_eq (j := 500) (by norm_num) (by rw [g1, f1, if_pos rfl]) (fn_le_one hb (by omega)), g1]
    · intro j hj
      refine (fn_last_lt hb hd hstop ?_).ne
      rw [hg j (by omega)]
      have : (j : K) < 500 := by exact_mod_cast hj
      have := hb.first_lt_last
      nlinarith
  exact ⟨x0, x1, f0, f1⟩

/-- The system of a basis is solved at its first and its last point. -/
theorem transformTo_ends {b : Basis K} {s r : BSpline K} (hb : b.Clamped) (hd : 1 ≤ b.degree) (hstop : b.k (b.len - 1) < b.k b.len)
    (h : transformTo b s = some r) :
    r.basis = b ∧ r.WF ∧ r.coeffs.headD 0 = s.eval (b.knots.headD 0) ∧ r.coeffs.getLastD 0 = s.eval (b.knots.getLastD 0) := by
  have hlt := hb.lt_len
  obtain ⟨c, hc, rfl⟩ := Option.map_eq_some_iff.1 h
  obtain ⟨h1, -⟩ := npSolveV_spec hc
  have hw : (BSpline.mk b (List.ofFn c)).WF := by simp [BSpline.WF]
  have hk0 := headD_eq_k hb
  have hk1 := getLastD_eq_k hb
  obtain ⟨x0, x1, f0, f1⟩ := xmaxW_ends hb hd hstop
  have hsum : ∀ (r : Fin b.len) (m : ℕ) (hm : m < b.len), (∀ q, b.fn q (b.xmaxW r) = if q = m then 1 else 0) → c ⟨m, hm⟩ = s.eval (b.xmaxW r) := by
    intro r m hm hf
    have := congrFun h1 r
    rw [← this]
    unfold Matrix.mulVec dotProduct Basis.maxA
    rw [Finset.sum_eq_single ⟨m, hm⟩]
    · simp only [hf, if_true, one_mul]
    · intro q _ hq
      simp only [hf]
      rw [if_neg (fun e => hq (Fin.ext e)), zero_mul]
    · simp
  refine ⟨rfl, hw, ?_, ?_⟩
  · have := hsum ⟨0, by omega⟩ 0 (by omega) (by simpa only [x0] using f0)
    rw [x0, ← hk0] at this
    rw [← this, List.headD_eq_head?_getD, List.head?_eq_getElem?, List.getElem?_eq_getElem (by simp; omega), Option.getD_some, List.getElem_ofFn]
  · have := hsum ⟨b.len - 1, by omega⟩ (b.len - 1) (by omega) (by simpa only [x1] using f1)
    rw [x1, ← hk1] at this
    rw [← this, List.getLastD_eq_getLast?, List.getLast?_eq_getElem?, List.getElem?_eq_getElem (by simp; omega), Option.getD_some, List.getElem_ofFn]
    simp

/-- The initial guess starts where the plan is at the instant `t` and ends where the plan ends. -/
theorem shiftSpline_ends {s s' : BSpline K} {t : K} (hb : s.basis.Clamped) (hd : 1 ≤ s.basis.degree)
    (hstop : s.basis.k (s.basis.len - 1) < s.basis.k s.basis.len) (ht : t < s.basis.knots.getLastD 0) (h : shiftSpline s t = some s') :
    s'.eval (s.basis.knots.headD 0) = s.eval t ∧ s'.eval (s.basis.knots.getLastD 0) = s.eval (s.basis.knots.getLastD 0) := by
  obtain ⟨r, hr, rfl⟩ := Option.map_eq_some_iff.1 h
  obtain ⟨c, e0, e1, hst⟩ := shiftBasis_clamped hb ht
  obtain ⟨rb, rw', r0, r1⟩ := transformTo_ends c hd hst hr
  have hw : (BSpline.mk s.basis r.coeffs).WF := by
    unfold BSpline.WF at rw' ⊢
    rw [rw', rb]
    exact shiftBasis_len hb t
  obtain ⟨a, b⟩ := C03_endpoints ⟨s.basis, r.coeffs⟩ hb hw hstop
  rw [a, b, r0, r1, e0, e1]
  exact ⟨rfl, rfl⟩

/-! ## Properties -/

/-- A plan: a trajectory over `[0, 1]`. -/
structure IsPlan (s : BSpline K) : Prop where
  clamped : s.basis.Clamped
  degree : 1 ≤ s.basis.degree
  first : s.basis.knots.headD 0 = 0
  last : s.basis.knots.getLastD 0 = 1
  stop : s.basis.k (s.basis.len - 1) < s.basis.k s.basis.len

theorem freeStep_some {s s' : BSpline K} {T T' u : K} (h : freeStep s T u = some (s', T')) :
    shiftSpline s (freeShift T u).1 = some s' ∧ T' = (freeShift T u).2 := by
  obtain ⟨r, hr, e⟩ := Option.map_eq_some_iff.1 h
  rw [Prod.mk.injEq] at e
  exact ⟨by rw [hr, e.1], e.2.symm⟩

/-- With all knots in one point no basis function is ever nonzero. -/
theorem shiftBasis_flat {b : Basis K} (hd : 1 ≤ b.degree) {t : K} (ht : t = b.knots.getLastD 0) (i : ℕ) (x : K) : (shiftBasis b t).fn i x = 0 := by
  have hall : ∀ y ∈ (shiftBasis b t).knots, y = t := by
    intro y hy
    unfold shiftBasis at hy
    simp only [← ht, List.mem_append, List.mem_replicate] at hy
    rcases hy with (⟨-, hy⟩ | hy) | ⟨-, hy⟩
    · exact hy
    · obtain ⟨j, -, rfl⟩ := List.mem_map.1 hy
      simp
    · exact hy
  have hne : (shiftBasis b t).knots ≠ [] := by
    unfold shiftBasis linspace
    simp
  have hk : ∀ i, (shiftBasis b t).k i = t := by
    intro i
    unfold Basis.k
    rcases Nat.lt_or_ge i (shiftBasis b t).knots.length with h | h
    · rw [List.getD_eq_getElem _ _ h]; exact hall _ (List.getElem_mem h)
    · rw [List.getD_eq_default _ _ h, List.getLastD_eq_getLast?, List.getLast?_eq_some_getLast hne]
      exact hall _ (List.getLast_mem hne)
  obtain ⟨d, hd'⟩ : ∃ d, (shiftBasis b t).degree = d + 1 := ⟨b.degree - 1, by show b.degree = _; omega⟩
  unfold Basis.fn
  rw [hd', cox_succ]
  simp [hk]

/-- **C130** (only the end and the motion time) The initial guess of an update ends where the plan ends; the guessed motion time is the one that is
left, unless less than two update times are. -/
theorem C130_end_partial (s s' : BSpline K) (T T' u : K) (hs : IsPlan s) (hu : 0 < u) (hT : u < T) (h2 : T ≠ 2 * u)
    (h : freeStep s T u = some (s', T')) : s'.eval 1 = s.eval 1 ∧ (2 * u < T → T' = T - u) := by
  obtain ⟨h1, rfl⟩ := freeStep_some h
  have hlt : (freeShift T u).1 < 1 := by
    unfold freeShift
    split_ifs with hc
    · exact (div_lt_one (by linarith)).2 (by linarith)
    · have : 2 * u < T := lt_of_le_of_ne (not_lt.1 hc) h2.symm
      exact (div_lt_one (by linarith)).2 (by linarith)
  have := (shiftSpline_ends hs.clamped hs.degree hs.stop (by rw [hs.last]; exact hlt) h1).2
  rw [hs.last] at this
  refine ⟨this, fun hc => ?_⟩
  unfold freeShift
  rw [if_neg (by linarith)]

/-- **C130** fails at the start: instead of at the instant `u` of the update, the guess starts at the instant `T u / (T - u)` of the plan, which is
later, and if less than two update times are left at the instant `T - u`, which is earlier. -/
theorem C130_start_violated (s s' : BSpline K) (T T' u : K) (hs : IsPlan s) (hu : 0 < u) (hT : u < T) (h2 : T ≠ 2 * u)
    (h : freeStep s T u = some (s', T')) :
    ∃ t, s'.eval 0 = s.eval (t / T) ∧ 0 < t ∧ t < T ∧ (2 * u < T → t = T * u / (T - u) ∧ u < t) ∧ (T < 2 * u → t = T - u ∧ t < u ∧ T' = T) := by
  obtain ⟨h1, rfl⟩ := freeStep_some h
  have hT0 : 0 < T := hu.trans hT
  have hTu : 0 < T - u := sub_pos.2 hT
  rcases lt_or_gt_of_ne h2 with hc | hc
  · have e : freeShift T u = ((T - u) / T, T) := by unfold freeShift; rw [if_pos hc]
    rw [e] at h1 ⊢
    have hlt : (T - u) / T < 1 := (div_lt_one hT0).2 (by linarith)
    have := (shiftSpline_ends hs.clamped hs.degree hs.stop (by rw [hs.last]; exact hlt) h1).1
    rw [hs.first] at this
    exact ⟨T - u, this, hTu, by linarith, fun h' => absurd hc (by linarith), fun _ => ⟨rfl, by linarith, rfl⟩⟩
  · have e : freeShift T u = (u / (T - u), T - u) := by unfold freeShift; rw [if_neg (by linarith)]
    rw [e] at h1 ⊢
    have hlt : u / (T - u) < 1 := (div_lt_one hTu).2 (by linarith)
    have := (shiftSpline_ends hs.clamped hs.degree hs.stop (by rw [hs.last]; exact hlt) h1).1
    rw [hs.first] at this
    refine ⟨T * u / (T - u), ?_, by positivity, ?_, fun _ => ⟨rfl, ?_⟩, fun h' => absurd hc (by linarith)⟩
    · rw [this]
      congr 1
      field_simp
    · rw [div_lt_iff₀ hTu]; nlinarith
    · rw [lt_div_iff₀ hTu]; nlinarith

/-- **C130** so a plan that moves on is never continued from where it is. -/
theorem C130_moving_violated (s s' : BSpline K) (T T' u : K) (hs : IsPlan s) (hu : 0 < u) (hT : u < T) (h2 : T ≠ 2 * u)
    (hm : StrictMonoOn s.eval (Set.Icc 0 1)) (h : freeStep s T u = some (s', T')) : s'.eval 0 ≠ s.eval (u / T) := by
  obtain ⟨t, e, t0, tT, ha, hb⟩ := C130_start_violated s s' T T' u hs hu hT h2 h
  have hT0 : 0 < T := hu.trans hT
  rw [e]
  intro he
  have := hm.injOn ⟨(div_pos t0 hT0).le, ((div_lt_one hT0).2 tT).le⟩ ⟨(div_pos hu hT0).le, ((div_lt_one hT0).2 hT).le⟩ he
  have e3 : t = u := by field_simp at this; exact this
  rcases lt_or_gt_of_ne h2 with hc | hc
  · exact absurd (hb hc).2.1 (by rw [e3]; exact lt_irrefl _)
  · exact absurd (ha hc).2 (by rw [e3]; exact lt_irrefl _)

/-- **C130** and if exactly two update times are left the update ends in an exception. -/
theorem C130_double_violated (s : BSpline K) (u : K) (hs : IsPlan s) (hu : 0 < u) : freeStep s (2 * u) u = none := by
  have e : (freeShift (2 * u) u).1 = s.basis.knots.getLastD 0 := by
    unfold freeShift
    rw [if_neg (lt_irrefl _), hs.last]
    show u / (2 * u - u) = 1
    rw [two_mul, add_sub_cancel_right, div_self hu.ne']
  have hlen : 0 < (shiftBasis s.basis (freeShift (2 * u) u).1).len := by
    rw [shiftBasis_len hs.clamped]
    have := hs.clamped.lt_len
    omega
  have hz : (shiftBasis s.basis (freeShift (2 * u) u).1).maxA = 0 := by
    funext r q
    exact shiftBasis_flat hs.degree e _ _
  have : Nonempty (Fin (shiftBasis s.basis (freeShift (2 * u) u).1).len) := ⟨⟨0, hlen⟩⟩
  unfold freeStep shiftSpline transformTo npSolveV
  rw [hz, Matrix.det_zero, if_pos rfl]
  rfl

/-! ## Examples: a straight motion from 0 to 4 -/

def exLine : BSpline ℚ := ⟨⟨[0, 0, 1, 1], 1⟩, [0, 4]⟩

theorem exLine_clamped : exLine.basis.Clamped := ⟨by decide +kernel, by decide, by decide +kernel, by decide +kernel, by decide +kernel⟩
theorem exLine_plan : IsPlan exLine := ⟨exLine_clamped, le_rfl, rfl, rfl, by decide +kernel⟩
theorem exLine_eval : exLine.eval 0 = 0 ∧ exLine.eval (1 / 3) = 4 / 3 ∧ exLine.eval (1 / 2) = 2 ∧ exLine.eval (2 / 3) = 8 / 3 ∧ exLine.eval 1 = 4 := by
  decide +kernel

/-- On a straight line the system is the identity. -/
theorem exLine_some (T u : ℚ) (h : (freeShift T u).1 < 1) : ∃ s', freeStep exLine T u = some (s', (freeShift T u).2) := by
  have hl : (freeShift T u).1 < exLine.basis.knots.getLastD 0 := h
  obtain ⟨c, -, -, hst⟩ := shiftBasis_clamped exLine_clamped hl
  have hlen : (shiftBasis exLine.basis (freeShift T u).1).len = 2 := shiftBasis_len exLine_clamped _
  obtain ⟨x0, x1, f0, f1⟩ := xmaxW_ends c le_rfl hst
  set B := shiftBasis exLine.basis (freeShift T u).1 with hB
  have hA : B.maxA = 1 := by
    refine Matrix.ext fun r q => ?_
    show B.fn q (B.xmaxW r) = _
    rw [Matrix.one_apply]
    have hr := r.isLt
    have hq := q.isLt
    rcases (by omega : (r : ℕ) = 0 ∨ (r : ℕ) = B.len - 1) with e | e
    · rw [e, x0, f0]
      by_cases h' : (q : ℕ) = 0
      · rw [if_pos h', if_pos (Fin.ext (by omega))]
      · rw [if_neg h', if_neg (fun e' => h' (by rw [← e', e]))]
    · rw [e, x1, f1]
      by_cases h' : (q : ℕ) = B.len - 1
      · rw [if_pos h', if_pos (Fin.ext (by omega))]
      · rw [if_neg h', if_neg (fun e' => h' (by rw [← e', e]))]
  unfold freeStep shiftSpline transformTo
  rw [← hB, npSolveV_eq (A := B.maxA) (Ai := 1) (v := fun r : Fin B.len => exLine.eval (B.xmaxW r)) (c := fun r : Fin B.len => exLine.eval (B.xmaxW r)) (by rw [hA, one_mul]) (by rw [hA, Matrix.one_mulVec])]
  exact ⟨_, rfl⟩

-- three seconds to go and updates of one second: the guess starts in the middle instead of after a third
example : ∃ s', freeStep exLine 3 1 = some (s', 2) ∧ s'.eval 0 = 2 ∧ s'.eval 1 = 4 ∧ exLine.eval (1 / 3) = 4 / 3 := by
  have e : freeShift (3 : ℚ) 1 = (1 / 2, 2) := by decide +kernel
  obtain ⟨s', h⟩ := exLine_some 3 1 (by rw [e]; norm_num)
  rw [e] at h
  obtain ⟨a, -⟩ := C130_end_partial exLine s' 3 2 1 exLine_plan (by norm_num) (by norm_num) (by norm_num) h
  obtain ⟨t, b, -, -, ht, -⟩ := C130_start_violated exLine s' 3 2 1 exLine_plan (by norm_num) (by norm_num) (by norm_num) h
  refine ⟨s', h, ?_, by rw [a, exLine_eval.2.2.2.2], exLine_eval.2.1⟩
  rw [b, (ht (by norm_num)).1, ← exLine_eval.2.2.1]
  norm_num

-- one and a half seconds to go
example : ∃ s', freeStep exLine (3 / 2) 1 = some (s', 3 / 2) ∧ s'.eval 0 = 4 / 3 ∧ exLine.eval (2 / 3) = 8 / 3 := by
  have e : freeShift (3 / 2 : ℚ) 1 = (1 / 3, 3 / 2) := by decide +kernel
  obtain ⟨s', h⟩ := exLine_some (3 / 2) 1 (by rw [e]; norm_num)
  rw [e] at h
  obtain ⟨t, b, -, -, -, ht⟩ := C130_start_violated exLine s' (3 / 2) (3 / 2) 1 exLine_plan (by norm_num) (by norm_num) (by norm_num) h
  refine ⟨s', h, ?_, exLine_eval.2.2.2.1⟩
  rw [b, (ht (by norm_num)).1, ← exLine_eval.2.1]
  norm_num

theorem exLine_mono : StrictMonoOn exLine.eval (Set.Icc 0 1) := by
  have e : ∀ x : ℚ, 0 ≤ x → x ≤ 1 → exLine.eval x = 4 * x := by
    intro x h0 h1
    have hr : List.range exLine.basis.len = [0, 1] := rfl
    unfold BSpline.eval Basis.eval
    rw [hr]
    have c0 : exLine.basis.fn 0 x = 1 - x := by
      simp [Basis.fn, cox, ind, exLine, Basis.k, h0, h1]
    have c1 : exLine.basis.fn 1 x = x := by
      simp [Basis.fn, cox, ind, exLine, Basis.k, h0, h1]
    simp only [List.map_cons, List.map_nil, c0, c1]
    simp [exLine]
    ring
  intro x hx y hy hxy
  rw [e x hx.1 hx.2, e y hy.1 hy.2]
  linarith

example : ∃ s', freeStep exLine 3 1 = some (s', 2) ∧ s'.eval 0 ≠ exLine.eval (1 / 3) := by
  have e : freeShift (3 : ℚ) 1 = (1 / 2, 2) := by decide +kernel
  obtain ⟨s', h⟩ := exLine_some 3 1 (by rw [e]; norm_num)
  rw [e] at h
  exact ⟨s', h, C130_moving_violated exLine s' 3 2 1 exLine_plan (by norm_num) (by norm_num) (by norm_num) exLine_mono h⟩

example : freeStep exLine (2 * 1) 1 = none := C130_double_violated exLine 1 exLine_plan (by norm_num)

end Verif.Spline
