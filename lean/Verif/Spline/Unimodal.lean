import Verif.Spline.Regular

/-! # Basis functions have one hill (C157)

Used to locate the grid points where basis functions are largest (`BSplineBasis.transform`, spline.py:283-308) from a few values only. -/

set_option linter.unusedSectionVars false

namespace Verif.Spline

open Finset

variable {K : Type*} [Field K] [LinearOrder K] [IsStrictOrderedRing K]

/-! ## Lemmas -/

section
variable {b : Basis K}

theorem fn_triple (hb : b.Clamped) {i j l : ℕ} (hij : i < j) (hjl : j < l) {x y z : K} (hxy : x < y) (hyz : y < z) (hx : b.k 0 ≤ x)
    (hz : z ≤ b.k b.len) :
    0 ≤ b.fn i x * b.fn j y * b.fn l z - b.fn i x * b.fn j z * b.fn l y - b.fn i y * b.fn j x * b.fn l z
      + b.fn i y * b.fn j z * b.fn l x + b.fn i z * b.fn j x * b.fn l y - b.fn i z * b.fn j y * b.fn l x := by
  have := (basis_total hb (X := ![x, y, z]) (I := ![i, j, l]) ?_ ?_ (fun r => ?_) fun r => ?_).1
  · rw [Matrix.det_fin_three] at this
    simp only [Matrix.of_apply, Matrix.cons_val_zero, Matrix.cons_val_one, Matrix.cons_val] at this
    linarith
  · refine Fin.strictMono_iff_lt_succ.2 fun a => ?_
    fin_cases a
    · exact hxy
    · exact hyz
  · refine Fin.strictMono_iff_lt_succ.2 fun a => ?_
    fin_cases a
    · exact hij
    · exact hjl
  · fin_cases r
    · exact hx
    · exact hx.trans hxy.le
    · exact hx.trans (hxy.trans hyz).le
  · fin_cases r
    · exact (hxy.trans hyz).le.trans hz
    · exact hyz.le.trans hz
    · exact hz

/-- The sum of the basis functions before the `i`-th. -/
def Basis.before (b : Basis K) (i : ℕ) (x : K) : K := ∑ j ∈ range i, b.fn j x

/-- The sum of the basis functions after the `i`-th. -/
def Basis.after (b : Basis K) (i : ℕ) (x : K) : K := ∑ j ∈ Ico (i + 1) b.len, b.fn j x

theorem before_after (hb : b.Clamped) {i : ℕ} (hi : i < b.len) {x : K} (h0 : b.k 0 ≤ x) (h1 : x ≤ b.k b.len) :
    b.before i x + b.fn i x + b.after i x = 1 := by
  rw [← Basis.sum_fn hb h0 h1]
  unfold Basis.before Basis.after
  rw [← Finset.sum_range_succ, Finset.sum_range_add_sum_Ico _ hi]

theorem before_anti (hb : b.Clamped) {i : ℕ} (hi : i ≤ b.len) {x y : K} (hxy : x < y) (h0 : b.k 0 ≤ x) (h1 : y ≤ b.k b.len) :
    b.before i y ≤ b.before i x := by
  have s : ∀ z, b.k 0 ≤ z → z ≤ b.k b.len → ∑ j ∈ Ico i b.len, b.fn j z = 1 - b.before i z := by
    intro z z0 z1
    rw [← Basis.sum_fn hb z0 z1, ← Finset.sum_range_add_sum_Ico _ hi]
    unfold Basis.before
    ring
  have : b.before i y * (1 - b.before i x) ≤ b.before i x * (1 - b.before i y) := by
    rw [← s x h0 (hxy.le.trans h1), ← s y (h0.trans hxy.le) h1]
    unfold Basis.before
    rw [Finset.sum_mul_sum, Finset.sum_mul_sum]
    refine Finset.sum_le_sum fun j hj => Finset.sum_le_sum fun l hl => ?_
    have := mem_range.1 hj
    have := (mem_Ico.1 hl).1
    exact fn_ratio hb (by omega) hxy h0 h1
  linarith

theorem after_mono (hb : b.Clamped) {i : ℕ} (hi : i < b.len) {x y : K} (hxy : x < y) (h0 : b.k 0 ≤ x) (h1 : y ≤ b.k b.len) :
    b.after i x ≤ b.after i y := by
  have a1 := before_anti hb (i := i + 1) hi hxy h0 h1
  have e : ∀ z, b.before (i + 1) z = b.before i z + b.fn i z := fun z => Finset.sum_range_succ _ _
  have b1 := before_after hb hi h0 (hxy.le.trans h1)
  have b2 := before_after hb hi (h0.trans hxy.le) h1
  rw [e, e] at a1
  linarith

theorem hill_det (hb : b.Clamped) {i : ℕ} {x y z : K} (hxy : x < y) (hyz : y < z) (hx : b.k 0 ≤ x) (hz : z ≤ b.k b.len) :
    0 ≤ b.before i x * b.fn i y * b.after i z - b.before i x * b.fn i z * b.after i y - b.before i y * b.fn i x * b.after i z
      + b.before i y * b.fn i z * b.after i x + b.before i z * b.fn i x * b.after i y - b.before i z * b.fn i y * b.after i x := by
  have key : ∀ f u w : K, b.before i u * f * b.after i w = ∑ j ∈ range i, ∑ l ∈ Ico (i + 1) b.len, b.fn j u * f * b.fn l w := by
    intro f u w
    unfold Basis.before Basis.after
    rw [Finset.sum_mul, Finset.sum_mul_sum]
  rw [key _ x z, key _ x y, key _ y z, key _ y x, key _ z y, key _ z x]
  rw [← Finset.sum_sub_distrib, ← Finset.sum_sub_distrib, ← Finset.sum_add_distrib, ← Finset.sum_add_distrib, ← Finset.sum_sub_distrib]
  refine Finset.sum_nonneg fun j hj => ?_
  rw [← Finset.sum_sub_distrib, ← Finset.sum_sub_distrib, ← Finset.sum_add_distrib, ← Finset.sum_add_distrib, ← Finset.sum_sub_distrib]
  refine Finset.sum_nonneg fun l hl => ?_
  exact fn_triple hb (mem_range.1 hj) (mem_Ico.1 hl).1 hxy hyz hx hz

/-- A basis function has no valley. -/
theorem fn_hill (hb : b.Clamped) {i : ℕ} (hi : i < b.len) {x y z : K} (hxy : x < y) (hyz : y < z) (hx : b.k 0 ≤ x) (hz : z ≤ b.k b.len) :
    b.fn i x ≤ b.fn i y ∨ b.fn i z ≤ b.fn i y := by
  by_contra h
  push Not at h
  obtain ⟨h1, h2⟩ := h
  have d := hill_det (i := i) hb hxy hyz hx hz
  have sx := before_after hb hi hx ((hxy.trans hyz).le.trans hz)
  have sy := before_after hb hi (hx.trans hxy.le) (hyz.le.trans hz)
  have sz := before_after hb hi (hx.trans (hxy.trans hyz).le) hz
  have L1 := before_anti hb hi.le hxy hx (hyz.le.trans hz)
  have L2 := before_anti hb hi.le hyz (hx.trans hxy.le) hz
  have R1 := after_mono hb hi hxy hx (hyz.le.trans hz)
  have R2 := after_mono hb hi hyz (hx.trans hxy.le) hz
  generalize b.before i x = Lx at *
  generalize b.before i y = Ly at *
  generalize b.before i z = Lz at *
  generalize b.after i x = Rx at *
  generalize b.after i y = Ry at *
  generalize b.after i z = Rz at *
  generalize b.fn i x = fx at *
  generalize b.fn i y = fy at *
  generalize b.fn i z = fz at *
  have eRx : Rx = 1 - Lx - fx := by linarith
  have eRy : Ry = 1 - Ly - fy := by linarith
  have eRz : Rz = 1 - Lz - fz := by linarith
  subst eRx eRy eRz
  have d' : 0 ≤ -((Lx - Ly) * (fz - fy)) - (fx - fy) * (Ly - Lz) := by linarith [d]
  have p1 : 0 ≤ (Lx - Ly) * (fz - fy) := mul_nonneg (by linarith) (by linarith)
  have p2 : 0 ≤ (fx - fy) * (Ly - Lz) := mul_nonneg (by linarith) (by linarith)
  have q1 : (Lx - Ly) * (fz - fy) = 0 := by linarith
  have q2 : (fx - fy) * (Ly - Lz) = 0 := by linarith
  have r1 : Lx - Ly = 0 := (mul_eq_zero.1 q1).resolve_right (by intro e; linarith)
  have r2 : Ly - Lz = 0 := (mul_eq_zero.1 q2).resolve_left (by intro e; linarith)
  linarith

end

/-! ## Peaks of neighbouring functions -/

section
variable {b : Basis K}

theorem hill_down (hb : b.Clamped) {i : ℕ} (hi : i < b.len) {l l' x y : K} (hl : l < l') (h : b.fn i l' < b.fn i l) (hx : l' ≤ x) (hxy : x < y)
    (h0 : b.k 0 ≤ l) (h1 : y ≤ b.k b.len) : b.fn i y ≤ b.fn i x := by
  have hy : b.fn i y ≤ b.fn i l' := (fn_hill hb hi hl (hx.trans_lt hxy) h0 h1).resolve_left (not_le.2 h)
  rcases fn_hill hb hi (hl.trans_le hx) hxy h0 h1 with h2 | h2
  · exact hy.trans (h.le.trans h2)
  · exact h2

theorem hill_up (hb : b.Clamped) {i : ℕ} (hi : i < b.len) {r r' x y : K} (hr : r < r') (h : b.fn i r < b.fn i r') (hy : y ≤ r) (hxy : x < y)
    (h0 : b.k 0 ≤ x) (h1 : r' ≤ b.k b.len) : b.fn i x ≤ b.fn i y := by
  have hx : b.fn i x ≤ b.fn i r := (fn_hill hb hi (hxy.trans_le hy) hr h0 h1).resolve_right (not_le.2 h)
  rcases fn_hill hb hi hxy (hy.trans_lt hr) h0 h1 with h2 | h2
  · exact h2
  · exact hx.trans (h.le.trans h2)

theorem before_strict (hb : b.Clamped) {i : ℕ} (hi : i + 1 < b.len) {x y : K} (hxy : x < y) (h0 : b.k 0 ≤ x) (h1 : y ≤ b.k b.len)
    (p1 : 0 < b.fn i x) (p2 : 0 < b.fn (i + 1) y) : b.before (i + 1) y < b.before (i + 1) x := by
  have s : ∀ z, b.k 0 ≤ z → z ≤ b.k b.len → ∑ j ∈ Ico (i + 1) b.len, b.fn j z = 1 - b.before (i + 1) z := by
    intro z z0 z1
    rw [← Basis.sum_fn hb z0 z1, ← Finset.sum_range_add_sum_Ico _ hi.le]
    unfold Basis.before
    ring
  have strict : b.fn i y * b.fn (i + 1) x < b.fn i x * b.fn (i + 1) y := by
    have := (basis_total hb (X := ![x, y]) (I := ![i, i + 1]) ?_ ?_ (fun r => ?_) fun r => ?_).2 fun r => ?_
    · rw [Matrix.det_fin_two] at this
      simp only [Matrix.of_apply, Matrix.cons_val_zero, Matrix.cons_val_one] at this
      linarith
    · refine Fin.strictMono_iff_lt_succ.2 fun a => ?_
      fin_cases a
      exact hxy
    · refine Fin.strictMono_iff_lt_succ.2 fun a => ?_
      fin_cases a
      exact Nat.lt_succ_self i
    · fin_cases r
      · exact h0
      · exact h0.trans hxy.le
    · fin_cases r
      · exact hxy.le.trans h1
      · exact h1
    · fin_cases r
      · exact p1
      · exact p2
  have : b.before (i + 1) y * (1 - b.before (i + 1) x) < b.before (i + 1) x * (1 - b.before (i + 1) y) := by
    rw [← s x h0 (hxy.le.trans h1), ← s y (h0.trans hxy.le) h1]
    unfold Basis.before
    rw [Finset.sum_mul_sum, Finset.sum_mul_sum]
    have le : ∀ j ∈ range (i + 1), ∀ l ∈ Ico (i + 1) b.len, b.fn j y * b.fn l x ≤ b.fn j x * b.fn l y := by
      intro j hj l hl
      have := mem_range.1 hj
      have := (mem_Ico.1 hl).1
      exact fn_ratio hb (by omega) hxy h0 h1
    refine Finset.sum_lt_sum (fun j hj => Finset.sum_le_sum fun l hl => le j hj l hl) ⟨i, mem_range.2 (by omega), ?_⟩
    exact Finset.sum_lt_sum (fun l hl => le i (mem_range.2 (by omega)) l hl) ⟨i + 1, mem_Ico.2 ⟨le_rfl, hi⟩, strict⟩
  linarith

/-- Two grid points on a stretch where one function goes down and the next one goes up keep their largest values apart. -/
theorem peaks_apart (hb : b.Clamped) {i : ℕ} (hi : i + 1 < b.len) {l l' r r' : K} (hl : l < l') (hr : r < r') (h0 : b.k 0 ≤ l) (h1 : r' ≤ b.k b.len)
    (d : b.fn i l' < b.fn i l) (dp : 0 < b.fn i r') (u : b.fn (i + 1) r < b.fn (i + 1) r') (up : 0 < b.fn (i + 1) l)
    {g g' : K} (hg : g ∈ b.grid) (hg' : g' ∈ b.grid) (h2 : l' ≤ g) (h3 : g < g') (h4 : g' ≤ r) : b.peak i < b.peak (i + 1) := by
  have lg : l < g := hl.trans_le h2
  have gr : g' < r' := h4.trans_lt hr
  have gg := grid_mem hb hg
  have gg' := grid_mem hb hg'
  have a1 : b.peak i ≤ g := by
    by_contra hc
    push Not at hc
    have e1 := hill_down hb (by omega) hl d h2 hc h0 (grid_mem hb (peak_mem b i)).2
    have e2 := argmaxOn_first (b.fn i) b.grid (grid_sorted hb) hg hc
    exact absurd (e2.trans_le e1) (lt_irrefl _)
  refine a1.trans_lt ?_
  by_contra hc
  push Not at hc
  have e1 : b.fn (i + 1) (b.peak (i + 1)) ≤ b.fn (i + 1) g := by
    rcases eq_or_lt_of_le hc with e | e
    · rw [e]
    · exact hill_up hb hi hr u (h3.le.trans h4) e (grid_mem hb (peak_mem b (i + 1))).1 h1
  have e2 : b.fn (i + 1) g' ≤ b.fn (i + 1) (b.peak (i + 1)) := argmaxOn_ge _ _ hg'
  have e3 := hill_up hb hi hr u h4 h3 gg.1 h1
  have e4 : b.fn (i + 1) g = b.fn (i + 1) g' := le_antisymm e3 (e2.trans e1)
  have p1 : 0 < b.fn i g := by
    rcases fn_hill hb (by omega : i < b.len) lg (h3.trans gr) h0 h1 with h | h
    · exact lt_of_lt_of_le (lt_of_le_of_lt (Basis.fn_nonneg hb _ _) d) h
    · exact dp.trans_le h
  have p2 : 0 < b.fn (i + 1) g' := by
    rcases fn_hill hb hi (lg.trans h3) gr h0 h1 with h | h
    · exact up.trans_le h
    · exact lt_of_lt_of_le (lt_of_le_of_lt (Basis.fn_nonneg hb _ _) u) h
  have st := before_strict hb hi h3 gg.1 gg'.2 p1 p2
  have e5 : b.fn (i + 1) g' < b.fn (i + 1) r' := by
    rcases eq_or_lt_of_le h4 with e | e
    · rw [e]; exact u
    · exact (hill_up hb hi hr u le_rfl e gg'.1 h1).trans_lt u
  have dt := hill_det (i := i + 1) hb h3 gr gg.1 h1
  have sx := before_after hb hi gg.1 gg.2
  have sy := before_after hb hi gg'.1 gg'.2
  have sz := before_after hb hi (gg'.1.trans gr.le) h1
  rw [e4] at dt sx
  generalize b.before (i + 1) g = Lx at *
  generalize b.before (i + 1) g' = Ly at *
  generalize b.before (i + 1) r' = Lz at *
  generalize b.after (i + 1) g = Rx at *
  generalize b.after (i + 1) g' = Ry at *
  generalize b.after (i + 1) r' = Rz at *
  generalize b.fn (i + 1) g' = fy at *
  generalize b.fn (i + 1) r' = fz at *
  have eRx : Rx = 1 - Lx - fy := by linarith
  have eRy : Ry = 1 - Ly - fy := by linarith
  have eRz : Rz = 1 - Lz - fz := by linarith
  subst eRx eRy eRz
  have d' : 0 ≤ -((Lx - Ly) * (fz - fy)) := by linarith [dt]
  have : 0 < (Lx - Ly) * (fz - fy) := mul_pos (by linarith) (by linarith)
  linarith

/-- Functions that do not overlap. -/
theorem peaks_disjoint (hb : b.Clamped) {i : ℕ} (h : b.k (i + 1) = b.k (i + b.degree + 1)) (p1 : 0 < b.fn i (b.peak i))
    (p2 : 0 < b.fn (i + 1) (b.peak (i + 1))) : b.peak i < b.peak (i + 1) := by
  have m1 := grid_mem hb (peak_mem b i)
  have m2 := grid_mem hb (peak_mem b (i + 1))
  have a1 : b.peak i ≤ b.k (i + b.degree + 1) := by
    by_contra hc
    push Not at hc
    refine absurd p1 (not_lt.2 (le_of_eq ?_))
    exact cox_eq_zero hb.mono ((hb.mono (Nat.zero_le _)).trans_lt hc) _ _ (Or.inr hc)
  have a2 : b.k (i + 1) < b.peak (i + 1) := by
    by_contra hc
    push Not at hc
    refine absurd p2 (not_lt.2 (le_of_eq ?_))
    rcases eq_or_lt_of_le m2.1 with e | e
    · rw [← e, fn_first hb, if_neg (by omega)]
    · exact cox_eq_zero hb.mono e _ _ (Or.inl hc)
  rw [h] at a2
  exact a1.trans_lt a2

theorem resolved_of_steps (hpos : ∀ i, i < b.len → ∃ x ∈ b.grid, 0 < b.fn i x)
    (step : ∀ i, i + 1 < b.len → b.peak i < b.peak (i + 1)) : b.Resolved := by
  have chain : ∀ d i, i + d + 1 < b.len → b.peak i < b.peak (i + d + 1) := by
    intro d
    induction d with
    | zero => exact fun i hi => step i hi
    | succ d ih => exact fun i hi => (ih i (by omega)).trans (step (i + d + 1) hi)
  refine ⟨hpos, fun i j hi hj e => ?_⟩
  rcases lt_trichotomy i j with hlt | rfl | hlt
  · have := chain (j - i - 1) i (by omega)
    rw [show i + (j - i - 1) + 1 = j by omega] at this
    exact absurd (e : b.peak i = b.peak j) this.ne
  · rfl
  · have := chain (i - j - 1) j (by omega)
    rw [show j + (i - j - 1) + 1 = i by omega] at this
    exact absurd (e : b.peak i = b.peak j) this.ne'

/-- The grid of a basis on `[0, 1]`. -/
theorem grid_unit (h0 : b.knots.headD 0 = 0) (h1 : b.knots.getLastD 0 = 1) (x : K) : x ∈ b.grid ↔ ∃ j : ℕ, j ≤ 500 ∧ x = (j : K) / 500 := by
  unfold Basis.grid
  rw [h0, h1, List.mem_map]
  constructor
  · rintro ⟨j, hj, rfl⟩
    exact ⟨j, by have := List.mem_range.1 hj; omega, by ring⟩
  · rintro ⟨j, hj, rfl⟩
    exact ⟨j, List.mem_range.2 (by omega), by ring⟩

/-- Two neighbouring grid points on any stretch of length `2/500`. -/
theorem two_points {l r : K} (h0 : 0 ≤ l) (h1 : r ≤ 1) (h : 2 / 500 ≤ r - l) :
    ∃ j : ℕ, j + 1 ≤ 500 ∧ l ≤ (j : K) / 500 ∧ ((j + 1 : ℕ) : K) / 500 ≤ r := by
  obtain ⟨j, -, hj⟩ := nearest 500 (y := 500 * l + 1 / 2) (by linarith) (by push_cast; linarith)
  rw [abs_le] at hj
  have h2 : ((j + 1 : ℕ) : K) / 500 ≤ r := by rw [div_le_iff₀ (by norm_num)]; push_cast; linarith [hj.2]
  refine ⟨j, ?_, ?_, h2⟩
  · have : ((j + 1 : ℕ) : K) ≤ 500 := by
      rw [div_le_iff₀ (by norm_num)] at h2
      linarith
    exact_mod_cast this
  · rw [le_div_iff₀ (by norm_num)]
    linarith [hj.1]

end

end Verif.Spline
