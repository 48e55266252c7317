import Verif.Spline.Windows
import Verif.Vehicles.Traj

/-! # Constraints that can always be computed (C157)

The operators on splines (spline.py:396-441) with `BSplineBasis.transform` (spline.py:283-308), for splines on the knots of
`Vehicle.define_knots` (vehicle.py:80-87). -/

set_option linter.unusedSectionVars false

namespace Verif.Spline

open Finset

variable {K : Type*} [Field K] [LinearOrder K] [IsStrictOrderedRing K]

/-! ## Specification -/

/-- All splines in the expression have knots on the same `n` equal intervals of `[0, 1]`. -/
def Expr.OnIntervals (n : ℕ) : Expr K → Prop
  | .num _ => True
  | .spl s => s.WF ∧ ∃ D m, 1 ≤ m ∧ m ≤ D + 1 ∧ s.basis = uni D m n
  | .neg e => e.OnIntervals n
  | .add e f => e.OnIntervals n ∧ f.OnIntervals n
  | .mul e f => e.OnIntervals n ∧ f.OnIntervals n

/-- The degree of the expression, as a polynomial in time between two knots. -/
def Expr.totalDegree : Expr K → ℕ
  | .num _ => 0
  | .spl s => s.basis.degree
  | .neg e => e.totalDegree
  | .add e f => max e.totalDegree f.totalDegree
  | .mul e f => e.totalDegree + f.totalDegree

/-! ## Lemmas -/

theorem win_get {D m a n j : ℕ} (hj : j < D + 3) : (win D m a n)[j]? = some (if j < a then 0 else min n ((j - a) / m + 1)) := by
  unfold win
  rw [List.getElem?_map, List.getElem?_range hj]
  rfl

theorem uni_window {D m n i : ℕ} (hm : 1 ≤ m) (hmD : m ≤ D + 1) (hn : 1 ≤ n) (hi : i + 1 < D + 1 + m * (n - 1)) :
    ∃ a n' e, 1 ≤ a ∧ a ≤ D + 1 ∧ 1 ≤ n' ∧ n' ≤ (D + 2 - a) / m + 1 ∧
      ∀ j, j < D + 3 → kap D m n (i + j) = e + if j < a then 0 else min n' ((j - a) / m + 1) := by
  by_cases h : i ≤ D
  · refine ⟨D + 1 - i, min n ((D + 2 - (D + 1 - i)) / m + 1), 0, by omega, by omega, Nat.le_min.2 ⟨hn, Nat.succ_pos _⟩, Nat.min_le_right _ _, fun j hj => ?_⟩
    rw [zero_add]
    unfold kap
    by_cases hj' : j < D + 1 - i
    · rw [if_pos (by omega), if_pos hj']
    · rw [if_neg (by omega), if_neg hj', show i + j - (D + 1) = j - (D + 1 - i) by omega]
      have : (j - (D + 1 - i)) / m ≤ (D + 2 - (D + 1 - i)) / m := Nat.div_le_div_right (by omega)
      omega
  · obtain ⟨t, rfl⟩ : ∃ t, i = D + 1 + t := ⟨i - (D + 1), by omega⟩
    have ht : t < m * (n - 1) := by omega
    have hq : t / m < n - 1 := (Nat.div_lt_iff_lt_mul hm).2 (by rw [mul_comm]; exact ht)
    have hr : t % m < m := Nat.mod_lt _ hm
    have ht' := Nat.div_add_mod t m
    refine ⟨m - t % m, min (n - t / m - 1) ((D + 2 - (m - t % m)) / m + 1), t / m + 1, by omega, by omega,
      Nat.le_min.2 ⟨by omega, Nat.succ_pos _⟩, Nat.min_le_right _ _, fun j hj => ?_⟩
    unfold kap
    rw [if_neg (by omega), show D + 1 + t + j - (D + 1) = t + j by omega]
    have e1 : (t + j) / m = t / m + (t % m + j) / m := by
      conv_lhs => rw [← ht', add_assoc, Nat.mul_add_div hm]
    by_cases hj' : j < m - t % m
    · rw [if_pos hj', e1, Nat.div_eq_of_lt (by omega : t % m + j < m)]
      omega
    · rw [if_neg hj']
      have e2 : (t % m + j) / m = (j - (m - t % m)) / m + 1 := by
        rw [show t % m + j = (j - (m - t % m)) + m by omega, Nat.add_div_right _ hm]
      have : (j - (m - t % m)) / m ≤ (D + 2 - (m - t % m)) / m := Nat.div_le_div_right (by omega)
      rw [e1, e2]
      omega

theorem small_dvd {a : ℕ} (h0 : 0 < a) (h : a ≤ 10) : a ∣ 2520 := by interval_cases a <;> decide

theorem kap_gap {D m n i : ℕ} (hm : 1 ≤ m) (hmD : m ≤ D + 1) (hn : 1 ≤ n) (hi : i < D + 1 + m * (n - 1)) :
    kap D m n i + 1 ≤ kap D m n (i + D + 1) := by
  have e : kap D m n (i + D + 1) = min n (i / m + 1) := by
    unfold kap
    rw [if_neg (by omega), show i + D + 1 - (D + 1) = i by omega]
  rw [e]
  refine Nat.le_min.2 ⟨kap_lt hm hn hi, ?_⟩
  unfold kap
  split_ifs with h
  · exact Nat.le_add_left _ _
  · have : (i - (D + 1)) / m + 1 ≤ i / m := by
      rw [← Nat.add_div_right _ hm]
      exact Nat.div_le_div_right (by omega)
    omega

theorem uni_pos {D m n i : ℕ} (hm : 1 ≤ m) (hmD : m ≤ D + 1) (hn : 1 ≤ n) (hn' : n ≤ 200) (hi : i < D + 1 + m * (n - 1)) :
    ∃ x ∈ (uni D m n : Basis K).grid, 0 < (uni D m n : Basis K).fn i x := by
  have hn0 : (0 : K) < n := by exact_mod_cast hn
  have hlt := kap_gap hm hmD hn hi
  have hk : (uni D m n : Basis K).k i + 1 / n ≤ (uni D m n : Basis K).k (i + D + 1) := by
    rw [uni_k hm hn, uni_k hm hn, ← add_div]
    have : (kap D m n i : K) + 1 ≤ kap D m n (i + D + 1) := by exact_mod_cast hlt
    gcongr
  have hinv : (1 : K) / 200 ≤ 1 / n := one_div_le_one_div_of_le hn0 (by exact_mod_cast hn')
  have k0 : (0 : K) ≤ (uni D m n : Basis K).k i := by rw [uni_k hm hn]; positivity
  have k1 : (uni D m n : Basis K).k (i + D + 1) ≤ 1 := by
    rw [uni_k hm hn, div_le_one hn0]; exact_mod_cast kap_le _ _ _ _
  obtain ⟨j, hj, h1, h2⟩ := two_points (l := (uni D m n : Basis K).k i + 1 / 2000) (r := (uni D m n : Basis K).k (i + D + 1) - 1 / 2000)
    (by linarith) (by linarith) (by linarith)
  obtain ⟨u0, u1⟩ := uni_ends (K := K) (D := D) hm hn
  refine ⟨(j : K) / 500, (grid_unit u0 u1 _).2 ⟨j, by omega, rfl⟩, ?_⟩
  have kz : (uni D m n : Basis K).k 0 ≤ (uni D m n : Basis K).k i := uni_mono hm hn (Nat.zero_le _)
  push_cast at h2
  have : (j : K) / 500 ≤ ((j : K) + 1) / 500 := by gcongr; linarith
  exact cox_pos (uni_mono hm hn) (by linarith) _ _ (by linarith) (Or.inl (by show _ < (uni D m n : Basis K).k (i + D + 1); linarith))

theorem winOk_spec {D : ℕ} {w : List ℕ} (h : winOk D w = true) : ∃ S, 400 + D < S ∧
    ∃ a1 b1 a2 b2 a3 b3 a4 b4, tab 2520 (S - 400 - D) (1000 * D) w D = [a1, b1] ∧ tab 2520 (S - 400) (1000 * D) w D = [a2, b2] ∧
      tab 2520 (S + 400) (1000 * D) w D = [a3, b3] ∧ tab 2520 (S + 400 + D) (1000 * D) w D = [a4, b4] ∧
      a2 < a1 ∧ 0 < a4 ∧ b3 < b4 ∧ 0 < b1 := by
  unfold winOk at h
  simp only at h
  split at h
  · rename_i a1 b1 a2 b2 a3 b3 a4 b4 e1 e2 e3 e4
    simp only [Bool.and_eq_true, Nat.blt_eq] at h
    obtain ⟨⟨⟨⟨h0, h1⟩, h2⟩, h3⟩, h4⟩ := h
    exact ⟨_, by omega, a1, b1, a2, b2, a3, b3, a4, b4, e1, e2, e3, e4, h1, h2, h3, h4⟩
  · exact absurd h (by simp)

theorem uni_step {D m n i : ℕ} (hm : 1 ≤ m) (hmD : m ≤ D + 1) (hn : 1 ≤ n) (hD : D ≤ 8) (hn' : n ≤ 200) (hDn : D * n ≤ 200)
    (hi : i + 1 < D + 1 + m * (n - 1)) : (uni D m n : Basis K).peak i < (uni D m n : Basis K).peak (i + 1) := by
  have hn0 : (0 : K) < n := by exact_mod_cast hn
  have cl := uni_clamped (K := K) (D := D) hm hn
  have mono := uni_mono (K := K) (D := D) hm hn
  obtain ⟨u0, u1⟩ := uni_ends (K := K) (D := D) hm hn
  have hk0 : (uni D m n : Basis K).k 0 = 0 := by rw [← headD_eq_k cl]; exact u0
  have hkl : (uni D m n : Basis K).k (uni D m n : Basis K).len = 1 := by rw [← getLastD_eq_k cl]; exact u1
  have hpos : ∀ i, i < D + 1 + m * (n - 1) → 0 < (uni D m n : Basis K).fn i ((uni D m n : Basis K).peak i) := by
    intro i hi
    obtain ⟨x, hx, hp⟩ := uni_pos (K := K) hm hmD hn hn' hi
    exact hp.trans_le (argmaxOn_ge _ _ hx)
  obtain ⟨a, n', e, ha1, ha2, hn1, hn2, hw⟩ := uni_window hm hmD hn hi
  have all := winAll_le D hD
  unfold winAll at all
  have all := List.all_eq_true.1 all m (List.mem_range.2 (by omega))
  have all := List.all_eq_true.1 all a (List.mem_range.2 (by omega))
  have all := List.all_eq_true.1 all n' (List.mem_range.2 (by omega))
  have g : ∀ j, j < D + 3 → kap D m n (i + j) = e + (win D m a n').getD j 0 := by
    intro j hj
    rw [hw j hj, List.getD_eq_getElem?_getD, win_get hj]
    rfl
  simp only [Bool.or_eq_true, beq_iff_eq] at all
  have gap1 := kap_gap hm hmD hn (by omega : i < D + 1 + m * (n - 1))
  have gap2 := kap_gap hm hmD hn hi
  have g0 := g 0 (by omega)
  have g1 := g 1 (by omega)
  have gD1 := g (D + 1) (by omega)
  have gD2 := g (D + 2) (by omega)
  rw [add_zero] at g0
  rw [show i + (D + 1) = i + D + 1 by omega] at gD1
  rw [show i + (D + 2) = i + 1 + D + 1 by omega] at gD2
  have hdis : ∀ (h : kap D m n (i + 1) = kap D m n (i + D + 1)), (uni D m n : Basis K).peak i < (uni D m n : Basis K).peak (i + 1) := by
    intro h
    refine peaks_disjoint cl ?_ (hpos i (by omega)) (hpos (i + 1) hi)
    show (uni D m n : Basis K).k (i + 1) = (uni D m n : Basis K).k (i + D + 1)
    rw [uni_k hm hn, uni_k hm hn, h]
  rcases all with (((((h | h) | h) | h) | h) | h) | h
  · omega
  · omega
  · omega
  · omega
  · omega
  · exact hdis (by omega)
  · rcases Nat.eq_zero_or_pos D with hD0 | hD0
    · subst hD0; exact hdis rfl
    obtain ⟨S, hS, a1, b1, a2, b2, a3, b3, a4, b4, e1, e2, e3, e4, l1, l2, l3, l4⟩ := winOk_spec h
    have hc : (0 : K) < 1 / n := one_div_pos.2 hn0
    have hQ : 0 < 1000 * D := by omega
    have len : (win D m a n').length = D + 3 := by simp [win]
    have hww : ∀ b q : ℕ, (win D m a n')[b]? = some q → (uni D m n : Basis K).k (i + b) = 1 / n * (q : K) + (e : K) / n := by
      intro b q hb
      have hb' : b < D + 3 := by
        by_contra hc
        rw [List.getElem?_eq_none (by omega)] at hb
        exact absurd hb (by simp)
      rw [uni_k hm hn, g b hb', List.getD_eq_getElem?_getD, hb]
      push_cast
      rw [Option.getD_some]
      ring
    have hdvd : ∀ x ∈ win D m a n', ∀ y ∈ win D m a n', x < y → y - x ∣ 2520 := by
      intro x _ y hy hxy
      refine small_dvd (by omega) ?_
      obtain ⟨j, hj, rfl⟩ := List.mem_map.1 hy
      have hj := List.mem_range.1 hj
      split_ifs at hxy ⊢ with h'
      · omega
      · have : (j - a) / m ≤ D + 2 - a := (Nat.div_le_self _ _).trans (by omega)
        omega
    have hMQ : (0 : K) < ((2520 : ℕ) : K) * ((1000 * D : ℕ) : K) := by positivity
    set pt : ℕ → K := fun X => 1 / n * ((X : K) / ((1000 * D : ℕ) : K)) + (e : K) / n with hpt
    have ptlt : ∀ X Y, X < Y → pt X < pt Y := by
      intro X Y hXY
      have : (X : K) < Y := by exact_mod_cast hXY
      simp only [hpt]
      gcongr
    have pt0 : ∀ X, 0 < X → (uni D m n : Basis K).k 0 < pt X := by
      intro X hX
      have : (0 : K) < X := by exact_mod_cast hX
      rw [hk0]
      simp only [hpt]
      positivity
    have ev : ∀ X, 0 < X → ∀ va vb, tab 2520 X (1000 * D) (win D m a n') D = [va, vb] →
        (uni D m n : Basis K).fn i (pt X) * (((2520 : ℕ) : K) * ((1000 * D : ℕ) : K)) ^ D = va ∧
        (uni D m n : Basis K).fn (i + 1) (pt X) * (((2520 : ℕ) : K) * ((1000 * D : ℕ) : K)) ^ D = vb := by
      intro X hX va vb hv
      obtain ⟨v, f1, f2⟩ := cox_tab mono (p := D) hc hQ hww hdvd (pt0 X hX) D 0 (by omega)
      obtain ⟨v', f3, f4⟩ := cox_tab mono (p := D) hc hQ hww hdvd (pt0 X hX) D 1 (by omega)
      rw [hv] at f1 f3
      simp only [List.getElem?_cons_zero, List.getElem?_cons_succ, Option.some.injEq] at f1 f3
      subst f1 f3
      exact ⟨f2, f4⟩
    have P : (0 : K) < (((2520 : ℕ) : K) * ((1000 * D : ℕ) : K)) ^ D := pow_pos hMQ D
    obtain ⟨p1, q1⟩ := ev _ (by omega) _ _ e1
    obtain ⟨p2, q2⟩ := ev _ (by omega) _ _ e2
    obtain ⟨p3, q3⟩ := ev _ (by omega) _ _ e3
    obtain ⟨p4, q4⟩ := ev _ (by omega) _ _ e4
    have lt_of : ∀ {x y : K} {u v : ℕ}, x * (((2520 : ℕ) : K) * ((1000 * D : ℕ) : K)) ^ D = u → y * (((2520 : ℕ) : K) * ((1000 * D : ℕ) : K)) ^ D = v → u < v → x < y := by
      intro x y u v hu hv huv
      refine lt_of_mul_lt_mul_right ?_ P.le
      rw [hu, hv]
      exact_mod_cast huv
    have pos_of : ∀ {x : K} {u : ℕ}, x * (((2520 : ℕ) : K) * ((1000 * D : ℕ) : K)) ^ D = u → 0 < u → 0 < x := by
      intro x u hu h0
      refine lt_of_mul_lt_mul_right ?_ P.le
      rw [hu, zero_mul]
      exact_mod_cast h0
    have last : pt (S + 400 + D) ≤ 1 := by
      by_contra hc'
      have hc' := not_le.1 hc'
      have h4 := pos_of p4 l2
      have : (uni D m n : Basis K).fn i (pt (S + 400 + D)) = 0 := by
        refine cox_eq_zero mono (pt0 _ (by omega)) _ _ (Or.inr (lt_of_le_of_lt ?_ hc'))
        rw [uni_k hm hn, div_le_one hn0]
        exact_mod_cast kap_le _ _ _ _
      exact absurd h4 (by rw [this]; exact lt_irrefl _)
    have diff : (2 : K) / 500 ≤ pt (S + 400) - pt (S - 400) := by
      have hDK : (0 : K) < D := by exact_mod_cast hD0
      have : pt (S + 400) - pt (S - 400) = 800 / (1000 * D * n) := by
        simp only [hpt]
        rw [Nat.cast_sub (by omega)]
        push_cast
        field_simp
        ring
      rw [this, div_le_div_iff₀ (by norm_num) (by positivity)]
      have : (D : K) * n ≤ 200 := by exact_mod_cast hDn
      nlinarith
    have first : 0 ≤ pt (S - 400) := by rw [← hk0]; exact (pt0 _ (by omega)).le
    obtain ⟨j, hj, j1, j2⟩ := two_points first ((ptlt (S + 400) (S + 400 + D) (by omega)).le.trans last) diff
    refine peaks_apart cl (by rw [uni_len]; exact hi) (ptlt (S - 400 - D) (S - 400) (by omega)) (ptlt (S + 400) (S + 400 + D) (by omega))
      (pt0 _ (by omega)).le (by rw [hkl]; exact last) (lt_of p2 p1 l1) (pos_of p4 l2) (lt_of q3 q4 l3) (pos_of q1 l4)
      (g := (j : K) / 500) (g' := ((j + 1 : ℕ) : K) / 500) ((grid_unit u0 u1 _).2 ⟨j, by omega, rfl⟩) ((grid_unit u0 u1 _).2 ⟨j + 1, hj, rfl⟩) j1 ?_ j2
    gcongr
    omega

/-- The grid tells the functions of these bases apart. -/
theorem uni_resolved {D m n : ℕ} (hm : 1 ≤ m) (hmD : m ≤ D + 1) (hn : 1 ≤ n) (hD : D ≤ 8) (hn' : n ≤ 200) (hDn : D * n ≤ 200) :
    (uni D m n : Basis K).Resolved :=
  resolved_of_steps (fun _ hi => uni_pos hm hmD hn hn' (by rwa [uni_len] at hi)) fun _ hi => uni_step hm hmD hn hD hn' hDn (by rwa [uni_len] at hi)

theorem num_degree {e : Expr K} {c : K} (h : e.Runs (.num c)) : e.totalDegree = 0 := by
  generalize hv : PyVal.num c = v at h
  induction h generalizing c with
  | num c => rfl
  | spl s => cases hv
  | negNum _ ih => exact ih rfl
  | negSpl _ _ => cases hv
  | addNN _ _ ih1 ih2 => unfold Expr.totalDegree; rw [ih1 rfl, ih2 rfl]; rfl
  | addSN _ _ _ _ => cases hv
  | addNS _ _ _ _ => cases hv
  | addSS _ _ _ _ _ _ => cases hv
  | mulNN _ _ ih1 ih2 => unfold Expr.totalDegree; rw [ih1 rfl, ih2 rfl]
  | mulSN _ _ _ _ => cases hv
  | mulNS _ _ _ _ => cases hv
  | mulSS _ _ _ _ _ => cases hv

theorem runs_uni {n : ℕ} (hn : 1 ≤ n) (hn' : n ≤ 200) : ∀ (e : Expr K), e.OnIntervals n → e.totalDegree ≤ 8 → e.totalDegree * n ≤ 200 →
    ∃ v, e.Runs v ∧ ∀ s, v = .spl s → ∃ m, 1 ≤ m ∧ m ≤ e.totalDegree + 1 ∧ s.basis = uni e.totalDegree m n
  | .num c, _, _, _ => ⟨_, .num c, fun s h => by cases h⟩
  | .spl s, h, _, _ => by
    obtain ⟨-, D, m, h1, h2, h3⟩ := h
    refine ⟨_, .spl s, fun t ht => ?_⟩
    cases ht
    have : (Expr.spl s).totalDegree = D := by unfold Expr.totalDegree; rw [h3]; rfl
    rw [this]
    exact ⟨m, h1, h2, h3⟩
  | .neg e, h, h8, h200 => by
    obtain ⟨v, r, hv⟩ := runs_uni hn hn' e h h8 h200
    cases v with
    | num c => exact ⟨_, .negNum r, fun s h => by cases h⟩
    | spl s => exact ⟨_, .negSpl r, fun t ht => by cases ht; exact hv s rfl⟩
  | .add e f, h, h8, h200 => by
    unfold Expr.totalDegree at h8 h200 ⊢
    have m1 : e.totalDegree * n ≤ 200 := (Nat.mul_le_mul_right n (le_max_left _ _)).trans h200
    have m2 : f.totalDegree * n ≤ 200 := (Nat.mul_le_mul_right n (le_max_right _ _)).trans h200
    obtain ⟨v, r, hv⟩ := runs_uni hn hn' e h.1 (by omega) m1
    obtain ⟨v', r', hv'⟩ := runs_uni hn hn' f h.2 (by omega) m2
    cases v with
    | num c =>
      have e0 : e.totalDegree = 0 := num_degree r
      cases v' with
      | num d => exact ⟨_, .addNN r r', fun s h => by cases h⟩
      | spl t => exact ⟨_, .addNS r r', fun s hs => by cases hs; rw [e0, Nat.zero_max]; exact hv' t rfl⟩
    | spl s =>
      cases v' with
      | num d =>
        have e0 : f.totalDegree = 0 := num_degree r'
        exact ⟨_, .addSN r r', fun t hs => by cases hs; rw [e0, Nat.max_zero]; exact hv s rfl⟩
      | spl t =>
        obtain ⟨m, a1, a2, a3⟩ := hv s rfl
        obtain ⟨m', c1, c2, c3⟩ := hv' t rfl
        have hb : s.basis.add t.basis = uni (max e.totalDegree f.totalDegree) (max (m + (max e.totalDegree f.totalDegree - e.totalDegree))
            (m' + (max e.totalDegree f.totalDegree - f.totalDegree))) n := by
          rw [a3, c3]
          exact uni_combine a1 c1 hn (le_max_left _ _) (le_max_right _ _)
        have res := uni_resolved (K := K) (D := max e.totalDegree f.totalDegree)
          (m := max (m + (max e.totalDegree f.totalDegree - e.totalDegree)) (m' + (max e.totalDegree f.totalDegree - f.totalDegree)))
          (by omega) (by omega) hn h8 hn' h200
        rw [← hb] at res
        have cl : (s.basis.add t.basis).Clamped := by rw [hb]; exact uni_clamped (by omega) hn
        obtain ⟨Ts, hTs⟩ := (C136_solve cl s.basis.fn s.basis.len).2 res
        obtain ⟨Tt, hTt⟩ := (C136_solve cl t.basis.fn t.basis.len).2 res
        exact ⟨_, .addSS r r' hTs hTt, fun u hu => by cases hu; exact ⟨_, by omega, by omega, hb⟩⟩
  | .mul e f, h, h8, h200 => by
    unfold Expr.totalDegree at h8 h200 ⊢
    have m1 : e.totalDegree * n ≤ 200 := (Nat.mul_le_mul_right n (Nat.le_add_right _ _)).trans h200
    have m2 : f.totalDegree * n ≤ 200 := (Nat.mul_le_mul_right n (Nat.le_add_left _ _)).trans h200
    obtain ⟨v, r, hv⟩ := runs_uni hn hn' e h.1 (by omega) m1
    obtain ⟨v', r', hv'⟩ := runs_uni hn hn' f h.2 (by omega) m2
    cases v with
    | num c =>
      have e0 : e.totalDegree = 0 := num_degree r
      cases v' with
      | num d => exact ⟨_, .mulNN r r', fun s h => by cases h⟩
      | spl t => exact ⟨_, .mulNS r r', fun s hs => by cases hs; rw [e0, Nat.zero_add]; exact hv' t rfl⟩
    | spl s =>
      cases v' with
      | num d =>
        have e0 : f.totalDegree = 0 := num_degree r'
        exact ⟨_, .mulSN r r', fun t hs => by cases hs; rw [e0, Nat.add_zero]; exact hv s rfl⟩
      | spl t =>
        obtain ⟨m, a1, a2, a3⟩ := hv s rfl
        obtain ⟨m', c1, c2, c3⟩ := hv' t rfl
        have hb : s.basis.mul t.basis = uni (e.totalDegree + f.totalDegree) (max (m + (e.totalDegree + f.totalDegree - e.totalDegree))
            (m' + (e.totalDegree + f.totalDegree - f.totalDegree))) n := by
          rw [a3, c3]
          exact uni_combine a1 c1 hn (Nat.le_add_right _ _) (Nat.le_add_left _ _)
        have res := uni_resolved (K := K) (D := e.totalDegree + f.totalDegree)
          (m := max (m + (e.totalDegree + f.totalDegree - e.totalDegree)) (m' + (e.totalDegree + f.totalDegree - f.totalDegree)))
          (by omega) (by omega) hn h8 hn' h200
        rw [← hb] at res
        have cl : (s.basis.mul t.basis).Clamped := by rw [hb]; exact uni_clamped (by omega) hn
        obtain ⟨T, hT⟩ := (C136_solve cl (pairFn s.basis t.basis) (s.basis.pairs t.basis).length).2 res
        exact ⟨_, .mulSS r r' hT, fun u hu => by cases hu; exact ⟨_, by omega, by omega, hb⟩⟩

theorem OnIntervals.on {n : ℕ} (hn : 1 ≤ n) : ∀ {e : Expr K}, e.OnIntervals n → e.On 0 1
  | .num _, _ => trivial
  | .spl s, ⟨w, D, m, h1, _, h3⟩ => by
    refine ⟨h3 ▸ uni_clamped h1 hn, w, ?_, ?_⟩
    · rw [h3]; exact (uni_ends h1 hn).1
    · rw [h3]; exact (uni_ends h1 hn).2
  | .neg e, h => OnIntervals.on (e := e) hn h
  | .add e f, h => ⟨OnIntervals.on (e := e) hn h.1, OnIntervals.on (e := f) hn h.2⟩
  | .mul e f, h => ⟨OnIntervals.on (e := e) hn h.1, OnIntervals.on (e := f) hn h.2⟩

theorem basis_ext_k {b b' : Basis K} (hd : b.degree = b'.degree) (hl : b.knots.length = b'.knots.length) (hk : ∀ i, b.k i = b'.k i) : b = b' := by
  obtain ⟨kn, d⟩ := b
  obtain ⟨kn', d'⟩ := b'
  have hd : d = d' := hd
  subst hd
  congr 1
  refine List.ext_getElem hl fun i h h' => ?_
  have := hk i
  unfold Basis.k at this
  rwa [List.getD_eq_getElem _ _ h, List.getD_eq_getElem _ _ h'] at this

theorem deriv_uni {n : ℕ} (hn : 1 ≤ n) (o : ℕ) : ∀ {p : ℕ} {s : BSpline K}, s.WF → s.basis = uni p 1 n → o ≤ p →
    (s.derivative o).WF ∧ (s.derivative o).basis = uni (p - o) 1 n := by
  induction o with
  | zero =>
    intro p s w h _
    have e : s.derivative 0 = s := by unfold BSpline.derivative; rw [if_pos rfl]
    rw [e]
    exact ⟨w, h⟩
  | succ o ih =>
    intro p s w h ho
    obtain ⟨w1, h1⟩ := ih w h (by omega)
    rw [derivative_succ]
    have hd : (s.derivative o).basis.degree = p - o := by rw [h1]; rfl
    have hl : (s.derivative o).basis.len = p - o + 1 + 1 * (n - 1) := by rw [h1, uni_len]
    have c1 : (s.derivative o).basis.Clamped := by rw [h1]; exact uni_clamped le_rfl hn
    obtain ⟨a1, a2, a3, a4, a5, _⟩ := derivative_one_spec c1 w1 (by omega)
    refine ⟨a4, basis_ext_k ?_ ?_ fun i => ?_⟩
    · rw [a2, hd]; show _ = p - (o + 1); omega
    · rw [a5.length_eq, a2, a3, hd, hl, uni_length]; omega
    · rw [a1, h1, uni_k le_rfl hn, uni_k le_rfl hn]
      congr 2
      unfold kap
      by_cases hi : i ≤ p - (o + 1)
      · rw [if_pos hi, if_pos (by omega)]
      · rw [if_neg hi, if_neg (by omega)]
        congr 3
        omega

theorem vehBasis_uni {p n : ℕ} (hn : 1 ≤ n) : Vehicles.vehBasis p n = uni p 1 n := by
  refine basis_ext_k rfl ?_ fun i => ?_
  · rw [Vehicles.vehBasis_length, uni_length]; omega
  · rw [Vehicles.vehBasis_k hn, uni_k le_rfl hn]
    congr 2
    unfold kap
    split_ifs with h
    · omega
    · rw [Nat.div_one, min_comm]; congr 1; omega

/-! ## Specification, for vehicles -/

/-- The expression is built from numbers and (derivatives of) splines that vehicles define with `n` knot intervals. -/
def Expr.OfVehicles (n : ℕ) : Expr ℝ → Prop
  | .num _ => True
  | .spl s => ∃ degree o cs, o ≤ degree ∧ cs.length = n + degree ∧ s = (⟨Vehicles.vehBasis degree n, cs⟩ : BSpline ℝ).derivative o
  | .neg e => e.OfVehicles n
  | .add e f => e.OfVehicles n ∧ f.OfVehicles n
  | .mul e f => e.OfVehicles n ∧ f.OfVehicles n

theorem OfVehicles.onIntervals {n : ℕ} (hn : 1 ≤ n) : ∀ {e : Expr ℝ}, e.OfVehicles n → e.OnIntervals n
  | .num _, _ => trivial
  | .spl s, ⟨p, o, cs, h1, h2, h3⟩ => by
    obtain ⟨a, b⟩ := deriv_uni hn o (s := ⟨Vehicles.vehBasis p n, cs⟩) (p := p)
      (by show cs.length = _; rw [h2, Vehicles.vehBasis_len]) (vehBasis_uni hn) h1
    rw [← h3] at a b
    exact ⟨a, p - o, 1, le_rfl, by omega, b⟩
  | .neg e, h => OfVehicles.onIntervals (e := e) hn h
  | .add e f, h => ⟨OfVehicles.onIntervals (e := e) hn h.1, OfVehicles.onIntervals (e := f) hn h.2⟩
  | .mul e f, h => ⟨OfVehicles.onIntervals (e := e) hn h.1, OfVehicles.onIntervals (e := f) hn h.2⟩

/-! ## Properties -/

/-- **C157** Every sum and product of splines on the same equal intervals can be computed, as long as its degree is at most 8 and the degree times the
number of intervals at most 200: the linear systems of `transform` all have exactly one solution, and the result takes, at every time of the horizon, the
value of the expression. -/
theorem C157_intervals {n : ℕ} (hn : 1 ≤ n) (hn' : n ≤ 200) (e : Expr K) (h : e.OnIntervals n) (hd : e.totalDegree ≤ 8) (hdn : e.totalDegree * n ≤ 200) :
    ∃ v, e.Runs v ∧ (∀ v', e.Runs v' → v' = v) ∧ v.Means 0 1 e.val := by
  obtain ⟨v, r, _⟩ := runs_uni hn hn' e h hd hdn
  have ho := OnIntervals.on hn h
  exact ⟨v, r, fun v' r' => C136_deterministic ho r' r, Expr.runs_means r ho⟩

/-- **C157** In particular for the splines of vehicles and their derivatives. -/
theorem C157_vehicles {n : ℕ} (hn : 1 ≤ n) (hn' : n ≤ 200) (e : Expr ℝ) (h : e.OfVehicles n) (hd : e.totalDegree ≤ 8) (hdn : e.totalDegree * n ≤ 200) :
    ∃ v, e.Runs v ∧ (∀ v', e.Runs v' → v' = v) ∧ v.Means 0 1 e.val :=
  C157_intervals hn hn' e (OfVehicles.onIntervals hn h) hd hdn

/-- The speed limit `vx ^ 2 + vy ^ 2` of a vehicle with the default degree and number of intervals. -/
example (cx cy : List ℝ) (hx : cx.length = 13) (hy : cy.length = 13) :
    let vx : Expr ℝ := .spl ((⟨Vehicles.vehBasis 3 10, cx⟩ : BSpline ℝ).derivative 1)
    let vy : Expr ℝ := .spl ((⟨Vehicles.vehBasis 3 10, cy⟩ : BSpline ℝ).derivative 1)
    ∃ v, (vx.sq.add vy.sq).Runs v ∧ (∀ v', (vx.sq.add vy.sq).Runs v' → v' = v) ∧ v.Means 0 1 (vx.sq.add vy.sq).val := by
  intro vx vy
  have dg : ∀ c : List ℝ, c.length = 13 → (((⟨Vehicles.vehBasis 3 10, c⟩ : BSpline ℝ).derivative 1).basis.degree = 2) := fun c hc => by
    rw [(deriv_uni (n := 10) (by norm_num) 1 (s := ⟨Vehicles.vehBasis 3 10, c⟩) (p := 3) (by show c.length = _; rw [hc]; rfl)
      (vehBasis_uni (by norm_num)) (by norm_num)).2]
    rfl
  have hX : vx.OfVehicles 10 := ⟨3, 1, cx, by norm_num, hx, rfl⟩
  have hY : vy.OfVehicles 10 := ⟨3, 1, cy, by norm_num, hy, rfl⟩
  have e : (vx.sq.add vy.sq).totalDegree = 4 := by
    simp only [vx, vy, Expr.sq, Expr.totalDegree, dg cx hx, dg cy hy]
    norm_num
  exact C157_vehicles (n := 10) (by norm_num) (by norm_num) _ ⟨⟨hX, hX⟩, hY, hY⟩ (by omega) (by omega)

end Verif.Spline
