import Verif.Spline.Unimodal
import Mathlib.Data.Nat.Count
import Mathlib.Data.Rat.Cast.Order

/-! # Bases on equal knot intervals, and the knots that neighbouring functions see (C157)

`BSplineBasis.transform` (spline.py:283-308) for the bases that come from `Vehicle.define_knots` (vehicle.py:80-87) by derivatives, sums and
products. -/

set_option linter.unusedSectionVars false

namespace Verif.Spline

open Finset

/-! ## The bases -/

/-- Knot `i`, in units of the knot interval, of a basis of degree `D` on `n` intervals whose inner knots are repeated `m` times. -/
def kap (D m n i : ℕ) : ℕ := if i ≤ D then 0 else min n ((i - (D + 1)) / m + 1)

/-- The basis with these knots on `[0, 1]`.  `Vehicle.define_knots` (vehicle.py:80-87) gives `uni degree 1 knot_intervals`. -/
def uni {K : Type*} [Field K] (D m n : ℕ) : Basis K := ⟨(List.range (2 * (D + 1) + m * (n - 1))).map fun i => (kap D m n i : K) / n, D⟩

variable {K : Type*} [Field K] [LinearOrder K] [IsStrictOrderedRing K]

theorem kap_le (D m n i : ℕ) : kap D m n i ≤ n := by unfold kap; split_ifs <;> omega

theorem kap_mono (D m n : ℕ) : Monotone (kap D m n) := by
  intro i j hij
  unfold kap
  by_cases h : i ≤ D
  · rw [if_pos h]; exact Nat.zero_le _
  · rw [if_neg h, if_neg (by omega)]
    have : (i - (D + 1)) / m ≤ (j - (D + 1)) / m := Nat.div_le_div_right (by omega)
    omega

theorem kap_end {D m n i : ℕ} (hm : 1 ≤ m) (hn : 1 ≤ n) (h : D + 1 + m * (n - 1) ≤ i) : kap D m n i = n := by
  unfold kap
  rw [if_neg (by omega)]
  have : n - 1 ≤ (i - (D + 1)) / m := (Nat.le_div_iff_mul_le hm).2 (by rw [mul_comm]; omega)
  omega

theorem kap_lt {D m n i : ℕ} (hm : 1 ≤ m) (hn : 1 ≤ n) (h : i < D + 1 + m * (n - 1)) : kap D m n i < n := by
  unfold kap
  split_ifs with h1
  · omega
  · have : (i - (D + 1)) / m < n - 1 := (Nat.div_lt_iff_lt_mul hm).2 (by rw [mul_comm]; omega)
    omega

theorem uni_length (D m n : ℕ) : (uni D m n : Basis K).knots.length = 2 * (D + 1) + m * (n - 1) := by simp [uni]

theorem uni_len (D m n : ℕ) : (uni D m n : Basis K).len = D + 1 + m * (n - 1) := by
  unfold Basis.len
  rw [uni_length]
  show _ - D - 1 = _
  omega

theorem uni_k {D m n : ℕ} (hm : 1 ≤ m) (hn : 1 ≤ n) (i : ℕ) : (uni D m n : Basis K).k i = (kap D m n i : K) / n := by
  have hn0 : (n : K) ≠ 0 := by exact_mod_cast (by omega : n ≠ 0)
  have hlast : (uni D m n : Basis K).knots.getLastD 0 = 1 := by
    rw [List.getLastD_eq_getLast?, List.getLast?_eq_getElem?, uni_length]
    simp only [uni]
    rw [List.getElem?_map, List.getElem?_range (by omega)]
    simp only [Option.map_some, Option.getD_some]
    rw [kap_end hm hn (by omega), div_self hn0]
  unfold Basis.k
  rw [hlast, List.getD_eq_getElem?_getD]
  by_cases h : i < 2 * (D + 1) + m * (n - 1)
  · simp only [uni]
    rw [List.getElem?_map, List.getElem?_range h]
    rfl
  · rw [List.getElem?_eq_none (by rw [uni_length]; omega), kap_end hm hn (by omega), div_self hn0]
    rfl

theorem uni_mono {D m n : ℕ} (hm : 1 ≤ m) (hn : 1 ≤ n) : Monotone (uni D m n : Basis K).k := by
  intro i j hij
  rw [uni_k hm hn, uni_k hm hn]
  have : (kap D m n i : K) ≤ kap D m n j := by exact_mod_cast kap_mono D m n hij
  gcongr

theorem uni_clamped {D m n : ℕ} (hm : 1 ≤ m) (hn : 1 ≤ n) : (uni D m n : Basis K).Clamped where
  sorted := by
    rw [List.pairwise_iff_getElem]
    intro i j hi hj hij
    have := uni_mono (K := K) (D := D) hm hn hij.le
    unfold Basis.k at this
    rwa [List.getD_eq_getElem _ _ hi, List.getD_eq_getElem _ _ hj] at this
  size := by rw [uni_length]; show 2 * (D + 1) ≤ _; omega
  first := by
    intro i hi
    have hi : i ≤ D := hi
    rw [uni_k hm hn, uni_k hm hn]
    unfold kap
    rw [if_pos hi, if_pos (Nat.zero_le _)]
  start := by
    show (uni D m n : Basis K).k D < (uni D m n : Basis K).k (D + 1)
    rw [uni_k hm hn, uni_k hm hn]
    have hn0 : (0 : K) < n := by exact_mod_cast hn
    have e : kap D m n D = 0 := by unfold kap; rw [if_pos le_rfl]
    have e2 : 0 < kap D m n (D + 1) := by unfold kap; rw [if_neg (by omega)]; exact Nat.lt_min.2 ⟨hn, Nat.succ_pos _⟩
    rw [e]
    have : (0 : K) < kap D m n (D + 1) := by exact_mod_cast e2
    gcongr
  ends := by
    intro i h1 h2
    rw [uni_len] at h1
    rw [uni_k hm hn, uni_k hm hn, uni_len, kap_end hm hn h1, kap_end hm hn le_rfl]

theorem uni_ends {D m n : ℕ} (hm : 1 ≤ m) (hn : 1 ≤ n) : (uni D m n : Basis K).knots.headD 0 = 0 ∧ (uni D m n : Basis K).knots.getLastD 0 = 1 := by
  have hn0 : (n : K) ≠ 0 := by exact_mod_cast (by omega : n ≠ 0)
  have c := uni_clamped (K := K) (D := D) hm hn
  rw [headD_eq_k c, getLastD_eq_k c, uni_k hm hn, uni_k hm hn, uni_len, kap_end hm hn le_rfl, div_self hn0]
  refine ⟨?_, rfl⟩
  unfold kap
  rw [if_pos (Nat.zero_le _)]
  simp

theorem uni_count {D m n j : ℕ} (hm : 1 ≤ m) (hn : 1 ≤ n) (hj : j ≤ n) :
    (uni D m n : Basis K).knots.count ((j : K) / n) = if j = 0 ∨ j = n then D + 1 else m := by
  classical
  have hn0 : (n : K) ≠ 0 := by exact_mod_cast (by omega : n ≠ 0)
  have e : (uni D m n : Basis K).knots.count ((j : K) / n) = Nat.count (fun i => kap D m n i = j) (2 * (D + 1) + m * (n - 1)) := by
    unfold Nat.count
    rw [List.count_eq_countP]
    simp only [uni]
    rw [List.countP_map]
    refine List.countP_congr fun i _ => ?_
    simp only [Function.comp, beq_iff_eq, decide_eq_true_eq]
    rw [div_left_inj' hn0]
    exact Nat.cast_inj
  rw [e, Nat.count_eq_card_filter_range]
  have N : 2 * (D + 1) + m * (n - 1) = D + 1 + m * (n - 1) + (D + 1) := by omega
  by_cases h0 : j = 0
  · rw [if_pos (Or.inl h0)]
    have : (range (2 * (D + 1) + m * (n - 1))).filter (fun i => kap D m n i = j) = Finset.Ico 0 (D + 1) := by
      ext i
      rw [mem_filter, mem_range, Finset.mem_Ico, h0]
      have hz : 0 < min n ((i - (D + 1)) / m + 1) := Nat.lt_min.2 ⟨hn, Nat.succ_pos _⟩
      unfold kap
      split_ifs with h <;> omega
    rw [this, Nat.card_Ico]; omega
  · by_cases h1 : j = n
    · rw [if_pos (Or.inr h1)]
      have : (range (2 * (D + 1) + m * (n - 1))).filter (fun i => kap D m n i = j) = Finset.Ico (D + 1 + m * (n - 1)) (D + 1 + m * (n - 1) + (D + 1)) := by
        ext i
        rw [mem_filter, mem_range, Finset.mem_Ico, h1, N]
        constructor
        · rintro ⟨a, c⟩
          refine ⟨?_, a⟩
          by_contra hc
          exact absurd c (kap_lt hm hn (not_le.1 hc)).ne
        · rintro ⟨a, c⟩
          exact ⟨c, kap_end hm hn a⟩
      rw [this, Nat.card_Ico]; omega
    · rw [if_neg (by omega)]
      obtain ⟨j, rfl⟩ : ∃ j', j = j' + 1 := ⟨j - 1, by omega⟩
      have hjn : m * (j + 1) ≤ m * (n - 1) := Nat.mul_le_mul_left m (by omega)
      have : (range (2 * (D + 1) + m * (n - 1))).filter (fun i => kap D m n i = j + 1) = Finset.Ico (D + 1 + m * j) (D + 1 + m * j + m) := by
        ext i
        rw [mem_filter, mem_range, Finset.mem_Ico]
        have hs : m * (j + 1) = m * j + m := Nat.mul_succ m j
        unfold kap
        constructor
        · rintro ⟨a, c⟩
          split_ifs at c with h
          have c' : (i - (D + 1)) / m = j := by omega
          have d1 := Nat.div_mul_le_self (i - (D + 1)) m
          have d2 := Nat.lt_mul_div_succ (i - (D + 1)) hm
          rw [c'] at d1 d2
          rw [mul_comm] at d1
          omega
        · rintro ⟨a, c⟩
          refine ⟨by omega, ?_⟩
          rw [if_neg (by omega)]
          have : (i - (D + 1)) / m = j := by
            refine Nat.div_eq_of_lt_le ?_ ?_
            · rw [mul_comm]; omega
            · rw [mul_comm, hs]; omega
          omega
      rw [this, Nat.card_Ico]; omega

theorem uni_mem {D m n : ℕ} (hm : 1 ≤ m) (hn : 1 ≤ n) (t : K) : t ∈ (uni D m n : Basis K).knots ↔ ∃ j, j ≤ n ∧ t = (j : K) / n := by
  constructor
  · intro h
    obtain ⟨i, _, rfl⟩ := List.mem_map.1 h
    exact ⟨kap D m n i, kap_le _ _ _ _, rfl⟩
  · rintro ⟨j, hj, rfl⟩
    rw [← List.count_pos_iff, uni_count hm hn hj]
    split_ifs <;> omega

/-- The common basis of two bases on the same intervals is again such a basis. -/
theorem uni_combine {D m D' m' n d : ℕ} (hm : 1 ≤ m) (hm' : 1 ≤ m') (hn : 1 ≤ n) (h : D ≤ d) (h' : D' ≤ d) :
    (uni D m n : Basis K).combine (uni D' m' n) d = uni d (max (m + (d - D)) (m' + (d - D'))) n := by
  have hM : 1 ≤ max (m + (d - D)) (m' + (d - D')) := by omega
  refine combine_eq _ _ _ _ h h' rfl (uni_clamped hM hn).sorted fun t => ?_
  by_cases ht : ∃ j, j ≤ n ∧ t = (j : K) / n
  · obtain ⟨j, hj, rfl⟩ := ht
    unfold neededMult
    rw [if_pos ((uni_mem hm hn _).2 ⟨j, hj, rfl⟩), if_pos ((uni_mem hm' hn _).2 ⟨j, hj, rfl⟩), uni_count hm hn hj, uni_count hm' hn hj, uni_count hM hn hj]
    show max (_ + (d - D)) (_ + (d - D')) = _
    split_ifs <;> omega
  · unfold neededMult
    rw [if_neg (mt (uni_mem hm hn _).1 ht), if_neg (mt (uni_mem hm' hn _).1 ht), List.count_eq_zero_of_not_mem (mt (uni_mem hM hn _).1 ht)]
    rfl

/-! ## Evaluation on a window of knots -/

/-- One level of the table of `eval_basis` (spline.py:221-232) from the level below, in the point `X / Q` and multiplied by `M * Q` to have
whole numbers. -/
def tabStep (M X Q : ℕ) : List ℕ → List ℕ → List ℕ → List ℕ
  | l0 :: l1 :: ls, h0 :: h1 :: hs, b0 :: b1 :: bs =>
    ((X - Q * l0) * b0 * (M / (h0 - l0)) + (Q * h1 - X) * b1 * (M / (h1 - l1))) :: tabStep M X Q (l1 :: ls) (h1 :: hs) (b1 :: bs)
  | _, _, _ => []

/-- The table of `eval_basis` for the knots `w`. -/
def tab (M X Q : ℕ) (w : List ℕ) : ℕ → List ℕ
  | 0 => List.zipWith (fun a b => bif Nat.blt (Q * a) X && Nat.ble X (Q * b) then 1 else 0) w w.tail
  | d + 1 => tabStep M X Q w (w.drop (d + 1)) (tab M X Q w d)

theorem tabStep_get (M X Q : ℕ) : ∀ (j : ℕ) (l h b : List ℕ) {l0 l1 h0 h1 b0 b1 : ℕ}, l[j]? = some l0 → l[j + 1]? = some l1 → h[j]? = some h0 →
    h[j + 1]? = some h1 → b[j]? = some b0 → b[j + 1]? = some b1 →
    (tabStep M X Q l h b)[j]? = some ((X - Q * l0) * b0 * (M / (h0 - l0)) + (Q * h1 - X) * b1 * (M / (h1 - l1)))
  | 0, l, h, b, l0, l1, h0, h1, b0, b1, e1, e2, e3, e4, e5, e6 => by
    match l, h, b with
    | a0 :: a1 :: as, c0 :: c1 :: cs, d0 :: d1 :: ds =>
      simp only [List.getElem?_cons_zero, zero_add, List.getElem?_cons_succ, Option.some.injEq] at e1 e2 e3 e4 e5 e6
      subst e1 e2 e3 e4 e5 e6
      simp [tabStep]
    | [], _, _ => simp at e1
    | [_], _, _ => simp at e2
    | _ :: _ :: _, [], _ => simp at e3
    | _ :: _ :: _, [_], _ => simp at e4
    | _ :: _ :: _, _ :: _ :: _, [] => simp at e5
    | _ :: _ :: _, _ :: _ :: _, [_] => simp at e6
  | j + 1, l, h, b, l0, l1, h0, h1, b0, b1, e1, e2, e3, e4, e5, e6 => by
    match l, h, b with
    | a0 :: a1 :: as, c0 :: c1 :: cs, d0 :: d1 :: ds =>
      rw [List.getElem?_cons_succ] at e1 e2 e3 e4 e5 e6
      rw [tabStep, List.getElem?_cons_succ]
      exact tabStep_get M X Q j _ _ _ e1 e2 e3 e4 e5 e6
    | [], _, _ => simp at e1
    | [_], _, _ => simp at e2
    | _ :: _ :: _, [], _ => simp at e3
    | _ :: _ :: _, [_], _ => simp at e4
    | _ :: _ :: _, _ :: _ :: _, [] => simp at e5
    | _ :: _ :: _, _ :: _ :: _, [_] => simp at e6

theorem term_up {c e y P : K} (hc : 0 < c) {M X Q l h v : ℕ} (hQ : 0 < Q) (hlh : l ≤ h) (hd : l < h → h - l ∣ M) (hy : y * P = v)
    (h0 : X < Q * l → y = 0) :
    (c * ((X : K) / Q) + e - (c * l + e)) * y / (c * h + e - (c * l + e)) * (P * (M * Q)) = (((X - Q * l) * v * (M / (h - l)) : ℕ) : K) := by
  have hQ0 : (0 : K) < Q := by exact_mod_cast hQ
  rcases Nat.eq_or_lt_of_le hlh with rfl | hlt
  · simp
  · have hl : (0 : K) < (h : K) - l := sub_pos.2 (by exact_mod_cast hlt)
    have e1 : ((M / (h - l) : ℕ) : K) = M / ((h : K) - l) := by
      rw [Nat.cast_div (hd hlt) (by rw [Nat.cast_sub hlt.le]; exact hl.ne'), Nat.cast_sub hlt.le]
    rcases Nat.lt_or_ge X (Q * l) with hX | hX
    · have y0 := h0 hX
      rw [y0, zero_mul] at hy
      have : v = 0 := by exact_mod_cast hy.symm
      rw [y0, this]; simp
    · push_cast
      rw [e1, Nat.cast_sub hX, ← hy]
      have : c * (h : K) + e - (c * l + e) = c * (h - l) := by ring
      rw [this]
      field_simp
      push_cast
      ring

theorem term_down {c e y P : K} (hc : 0 < c) {M X Q l h v : ℕ} (hQ : 0 < Q) (hlh : l ≤ h) (hd : l < h → h - l ∣ M) (hy : y * P = v)
    (h0 : Q * h < X → y = 0) :
    (c * h + e - (c * ((X : K) / Q) + e)) * y / (c * h + e - (c * l + e)) * (P * (M * Q)) = (((Q * h - X) * v * (M / (h - l)) : ℕ) : K) := by
  have hQ0 : (0 : K) < Q := by exact_mod_cast hQ
  rcases Nat.eq_or_lt_of_le hlh with rfl | hlt
  · simp
  · have hl : (0 : K) < (h : K) - l := sub_pos.2 (by exact_mod_cast hlt)
    have e1 : ((M / (h - l) : ℕ) : K) = M / ((h : K) - l) := by
      rw [Nat.cast_div (hd hlt) (by rw [Nat.cast_sub hlt.le]; exact hl.ne'), Nat.cast_sub hlt.le]
    rcases Nat.lt_or_ge (Q * h) X with hX | hX
    · have y0 := h0 hX
      rw [y0, zero_mul] at hy
      have : v = 0 := by exact_mod_cast hy.symm
      rw [y0, this]; simp
    · push_cast
      rw [e1, Nat.cast_sub hX, ← hy]
      have : c * (h : K) + e - (c * l + e) = c * (h - l) := by ring
      rw [this]
      field_simp
      push_cast
      ring

/-- The basis functions only see their own knots; scale and shift do not matter. -/
theorem cox_tab {k : ℕ → K} (hk : Monotone k) {p i : ℕ} {c e : K} (hc : 0 < c) {M X Q : ℕ} (hQ : 0 < Q) {w : List ℕ}
    (hw : ∀ a q : ℕ, w[a]? = some q → k (i + a) = c * (q : K) + e) (hd : ∀ a ∈ w, ∀ b ∈ w, a < b → b - a ∣ M) (hx : k 0 < c * ((X : K) / Q) + e) :
    ∀ (d j : ℕ), j + d + 1 < w.length → ∃ v : ℕ, (tab M X Q w d)[j]? = some v ∧ cox k p (c * ((X : K) / Q) + e) d (i + j) * ((M : K) * Q) ^ d = (v : K)
  | 0, j, h => by
    have hQ0 : (0 : K) < Q := by exact_mod_cast hQ
    have g0 : w[j]? = some w[j] := List.getElem?_eq_getElem (by omega)
    have g1 : w[j + 1]? = some w[j + 1] := List.getElem?_eq_getElem (by omega)
    refine ⟨bif Nat.blt (Q * w[j]) X && Nat.ble X (Q * w[j + 1]) then 1 else 0, ?_, ?_⟩
    · unfold tab
      rw [List.getElem?_zipWith, List.getElem?_tail, g0, g1]
    · rw [cox, ind_of_lt hx, hw j _ g0, show i + j + 1 = i + (j + 1) by omega, hw (j + 1) _ g1, pow_zero, mul_one]
      simp only [add_lt_add_iff_right, add_le_add_iff_right, mul_lt_mul_iff_right₀ hc, mul_le_mul_iff_right₀ hc]
      have e1 : ((w[j] : ℕ) : K) < X / Q ↔ Nat.blt (Q * w[j]) X = true := by
        rw [lt_div_iff₀ hQ0, Nat.blt_eq, mul_comm Q]; exact_mod_cast Iff.rfl
      have e2 : (X : K) / Q ≤ ((w[j + 1] : ℕ) : K) ↔ Nat.ble X (Q * w[j + 1]) = true := by
        rw [div_le_iff₀ hQ0, Nat.ble_eq, mul_comm Q]; exact_mod_cast Iff.rfl
      simp only [e1, e2]
      by_cases h1 : Nat.blt (Q * w[j]) X = true <;> by_cases h2 : Nat.ble X (Q * w[j + 1]) = true <;> simp [h1, h2]
  | d + 1, j, h => by
    have hQ0 : (0 : K) < Q := by exact_mod_cast hQ
    have g0 : w[j]? = some w[j] := List.getElem?_eq_getElem (by omega)
    have g1 : w[j + 1]? = some w[j + 1] := List.getElem?_eq_getElem (by omega)
    have g2 : w[j + (d + 1)]? = some w[j + (d + 1)] := List.getElem?_eq_getElem (by omega)
    have g3 : w[j + (d + 1) + 1]? = some w[j + (d + 1) + 1] := List.getElem?_eq_getElem (by omega)
    obtain ⟨v0, e0, f0⟩ := cox_tab hk hc hQ hw hd hx (p := p) d j (by omega)
    obtain ⟨v1, e1, f1⟩ := cox_tab hk hc hQ hw hd hx (p := p) d (j + 1) (by omega)
    have le : ∀ (a b x y : ℕ), w[a]? = some x → w[b]? = some y → a ≤ b → x ≤ y := by
      intro a b x y ha hb hab
      have := hk (show i + a ≤ i + b by omega)
      rw [hw a x ha, hw b y hb, add_le_add_iff_right, mul_le_mul_iff_right₀ hc] at this
      exact_mod_cast this
    refine ⟨(X - Q * w[j]) * v0 * (M / (w[j + (d + 1)] - w[j])) + (Q * w[j + (d + 1) + 1] - X) * v1 * (M / (w[j + (d + 1) + 1] - w[j + 1])), ?_, ?_⟩
    · unfold tab
      exact tabStep_get M X Q j _ _ _ g0 g1 (h0 := w[j + (d + 1)]) (by rw [List.getElem?_drop, show d + 1 + j = j + (d + 1) by omega, g2])
        (h1 := w[j + (d + 1) + 1]) (by rw [List.getElem?_drop, show d + 1 + (j + 1) = j + (d + 1) + 1 by omega, g3]) e0 e1
    · have z0 : X < Q * w[j] → cox k p (c * ((X : K) / Q) + e) d (i + j) = 0 := by
        intro hX
        refine cox_eq_zero hk hx _ _ (Or.inl ?_)
        rw [hw j _ g0]
        have : (X : K) / Q ≤ (w[j] : ℕ) := by rw [div_le_iff₀ hQ0, mul_comm]; exact_mod_cast hX.le
        gcongr
      have z1 : Q * w[j + (d + 1) + 1] < X → cox k p (c * ((X : K) / Q) + e) d (i + (j + 1)) = 0 := by
        intro hX
        refine cox_eq_zero hk hx _ _ (Or.inr ?_)
        rw [show i + (j + 1) + d + 1 = i + (j + (d + 1) + 1) by omega, hw _ _ g3]
        have : ((w[j + (d + 1) + 1] : ℕ) : K) < (X : K) / Q := by rw [lt_div_iff₀ hQ0, mul_comm]; exact_mod_cast hX
        gcongr
      have t1 := term_up (e := e) hc hQ (le _ _ _ _ g0 g2 (by omega)) (hd _ (List.getElem_mem _) _ (List.getElem_mem _)) f0 z0
      have t2 := term_down (e := e) hc hQ (le _ _ _ _ g1 g3 (by omega)) (hd _ (List.getElem_mem _) _ (List.getElem_mem _)) f1 z1
      rw [cox_succ, show i + j + 1 = i + (j + 1) by omega, show i + j + (d + 1) + 1 = i + (j + (d + 1) + 1) by omega,
        show i + j + (d + 1) = i + (j + (d + 1)) by omega, hw j _ g0, hw (j + 1) _ g1, hw _ _ g2, hw _ _ g3, pow_succ, add_mul, t1, t2]
      push_cast
      ring

/-! ## Windows -/

/-- The `D + 3` knots that two neighbouring functions see, counted from the first. -/
def win (D m a n : ℕ) : List ℕ := (List.range (D + 3)).map fun j => if j < a then 0 else min n ((j - a) / m + 1)

/-- Four points that show that the first of the two functions goes down where the second goes up. -/
def winOk (D : ℕ) (w : List ℕ) : Bool :=
  let S := 500 * (((w.drop 1).take D).sum + ((w.drop 2).take D).sum)
  match tab 2520 (S - 400 - D) (1000 * D) w D, tab 2520 (S - 400) (1000 * D) w D, tab 2520 (S + 400) (1000 * D) w D,
    tab 2520 (S + 400 + D) (1000 * D) w D with
  | [a1, b1], [a2, _], [_, b3], [a4, b4] =>
    Nat.blt 0 (S - 400 - D) && Nat.blt a2 a1 && Nat.blt 0 a4 && Nat.blt b3 b4 && Nat.blt 0 b1
  | _, _, _, _ => false

/-- All windows of degree `D`. -/
def winAll (D : ℕ) : Bool :=
  (List.range (D + 2)).all fun m => (List.range (D + 2)).all fun a => (List.range ((D + 2 - a) / m + 2)).all fun n =>
    let w := win D m a n
    m == 0 || a == 0 || n == 0 || w.getD 0 0 == w.getD (D + 1) 0 || w.getD 1 0 == w.getD (D + 2) 0 || w.getD 1 0 == w.getD (D + 1) 0 || winOk D w

set_option maxRecDepth 100000 in
theorem winAll_le : ∀ D, D ≤ 8 → winAll D = true := by
  intro D hD
  interval_cases D
  all_goals decide +kernel

end Verif.Spline
