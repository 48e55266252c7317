import Verif.Spline.Core
import Mathlib.Data.List.GetD

/-! Helper lemmas: from knot lists to knot functions. -/

set_option linter.unusedSectionVars false

namespace Verif.Spline

open Finset

variable {K : Type*} [Field K] [LinearOrder K] [IsStrictOrderedRing K]

theorem Basis.k_mono {b : Basis K} (h : b.knots.Pairwise (· ≤ ·)) : Monotone b.k := by
  intro i j hij
  unfold Basis.k
  rw [List.pairwise_iff_getElem] at h
  rcases Nat.lt_or_ge j b.knots.length with hj | hj
  · rw [List.getD_eq_getElem _ _ hj, List.getD_eq_getElem _ _ (lt_of_le_of_lt hij hj)]
    rcases Nat.eq_or_lt_of_le hij with e | l
    · subst e; exact le_rfl
    · exact h i j _ _ l
  · rw [List.getD_eq_default _ _ hj]
    rcases Nat.lt_or_ge i b.knots.length with hi | hi
    · rw [List.getD_eq_getElem _ _ hi]
      have hne : b.knots ≠ [] := by rintro e; simp [e] at hi
      rw [List.getLastD_eq_getLast?, List.getLast?_eq_some_getLast hne, Option.getD_some,
        List.getLast_eq_getElem]
      rcases Nat.lt_or_ge i (b.knots.length - 1) with l | g
      · exact h i _ _ _ l
      · have : i = b.knots.length - 1 := by omega
        simp [this]
    · rw [List.getD_eq_default _ _ hi]

namespace Basis.Clamped
variable {b : Basis K} (h : b.Clamped)
include h

theorem mono : Monotone b.k := Basis.k_mono h.sorted

theorem lt_len : b.degree < b.len := by
  have := h.size; unfold Basis.len; omega

theorem k_degree : b.k b.degree = b.k 0 := h.first _ le_rfl

theorem last (i : ℕ) (hi : b.len ≤ i) : b.k i = b.k b.len := by
  rcases Nat.lt_or_ge i b.knots.length with l | g
  · exact h.ends i hi l
  · have hpos : 0 < b.knots.length := by have := h.size; omega
    have e : b.k i = b.k (b.knots.length - 1) := by
      unfold Basis.k
      have hne : b.knots ≠ [] := by rintro e; simp [e] at hpos
      rw [List.getD_eq_default _ _ g, List.getD_eq_getElem _ _ (by omega),
        List.getLastD_eq_getLast?, List.getLast?_eq_some_getLast hne, Option.getD_some,
        List.getLast_eq_getElem]
    rw [e]
    exact h.ends _ (by unfold Basis.len; omega) (by omega)

theorem first_lt_last : b.k 0 < b.k b.len :=
  (h.k_degree ▸ h.start).trans_le (h.mono h.lt_len)

theorem length_eq : b.knots.length = b.len + b.degree + 1 := by
  have := h.size; unfold Basis.len; omega

end Basis.Clamped

theorem Basis.fn_nonneg {b : Basis K} (h : b.Clamped) (i : ℕ) (x : K) : 0 ≤ b.fn i x := by
  unfold Basis.fn
  rcases lt_trichotomy (b.k 0) x with hx | hx | hx
  · exact cox_nonneg h.mono hx _ _
  · rw [← hx, cox_first h.first h.mono h.start _ _ le_rfl]; split_ifs <;> simp
  · have : ∀ d i, cox b.k b.degree x d i = 0 := by
      intro d
      induction d with
      | zero =>
        intro i
        have : x < b.k i := hx.trans_le (h.mono (Nat.zero_le i))
        rw [cox, ind]
        split_ifs with h1 h2 h3
        · exact absurd h2.1 (not_le.2 this)
        · rfl
        · exact absurd h3.1 (not_lt.2 this.le)
        · rfl
      | succ d ih => intro i; rw [cox_succ, ih, ih]; simp
    rw [this]

theorem Basis.fn_left {b : Basis K} (h : b.knots.Pairwise (· ≤ ·)) (i : ℕ) {x : K}
    (hx : x < b.k 0) : b.fn i x = 0 := by
  have : ∀ d i, cox b.k b.degree x d i = 0 := by
      intro d
      induction d with
      | zero =>
        intro i
        have : x < b.k i := hx.trans_le (Basis.k_mono h (Nat.zero_le i))
        rw [cox, ind]
        split_ifs with h1 h2 h3
        · exact absurd h2.1 (not_le.2 this)
        · rfl
        · exact absurd h3.1 (not_lt.2 this.le)
        · rfl
      | succ d ih => intro i; rw [cox_succ, ih, ih]; simp
  exact this _ _

theorem Basis.fn_right {b : Basis K} (h : b.Clamped) (i : ℕ) {x : K}
    (hx : b.k b.len < x) : b.fn i x = 0 := by
  apply cox_eq_zero h.mono (h.first_lt_last.trans hx)
  right
  rcases Nat.lt_or_ge (i + b.degree + 1) b.len with l | g
  · exact (h.mono l.le).trans_lt hx
  · rw [h.last _ g]; exact hx

theorem Basis.sum_fn {b : Basis K} (h : b.Clamped) {x : K} (h0 : b.k 0 ≤ x) (h1 : x ≤ b.k b.len) :
    ∑ i ∈ range b.len, b.fn i x = 1 := by
  unfold Basis.fn
  rcases h0.lt_or_eq with hx | hx
  · have := cox_sum_level h.mono h.lt_len h.first h.last hx h1 b.degree le_rfl
    rwa [Nat.add_sub_cancel] at this
  · have : ∀ i, cox b.k b.degree x b.degree i = if i = 0 then 1 else 0 := by
      intro i
      rw [← hx, cox_first h.first h.mono h.start _ _ le_rfl]
      congr 1
      ext
      constructor
      · rintro (h | h) <;> omega
      · intro h; left; omega
    simp only [this]
    rw [Finset.sum_ite_eq' (range b.len) 0, if_pos]
    exact Finset.mem_range.2 (lt_of_le_of_lt (Nat.zero_le _) h.lt_len)

theorem sum_map_range (n : ℕ) (f : ℕ → K) : ((List.range n).map f).sum = ∑ i ∈ range n, f i := by
  induction n with
  | zero => simp
  | succ n ih => rw [List.range_succ, List.map_append, List.sum_append, ih, Finset.sum_range_succ]; simp

theorem zipWith_map_range (n : ℕ) (f : ℕ → K) (c : List K) (hc : c.length = n) :
    List.zipWith (· * ·) ((List.range n).map f) c
      = (List.range n).map (fun i => f i * c.getD i 0) := by
  apply List.ext_getElem
  · simp [hc]
  · intro i h1 h2
    simp at h2
    simp [List.getElem?_eq_getElem (by omega : i < c.length)]

/-- `Spline.__call__` as a sum. -/
theorem BSpline.eval_eq {s : BSpline K} (h : s.WF) (x : K) :
    s.eval x = ∑ i ∈ range s.basis.len, s.coeffs.getD i 0 * s.basis.fn i x := by
  unfold BSpline.eval Basis.eval
  rw [zipWith_map_range _ _ _ h, sum_map_range]
  exact Finset.sum_congr rfl fun i _ => mul_comm _ _

end Verif.Spline
