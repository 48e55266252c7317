import Verif.Spline.Scale
import Mathlib.Data.List.Dedup
import Mathlib.Data.List.Sort
import Mathlib.Data.Nat.Bitwise

/-! # Property C08: union bases -/

set_option linter.unusedSectionVars false

namespace Verif.Spline

open Finset

section Model
variable {K : Type*} [Field K] [LinearOrder K]

/-- Multiplicity of break point `t` in `Basis._combine`, spline.py:140-146: the maximum of
`Counter(knots).get(t, -inf) + degree - self.degree` over the two operands (as an integer: it may
be negative; `none` stands for `-inf`). -/
def combineMult (a b : Basis K) (degree : ℕ) (t : K) : Option ℤ :=
  let ma : Option ℤ := if t ∈ a.knots then some (a.knots.count t + degree - a.degree : ℤ) else none
  let mb : Option ℤ := if t ∈ b.knots then some (b.knots.count t + degree - b.degree : ℤ) else none
  match ma, mb with
  | some x, some y => some (max x y)
  | some x, none => some x
  | none, some y => some y
  | none, none => none

/-- `Basis._combine`, spline.py:138-148: every break point of either operand, repeated according to
`combineMult` (`[b]*m` is empty for negative `m`), sorted.  The iteration order of the Python set is
immaterial because of the sort; here the distinct elements are taken in list order. -/
def Basis.combine (a b : Basis K) (degree : ℕ) : Basis K :=
  let breaks := (a.knots ++ b.knots).dedup
  ⟨(breaks.flatMap fun t => List.replicate ((combineMult a b degree t).getD 0).toNat t).mergeSort (· ≤ ·), degree⟩

/-- `Basis.__add__` on two bases, spline.py:150-152. -/
def Basis.add (a b : Basis K) : Basis K := a.combine b (max a.degree b.degree)

/-- `Basis.__mul__` on two bases, spline.py:163-166. -/
def Basis.mul (a b : Basis K) : Basis K := a.combine b (a.degree + b.degree)

/-- `Basis.__pow__`, spline.py:174-177. -/
def Basis.pow (a : Basis K) (n : ℕ) : Basis K := a.combine a (n * a.degree)

/-- `Basis.__eq__`, spline.py:181-182: same shape, same knots, same degree. -/
def Basis.pyEq (a b : Basis K) : Bool :=
  decide (a.knots.length = b.knots.length) && (a.knots.zip b.knots).all (fun p => decide (p.1 = p.2))
    && decide (a.degree = b.degree)

/-- `Basis.__hash__`, spline.py:184-189: exclusive or of the hash of the degree and the hashes of
the knots; `hd`, `hk` stand for Python's built-in `hash` on ints and floats. -/
def Basis.pyHash (hd : ℕ → ℕ) (hk : K → ℕ) (a : Basis K) : ℕ :=
  (a.knots.map hk).foldl (fun r e => r ^^^ e) (hd a.degree)

end Model

variable {K : Type*} [Field K] [LinearOrder K] [IsStrictOrderedRing K]

theorem count_flatMap_replicate (l : List K) (hl : l.Nodup) (m : K → ℕ) (t : K) :
    (l.flatMap fun t => List.replicate (m t) t).count t = if t ∈ l then m t else 0 := by
  induction l with
  | nil => simp
  | cons a l ih =>
    rw [List.nodup_cons] at hl
    rw [List.flatMap_cons, List.count_append, ih hl.2, List.count_replicate]
    by_cases h : a = t
    · subst h
      simp [hl.1]
    · have h' : ¬ t = a := fun e => h e.symm
      simp [h, h', List.mem_cons]

theorem combine_count (a b : Basis K) (d : ℕ) (t : K) :
    (a.combine b d).knots.count t
      = if t ∈ a.knots ∨ t ∈ b.knots then ((combineMult a b d t).getD 0).toNat else 0 := by
  unfold Basis.combine
  dsimp only
  rw [(List.mergeSort_perm _ _).count_eq, count_flatMap_replicate _ (List.nodup_dedup _)]
  simp only [List.mem_dedup, List.mem_append]

theorem combineMult_comm (a b : Basis K) (d : ℕ) (t : K) :
    combineMult a b d t = combineMult b a d t := by
  unfold combineMult
  by_cases ha : t ∈ a.knots <;> by_cases hb : t ∈ b.knots <;> simp [ha, hb, max_comm]

theorem combine_sorted (a b : Basis K) (d : ℕ) : (a.combine b d).knots.Pairwise (· ≤ ·) := by
  have := List.pairwise_mergeSort (le := fun x y : K => decide (x ≤ y))
    (by intro x y z; simp only [decide_eq_true_eq]; exact le_trans)
    (by intro x y; simpa using le_total x y)
    ((a.knots ++ b.knots).dedup.flatMap fun t =>
      List.replicate ((combineMult a b d t).getD 0).toNat t)
  unfold Basis.combine
  simpa using this

/-- Two sorted knot vectors with the same multiplicities are the same. -/
theorem sorted_ext {l m : List K} (hl : l.Pairwise (· ≤ ·)) (hm : m.Pairwise (· ≤ ·))
    (h : ∀ t, l.count t = m.count t) : l = m :=
  (List.perm_iff_count.2 h).eq_of_pairwise' hl hm

/-- Specification of the multiplicity of a knot in the union basis: the number of knots needed so
that degree `d` splines can be as little continuous at `t` as each operand may be. -/
def neededMult (a b : Basis K) (d : ℕ) (t : K) : ℕ :=
  max (if t ∈ a.knots then a.knots.count t + (d - a.degree) else 0)
      (if t ∈ b.knots then b.knots.count t + (d - b.degree) else 0)

/-- **C08** The knots of the union basis: sorted, and each break point of the operands repeated
exactly as often as needed; nothing else. -/
theorem C08_multiplicity (a b : Basis K) (d : ℕ) (ha : a.degree ≤ d) (hb : b.degree ≤ d) :
    (a.combine b d).degree = d ∧ (a.combine b d).knots.Pairwise (· ≤ ·) ∧
    ∀ t, (a.combine b d).knots.count t = neededMult a b d t := by
  refine ⟨rfl, combine_sorted a b d, fun t => ?_⟩
  rw [combine_count]
  unfold neededMult combineMult
  by_cases h1 : t ∈ a.knots <;> by_cases h2 : t ∈ b.knots <;> simp [h1, h2] <;> omega

/-- **C08** Sum and product bases contain exactly the break points of both operands. -/
theorem C08_breaks (a b : Basis K) (t : K) :
    (t ∈ (a.add b).knots ↔ t ∈ a.knots ∨ t ∈ b.knots) ∧
    (t ∈ (a.mul b).knots ↔ t ∈ a.knots ∨ t ∈ b.knots) := by
  have key : ∀ d, a.degree ≤ d → b.degree ≤ d →
      (t ∈ (a.combine b d).knots ↔ t ∈ a.knots ∨ t ∈ b.knots) := by
    intro d h1 h2
    obtain ⟨-, -, h⟩ := C08_multiplicity a b d h1 h2
    rw [← List.count_pos_iff, h, neededMult]
    by_cases c1 : t ∈ a.knots <;> by_cases c2 : t ∈ b.knots <;> simp [c1, c2]
  exact ⟨key _ (le_max_left _ _) (le_max_right _ _), key _ (by omega) (by omega)⟩

/-- **C08** The union basis does not depend on the order of the operands. -/
theorem C08_comm (a b : Basis K) : a.add b = b.add a ∧ a.mul b = b.mul a := by
  have key : ∀ d, a.combine b d = b.combine a d := by
    intro d
    have hk : (a.combine b d).knots = (b.combine a d).knots := ?_
    · calc a.combine b d = ⟨(a.combine b d).knots, d⟩ := rfl
        _ = b.combine a d := by rw [hk]; rfl
    refine sorted_ext (combine_sorted a b d) (combine_sorted b a d) fun t => ?_
    have h1 := combine_count a b d t
    have h2 := combine_count b a d t
    rw [combineMult_comm b a] at h2
    rw [h1, h2]
    simp only [or_comm]
  refine ⟨?_, ?_⟩
  · unfold Basis.add; rw [max_comm]; exact key _
  · unfold Basis.mul; rw [add_comm]; exact key _

/-- **C08** Adding a basis to itself gives the same basis (no refinement). -/
theorem C08_idem (a : Basis K) (h : a.knots.Pairwise (· ≤ ·)) : a.add a = a := by
  have : a.combine a a.degree = a := by
    have hk : (a.combine a a.degree).knots = a.knots := by
      refine sorted_ext (combine_sorted a a _) h fun t => ?_
      rw [(C08_multiplicity a a _ le_rfl le_rfl).2.2, neededMult]
      by_cases c : t ∈ a.knots
      · simp [c]
      · simp [c, List.count_eq_zero_of_not_mem c]
    calc a.combine a a.degree = ⟨(a.combine a a.degree).knots, a.degree⟩ := rfl
      _ = a := by rw [hk]
  unfold Basis.add
  rw [max_self, this]

/-- **C08** Bases that compare equal are the same and have equal hashes, whatever the built-in
hashes of the numbers are. -/
theorem C08_hash (a b : Basis K) (hd : ℕ → ℕ) (hk : K → ℕ) (h : a.pyEq b = true) :
    a = b ∧ a.pyHash hd hk = b.pyHash hd hk := by
  have e : a = b := by
    unfold Basis.pyEq at h
    simp only [Bool.and_eq_true, decide_eq_true_eq, List.all_eq_true] at h
    obtain ⟨⟨h1, h2⟩, h3⟩ := h
    have hk : a.knots = b.knots := by
      apply List.ext_getElem h1
      intro i i1 i2
      have := h2 (a.knots[i], b.knots[i]) (by
        rw [List.mem_iff_getElem]
        exact ⟨i, by simp; omega, by simp⟩)
      exact this
    calc a = ⟨a.knots, a.degree⟩ := rfl
      _ = b := by rw [hk, h3]
  exact ⟨e, by rw [e]⟩

/-- Clamped bases are those whose first knot occurs exactly, and last knot at least, `degree+1`
times. -/
theorem clamped_of_counts {c : Basis K} {x y : K} (hxy : x < y) (hs : c.knots.Pairwise (· ≤ ·))
    (hx : c.knots.count x = c.degree + 1) (hy : c.degree + 1 ≤ c.knots.count y)
    (hmem : ∀ t ∈ c.knots, x ≤ t ∧ t ≤ y) :
    c.Clamped ∧ c.k 0 = x ∧ c.k c.len = y := by
  have f1 := filter_le_length c.knots x
  have f2 := filter_le_length c.knots y
  have z1 : (c.knots.filter (· < x)).length = 0 := by
    rw [List.length_eq_zero_iff, List.filter_eq_nil_iff]
    intro t ht
    simpa using (hmem t ht).1
  have z2 : (c.knots.filter (· ≤ y)).length = c.knots.length := by
    congr 1
    rw [List.filter_eq_self]
    intro t ht
    simpa using (hmem t ht).2
  have hmem' : ∀ i, i < c.knots.length → x ≤ c.k i ∧ c.k i ≤ y := by
    intro i hi
    apply hmem
    unfold Basis.k
    rw [List.getD_eq_getElem _ _ hi]
    exact List.getElem_mem _
  -- first knots and last knots do not overlap
  have hov : (c.knots.filter (· ≤ x)).length ≤ (c.knots.filter (· < y)).length := by
    have : (c.knots.filter (· ≤ x)).Sublist (c.knots.filter (· < y)) := by
      apply List.monotone_filter_right
      intro t ht
      simp only [decide_eq_true_eq] at *
      exact ht.trans_lt hxy
    exact this.length_le
  have hlen : c.knots.length - (c.degree + 1) = c.len := by unfold Basis.len; omega
  have g0 : ∀ i, i ≤ c.degree → c.k i = x := by
    intro i hi
    exact le_antisymm ((k_le_iff hs x i (by omega)).2 (by omega)) (hmem' i (by omega)).1
  have g1 : ∀ i, c.len ≤ i → i < c.knots.length → c.k i = y := by
    intro i h1 h2
    refine le_antisymm (hmem' i h2).2 ?_
    by_contra h
    push Not at h
    have := (k_lt_iff hs y i h2).1 h
    omega
  have gl : c.k c.len = y := g1 _ le_rfl (by omega)
  refine ⟨⟨hs, by omega, fun i hi => by rw [g0 i hi, g0 0 (Nat.zero_le _)], ?_, fun i h1 h2 => by
    rw [g1 i h1 h2, gl]⟩, g0 0 (Nat.zero_le _), gl⟩
  rw [g0 _ le_rfl]
  by_contra h
  push Not at h
  have := (k_le_iff hs x _ (by omega)).1 h
  omega

theorem counts_of_clamped {c : Basis K} (hc : c.Clamped) :
    c.knots.count (c.k 0) = c.degree + 1 ∧ c.degree + 1 ≤ c.knots.count (c.k c.len) ∧
    ∀ t ∈ c.knots, c.k 0 ≤ t ∧ t ≤ c.k c.len := by
  have hl := hc.length_eq
  have hlt := hc.lt_len
  have hmem : ∀ t ∈ c.knots, c.k 0 ≤ t ∧ t ≤ c.k c.len := by
    intro x hx
    obtain ⟨i, hi, rfl⟩ := List.getElem_of_mem hx
    have e : c.knots[i] = c.k i := by
      unfold Basis.k; rw [List.getD_eq_getElem _ _ hi]
    rw [e]
    refine ⟨hc.mono (Nat.zero_le _), ?_⟩
    rcases Nat.lt_or_ge i c.len with h | h
    · exact hc.mono h.le
    · rw [hc.last _ h]
  have f1 := filter_le_length c.knots (c.k 0)
  have f2 := filter_le_length c.knots (c.k c.len)
  have z1 : (c.knots.filter (· < c.k 0)).length = 0 := by
    rw [List.length_eq_zero_iff, List.filter_eq_nil_iff]
    intro t ht
    simpa using (hmem t ht).1
  have z2 : (c.knots.filter (· ≤ c.k c.len)).length = c.knots.length := by
    congr 1
    rw [List.filter_eq_self]
    intro t ht
    simpa using (hmem t ht).2
  refine ⟨?_, ?_, hmem⟩
  · have a1 := (k_le_iff hc.sorted (c.k 0) c.degree (by omega)).1 hc.k_degree.le
    have a2 : ¬ c.degree + 1 < (c.knots.filter (· ≤ c.k 0)).length := by
      rw [← k_le_iff hc.sorted (c.k 0) (c.degree + 1) (by omega)]
      push Not
      exact hc.k_degree ▸ hc.start
    omega
  · have : ¬ c.len < (c.knots.filter (· < c.k c.len)).length := by
      rw [← k_lt_iff hc.sorted _ _ (by omega)]
      exact lt_irrefl _
    omega

/-- **C08** Union bases of two clamped bases on the same time interval are clamped on that
interval. -/
theorem C08_clamped (a b : Basis K) (ha : a.Clamped) (hb : b.Clamped) (d : ℕ) (had : a.degree ≤ d)
    (hbd : b.degree ≤ d)
    (h0 : a.knots.headD 0 = b.knots.headD 0) (h1 : a.knots.getLastD 0 = b.knots.getLastD 0) :
    (a.combine b d).Clamped ∧ (a.combine b d).knots.headD 0 = a.knots.headD 0 ∧
    (a.combine b d).knots.getLastD 0 = a.knots.getLastD 0 := by
  rw [headD_eq_k ha, headD_eq_k hb] at h0
  rw [getLastD_eq_k ha, getLastD_eq_k hb] at h1
  obtain ⟨e1, e2, e3⟩ := C08_multiplicity a b d had hbd
  obtain ⟨p1, p2, p3⟩ := counts_of_clamped ha
  obtain ⟨q1, q2, q3⟩ := counts_of_clamped hb
  rw [← h0, ← h1] at q3
  rw [← h0] at q1
  rw [← h1] at q2
  have m1 : a.k 0 ∈ a.knots := List.count_pos_iff.1 (by omega)
  have m2 : a.k 0 ∈ b.knots := List.count_pos_iff.1 (by omega)
  have m3 : a.k a.len ∈ a.knots := List.count_pos_iff.1 (by omega)
  have m4 : a.k a.len ∈ b.knots := List.count_pos_iff.1 (by omega)
  have r := clamped_of_counts (c := a.combine b d) ha.first_lt_last e2
    (by rw [e3, neededMult, if_pos m1, if_pos m2, e1]; omega)
    (by rw [e3, neededMult, if_pos m3, if_pos m4, e1]; omega)
    (by
      intro t ht
      have : 0 < (a.combine b d).knots.count t := List.count_pos_iff.2 ht
      rw [e3, neededMult] at this
      by_cases c1 : t ∈ a.knots
      · exact p3 t c1
      · by_cases c2 : t ∈ b.knots
        · exact q3 t c2
        · simp [c1, c2] at this)
  refine ⟨r.1, ?_, ?_⟩
  · rw [headD_eq_k r.1, r.2.1, headD_eq_k ha]
  · rw [getLastD_eq_k r.1, r.2.2, getLastD_eq_k ha]

/-- Quadratic and linear basis with different interior knots. -/
example : ((Basis.mk [0, 0, 0, 1/2, 1, 1, 1] 2 : Basis ℚ).mul ⟨[0, 0, 1/3, 1, 1], 1⟩).knots.count (1/2) = 2 := by
  have := (C08_multiplicity (Basis.mk [0, 0, 0, 1/2, 1, 1, 1] 2 : Basis ℚ) ⟨[0, 0, 1/3, 1, 1], 1⟩ 3
    (by decide) (by decide)).2.2 (1/2)
  refine this.trans ?_
  norm_num [neededMult, List.count_cons]

example : ((Basis.mk [0, 0, 0, 1/2, 1, 1, 1] 2 : Basis ℚ).add ⟨[0, 0, 1/3, 1, 1], 1⟩).Clamped :=
  (C08_clamped _ _ exBasis_clamped ⟨by norm_num, by decide,
    by intro i hi; have : i ≤ 1 := hi; interval_cases i <;> rfl,
    by norm_num [Basis.k],
    by intro i h1 h2; have a : 3 ≤ i := h1; have b : i < 5 := h2; interval_cases i <;> rfl⟩
    2 (by decide) (by decide) (by rfl) (by rfl)).1

end Verif.Spline
