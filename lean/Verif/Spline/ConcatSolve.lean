import Verif.Spline.Solvable

/-! # Concatenation of any number of smooth segments (C121)

The linear system of `concat_splines` (spline_extra.py:373-389) is regular whenever the joined basis has no knot of multiplicity above its degree;
with this the result is the motion along the segments one after the other, for any number of segments and components. -/

set_option linter.unusedSectionVars false

namespace Verif.Spline

open Finset Polynomial

variable {K : Type*} [Field K] [LinearOrder K] [IsStrictOrderedRing K]

/-! ## Specification -/

/-- No basis function jumps within the horizon: no interior knot occurs more than `degree` times. -/
def Basis.Conts (b : Basis K) : Prop := ∀ i, 1 ≤ i → i < b.len → b.k i < b.k (i + b.degree)

/-- The end of `a` and the start of `b` fit: value and derivatives in time are the same up to order `o`. -/
def Fits (o : ℕ) (a b : BSpline K × K) : Prop :=
  ∃ (q0 q1 : K[X]) (e : K), 0 < e ∧ (∀ x, 0 < x → x < e → a.1.eval (1 - x / a.2) = q0.eval (-x)) ∧
    (∀ x, 0 < x → x < e → b.1.eval (x / b.2) = q1.eval x) ∧
    ∀ j, j ≤ o → (derivative^[j] q0).eval 0 = (derivative^[j] q1).eval 0

/-- No joint is an evaluation point of the join that produces it; the joined basis so far is `p` and ends in `t`. -/
def JointsClear (n : ℕ) : Basis K → K → List (BSpline K × K) → Prop
  | _, _, [] => True
  | p, t, (s, T) :: rest => t ∉ shiftEnds (totalBasis p s.basis T n).greville ∧ JointsClear n (totalBasis p s.basis T n) (t + T) rest

/-! ## Lemmas: the evaluation points -/

theorem greville_getD {b : Basis K} {i : ℕ} (hi : i < b.len) :
    b.greville.getD i 0 = (∑ r ∈ range b.degree, b.k (i + 1 + r)) / (b.degree : K) := by
  unfold Basis.greville
  rw [List.getD_eq_getElem _ _ (by simp; omega), List.getElem_map, List.getElem_range, sum_map_range, one_div, inv_mul_eq_div]

theorem shiftEnds_getD {g : List K} (hg : 2 ≤ g.length) (i : ℕ) (hi : i < g.length) :
    (shiftEnds g).getD i 0 =
      if i = g.length - 1 then g.getD (g.length - 1) 0 - (g.getD (g.length - 1) 0 - (if g.length = 2 then
          g.getD 0 0 + (g.getD 1 0 - g.getD 0 0) * (1 / 100) else g.getD (g.length - 2) 0)) * (1 / 100)
      else if i = 0 then g.getD 0 0 + (g.getD 1 0 - g.getD 0 0) * (1 / 100) else g.getD i 0 := by
  have hs : ∀ (l : List K) (a j : ℕ) (v : K), j < l.length → (l.set a v).getD j 0 = if j = a then v else l.getD j 0 := by
    intro l a j v hj
    rw [List.getD_eq_getElem _ _ (by simpa using hj), List.getElem_set, List.getD_eq_getElem _ _ hj]
    by_cases e : a = j
    · rw [if_pos e, if_pos e.symm]
    · rw [if_neg e, if_neg (Ne.symm e)]
  unfold shiftEnds
  dsimp only
  rw [hs _ _ _ _ (by simpa using hi), hs _ _ _ _ (by omega), hs _ _ _ _ (by omega), hs _ _ _ _ hi, if_neg (show g.length - 1 ≠ 0 by omega)]
  by_cases c : g.length = 2
  · rw [if_pos c, if_pos (show g.length - 2 = 0 by omega)]
  · rw [if_neg c, if_neg (show g.length - 2 ≠ 0 by omega)]

/-- The evaluation points increase, and each one is inside the support of its basis function. -/
theorem shiftEnds_points {b : Basis K} (hb : b.Clamped) (hd : 1 ≤ b.degree) (hm : b.Conts) :
    (∀ i, i + 1 < b.len → (shiftEnds b.greville).getD i 0 < (shiftEnds b.greville).getD (i + 1) 0) ∧
    ∀ i, i < b.len → b.k 0 < (shiftEnds b.greville).getD i 0 ∧ (shiftEnds b.greville).getD i 0 < b.k b.len ∧
      b.k i < (shiftEnds b.greville).getD i 0 ∧ (shiftEnds b.greville).getD i 0 < b.k (i + b.degree + 1) := by
  have hlt := hb.lt_len
  have hd0 : (0 : K) < b.degree := by exact_mod_cast hd
  have hgl : b.greville.length = b.len := by simp [Basis.greville]
  set g : ℕ → K := fun i => b.greville.getD i 0 with hg
  have hge : ∀ i, i < b.len → g i = (∑ r ∈ range b.degree, b.k (i + 1 + r)) / (b.degree : K) := fun i hi => greville_getD hi
  -- bounds on the Greville points
  have glow : ∀ i, i < b.len → b.k (i + 1) ≤ g i := by
    intro i hi
    rw [hge i hi, le_div_iff₀ hd0, mul_comm, ← nsmul_eq_mul, ← Finset.card_range b.degree, ← Finset.sum_const, Finset.card_range]
    exact Finset.sum_le_sum fun r _ => hb.mono (by omega)
  have ghigh : ∀ i, i < b.len → g i ≤ b.k (i + b.degree) := by
    intro i hi
    rw [hge i hi, div_le_iff₀ hd0, mul_comm, ← nsmul_eq_mul, ← Finset.card_range b.degree, ← Finset.sum_const, Finset.card_range]
    exact Finset.sum_le_sum fun r hr => hb.mono (by have := Finset.mem_range.1 hr; omega)
  have gstep : ∀ i, i + 1 < b.len → g i < g (i + 1) := by
    intro i hi
    rw [hge i (by omega), hge (i + 1) hi]
    refine div_lt_div_of_pos_right ?_ hd0
    have e1 : ∑ r ∈ range b.degree, b.k (i + 1 + 1 + r) = ∑ r ∈ range b.degree, b.k (i + 1 + (r + 1)) :=
      Finset.sum_congr rfl fun r _ => by congr 1; omega
    have e2 := Finset.sum_range_succ' (fun r => b.k (i + 1 + r)) b.degree
    rw [Finset.sum_range_succ] at e2
    have e3 := hm (i + 1) (by omega) hi
    rw [e1]
    simp only [Nat.add_zero] at e2
    linarith
  set P : ℕ → K := fun i => (shiftEnds b.greville).getD i 0 with hP
  have hPe : ∀ i, i < b.len → P i = if i = b.len - 1 then g (b.len - 1) - (g (b.len - 1) - (if b.len = 2 then
          g 0 + (g 1 - g 0) * (1 / 100) else g (b.len - 2))) * (1 / 100)
      else if i = 0 then g 0 + (g 1 - g 0) * (1 / 100) else g i := by
    intro i hi
    have := shiftEnds_getD (g := b.greville) (by omega) i (by omega)
    rw [hgl] at this
    exact this
  have g01 := gstep 0 (by omega)
  have hP0 : g 0 < P 0 ∧ P 0 < g 1 := by
    rw [hPe 0 (by omega), if_neg (by omega), if_pos rfl]
    constructor <;> linarith
  have hPi : ∀ i, 1 ≤ i → i < b.len - 1 → P i = g i := by
    intro i h1 h2
    rw [hPe i (by omega), if_neg (by omega), if_neg (by omega)]
  have hPl : P (b.len - 2) < P (b.len - 1) ∧ P (b.len - 1) < g (b.len - 1) := by
    rw [hPe (b.len - 1) (by omega), if_pos rfl]
    by_cases c : b.len = 2
    · have e1 : b.len - 1 = 1 := by omega
      have e2 : b.len - 2 = 0 := by omega
      have e3 : P 0 = g 0 + (g 1 - g 0) * (1 / 100) := by rw [hPe 0 (by omega), if_neg (by omega), if_pos rfl]
      rw [if_pos c, e1, e2, ← e3]
      constructor <;> linarith [hP0.1, hP0.2]
    · rw [if_neg c]
      have h1 := gstep (b.len - 2) (by omega)
      rw [show b.len - 2 + 1 = b.len - 1 by omega] at h1
      refine ⟨?_, by linarith⟩
      rw [hPi _ (by omega) (by omega)]
      linarith
  have hstep : ∀ i, i + 1 < b.len → P i < P (i + 1) := by
    intro i hi
    by_cases c : i + 1 = b.len - 1
    · rw [c, show i = b.len - 2 by omega]; exact hPl.1
    · rw [hPi (i + 1) (by omega) (by omega)]
      by_cases c0 : i = 0
      · subst c0; exact hP0.2
      · rw [hPi i (by omega) (by omega)]; exact gstep i hi
  refine ⟨hstep, fun i hi => ?_⟩
  have low : b.k 0 < P i ∧ b.k i < P i := by
    by_cases c0 : i = 0
    · subst c0
      have : b.k 0 < P 0 := (hb.mono (Nat.zero_le _)).trans_lt ((glow 0 hi).trans_lt hP0.1)
      exact ⟨this, this⟩
    · suffices b.k i < P i from ⟨(hb.mono (Nat.zero_le _)).trans_lt this, this⟩
      have h1 := glow (i - 1) (by omega)
      rw [show i - 1 + 1 = i by omega] at h1
      refine h1.trans_lt ?_
      have h2 := hstep (i - 1) (by omega)
      rw [show i - 1 + 1 = i by omega] at h2
      refine lt_of_le_of_lt ?_ h2
      by_cases c1 : i - 1 = 0
      · rw [c1]; exact hP0.1.le
      · exact (hPi _ (by omega) (by omega)).ge
  have high : P i < b.k (i + b.degree + 1) := by
    by_cases c : i = b.len - 1
    · rw [c]
      exact hPl.2.trans_le ((ghigh _ (by omega)).trans (hb.mono (by omega)))
    · have h1 := gstep i (by omega)
      have h2 := ghigh (i + 1) (by omega)
      rw [show i + 1 + b.degree = i + b.degree + 1 by omega] at h2
      by_cases c0 : i = 0
      · subst c0; exact hP0.2.trans_le h2
      · exact (hPi _ (by omega) (by omega)).le.trans_lt (h1.trans_le h2)
  exact ⟨low.1, high.trans_le (k_le_last hb _), low.2, high⟩

/-- The matrix of the concatenation is regular. -/
theorem concatA_det {b : Basis K} (hb : b.Clamped) (hd : 1 ≤ b.degree) (hm : b.Conts) : (concatA b).det ≠ 0 := by
  obtain ⟨h1, h2⟩ := shiftEnds_points hb hd hm
  have hmono : ∀ i j, i < j → j < b.len → (shiftEnds b.greville).getD i 0 < (shiftEnds b.greville).getD j 0 := by
    intro i j hij
    induction j with
    | zero => omega
    | succ j ih =>
      intro hj
      rcases Nat.lt_or_ge i j with l | g
      · exact (ih l (by omega)).trans (h1 j hj)
      · have : i = j := by omega
        subst this; exact h1 i hj
  have := (basis_total hb (X := fun r : Fin b.len => (shiftEnds b.greville).getD r 0) (I := fun c : Fin b.len => (c : ℕ))
    (fun i j hij => hmono i j hij j.2) (fun i j hij => hij) (fun r => (h2 r r.2).1.le) fun r => (h2 r r.2).2.1.le).2 (by
      intro r
      obtain ⟨a1, a2, a3, a4⟩ := h2 r r.2
      exact (cox_pos_iff hb.mono a1 _ _).2 ⟨a3, Or.inl a4⟩)
  rw [← Matrix.det_transpose]
  exact this.ne'

theorem glue_conts {p s : Basis K} (hp : p.Clamped) (hs : s.Clamped) (hd : s.degree = p.degree) {n : ℕ} (hn : n ≤ p.degree)
    (hj : s.k 0 = p.k p.len) (cp : p.Conts) (cs : s.Conts) : (glue p s n).Conts := by
  have h3 := hs.lt_len
  have h4 := hp.lt_len
  intro i h1 h2
  rw [glue_len hp hs hd (by omega)] at h2
  have hk := glue_k hp hs hd (show n ≤ p.degree + 1 by omega)
  rw [show (glue p s n).degree = p.degree from rfl, hk, hk]
  by_cases c : i + p.degree < p.len + n
  · rw [if_pos c, if_pos (by omega)]; exact cp i h1 (by omega)
  · rw [if_neg c]
    by_cases c2 : i < p.len + n
    · rw [if_pos c2]
      refine (k_le_last hp i).trans_lt ?_
      rw [← hj, ← hs.first s.degree le_rfl]
      exact hs.start.trans_le (hs.mono (by omega))
    · rw [if_neg c2, show i + p.degree - (p.len + n) + (p.degree + 1) = i - (p.len + n) + (p.degree + 1) + s.degree by omega]
      exact cs _ (by omega) (by omega)

/-- Joining trajectories without jumps never fails. -/
theorem joinSeg_some {d n : ℕ} (hn : 1 ≤ n) (hnd : n ≤ d) {p s : BSpline K} (hp : p.basis.Clamped) (dp : p.basis.degree = d)
    (hs : Segment d s) {T t : K} (hT : 0 < T) (ht : p.basis.k p.basis.len = t) (cp : p.basis.Conts) (cs : s.basis.Conts) :
    ∃ q, joinSeg p s T t n = some q ∧ q.basis = totalBasis p.basis s.basis T n ∧ q.basis.Conts := by
  subst dp
  obtain ⟨hc, ws, ds, s0, s1, es⟩ := hs.scaled hT t
  have hj : (s.scale T t).basis.k 0 = p.basis.k p.basis.len := by rw [s0, ht]
  have hT2 : totalBasis p.basis s.basis T n = glue p.basis (s.scale T t).basis n := by
    rw [totalBasis_eq hp, ht]; rfl
  have cs' : (s.scale T t).basis.Conts := by
    intro i h1 h2
    have hlen : (s.scale T t).basis.len = s.basis.len := by simp [Basis.len, BSpline.scale, Basis.scale]
    have hk := scale_k hs.clamped T t
    show (s.basis.scale T t).k i < (s.basis.scale T t).k (i + s.basis.degree)
    rw [hk, hk]
    have := cs i h1 (hlen ▸ h2)
    gcongr
  have hJ : (totalBasis p.basis s.basis T n).Conts := hT2 ▸ glue_conts hp hc ds hnd hj cp cs'
  have hdet := concatA_det (hT2 ▸ glue_clamped hp hc ds (by omega) hj) (show 1 ≤ (totalBasis p.basis s.basis T n).degree from hn.trans hnd) hJ
  suffices h : ∃ c, joinSeg p s T t n = some ⟨totalBasis p.basis s.basis T n, c⟩ by
    obtain ⟨c, h⟩ := h
    exact ⟨_, h, rfl, hJ⟩
  unfold joinSeg
  rw [if_neg (by omega), if_neg (by omega), solveBasis_eq hp T hn (by omega)]
  unfold npSolveV
  rw [if_neg hdet, Option.map_some]
  exact ⟨_, rfl⟩

/-! ## The loop -/

/-- The trajectory so far `p`, along `l`, with the segments `rest` still to come. -/
structure Carries (d n : ℕ) (l : List (BSpline K × K)) (p : BSpline K) (rest : List (BSpline K × K)) : Prop where
  follows : Follows d l p
  conts : p.basis.Conts
  ne : l ≠ []
  pos : ∀ a ∈ l, 0 < a.2
  fits : (l ++ rest).IsChain (Fits (d - n))
  clear : JointsClear n p.basis (total l) rest
  seg : ∀ a ∈ rest, Segment d a.1 ∧ a.1.basis.Conts ∧ 0 < a.2

theorem Carries.step {d n : ℕ} (hn : 1 ≤ n) (hnd : n ≤ d) {l rest : List (BSpline K × K)} {p s : BSpline K} {T : K}
    (h : Carries d n l p ((s, T) :: rest)) : ∃ q, joinSeg p s T (total l) n = some q ∧ Carries d n (l ++ [(s, T)]) q rest := by
  obtain ⟨hs, cs, hT⟩ := h.seg (s, T) (by simp)
  dsimp only at hs cs hT
  have hf := h.follows
  obtain ⟨q, e1, e2, e3⟩ := joinSeg_some hn hnd hf.clamped hf.degree hs hT hf.last h.conts cs
  refine ⟨q, e1, ?_⟩
  obtain ⟨l', ⟨s', T'⟩, rfl⟩ := (List.eq_nil_or_concat' l).resolve_left h.ne
  have hT' : 0 < T' := h.pos (s', T') (by simp)
  obtain ⟨q0, q1, e, he, f1, f2, f3⟩ : Fits (d - n) (s', T') (s, T) := by
    have := h.fits
    rw [List.append_assoc, List.singleton_append] at this
    have := (List.isChain_append.1 this).2.1
    exact (List.isChain_cons_cons.1 this).1
  dsimp only at f1 f2
  set t := total (l' ++ [(s', T')]) with ht
  have htt : t = total l' + T' := by simp [ht, total]
  have h0 : 0 ≤ total l' := by
    unfold total
    refine List.sum_nonneg fun y hy => ?_
    obtain ⟨a, ha, rfl⟩ := List.mem_map.1 hy
    exact (h.pos a (by simp [ha])).le
  have hsh : ∀ (q : K[X]) (o : ℕ), (derivative^[o] (q.comp (X - C t))).eval t = (derivative^[o] q).eval 0 := by
    intro q o
    have : derivative^[o] (q.comp (X - C t)) = (derivative^[o] q).comp (X - C t) := by
      induction o generalizing q with
      | zero => rfl
      | succ o ih =>
        rw [Function.iterate_succ_apply, Function.iterate_succ_apply, derivative_comp, ← ih]
        simp
    rw [this]
    simp
  have hJ := joinSeg_smooth (q1 := q0.comp (X - C t)) (q2 := q1.comp (X - C t)) (a := max (total l') (t - e)) (b := e) hn hnd
    hf.clamped hf.wf hf.degree hs hT hf.last (max_lt (by linarith) (by linarith)) he (by
      intro x v1 v2
      have v3 := (le_max_left _ _).trans_lt v1
      have v4 := (le_max_right _ _).trans_lt v1
      rw [hf.eval x (h0.trans v3.le) v2.le, path_append l' (fun a ha => h.pos a (by simp [ha])) _ _ _ (by linarith),
        if_neg (fun h => absurd h.2 (not_le.2 v3)), eval_comp, eval_sub, eval_X, eval_C]
      have := f1 (t - x) (by linarith) (by linarith)
      rw [neg_sub] at this
      rw [← this]
      congr 1
      rw [htt]
      field_simp
      ring) (by
      intro x v1 v2
      rw [f2 x v1 v2, eval_comp, eval_sub, eval_X, eval_C, add_sub_cancel_left]) (by
      intro o ho
      rw [hsh, hsh]; exact f3 o ho) h.clear.1 e1
  refine ⟨hf.step h.pos h.ne hJ, e3, by simp, ?_, ?_, ?_, fun a ha => h.seg a (List.mem_cons_of_mem _ ha)⟩
  · intro a ha
    rcases List.mem_append.1 ha with c | c
    · exact h.pos a c
    · rw [List.mem_singleton.1 c]; exact hT
  · rw [List.append_assoc]; exact h.fits
  · rw [e2, show total (l' ++ [(s', T')] ++ [(s, T)]) = t + T by rw [ht]; simp [total]; ring]
    exact h.clear.2

theorem joinAll_some {T t : K} {n : ℕ} {Q : ℕ → BSpline K → Prop} : ∀ (ps ss : List (BSpline K)) (o : ℕ), ps.length = ss.length →
    (∀ i (h1 : i < ps.length) (h2 : i < ss.length), ss[i].basis.degree = ps[i].basis.degree ∧
      ∃ q, joinSeg ps[i] ss[i] T t n = some q ∧ Q (o + i) q) →
    ∃ qs, joinAll T t ps ss (some n) = some (qs, some n) ∧ qs.length = ps.length ∧ ∀ i (h : i < qs.length), Q (o + i) qs[i] := by
  intro ps ss
  induction ss generalizing ps with
  | nil =>
    intro o h1 _
    have : ps = [] := List.length_eq_zero_iff.1 h1
    subst this
    exact ⟨[], by rw [joinAll], rfl, fun i h => absurd h (by simp)⟩
  | cons s ss ih =>
    intro o h1 h
    obtain ⟨p, ps, rfl⟩ : ∃ p ps', ps = p :: ps' := List.exists_cons_of_length_eq_add_one h1
    obtain ⟨hd, q, hq, hQ⟩ := h 0 (by simp) (by simp)
    obtain ⟨qs, e1, e2, e3⟩ := ih ps (o + 1) (by simpa using h1) (fun i h1 h2 => by
      have := h (i + 1) (by simpa using h1) (by simpa using h2)
      simpa [Nat.add_assoc, Nat.add_comm, Nat.add_left_comm] using this)
    refine ⟨q :: qs, ?_, by simp [e2], ?_⟩
    · simp only [List.getElem_cons_zero] at hd hq
      rw [joinAll, if_neg (by rw [hd]; simp), getInsert, Option.bind_some, hq, Option.bind_some, e1]
      rfl
    · intro i hi
      cases i with
      | zero => exact hQ
      | succ i => simpa [Nat.add_assoc, Nat.add_comm, Nat.add_left_comm] using e3 i (by simpa using hi)

theorem concatGo_smooth {d n m : ℕ} (hn : 1 ≤ n) (hnd : n ≤ d) (rest : List (List (BSpline K) × K)) :
    ∀ (D : List (List (BSpline K) × K)) (ps : List (BSpline K)), ps.length = m → (∀ a ∈ rest, a.1.length = m) →
    (∀ i (h : i < ps.length), Carries d n (comp i D) ps[i] (comp i rest)) →
    ∃ qs, concatGo ps (D.map Prod.snd).sum (some n) rest = some qs ∧ qs.length = m ∧
      ∀ i (h : i < qs.length), Follows d (comp i (D ++ rest)) qs[i] := by
  induction rest with
  | nil =>
    intro D ps hm _ hF
    refine ⟨ps, by rw [concatGo], hm, ?_⟩
    rw [List.append_nil]
    exact fun i hi => (hF i hi).follows
  | cons a rest ih =>
    intro D ps hm hR hF
    obtain ⟨ss, T⟩ := a
    have hm' : ss.length = m := hR (ss, T) (by simp)
    have hcomp : ∀ i (h : i < ss.length), comp i ((ss, T) :: rest) = (ss[i], T) :: comp i rest := by
      intro i h
      simp only [comp, List.map_cons]
      rw [List.getD_eq_getElem _ _ h]
    obtain ⟨qs, q1, q2, q3⟩ := joinAll_some (T := T) (t := (D.map Prod.snd).sum) (n := n)
      (Q := fun i q => Carries d n (comp i (D ++ [(ss, T)])) q (comp i rest)) ps ss 0 (by omega) (by
        intro i h1 h2
        have := hF i h1
        rw [hcomp i h2] at this
        obtain ⟨q, e1, e2⟩ := this.step hn hnd
        have hseg := (this.seg (ss[i], T) (by simp)).1
        refine ⟨hseg.degree.trans this.follows.degree.symm, q, by rw [← total_comp i]; exact e1, ?_⟩
        have e : comp i (D ++ [(ss, T)]) = comp i D ++ [(ss[i], T)] := by
          simp only [comp, List.map_append, List.map_cons, List.map_nil]
          rw [List.getD_eq_getElem _ _ h2]
        simpa [e] using e2)
    obtain ⟨rs, r1, r2, r3⟩ := ih (D ++ [(ss, T)]) qs (by omega) (fun a ha => hR a (List.mem_cons_of_mem _ ha))
      (fun i hi => by simpa using q3 i hi)
    refine ⟨rs, ?_, r2, ?_⟩
    · rw [concatGo, q1, Option.bind_some, ← r1]
      simp
    · intro i hi
      have := r3 i hi
      rwa [List.append_assoc] at this

/-! ## Property theorems -/

/-- No joint of these segments is an evaluation point. -/
def Clear (n : ℕ) : List (BSpline K × K) → Prop
  | [] => True
  | (s, T) :: rest => JointsClear n (s.scale T 0).basis T rest

/-- **C121** Joining trajectories that do not jump never fails: the linear system is regular. -/
theorem C121_defined (d n : ℕ) (hn : 1 ≤ n) (hnd : n ≤ d) (p s : BSpline K) (hp : p.basis.Clamped)
    (dp : p.basis.degree = d) (hs : Segment d s) (T t : K) (hT : 0 < T) (ht : p.basis.knots.getLastD 0 = t)
    (cp : p.basis.Conts) (cs : s.basis.Conts) : ∃ q, joinSeg p s T t n = some q := by
  rw [getLastD_eq_k hp] at ht
  obtain ⟨q, h, -⟩ := joinSeg_some hn hnd hp dp hs hT ht cp cs
  exact ⟨q, h⟩

/-- **C121** Concatenation of any number of segments with any number of components, with `n ≤ degree` knots at the joints: when neighbouring segments
have the same derivatives up to order `degree - n`, the result runs from time `0` to the total time, and at each time has the value of the segment of
that time.

Partial: assumes that no joint is an evaluation point, see `C121_joint_violated`. -/
theorem C121_smooth_partial (d n m : ℕ) (hn : 1 ≤ n) (hnd : n ≤ d) (segs : List (List (BSpline K) × K)) (hne : segs ≠ [])
    (h : ∀ a ∈ segs, a.1.length = m ∧ (∀ s ∈ a.1, Segment d s ∧ s.basis.Conts) ∧ 0 < a.2)
    (hfit : ∀ i, i < m → (comp i segs).IsChain (Fits (d - n))) (hcl : ∀ i, i < m → Clear n (comp i segs)) :
    ∃ r, concatSplines segs (some n) = some r ∧ r.length = m ∧
      ∀ i (hi : i < r.length), r[i].basis.knots.headD 0 = 0 ∧
        r[i].basis.knots.getLastD 0 = (segs.map Prod.snd).sum ∧
        ∀ x, 0 ≤ x → x ≤ (segs.map Prod.snd).sum → r[i].eval x = path (comp i segs) x := by
  obtain ⟨⟨s0, T0⟩, rest, rfl⟩ := List.exists_cons_of_ne_nil hne
  obtain ⟨a1, a2, a3⟩ := h (s0, T0) (by simp)
  dsimp only at a1 a2 a3
  obtain ⟨r, r1, r2, r3⟩ := concatGo_smooth (m := m) hn hnd rest [(s0, T0)] (s0.map fun s => s.scale T0 0)
    (by simpa using a1) (fun a ha => (h a (List.mem_cons_of_mem _ ha)).1) (by
      intro i hi
      have hi' : i < s0.length := by simpa using hi
      rw [List.getElem_map]
      have e : comp i [(s0, T0)] = [(s0[i], T0)] := by
        simp only [comp, List.map_cons, List.map_nil]
        rw [List.getD_eq_getElem _ _ hi']
      have e' : comp i ((s0, T0) :: rest) = (s0[i], T0) :: comp i rest := by
        simp only [comp, List.map_cons]
        rw [List.getD_eq_getElem _ _ hi']
      obtain ⟨hs, cs⟩ := a2 _ (List.getElem_mem hi')
      have f1 := hfit i (by omega)
      have f2 := hcl i (by omega)
      rw [e'] at f1 f2
      refine ⟨e ▸ hs.follows a3, ?_, by rw [e]; simp, by rw [e]; simpa using a3, by rw [e]; exact f1, ?_, ?_⟩
      · intro j h1 h2
        have hlen : (s0[i].scale T0 0).basis.len = s0[i].basis.len := by simp [Basis.len, BSpline.scale, Basis.scale]
        have hk := scale_k hs.clamped T0 0
        show (s0[i].basis.scale T0 0).k j < (s0[i].basis.scale T0 0).k (j + s0[i].basis.degree)
        rw [hk, hk]
        have := cs j h1 (hlen ▸ h2)
        gcongr
      · rw [e, show total [(s0[i], T0)] = T0 by simp [total]]; exact f2
      · intro a ha
        obtain ⟨b, hb, rfl⟩ := List.mem_map.1 ha
        obtain ⟨b1, b2, b3⟩ := h b (List.mem_cons_of_mem _ hb)
        dsimp only
        rw [List.getD_eq_getElem _ _ (by omega)]
        exact ⟨(b2 _ (List.getElem_mem _)).1, (b2 _ (List.getElem_mem _)).2, b3⟩)
  refine ⟨r, ?_, r2, fun i hi => ?_⟩
  · rw [concatSplines, ← r1]
    simp
  · have := r3 i hi
    rw [List.cons_append, List.nil_append] at this
    rw [headD_eq_k this.clamped, getLastD_eq_k this.clamped, ← total_comp i]
    exact ⟨this.first, this.last, this.eval⟩

/-! ### Examples -/

theorem quadB_conts : quadB.Conts := by
  intro i h1 h2
  have h2 : i < 3 := h2
  interval_cases i <;> decide +kernel

theorem quad_bern {x : ℚ} (u : 0 < x) (v : x < 1) (c0 c1 c2 : ℚ) :
    (⟨quadB, [c0, c1, c2]⟩ : BSpline ℚ).eval x = c0 * (1 - x) ^ 2 + 2 * c1 * x * (1 - x) + c2 * x ^ 2 := by
  have hw : (⟨quadB, [c0, c1, c2]⟩ : BSpline ℚ).WF := rfl
  have e0 : quadB.k 0 = 0 := by decide +kernel
  rw [BSpline.eval_eq hw]
  change ∑ i ∈ range 3, [c0, c1, c2].getD i 0 * cox quadB.k 2 x 2 i = _
  simp only [Finset.sum_range_succ, Finset.sum_range_zero, cox, ind_of_lt (k := quadB.k) (p := 2) (x := x) (by rw [e0]; exact u)]
  have k1 : quadB.k 1 = 0 := by decide +kernel
  have k2 : quadB.k 2 = 0 := by decide +kernel
  have k3 : quadB.k 3 = 1 := by decide +kernel
  have k4 : quadB.k 4 = 1 := by decide +kernel
  have k5 : quadB.k 5 = 1 := by decide +kernel
  simp [e0, k1, k2, k3, k4, k5, u, v.le]
  ring

/-- Three straight lines in a row, `0 → 1 → 2 → 3`. -/
def threeLines : List (List (BSpline ℚ) × ℚ) :=
  [([⟨quadB, [0, 1/2, 1]⟩], 1), ([⟨quadB, [1, 3/2, 2]⟩], 1), ([⟨quadB, [2, 5/2, 3]⟩], 1)]

theorem line_fits (a a1 b b1 c : ℚ) (h1 : a1 = a + 1/2) (h2 : b = a + 1) (h3 : b1 = a + 3/2) (h4 : c = a + 2) :
    Fits 1 ((⟨quadB, [a, a1, b]⟩ : BSpline ℚ), 1) (⟨quadB, [b, b1, c]⟩, 1) := by
  refine ⟨X + C b, X + C b, 1, one_pos, fun x u v => ?_, fun x u v => ?_, fun j _ => rfl⟩
  · dsimp only
    rw [quad_bern (by linarith) (by linarith), h1, h2]
    simp; ring
  · dsimp only
    rw [quad_bern (by linarith) (by linarith), h3, h4, h2]
    simp; ring

/-- Non-vacuity: the three lines meet the hypotheses of `C121_smooth_partial`. -/
example : ∃ r, concatSplines threeLines (some 1) = some r ∧ r.length = 1 := by
  obtain ⟨r, h1, h2, -⟩ := C121_smooth_partial 2 1 1 le_rfl (by norm_num) threeLines (by simp [threeLines]) (by
      intro a ha
      have hh : ∀ c : List ℚ, c.length = 3 → Segment 2 (⟨quadB, c⟩ : BSpline ℚ) ∧ (⟨quadB, c⟩ : BSpline ℚ).basis.Conts :=
        fun c hc => ⟨quad_segment hc, quadB_conts⟩
      simp only [threeLines, List.mem_cons, List.not_mem_nil, or_false] at ha
      rcases ha with rfl | rfl | rfl
      · exact ⟨rfl, by simpa using hh _ rfl, by norm_num⟩
      · exact ⟨rfl, by simpa using hh _ rfl, by norm_num⟩
      · exact ⟨rfl, by simpa using hh _ rfl, by norm_num⟩) (by
      intro i hi
      obtain rfl : i = 0 := by omega
      exact List.isChain_cons_cons.2 ⟨line_fits _ _ _ _ _ (by norm_num) (by norm_num) (by norm_num) (by norm_num),
        List.isChain_cons_cons.2 ⟨line_fits _ _ _ _ _ (by norm_num) (by norm_num) (by norm_num) (by norm_num), List.isChain_singleton _⟩⟩) (by
      intro i hi
      obtain rfl : i = 0 := by omega
      refine ⟨?_, ?_, trivial⟩ <;> decide +kernel)
  exact ⟨r, h1, h2⟩

/-! ### Violation -/

/-- **C121** is violated for cubic trajectories with one knot at the joint whenever the last interval before the joint lasts as long as the first one
behind it: the joint is an evaluation point, and the result passes it at twice the value. -/
theorem C121_cubic_violated (p s : BSpline K) (hp : p.basis.Clamped) (dp : p.basis.degree = 3) (hs : Segment 3 s) (T t : K) (hT : 0 < T)
    (ht : p.basis.knots.getLastD 0 = t) (hsym : t - p.basis.k (p.basis.len - 1) = T * s.basis.k 4)
    (hcont : s.eval 0 = p.eval t) (q : BSpline K) (h : joinSeg p s T t 1 = some q) : q.eval t = 2 * p.eval t := by
  rw [getLastD_eq_k hp] at ht
  suffices q.eval t = p.eval t + s.eval 0 by rw [this, hcont, two_mul]
  refine C121_joint_violated 1 p s hp hs.clamped T t hT le_rfl (by omega) ?_ q h
  obtain ⟨cs, ws, ds, s0, s1, es⟩ := hs.scaled hT t
  have hj : (s.scale T t).basis.k 0 = p.basis.k p.basis.len := by rw [s0, ht]
  have hT2 : totalBasis p.basis s.basis T 1 = glue p.basis (s.scale T t).basis 1 := by
    rw [totalBasis_eq hp, ht]; rfl
  rw [hT2]
  have ds' : (s.scale T t).basis.degree = p.basis.degree := by rw [ds, dp]
  have hk := glue_k hp cs ds' (show 1 ≤ p.basis.degree + 1 by omega)
  have hl := glue_len hp cs ds' (show 1 ≤ p.basis.degree + 1 by omega)
  set J := glue p.basis (s.scale T t).basis 1 with hJ
  have h4 := hp.lt_len
  have h5 := cs.lt_len
  have hgl : J.greville.length = J.len := by simp [Basis.greville]
  have hlen : (shiftEnds J.greville).length = J.len := by simp [shiftEnds, hgl]
  have hJd : J.degree = 3 := dp
  rw [List.mem_iff_getElem]
  refine ⟨p.basis.len - 2, by omega, ?_⟩
  unfold shiftEnds
  dsimp only
  rw [List.getElem_set_ne (by omega), List.getElem_set_ne (by omega)]
  unfold Basis.greville
  rw [List.getElem_map, List.getElem_range, hJd]
  have k4 : (s.scale T t).basis.k 4 = s.basis.k 4 * T + t := scale_k hs.clamped T t 4
  simp only [List.range_succ, List.range_zero, List.nil_append, List.cons_append, List.map_cons, List.map_nil, List.sum_cons, List.sum_nil]
  rw [hk, hk, hk, if_pos (by omega), if_pos (by omega), if_neg (by omega), show p.basis.len - 2 + 1 + 0 = p.basis.len - 1 by omega,
    show p.basis.len - 1 + 1 = p.basis.len by omega, ht, dp,
    show p.basis.len - 1 + 2 - (p.basis.len + 1) + (3 + 1) = 4 by omega, k4]
  have : p.basis.k (p.basis.len - 1) = t - T * s.basis.k 4 := by rw [← hsym]; ring
  rw [this]
  push_cast
  ring

/-- One cubic interval on `[0, 1]`. -/
def cubB : Basis ℚ := ⟨[0, 0, 0, 0, 1, 1, 1, 1], 3⟩

/-- Non-vacuity: the constant `1` twice becomes a trajectory with the value `2` in the joint. -/
example : ∃ q, joinSeg (⟨cubB, [1, 1, 1, 1]⟩ : BSpline ℚ) ⟨cubB, [1, 1, 1, 1]⟩ 1 1 1 = some q ∧ q.eval 1 = 2 := by
  have hc : cubB.Clamped := by
    refine ⟨by decide +kernel, by decide +kernel, ?_, by decide +kernel, ?_⟩
    · intro i hi
      have : i ≤ 3 := hi
      interval_cases i <;> decide +kernel
    · intro i h1 h2
      have h1 : 4 ≤ i := h1
      have h2 : i < 8 := h2
      interval_cases i <;> decide +kernel
  have hco : cubB.Conts := by
    intro i h1 h2
    have h2 : i < 4 := h2
    interval_cases i <;> decide +kernel
  have hk0 : cubB.k 0 = 0 := by decide +kernel
  have hk1 : cubB.k cubB.len = 1 := by decide +kernel
  have hs : Segment 3 (⟨cubB, [1, 1, 1, 1]⟩ : BSpline ℚ) := ⟨hc, rfl, rfl, hk0, hk1⟩
  obtain ⟨q, hq⟩ := C121_defined 3 1 le_rfl (by norm_num) ⟨cubB, [1, 1, 1, 1]⟩ ⟨cubB, [1, 1, 1, 1]⟩ hc rfl hs 1 1 one_pos
    (by decide +kernel) hco hco
  refine ⟨q, hq, ?_⟩
  have e1 : (⟨cubB, [1, 1, 1, 1]⟩ : BSpline ℚ).eval 1 = 1 := by decide +kernel
  have e0 : (⟨cubB, [1, 1, 1, 1]⟩ : BSpline ℚ).eval 0 = 1 := by decide +kernel
  rw [C121_cubic_violated _ _ hc rfl hs 1 1 one_pos (by decide +kernel) (by decide +kernel) (by rw [e0, e1]) q hq, e1, mul_one]

end Verif.Spline
