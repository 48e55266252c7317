import Verif.Spline.ConcatSolve

/-! # The guess for a frame that was made from two (C185)

Mirrors `get_init_guess_combined_frame` of `omgtools/problems/schedulerproblem.py:660-698` and the same code in
`get_init_guess_combined_segment` of `omgtools/problems/gcodeschedulerproblem.py:970-1008`. -/

set_option linter.unusedSectionVars false

namespace Verif.Spline

open Finset Polynomial

variable {K : Type*} [Field K] [LinearOrder K] [IsStrictOrderedRing K]

section Model

/-- The coefficients in the basis `b` with the values of `q` at the Greville points, the first and last moved inwards,
schedulerproblem.py:682-694. -/
noncomputable def refit (b : Basis K) (q : BSpline K) : Option (List K) :=
  (npSolveV (concatA b) fun r => q.eval ((shiftEnds b.greville).getD r 0)).map List.ofFn

/-- The loop over the components, schedulerproblem.py:679-694: `T` is the motion time, by which the knots are multiplied. -/
noncomputable def refitAll (T : K) : List (BSpline K) → List (BSpline K) → Option (List (List K))
  | [], _ => some []
  | _ :: _, [] => none
  | s :: ss, q :: qs => (refit (s.basis.scale T 0) q).bind fun c => (refitAll T ss qs).map fun cs => c :: cs

/-- `get_init_guess_combined_frame`, schedulerproblem.py:660-698: coefficients for all components and the motion time. -/
noncomputable def combined (s1 s2 : List (BSpline K)) (T1 T2 : K) : Option (List (List K) × K) :=
  (concatSplines [(s1, T1), (s2, T2)] none).bind fun spl => (refitAll (T1 + T2) s1 spl).map fun cs => (cs, T1 + T2)

end Model

/-! ## Lemmas -/

/-- Polynomials are splines. -/
theorem poly_spline {b : Basis K} (hb : b.Clamped) (Q : K[X]) (hQ : Q.natDegree ≤ b.degree) :
    ∃ t : BSpline K, t.basis = b ∧ t.WF ∧ ∀ x, b.k 0 ≤ x → x ≤ b.k b.len → t.eval x = Q.eval x := by
  obtain ⟨t, rfl, ht, h⟩ := curry_schoenberg hb (fun _ => Q) (fun _ => hQ) (fun _ _ _ _ _ _ _ => by simp)
  refine ⟨t, rfl, ht, fun x h0 h1 => ?_⟩
  have hlast : t.basis.k t.basis.len ∈ t.basis.knots := k_mem hb _
  have hst : t.basis.k 0 < t.basis.k t.basis.len := by
    have := hb.start.trans_le (hb.mono (show t.basis.degree + 1 ≤ t.basis.len from hb.lt_len))
    rwa [hb.k_degree] at this
  rcases eq_or_lt_of_le h0 with e | l
  · set S := t.basis.knots.toFinset.filter fun y => t.basis.k 0 < y with hS
    have hne : S.Nonempty := ⟨_, by rw [hS, Finset.mem_filter, List.mem_toFinset]; exact ⟨hlast, hst⟩⟩
    obtain ⟨m1, m2⟩ := Finset.mem_filter.1 (S.min'_mem hne)
    rw [← e, eval_polyAt_first hb ht (y := S.min' hne) m2 (fun u hu hc => absurd hc.2 (not_lt.2 (S.min'_le u (by
      rw [hS, Finset.mem_filter, List.mem_toFinset]; exact ⟨hu, hc.1⟩)))) (S.min'_le _ (by
      rw [hS, Finset.mem_filter, List.mem_toFinset]; exact ⟨hlast, hst⟩)), h _ (List.mem_toFinset.1 m1) m2]
  · set S := t.basis.knots.toFinset.filter fun y => x ≤ y with hS
    have hne : S.Nonempty := ⟨_, by rw [hS, Finset.mem_filter, List.mem_toFinset]; exact ⟨hlast, h1⟩⟩
    obtain ⟨m1, m2⟩ := Finset.mem_filter.1 (S.min'_mem hne)
    rw [eval_polyAt hb ht (y := S.min' hne) l m2 (S.min'_le _ (by
      rw [hS, Finset.mem_filter, List.mem_toFinset]; exact ⟨hlast, h1⟩)) (fun u hu hc => absurd hc.2 (not_lt.2 (S.min'_le u (by
      rw [hS, Finset.mem_filter, List.mem_toFinset]; exact ⟨hu, hc.1⟩)))), h _ (List.mem_toFinset.1 m1) (l.trans_le m2)]

theorem shiftEnds_length (g : List K) : (shiftEnds g).length = g.length := by simp [shiftEnds]

theorem greville_length (b : Basis K) : b.greville.length = b.len := by simp [Basis.greville]

/-- The coefficients are found; the values at the points are right, and no other spline has them. -/
theorem refit_spec {b : Basis K} (hb : b.Clamped) (hd : 1 ≤ b.degree) (hm : b.Conts) (q : BSpline K) :
    ∃ c, refit b q = some c ∧ (⟨b, c⟩ : BSpline K).WF ∧
      (∀ x ∈ shiftEnds b.greville, (⟨b, c⟩ : BSpline K).eval x = q.eval x) ∧
      ∀ t : BSpline K, t.basis = b → t.WF → (∀ x ∈ shiftEnds b.greville, t.eval x = q.eval x) → t = ⟨b, c⟩ := by
  cases hc : npSolveV (concatA b) (fun r => q.eval ((shiftEnds b.greville).getD r 0)) with
  | none => unfold npSolveV at hc; rw [if_neg (concatA_det hb hd hm)] at hc; cases hc
  | some c =>
    obtain ⟨h1, h2⟩ := npSolveV_spec hc
    have hl : (shiftEnds b.greville).length = b.len := by rw [shiftEnds_length, greville_length]
    have hev : ∀ (q : BSpline K), q.basis = b → q.WF → ∀ r : Fin b.len,
        (concatA b).mulVec (fun i => q.coeffs.getD i 0) r = q.eval ((shiftEnds b.greville).getD r 0) := by
      intro q hq hw r
      rw [BSpline.eval_eq hw, hq, Finset.sum_range]
      unfold Matrix.mulVec dotProduct concatA
      exact Finset.sum_congr rfl fun i _ => mul_comm _ _
    have hw : (BSpline.mk b (List.ofFn c)).WF := by simp [BSpline.WF]
    have hcc : (fun i : Fin b.len => (List.ofFn c).getD i 0) = c := by
      funext i
      rw [List.getD_eq_getElem _ _ (by simp), List.getElem_ofFn]
    refine ⟨List.ofFn c, by rw [refit, hc, Option.map_some], hw, ?_, ?_⟩
    · intro x hx
      obtain ⟨i, hi, rfl⟩ := List.mem_iff_getElem.1 hx
      have := hev ⟨b, List.ofFn c⟩ rfl hw ⟨i, by omega⟩
      rw [hcc, h1] at this
      dsimp only at this
      rw [List.getD_eq_getElem _ _ hi] at this
      exact this.symm
    · intro t hb' hw' h
      obtain ⟨tb, tc⟩ := t
      obtain rfl : tb = b := hb'
      have e : (fun i : Fin tb.len => tc.getD i 0) = c := by
        refine h2 _ (funext fun r => ?_)
        rw [hev ⟨tb, tc⟩ rfl hw' r]
        exact h _ (by rw [List.getD_eq_getElem _ _ (by omega)]; exact List.getElem_mem _)
      have hw' : tc.length = tb.len := hw'
      congr 1
      refine List.ext_getElem (by simp [hw']) fun i u v => ?_
      have := congrFun e ⟨i, by omega⟩
      dsimp only at this
      rw [List.getD_eq_getElem _ _ u] at this
      rw [List.getElem_ofFn]
      exact this

theorem scale_conts {b : Basis K} (hb : b.Clamped) (hm : b.Conts) {T : K} (hT : 0 < T) : (b.scale T 0).Conts := by
  intro j h1 h2
  have hlen : (b.scale T 0).len = b.len := by simp [Basis.len, Basis.scale]
  have hk := scale_k hb T 0
  show (b.scale T 0).k j < (b.scale T 0).k (j + b.degree)
  rw [hk, hk]
  have := hm j h1 (hlen ▸ h2)
  gcongr

theorem scale_greville {b : Basis K} (hb : b.Clamped) (T : K) : (b.scale T 0).greville = b.greville.map (· * T) := by
  have hlen : (b.scale T 0).len = b.len := by simp [Basis.len, Basis.scale]
  refine List.ext_getElem (by simp [greville_length, hlen]) fun i u v => ?_
  rw [greville_length] at u
  have h1 := greville_getD (b := b.scale T 0) (i := i) u
  have h2 := greville_getD (b := b) (i := i) (hlen ▸ u)
  rw [List.getD_eq_getElem _ _ (by rwa [greville_length])] at h1
  rw [List.getD_eq_getElem _ _ (by rw [greville_length]; exact hlen ▸ u)] at h2
  rw [h1, List.getElem_map, h2]
  change (∑ r ∈ range b.degree, (b.scale T 0).k (i + 1 + r)) / (b.degree : K) = _
  rw [div_mul_eq_mul_div, Finset.sum_mul]
  congr 1
  exact Finset.sum_congr rfl fun r _ => by rw [scale_k hb, add_zero]

theorem shiftEnds_map (g : List K) (T : K) : shiftEnds (g.map (· * T)) = (shiftEnds g).map (· * T) := by
  have hg : ∀ (l : List K) (i : ℕ), (l.map (· * T)).getD i 0 = l.getD i 0 * T := by
    intro l i
    simp only [List.getD_eq_getElem?_getD, List.getElem?_map]
    cases l[i]? <;> simp
  have hs : ∀ (l : List K) (i : ℕ) (v : K), (l.map (· * T)).set i (v * T) = (l.set i v).map (· * T) := by
    intro l i v; simp
  unfold shiftEnds
  dsimp only
  rw [List.length_map]
  have e : (g.map (· * T)).getD 0 0 + ((g.map (· * T)).getD 1 0 - (g.map (· * T)).getD 0 0) * (1 / 100) =
      (g.getD 0 0 + (g.getD 1 0 - g.getD 0 0) * (1 / 100)) * T := by rw [hg, hg]; ring
  rw [e, hs]
  generalize g.set 0 (g.getD 0 0 + (g.getD 1 0 - g.getD 0 0) * (1 / 100)) = l
  rw [hg, hg, ← hs]
  congr 1
  ring

/-- The scaled basis, and a spline on it. -/
theorem scale_facts {d : ℕ} {s : BSpline K} (hs : Segment d s) {T : K} (hT : 0 < T) (c : List K)
    (hc : (⟨s.basis.scale T 0, c⟩ : BSpline K).WF) :
    (∀ x, (⟨s.basis.scale T 0, c⟩ : BSpline K).eval (x * T) = (⟨s.basis, c⟩ : BSpline K).eval x) ∧
      (s.basis.scale T 0).k 0 = 0 ∧ (s.basis.scale T 0).k (s.basis.scale T 0).len = T ∧ (⟨s.basis, c⟩ : BSpline K).WF := by
  have hlen : (s.basis.scale T 0).len = s.basis.len := by simp [Basis.len, Basis.scale]
  refine ⟨fun x => ?_, by rw [scale_k hs.clamped, hs.first]; ring, by rw [hlen, scale_k hs.clamped, hs.last]; ring, ?_⟩
  · have := C07_scale (⟨s.basis, c⟩ : BSpline K) hs.clamped T 0 hT x
    rw [add_zero] at this
    exact this
  · have : c.length = (s.basis.scale T 0).len := hc
    rw [hlen] at this
    exact this

/-- All components. -/
theorem refitAll_spec {d : ℕ} (hd : 1 ≤ d) {T : K} (hT : 0 < T) (ss qs : List (BSpline K)) (hl : qs.length = ss.length)
    (hs : ∀ s ∈ ss, Segment d s ∧ s.basis.Conts) :
    ∃ cs, refitAll T ss qs = some cs ∧ cs.length = ss.length ∧ ∀ i (h1 : i < ss.length) (h2 : i < qs.length) (h3 : i < cs.length),
      refit (ss[i].basis.scale T 0) qs[i] = some cs[i] := by
  induction ss generalizing qs with
  | nil => exact ⟨[], rfl, rfl, fun i h1 => absurd h1 (by simp)⟩
  | cons s ss ih =>
    cases qs with
    | nil => simp at hl
    | cons q qs =>
      obtain ⟨a1, a2⟩ := hs s (by simp)
      obtain ⟨c, hc, -⟩ := refit_spec (scale_clamped a1.clamped hT 0) (by change 1 ≤ s.basis.degree; rw [a1.degree]; exact hd)
        (scale_conts a1.clamped a2 hT) q
      obtain ⟨cs, e1, e2, e3⟩ := ih qs (by simpa using hl) fun s h => hs s (by simp [h])
      refine ⟨c :: cs, by simp [refitAll, hc, e1], by simp [e2], fun i h1 h2 h3 => ?_⟩
      cases i with
      | zero => exact hc
      | succ i => exact e3 i (by simpa using h1) (by simpa using h2) (by simpa using h3)

/-- The number of knots is found from the first component. -/
theorem concatSplines_first {s t : BSpline K} {ss ts : List (BSpline K)} {T1 T2 : K} {n : ℕ}
    (h : nInsert (s.scale T1 0) t T2 T1 = some n) :
    concatSplines [(s :: ss, T1), (t :: ts, T2)] none = concatSplines [(s :: ss, T1), (t :: ts, T2)] (some n) := by
  simp only [concatSplines, concatGo, List.map_cons, joinAll, getInsert, h]

/-- What the combined guess is: the values of the connection at the evaluation points. -/
theorem combined_spec {d m : ℕ} (hd : 1 ≤ d) (s1 s2 : List (BSpline K)) (T1 T2 : K) (hT1 : 0 < T1) (hT2 : 0 < T2)
    (h1 : s1.length = m) (hs1 : ∀ s ∈ s1, Segment d s ∧ s.basis.Conts) (spl : List (BSpline K))
    (hspl : concatSplines [(s1, T1), (s2, T2)] none = some spl) (hl : spl.length = m) :
    ∃ cs, combined s1 s2 T1 T2 = some (cs, T1 + T2) ∧ cs.length = m ∧
      ∀ i (hi : i < s1.length) (hc : i < cs.length) (hq : i < spl.length), (⟨s1[i].basis, cs[i]⟩ : BSpline K).WF ∧
        (∀ τ ∈ shiftEnds s1[i].basis.greville, (0 < τ ∧ τ < 1) ∧
          (⟨s1[i].basis, cs[i]⟩ : BSpline K).eval τ = spl[i].eval (τ * (T1 + T2))) ∧
        ∀ Q : K[X], Q.natDegree ≤ d → (∀ τ ∈ shiftEnds s1[i].basis.greville, spl[i].eval (τ * (T1 + T2)) = Q.eval (τ * (T1 + T2))) →
          ∀ τ, 0 ≤ τ → τ ≤ 1 → (⟨s1[i].basis, cs[i]⟩ : BSpline K).eval τ = Q.eval (τ * (T1 + T2)) := by
  have hT : 0 < T1 + T2 := by linarith
  obtain ⟨cs, e1, e2, e3⟩ := refitAll_spec hd hT s1 spl (by omega) hs1
  refine ⟨cs, by rw [combined, hspl, Option.bind_some, e1, Option.map_some], by omega, fun i hi hc hq => ?_⟩
  obtain ⟨a1, a2⟩ := hs1 _ (List.getElem_mem hi)
  have hdeg : 1 ≤ s1[i].basis.degree := by rw [a1.degree]; exact hd
  obtain ⟨c, f1, f2, f3, f4⟩ := refit_spec (scale_clamped a1.clamped hT 0) hdeg (scale_conts a1.clamped a2 hT) spl[i]
  rw [e3 i hi hq hc, Option.some.injEq] at f1
  subst f1
  obtain ⟨g1, g2, g3, g4⟩ := scale_facts a1 hT _ f2
  have hpts : ∀ τ ∈ shiftEnds s1[i].basis.greville, τ * (T1 + T2) ∈ shiftEnds (s1[i].basis.scale (T1 + T2) 0).greville := by
    intro τ hτ
    rw [scale_greville a1.clamped, shiftEnds_map]
    exact List.mem_map.2 ⟨τ, hτ, rfl⟩
  have hin : ∀ τ ∈ shiftEnds s1[i].basis.greville, 0 < τ ∧ τ < 1 := by
    intro τ hτ
    obtain ⟨j, hj, rfl⟩ := List.mem_iff_getElem.1 hτ
    obtain ⟨-, hp⟩ := shiftEnds_points a1.clamped hdeg a2
    have hj' : j < s1[i].basis.len := by rwa [shiftEnds_length, greville_length] at hj
    obtain ⟨p1, p2, -⟩ := hp j hj'
    rw [List.getD_eq_getElem _ _ hj] at p1 p2
    rw [a1.first] at p1
    rw [a1.last] at p2
    exact ⟨p1, p2⟩
  refine ⟨g4, fun τ hτ => ⟨hin τ hτ, ?_⟩, fun Q hQ h τ h0 h1' => ?_⟩
  · rw [← g1, f3 _ (hpts τ hτ)]
  · obtain ⟨t, t1, t2, t3⟩ := poly_spline (scale_clamped a1.clamped hT 0) Q (by
      change _ ≤ s1[i].basis.degree; rw [a1.degree]; exact hQ)
    rw [g2, g3] at t3
    have := f4 t t1 t2 fun x hx => by
      rw [scale_greville a1.clamped, shiftEnds_map, List.mem_map] at hx
      obtain ⟨τ, hτ, rfl⟩ := hx
      obtain ⟨u, v⟩ := hin τ hτ
      rw [h τ hτ]
      exact t3 _ (by positivity) (by nlinarith)
    rw [← g1, ← this]
    exact t3 _ (by positivity) (by nlinarith)

/-! ## Properties -/

/-- C185: when a frame is left, the guess for the next one is made from the plan for both, and it is always found: it has the basis of the
vehicle and the motion time of both, and at the evaluation points, as many as there are coefficients and all strictly between start and
end, the vehicle is where it was planned to be at that time.  If the plan is one polynomial of time (for example a line), the guess
is the plan at all times.

Partial: the number of knots `n`, found from the first component, is right for all of them (at the joint the derivatives up to order
`d - n` agree), and the joint is not an evaluation point; see `C185_joint_violated`. -/
theorem C185_partial (d n m : ℕ) (hn : 1 ≤ n) (hnd : n ≤ d) (s1 s2 : List (BSpline K)) (T1 T2 : K) (hT1 : 0 < T1) (hT2 : 0 < T2)
    (hm : 1 ≤ m) (h1 : s1.length = m) (h2 : s2.length = m) (hs1 : ∀ s ∈ s1, Segment d s ∧ s.basis.Conts)
    (hs2 : ∀ s ∈ s2, Segment d s ∧ s.basis.Conts)
    (hfirst : nInsert (s1[0].scale T1 0) s2[0] T2 T1 = some n)
    (hfit : ∀ i (hi : i < m), Fits (d - n) (s1[i], T1) (s2[i], T2))
    (hcl : ∀ i (hi : i < m), T1 ∉ shiftEnds (totalBasis (s1[i].scale T1 0).basis s2[i].basis T2 n).greville) :
    ∃ cs, combined s1 s2 T1 T2 = some (cs, T1 + T2) ∧ cs.length = m ∧
      ∀ i (hi : i < m) (hc : i < cs.length), cs[i].length = s1[i].basis.len ∧
        (shiftEnds s1[i].basis.greville).length = s1[i].basis.len ∧
        (∀ τ ∈ shiftEnds s1[i].basis.greville, (0 < τ ∧ τ < 1) ∧
          (⟨s1[i].basis, cs[i]⟩ : BSpline K).eval τ = path [(s1[i], T1), (s2[i], T2)] (τ * (T1 + T2))) ∧
        ∀ Q : K[X], Q.natDegree ≤ d → (∀ x, 0 ≤ x → x ≤ T1 + T2 → path [(s1[i], T1), (s2[i], T2)] x = Q.eval x) →
          ∀ τ, 0 ≤ τ → τ ≤ 1 → (⟨s1[i].basis, cs[i]⟩ : BSpline K).eval τ = Q.eval (τ * (T1 + T2)) := by
  have hcomp : ∀ i (hi : i < m), comp i [(s1, T1), (s2, T2)] = [(s1[i], T1), (s2[i], T2)] := by
    intro i hi
    simp only [comp, List.map_cons, List.map_nil]
    rw [List.getD_eq_getElem _ _ (by omega), List.getD_eq_getElem _ _ (by omega)]
  obtain ⟨spl, e1, e2, e3⟩ := C121_smooth_partial d n m hn hnd [(s1, T1), (s2, T2)] (by simp) (by
      intro a ha
      simp only [List.mem_cons, List.not_mem_nil, or_false] at ha
      rcases ha with rfl | rfl
      · exact ⟨h1, hs1, hT1⟩
      · exact ⟨h2, hs2, hT2⟩) (by
      intro i hi
      rw [hcomp i hi]
      exact List.isChain_cons_cons.2 ⟨hfit i hi, List.isChain_singleton _⟩) (by
      intro i hi
      rw [hcomp i hi]
      exact ⟨hcl i hi, trivial⟩)
  have hnone : concatSplines [(s1, T1), (s2, T2)] none = some spl := by
    rw [← e1]
    cases s1 with
    | nil => simp at h1; omega
    | cons a s1 =>
      cases s2 with
      | nil => simp at h2; omega
      | cons b s2 => exact concatSplines_first hfirst
  obtain ⟨cs, f1, f2, f3⟩ := combined_spec (hn.trans hnd) s1 s2 T1 T2 hT1 hT2 h1 hs1 spl hnone e2
  refine ⟨cs, f1, f2, fun i hi hc => ?_⟩
  obtain ⟨g1, g2, g3⟩ := f3 i (by omega) hc (by omega)
  obtain ⟨-, -, p3⟩ := e3 i (by omega)
  rw [hcomp i hi] at p3
  have hsum : (List.map Prod.snd [(s1, T1), (s2, T2)]).sum = T1 + T2 := by simp
  rw [hsum] at p3
  have hp : ∀ τ ∈ shiftEnds s1[i].basis.greville, spl[i].eval (τ * (T1 + T2)) = path [(s1[i], T1), (s2[i], T2)] (τ * (T1 + T2)) := by
    intro τ hτ
    obtain ⟨⟨u, v⟩, -⟩ := g2 τ hτ
    have hT : 0 < T1 + T2 := by linarith
    exact p3 _ (by positivity) (by nlinarith)
  refine ⟨g1, by rw [shiftEnds_length, greville_length], fun τ hτ => ?_, fun Q hQ h => g3 Q hQ fun τ hτ => ?_⟩
  · obtain ⟨u, v⟩ := g2 τ hτ
    exact ⟨u, by rw [v, hp τ hτ]⟩
  · obtain ⟨⟨u, v⟩, -⟩ := g2 τ hτ
    have hT : 0 < T1 + T2 := by linarith
    rw [hp τ hτ]
    exact h _ (by positivity) (by nlinarith)

/-- C185 fails for every plan that is continuous at the joint but no more (as the test sees it, which takes two velocities zero for
different), if the joint is an evaluation point of the new frame, as it is for two quadratics of the same duration: there the guess is at
twice the position. -/
theorem C185_joint_violated (d : ℕ) (hd : 1 ≤ d) (s1 s2 : BSpline K) (T1 T2 : K) (hT1 : 0 < T1) (hT2 : 0 < T2)
    (hs1 : Segment d s1 ∧ s1.basis.Conts) (hs2 : Segment d s2 ∧ s2.basis.Conts)
    (hfirst : nInsert (s1.scale T1 0) s2 T2 T1 = some d) (hcont : s2.eval 0 = s1.eval 1)
    (hτ : T1 / (T1 + T2) ∈ shiftEnds s1.basis.greville) :
    ∃ c, combined [s1] [s2] T1 T2 = some ([c], T1 + T2) ∧
      (⟨s1.basis, c⟩ : BSpline K).eval (T1 / (T1 + T2)) = 2 * path [(s1, T1), (s2, T2)] T1 := by
  obtain ⟨cs, ws, ds, u0, u1, es⟩ := hs1.1.scaled hT1 0
  rw [zero_add] at u1
  have hl : (s1.scale T1 0).basis.knots.getLastD 0 = T1 := by rw [getLastD_eq_k cs, u1]
  obtain ⟨q, hq⟩ := C121_defined d d hd le_rfl (s1.scale T1 0) s2 cs ds hs2.1 T2 T1 hT2 hl (scale_conts hs1.1.clamped hs1.2 hT1) hs2.2
  have hval : s1.eval 1 = (s1.scale T1 0).eval T1 := by rw [es, sub_zero, div_self hT1.ne']
  have h2 := C121_continuous_violated d hd (s1.scale T1 0) s2 cs ds hs2.1 T2 T1 hT2 hl (by rw [hcont, hval]) q hq
  have hspl : concatSplines [([s1], T1), ([s2], T2)] none = some [q] := by
    rw [concatSplines_first hfirst]
    simp only [concatSplines, concatGo, List.map_cons, List.map_nil, joinAll, getInsert]
    rw [if_neg (by rw [ds, hs2.1.degree]; simp)]
    simp [hq]
  obtain ⟨cs', f1, f2, f3⟩ := combined_spec hd [s1] [s2] T1 T2 hT1 hT2 (m := 1) rfl (by simpa using hs1) [q] hspl rfl
  obtain ⟨c, rfl⟩ := List.length_eq_one_iff.1 f2
  refine ⟨c, f1, ?_⟩
  obtain ⟨-, g2, -⟩ := f3 0 (by simp) (by simp) (by simp)
  have hT : T1 + T2 ≠ 0 := by linarith
  have := (g2 _ hτ).2
  simp only [List.getElem_cons_zero] at this
  rw [this, div_mul_cancel₀ _ hT, h2, path, if_pos le_rfl, div_self hT1.ne', hval]

/-- C185 fails at the start and at the end: a vehicle that is at `1` and has planned a steady motion to `2` and an accelerated one to `4`, with
one second for each, gets a guess that starts at `1.005` instead, as the first evaluation point is moved inwards. -/
theorem C185_start_violated : ∃ c : List ℚ,
    combined [(⟨quadB, [1, 3/2, 2]⟩ : BSpline ℚ)] [⟨quadB, [2, 5/2, 4]⟩] 1 1 = some ([c], 2) ∧
      path [((⟨quadB, [1, 3/2, 2]⟩ : BSpline ℚ), 1), (⟨quadB, [2, 5/2, 4]⟩, 1)] 0 = 1 ∧ (⟨quadB, c⟩ : BSpline ℚ).eval 0 = 1 + 1 / 200 := by
  obtain ⟨cs, h1, h2, h3⟩ := C185_partial 2 1 1 le_rfl (by norm_num) [(⟨quadB, [1, 3/2, 2]⟩ : BSpline ℚ)] [⟨quadB, [2, 5/2, 4]⟩] 1 1
    one_pos one_pos le_rfl rfl rfl (by simpa using ⟨quad_segment rfl, quadB_conts⟩) (by simpa using ⟨quad_segment rfl, quadB_conts⟩)
    (by decide +kernel) (by
      intro i hi
      obtain rfl : i = 0 := by omega
      simp only [List.getElem_cons_zero]
      refine ⟨X + C 2, X ^ 2 + X + C 2, 1, one_pos, fun x u v => ?_, fun x u v => ?_, fun j hj => ?_⟩
      · dsimp only
        rw [quad_bern (by linarith) (by linarith)]
        simp; ring
      · dsimp only
        rw [quad_bern (by linarith) (by linarith)]
        simp; ring
      · interval_cases j <;> simp) (by
      intro i hi
      obtain rfl : i = 0 := by omega
      simp only [List.getElem_cons_zero]
      decide +kernel)
  obtain ⟨c, rfl⟩ := List.length_eq_one_iff.1 h2
  refine ⟨c, by norm_num at h1; exact h1, by decide +kernel, ?_⟩
  obtain ⟨l1, -, h4, -⟩ := h3 0 (by simp) (by simp)
  simp only [List.getElem_cons_zero] at l1 h4
  have l1 : c.length = 3 := l1
  obtain ⟨c0, c1, c2, rfl⟩ := List.length_eq_three.1 l1
  have v0 := (h4 (1 / 200) (by decide +kernel)).2
  have v1 := (h4 (1 / 2) (by decide +kernel)).2
  have v2 := (h4 (199 / 200) (by decide +kernel)).2
  rw [quad_bern (by norm_num) (by norm_num), path, if_pos (by norm_num), quad_bern (by norm_num) (by norm_num)] at v0
  rw [quad_bern (by norm_num) (by norm_num)] at v1
  rw [quad_bern (by norm_num) (by norm_num), path, if_neg (by norm_num), path, if_pos (by norm_num),
    quad_bern (by norm_num) (by norm_num)] at v2
  have e1 : path [((⟨quadB, [1, 3/2, 2]⟩ : BSpline ℚ), 1), (⟨quadB, [2, 5/2, 4]⟩, 1)] (1 / 2 * (1 + 1)) = 2 := by decide +kernel
  rw [e1] at v1
  have e0 : (⟨quadB, [c0, c1, c2]⟩ : BSpline ℚ).eval 0 = c0 := by
    exact (C03_endpoints (⟨quadB, [c0, c1, c2]⟩ : BSpline ℚ) quadB_clamped rfl (by change quadB.k (quadB.len - 1) < quadB.k quadB.len; decide +kernel)).1
  rw [e0]
  linarith

/-! ### Examples -/

/-- Two plans that stop at the joint. -/
example : ∃ c, combined [(⟨quadB, [1, 2, 2]⟩ : BSpline ℚ)] [⟨quadB, [2, 2, 3]⟩] 1 1 = some ([c], 1 + 1) ∧
    (⟨quadB, c⟩ : BSpline ℚ).eval (1 / (1 + 1)) = 2 * path [((⟨quadB, [1, 2, 2]⟩ : BSpline ℚ), 1), (⟨quadB, [2, 2, 3]⟩, 1)] 1 :=
  C185_joint_violated 2 (by norm_num) _ _ 1 1 one_pos one_pos ⟨quad_segment rfl, quadB_conts⟩ ⟨quad_segment rfl, quadB_conts⟩
    (by decide +kernel) (by decide +kernel) (by decide +kernel)

/-- A line through both frames. -/
example : ∃ c, combined [(⟨quadB, [1, 3/2, 2]⟩ : BSpline ℚ)] [⟨quadB, [2, 5/2, 3]⟩] 1 1 = some ([c], 2) := by
  obtain ⟨cs, h1, h2, -⟩ := C185_partial 2 1 1 le_rfl (by norm_num) [(⟨quadB, [1, 3/2, 2]⟩ : BSpline ℚ)] [⟨quadB, [2, 5/2, 3]⟩] 1 1
    one_pos one_pos le_rfl rfl rfl (by simpa using ⟨quad_segment rfl, quadB_conts⟩) (by simpa using ⟨quad_segment rfl, quadB_conts⟩)
    (by decide +kernel) (by
      intro i hi
      obtain rfl : i = 0 := by omega
      exact line_fits _ _ _ _ _ (by norm_num) (by norm_num) (by norm_num) (by norm_num)) (by
      intro i hi
      obtain rfl : i = 0 := by omega
      simp only [List.getElem_cons_zero]
      decide +kernel)
  obtain ⟨c, rfl⟩ := List.length_eq_one_iff.1 h2
  exact ⟨c, by norm_num at h1; exact h1⟩

end Verif.Spline
