import Mathlib.Algebra.Order.Field.Basic
import Mathlib.Algebra.BigOperators.Group.List.Basic
import Mathlib.Data.List.Sort
import Mathlib.Data.Rat.Cast.Order
import Mathlib.Analysis.Real.Sqrt
import Mathlib.Tactic.Linarith
import Mathlib.Tactic.FieldSimp
import Mathlib.Tactic.LinearCombination

/-! # The initial guess for a new frame (C144) -/

set_option linter.unusedSectionVars false

namespace Verif.Frames.Guess

variable {K : Type} [Field K] [LinearOrder K] [IsStrictOrderedRing K]

/-! ## Model -/

/-- `l_x`, schedulerproblem.py:581-585. -/
def total : List K → K
  | a :: b :: r => (b - a) + total (b :: r)
  | _ => 0

/-- The times of the waypoints behind the first, schedulerproblem.py:604-616, when `l` is not zero. -/
def timesFrom (l acc : K) : List K → List K
  | a :: b :: r => (acc + (b - a) / l) :: timesFrom l (acc + (b - a) / l) (b :: r)
  | _ => []

/-- `time_x`, schedulerproblem.py:601-616: in all branches it depends only on `l_x`, and all times are zero if `l_x` is. -/
def times (l : K) (xs : List K) : List K := if l = 0 then xs.map fun _ => 0 else 0 :: timesFrom l 0 xs

/-- schedulerproblem.py:618-625. -/
def snap (t : K) : K := if 1 - t < 1 / 100000 then 1 else t

/-- `numpy.interp`, on which `interp1d` relies, for a time between the first and the last one. -/
def npInterp : List (K × K) → K → K
  | p :: q :: r, t => if q.1 ≤ t then npInterp (q :: r) t else if p.1 = t then p.2 else (q.2 - p.2) / (q.1 - p.1) * (t - p.1) + p.2
  | [p], _ => p.2
  | [], _ => 1

/-- `interp1d(.., kind='linear', bounds_error=False, fill_value=1.)`, schedulerproblem.py:644-645: the points are sorted by time
(stable), outside of the times the value is one. -/
def interp (ts xs : List K) (t : K) : K :=
  let ps := (ts.zip xs).insertionSort fun p q => p.1 ≤ q.1
  if t < (ps.headD (0, 1)).1 ∨ (ps.getLastD (0, 1)).1 < t then 1 else npInterp ps t

/-- schedulerproblem.py:653-654.  `none`: less than three coefficients (`IndexError`). -/
def stopAtEnd {α : Type} (cs : List α) : Option (List α) :=
  match cs.getLast? with
  | some z => if cs.length < 3 then none else some (cs.take (cs.length - 3) ++ [z, z, z])
  | none => none

/-- The coefficients for a holonomic vehicle, schedulerproblem.py:576-654, with the Greville points `gs` of its basis.  `none`: an
exception. -/
def guess (gs : List K) (w : List (K × K)) : Option (List (K × K)) :=
  let xs := w.map (·.1)
  let ys := w.map (·.2)
  let tx := (times (total xs) xs).map snap
  let ty := (times (total ys) ys).map snap
  if (tx.all fun t => t = 0) ∧ (ty.all fun t => t = 0) then none
  else
    let tx' := if tx.all fun t => t = 0 then ty else tx
    let ty' := if tx.all fun t => t = 0 then ty else if ty.all fun t => t = 0 then tx else ty
    stopAtEnd (gs.map fun g => (interp tx' xs g, interp ty' ys g))

/-- `motion_time`, schedulerproblem.py:587-591. -/
noncomputable def motionTime (vmax : ℝ) (w : List (ℝ × ℝ)) : ℝ :=
  Real.sqrt (total (w.map (·.1)) ^ 2 + total (w.map (·.2)) ^ 2) / (vmax * 0.5)

/-! ## Specification -/

/-- The point at the fraction `f` of the way from `p` to `q`. -/
def Spec.between (p q : K × K) (f : K) : K × K := (p.1 + f * (q.1 - p.1), p.2 + f * (q.2 - p.2))

/-- `z` lies on the path along the waypoints. -/
def Spec.OnPath : List (K × K) → K × K → Prop
  | p :: q :: r, z => (∃ f, 0 ≤ f ∧ f ≤ 1 ∧ z = Spec.between p q f) ∨ Spec.OnPath (q :: r) z
  | [p], z => z = p
  | [], _ => False

/-- The length of the path along the waypoints. -/
noncomputable def Spec.pathLength : List (ℝ × ℝ) → ℝ
  | p :: q :: r => Real.sqrt ((q.1 - p.1) ^ 2 + (q.2 - p.2) ^ 2) + Spec.pathLength (q :: r)
  | _ => 0

/-- The coordinates stay between the first and the last, and keep a small distance to the last or are equal to it. -/
def Spec.Within (a b : K) (xs : List K) : Prop :=
  ∀ x ∈ xs, ∃ f, 0 ≤ f ∧ (f ≤ 1 - 1 / 100000 ∨ f = 1) ∧ x = a + f * (b - a)

/-! ## Lemmas -/

theorem total_eq (a : K) (r : List K) : total (a :: r) = (a :: r).getLast (List.cons_ne_nil _ _) - a := by
  induction r generalizing a with
  | nil => simp [total]
  | cons b r ih => rw [total, ih]; simp

theorem timesFrom_eq (l acc a : K) (r : List K) : timesFrom l acc (a :: r) = r.map fun x => acc + (x - a) / l := by
  induction r generalizing a acc with
  | nil => rfl
  | cons b r ih =>
    rw [timesFrom, ih, List.map_cons]
    congr 1
    apply List.map_congr_left
    intro x _; ring

/-- The times when the displacement is not zero. -/
theorem times_eq (l a : K) (r : List K) (hl : l ≠ 0) : times l (a :: r) = (a :: r).map fun x => (x - a) / l := by
  unfold times
  rw [if_neg hl, timesFrom_eq]
  simp

theorem snap_eq (t : K) (h : t ≤ 1 - 1 / 100000 ∨ t = 1) : snap t = t := by
  unfold snap
  rcases h with h | h
  · rw [if_neg]; push Not; linarith
  · rw [h]; simp

theorem npInterp_line (c l t : K) (ps : List (K × K)) (hne : ps ≠ []) (hp : ∀ p ∈ ps, p.2 = c + l * p.1) (h1 : (ps.head hne).1 ≤ t)
    (h2 : t ≤ (ps.getLast hne).1) : npInterp ps t = c + l * t := by
  induction ps with
  | nil => exact absurd rfl hne
  | cons p r ih =>
    cases r with
    | nil =>
      simp only [List.head_cons, List.getLast_singleton] at h1 h2
      rw [npInterp, hp p List.mem_cons_self, le_antisymm h1 h2]
    | cons q r =>
      rw [npInterp]
      simp only [List.head_cons] at h1
      split_ifs with h3 h4
      · exact ih (List.cons_ne_nil _ _) (fun p hp' => hp p (List.mem_cons_of_mem _ hp')) h3 (by simpa using h2)
      · rw [hp p List.mem_cons_self, h4]
      · rw [hp p List.mem_cons_self, hp q (List.mem_cons_of_mem _ List.mem_cons_self)]
        have : q.1 - p.1 ≠ 0 := by push Not at h3; exact (by linarith : (0 : K) < q.1 - p.1).ne'
        field_simp
        ring

theorem interp_line (c l t : K) (ts xs : List K) (hp : ∀ p ∈ ts.zip xs, p.2 = c + l * p.1) (h1 : ∃ p ∈ ts.zip xs, p.1 ≤ t)
    (h2 : ∃ p ∈ ts.zip xs, t ≤ p.1) : interp ts xs t = c + l * t := by
  set ps := (ts.zip xs).insertionSort fun p q => p.1 ≤ q.1 with hps
  have perm : ps.Perm (ts.zip xs) := List.perm_insertionSort _ _
  have hs : ps.Pairwise fun a b => a.1 ≤ b.1 := by
    have : Std.Total (fun a b : K × K => a.1 ≤ b.1) := ⟨fun a b => le_total _ _⟩
    have : IsTrans (K × K) (fun a b => a.1 ≤ b.1) := ⟨fun a b c h1 h2 => le_trans h1 h2⟩
    exact List.pairwise_insertionSort _ _
  obtain ⟨p, hpm, hpt⟩ := h1
  obtain ⟨q, hqm, hqt⟩ := h2
  have hne : ps ≠ [] := List.ne_nil_of_mem (perm.mem_iff.2 hpm)
  have hh : (ps.head hne).1 ≤ t := by
    obtain ⟨h, r, e⟩ := List.exists_cons_of_ne_nil hne
    have hp' := perm.mem_iff.2 hpm
    rw [e] at hs hp'
    simp only [e, List.head_cons]
    rcases List.mem_cons.1 hp' with rfl | h'
    · exact hpt
    · exact ((List.pairwise_cons.1 hs).1 p h').trans hpt
  have hl : t ≤ (ps.getLast hne).1 := by
    have e := List.dropLast_append_getLast hne
    have hq' := perm.mem_iff.2 hqm
    rw [← e] at hs hq'
    rcases List.mem_append.1 hq' with h' | h'
    · exact hqt.trans ((List.pairwise_append.1 hs).2.2 q h' _ (List.mem_singleton.2 rfl))
    · rw [List.mem_singleton] at h'; rw [← h']; exact hqt
  unfold interp
  simp only [← hps]
  have e1 : ps.headD (0, 1) = ps.head hne := by
    rw [List.headD_eq_head?_getD, List.head?_eq_some_head hne]; rfl
  have e2 : ps.getLastD (0, 1) = ps.getLast hne := by
    rw [List.getLastD_eq_getLast?, List.getLast?_eq_some_getLast hne]; rfl
  rw [e1, e2, if_neg (by push Not; exact ⟨hh, hl⟩)]
  exact npInterp_line c l t ps hne (fun p hp' => hp p (perm.mem_iff.1 hp')) hh hl

theorem times_length (l : K) (a : K) (r : List K) : (times l (a :: r)).length = (a :: r).length := by
  by_cases h : l = 0
  · unfold times; rw [if_pos h, List.length_map]
  · rw [times_eq l a r h, List.length_map]

/-- A coordinate that stays between its ends. -/
theorem own_times (a : K) (r : List K) (b : K) (hb : (a :: r).getLast (List.cons_ne_nil _ _) = b) (hab : b ≠ a)
    (hw : Spec.Within a b (a :: r)) :
    (times (total (a :: r)) (a :: r)).map snap = (a :: r).map fun x => (x - a) / (b - a) := by
  have hl : total (a :: r) = b - a := by rw [total_eq, hb]
  have h0 : b - a ≠ 0 := sub_ne_zero.2 hab
  rw [hl, times_eq _ _ _ h0, List.map_map]
  apply List.map_congr_left
  intro x hx
  obtain ⟨f, _, hf, e⟩ := hw x hx
  have : (x - a) / (b - a) = f := by rw [e]; field_simp; ring
  simp only [Function.comp, this]
  exact snap_eq f hf

theorem own_facts (a : K) (r : List K) (b : K) (hb : (a :: r).getLast (List.cons_ne_nil _ _) = b) (hab : b ≠ a)
    (ys : List K) (hlen : ys.length = (a :: r).length) :
    let ts := (a :: r).map fun x => (x - a) / (b - a)
    (∃ p ∈ ts.zip ys, p.1 ≤ 0) ∧ (∃ p ∈ ts.zip ys, 1 ≤ p.1) ∧ ¬ (ts.all fun t => t = 0) = true := by
  intro ts
  have h0 : b - a ≠ 0 := sub_ne_zero.2 hab
  have hlt : ts.length = ys.length := by rw [hlen]; simp [ts]
  have hm1 : (1 : K) ∈ ts := by
    refine List.mem_map.2 ⟨b, ?_, div_self h0⟩
    rw [← hb]; exact List.getLast_mem _
  have hm0 : (0 : K) ∈ ts := List.mem_map.2 ⟨a, List.mem_cons_self, by simp⟩
  have key : ∀ t ∈ ts, ∃ p ∈ ts.zip ys, p.1 = t := by
    intro t ht
    rw [← List.map_fst_zip (l₁ := ts) (l₂ := ys) hlt.le] at ht
    obtain ⟨p, hp, e⟩ := List.mem_map.1 ht
    exact ⟨p, hp, e⟩
  obtain ⟨p, hp, ep⟩ := key 0 hm0
  obtain ⟨q, hq, eq⟩ := key 1 hm1
  refine ⟨⟨p, hp, ep.le⟩, ⟨q, hq, eq.ge⟩, ?_⟩
  intro h
  rw [List.all_eq_true] at h
  have := h 1 hm1
  simp at this

theorem interp_own (a : K) (r : List K) (b : K) (hb : (a :: r).getLast (List.cons_ne_nil _ _) = b) (hab : b ≠ a) (g : K)
    (h0 : 0 ≤ g) (h1 : g ≤ 1) :
    interp ((a :: r).map fun x => (x - a) / (b - a)) (a :: r) g = a + g * (b - a) := by
  have hne : b - a ≠ 0 := sub_ne_zero.2 hab
  obtain ⟨⟨p, hp, ep⟩, ⟨q, hq, eq⟩, _⟩ := own_facts a r b hb hab (a :: r) rfl
  rw [interp_line a (b - a) g _ _ ?_ ⟨p, hp, ep.trans h0⟩ ⟨q, hq, h1.trans eq⟩]
  · ring
  · intro p hp
    have : ∀ xs : List K, ∀ p ∈ (xs.map fun x => (x - a) / (b - a)).zip xs, p.2 = a + (b - a) * p.1 := by
      intro xs
      induction xs with
      | nil => intro p hp; simp at hp
      | cons x xs ih =>
        intro p hp
        rw [List.map_cons, List.zip_cons_cons] at hp
        rcases List.mem_cons.1 hp with rfl | hp
        · simp only; field_simp; ring
        · exact ih p hp
    exact this _ p hp

theorem interp_const (a : K) (r : List K) (b : K) (hb : (a :: r).getLast (List.cons_ne_nil _ _) = b) (hab : b ≠ a) (g c : K)
    (h0 : 0 ≤ g) (h1 : g ≤ 1) (ys : List K) (hlen : ys.length = (a :: r).length) (hc : ∀ y ∈ ys, y = c) :
    interp ((a :: r).map fun x => (x - a) / (b - a)) ys g = c := by
  obtain ⟨⟨p, hp, ep⟩, ⟨q, hq, eq⟩, _⟩ := own_facts a r b hb hab ys hlen
  rw [interp_line c 0 g _ _ ?_ ⟨p, hp, ep.trans h0⟩ ⟨q, hq, h1.trans eq⟩]
  · ring
  · intro p hp
    have := List.of_mem_zip (a := p.1) (b := p.2) hp
    rw [hc p.2 this.2]; ring

theorem const_times (a : K) (r : List K) (hc : ∀ x ∈ a :: r, x = a) :
    (((times (total (a :: r)) (a :: r)).map snap).all fun t => t = 0) = true := by
  have hl : total (a :: r) = 0 := by rw [total_eq, hc _ (List.getLast_mem _)]; ring
  unfold times
  rw [if_pos hl, List.map_map, List.all_eq_true]
  intro t ht
  obtain ⟨x, _, rfl⟩ := List.mem_map.1 ht
  have : snap (0 : K) = 0 := snap_eq 0 (Or.inl (by norm_num))
  simp [this]

/-- A coordinate that moves within its ends, or not at all. -/
def Plain (a b : K) (xs : List K) : Prop := (b ≠ a ∧ Spec.Within a b xs) ∨ ∀ x ∈ xs, x = a

theorem guess_line (gs : List K) (p z : K × K) (r : List (K × K)) (hz : (p :: r).getLast (List.cons_ne_nil _ _) = z)
    (hx : Plain p.1 z.1 ((p :: r).map (·.1))) (hy : Plain p.2 z.2 ((p :: r).map (·.2))) (hne : p ≠ z) (hg : ∀ g ∈ gs, 0 ≤ g ∧ g ≤ 1) :
    guess gs (p :: r) = stopAtEnd (gs.map (Spec.between p z)) := by
  have hbx : (p.1 :: r.map (·.1)).getLast (List.cons_ne_nil _ _) = z.1 := by
    have := List.getLast_map (f := fun q : K × K => q.1) (l := p :: r) (by simp)
    rw [hz] at this
    exact this
  have hby : (p.2 :: r.map (·.2)).getLast (List.cons_ne_nil _ _) = z.2 := by
    have := List.getLast_map (f := fun q : K × K => q.2) (l := p :: r) (by simp)
    rw [hz] at this
    exact this
  unfold guess
  simp only [List.map_cons] at hx hy ⊢
  rcases hx with ⟨hxn, hxw⟩ | hxc <;> rcases hy with ⟨hyn, hyw⟩ | hyc
  · have fx := own_facts p.1 (r.map (·.1)) z.1 hbx hxn (p.1 :: r.map (·.1)) rfl
    have fy := own_facts p.2 (r.map (·.2)) z.2 hby hyn (p.2 :: r.map (·.2)) rfl
    rw [own_times _ _ _ hbx hxn hxw, own_times _ _ _ hby hyn hyw]
    rw [if_neg (fun h => fx.2.2 h.1), if_neg fx.2.2, if_neg fx.2.2, if_neg fy.2.2]
    congr 1
    apply List.map_congr_left
    intro g hgm
    rw [interp_own _ _ _ hbx hxn g (hg g hgm).1 (hg g hgm).2, interp_own _ _ _ hby hyn g (hg g hgm).1 (hg g hgm).2]
    rfl
  · have fx := own_facts p.1 (r.map (·.1)) z.1 hbx hxn (p.1 :: r.map (·.1)) rfl
    have cy := const_times p.2 (r.map (·.2)) hyc
    have ez : z.2 = p.2 := by rw [← hby]; exact hyc _ (List.getLast_mem _)
    rw [own_times _ _ _ hbx hxn hxw]
    rw [if_neg (fun h => fx.2.2 h.1), if_neg fx.2.2, if_neg fx.2.2, if_pos cy]
    congr 1
    apply List.map_congr_left
    intro g hgm
    rw [interp_own _ _ _ hbx hxn g (hg g hgm).1 (hg g hgm).2,
      interp_const _ _ _ hbx hxn g p.2 (hg g hgm).1 (hg g hgm).2 _ (by simp) hyc]
    unfold Spec.between; rw [ez]; ring_nf
  · have fy := own_facts p.2 (r.map (·.2)) z.2 hby hyn (p.2 :: r.map (·.2)) rfl
    have cx := const_times p.1 (r.map (·.1)) hxc
    have ez : z.1 = p.1 := by rw [← hbx]; exact hxc _ (List.getLast_mem _)
    rw [own_times _ _ _ hby hyn hyw]
    rw [if_neg (fun h => fy.2.2 h.2), if_pos cx, if_pos cx]
    congr 1
    apply List.map_congr_left
    intro g hgm
    rw [interp_own _ _ _ hby hyn g (hg g hgm).1 (hg g hgm).2,
      interp_const _ _ _ hby hyn g p.1 (hg g hgm).1 (hg g hgm).2 _ (by simp) hxc]
    unfold Spec.between; rw [ez]; ring_nf
  · exfalso
    apply hne
    apply Prod.ext
    · rw [← hbx]; exact (hxc _ (List.getLast_mem _)).symm
    · rw [← hby]; exact (hyc _ (List.getLast_mem _)).symm

theorem onPath_straight (p z : K × K) (f : K) (fs : List K) (hs : (f :: fs).Pairwise (· ≤ ·)) (g : K) (h1 : f ≤ g)
    (h2 : g ≤ (f :: fs).getLast (List.cons_ne_nil _ _)) : Spec.OnPath ((f :: fs).map (Spec.between p z)) (Spec.between p z g) := by
  induction fs generalizing f with
  | nil =>
    simp only [List.getLast_singleton] at h2
    rw [le_antisymm h2 h1]; rfl
  | cons f' fs ih =>
    rw [List.map_cons, List.map_cons, Spec.OnPath]
    rw [List.pairwise_cons] at hs
    by_cases h : f' ≤ g
    · right
      have := ih f' hs.2 h (by simpa using h2)
      rwa [List.map_cons] at this
    · left
      push Not at h
      have hd : 0 < f' - f := by linarith
      refine ⟨(g - f) / (f' - f), div_nonneg (by linarith) hd.le, (div_le_one hd).2 (by linarith), ?_⟩
      unfold Spec.between
      apply Prod.ext
      · simp only; field_simp; ring
      · simp only; field_simp; ring

/-! ## Property C144 -/

/-- The Greville points of a basis on the unit interval. -/
def Spec.Greville (gs : List K) : Prop := 3 < gs.length ∧ gs.head? = some 0 ∧ gs.getLast? = some 1 ∧ ∀ g ∈ gs, 0 ≤ g ∧ g ≤ 1

/-- Waypoints in order on a straight line: the guess starts in the first waypoint, all of its points are on the path, and it comes
to rest in the last one. -/
theorem C144_partial (gs : List K) (p z : K × K) (fs : List K) (hne : p ≠ z) (hs : ((0 : K) :: fs).Pairwise (· ≤ ·))
    (h1 : fs.getLast? = some 1) (hm : ∀ f ∈ fs, f ≤ 1 - 1 / 100000 ∨ f = 1) (hg : Spec.Greville gs) :
    ∃ cs, guess gs (((0 : K) :: fs).map (Spec.between p z)) = some cs ∧ cs.length = gs.length ∧ cs.head? = some p ∧
      (∀ c ∈ cs, Spec.OnPath (((0 : K) :: fs).map (Spec.between p z)) c) ∧ ∃ ds, cs = ds ++ [z, z, z] := by
  have b0 : Spec.between p z 0 = p := by unfold Spec.between; ring_nf
  have b1 : Spec.between p z 1 = z := by unfold Spec.between; ring_nf
  have hf : ∀ f ∈ (0 : K) :: fs, 0 ≤ f ∧ (f ≤ 1 - 1 / 100000 ∨ f = 1) := by
    intro f hf
    rcases List.mem_cons.1 hf with rfl | h
    · exact ⟨le_rfl, Or.inl (by norm_num)⟩
    · exact ⟨(List.pairwise_cons.1 hs).1 f h, hm f h⟩
  have hlast : ((0 : K) :: fs).getLast (List.cons_ne_nil _ _) = 1 := by
    have : ((0 : K) :: fs).getLast? = some 1 := by
      cases fs with
      | nil => simp at h1
      | cons a r => simpa using h1
    rw [List.getLast?_eq_some_getLast (List.cons_ne_nil _ _)] at this
    simpa using this
  have key : guess gs (((0 : K) :: fs).map (Spec.between p z)) = stopAtEnd (gs.map (Spec.between p z)) := by
    have e0 : p :: fs.map (Spec.between p z) = ((0 : K) :: fs).map (Spec.between p z) := by rw [List.map_cons, b0]
    rw [List.map_cons, b0]
    apply guess_line gs p z
    · have := List.getLast_map (f := Spec.between p z) (l := (0 : K) :: fs) (by simp)
      rw [hlast, b1] at this
      simpa [b0] using this
    · rw [e0, List.map_map]
      by_cases h : z.1 = p.1
      · right
        intro x hx
        obtain ⟨f, _, rfl⟩ := List.mem_map.1 hx
        simp [Spec.between, h]
      · left
        refine ⟨h, ?_⟩
        intro x hx
        obtain ⟨f, hfm, rfl⟩ := List.mem_map.1 hx
        exact ⟨f, (hf f hfm).1, (hf f hfm).2, rfl⟩
    · rw [e0, List.map_map]
      by_cases h : z.2 = p.2
      · right
        intro x hx
        obtain ⟨f, _, rfl⟩ := List.mem_map.1 hx
        simp [Spec.between, h]
      · left
        refine ⟨h, ?_⟩
        intro x hx
        obtain ⟨f, hfm, rfl⟩ := List.mem_map.1 hx
        exact ⟨f, (hf f hfm).1, (hf f hfm).2, rfl⟩
    · exact hne
    · exact hg.2.2.2
  obtain ⟨hl, hh, hla, hr⟩ := hg
  have hgl : (gs.map (Spec.between p z)).getLast? = some z := by rw [List.getLast?_map, hla]; simp [b1]
  have hz : Spec.OnPath (((0 : K) :: fs).map (Spec.between p z)) z := by
    have := onPath_straight p z 0 fs hs 1 zero_le_one hlast.ge
    rwa [b1] at this
  refine ⟨(gs.map (Spec.between p z)).take (gs.length - 3) ++ [z, z, z], ?_, ?_, ?_, ?_, _, rfl⟩
  · rw [key]
    unfold stopAtEnd
    rw [hgl]
    simp only [List.length_map]
    rw [if_neg (by omega)]
  · simp; omega
  · cases gs with
    | nil => simp at hl
    | cons g gs =>
      simp only [List.head?_cons, Option.some.injEq] at hh
      have : (g :: gs).length - 3 = (gs.length - 3) + 1 := by simp at hl ⊢; omega
      rw [this, List.map_cons, List.take_succ_cons, List.cons_append, List.head?_cons, hh, b0]
  · intro c hc
    rcases List.mem_append.1 hc with h | h
    · obtain ⟨g, hgm, rfl⟩ := List.mem_map.1 (List.mem_of_mem_take h)
      exact onPath_straight p z 0 fs hs g (hr g hgm).1 (by rw [hlast]; exact (hr g hgm).2)
    · simp only [List.mem_cons, List.not_mem_nil, or_false, or_self] at h
      rw [h]; exact hz

/-- Whatever the waypoints, as long as each coordinate stays within its first and last value, the guess is the straight line between
the first and the last waypoint: those in between have no influence. -/
theorem C144_violated (gs : List K) (p z : K × K) (r r' : List (K × K))
    (hz : (p :: r).getLast (List.cons_ne_nil _ _) = z) (hz' : (p :: r').getLast (List.cons_ne_nil _ _) = z)
    (hx : z.1 ≠ p.1) (hy : z.2 ≠ p.2) (h1 : Spec.Within p.1 z.1 ((p :: r).map (·.1))) (h2 : Spec.Within p.2 z.2 ((p :: r).map (·.2)))
    (h1' : Spec.Within p.1 z.1 ((p :: r').map (·.1))) (h2' : Spec.Within p.2 z.2 ((p :: r').map (·.2)))
    (hg : ∀ g ∈ gs, 0 ≤ g ∧ g ≤ 1) :
    guess gs (p :: r) = guess gs (p :: r') ∧ guess gs (p :: r) = stopAtEnd (gs.map (Spec.between p z)) := by
  have hne : p ≠ z := fun h => hx (by rw [h])
  have a := guess_line gs p z r hz (Or.inl ⟨hx, h1⟩) (Or.inl ⟨hy, h2⟩) hne hg
  have b := guess_line gs p z r' hz' (Or.inl ⟨hx, h1'⟩) (Or.inl ⟨hy, h2'⟩) hne hg
  exact ⟨a.trans b.symm, a⟩

/-- Around a corner: a point of the guess that is not on the path. -/
theorem C144_corner_violated : ∃ gs : List ℚ, Spec.Greville gs ∧ ∃ w : List (ℚ × ℚ), w = [(0, 0), (4, 0), (4, 4)] ∧
    guess gs w = some [(0, 0), (1, 1), (2, 2), (4, 4), (4, 4), (4, 4)] ∧ ¬ Spec.OnPath w (2, 2) := by
  refine ⟨[0, 1 / 4, 1 / 2, 3 / 4, 7 / 8, 1], ⟨by decide, rfl, rfl, by decide +kernel⟩, _, rfl, by decide +kernel, ?_⟩
  simp only [Spec.OnPath, Spec.between, Prod.mk.injEq]
  push Not
  refine ⟨fun f _ _ _ => by norm_num, fun f _ _ h => by norm_num at h, fun h => by norm_num at h⟩

/-- Out and back: the guess does not start in the first waypoint. -/
theorem C144_start_violated : ∃ gs : List ℚ, Spec.Greville gs ∧ ∃ w : List (ℚ × ℚ), w = [(0, 0), (0, 10), (1, 10), (1, 0)] ∧
    guess gs w = some [(0, 10), (1 / 4, 10), (1 / 2, 10), (1, 0), (1, 0), (1, 0)] := by
  refine ⟨[0, 1 / 4, 1 / 2, 3 / 4, 7 / 8, 1], ⟨by decide, rfl, rfl, by decide +kernel⟩, _, rfl, by decide +kernel⟩

/-- A path that ends where it starts is refused. -/
theorem C144_closed_violated (gs : List K) (w : List (K × K)) (p : K × K) (r : List (K × K)) (hw : w = p :: r)
    (hz : (p :: r).getLast (List.cons_ne_nil _ _) = p) : guess gs w = none := by
  subst hw
  have all0 : ∀ (a : K) (xs : List K), (a :: xs).getLast (List.cons_ne_nil _ _) = a →
      (((times (total (a :: xs)) (a :: xs)).map snap).all fun t => t = 0) = true := by
    intro a xs h
    have hl : total (a :: xs) = 0 := by rw [total_eq, h]; ring
    unfold times
    rw [if_pos hl, List.map_map, List.all_eq_true]
    intro t ht
    obtain ⟨x, _, rfl⟩ := List.mem_map.1 ht
    have : snap (0 : K) = 0 := snap_eq 0 (Or.inl (by norm_num))
    simp [this]
  have hbx : (p.1 :: r.map (·.1)).getLast (List.cons_ne_nil _ _) = p.1 := by
    have := List.getLast_map (f := fun q : K × K => q.1) (l := p :: r) (by simp)
    rw [hz] at this
    exact this
  have hby : (p.2 :: r.map (·.2)).getLast (List.cons_ne_nil _ _) = p.2 := by
    have := List.getLast_map (f := fun q : K × K => q.2) (l := p :: r) (by simp)
    rw [hz] at this
    exact this
  unfold guess
  simp only [List.map_cons]
  rw [if_pos ⟨all0 _ _ hbx, all0 _ _ hby⟩]

/-! The motion time -/

theorem net_le_path (p : ℝ × ℝ) (r : List (ℝ × ℝ)) :
    Real.sqrt (total ((p :: r).map (·.1)) ^ 2 + total ((p :: r).map (·.2)) ^ 2) ≤ Spec.pathLength (p :: r) := by
  induction r generalizing p with
  | nil => simp [total, Spec.pathLength]
  | cons q r ih =>
    rw [Spec.pathLength]
    have h := ih q
    simp only [List.map_cons, total] at h ⊢
    set A := total (q.1 :: r.map (·.1))
    set B := total (q.2 :: r.map (·.2))
    refine le_trans ?_ (add_le_add le_rfl h)
    have h1 := Real.sqrt_nonneg ((q.1 - p.1) ^ 2 + (q.2 - p.2) ^ 2)
    have h2 := Real.sqrt_nonneg (A ^ 2 + B ^ 2)
    rw [Real.sqrt_le_left (by positivity)]
    have e1 := Real.sq_sqrt (show 0 ≤ (q.1 - p.1) ^ 2 + (q.2 - p.2) ^ 2 by positivity)
    have e2 := Real.sq_sqrt (show 0 ≤ A ^ 2 + B ^ 2 by positivity)
    have e3 : (q.1 - p.1) * A + (q.2 - p.2) * B ≤ Real.sqrt ((q.1 - p.1) ^ 2 + (q.2 - p.2) ^ 2) * Real.sqrt (A ^ 2 + B ^ 2) := by
      rw [← Real.sqrt_mul (by positivity)]
      apply Real.le_sqrt_of_sq_le
      nlinarith [sq_nonneg ((q.1 - p.1) * B - (q.2 - p.2) * A)]
    nlinarith

/-- The guessed time is that of the straight line between first and last waypoint at half the highest velocity: at most the time along
the path, and equal for two waypoints. -/
theorem C144_time_partial (vmax : ℝ) (hv : 0 < vmax) (p : ℝ × ℝ) (r : List (ℝ × ℝ)) :
    motionTime vmax (p :: r) ≤ Spec.pathLength (p :: r) / (vmax / 2) ∧
    ∀ q, motionTime vmax [p, q] = Spec.pathLength [p, q] / (vmax / 2) := by
  have e : vmax * 0.5 = vmax / 2 := by ring
  refine ⟨?_, ?_⟩
  · unfold motionTime
    rw [e]
    exact div_le_div_of_nonneg_right (net_le_path p r) (by positivity)
  · intro q
    unfold motionTime
    rw [e]
    simp [total, Spec.pathLength]

/-- Out and back: not even with the highest velocity the path is covered in the guessed time. -/
theorem C144_time_violated (vmax : ℝ) (hv : 0 < vmax) :
    motionTime vmax [(0, 0), (0, 10), (1, 10), (1, 0)] < Spec.pathLength [(0, 0), (0, 10), (1, 10), (1, 0)] / vmax := by
  have h100 : Real.sqrt 100 = 10 := by rw [show (100 : ℝ) = 10 ^ 2 by norm_num, Real.sqrt_sq (by norm_num)]
  have e1 : Spec.pathLength [((0 : ℝ), (0 : ℝ)), (0, 10), (1, 10), (1, 0)] = 21 := by
    simp only [Spec.pathLength]; norm_num [h100]
  have e2 : motionTime vmax [(0, 0), (0, 10), (1, 10), (1, 0)] = 2 / vmax := by
    unfold motionTime
    simp only [List.map_cons, List.map_nil, total]
    norm_num
    field_simp
  rw [e1, e2]
  exact div_lt_div_of_pos_right (by norm_num) hv

/-- A straight path of three waypoints. -/
example : guess ([0, 1 / 4, 1 / 2, 3 / 4, 7 / 8, 1] : List ℚ) ([0, 1 / 4, 1].map (Spec.between (1, 2) (5, 10)))
    = some [(1, 2), (2, 4), (3, 6), (5, 10), (5, 10), (5, 10)] := by decide +kernel

example : Spec.Greville ([0, 1 / 4, 1 / 2, 3 / 4, 7 / 8, 1] : List ℚ) := ⟨by decide, rfl, rfl, by decide +kernel⟩

end Verif.Frames.Guess
