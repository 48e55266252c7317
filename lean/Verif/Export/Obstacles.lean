import Mathlib.Analysis.Calculus.MeanValue
import Mathlib.Analysis.Calculus.Deriv.Pow
import Mathlib.Tactic.Ring
import Mathlib.Tactic.Linarith

/-! # The obstacles of the exported program (C201) -/

set_option linter.unusedSectionVars false

namespace Verif.Export.Obstacles

/-! ## Model -/

/-- What the generator looks at for one child of the problem, export.py:450-453: its label and the option `spline_traj`
(of obstacles). -/
structure Child where
  label : List Char
  splineTraj : Bool

/-- `'obstacle' in label`, export.py:451. -/
def isObstacle (c : Child) : Bool := decide (['o', 'b', 's', 't', 'a', 'c', 'l', 'e'] <:+: c.label)

/-- The generated C++ statements for obstacle `i` of the vector that is given to the program. -/
inductive Instr where
  /-- export.py:458-469: prediction of two coordinates, `x`, `v` and `a` -/
  | predict (label : List Char) (i : ℕ)
  /-- export.py:471 -/
  | traj (label : List Char) (i : ℕ)
  /-- export.py:472-473: `checkpoints` and `rad` -/
  | shape (label : List Char) (i : ℕ)

/-- `_create_fillParameterDict`, export.py:446-476, with the counter `obst_ind`. -/
def generate : ℕ → List Child → List Instr
  | _, [] => []
  | i, c :: l =>
    if isObstacle c then (if c.splineTraj then .traj c.label i else .predict c.label i) :: .shape c.label i :: generate (i + 1) l
    else generate i l

/-- `obstacle_t`, export/point2point/Point2Point.hpp:34-43 (without `avoid`, which is not used here). -/
structure Obst where
  position : List ℝ
  velocity : List ℝ
  acceleration : List ℝ
  trajCoeffs : List ℝ
  checkpoints : List ℝ
  radii : List ℝ

/-- `par_dict[label][name]`; `none` before it is written. -/
abbrev Par := List Char → String → Option (List ℝ)

/-- `par_dict[label][name] = v`. -/
def write (par : Par) (label : List Char) (name : String) (v : List ℝ) : Par :=
  fun l n => if l = label ∧ n = name then some v else par l n

/-- One line of the loop over `j`, export.py:463: `posT[j]`. -/
noncomputable def posT (dt : ℝ) (o : Obst) (j : ℕ) : Option ℝ :=
  match o.position[j]?, o.velocity[j]?, o.acceleration[j]? with
  | some p, some v, some a => some (p + dt * v + 0.5 * dt ^ 2 * a)
  | _, _, _ => none

/-- export.py:464: `velT[j]`. -/
noncomputable def velT (dt : ℝ) (o : Obst) (j : ℕ) : Option ℝ :=
  match o.velocity[j]?, o.acceleration[j]? with
  | some v, some a => some (v + dt * a)
  | _, _ => none

/-- One statement; reading behind the end of a vector is undefined (`none`). The vectors `posT`, `velT`, `accT` have two entries, and both are
written before they are used. -/
noncomputable def exec (dt : ℝ) (obs : List Obst) (par : Par) : Instr → Option Par
  | .predict l i => obs[i]?.bind fun o =>
    (posT dt o 0).bind fun x0 => (posT dt o 1).bind fun x1 => (velT dt o 0).bind fun v0 => (velT dt o 1).bind fun v1 =>
      o.acceleration[0]?.bind fun a0 => o.acceleration[1]?.bind fun a1 =>
        some (write (write (write par l "x" [x0, x1]) l "v" [v0, v1]) l "a" [a0, a1])
  | .traj l i => obs[i]?.bind fun o => some (write par l "traj_coeffs" o.trajCoeffs)
  | .shape l i => obs[i]?.bind fun o => some (write (write par l "checkpoints" o.checkpoints) l "rad" o.radii)

/-- The generated part of `fillParameterDict` of the exported program. -/
noncomputable def run (dt : ℝ) (obs : List Obst) (children : List Child) (par : Par) : Option Par :=
  (generate 0 children).foldlM (exec dt obs) par

/-! ## Specification -/

/-- One coordinate of an obstacle that moves with constant acceleration `a` from position `p` and velocity `v`, after the time `dt`: position `x` and velocity `w`. -/
def Spec.Moves (p v a dt x w : ℝ) : Prop :=
  ∀ q q' : ℝ → ℝ, q 0 = p → q' 0 = v → (∀ t, HasDerivAt q (q' t) t) → (∀ t, HasDerivAt q' a t) → q dt = x ∧ q' dt = w

/-- The parameters of an obstacle in the plane are its own: its shape, and its trajectory or its state after the time `dt`. -/
def Spec.Own (dt : ℝ) (splineTraj : Bool) (o : Obst) (par : String → Option (List ℝ)) : Prop :=
  par "checkpoints" = some o.checkpoints ∧ par "rad" = some o.radii ∧
    if splineTraj then par "traj_coeffs" = some o.trajCoeffs
    else ∀ p0 p1 v0 v1 a0 a1, o.position = [p0, p1] → o.velocity = [v0, v1] → o.acceleration = [a0, a1] →
      ∃ x0 x1 w0 w1, par "x" = some [x0, x1] ∧ par "v" = some [w0, w1] ∧ par "a" = some [a0, a1] ∧ Spec.Moves p0 v0 a0 dt x0 w0 ∧ Spec.Moves p1 v1 a1 dt x1 w1

/-! ## Lemmas -/

theorem eq_of_deriv (f g : ℝ → ℝ) (d : ℝ → ℝ) (hf : ∀ t, HasDerivAt f (d t) t) (hg : ∀ t, HasDerivAt g (d t) t) (h0 : f 0 = g 0) (t : ℝ) : f t = g t := by
  have hd : ∀ s, HasDerivAt (f - g) 0 s := fun s => ((hf s).sub (hg s)).congr_deriv (sub_self _)
  have := is_const_of_deriv_eq_zero (fun s => (hd s).differentiableAt) (fun s => (hd s).deriv) t 0
  rw [Pi.sub_apply, Pi.sub_apply] at this
  linarith

theorem moves (p v a dt : ℝ) : Spec.Moves p v a dt (p + dt * v + 0.5 * dt ^ 2 * a) (v + dt * a) := by
  intro q q' hq hq' h1 h2
  have e' : ∀ t, q' t = v + t * a := eq_of_deriv q' (fun t => v + t * a) (fun _ => a) h2
    (fun t => by simpa using ((hasDerivAt_id t).mul_const a).const_add v) (by simp [hq'])
  refine ⟨?_, e' dt⟩
  refine eq_of_deriv q (fun t => p + t * v + 0.5 * t ^ 2 * a) (fun t => v + t * a) (fun t => by rw [← e' t]; exact h1 t) (fun t => ?_) (by simp [hq]) dt
  have h3 := (((hasDerivAt_id t).mul_const v).const_add p).add ((((hasDerivAt_id t).pow 2).const_mul (0.5 : ℝ)).mul_const a)
  refine (h3.congr_deriv ?_)
  simp only [id]
  push_cast
  ring

theorem write_same (par : Par) (l : List Char) (n : String) (v : List ℝ) : write par l n v l n = some v := by simp [write]

theorem write_name (par : Par) (l l' : List Char) (n n' : String) (v : List ℝ) (h : n' ≠ n) : write par l n v l' n' = par l' n' := by simp [write, h]

theorem write_label (par : Par) (l l' : List Char) (n : String) (v : List ℝ) (h : l' ≠ l) : write par l n v l' = par l' := by
  funext m
  simp [write, h]

/-- Every obstacle has two or more coordinates. -/
def Long (o : Obst) : Prop := 2 ≤ o.position.length ∧ 2 ≤ o.velocity.length ∧ 2 ≤ o.acceleration.length

theorem two_of_length {l : List ℝ} (h : 2 ≤ l.length) : ∃ a b r, l = a :: b :: r := by
  match l, h with
  | a :: b :: r, _ => exact ⟨a, b, r, rfl⟩

/-- The parameters that one obstacle of the problem gets: two coordinates. -/
def Written (dt : ℝ) (splineTraj : Bool) (o : Obst) (par : String → Option (List ℝ)) : Prop :=
  par "checkpoints" = some o.checkpoints ∧ par "rad" = some o.radii ∧
    if splineTraj then par "traj_coeffs" = some o.trajCoeffs
    else ∃ p0 p1 v0 v1 a0 a1 rp rv ra, o.position = p0 :: p1 :: rp ∧ o.velocity = v0 :: v1 :: rv ∧ o.acceleration = a0 :: a1 :: ra ∧
      par "x" = some [p0 + dt * v0 + 0.5 * dt ^ 2 * a0, p1 + dt * v1 + 0.5 * dt ^ 2 * a1] ∧ par "v" = some [v0 + dt * a0, v1 + dt * a1] ∧ par "a" = some [a0, a1]

theorem exec_one (dt : ℝ) (obs : List Obst) (par : Par) (c : Child) (i : ℕ) (o : Obst) (ho : obs[i]? = some o) (hl : c.splineTraj = false → Long o) :
    ∃ par', [if c.splineTraj then Instr.traj c.label i else .predict c.label i, .shape c.label i].foldlM (exec dt obs) par = some par' ∧
      (∀ l, l ≠ c.label → par' l = par l) ∧ Written dt c.splineTraj o (par' c.label) := by
  cases hs : c.splineTraj with
  | true =>
    refine ⟨write (write (write par c.label "traj_coeffs" o.trajCoeffs) c.label "checkpoints" o.checkpoints) c.label "rad" o.radii, ?_, ?_, ?_⟩
    · simp [exec, ho, List.foldlM]
    · intro l hl'
      simp only [write_label _ _ _ _ _ hl']
    · refine ⟨?_, write_same _ _ _ _, ?_⟩
      · rw [write_name _ _ _ _ _ _ (by decide), write_same]
      · rw [if_pos rfl, write_name _ _ _ _ _ _ (by decide), write_name _ _ _ _ _ _ (by decide), write_same]
  | false =>
    obtain ⟨h1, h2, h3⟩ := hl hs
    obtain ⟨p0, p1, rp, hp⟩ := two_of_length h1
    obtain ⟨v0, v1, rv, hv⟩ := two_of_length h2
    obtain ⟨a0, a1, ra, ha⟩ := two_of_length h3
    refine ⟨write (write (write (write (write par c.label "x" [p0 + dt * v0 + 0.5 * dt ^ 2 * a0, p1 + dt * v1 + 0.5 * dt ^ 2 * a1]) c.label "v" [v0 + dt * a0, v1 + dt * a1])
      c.label "a" [a0, a1]) c.label "checkpoints" o.checkpoints) c.label "rad" o.radii, ?_, ?_, ?_⟩
    · simp [exec, ho, posT, velT, hp, hv, ha, List.foldlM]
    · intro l hl'
      simp only [write_label _ _ _ _ _ hl']
    · refine ⟨?_, write_same _ _ _ _, ?_⟩
      · rw [write_name _ _ _ _ _ _ (by decide), write_same]
      · rw [if_neg (by decide)]
        refine ⟨p0, p1, v0, v1, a0, a1, rp, rv, ra, hp, hv, ha, ?_, ?_, ?_⟩
        · rw [write_name _ _ _ _ _ _ (by decide), write_name _ _ _ _ _ _ (by decide), write_name _ _ _ _ _ _ (by decide), write_name _ _ _ _ _ _ (by decide), write_same]
        · rw [write_name _ _ _ _ _ _ (by decide), write_name _ _ _ _ _ _ (by decide), write_name _ _ _ _ _ _ (by decide), write_same]
        · rw [write_name _ _ _ _ _ _ (by decide), write_name _ _ _ _ _ _ (by decide), write_same]

theorem run_from (dt : ℝ) (obs : List Obst) (children : List Child) (hd : (children.map Child.label).Nodup) (i : ℕ) (par : Par)
    (hn : ∀ k < (children.filter isObstacle).length, i + k < obs.length) (hl : ∀ o ∈ obs, Long o) :
    ∃ par', (generate i children).foldlM (exec dt obs) par = some par' ∧ (∀ l, (∀ c ∈ children, isObstacle c → c.label ≠ l) → par' l = par l) ∧
      ∀ (k : ℕ) (c : Child) (o : Obst), (children.filter isObstacle)[k]? = some c → obs[i + k]? = some o → Written dt c.splineTraj o (par' c.label) := by
  induction children generalizing i par with
  | nil => exact ⟨par, rfl, fun _ _ => rfl, fun k c o h => by simp at h⟩
  | cons c l ih =>
    rw [List.map_cons, List.nodup_cons] at hd
    by_cases hc : isObstacle c = true
    · rw [List.filter_cons_of_pos hc] at hn
      have hi : i < obs.length := by simpa using hn 0 (by simp)
      obtain ⟨par1, h1, h2, h3⟩ := exec_one dt obs par c i obs[i] (List.getElem?_eq_getElem hi) fun _ => hl _ (List.getElem_mem hi)
      obtain ⟨par', h4, h5, h6⟩ := ih hd.2 (i + 1) par1 (fun k hk => by have := hn (k + 1) (by simpa using hk); omega)
      have hkeep : par' c.label = par1 c.label := h5 _ fun d hd' _ he => hd.1 (he ▸ List.mem_map_of_mem hd')
      refine ⟨par', ?_, ?_, ?_⟩
      · rw [generate, if_pos hc, show ∀ (x y : Instr) (r : List Instr), x :: y :: r = [x, y] ++ r from fun _ _ _ => rfl, List.foldlM_append, h1]
        exact h4
      · intro m hm
        rw [h5 m fun d hd' => hm d (by simp [hd']), h2 m fun he => hm c (by simp) hc he.symm]
      · intro k d o hk ho
        rw [List.filter_cons_of_pos hc] at hk
        cases k with
        | zero =>
          obtain rfl : c = d := by simpa using hk
          rw [Nat.add_zero, List.getElem?_eq_getElem hi] at ho
          obtain rfl := Option.some.inj ho
          rw [hkeep]
          exact h3
        | succ k => exact h6 k d o (by simpa using hk) (by rwa [show i + 1 + k = i + (k + 1) by omega])
    · rw [List.filter_cons_of_neg hc] at hn
      obtain ⟨par', h4, h5, h6⟩ := ih hd.2 i par hn
      refine ⟨par', by rw [generate, if_neg hc]; exact h4, fun m hm => h5 m fun d hd' => hm d (by simp [hd']), ?_⟩
      rw [List.filter_cons_of_neg hc]
      exact h6

/-! ## Theorems -/

/-- **C201** (part) For a problem in the plane the exported program gives every obstacle of the problem the data of its own obstacle of the vector: the `k`-th obstacle
gets the `k`-th one, with its shape and its trajectory or its state after the update time for constant acceleration. The parameters of other objects are not touched.
Missing: problems in space (`C201_space_violated`). -/
theorem C201_partial (dt : ℝ) (obs : List Obst) (children : List Child) (hd : (children.map Child.label).Nodup) (par : Par)
    (hn : obs.length = (children.filter isObstacle).length)
    (hl : ∀ o ∈ obs, o.position.length = 2 ∧ o.velocity.length = 2 ∧ o.acceleration.length = 2) :
    ∃ par', run dt obs children par = some par' ∧ (∀ l, (∀ c ∈ children, isObstacle c → c.label ≠ l) → par' l = par l) ∧
      ∀ (k : ℕ) (c : Child) (o : Obst), (children.filter isObstacle)[k]? = some c → obs[k]? = some o → Spec.Own dt c.splineTraj o (par' c.label) := by
  obtain ⟨par', h1, h2, h3⟩ := run_from dt obs children hd 0 par (fun k hk => by omega) fun o ho => ⟨(hl o ho).1.ge, (hl o ho).2.1.ge, (hl o ho).2.2.ge⟩
  refine ⟨par', h1, h2, fun k c o hk ho => ?_⟩
  obtain ⟨h4, h5, h6⟩ := h3 k c o hk (by rwa [Nat.zero_add])
  refine ⟨h4, h5, ?_⟩
  split_ifs at h6 ⊢
  · exact h6
  · intro p0 p1 v0 v1 a0 a1 hp hv ha
    obtain ⟨q0, q1, w0, w1, b0, b1, rp, rv, ra, e1, e2, e3, e4, e5, e6⟩ := h6
    rw [hp] at e1
    rw [hv] at e2
    rw [ha] at e3
    simp only [List.cons.injEq] at e1 e2 e3
    obtain ⟨rfl, rfl, -⟩ := e1
    obtain ⟨rfl, rfl, -⟩ := e2
    obtain ⟨rfl, rfl, -⟩ := e3
    exact ⟨_, _, _, _, e4, e5, e6, moves _ _ _ _, moves _ _ _ _⟩

/-- **C201** fails in space: of obstacles with three coordinates only the first two are passed on. -/
theorem C201_space_violated (dt : ℝ) (obs : List Obst) (children : List Child) (hd : (children.map Child.label).Nodup) (par : Par)
    (hn : obs.length = (children.filter isObstacle).length)
    (hl : ∀ o ∈ obs, o.position.length = 3 ∧ o.velocity.length = 3 ∧ o.acceleration.length = 3) :
    ∃ par', run dt obs children par = some par' ∧ ∀ c ∈ children, isObstacle c → c.splineTraj = false → ∃ x v a : List ℝ,
      par' c.label "x" = some x ∧ par' c.label "v" = some v ∧ par' c.label "a" = some a ∧ x.length = 2 ∧ v.length = 2 ∧ a.length = 2 := by
  obtain ⟨par', h1, -, h3⟩ := run_from dt obs children hd 0 par (fun k hk => by omega) fun o ho => by
    have := hl o ho
    exact ⟨by omega, by omega, by omega⟩
  refine ⟨par', h1, fun c hc hi hs => ?_⟩
  obtain ⟨k, hk, he⟩ := List.getElem_of_mem (List.mem_filter.2 ⟨hc, hi⟩)
  have hko : k < obs.length := by omega
  obtain ⟨-, -, h6⟩ := h3 k c obs[k] (by rw [List.getElem?_eq_getElem hk, he]) (by rw [Nat.zero_add, List.getElem?_eq_getElem hko])
  rw [hs, if_neg (by decide)] at h6
  obtain ⟨q0, q1, w0, w1, b0, b1, rp, rv, ra, -, -, -, e4, e5, e6⟩ := h6
  exact ⟨_, _, _, e4, e5, e6, rfl, rfl, rfl⟩

/-! ## Examples -/

/-- A vehicle and two obstacles, one of them with a given trajectory. -/
def exChildren : List Child := [⟨"vehicle0".toList, false⟩, ⟨"obstacle0".toList, true⟩, ⟨"obstacle1".toList, false⟩]

/-- Two obstacles in the plane. -/
def exObs : List Obst := [⟨[0, 0], [0, 0], [0, 0], [1, 2, 3], [0, 0], [1]⟩, ⟨[1, 2], [3, 4], [5, 6], [], [7, 8], [9]⟩]

example : ∃ par', run 0.1 exObs exChildren (fun _ _ => none) = some par' ∧ par' "obstacle0".toList "traj_coeffs" = some [1, 2, 3] ∧ par' "obstacle1".toList "rad" = some [9] ∧
    par' "vehicle0".toList "x" = none := by
  obtain ⟨par', h1, h2, h3⟩ := C201_partial 0.1 exObs exChildren (by decide) (fun _ _ => none) (by decide) (by simp [exObs])
  have hf : exChildren.filter isObstacle = [⟨"obstacle0".toList, true⟩, ⟨"obstacle1".toList, false⟩] := by
    rw [exChildren, List.filter_cons_of_neg (by decide), List.filter_cons_of_pos (by decide), List.filter_cons_of_pos (by decide), List.filter_nil]
  refine ⟨par', h1, ?_, ?_, ?_⟩
  · exact (h3 0 ⟨"obstacle0".toList, true⟩ _ (by rw [hf]; rfl) (by rfl)).2.2
  · exact (h3 1 ⟨"obstacle1".toList, false⟩ _ (by rw [hf]; rfl) (by rfl)).2.1
  · rw [h2 _ fun c hc ho => ?_]
    have hm : c ∈ exChildren.filter isObstacle := List.mem_filter.2 ⟨hc, ho⟩
    rw [hf] at hm
    simp only [List.mem_cons, List.not_mem_nil, or_false] at hm
    rcases hm with rfl | rfl <;> decide

example : ∃ par', run 0.1 [⟨[1, 2, 3], [0, 0, 1], [0, 0, 0], [], [], []⟩] [⟨"obstacle0".toList, false⟩] (fun _ _ => none) = some par' ∧
    ∃ x, par' "obstacle0".toList "x" = some x ∧ x.length = 2 := by
  obtain ⟨par', h1, h2⟩ := C201_space_violated 0.1 [⟨[1, 2, 3], [0, 0, 1], [0, 0, 0], [], [], []⟩] [⟨"obstacle0".toList, false⟩] (by decide) (fun _ _ => none) (by decide)
    (by simp)
  obtain ⟨x, _, _, e, _, _, hx, _⟩ := h2 ⟨"obstacle0".toList, false⟩ (by simp) (by decide) rfl
  exact ⟨par', h1, x, e, hx⟩

end Verif.Export.Obstacles
