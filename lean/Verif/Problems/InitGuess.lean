import Verif.Vehicles.Traj
import Verif.Spline.Props2
import Verif.Geometry.Props

/-! # Initial guesses of the trajectories (C148, C149)

Mirrors `get_init_spline_value` of the vehicles whose splines are coordinates (`holonomic.py`,
`holonomic1d.py`, `holonomic3d.py`, `holonomicorient.py`, `quadrotor.py`, `quadrotor3d_simple.py`),
`reinitialize` of `point2point.py` and `multiframeproblem.py`, and `Problem.reset_init_guess`. -/

set_option linter.unusedSectionVars false

namespace Verif.Problems.InitGuess

open Finset Verif.Spline Verif.Vehicles Verif.Geometry

/-! ## Model: guesses of the vehicles -/

/-- `np.linspace(a, b, n)`: `n` values from `a` to `b` with equal steps. -/
noncomputable def linspace (a b : ℝ) (n : ℕ) : List ℝ :=
  (List.range n).map fun i : ℕ => a + i * ((b - a) / ((n : ℝ) - 1))

/-- `get_init_spline_value` with one segment: holonomic.py:118-128 (two splines), holonomic1d.py:77-83
(one), holonomic3d.py:104-114 and quadrotor3d_simple.py:128-137 (three); column `k` goes from
coordinate `k` of the predicted position to coordinate `k` of the goal. -/
noncomputable def straightGuess (nspl len : ℕ) (pos0 posT : ℕ → ℝ) : List (List ℝ) :=
  (List.range nspl).map fun k => linspace (pos0 k) (posT k) len

/-- `Quadrotor.get_init_spline_value`, quadrotor.py:94-102: `r_[pos0*ones(degree), linspace(pos0, posT,
len - 2*degree), posT*ones(degree)]`; `none` is the `ValueError` of `np.linspace` for a negative number. -/
noncomputable def quadrotorGuess (degree len : ℕ) (pos0 posT : ℕ → ℝ) : Option (List (List ℝ)) :=
  if len < 2 * degree then none else
    some ((List.range 2).map fun k => List.replicate degree (pos0 k) ++
      linspace (pos0 k) (posT k) (len - 2 * degree) ++ List.replicate degree (posT k))

/-- `HolonomicOrient.get_init_spline_value`, holonomicorient.py:122-136: `init_value` starts as zeros with
three columns and the loop is over `range(2)`; `pos0 2` and `posT 2` are `tan(theta/2)`. -/
noncomputable def orientGuess (len : ℕ) (pos0 posT : ℕ → ℝ) : List (List ℝ) :=
  (List.range 3).map fun k => if k < 2 then linspace (pos0 k) (posT k) len else List.replicate len 0

/-- A room: width, height, position (`Rectangle` that is not rotated). -/
structure Room where
  w : ℝ
  h : ℝ
  pos : ℝ × ℝ

/-- The subgoals, multiframeproblem.py:144-151: centre of the overlap of each room with the next; `none`
is the `RuntimeError` of `compute_rectangle_overlap_center`. -/
noncomputable def subgoals : List Room → Option (List (ℝ × ℝ))
  | r1 :: r2 :: rest =>
    match overlapCenter (placedRect r1.w r1.h r1.pos) (placedRect r2.w r2.h r2.pos), subgoals (r2 :: rest) with
    | some c, some cs => some (c :: cs)
    | _, _ => none
  | _ => some []

/-- Coordinates of a point. -/
def coord (p : ℝ × ℝ) (k : ℕ) : ℝ := if k = 0 then p.1 else p.2

/-- One guess for every two consecutive points, holonomic.py:136-143. -/
noncomputable def between (len : ℕ) : List (ℝ × ℝ) → List (List (List ℝ))
  | a :: b :: rest => straightGuess 2 len (coord a) (coord b) :: between len (b :: rest)
  | _ => []

/-- `Holonomic.get_init_spline_value`, holonomic.py:118-144; `none` is the `AttributeError` without
subgoals. -/
noncomputable def holonomicGuess (nseg len : ℕ) (pos0 posT : ℝ × ℝ) (sub : Option (List (ℝ × ℝ))) :
    Option (List (List (List ℝ))) :=
  if nseg = 1 then some [straightGuess 2 len (coord pos0) (coord posT)] else
    match sub with
    | none => none
    | some s => some (between len (pos0 :: s ++ [posT]))

/-- `MultiFrameProblem.reinitialize`, multiframeproblem.py:139-154 for one vehicle: what is stored in the
variables `splines_seg0`, `splines_seg1`, ... (`set_variables` of `init[k]` for `k < n_frames`; `none` is a
raised error). -/
noncomputable def framesGuess (len : ℕ) (rooms : List Room) (pos0 posT : ℝ × ℝ) : Option (List (List (List ℝ))) :=
  match subgoals rooms with
  | none => none
  | some s => holonomicGuess rooms.length len pos0 posT (some s)

/-! ## Specification -/

namespace Spec

/-- Value of the spline with coefficients `c` at the time `t` (fraction of the horizon). -/
noncomputable def at' (degree intervals : ℕ) (c : List ℝ) (t : ℝ) : ℝ := (BSpline.mk (vehBasis degree intervals) c).eval t

/-- The guess is a straight motion from `p` to `q`: it starts in `p`, ends in `q` and at every time all
coordinates have covered the same fraction of the way. -/
def Straight (degree intervals nspl : ℕ) (guess : List (List ℝ)) (p q : ℕ → ℝ) : Prop :=
  guess.length = nspl ∧
  (∀ c ∈ guess, c.length = intervals + degree) ∧
  ∃ f : ℝ → ℝ, f 0 = 0 ∧ f 1 = 1 ∧ (∀ t, 0 ≤ t → t ≤ 1 → 0 ≤ f t ∧ f t ≤ 1) ∧
    ∀ k c, guess[k]? = some c → ∀ t, 0 ≤ t → t ≤ 1 → at' degree intervals c t = p k + f t * (q k - p k)

/-- Position at the time `t` of a guess with two splines. -/
noncomputable def position (degree intervals : ℕ) (guess : List (List ℝ)) (t : ℝ) : ℝ × ℝ :=
  (at' degree intervals (guess.getD 0 []) t, at' degree intervals (guess.getD 1 []) t)

/-- The point `p` is in the room. -/
def InRoom (r : Room) (p : ℝ × ℝ) : Prop := |p.1 - r.pos.1| ≤ r.w / 2 ∧ |p.2 - r.pos.2| ≤ r.h / 2

end Spec

/-! ## Lemmas -/

theorem eval_weights (d n : ℕ) (hn : 1 ≤ n) (w : ℕ → ℝ) (a b : ℝ) (c : List ℝ) (hc : c.length = n + d)
    (hw : ∀ i, i < n + d → c.getD i 0 = a + w i * (b - a)) (t : ℝ) (h0 : 0 ≤ t) (h1 : t ≤ 1) :
    Spec.at' d n c t = a + (∑ i ∈ range (n + d), w i * (vehBasis d n).fn i t) * (b - a) := by
  have hb := vehBasis_clamped (d := d) hn
  have hlen := vehBasis_len d n
  have hwf : (BSpline.mk (vehBasis d n) c).WF := by simp [BSpline.WF, hc, hlen]
  have k0 : (vehBasis d n).k 0 = 0 := by rw [vehBasis_k hn]; simp
  have k1 : (vehBasis d n).k (vehBasis d n).len = 1 := by
    rw [vehBasis_k hn, hlen, Nat.add_sub_cancel, min_self]
    exact div_self (by positivity)
  have hs := Basis.sum_fn hb (x := t) (by rw [k0]; exact h0) (by rw [k1]; exact h1)
  rw [hlen] at hs
  unfold Spec.at'
  rw [BSpline.eval_eq hwf]
  show ∑ i ∈ range (vehBasis d n).len, c.getD i 0 * (vehBasis d n).fn i t = _
  rw [hlen]
  have e : ∀ i ∈ range (n + d), c.getD i 0 * (vehBasis d n).fn i t =
      a * (vehBasis d n).fn i t + w i * (vehBasis d n).fn i t * (b - a) := by
    intro i hi
    rw [hw i (Finset.mem_range.1 hi)]
    ring
  rw [Finset.sum_congr rfl e, Finset.sum_add_distrib, ← Finset.mul_sum, hs, mul_one, Finset.sum_mul]

/-- Coefficients at fixed fractions of the way give a straight motion. -/
theorem straight_of_weights (d n nspl : ℕ) (hn : 1 ≤ n) (w : ℕ → ℝ) (w0 : w 0 = 0) (w1 : w (n + d - 1) = 1)
    (hw01 : ∀ i, i < n + d → 0 ≤ w i ∧ w i ≤ 1) (g : List (List ℝ)) (p q : ℕ → ℝ) (hl : g.length = nspl)
    (hc : ∀ c ∈ g, c.length = n + d)
    (hw : ∀ k c, g[k]? = some c → ∀ i, i < n + d → c.getD i 0 = p k + w i * (q k - p k)) :
    Spec.Straight d n nspl g p q := by
  have hb := vehBasis_clamped (d := d) hn
  have hlen := vehBasis_len d n
  have k0 : (vehBasis d n).k 0 = 0 := by rw [vehBasis_k hn]; simp
  have k1 : (vehBasis d n).k (vehBasis d n).len = 1 := by
    rw [vehBasis_k hn, hlen, Nat.add_sub_cancel, min_self]
    exact div_self (by positivity)
  have kl : (vehBasis d n).k ((vehBasis d n).len - 1) < (vehBasis d n).k (vehBasis d n).len := by
    rw [k1, vehBasis_k hn, hlen, div_lt_one (by positivity)]
    exact Nat.cast_lt.2 (lt_of_le_of_lt (min_le_left _ _) (by omega))
  set W : List ℝ := (List.range (n + d)).map w with hW
  have hWl : W.length = n + d := by simp [hW]
  have hWg : ∀ i, i < n + d → W.getD i 0 = w i := fun i hi => by
    rw [List.getD_eq_getElem _ _ (by omega)]; simp [hW]
  have key := eval_weights d n hn w 0 1 W hWl (fun i hi => by rw [hWg i hi]; ring)
  simp only [sub_zero, mul_one, zero_add] at key
  have hwf : (BSpline.mk (vehBasis d n) W).WF := by simp [BSpline.WF, hWl, hlen]
  have ends := C03_endpoints (BSpline.mk (vehBasis d n) W) hb hwf kl
  have hhead : W.headD 0 = 0 := by
    have := hWg 0 (by omega)
    rw [w0, List.getD_eq_getElem?_getD] at this
    rw [List.headD_eq_head?_getD, List.head?_eq_getElem?, this]
  have hlast : W.getLastD 0 = 1 := by
    have := hWg (n + d - 1) (by omega)
    rw [w1, List.getD_eq_getElem?_getD] at this
    rw [List.getLastD_eq_getLast?, List.getLast?_eq_getElem?, hWl, this]
  have e0 : (vehBasis d n).knots.headD 0 = 0 := by rw [headD_eq_k hb, k0]
  have e1 : (vehBasis d n).knots.getLastD 0 = 1 := by rw [getLastD_eq_k hb, k1]
  refine ⟨hl, hc, fun t => Spec.at' d n W t, ?_, ?_, ?_, ?_⟩
  · have := ends.1
    dsimp only at this
    rw [e0, hhead] at this
    exact this
  · have := ends.2
    dsimp only at this
    rw [e1, hlast] at this
    exact this
  · intro t h0 h1
    exact C03_bounds (BSpline.mk (vehBasis d n) W) hb hwf 0 1 (by
      intro c hc
      obtain ⟨i, hi, rfl⟩ := List.mem_map.1 hc
      exact hw01 i (List.mem_range.1 hi)) t (by rw [e0]; exact h0) (by rw [e1]; exact h1)
  · intro k c hk t h0 h1
    dsimp only
    rw [key t h0 h1]
    exact eval_weights d n hn w (p k) (q k) c (hc c (List.mem_of_getElem? hk)) (hw k c hk) t h0 h1

theorem getD_rep (n i : ℕ) (a b : ℝ) (h : i < n) : (List.replicate n a).getD i b = a := by
  rw [List.getD_eq_getElem _ _ (by simpa using h)]; simp

theorem linspace_length (a b : ℝ) (n : ℕ) : (linspace a b n).length = n := by simp [linspace]

theorem linspace_getD (a b : ℝ) (n i : ℕ) (h : i < n) :
    (linspace a b n).getD i 0 = a + ((i : ℝ) / ((n : ℝ) - 1)) * (b - a) := by
  rw [List.getD_eq_getElem _ _ (by simpa [linspace] using h)]
  simp only [linspace, List.getElem_map, List.getElem_range]
  ring

theorem frac_bounds (n i : ℕ) (hn : 2 ≤ n) (h : i < n) :
    (0 : ℝ) ≤ (i : ℝ) / ((n : ℝ) - 1) ∧ (i : ℝ) / ((n : ℝ) - 1) ≤ 1 := by
  have h2 : (2 : ℝ) ≤ n := by exact_mod_cast hn
  have hi : (i : ℝ) + 1 ≤ n := by exact_mod_cast h
  refine ⟨div_nonneg (Nat.cast_nonneg _) (by linarith), ?_⟩
  rw [div_le_one (by linarith)]
  linarith

/-- The overlap centre is in both rooms. -/
theorem center_in (r1 r2 : Room) (h1 : 0 ≤ r1.w ∧ 0 ≤ r1.h) (h2 : 0 ≤ r2.w ∧ 0 ≤ r2.h) (c : ℝ × ℝ)
    (hc : overlapCenter (placedRect r1.w r1.h r1.pos) (placedRect r2.w r2.h r2.pos) = some c) :
    Spec.InRoom r1 c ∧ Spec.InRoom r2 c := by
  obtain ⟨w3, h3, hw, hh, e⟩ := (C38_center r1.w r1.h r2.w r2.h h1.1 h1.2 h2.1 h2.2 r1.pos r2.pos).2 c hc
  exact (e c).2 ⟨by simpa using by linarith, by simpa using by linarith⟩

theorem room_convex (r : Room) (p q : ℝ × ℝ) (hp : Spec.InRoom r p) (hq : Spec.InRoom r q) (f : ℝ) (h0 : 0 ≤ f)
    (h1 : f ≤ 1) : Spec.InRoom r (p.1 + f * (q.1 - p.1), p.2 + f * (q.2 - p.2)) := by
  have key : ∀ a b c m : ℝ, |a - c| ≤ m → |b - c| ≤ m → |a + f * (b - a) - c| ≤ m := by
    intro a b c m ha hb
    rw [abs_le] at ha hb ⊢
    constructor <;> nlinarith
  exact ⟨key _ _ _ _ hp.1 hq.1, key _ _ _ _ hp.2 hq.2⟩

/-! ## C148 -/

/-- C148 (one frame): for every predicted position and goal, the initial guess of a vehicle whose splines
are its coordinates (`Holonomic`, `Holonomic1D`, `Holonomic3D`, `SimpleQuadrotor3D`) is a straight motion
from the position to the goal. -/
theorem C148_straight (d n nspl : ℕ) (hn : 1 ≤ n) (hl : 2 ≤ n + d) (p q : ℕ → ℝ) :
    Spec.Straight d n nspl (straightGuess nspl (n + d) p q) p q := by
  have h2 : (2 : ℝ) ≤ ((n + d : ℕ) : ℝ) := by exact_mod_cast hl
  refine straight_of_weights d n nspl hn (fun i => (i : ℝ) / (((n + d : ℕ) : ℝ) - 1)) (by simp) ?_
    (fun i hi => frac_bounds _ i hl hi) _ p q (by simp [straightGuess]) ?_ ?_
  · rw [Nat.cast_sub (by omega), Nat.cast_one]
    exact div_self (by linarith)
  · intro c hc
    obtain ⟨k, -, rfl⟩ := List.mem_map.1 hc
    exact linspace_length _ _ _
  · intro k c hk i hi
    unfold straightGuess at hk
    rw [List.getElem?_map, Option.map_eq_some_iff] at hk
    obtain ⟨k', hk', rfl⟩ := hk
    obtain ⟨_, rfl⟩ := List.getElem?_eq_some_iff.1 hk'
    rw [List.getElem_range, linspace_getD _ _ _ _ hi]

/-- C148 (quadrotor): the guess of the 2D quadrotor is straight as well, whenever the spline has at least
as many knot intervals as its degree; with fewer, no guess can be computed. -/
theorem C148_quadrotor (d n : ℕ) (hn : 1 ≤ n) (hd : 1 ≤ d) (p q : ℕ → ℝ) :
    (n < d → quadrotorGuess d (n + d) p q = none) ∧
    (d ≤ n → ∃ g, quadrotorGuess d (n + d) p q = some g ∧ Spec.Straight d n 2 g p q) := by
  refine ⟨fun h => by unfold quadrotorGuess; rw [if_pos (by omega)], fun h => ?_⟩
  refine ⟨_, by unfold quadrotorGuess; rw [if_neg (by omega)], ?_⟩
  have hm : n + d - 2 * d = n - d := by omega
  rw [hm]
  -- fraction of coefficient `i`; with one value in the middle `linspace` gives the start
  refine straight_of_weights d n 2 hn (fun i => if i < d then 0 else if i < n then
    ((i - d : ℕ) : ℝ) / (((n - d : ℕ) : ℝ) - 1) else 1) (by simp [show 0 < d by omega]) ?_ ?_ _ p q (by simp) ?_ ?_
  · rw [if_neg (by omega), if_neg (by omega)]
  · intro i hi
    split_ifs with a b
    · simp
    · by_cases h1 : n - d = 1
      · have : i - d = 0 := by omega
        rw [this]; simp
      · exact frac_bounds _ _ (by omega) (by omega)
    · simp
  · intro c hc
    obtain ⟨k, -, rfl⟩ := List.mem_map.1 hc
    simp only [List.length_append, List.length_replicate, linspace_length]
    omega
  · intro k c hk i hi
    rw [List.getElem?_map, Option.map_eq_some_iff] at hk
    obtain ⟨k', hk', rfl⟩ := hk
    obtain ⟨_, rfl⟩ := List.getElem?_eq_some_iff.1 hk'
    rw [List.getElem_range]
    split_ifs with a b
    · rw [List.append_assoc, List.getD_append _ _ _ _ (by simpa using a), getD_rep _ _ _ _ a]
      ring
    · rw [List.append_assoc, List.getD_append_right _ _ _ _ (by simp; omega), List.length_replicate,
        List.getD_append _ _ _ _ (by rw [linspace_length]; omega), linspace_getD _ _ _ _ (by omega)]
    · rw [List.getD_append_right _ _ _ _ (by simp [linspace_length]; omega)]
      simp only [List.length_append, List.length_replicate, linspace_length]
      rw [getD_rep _ _ _ _ (by omega)]
      ring

/-- C148 (holonomic vehicle with orientation) violated: whenever the half-angle tangent of the predicted
orientation is not zero, the guess for the orientation is not that orientation at the start: the third
spline of the guess is zero all along. -/
theorem C148_orient_violated (d n : ℕ) (hn : 1 ≤ n) (p q : ℕ → ℝ) (hp : p 2 ≠ 0 ∨ q 2 ≠ 0) :
    ¬ Spec.Straight d n 3 (orientGuess (n + d) p q) p q ∧
    ∃ c, (orientGuess (n + d) p q)[2]? = some c ∧ ∀ t, 0 ≤ t → t ≤ 1 → Spec.at' d n c t = 0 := by
  have h2 : (orientGuess (n + d) p q)[2]? = some (List.replicate (n + d) 0) := by
    simp [orientGuess]
  have hz : ∀ t, 0 ≤ t → t ≤ 1 → Spec.at' d n (List.replicate (n + d) 0) t = 0 := by
    intro t h0 h1
    rw [eval_weights d n hn (fun _ => 0) 0 0 _ (by simp) (fun i hi => by
      rw [getD_rep _ _ _ _ hi]; ring) t h0 h1]
    simp
  refine ⟨?_, _, h2, hz⟩
  rintro ⟨-, -, f, f0, f1, -, hf⟩
  have a := hf 2 _ h2 0 le_rfl zero_le_one
  have b := hf 2 _ h2 1 zero_le_one le_rfl
  rw [hz 0 le_rfl zero_le_one, f0] at a
  rw [hz 1 zero_le_one le_rfl, f1] at b
  rcases hp with h | h
  · exact h (by linarith)
  · exact h (by linarith)

/-- C148 (partial: the position of the vehicle with orientation): the first two splines of that guess are
a straight motion. -/
theorem C148_orient_partial (d n : ℕ) (hn : 1 ≤ n) (hl : 2 ≤ n + d) (p q : ℕ → ℝ) :
    Spec.Straight d n 2 ((orientGuess (n + d) p q).take 2) p q := by
  have : (orientGuess (n + d) p q).take 2 = straightGuess 2 (n + d) p q := by
    simp [orientGuess, straightGuess, List.range_succ]
  rw [this]
  exact C148_straight d n 2 hn hl p q

theorem position_straight (d n : ℕ) (hn : 1 ≤ n) (hl : 2 ≤ n + d) (a b : ℝ × ℝ) :
    ∃ f : ℝ → ℝ, f 0 = 0 ∧ f 1 = 1 ∧ (∀ t, 0 ≤ t → t ≤ 1 → 0 ≤ f t ∧ f t ≤ 1) ∧ ∀ t, 0 ≤ t → t ≤ 1 →
      Spec.position d n (straightGuess 2 (n + d) (coord a) (coord b)) t =
        (a.1 + f t * (b.1 - a.1), a.2 + f t * (b.2 - a.2)) := by
  obtain ⟨-, -, f, f0, f1, hf, h⟩ := C148_straight d n 2 hn hl (coord a) (coord b)
  refine ⟨f, f0, f1, hf, fun t h0 h1 => ?_⟩
  have e : straightGuess 2 (n + d) (coord a) (coord b) =
      [linspace (coord a 0) (coord b 0) (n + d), linspace (coord a 1) (coord b 1) (n + d)] := by
    simp [straightGuess, List.range_succ]
  rw [e] at h ⊢
  have hx := h 0 _ rfl t h0 h1
  have hy := h 1 _ rfl t h0 h1
  simp only [coord, if_true, if_neg one_ne_zero] at hx hy
  unfold Spec.position
  simp only [List.getD_cons_zero, List.getD_cons_succ, coord, if_true, if_neg one_ne_zero]
  rw [hx, hy]

/-- Specification of a guess over several rooms: one piece per room, each in its room, the first starting in
`p`, every piece ending where the next starts, the last ending in `q`. -/
def Spec.Through (d n : ℕ) (rooms : List Room) (g : List (List (List ℝ))) (p q : ℝ × ℝ) : Prop :=
  g.length = rooms.length ∧
  (∀ (j : ℕ) r s, rooms[j]? = some r → g[j]? = some s → ∀ t, 0 ≤ t → t ≤ 1 → Spec.InRoom r (Spec.position d n s t)) ∧
  (∀ s, g.head? = some s → Spec.position d n s 0 = p) ∧
  (∀ s, g.getLast? = some s → Spec.position d n s 1 = q) ∧
  ∀ (j : ℕ) s s', g[j]? = some s → g[j + 1]? = some s' → Spec.position d n s 1 = Spec.position d n s' 0

theorem between_through (d n : ℕ) (hn : 1 ≤ n) (hl : 2 ≤ n + d) (rooms : List Room) (hne : rooms ≠ [])
    (hpos : ∀ r ∈ rooms, 0 ≤ r.w ∧ 0 ≤ r.h) (p q : ℝ × ℝ) (s : List (ℝ × ℝ)) (hs : subgoals rooms = some s)
    (hp : ∀ r, rooms.head? = some r → Spec.InRoom r p) (hq : ∀ r, rooms.getLast? = some r → Spec.InRoom r q) :
    Spec.Through d n rooms (between (n + d) (p :: s ++ [q])) p q := by
  induction rooms generalizing p s with
  | nil => exact absurd rfl hne
  | cons r rest ih =>
    cases rest with
    | nil =>
      simp only [subgoals, Option.some.injEq] at hs
      subst hs
      obtain ⟨f, f0, f1, hf, hpos'⟩ := position_straight d n hn hl p q
      have hr := hp r rfl
      have hr' := hq r rfl
      simp only [List.cons_append, List.nil_append, between]
      refine ⟨rfl, ?_, ?_, ?_, ?_⟩
      · intro j r' s' hj hj' t h0 h1
        cases j with
        | zero =>
          simp only [List.getElem?_cons_zero, Option.some.injEq] at hj hj'
          subst hj hj'
          rw [hpos' t h0 h1]
          exact room_convex r p q hr hr' _ (hf t h0 h1).1 (hf t h0 h1).2
        | succ j => simp at hj
      · intro s' hs'
        simp only [List.head?_cons, Option.some.injEq] at hs'
        subst hs'
        rw [hpos' 0 le_rfl zero_le_one, f0]; simp
      · intro s' hs'
        simp only [List.getLast?_singleton, Option.some.injEq] at hs'
        subst hs'
        rw [hpos' 1 zero_le_one le_rfl, f1]; simp
      · intro j s1 s2 h1 h2
        simp at h2
    | cons r2 rest =>
      unfold subgoals at hs
      cases hc : overlapCenter (placedRect r.w r.h r.pos) (placedRect r2.w r2.h r2.pos) with
      | none => rw [hc] at hs; simp at hs
      | some c =>
        cases hcs : subgoals (r2 :: rest) with
        | none => rw [hc, hcs] at hs; simp at hs
        | some cs =>
          rw [hc, hcs] at hs
          simp only [Option.some.injEq] at hs
          subst hs
          obtain ⟨hc1, hc2⟩ := center_in r r2 (hpos r (by simp)) (hpos r2 (by simp)) c hc
          have ih' := ih (by simp) (fun x hx => hpos x (by simp [hx])) c cs hcs
            (by intro x hx; simp only [List.head?_cons, Option.some.injEq] at hx; subst hx; exact hc2)
            (by intro x hx; exact hq x (by rw [List.getLast?_cons_cons]; exact hx))
          obtain ⟨i1, i2, i3, i4, i5⟩ := ih'
          obtain ⟨f, f0, f1, hf, hpos'⟩ := position_straight d n hn hl p c
          set tail := between (n + d) (c :: cs ++ [q]) with htail
          have hb : between (n + d) (p :: (c :: cs) ++ [q]) =
              straightGuess 2 (n + d) (coord p) (coord c) :: tail := by
            rw [htail]; simp only [List.cons_append, between]
          rw [hb]
          have hne' : tail ≠ [] := by
            intro h; rw [h] at i1; simp at i1
          refine ⟨by simp [i1], ?_, ?_, ?_, ?_⟩
          · intro j r' s' hj hj' t h0 h1
            cases j with
            | zero =>
              simp only [List.getElem?_cons_zero, Option.some.injEq] at hj hj'
              subst hj hj'
              rw [hpos' t h0 h1]
              exact room_convex r p c (hp r rfl) hc1 _ (hf t h0 h1).1 (hf t h0 h1).2
            | succ j =>
              simp only [List.getElem?_cons_succ] at hj hj'
              exact i2 j r' s' hj hj' t h0 h1
          · intro s' hs'
            simp only [List.head?_cons, Option.some.injEq] at hs'
            subst hs'
            rw [hpos' 0 le_rfl zero_le_one, f0]; simp
          · intro s' hs'
            obtain ⟨a, l, e⟩ := List.exists_cons_of_ne_nil hne'
            rw [e, List.getLast?_cons_cons, ← e] at hs'
            exact i4 s' hs'
          · intro j s1 s2 h1 h2
            cases j with
            | zero =>
              simp only [List.getElem?_cons_zero, Option.some.injEq, List.getElem?_cons_succ] at h1 h2
              subst h1
              rw [hpos' 1 zero_le_one le_rfl, f1, i3 s2 (by rw [List.head?_eq_getElem?]; exact h2)]
              simp
            | succ j =>
              simp only [List.getElem?_cons_succ] at h1 h2
              exact i5 j s1 s2 h1 h2

theorem subgoals_isSome (rooms : List Room) (hpos : ∀ r ∈ rooms, 0 ≤ r.w ∧ 0 ≤ r.h) :
    (subgoals rooms).isSome = true ↔ ∀ j r r', rooms[j]? = some r → rooms[j + 1]? = some r' →
      ∃ p, Spec.InRoom r p ∧ Spec.InRoom r' p := by
  induction rooms with
  | nil => simp [subgoals]
  | cons r rest ih =>
    cases rest with
    | nil => simp [subgoals]
    | cons r2 rest =>
      have ih' := ih (fun x hx => hpos x (by simp [hx]))
      have h1 := hpos r (by simp)
      have h2 := hpos r2 (by simp)
      have hc := (C38_center r.w r.h r2.w r2.h h1.1 h1.2 h2.1 h2.2 r.pos r2.pos).1
      have : (subgoals (r :: r2 :: rest)).isSome = true ↔
          (overlapCenter (placedRect r.w r.h r.pos) (placedRect r2.w r2.h r2.pos)).isSome = true ∧
          (subgoals (r2 :: rest)).isSome = true := by
        rw [subgoals]
        cases overlapCenter (placedRect r.w r.h r.pos) (placedRect r2.w r2.h r2.pos) <;>
          cases subgoals (r2 :: rest) <;> simp
      rw [this, hc, ih']
      constructor
      · rintro ⟨a, b⟩ j x y hx hy
        cases j with
        | zero =>
          simp only [List.getElem?_cons_zero, Option.some.injEq, List.getElem?_cons_succ] at hx hy
          subst hx hy
          exact a
        | succ j =>
          simp only [List.getElem?_cons_succ] at hx hy
          exact b j x y hx hy
      · intro h
        exact ⟨h 0 r r2 rfl rfl, fun j x y hx hy => h (j + 1) x y hx hy⟩

/-- C148 (several frames): for every sequence of rooms, a guess is computed exactly when every two
consecutive rooms overlap; if moreover the vehicle is in the first room and the goal in the last one, the
guess goes through the rooms: each piece stays in its room, the pieces connect, the first starts at the
vehicle and the last ends in the goal. -/
theorem C148_frames (d n : ℕ) (hn : 1 ≤ n) (hl : 2 ≤ n + d) (rooms : List Room) (hne : rooms ≠ [])
    (hpos : ∀ r ∈ rooms, 0 ≤ r.w ∧ 0 ≤ r.h) (p q : ℝ × ℝ) :
    ((framesGuess (n + d) rooms p q).isSome = true ↔ ∀ j r r', rooms[j]? = some r → rooms[j + 1]? = some r' →
      ∃ x, Spec.InRoom r x ∧ Spec.InRoom r' x) ∧
    ∀ g, framesGuess (n + d) rooms p q = some g → (∀ r, rooms.head? = some r → Spec.InRoom r p) →
      (∀ r, rooms.getLast? = some r → Spec.InRoom r q) → Spec.Through d n rooms g p q := by
  constructor
  · rw [← subgoals_isSome rooms hpos]
    unfold framesGuess holonomicGuess
    cases subgoals rooms with
    | none => simp
    | some s => dsimp only; split_ifs <;> simp
  · intro g hg hp hq
    unfold framesGuess at hg
    cases hs : subgoals rooms with
    | none => rw [hs] at hg; simp at hg
    | some s =>
      rw [hs] at hg
      have hb := between_through d n hn hl rooms hne hpos p q s hs hp hq
      have : between (n + d) (p :: s ++ [q]) = g := by
        unfold holonomicGuess at hg
        dsimp only at hg
        split_ifs at hg with h1
        · obtain ⟨r, rfl⟩ := List.length_eq_one_iff.1 h1
          simp only [subgoals, Option.some.injEq] at hs
          subst hs
          simpa [between] using hg
        · simpa using hg
      rw [← this]
      exact hb

/-- Two rooms side by side with a common strip: the guess goes through the centre `(4, 0)` of the strip. -/
example : ∃ g, framesGuess 13 [⟨10, 10, (0, 0)⟩, ⟨10, 6, (8, 0)⟩] (-4, 1) (12, 2) = some g ∧
    Spec.Through 3 10 [⟨10, 10, (0, 0)⟩, ⟨10, 6, (8, 0)⟩] g (-4, 1) (12, 2) := by
  have h := C148_frames 3 10 (by norm_num) (by norm_num) [⟨10, 10, (0, 0)⟩, ⟨10, 6, (8, 0)⟩] (by simp)
    (by simp) (-4, 1) (12, 2)
  have hs := h.1.2 (by
    intro j r r' hr hr'
    cases j with
    | zero =>
      simp only [List.getElem?_cons_zero, Option.some.injEq, List.getElem?_cons_succ] at hr hr'
      subst hr hr'
      exact ⟨(4, 0), by constructor <;> norm_num [abs_le], by constructor <;> norm_num [abs_le]⟩
    | succ j => simp at hr')
  obtain ⟨g, hg⟩ := Option.isSome_iff_exists.1 hs
  refine ⟨g, hg, h.2 g hg ?_ ?_⟩
  · intro r hr
    simp only [List.head?_cons, Option.some.injEq] at hr
    subst hr
    constructor <;> norm_num [abs_le]
  · intro r hr
    simp only [List.getLast?_cons_cons, List.getLast?_singleton, Option.some.injEq] at hr
    subst hr
    constructor <;> norm_num [abs_le]

example : Spec.Straight 3 10 2 (straightGuess 2 13 (coord (-1, 2)) (coord (3, 0))) (coord (-1, 2)) (coord (3, 0)) :=
  C148_straight 3 10 2 (by norm_num) (by norm_num) _ _

example : ∃ g, quadrotorGuess 4 14 (coord (0, 0)) (coord (3, 5)) = some g ∧
    Spec.Straight 4 10 2 g (coord (0, 0)) (coord (3, 5)) :=
  (C148_quadrotor 4 10 (by norm_num) (by norm_num) _ _).2 (by norm_num)

example : ¬ Spec.Straight 3 10 3 (orientGuess 13 (fun _ => 1) (fun _ => 2)) (fun _ => 1) (fun _ => 2) :=
  (C148_orient_violated 3 10 (by norm_num) _ _ (Or.inl one_ne_zero)).1

/-! ## Model: resetting the initial guess -/

/-- What is passed around as initial guess: a two-dimensional array (numbers of rows and columns and the
values) or a list (of such values, which has no attribute `shape`). -/
inductive Val (α : Type) where
  | arr (cols : ℕ) (data : α)
  | list (items : List (Val α))

/-- Errors of Python. -/
inductive Err where
  | valueError
  | attributeError
  deriving DecidableEq, Repr

/-- A vehicle: number of segments, number of splines and what its `get_init_spline_value()` returns (without
subgoals; `none` is the `AttributeError` of holonomic.py:131-133). -/
structure Veh (α : Type) where
  nSeg : ℕ
  nSpl : ℕ
  guess : Option (Val α)

/-- The loop over the segments of one vehicle, problem.py:177-181: stores `(segment, data)`. -/
def setSegs {α : Type} (nSpl : ℕ) : List (ℕ × Val α) → List (ℕ × α) × Option Err
  | [] => ([], none)
  | (l, .arr cols data) :: rest =>
    if cols ≠ nSpl then ([], some .valueError)
    else let r := setSegs nSpl rest; ((l, data) :: r.1, r.2)
  | (_, .list _) :: _ => ([], some .attributeError)

/-- The loop over the vehicles, problem.py:174-181: what is stored (`(vehicle, segment, data)`) until the
first error. -/
def setVehs {α : Type} (g : List (Val α)) : List (ℕ × Veh α) → List (ℕ × ℕ × α) × Option Err
  | [] => ([], none)
  | (k, v) :: rest =>
    if g.length ≠ v.nSeg then ([], some .valueError)
    else
      let r := setSegs v.nSpl ((List.range g.length).zip g)
      match r.2 with
      | some e => (r.1.map fun x => (k, x), some e)
      | none => let s := setVehs g rest; (r.1.map (fun x => (k, x)) ++ s.1, s.2)

/-- The list built without argument, problem.py:166-170. -/
def defaultGuess {α : Type} : List (Veh α) → Option (List (Val α))
  | [] => some []
  | v :: rest => match v.guess, defaultGuess rest with
    | some g, some gs => some (g :: gs)
    | _, _ => none

/-- `Problem.reset_init_guess`, problem.py:165-181; the argument is `none`, a list or one array. Returns what
is stored in the variables and the error that is raised, if any. -/
def resetInitGuess {α : Type} (vehs : List (Veh α)) (arg : Option (Val α)) : List (ℕ × ℕ × α) × Option Err :=
  let numbered := (List.range vehs.length).zip vehs
  match arg with
  | none => match defaultGuess vehs with
    | none => ([], some .attributeError)
    | some g => setVehs g numbered
  | some (.list g) => setVehs g numbered
  | some (.arr c d) => setVehs [.arr c d] numbered

/-! ## C149 -/

theorem setSegs_list {α : Type} (nSpl : ℕ) (rest : List (ℕ × Val α)) (l : ℕ) (items : List (Val α)) :
    (setSegs nSpl ((l, .list items) :: rest)).2 = some .attributeError := rfl

/-- C149 violated: called without an argument, as `solve` does when the solver runs out of time,
`reset_init_guess` raises an error and stores nothing, for every problem with at least one vehicle:
`get_init_spline_value()` of a vehicle returns a list (one array per segment), so a list of lists is
built. -/
theorem C149_violated {α : Type} (vehs : List (Veh α)) (hne : vehs ≠ []) (hseg : ∀ v ∈ vehs, 1 ≤ v.nSeg)
    (hlist : ∀ v ∈ vehs, ∀ g, v.guess = some g → ∃ items, g = .list items) :
    (resetInitGuess vehs none).2 ≠ none ∧ (resetInitGuess vehs none).1 = [] := by
  unfold resetInitGuess
  dsimp only
  cases hd : defaultGuess vehs with
  | none => simp
  | some g =>
    dsimp only
    obtain ⟨v, rest, rfl⟩ := List.exists_cons_of_ne_nil hne
    rw [List.length_cons, List.range_succ_eq_map, List.zip_cons_cons]
    unfold setVehs
    by_cases hl : g.length ≠ v.nSeg
    · rw [if_pos hl]; simp
    · rw [if_neg hl]
      unfold defaultGuess at hd
      cases hg : v.guess with
      | none => rw [hg] at hd; simp at hd
      | some gv =>
        obtain ⟨items, rfl⟩ := hlist v (by simp) gv hg
        rw [hg] at hd
        cases hr : defaultGuess rest with
        | none => rw [hr] at hd; simp at hd
        | some gs =>
          rw [hr] at hd
          simp only [Option.some.injEq] at hd
          subst hd
          rw [List.length_cons, List.range_succ_eq_map, List.zip_cons_cons]
          simp [setSegs]

theorem setSegs_ok {α : Type} (nSpl : ℕ) (gs : List (ℕ × ℕ × α)) :
    ((setSegs nSpl (gs.map fun x => (x.1, Val.arr x.2.1 x.2.2))).2 = none ↔ ∀ x ∈ gs, x.2.1 = nSpl) ∧
    ((∀ x ∈ gs, x.2.1 = nSpl) → (setSegs nSpl (gs.map fun x => (x.1, Val.arr x.2.1 x.2.2))).1 =
      gs.map fun x => (x.1, x.2.2)) := by
  induction gs with
  | nil => simp [setSegs]
  | cons x rest ih =>
    obtain ⟨l, c, dt⟩ := x
    simp only [List.map_cons, setSegs]
    by_cases h : c = nSpl
    · rw [if_neg (not_not.2 h)]
      dsimp only
      constructor
      · rw [ih.1]; simp [h]
      · intro hh
        rw [ih.2 fun x hx => hh x (by simp [hx])]
    · rw [if_pos h]
      simp [h]

/-- C149 (partial: with an explicit guess, a list of arrays): for every list of vehicles, the guess is
accepted exactly when every vehicle has as many segments as arrays are given and as many splines as each
array has columns. Then array `l` is stored for segment `l` of every vehicle, and nothing else is stored. -/
theorem C149_partial {α : Type} (vehs : List (Veh α)) (gs : List (ℕ × α)) :
    ((resetInitGuess vehs (some (.list (gs.map fun x => .arr x.1 x.2)))).2 = none ↔
      ∀ v ∈ vehs, v.nSeg = gs.length ∧ ∀ x ∈ gs, x.1 = v.nSpl) ∧
    ((resetInitGuess vehs (some (.list (gs.map fun x => .arr x.1 x.2)))).2 = none →
      ∀ k l a, (k, l, a) ∈ (resetInitGuess vehs (some (.list (gs.map fun x => .arr x.1 x.2)))).1 ↔
        k < vehs.length ∧ ∃ c, gs[l]? = some (c, a)) := by
  have e : (List.range (gs.map fun x => Val.arr x.1 x.2).length).zip (gs.map fun x => (Val.arr x.1 x.2 : Val α)) =
      ((List.range gs.length).zip gs).map fun x => (x.1, Val.arr x.2.1 x.2.2) := by
    rw [List.length_map]
    have := List.zip_map (f := id) (g := fun x : ℕ × α => (Val.arr x.1 x.2 : Val α)) (l₁ := List.range gs.length) (l₂ := gs)
    rw [List.map_id] at this
    rw [this]; rfl
  have hmem : ∀ (P : ℕ → Prop), (∀ x ∈ (List.range gs.length).zip gs, P x.2.1) ↔ ∀ x ∈ gs, P x.1 := by
    intro P
    constructor
    · intro h x hx
      obtain ⟨i, hi, rfl⟩ := List.getElem_of_mem hx
      exact h (i, gs[i]) (List.mem_of_getElem? (i := i) (by
        rw [List.getElem?_zip_eq_some]; simp [hi]))
    · intro h x hx
      exact h x.2 (List.of_mem_zip (a := x.1) (b := x.2) hx).2
  have hget : ∀ l a, (l, a) ∈ ((List.range gs.length).zip gs).map (fun x => (x.1, x.2.2)) ↔ ∃ c, gs[l]? = some (c, a) := by
    intro l a
    rw [List.mem_map]
    constructor
    · rintro ⟨⟨i, c, a'⟩, hx, hxe⟩
      obtain ⟨j, hj⟩ := List.mem_iff_getElem?.1 hx
      rw [List.getElem?_zip_eq_some] at hj
      obtain ⟨h1, h2⟩ := hj
      have hji : j = i := by
        obtain ⟨_, hh⟩ := List.getElem?_eq_some_iff.1 h1
        rw [List.getElem_range] at hh; exact hh
      subst hji
      simp only [Prod.mk.injEq] at hxe
      obtain ⟨rfl, rfl⟩ := hxe
      exact ⟨c, h2⟩
    · rintro ⟨c, hc⟩
      have hlt := (List.getElem?_eq_some_iff.1 hc).1
      refine ⟨(l, c, a), List.mem_of_getElem? (i := l) ?_, rfl⟩
      rw [List.getElem?_zip_eq_some]
      exact ⟨by simp [hlt], hc⟩
  have main : ∀ (vs : List (ℕ × Veh α)),
      ((setVehs (gs.map fun x => Val.arr x.1 x.2) vs).2 = none ↔
        ∀ v ∈ vs, v.2.nSeg = gs.length ∧ ∀ x ∈ gs, x.1 = v.2.nSpl) ∧
      ((setVehs (gs.map fun x => Val.arr x.1 x.2) vs).2 = none → ∀ k l a,
        (k, l, a) ∈ (setVehs (gs.map fun x => Val.arr x.1 x.2) vs).1 ↔
          (∃ v, (k, v) ∈ vs) ∧ ∃ c, gs[l]? = some (c, a)) := by
    intro vs
    induction vs with
    | nil => simp [setVehs]
    | cons kv rest ih =>
      obtain ⟨k, v⟩ := kv
      rw [setVehs, e, List.length_map]
      by_cases h : gs.length = v.nSeg
      · rw [if_neg (not_not.2 h)]
        have hs := setSegs_ok v.nSpl ((List.range gs.length).zip gs)
        dsimp only
        cases hr : (setSegs v.nSpl (((List.range gs.length).zip gs).map fun x => (x.1, Val.arr x.2.1 x.2.2))).2 with
        | some er =>
          dsimp only
          have hn : ¬ ∀ x ∈ gs, x.1 = v.nSpl := by
            intro hh
            rw [hs.1.2 ((hmem (· = v.nSpl)).2 hh)] at hr
            simp at hr
          refine ⟨⟨fun hh => by simp at hh, fun hh => absurd (hh (k, v) (by simp)).2 hn⟩, fun hh => by simp at hh⟩
        | none =>
          dsimp only
          have hcols := hs.1.1 hr
          have hcols' := (hmem (· = v.nSpl)).1 hcols
          refine ⟨?_, ?_⟩
          · rw [ih.1]
            simp only [List.mem_cons, forall_eq_or_imp]
            exact ⟨fun hh => ⟨⟨h.symm, hcols'⟩, hh⟩, fun hh => hh.2⟩
          · intro hh k' l a
            rw [List.mem_append, ih.2 hh, hs.2 hcols, List.mem_map]
            constructor
            · rintro (⟨x, hx, hxe⟩ | ⟨⟨v', hv'⟩, hc⟩)
              · obtain ⟨i, a'⟩ := x
                simp only [Prod.mk.injEq] at hxe
                obtain ⟨rfl, rfl, rfl⟩ := hxe
                exact ⟨⟨v, by simp⟩, (hget _ _).1 hx⟩
              · exact ⟨⟨v', by simp [hv']⟩, hc⟩
            · rintro ⟨⟨v', hv'⟩, hc⟩
              rcases List.mem_cons.1 hv' with he | hv''
              · simp only [Prod.mk.injEq] at he
                obtain ⟨rfl, rfl⟩ := he
                exact Or.inl ⟨(l, a), (hget _ _).2 hc, rfl⟩
              · exact Or.inr ⟨⟨v', hv''⟩, hc⟩
      · rw [if_pos h]
        refine ⟨⟨fun hh => by simp at hh, fun hh => absurd (hh (k, v) (by simp)).1.symm h⟩, fun hh => by simp at hh⟩
  have hv : (∀ v ∈ (List.range vehs.length).zip vehs, v.2.nSeg = gs.length ∧ ∀ x ∈ gs, x.1 = v.2.nSpl) ↔
      ∀ v ∈ vehs, v.nSeg = gs.length ∧ ∀ x ∈ gs, x.1 = v.nSpl := by
    constructor
    · intro h v hv
      obtain ⟨i, hi, rfl⟩ := List.getElem_of_mem hv
      exact h (i, vehs[i]) (List.mem_of_getElem? (i := i) (by rw [List.getElem?_zip_eq_some]; simp [hi]))
    · intro h v hv
      exact h v.2 (List.of_mem_zip (a := v.1) (b := v.2) hv).2
  have hk : ∀ k, (∃ v, (k, v) ∈ (List.range vehs.length).zip vehs) ↔ k < vehs.length := by
    intro k
    constructor
    · rintro ⟨v, hv⟩
      exact List.mem_range.1 (List.of_mem_zip hv).1
    · intro h
      exact ⟨vehs[k], List.mem_of_getElem? (i := k) (by rw [List.getElem?_zip_eq_some]; simp [h])⟩
  have m := main ((List.range vehs.length).zip vehs)
  unfold resetInitGuess
  dsimp only
  refine ⟨by rw [m.1, hv], fun h k l a => ?_⟩
  rw [m.2 h, hk]

/-- C149 (partial: one array): an array that is not in a list counts as a list of one. -/
theorem C149_array_partial {α : Type} (vehs : List (Veh α)) (cols : ℕ) (a : α) :
    resetInitGuess vehs (some (.arr cols a)) = resetInitGuess vehs (some (.list [.arr cols a])) := rfl

/-- Two vehicles in two segments get the two arrays each; one vehicle with one segment and no argument
crashes. -/
example : resetInitGuess [⟨2, 2, none⟩, ⟨2, 2, none⟩] (some (.list [.arr 2 "a", .arr 2 "b"])) =
      ([(0, 0, "a"), (0, 1, "b"), (1, 0, "a"), (1, 1, "b")], none) ∧
    resetInitGuess [⟨1, 2, some (.list [.arr 2 "a"])⟩] none = ([], some .attributeError) ∧
    resetInitGuess [⟨1, 2, some (.list [.arr 2 "a"])⟩, ⟨1, 2, some (.list [.arr 2 "b"])⟩] none =
      ([], some .valueError) := ⟨rfl, rfl, rfl⟩

end Verif.Problems.InitGuess
