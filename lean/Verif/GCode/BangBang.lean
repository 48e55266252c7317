import Verif.Vehicles.Tool
import Verif.Vehicles.Integrate
import Verif.GCode.MotionTime
import Mathlib.Analysis.SpecialFunctions.Integrals.Basic

/-! # The initial guess of straight machining segments (C154) -/

set_option linter.unusedSectionVars false

namespace Verif.GCode.BangBang

open Verif.Spline Verif.Vehicles Finset

/-! ## Model -/

/-- The limits of the tool that are read here, tool.py:48-77. -/
structure Lim where
  vx : ℝ
  vy : ℝ
  vz : ℝ
  ax : ℝ
  ay : ℝ
  az : ℝ
  jx : ℝ
  jy : ℝ
  jz : ℝ
  jxmin : ℝ

/-- What can go wrong: the exceptions of the code, and guesses of `nan`. -/
inductive Err where
  | limits
  | nan
  | velx | vely | accx | accy | jerkx | jerky
deriving DecidableEq

/-- `coeffs_j`, gcodeschedulerproblem.py:889-910, for `n` coefficients. -/
def jerkCoeffs (n : ℕ) (j : ℝ) : List ℝ :=
  let m := n / 4
  if n % 4 = 0 then List.replicate m j ++ List.replicate (2 * m) (-j) ++ List.replicate m j
  else if n % 4 = 1 then List.replicate m j ++ List.replicate m (-j) ++ [0] ++ List.replicate m (-j) ++ List.replicate m j
  else if n % 4 = 2 then List.replicate m j ++ [0] ++ List.replicate (2 * m) (-j) ++ [0] ++ List.replicate m j
  else List.replicate m j ++ [0] ++ List.replicate m (-j) ++ [0] ++ List.replicate m (-j) ++ [0] ++ List.replicate m j

/-- `self.vehicles[0].basis.derivative(3)[0]`, spline.py:249. -/
def jerkBasis (B : Basis ℝ) : Basis ℝ := ⟨(B.knots.drop 3).take (B.knots.length - 2 * 3), B.degree - 3⟩

/-- `pos`, gcodeschedulerproblem.py:912-916. -/
noncomputable def profile (B : Basis ℝ) (j : ℝ) : BSpline ℝ :=
  runningIntegral (runningIntegral (runningIntegral ⟨jerkBasis B, jerkCoeffs (jerkBasis B).len j⟩))

/-- `guess_x` or `guess_y`, gcodeschedulerproblem.py:917-937: scaled and shifted, the first and last three coefficients overwritten. -/
noncomputable def axisGuess (P : List ℝ) (a b : ℝ) : List ℝ :=
  let g := P.map fun p => p / P.getLastD 0 * (b - a) + a
  (((((g.set 0 a).set 1 a).set 2 a).set (g.length - 3) b).set (g.length - 2) b).set (g.length - 1) b

/-- `np.linspace(a, b, n)`. -/
noncomputable def linspace (a b : ℝ) (n : ℕ) : List ℝ := (List.range n).map fun i : ℕ => a + (b - a) * ((i : ℝ) / ((n - 1 : ℕ) : ℝ))

/-- `eval = np.linspace(0,1,100)`. -/
noncomputable def grid : List ℝ := linspace 0 1 100

/-- `max` of the values on the grid (which contains 0). -/
noncomputable def peak (f : ℝ → ℝ) : ℝ := (grid.map f).foldr max (f 0)

/-- `get_init_guess_motion_time` with coefficients, gcodeschedulerproblem.py:1139-1185. -/
noncomputable def motionTime (L : Lim) (x y z : BSpline ℝ) : ℝ :=
  let top (o : ℕ) : ℝ := max (peak fun τ => |(x.derivative o).eval τ|) (peak fun τ => |(y.derivative o).eval τ|)
  let topz (o : ℕ) : ℝ := peak fun τ => |(z.derivative o).eval τ|
  let tj := (if L.jx ≠ 0 then top 3 / L.jx else topz 3 / L.jz) ^ ((1 : ℝ) / 3)
  let ta := Real.sqrt (if L.ax ≠ 0 then top 2 / L.ax else topz 2 / L.az)
  let tv := if L.vx ≠ 0 then top 1 / L.vx else topz 1 / L.vz
  1.05 * max tj (max ta tv)

/-- The guess for a segment: the splines and the motion time. -/
structure Guess where
  x : BSpline ℝ
  y : BSpline ℝ
  z : BSpline ℝ
  T : ℝ

/-- `get_init_guess_bangbang_jerk`, gcodeschedulerproblem.py:875-968, for a vehicle with the basis `B`. When the last coefficient of
the profile is zero, the divisions of 0 by 0 give `nan`. -/
noncomputable def bangbang (B : Basis ℝ) (L : Lim) (start finish : ℝ × ℝ × ℝ) : Except Err Guess :=
  if L.jx ≠ L.jy then .error .limits
  else if L.jx ≠ -L.jxmin then .error .limits
  else
    let P := (profile B L.jx).coeffs
    if P.getLastD 0 = 0 then .error .nan
    else
      let x : BSpline ℝ := ⟨B, axisGuess P start.1 finish.1⟩
      let y : BSpline ℝ := ⟨B, axisGuess P start.2.1 finish.2.1⟩
      let z : BSpline ℝ := ⟨B, linspace start.2.2 finish.2.2 P.length⟩
      .ok ⟨x, y, z, motionTime L x y z⟩

/-- The tests of `get_init_guess_new_segment`, gcodeschedulerproblem.py:838-872. -/
noncomputable def tested (L : Lim) (g : Guess) : Except Err Guess :=
  if peak (fun τ => (g.x.derivative 1).eval τ / g.T) > L.vx then .error .velx
  else if peak (fun τ => (g.y.derivative 1).eval τ / g.T) > L.vy then .error .vely
  else if peak (fun τ => (g.x.derivative 2).eval τ / g.T ^ 2) > L.ax then .error .accx
  else if peak (fun τ => (g.y.derivative 2).eval τ / g.T ^ 2) > L.ay then .error .accy
  else if peak (fun τ => (g.x.derivative 3).eval τ / g.T ^ 3) > L.jx then .error .jerkx
  else if peak (fun τ => (g.y.derivative 3).eval τ / g.T ^ 3) > L.jy then .error .jerky
  else .ok g

/-- `get_init_guess_new_segment` for a segment with a rectangle as shape, gcodeschedulerproblem.py:824-873. -/
noncomputable def newSegment (B : Basis ℝ) (L : Lim) (start finish : ℝ × ℝ × ℝ) : Except Err Guess :=
  match bangbang B L start finish with
  | .error e => .error e
  | .ok g => tested L g

/-! ## Lemmas: the coefficients -/

/-- Where the signs of the jerk change: number of coefficients per phase, zeros between the phases, zero in the middle. -/
def ph (n : ℕ) : ℕ × ℕ × ℕ := (n / 4, n % 4 / 2, n % 4 % 2)

def sgn (n i : ℕ) : ℤ :=
  let q := n / 4; let z := n % 4 / 2; let m := n % 4 % 2
  if i < q then 1 else if i < q + z then 0 else if i < 2 * q + z then -1 else if i < 2 * q + z + m then 0
  else if i < 3 * q + z + m then -1 else if i < 3 * q + 2 * z + m then 0 else 1

def cum (n i : ℕ) : ℤ :=
  let q : ℤ := (n / 4 : ℕ); let z : ℤ := (n % 4 / 2 : ℕ); let m : ℤ := (n % 4 % 2 : ℕ); let i : ℤ := i
  if i ≤ q then i else if i ≤ q + z then q else if i ≤ 2 * q + z then 2 * q + z - i else if i ≤ 2 * q + z + m then 0
  else if i ≤ 3 * q + z + m then 2 * q + z + m - i else if i ≤ 3 * q + 2 * z + m then -q else i - n

theorem jerkCoeffs_eq (n : ℕ) (j : ℝ) : jerkCoeffs n j = (List.range n).map fun i => (sgn n i : ℝ) * j := by
  have h4 : n % 4 = 0 ∨ n % 4 = 1 ∨ n % 4 = 2 ∨ n % 4 = 3 := by omega
  apply List.ext_getElem
  · unfold jerkCoeffs
    rcases h4 with h | h | h | h <;> simp [h] <;> omega
  · intro i h1 h2
    rw [List.getElem_map, List.getElem_range]
    have hi : i < n := by simpa using h2
    rcases h4 with h | h | h | h
    all_goals
      simp only [jerkCoeffs, sgn, h, List.getElem_append, List.length_append, List.length_replicate, List.getElem_replicate,
        List.length_singleton, List.getElem_singleton, if_true, if_false, OfNat.ofNat_ne_zero, OfNat.one_ne_ofNat,
        one_ne_zero, Nat.reduceEqDiff]
      split_ifs <;> first | omega | simp

theorem sum_sgn (n i : ℕ) (h : i ≤ n) : ∑ k ∈ range i, sgn n k = cum n i := by
  induction i with
  | zero => simp only [range_zero, sum_empty, cum]; omega
  | succ i ih =>
    rw [sum_range_succ, ih (by omega)]
    unfold sgn cum
    simp only
    omega

theorem cum_reflect (n i : ℕ) (h : i ≤ n) : cum n (n - i) = -cum n i := by
  unfold cum
  simp only
  push_cast [Nat.cast_sub h]
  split_ifs <;> omega

theorem cum_bound (n i : ℕ) (h : i ≤ n) : |cum n i| ≤ (n / 4 : ℕ) := by
  unfold cum
  simp only
  rw [abs_le]
  split_ifs <;> omega

theorem cum_nonneg (n i : ℕ) (h : i ≤ n - n / 2) : 0 ≤ cum n i := by
  unfold cum
  simp only
  split_ifs <;> omega

theorem cum_nonpos (n i : ℕ) (h : n / 2 ≤ i) (h' : i ≤ n) : cum n i ≤ 0 := by
  unfold cum
  simp only
  split_ifs <;> omega

theorem partial_nonneg {f : ℕ → ℝ} {N p : ℕ} (h1 : ∀ k, k < p → k < N → 0 ≤ f k) (h2 : ∀ k, p ≤ k → k < N → f k ≤ 0)
    (h : ∑ k ∈ range N, f k = 0) {i : ℕ} (hi : i ≤ N) : 0 ≤ ∑ k ∈ range i, f k := by
  rcases le_total i p with hp | hp
  · exact sum_nonneg fun k hk => by rw [mem_range] at hk; exact h1 k (by omega) (by omega)
  · have := sum_range_add_sum_Ico f hi
    have h' : ∑ k ∈ Ico i N, f k ≤ 0 := sum_nonpos fun k hk => by rw [mem_Ico] at hk; exact h2 k (by omega) hk.2
    linarith

/-! ## Lemmas: integrals on the knots of a vehicle -/

theorem ri_basis (d n : ℕ) (hn : 1 ≤ n) (c : List ℝ) : (runningIntegral ⟨vehBasis d n, c⟩).basis = vehBasis (d + 1) n := by
  have cl := vehBasis_clamped (d := d) hn
  have hn0 : (n : ℝ) ≠ 0 := by positivity
  have h0 : (vehBasis d n).knots.headD 0 = 0 := by rw [headD_eq_k cl, vehBasis_k hn]; simp
  have h1 : (vehBasis d n).knots.getLastD 0 = 1 := by
    rw [getLastD_eq_k cl, vehBasis_len, vehBasis_k hn, Nat.add_sub_cancel, min_self, div_self hn0]
  show (⟨(vehBasis d n).knots.headD 0 :: (vehBasis d n).knots ++ [(vehBasis d n).knots.getLastD 0], d + 1⟩ : Basis ℝ) = _
  rw [h0, h1]
  unfold vehBasis
  simp only [Basis.mk.injEq, and_true]
  rw [List.replicate_succ, List.replicate_succ']
  simp only [List.cons_append, List.append_assoc]

theorem ri_coeffs (d n : ℕ) (hn : 1 ≤ n) (c : List ℝ) (i : ℕ) (hi : i ≤ n + d) :
    (runningIntegral ⟨vehBasis d n, c⟩).coeffs.getD i 0
      = ∑ j ∈ range i, (((min (j + 1) n : ℕ) : ℝ) - ((min (j - d) n : ℕ) : ℝ)) / (n * (d + 1)) * c.getD j 0 := by
  have cl := vehBasis_clamped (d := d) hn
  obtain ⟨-, -, -, -, -, -, h⟩ := runningIntegral_spec (s := ⟨vehBasis d n, c⟩) cl
  rw [h i (by simp only; rw [vehBasis_len]; exact hi)]
  refine sum_congr rfl fun j _ => ?_
  congr 1
  simp only
  rw [vehBasis_k hn, vehBasis_k hn]
  have hn0 : (n : ℝ) ≠ 0 := by positivity
  have e : (vehBasis d n).degree = d := rfl
  rw [e, show d + j + 1 - d = j + 1 by omega]
  push_cast
  field_simp

theorem ri_length (d n : ℕ) (hn : 1 ≤ n) (c : List ℝ) : (runningIntegral ⟨vehBasis d n, c⟩).coeffs.length = n + (d + 1) := by
  have cl := vehBasis_clamped (d := d) hn
  obtain ⟨-, h2, -, -, h5, -, -⟩ := runningIntegral_spec (s := ⟨vehBasis d n, c⟩) cl
  unfold BSpline.WF at h5
  rw [h5, h2]
  simp only
  rw [vehBasis_len]
  omega

theorem veh_ends (d n : ℕ) (hn : 1 ≤ n) : (vehBasis d n).knots.headD 0 = 0 ∧ (vehBasis d n).knots.getLastD 0 = 1 := by
  have cl := vehBasis_clamped (d := d) hn
  have hn0 : (n : ℝ) ≠ 0 := by positivity
  exact ⟨by rw [headD_eq_k cl, vehBasis_k hn]; simp,
    by rw [getLastD_eq_k cl, vehBasis_len, vehBasis_k hn, Nat.add_sub_cancel, min_self, div_self hn0]⟩

theorem veh_count (d n : ℕ) (hn : 1 ≤ n) : (∀ τ, (vehBasis d n).knots.headD 0 < τ → τ < (vehBasis d n).knots.getLastD 0 →
      (vehBasis d n).knots.count τ ≤ d + 1) ∧ (vehBasis d n).knots.count ((vehBasis d n).knots.getLastD 0) ≤ d + 1 := by
  obtain ⟨e0, e1⟩ := veh_ends d n hn
  rw [e0, e1]
  refine ⟨fun τ h0 h1 => (vehBasis_count hn h0 h1).trans (by omega), ?_⟩
  unfold vehBasis
  rw [List.count_append, List.count_append, List.count_replicate, List.count_replicate]
  have e0 : ((0 : ℝ) == 1) = false := by simp
  rw [e0]
  have : ((List.range (n + 1)).map fun j : ℕ => (j : ℝ) / n).count 1 ≤ 1 := by
    refine List.nodup_iff_count_le_one.1 ?_ 1
    refine List.Nodup.map_on (fun a _ b _ hab => ?_) List.nodup_range
    have hn0 : (n : ℝ) ≠ 0 := by positivity
    rw [div_left_inj' hn0] at hab
    exact_mod_cast hab
  simp
  omega

theorem ri_int {d n : ℕ} (hn : 1 ≤ n) {c : List ℝ} (hc : c.length = n + d) {a b : ℝ} (h0 : 0 ≤ a) (hab : a ≤ b) (h1 : b ≤ 1) :
    (runningIntegral ⟨vehBasis d n, c⟩).eval b - (runningIntegral ⟨vehBasis d n, c⟩).eval a
      = ∫ x in a..b, (⟨vehBasis d n, c⟩ : BSpline ℝ).eval x := by
  obtain ⟨e0, e1⟩ := veh_ends d n hn
  obtain ⟨c0, c1⟩ := veh_count d n hn
  exact C06_definite ⟨vehBasis d n, c⟩ (vehBasis_clamped hn) (by unfold BSpline.WF; simp only; rw [vehBasis_len, hc]) c0 c1 a b
    (by simp only; rw [e0]; exact h0) hab (by simp only; rw [e1]; exact h1)

theorem ri_derivative {d n : ℕ} (hn : 1 ≤ n) {c : List ℝ} (hc : c.length = n + d) :
    (runningIntegral ⟨vehBasis d n, c⟩).eval 0 = 0 ∧ (runningIntegral ⟨vehBasis d n, c⟩).derivative 1 = ⟨vehBasis d n, c⟩ := by
  obtain ⟨e0, e1⟩ := veh_ends d n hn
  obtain ⟨c0, c1⟩ := veh_count d n hn
  have := C06_running ⟨vehBasis d n, c⟩ (vehBasis_clamped hn) (by unfold BSpline.WF; simp only; rw [vehBasis_len, hc]) c0 c1
  simp only [e0] at this
  exact this

theorem jerkBasis_veh (n : ℕ) : jerkBasis (vehBasis 3 n) = vehBasis 0 n := by
  unfold jerkBasis vehBasis
  simp only [Basis.mk.injEq, and_true]
  simp [List.replicate]

/-! ## Lemmas: the profile on the knots of a vehicle -/

/-- Coefficients of the acceleration, the velocity and the position. -/
noncomputable def ca (n : ℕ) (j : ℝ) : List ℝ := (runningIntegral ⟨vehBasis 0 n, jerkCoeffs n j⟩).coeffs
noncomputable def cv (n : ℕ) (j : ℝ) : List ℝ := (runningIntegral ⟨vehBasis 1 n, ca n j⟩).coeffs
noncomputable def cp (n : ℕ) (j : ℝ) : List ℝ := (runningIntegral ⟨vehBasis 2 n, cv n j⟩).coeffs

noncomputable def J (n : ℕ) (j : ℝ) : BSpline ℝ := ⟨vehBasis 0 n, jerkCoeffs n j⟩
noncomputable def A (n : ℕ) (j : ℝ) : BSpline ℝ := ⟨vehBasis 1 n, ca n j⟩
noncomputable def V (n : ℕ) (j : ℝ) : BSpline ℝ := ⟨vehBasis 2 n, cv n j⟩
noncomputable def P (n : ℕ) (j : ℝ) : BSpline ℝ := ⟨vehBasis 3 n, cp n j⟩

section
variable {n : ℕ} (hn : 1 ≤ n) {j : ℝ}
include hn

theorem RJ : runningIntegral (J n j) = A n j := by
  have := ri_basis 0 n hn (jerkCoeffs n j)
  unfold A ca J
  rw [← this]

theorem RA : runningIntegral (A n j) = V n j := by
  have := ri_basis 1 n hn (ca n j)
  unfold V cv A
  rw [← this]

theorem RV : runningIntegral (V n j) = P n j := by
  have := ri_basis 2 n hn (cv n j)
  unfold P cp V
  rw [← this]

theorem profile_veh : profile (vehBasis 3 n) j = P n j := by
  unfold profile
  rw [jerkBasis_veh, vehBasis_len, ← RV hn, ← RA hn, ← RJ hn]
  rfl

theorem lj : (jerkCoeffs n j).length = n + 0 := by rw [jerkCoeffs_eq]; simp
theorem la : (ca n j).length = n + 1 := ri_length 0 n hn _
theorem lv : (cv n j).length = n + 2 := ri_length 1 n hn _
theorem lp : (cp n j).length = n + 3 := ri_length 2 n hn _

theorem DA : (A n j).derivative 1 = J n j := by
  rw [← RJ hn]; exact (ri_derivative hn (lj hn)).2
theorem DV : (V n j).derivative 1 = A n j := by
  rw [← RA hn]; exact (ri_derivative hn (la hn)).2
theorem DP : (P n j).derivative 1 = V n j := by
  rw [← RV hn]; exact (ri_derivative hn (lv hn)).2

theorem IA {a b : ℝ} (h0 : 0 ≤ a) (hab : a ≤ b) (h1 : b ≤ 1) : (A n j).eval b - (A n j).eval a = ∫ x in a..b, (J n j).eval x := by
  rw [← RJ hn]; exact ri_int hn (lj hn) h0 hab h1
theorem IV {a b : ℝ} (h0 : 0 ≤ a) (hab : a ≤ b) (h1 : b ≤ 1) : (V n j).eval b - (V n j).eval a = ∫ x in a..b, (A n j).eval x := by
  rw [← RA hn]; exact ri_int hn (la hn) h0 hab h1
theorem IP {a b : ℝ} (h0 : 0 ≤ a) (hab : a ≤ b) (h1 : b ≤ 1) : (P n j).eval b - (P n j).eval a = ∫ x in a..b, (V n j).eval x := by
  rw [← RV hn]; exact ri_int hn (lv hn) h0 hab h1

theorem A0 : (A n j).eval 0 = 0 := by rw [← RJ hn]; exact (ri_derivative hn (lj hn)).1
theorem V0 : (V n j).eval 0 = 0 := by rw [← RA hn]; exact (ri_derivative hn (la hn)).1
theorem P0 : (P n j).eval 0 = 0 := by rw [← RV hn]; exact (ri_derivative hn (lv hn)).1

theorem ca_get (i : ℕ) (hi : i ≤ n) : (ca n j).getD i 0 = cum n i * j / n := by
  unfold ca
  rw [ri_coeffs 0 n hn _ i (by omega), ← sum_sgn n i hi]
  have hn0 : (n : ℝ) ≠ 0 := by positivity
  push_cast
  rw [Finset.sum_mul, Finset.sum_div]
  refine sum_congr rfl fun k hk => ?_
  rw [mem_range] at hk
  have h1 : min (k + 1) n = k + 1 := by omega
  have h2 : min (k - 0) n = k := by omega
  have h3 : (jerkCoeffs n j).getD k 0 = sgn n k * j := by
    rw [List.getD_eq_getElem _ _ (by rw [lj hn]; omega)]
    simp only [jerkCoeffs_eq, List.getElem_map, List.getElem_range]
  rw [h3, ← Nat.cast_min, h2, ← Nat.cast_one (R := ℝ), ← Nat.cast_add, ← Nat.cast_min, h1]
  push_cast
  field_simp
  ring

/-- The weights of the coefficients in an integral. -/
noncomputable def wt (n d k : ℕ) : ℝ := (((min (k + 1) n : ℕ) : ℝ) - ((min (k - d) n : ℕ) : ℝ)) / (n * (d + 1))

omit hn in
theorem wt_nonneg (d k : ℕ) : 0 ≤ wt n d k := by
  unfold wt
  have : ((min (k - d) n : ℕ) : ℝ) ≤ ((min (k + 1) n : ℕ) : ℝ) := by exact_mod_cast (by omega)
  exact div_nonneg (by linarith) (by positivity)

theorem wt_pos (d k : ℕ) (hk : k < n + d) : 0 < wt n d k := by
  unfold wt
  have : ((min (k - d) n : ℕ) : ℝ) < ((min (k + 1) n : ℕ) : ℝ) := by exact_mod_cast (by omega)
  have hn0 : (0 : ℝ) < n := by exact_mod_cast hn
  exact div_pos (by linarith) (by positivity)

theorem cv_get (i : ℕ) (hi : i ≤ n + 1) : (cv n j).getD i 0 = ∑ k ∈ range i, wt n 1 k * (ca n j).getD k 0 :=
  ri_coeffs 1 n hn _ i hi

theorem cp_get (i : ℕ) (hi : i ≤ n + 2) : (cp n j).getD i 0 = ∑ k ∈ range i, wt n 2 k * (cv n j).getD k 0 :=
  ri_coeffs 2 n hn _ i hi

theorem ca_zero : (ca n j).getD 0 0 = 0 := by rw [ca_get hn 0 (by omega)]; simp [cum]; omega

theorem ca_last : (ca n j).getD n 0 = 0 := by
  rw [ca_get hn n le_rfl]
  have := cum_reflect n 0 (by omega)
  have h0 : cum n 0 = 0 := by unfold cum; simp only; omega
  rw [h0] at this
  simp only [Nat.sub_zero, neg_zero] at this
  rw [this]; simp

theorem cv_last : (cv n j).getD (n + 1) 0 = 0 := by
  rw [cv_get hn _ le_rfl]
  set f : ℕ → ℝ := fun k => wt n 1 k * (ca n j).getD k 0 with hf
  have h := Finset.sum_range_reflect f (n + 1)
  have h' : ∑ k ∈ range (n + 1), f (n + 1 - 1 - k) = -∑ k ∈ range (n + 1), f k := by
    rw [← Finset.sum_neg_distrib]
    refine sum_congr rfl fun k hk => ?_
    rw [mem_range] at hk
    simp only [hf, Nat.add_sub_cancel]
    rw [ca_get hn _ (by omega), ca_get hn k (by omega), cum_reflect n k (by omega)]
    have hw : wt n 1 (n - k) = wt n 1 k := by
      unfold wt
      congr 1
      have e : ((min (n - k + 1) n : ℕ) : ℤ) - ((min (n - k - 1) n : ℕ) : ℤ) = ((min (k + 1) n : ℕ) : ℤ) - ((min (k - 1) n : ℕ) : ℤ) := by
        omega
      exact_mod_cast e
    rw [hw]
    push_cast
    ring
  linarith

theorem cv_first : (cv n j).getD 0 0 = 0 ∧ (cv n j).getD 1 0 = 0 := by
  refine ⟨by rw [cv_get hn 0 (by omega)]; simp, ?_⟩
  rw [cv_get hn 1 (by omega), sum_range_one, ca_zero hn, mul_zero]

theorem cv_last' : (cv n j).getD n 0 = 0 := by
  have h := cv_last hn (j := j)
  rw [cv_get hn _ le_rfl, sum_range_succ, ca_last hn, mul_zero, add_zero] at h
  rw [cv_get hn _ (by omega), h]

section
variable (hj : 0 < j)
include hj

theorem ca_nonneg (i : ℕ) (hi : i ≤ n - n / 2) : 0 ≤ (ca n j).getD i 0 := by
  rw [ca_get hn i (by omega)]
  have : (0 : ℝ) ≤ cum n i := by exact_mod_cast cum_nonneg n i hi
  positivity

theorem ca_nonpos (i : ℕ) (hi : n / 2 ≤ i) (hi' : i ≤ n) : (ca n j).getD i 0 ≤ 0 := by
  rw [ca_get hn i hi']
  have : (cum n i : ℝ) ≤ 0 := by exact_mod_cast cum_nonpos n i hi hi'
  exact div_nonpos_of_nonpos_of_nonneg (mul_nonpos_of_nonpos_of_nonneg this hj.le) (by positivity)

theorem ca_abs (i : ℕ) (hi : i ≤ n) : |(ca n j).getD i 0| ≤ (n / 4 : ℕ) * j / n := by
  rw [ca_get hn i hi, abs_div, abs_mul, abs_of_pos hj, Nat.abs_cast]
  have : |(cum n i : ℝ)| ≤ ((n / 4 : ℕ) : ℝ) := by
    have := (Int.cast_le (R := ℝ)).2 (cum_bound n i hi)
    rwa [Int.cast_abs, Int.cast_natCast] at this
  gcongr

theorem cv_nonneg (i : ℕ) (hi : i ≤ n + 1) : 0 ≤ (cv n j).getD i 0 := by
  have h := cv_last hn (j := j)
  rw [cv_get hn _ le_rfl] at h
  rw [cv_get hn i hi]
  refine partial_nonneg (p := n - n / 2) (fun k h1 h2 => ?_) (fun k h1 h2 => ?_) h hi
  · exact mul_nonneg (wt_nonneg 1 k) (ca_nonneg hn hj k h1.le)
  · exact mul_nonpos_of_nonneg_of_nonpos (wt_nonneg 1 k) (ca_nonpos hn hj k (by omega) (by omega))

theorem cp_mono {i k : ℕ} (hik : i ≤ k) (hk : k ≤ n + 2) : (cp n j).getD i 0 ≤ (cp n j).getD k 0 := by
  rw [cp_get hn i (by omega), cp_get hn k hk]
  refine sum_le_sum_of_subset_of_nonneg (range_mono hik) fun m hm _ => ?_
  rw [mem_range] at hm
  exact mul_nonneg (wt_nonneg 2 m) (cv_nonneg hn hj m (by omega))

end

theorem cp_first (i : ℕ) (hi : i ≤ 2) : (cp n j).getD i 0 = 0 := by
  obtain ⟨e0, e1⟩ := cv_first hn (j := j)
  rw [cp_get hn i (by omega)]
  refine sum_eq_zero fun k hk => ?_
  rw [mem_range] at hk
  have : k = 0 ∨ k = 1 := by omega
  rcases this with rfl | rfl
  · rw [e0, mul_zero]
  · rw [e1, mul_zero]

theorem cp_last (i : ℕ) (h0 : n ≤ i) (hi : i ≤ n + 2) : (cp n j).getD i 0 = (cp n j).getD (n + 2) 0 := by
  have e2 : (cp n j).getD (n + 2) 0 = (cp n j).getD n 0 := by
    rw [cp_get hn (n + 2) le_rfl, cp_get hn n (by omega), sum_range_succ, sum_range_succ, cv_last hn, cv_last' hn]
    ring
  have e1 : (cp n j).getD (n + 1) 0 = (cp n j).getD n 0 := by
    rw [cp_get hn (n + 1) (by omega), cp_get hn n (by omega), sum_range_succ, cv_last' hn]
    ring
  have : i = n ∨ i = n + 1 ∨ i = n + 2 := by omega
  rcases this with rfl | rfl | rfl
  · exact e2.symm
  · rw [e1, e2]
  · rfl

end

theorem cp_pos {n : ℕ} (hn : 4 ≤ n) {j : ℝ} (hj : 0 < j) : 0 < (cp n j).getD (n + 2) 0 := by
  have h1 : 1 ≤ n := by omega
  have hv : 0 < (cv n j).getD 2 0 := by
    rw [cv_get h1 2 (by omega), sum_range_succ, sum_range_one, ca_zero h1, ca_get h1 1 (by omega)]
    have hc : cum n 1 = 1 := by unfold cum; simp only; omega
    have hw := wt_pos h1 1 1 (by omega)
    have hn0 : (0 : ℝ) < n := by exact_mod_cast h1
    rw [hc, mul_zero, zero_add]
    push_cast
    positivity
  have h3 : 0 < (cp n j).getD 3 0 := by
    rw [cp_get h1 3 (by omega), sum_range_succ]
    have := cp_first h1 (j := j) 2 le_rfl
    rw [cp_get h1 2 (by omega)] at this
    rw [this, zero_add]
    exact mul_pos (wt_pos h1 2 2 (by omega)) hv
  exact h3.trans_le (cp_mono h1 hj (by omega) le_rfl)

/-! ## Lemmas: jerk, acceleration and velocity at all times -/

theorem eval_ge_of {s : BSpline ℝ} (hb : s.basis.Clamped) (hs : s.WF) {lb x : ℝ} (h0 : s.basis.knots.headD 0 ≤ x)
    (h1 : x ≤ s.basis.knots.getLastD 0) (h : ∀ i, i < s.basis.len → s.basis.fn i x = 0 ∨ lb ≤ s.coeffs.getD i 0) : lb ≤ s.eval x := by
  have hone := C01_sum_one s.basis hb x h0 h1
  unfold Basis.eval at hone
  rw [sum_map_range] at hone
  rw [BSpline.eval_eq hs]
  calc lb = ∑ i ∈ range s.basis.len, lb * s.basis.fn i x := by rw [← Finset.mul_sum, hone, mul_one]
    _ ≤ _ := Finset.sum_le_sum fun i hi => by
        rcases h i (Finset.mem_range.1 hi) with e | e
        · rw [e, mul_zero, mul_zero]
        · exact mul_le_mul_of_nonneg_right e (Basis.fn_nonneg hb i x)

/-- Bounds from the coefficients whose basis functions do not vanish. -/
theorem veh_ge {d n : ℕ} (hn : 1 ≤ n) {c : List ℝ} (hc : c.length = n + d) {lb x : ℝ} (h0 : 0 ≤ x) (h1 : x ≤ 1)
    (h : ∀ i, i < n + d → (x * n < ((i - d : ℕ) : ℝ) ∨ ((i + 1 : ℕ) : ℝ) < x * n) ∨ lb ≤ c.getD i 0) :
    lb ≤ (⟨vehBasis d n, c⟩ : BSpline ℝ).eval x := by
  obtain ⟨e0, e1⟩ := veh_ends d n hn
  have cl := vehBasis_clamped (d := d) hn
  have hn0 : (0 : ℝ) < n := by exact_mod_cast hn
  refine eval_ge_of (s := ⟨vehBasis d n, c⟩) cl (by unfold BSpline.WF; simp only; rw [vehBasis_len, hc]) (by simp only; rw [e0]; exact h0)
    (by simp only; rw [e1]; exact h1) fun i hi => ?_
  simp only at hi
  rw [vehBasis_len] at hi
  rcases h i hi with hx | hx
  · left
    refine fn_support cl (by rw [vehBasis_len]; exact hi) ?_
    rw [vehBasis_k hn, vehBasis_k hn]
    have hd : (vehBasis d n).degree = d := rfl
    rw [hd, show i + d + 1 - d = i + 1 by omega, lt_div_iff₀ hn0, div_lt_iff₀ hn0]
    rcases hx with hx | hx
    · left
      rw [show min (i - d) n = i - d by omega]; exact hx
    · right
      refine lt_of_le_of_lt ?_ hx
      exact_mod_cast Nat.min_le_left _ _
  · exact Or.inr hx

theorem veh_le {d n : ℕ} (hn : 1 ≤ n) {c : List ℝ} (hc : c.length = n + d) {ub x : ℝ} (h0 : 0 ≤ x) (h1 : x ≤ 1)
    (h : ∀ i, i < n + d → (x * n < ((i - d : ℕ) : ℝ) ∨ ((i + 1 : ℕ) : ℝ) < x * n) ∨ c.getD i 0 ≤ ub) :
    (⟨vehBasis d n, c⟩ : BSpline ℝ).eval x ≤ ub := by
  obtain ⟨e0, e1⟩ := veh_ends d n hn
  have cl := vehBasis_clamped (d := d) hn
  have hn0 : (0 : ℝ) < n := by exact_mod_cast hn
  refine eval_le_of (s := ⟨vehBasis d n, c⟩) cl (by unfold BSpline.WF; simp only; rw [vehBasis_len, hc]) (by simp only; rw [e0]; exact h0)
    (by simp only; rw [e1]; exact h1) fun i hi => ?_
  simp only at hi
  rw [vehBasis_len] at hi
  rcases h i hi with hx | hx
  · left
    refine fn_support cl (by rw [vehBasis_len]; exact hi) ?_
    rw [vehBasis_k hn, vehBasis_k hn]
    have hd : (vehBasis d n).degree = d := rfl
    rw [hd, show i + d + 1 - d = i + 1 by omega, lt_div_iff₀ hn0, div_lt_iff₀ hn0]
    rcases hx with hx | hx
    · left
      rw [show min (i - d) n = i - d by omega]; exact hx
    · right
      refine lt_of_le_of_lt ?_ hx
      exact_mod_cast Nat.min_le_left _ _
  · exact Or.inr hx

section
variable {n : ℕ} (hn : 4 ≤ n) {j : ℝ} (hj : 0 < j)
include hn hj

theorem cj_get (i : ℕ) (hi : i < n) : (jerkCoeffs n j).getD i 0 = sgn n i * j := by
  rw [List.getD_eq_getElem _ _ (by rw [lj (by omega)]; omega)]
  simp only [jerkCoeffs_eq, List.getElem_map, List.getElem_range]

theorem J_abs {x : ℝ} (h0 : 0 ≤ x) (h1 : x ≤ 1) : |(J n j).eval x| ≤ j := by
  have hs : ∀ i, |(sgn n i : ℝ)| ≤ 1 := by
    intro i
    have : |sgn n i| ≤ 1 := by unfold sgn; simp only; rw [abs_le]; omega
    exact_mod_cast this
  rw [abs_le]
  have h1' : 1 ≤ n := by omega
  constructor
  · refine veh_ge h1' (lj h1') h0 h1 fun i hi => Or.inr ?_
    rw [cj_get hn hj i (by omega)]
    have := (abs_le.1 (hs i)).1
    nlinarith
  · refine veh_le h1' (lj h1') h0 h1 fun i hi => Or.inr ?_
    rw [cj_get hn hj i (by omega)]
    have := (abs_le.1 (hs i)).2
    nlinarith

theorem J_start {x : ℝ} (h0 : 0 ≤ x) (h1 : x * n < (n / 4 : ℕ)) : (J n j).eval x = j := by
  have hn0 : (0 : ℝ) < n := by exact_mod_cast (by omega : 0 < n)
  have h1' : 1 ≤ n := by omega
  have hx1 : x ≤ 1 := by
    by_contra hx
    push Not at hx
    have h4 : ((n / 4 : ℕ) : ℝ) ≤ n := by exact_mod_cast Nat.div_le_self _ _
    nlinarith
  have key : ∀ i, i < n → x * n < ((i : ℕ) : ℝ) ∨ (jerkCoeffs n j).getD i 0 = j := by
    intro i hi
    by_cases hq : i < n / 4
    · right
      rw [cj_get hn hj i hi]
      have : sgn n i = 1 := by unfold sgn; simp only; rw [if_pos hq]
      rw [this]; push_cast; ring
    · left
      push Not at hq
      exact h1.trans_le (by exact_mod_cast hq)
  refine le_antisymm (veh_le h1' (lj h1') h0 hx1 fun i hi => ?_) (veh_ge h1' (lj h1') h0 hx1 fun i hi => ?_)
  · exact (key i (by omega)).imp Or.inl le_of_eq
  · exact (key i (by omega)).imp Or.inl ge_of_eq

theorem A_lip {a b : ℝ} (h0 : 0 ≤ a) (hab : a ≤ b) (h1 : b ≤ 1) : |(A n j).eval b - (A n j).eval a| ≤ j * (b - a) := by
  rw [IA (by omega) h0 hab h1]
  have := intervalIntegral.norm_integral_le_of_norm_le_const (a := a) (b := b) (C := j) (f := (J n j).eval) (fun x hx => by
    rw [Set.uIoc_of_le hab] at hx
    exact J_abs hn hj (by linarith [hx.1]) (by linarith [hx.2]))
  rwa [Real.norm_eq_abs, abs_of_nonneg (sub_nonneg.2 hab)] at this

theorem A_start {x : ℝ} (h0 : 0 ≤ x) (h1 : x * n < (n / 4 : ℕ)) : (A n j).eval x = j * x := by
  have hn0 : (0 : ℝ) < n := by exact_mod_cast (by omega : 0 < n)
  have hx1 : x ≤ 1 := by
    by_contra hx
    push Not at hx
    have h4 : ((n / 4 : ℕ) : ℝ) ≤ n := by exact_mod_cast Nat.div_le_self _ _
    nlinarith
  have := IA (n := n) (j := j) (by omega) le_rfl h0 hx1
  rw [A0 (by omega), sub_zero] at this
  rw [this]
  have e : ∫ u in (0 : ℝ)..x, (J n j).eval u = ∫ u in (0 : ℝ)..x, j := by
    refine intervalIntegral.integral_congr fun u hu => ?_
    rw [Set.uIcc_of_le h0] at hu
    exact J_start hn hj hu.1 (by nlinarith [hu.2])
  rw [e, intervalIntegral.integral_const, smul_eq_mul]
  ring

theorem A_abs {x : ℝ} (h0 : 0 ≤ x) (h1 : x ≤ 1) : |(A n j).eval x| ≤ (n / 4 : ℕ) * j / n := by
  have h1' : 1 ≤ n := by omega
  rw [abs_le]
  constructor
  · exact veh_ge h1' (la h1') h0 h1 fun i hi => Or.inr (abs_le.1 (ca_abs h1' hj i (by omega))).1
  · exact veh_le h1' (la h1') h0 h1 fun i hi => Or.inr (abs_le.1 (ca_abs h1' hj i (by omega))).2

theorem A_pos {x : ℝ} (h0 : 0 ≤ x) (h1 : x ≤ 1 / 2) : 0 ≤ (A n j).eval x := by
  have h1' : 1 ≤ n := by omega
  have hn0 : (0 : ℝ) < n := by exact_mod_cast (by omega : 0 < n)
  have strict : ∀ x : ℝ, 0 ≤ x → x < 1 / 2 → 0 ≤ (A n j).eval x := by
    intro x h0 h1
    refine veh_ge h1' (la h1') h0 (by linarith) fun i hi => ?_
    by_cases hh : i ≤ n - n / 2
    · exact Or.inr (ca_nonneg h1' hj i hh)
    · refine Or.inl (Or.inl ?_)
      push Not at hh
      have : (n : ℝ) ≤ 2 * ((i - 1 : ℕ) : ℝ) := by exact_mod_cast (by omega)
      nlinarith
  rcases h1.lt_or_eq with h | h
  · exact strict x h0 h
  · subst h
    refine le_of_forall_pos_le_add fun ε hε => ?_
    obtain ⟨δ, hδ, hδ', hδ''⟩ : ∃ δ, 0 < δ ∧ δ ≤ 1 / 2 ∧ j * δ ≤ ε := by
      refine ⟨min (1 / 2) (ε / j), by positivity, min_le_left _ _, ?_⟩
      calc j * min (1 / 2) (ε / j) ≤ j * (ε / j) := by gcongr; exact min_le_right _ _
        _ = ε := by field_simp
    have h2 := A_lip hn hj (a := 1 / 2 - δ) (b := 1 / 2) (by linarith) (by linarith) (by norm_num)
    have h3 := strict (1 / 2 - δ) (by linarith) (by linarith)
    have h4 := (abs_le.1 h2).1
    have : j * (1 / 2 - (1 / 2 - δ)) = j * δ := by ring
    linarith

theorem A_neg {x : ℝ} (h0 : 1 / 2 ≤ x) (h1 : x ≤ 1) : (A n j).eval x ≤ 0 := by
  have h1' : 1 ≤ n := by omega
  have hn0 : (0 : ℝ) < n := by exact_mod_cast (by omega : 0 < n)
  have strict : ∀ x : ℝ, 1 / 2 < x → x ≤ 1 → (A n j).eval x ≤ 0 := by
    intro x h0 h1
    refine veh_le h1' (la h1') (by linarith) h1 fun i hi => ?_
    by_cases hh : n / 2 ≤ i
    · exact Or.inr (ca_nonpos h1' hj i hh (by omega))
    · refine Or.inl (Or.inr ?_)
      push Not at hh
      have : 2 * ((i + 1 : ℕ) : ℝ) ≤ n := by exact_mod_cast (by omega)
      nlinarith
  rcases h0.lt_or_eq with h | h
  · exact strict x h h1
  · subst h
    refine le_of_forall_pos_le_add fun ε hε => ?_
    obtain ⟨δ, hδ, hδ', hδ''⟩ : ∃ δ, 0 < δ ∧ δ ≤ 1 / 2 ∧ j * δ ≤ ε := by
      refine ⟨min (1 / 2) (ε / j), by positivity, min_le_left _ _, ?_⟩
      calc j * min (1 / 2) (ε / j) ≤ j * (ε / j) := by gcongr; exact min_le_right _ _
        _ = ε := by field_simp
    have h2 := A_lip hn hj (a := 1 / 2) (b := 1 / 2 + δ) (by norm_num) (by linarith) (by linarith)
    have h3 := strict (1 / 2 + δ) (by linarith) (by linarith)
    have h4 := (abs_le.1 h2).1
    have : j * (1 / 2 + δ - 1 / 2) = j * δ := by ring
    linarith

theorem A_cont : ContinuousOn (A n j).eval (Set.Icc 0 1) :=
  (vehBasis_traj (d := 1) le_rfl (by omega) (la (by omega))).trajOn.continuousOn le_rfl

theorem V_cont : ContinuousOn (V n j).eval (Set.Icc 0 1) :=
  (vehBasis_traj (d := 2) (by omega) (by omega) (lv (by omega))).trajOn.continuousOn (by show 1 ≤ 2; omega)

theorem V_nonneg {x : ℝ} (h0 : 0 ≤ x) (h1 : x ≤ 1) : 0 ≤ (V n j).eval x :=
  veh_ge (by omega) (lv (by omega)) h0 h1 fun i _ => Or.inr (cv_nonneg (by omega) hj i (by omega))

theorem V_top {x : ℝ} (h0 : 0 ≤ x) (h1 : x ≤ 1) : (V n j).eval x ≤ (V n j).eval (1 / 2) := by
  rcases le_total x (1 / 2) with h | h
  · have := IV (n := n) (j := j) (by omega) h0 h (by norm_num)
    have h' : 0 ≤ ∫ u in x..(1 / 2), (A n j).eval u :=
      intervalIntegral.integral_nonneg h fun u hu => A_pos hn hj (h0.trans hu.1) hu.2
    linarith
  · have := IV (n := n) (j := j) (by omega) (by norm_num) h h1
    have h' : 0 ≤ ∫ u in (1 / 2)..x, -(A n j).eval u :=
      intervalIntegral.integral_nonneg h fun u hu => by linarith [A_neg hn hj hu.1 (hu.2.trans h1)]
    rw [intervalIntegral.integral_neg] at h'
    linarith

theorem n_le : (n : ℝ) ≤ 7 * (n / 4 : ℕ) := by exact_mod_cast (by omega)

theorem V_half : j / 128 ≤ (V n j).eval (1 / 2) := by
  have hn0 : (0 : ℝ) < n := by exact_mod_cast (by omega : 0 < n)
  refine le_trans ?_ (V_top hn hj (x := 1 / 8) (by norm_num) (by norm_num))
  have := IV (n := n) (j := j) (a := 0) (b := 1 / 8) (by omega) le_rfl (by norm_num) (by norm_num)
  rw [V0 (by omega), sub_zero] at this
  rw [this]
  have hq := n_le hn hj
  have e : ∫ u in (0 : ℝ)..(1 / 8), (A n j).eval u = ∫ u in (0 : ℝ)..(1 / 8), j * u := by
    refine intervalIntegral.integral_congr fun u hu => ?_
    rw [Set.uIcc_of_le (by norm_num)] at hu
    refine A_start hn hj hu.1 ?_
    nlinarith [hu.2]
  rw [e, intervalIntegral.integral_const_mul, integral_id]
  norm_num
  linarith

theorem V_grid : (V n j).eval (1 / 2) ≤ 1.05 * (V n j).eval (49 / 99) := by
  have h := V_half hn hj
  have := IV (n := n) (j := j) (a := 49 / 99) (b := 1 / 2) (by omega) (by norm_num) (by norm_num) (by norm_num)
  have b : ∫ u in (49 / 99 : ℝ)..(1 / 2), (A n j).eval u ≤ ∫ u in (49 / 99 : ℝ)..(1 / 2), j * (1 / 198) := by
    refine intervalIntegral.integral_mono_on (by norm_num) ?_ (by simp) fun u hu => ?_
    · exact ((A_cont hn hj).mono (by
        rw [Set.uIcc_of_le (by norm_num)]
        exact Set.Icc_subset_Icc (by norm_num) (by norm_num))).intervalIntegrable
    · have l := (abs_le.1 (A_lip hn hj (a := u) (b := 1 / 2) (by linarith [hu.1]) hu.2 (by norm_num))).1
      have z := A_neg hn hj (x := 1 / 2) le_rfl (by norm_num)
      nlinarith [hu.1]
  rw [intervalIntegral.integral_const, smul_eq_mul] at b
  norm_num at *
  linarith

/-- Near the largest acceleration there is a point of the grid. -/
theorem A_grid : ∃ i : ℕ, i < 100 ∧ (n / 4 : ℕ) * j / n ≤ 1.05 ^ 2 * (A n j).eval ((i : ℝ) / 99) := by
  have hn0 : (0 : ℝ) < n := by exact_mod_cast (by omega : 0 < n)
  have hq := n_le hn hj
  set q : ℕ := n / 4 with hqd
  have hq1 : 1 ≤ q := by omega
  refine ⟨(99 * q - 1) / n, ?_, ?_⟩
  · have : (99 * q - 1) / n ≤ 99 * q / n := Nat.div_le_div_right (by omega)
    have h2 : 99 * q / n ≤ 99 := by
      rw [Nat.div_le_iff_le_mul_add_pred (by omega)]
      nlinarith [Nat.div_mul_le_self n 4]
    omega
  · set i := (99 * q - 1) / n with hi
    have h1 : i * n ≤ 99 * q - 1 := Nat.div_mul_le_self _ _
    have h2 : 99 * q - 1 < (i + 1) * n := by
      have := Nat.lt_div_mul_add (a := 99 * q - 1) (b := n) (by omega)
      rw [← hi] at this
      nlinarith
    have h1r : (i : ℝ) * n < 99 * q := by exact_mod_cast (by omega)
    have h2r : (99 : ℝ) * q ≤ (i + 1) * n := by exact_mod_cast (by omega)
    rw [A_start hn hj (by positivity) (by rw [← hqd]; nlinarith), div_le_iff₀ hn0]
    have : (q : ℝ) ≤ 1.05 ^ 2 * (i / 99) * n := by nlinarith
    nlinarith
end

/-! ## Lemmas: the guess of one axis -/

theorem addNum_derivative (s : BSpline ℝ) (a : ℝ) : (s.addNum a).derivative 1 = s.derivative 1 := by
  unfold BSpline.derivative
  rw [if_neg one_ne_zero, if_neg one_ne_zero]
  have hr : List.range 1 = [0] := rfl
  simp only [BSpline.addNum, hr, List.foldl_cons, List.foldl_nil, derivStep, List.length_map]
  congr 1
  refine List.map_congr_left fun k hk => ?_
  rw [List.mem_range] at hk
  have e : ∀ i, i < s.coeffs.length → (s.coeffs.map (· + a)).getD i 0 = s.coeffs.getD i 0 + a := by
    intro i hi
    rw [List.getD_eq_getElem _ _ (by simpa using hi), List.getElem_map, List.getD_eq_getElem _ _ hi]
  rw [e k (by omega), e (k + 1) (by omega)]
  ring

theorem mulNum_derivative (s : BSpline ℝ) (c : ℝ) : (s.mulNum c).derivative 1 = (s.derivative 1).mulNum c := by
  unfold BSpline.derivative
  rw [if_neg one_ne_zero, if_neg one_ne_zero]
  have hr : List.range 1 = [0] := rfl
  simp only [BSpline.mulNum, hr, List.foldl_cons, List.foldl_nil, derivStep, List.length_map, List.map_map]
  congr 1
  refine List.map_congr_left fun k hk => ?_
  rw [List.mem_range] at hk
  have e : ∀ i, i < s.coeffs.length → (s.coeffs.map (c * ·)).getD i 0 = c * s.coeffs.getD i 0 := by
    intro i hi
    rw [List.getD_eq_getElem _ _ (by simpa using hi), List.getElem_map, List.getD_eq_getElem _ _ hi]
  rw [e k (by omega), e (k + 1) (by omega)]
  simp only [Function.comp]
  ring

theorem set_same {l : List ℝ} {i : ℕ} {v : ℝ} (e : l.getD i v = v) : l.set i v = l := by
  apply List.ext_getElem
  · simp
  · intro k h1 h2
    rw [List.getElem_set]
    split_ifs with h
    · subst h
      rw [List.getD_eq_getElem _ _ h2] at e
      exact e.symm
    · rfl

/-- The factor between the profile and the guess. -/
noncomputable def fac (n : ℕ) (j a b : ℝ) : ℝ := (b - a) / (cp n j).getLastD 0

section
variable {n : ℕ} (hn : 4 ≤ n) {j : ℝ} (hj : 0 < j)
include hn

theorem last_eq : (cp n j).getLastD 0 = (cp n j).getD (n + 2) 0 := by
  have hl := lp (n := n) (j := j) (by omega)
  have hne : cp n j ≠ [] := by intro e; rw [e] at hl; simp at hl
  rw [List.getLastD_eq_getLast?, List.getLast?_eq_some_getLast hne, Option.getD_some, List.getLast_eq_getElem,
    List.getD_eq_getElem _ _ (by omega)]
  simp only [hl]
  congr 1

include hj

theorem last_pos : 0 < (cp n j).getLastD 0 := by rw [last_eq hn]; exact cp_pos hn hj

/-- Overwriting the first and the last coefficients changes nothing. -/
theorem axis_eq (a b : ℝ) : (⟨vehBasis 3 n, axisGuess (cp n j) a b⟩ : BSpline ℝ) = ((P n j).mulNum (fac n j a b)).addNum a := by
  have hl := lp (n := n) (j := j) (by omega)
  have hp := last_pos hn hj
  have h1 : 1 ≤ n := by omega
  unfold BSpline.addNum BSpline.mulNum P
  simp only [List.map_map]
  congr 1
  unfold axisGuess
  simp only
  set g : List ℝ := (cp n j).map fun p => p / (cp n j).getLastD 0 * (b - a) + a with hg
  have hgl : g.length = n + 3 := by rw [hg, List.length_map, hl]
  have get : ∀ i v, i < n + 3 → g.getD i v = (cp n j).getD i 0 / (cp n j).getLastD 0 * (b - a) + a := by
    intro i v hi
    rw [List.getD_eq_getElem _ _ (by omega), List.getD_eq_getElem _ _ (by omega)]
    simp only [hg, List.getElem_map]
  have s0 : ∀ i, i ≤ 2 → g.set i a = g := by
    intro i hi
    refine set_same ?_
    rw [get i a (by omega), cp_first h1 i hi]
    ring
  have s1 : ∀ i, n ≤ i → i ≤ n + 2 → g.set i b = g := by
    intro i h0 hi
    refine set_same ?_
    rw [get i b (by omega), cp_last h1 i h0 hi, ← last_eq hn, div_self hp.ne']
    ring
  rw [s0 0 (by omega), s0 1 (by omega), s0 2 (by omega), s1 _ (by omega) (by omega), s1 _ (by omega) (by omega), s1 _ (by omega) (by omega), hg]
  refine List.map_congr_left fun p _ => ?_
  simp only [Function.comp, fac]
  ring

variable (a b : ℝ)

/-- The guess of an axis. -/
noncomputable def axisSpline (n : ℕ) (j a b : ℝ) : BSpline ℝ := ⟨vehBasis 3 n, axisGuess (cp n j) a b⟩

theorem ax1 : (axisSpline n j a b).derivative 1 = (V n j).mulNum (fac n j a b) := by
  unfold axisSpline
  rw [axis_eq hn hj, addNum_derivative, mulNum_derivative, DP (by omega)]

theorem ax2 : (axisSpline n j a b).derivative 2 = (A n j).mulNum (fac n j a b) := by
  rw [derivative_succ, ax1 hn hj, mulNum_derivative, DV (by omega)]

theorem ax3 : (axisSpline n j a b).derivative 3 = (J n j).mulNum (fac n j a b) := by
  rw [derivative_succ, ax2 hn hj, mulNum_derivative, DA (by omega)]

theorem ax0_eval {x : ℝ} (h0 : 0 ≤ x) (h1 : x ≤ 1) : (axisSpline n j a b).eval x = a + (b - a) * ((P n j).eval x / (cp n j).getLastD 0) := by
  have ht : TrajOn (P n j) 0 1 2 := (vehBasis_traj (d := 3) (n := n) (c := cp n j) (by omega) (by omega) (lp (by omega))).trajOn
  unfold axisSpline
  rw [axis_eq hn hj, (ht.mulNum _).addNum_eval _ _ h0 h1, (C09_neg_mul _ _ _).2]
  unfold fac
  ring

theorem ax1_eval (x : ℝ) : ((axisSpline n j a b).derivative 1).eval x = fac n j a b * (V n j).eval x := by
  rw [ax1 hn hj, (C09_neg_mul _ _ _).2]
theorem ax2_eval (x : ℝ) : ((axisSpline n j a b).derivative 2).eval x = fac n j a b * (A n j).eval x := by
  rw [ax2 hn hj, (C09_neg_mul _ _ _).2]
theorem ax3_eval (x : ℝ) : ((axisSpline n j a b).derivative 3).eval x = fac n j a b * (J n j).eval x := by
  rw [ax3 hn hj, (C09_neg_mul _ _ _).2]

omit hn hj in
/-- The last value of a spline on the knots of a vehicle. -/
theorem veh_last {d n : ℕ} (hn : 1 ≤ n) {c : List ℝ} (hc : c.length = n + d) :
    (⟨vehBasis d n, c⟩ : BSpline ℝ).eval 1 = c.getD (n + d - 1) 0 := by
  obtain ⟨e0, e1⟩ := veh_ends d n hn
  have cl := vehBasis_clamped (d := d) hn
  have hn0 : (0 : ℝ) < n := by exact_mod_cast hn
  have := (C03_endpoints ⟨vehBasis d n, c⟩ cl (by unfold BSpline.WF; simp only; rw [vehBasis_len, hc]) (by
    simp only
    rw [vehBasis_len, vehBasis_k hn, vehBasis_k hn]
    gcongr
    omega)).2
  simp only [e1] at this
  rw [this]
  have hne : c ≠ [] := by intro e; rw [e] at hc; simp at hc; omega
  rw [List.getLastD_eq_getLast?, List.getLast?_eq_some_getLast hne, Option.getD_some, List.getLast_eq_getElem,
    List.getD_eq_getElem _ _ (by omega)]
  simp only [hc]

theorem A1 : (A n j).eval 1 = 0 := by
  unfold A; rw [veh_last (by omega) (la (by omega))]; exact ca_last (by omega)
theorem V1 : (V n j).eval 1 = 0 := by
  unfold V; rw [veh_last (by omega) (lv (by omega))]; exact cv_last (by omega)
theorem P1 : (P n j).eval 1 = (cp n j).getLastD 0 := by
  unfold P; rw [veh_last (by omega) (lp (by omega)), last_eq hn]; rfl

theorem P_mono {x y : ℝ} (h0 : 0 ≤ x) (hxy : x ≤ y) (h1 : y ≤ 1) : (P n j).eval x ≤ (P n j).eval y := by
  have := IP (n := n) (j := j) (by omega) h0 hxy h1
  have h' : 0 ≤ ∫ u in x..y, (V n j).eval u :=
    intervalIntegral.integral_nonneg hxy fun u hu => V_nonneg hn hj (h0.trans hu.1) (hu.2.trans h1)
  linarith

end

theorem within_of_int {F f : ℝ → ℝ} (hf : ContinuousOn f (Set.Icc 0 1))
    (h : ∀ a b, 0 ≤ a → a ≤ b → b ≤ 1 → F b - F a = ∫ x in a..b, f x) {t : ℝ} (h0 : 0 ≤ t) (h1 : t ≤ 1) :
    HasDerivWithinAt F (f t) (Set.Icc 0 1) t := by
  set g : ℝ → ℝ := Set.IccExtend (zero_le_one (α := ℝ)) (fun x => f x) with hg
  have hgc : Continuous g := by
    rw [hg]
    exact (continuousOn_iff_continuous_domRestrict.1 hf).Icc_extend'
  have hgf : ∀ x ∈ Set.Icc (0 : ℝ) 1, g x = f x := fun x hx => by
    rw [hg]; exact Set.IccExtend_of_mem _ (fun x : Set.Icc (0 : ℝ) 1 => f x) hx
  have hd : HasDerivAt (fun u => F 0 + ∫ x in (0 : ℝ)..u, g x) (g t) t :=
    (intervalIntegral.integral_hasDerivAt_right (hgc.intervalIntegrable _ _)
      (hgc.stronglyMeasurableAtFilter _ _) hgc.continuousAt).const_add _
  rw [← hgf t ⟨h0, h1⟩]
  refine hd.hasDerivWithinAt.congr (fun u hu => ?_) ?_
  · have := h 0 u le_rfl hu.1 hu.2
    have e : ∫ x in (0 : ℝ)..u, g x = ∫ x in (0 : ℝ)..u, f x := by
      refine intervalIntegral.integral_congr fun x hx => ?_
      rw [Set.uIcc_of_le hu.1] at hx
      exact hgf x ⟨hx.1, hx.2.trans hu.2⟩
    simp only [e]
    linarith
  · have := h 0 t le_rfl h0 h1
    have e : ∫ x in (0 : ℝ)..t, g x = ∫ x in (0 : ℝ)..t, f x := by
      refine intervalIntegral.integral_congr fun x hx => ?_
      rw [Set.uIcc_of_le h0] at hx
      exact hgf x ⟨hx.1, hx.2.trans h1⟩
    simp only [e]
    linarith

theorem scale_within {F : ℝ → ℝ} {T t d c e : ℝ} (hT : 0 < T) (h : HasDerivWithinAt F d (Set.Icc 0 1) (t / T)) :
    HasDerivWithinAt (fun t => c * F (t / T) + e) (c * d / T) (Set.Icc 0 T) t := by
  have h2 : HasDerivWithinAt (fun t : ℝ => t / T) (1 / T) (Set.Icc 0 T) t := ((hasDerivAt_id t).div_const T).hasDerivWithinAt
  have := (HasDerivWithinAt.scomp (h := fun t : ℝ => t / T) t h h2 (fun u hu =>
    ⟨div_nonneg hu.1 hT.le, (div_le_one hT).2 hu.2⟩))
  have := (this.const_mul c).add_const e
  refine this.congr_deriv ?_
  rw [smul_eq_mul]; field_simp

/-- One axis of the guess is an admissible move if the time is long enough. -/
theorem axis_move {n : ℕ} (hn : 4 ≤ n) {j : ℝ} (hj : 0 < j) (a b : ℝ) {T vm am jm : ℝ} (hT : 0 < T)
    (hv : |fac n j a b| * (V n j).eval (1 / 2) ≤ vm * T) (ha : |fac n j a b| * ((n / 4 : ℕ) * j / n) ≤ am * T ^ 2)
    (hjm : |fac n j a b| * j ≤ jm * T ^ 3) :
    MotionTime.Spec.Move jm am vm (b - a) T (fun t => (axisSpline n j a b).eval (t / T) - a)
      (fun t => ((axisSpline n j a b).derivative 1).eval (t / T) / T) (fun t => ((axisSpline n j a b).derivative 2).eval (t / T) / T ^ 2) := by
  have hp := last_pos hn hj
  have mem : ∀ t ∈ Set.Icc 0 T, 0 ≤ t / T ∧ t / T ≤ 1 := fun t ht => ⟨div_nonneg ht.1 hT.le, (div_le_one hT).2 ht.2⟩
  simp only [ax1_eval hn hj, ax2_eval hn hj]
  refine ⟨⟨?_, ?_, ?_⟩, ⟨?_, ?_, ?_⟩, fun t ht => ?_, fun t ht => ?_, fun t ht => ⟨?_, ?_⟩, ?_⟩
  · rw [zero_div, ax0_eval hn hj a b le_rfl zero_le_one, P0 (by omega)]; ring
  · rw [zero_div, V0 (by omega)]; ring
  · rw [zero_div, A0 (by omega)]; ring
  · rw [div_self hT.ne', ax0_eval hn hj a b zero_le_one le_rfl, P1 hn hj, div_self hp.ne']; ring
  · rw [div_self hT.ne', V1 hn hj]; ring
  · rw [div_self hT.ne', A1 hn hj]; ring
  · obtain ⟨m0, m1⟩ := mem t ht
    have h := within_of_int (V_cont hn hj) (F := (P n j).eval) (fun a b => IP (by omega)) m0 m1
    have := scale_within (c := fac n j a b) (e := 0) hT h
    refine this.congr (fun u hu => ?_) ?_
    · obtain ⟨m0, m1⟩ := mem u hu
      simp only [ax0_eval hn hj a b m0 m1, fac]; ring
    · simp only [ax0_eval hn hj a b m0 m1, fac]; ring
  · obtain ⟨m0, m1⟩ := mem t ht
    have h := within_of_int (A_cont hn hj) (F := (V n j).eval) (fun a b => IV (by omega)) m0 m1
    have := scale_within (c := fac n j a b / T) (e := 0) hT h
    refine (this.congr (fun u hu => ?_) ?_).congr_deriv ?_
    · ring
    · ring
    · field_simp
  · obtain ⟨m0, m1⟩ := mem t ht
    rw [abs_div, abs_of_pos hT, div_le_iff₀ hT, abs_mul, abs_of_nonneg (V_nonneg hn hj m0 m1)]
    exact le_trans (mul_le_mul_of_nonneg_left (V_top hn hj m0 m1) (abs_nonneg _)) hv
  · obtain ⟨m0, m1⟩ := mem t ht
    rw [abs_div, abs_of_pos (pow_pos hT 2), div_le_iff₀ (pow_pos hT 2), abs_mul]
    exact le_trans (mul_le_mul_of_nonneg_left (A_abs hn hj m0 m1) (abs_nonneg _)) ha
  · have key : ∀ s ∈ Set.Icc 0 T, ∀ t ∈ Set.Icc 0 T, s ≤ t →
        |fac n j a b * (A n j).eval (t / T) / T ^ 2 - fac n j a b * (A n j).eval (s / T) / T ^ 2| ≤ jm * |t - s| := by
      intro s hs t ht hst
      have l := A_lip hn hj (a := s / T) (b := t / T) (mem s hs).1 (by gcongr) (mem t ht).2
      rw [show fac n j a b * (A n j).eval (t / T) / T ^ 2 - fac n j a b * (A n j).eval (s / T) / T ^ 2
        = fac n j a b * ((A n j).eval (t / T) - (A n j).eval (s / T)) / T ^ 2 by ring, abs_div, abs_of_pos (pow_pos hT 2),
        div_le_iff₀ (pow_pos hT 2), abs_mul, abs_of_nonneg (sub_nonneg.2 hst)]
      have h2 : t / T - s / T = (t - s) / T := by ring
      rw [h2] at l
      have hd : 0 ≤ (t - s) / T := div_nonneg (sub_nonneg.2 hst) hT.le
      calc |fac n j a b| * |(A n j).eval (t / T) - (A n j).eval (s / T)|
          ≤ |fac n j a b| * (j * ((t - s) / T)) := mul_le_mul_of_nonneg_left l (abs_nonneg _)
        _ = (|fac n j a b| * j) * ((t - s) / T) := by ring
        _ ≤ (jm * T ^ 3) * ((t - s) / T) := mul_le_mul_of_nonneg_right hjm hd
        _ = jm * (t - s) * T ^ 2 := by field_simp
    intro s hs t ht
    rcases le_total s t with h | h
    · exact key s hs t ht h
    · rw [abs_sub_comm, abs_sub_comm t s]; exact key t ht s hs h

/-! ## Lemmas: the motion time -/

theorem mem_grid {i : ℕ} (hi : i < 100) : (i : ℝ) / 99 ∈ grid := by
  unfold grid linspace
  rw [List.mem_map]
  refine ⟨i, List.mem_range.2 hi, ?_⟩
  norm_num

theorem grid_mem {x : ℝ} (h : x ∈ grid) : 0 ≤ x ∧ x ≤ 1 := by
  unfold grid linspace at h
  rw [List.mem_map] at h
  obtain ⟨i, hi, rfl⟩ := h
  rw [List.mem_range] at hi
  have : (i : ℝ) ≤ 99 := by exact_mod_cast (by omega)
  have h0 : (0 : ℝ) ≤ i := Nat.cast_nonneg i
  constructor <;> norm_num <;> linarith

theorem le_peak (f : ℝ → ℝ) {x : ℝ} (h : x ∈ grid) : f x ≤ peak f := by
  unfold peak
  have : ∀ (l : List ℝ) (b : ℝ), ∀ v ∈ l, v ≤ l.foldr max b := by
    intro l b
    induction l with
    | nil => simp
    | cons a l ih =>
      intro v hv
      rw [List.foldr_cons]
      rcases List.mem_cons.1 hv with rfl | hv
      · exact le_max_left _ _
      · exact (ih v hv).trans (le_max_right _ _)
  exact this _ _ _ (List.mem_map_of_mem h)

theorem peak_le {f : ℝ → ℝ} {m : ℝ} (h : ∀ x, 0 ≤ x → x ≤ 1 → f x ≤ m) : peak f ≤ m := by
  unfold peak
  have : ∀ (l : List ℝ) (b : ℝ), b ≤ m → (∀ v ∈ l, v ≤ m) → l.foldr max b ≤ m := by
    intro l b hb hl
    induction l with
    | nil => exact hb
    | cons a l ih =>
      rw [List.foldr_cons]
      exact max_le (hl a (by simp)) (ih fun v hv => hl v (by simp [hv]))
  refine this _ _ (h 0 le_rfl zero_le_one) fun v hv => ?_
  rw [List.mem_map] at hv
  obtain ⟨x, hx, rfl⟩ := hv
  exact h x (grid_mem hx).1 (grid_mem hx).2

/-- The largest of both axes on the grid. -/
noncomputable def top (x y : BSpline ℝ) (o : ℕ) : ℝ :=
  max (peak fun τ => |(x.derivative o).eval τ|) (peak fun τ => |(y.derivative o).eval τ|)

theorem top_nonneg (x y : BSpline ℝ) (o : ℕ) : 0 ≤ top x y o :=
  le_trans (abs_nonneg _) (le_trans (le_peak (fun τ => |(x.derivative o).eval τ|) (mem_grid (i := 0) (by norm_num))) (le_max_left _ _))

theorem time_eq (L : Lim) (x y z : BSpline ℝ) (hj : 0 < L.jx) (ha : 0 < L.ax) (hv : 0 < L.vx) : motionTime L x y z
    = 1.05 * max ((top x y 3 / L.jx) ^ ((1 : ℝ) / 3)) (max (Real.sqrt (top x y 2 / L.ax)) (top x y 1 / L.vx)) := by
  unfold motionTime
  simp only [if_pos hj.ne', if_pos ha.ne', if_pos hv.ne']
  rfl

theorem time_bounds (L : Lim) (x y z : BSpline ℝ) (hj : 0 < L.jx) (ha : 0 < L.ax) (hv : 0 < L.vx) :
    0 ≤ motionTime L x y z ∧ 1.05 * top x y 1 ≤ L.vx * motionTime L x y z ∧
    1.05 ^ 2 * top x y 2 ≤ L.ax * motionTime L x y z ^ 2 ∧ 1.05 ^ 3 * top x y 3 ≤ L.jx * motionTime L x y z ^ 3 := by
  have t1 := top_nonneg x y 1
  have t2 := top_nonneg x y 2
  have t3 := top_nonneg x y 3
  rw [time_eq L x y z hj ha hv]
  set tj := (top x y 3 / L.jx) ^ ((1 : ℝ) / 3) with htj
  set ta := Real.sqrt (top x y 2 / L.ax) with hta
  set tv := top x y 1 / L.vx with htv
  have n3 : 0 ≤ tj := Real.rpow_nonneg (by positivity) _
  have n2 : 0 ≤ ta := Real.sqrt_nonneg _
  have n1 : 0 ≤ tv := by positivity
  have c3 : tj ^ 3 = top x y 3 / L.jx := MotionTime.cube_root _ (by positivity)
  have c2 : ta ^ 2 = top x y 2 / L.ax := Real.sq_sqrt (by positivity)
  have m3 : tj ≤ max tj (max ta tv) := le_max_left _ _
  have m2 : ta ≤ max tj (max ta tv) := (le_max_left _ _).trans (le_max_right _ _)
  have m1 : tv ≤ max tj (max ta tv) := (le_max_right _ _).trans (le_max_right _ _)
  set M := max tj (max ta tv) with hM
  have nM : 0 ≤ M := n3.trans m3
  refine ⟨by positivity, ?_, ?_, ?_⟩
  · have : top x y 1 = L.vx * tv := by rw [htv]; field_simp
    rw [this]
    nlinarith
  · have e : top x y 2 = L.ax * ta ^ 2 := by rw [c2]; field_simp
    have : ta ^ 2 ≤ M ^ 2 := pow_le_pow_left₀ n2 m2 2
    rw [e, mul_pow]
    nlinarith
  · have e : top x y 3 = L.jx * tj ^ 3 := by rw [c3]; field_simp
    have : tj ^ 3 ≤ M ^ 3 := pow_le_pow_left₀ n3 m3 3
    rw [e, mul_pow]
    nlinarith

/-- What an axis contributes to the motion time. -/
theorem axis_top {n : ℕ} (hn : 4 ≤ n) {j : ℝ} (hj : 0 < j) (a b : ℝ) {t1 t2 t3 : ℝ}
    (h1 : (peak fun τ => |((axisSpline n j a b).derivative 1).eval τ|) ≤ t1)
    (h2 : (peak fun τ => |((axisSpline n j a b).derivative 2).eval τ|) ≤ t2)
    (h3 : (peak fun τ => |((axisSpline n j a b).derivative 3).eval τ|) ≤ t3) :
    |fac n j a b| * (V n j).eval (1 / 2) ≤ 1.05 * t1 ∧ |fac n j a b| * ((n / 4 : ℕ) * j / n) ≤ 1.05 ^ 2 * t2 ∧
    |fac n j a b| * j ≤ t3 := by
  refine ⟨?_, ?_, ?_⟩
  · have h := (le_peak (fun τ => |((axisSpline n j a b).derivative 1).eval τ|) (mem_grid (i := 49) (by norm_num))).trans h1
    simp only [ax1_eval hn hj, abs_mul] at h
    have g := V_grid hn hj
    have p := V_nonneg hn hj (x := 49 / 99) (by norm_num) (by norm_num)
    push_cast at h
    rw [abs_of_nonneg p] at h
    nlinarith [abs_nonneg (fac n j a b)]
  · obtain ⟨i, hi, g⟩ := A_grid hn hj
    have h := (le_peak (fun τ => |((axisSpline n j a b).derivative 2).eval τ|) (mem_grid hi)).trans h2
    simp only [ax2_eval hn hj, abs_mul] at h
    have := le_abs_self ((A n j).eval (i / 99))
    calc |fac n j a b| * ((n / 4 : ℕ) * j / n) ≤ |fac n j a b| * (1.05 ^ 2 * |(A n j).eval (i / 99)|) := by
          refine mul_le_mul_of_nonneg_left ?_ (abs_nonneg _)
          linarith
      _ = 1.05 ^ 2 * (|fac n j a b| * |(A n j).eval (i / 99)|) := by ring
      _ ≤ 1.05 ^ 2 * t2 := by gcongr
  · have h := (le_peak (fun τ => |((axisSpline n j a b).derivative 3).eval τ|) (mem_grid (i := 0) (by norm_num))).trans h3
    simp only [ax3_eval hn hj, abs_mul] at h
    rw [J_start hn hj (by simp) (by
      push_cast
      rw [zero_div, zero_mul]
      exact_mod_cast (by omega : 0 < n / 4)), abs_of_pos hj] at h
    exact h

/-- The bounds on the guess of an axis in terms of the motion time. -/
theorem axis_time {n : ℕ} (hn : 4 ≤ n) (L : Lim) (hj : 0 < L.jx) (ha : 0 < L.ax) (hv : 0 < L.vx) (a b a' b' : ℝ) (z : BSpline ℝ) :
    let T := motionTime L (axisSpline n L.jx a b) (axisSpline n L.jx a' b') z
    (|fac n L.jx a b| * (V n L.jx).eval (1 / 2) ≤ L.vx * T ∧ |fac n L.jx a b| * ((n / 4 : ℕ) * L.jx / n) ≤ L.ax * T ^ 2 ∧
      |fac n L.jx a b| * L.jx ≤ L.jx * T ^ 3) ∧
    (|fac n L.jx a' b'| * (V n L.jx).eval (1 / 2) ≤ L.vx * T ∧ |fac n L.jx a' b'| * ((n / 4 : ℕ) * L.jx / n) ≤ L.ax * T ^ 2 ∧
      |fac n L.jx a' b'| * L.jx ≤ L.jx * T ^ 3) := by
  intro T
  obtain ⟨b0, b1, b2, b3⟩ := time_bounds L (axisSpline n L.jx a b) (axisSpline n L.jx a' b') z hj ha hv
  have t3 := top_nonneg (axisSpline n L.jx a b) (axisSpline n L.jx a' b') 3
  have e3 : top (axisSpline n L.jx a b) (axisSpline n L.jx a' b') 3 ≤ L.jx * T ^ 3 := by
    refine le_trans ?_ b3
    nlinarith
  obtain ⟨x1, x2, x3⟩ := axis_top hn hj a b (t1 := top (axisSpline n L.jx a b) (axisSpline n L.jx a' b') 1)
    (t2 := top (axisSpline n L.jx a b) (axisSpline n L.jx a' b') 2) (t3 := top (axisSpline n L.jx a b) (axisSpline n L.jx a' b') 3)
    (le_max_left _ _) (le_max_left _ _) (le_max_left _ _)
  obtain ⟨y1, y2, y3⟩ := axis_top hn hj a' b' (t1 := top (axisSpline n L.jx a b) (axisSpline n L.jx a' b') 1)
    (t2 := top (axisSpline n L.jx a b) (axisSpline n L.jx a' b') 2) (t3 := top (axisSpline n L.jx a b) (axisSpline n L.jx a' b') 3)
    (le_max_right _ _) (le_max_right _ _) (le_max_right _ _)
  exact ⟨⟨x1.trans b1, x2.trans b2, x3.trans e3⟩, ⟨y1.trans b1, y2.trans b2, y3.trans e3⟩⟩

theorem bangbang_veh {n : ℕ} (hn : 4 ≤ n) (L : Lim) (hj : 0 < L.jx) (hy : L.jy = L.jx) (hm : L.jxmin = -L.jx) (start finish : ℝ × ℝ × ℝ) :
    bangbang (vehBasis 3 n) L start finish = .ok ⟨axisSpline n L.jx start.1 finish.1, axisSpline n L.jx start.2.1 finish.2.1,
      ⟨vehBasis 3 n, linspace start.2.2 finish.2.2 (n + 3)⟩,
      motionTime L (axisSpline n L.jx start.1 finish.1) (axisSpline n L.jx start.2.1 finish.2.1)
        ⟨vehBasis 3 n, linspace start.2.2 finish.2.2 (n + 3)⟩⟩ := by
  unfold bangbang
  rw [if_neg (by rw [hy]; simp), if_neg (by rw [hm]; simp)]
  simp only [profile_veh (show 1 ≤ n by omega)]
  rw [if_neg (by unfold P; exact (last_pos hn hj).ne')]
  simp only [P, lp (show 1 ≤ n by omega)]
  rfl

/-- A guess within all limits passes the tests. -/
theorem tested_ok {n : ℕ} (hn : 4 ≤ n) (L : Lim) (hj : 0 < L.jx) (hy : L.jy = L.jx) {a b a' b' T : ℝ} (z : BSpline ℝ) (hT : 0 < T)
    (h1 : |fac n L.jx a b| * (V n L.jx).eval (1 / 2) ≤ L.vx * T) (h2 : |fac n L.jx a b| * ((n / 4 : ℕ) * L.jx / n) ≤ L.ax * T ^ 2)
    (h3 : |fac n L.jx a b| * L.jx ≤ L.jx * T ^ 3) (k1 : ∀ u, 0 ≤ u → u ≤ 1 → fac n L.jx a' b' * (V n L.jx).eval u ≤ L.vy * T)
    (k2 : |fac n L.jx a' b'| * ((n / 4 : ℕ) * L.jx / n) ≤ L.ay * T ^ 2) (k3 : |fac n L.jx a' b'| * L.jx ≤ L.jx * T ^ 3) :
    tested L ⟨axisSpline n L.jx a b, axisSpline n L.jx a' b', z, T⟩ = .ok ⟨axisSpline n L.jx a b, axisSpline n L.jx a' b', z, T⟩ := by
  have v : ∀ {c m u : ℝ}, 0 ≤ u → u ≤ 1 → |c| * (V n L.jx).eval (1 / 2) ≤ m * T → c * (V n L.jx).eval u / T ≤ m := by
    intro c m u h0 h1 h
    rw [div_le_iff₀ hT]
    refine le_trans ?_ h
    have p := V_nonneg hn hj h0 h1
    have q := V_top hn hj h0 h1
    calc _ ≤ |c| * (V n L.jx).eval u := mul_le_mul_of_nonneg_right (le_abs_self c) p
      _ ≤ _ := mul_le_mul_of_nonneg_left q (abs_nonneg c)
  have w : ∀ {c m u : ℝ}, 0 ≤ u → u ≤ 1 → |c| * ((n / 4 : ℕ) * L.jx / n) ≤ m * T ^ 2 → c * (A n L.jx).eval u / T ^ 2 ≤ m := by
    intro c m u h0 h1 h
    rw [div_le_iff₀ (pow_pos hT 2)]
    refine le_trans (le_abs_self _) (le_trans ?_ h)
    rw [abs_mul]
    exact mul_le_mul_of_nonneg_left (A_abs hn hj h0 h1) (abs_nonneg c)
  have jk : ∀ {c m u : ℝ}, 0 ≤ u → u ≤ 1 → |c| * L.jx ≤ m * T ^ 3 → c * (J n L.jx).eval u / T ^ 3 ≤ m := by
    intro c m u h0 h1 h
    rw [div_le_iff₀ (pow_pos hT 3)]
    refine le_trans (le_abs_self _) (le_trans ?_ h)
    rw [abs_mul]
    exact mul_le_mul_of_nonneg_left (J_abs hn hj h0 h1) (abs_nonneg c)
  unfold tested
  simp only [ax1_eval hn hj, ax2_eval hn hj, ax3_eval hn hj]
  rw [if_neg (not_lt.2 (peak_le fun u a b => v a b h1)),
    if_neg (not_lt.2 (peak_le fun u a b => by rw [div_le_iff₀ hT]; exact k1 u a b)),
    if_neg (not_lt.2 (peak_le fun u a b => w a b h2)), if_neg (not_lt.2 (peak_le fun u a b => w a b k2)),
    if_neg (not_lt.2 (peak_le fun u a b => jk a b h3)), if_neg (not_lt.2 (peak_le fun u a b => jk a b (by rw [hy]; exact k3)))]

theorem fac_ne {n : ℕ} (hn : 4 ≤ n) {j : ℝ} (hj : 0 < j) {a b : ℝ} (h : a ≠ b) : fac n j a b ≠ 0 := by
  unfold fac
  exact div_ne_zero (sub_ne_zero.2 h.symm) (last_pos hn hj).ne'

theorem time_pos {n : ℕ} (hn : 4 ≤ n) (L : Lim) (hj : 0 < L.jx) (ha : 0 < L.ax) (hv : 0 < L.vx) {a b a' b' : ℝ} (z : BSpline ℝ)
    (h : a ≠ b ∨ a' ≠ b') : 0 < motionTime L (axisSpline n L.jx a b) (axisSpline n L.jx a' b') z := by
  obtain ⟨⟨-, -, x3⟩, ⟨-, -, y3⟩⟩ := axis_time hn L hj ha hv a b a' b' z
  have b0 := (time_bounds L (axisSpline n L.jx a b) (axisSpline n L.jx a' b') z hj ha hv).1
  refine lt_of_le_of_ne b0 fun e => ?_
  rw [← e] at x3 y3
  rcases h with h | h
  · have := abs_pos.2 (fac_ne hn hj h)
    have := mul_pos this hj
    norm_num at x3
    linarith
  · have := abs_pos.2 (fac_ne hn hj h)
    have := mul_pos this hj
    norm_num at y3
    linarith

/-! ## Specification -/

/-- A motion in the plane that goes straight from one point to the other and never back. -/
def Spec.Straight (a b : ℝ × ℝ) (T : ℝ) (q : ℝ → ℝ × ℝ) : Prop :=
  ∃ s : ℝ → ℝ, MonotoneOn s (Set.Icc 0 T) ∧ s 0 = 0 ∧ s T = 1 ∧
    ∀ t ∈ Set.Icc 0 T, q t = (a.1 + s t * (b.1 - a.1), a.2 + s t * (b.2 - a.2))

/-! ## Properties -/

/-- **C154** With the knots a tool has by default and at least four intervals, the guess for a straight segment in the plane is a
feasible machining move: it exists, takes a positive time, goes along the segment from its start to its end and never back, from
standstill to standstill, and at all times (not only at those tested) each axis respects its limits on velocity, acceleration and
jerk, if the limits along y are those along x or wider. -/
theorem C154_partial (n : ℕ) (hn : 4 ≤ n) (L : Lim) (hj : 0 < L.jx) (ha : 0 < L.ax) (hv : 0 < L.vx) (hy : L.jy = L.jx) (hm : L.jxmin = -L.jx)
    (hay : L.ax ≤ L.ay) (hvy : L.vx ≤ L.vy) (start finish : ℝ × ℝ × ℝ) (hne : (start.1, start.2.1) ≠ (finish.1, finish.2.1)) :
    ∃ g, newSegment (vehBasis 3 n) L start finish = .ok g ∧ 0 < g.T ∧
      Spec.Straight (start.1, start.2.1) (finish.1, finish.2.1) g.T (fun t => (g.x.eval (t / g.T), g.y.eval (t / g.T))) ∧
      (∃ vel acc, MotionTime.Spec.Move L.jx L.ax L.vx (finish.1 - start.1) g.T (fun t => g.x.eval (t / g.T) - start.1) vel acc) ∧
      (∃ vel acc, MotionTime.Spec.Move L.jy L.ay L.vy (finish.2.1 - start.2.1) g.T (fun t => g.y.eval (t / g.T) - start.2.1) vel acc) := by
  have hne' : start.1 ≠ finish.1 ∨ start.2.1 ≠ finish.2.1 := by
    by_contra h
    push Not at h
    exact hne (by rw [h.1, h.2])
  set z : BSpline ℝ := ⟨vehBasis 3 n, linspace start.2.2 finish.2.2 (n + 3)⟩ with hz
  have hT := time_pos hn L hj ha hv (a := start.1) (b := finish.1) (a' := start.2.1) (b' := finish.2.1) z hne'
  obtain ⟨⟨x1, x2, x3⟩, ⟨y1, y2, y3⟩⟩ := axis_time hn L hj ha hv start.1 finish.1 start.2.1 finish.2.1 z
  set T := motionTime L (axisSpline n L.jx start.1 finish.1) (axisSpline n L.jx start.2.1 finish.2.1) z with hTd
  have y1' : |fac n L.jx start.2.1 finish.2.1| * (V n L.jx).eval (1 / 2) ≤ L.vy * T := y1.trans (by gcongr)
  have y2' : |fac n L.jx start.2.1 finish.2.1| * ((n / 4 : ℕ) * L.jx / n) ≤ L.ay * T ^ 2 := y2.trans (by gcongr)
  refine ⟨⟨axisSpline n L.jx start.1 finish.1, axisSpline n L.jx start.2.1 finish.2.1, z, T⟩, ?_, hT, ?_, ?_, ?_⟩
  · unfold newSegment
    rw [bangbang_veh hn L hj hy hm]
    simp only
    rw [← hz, ← hTd]
    refine tested_ok hn L hj hy z hT x1 x2 x3 (fun u h0 h1 => ?_) y2' y3
    refine le_trans ?_ y1'
    calc _ ≤ |fac n L.jx start.2.1 finish.2.1| * (V n L.jx).eval u :=
          mul_le_mul_of_nonneg_right (le_abs_self _) (V_nonneg hn hj h0 h1)
      _ ≤ _ := mul_le_mul_of_nonneg_left (V_top hn hj h0 h1) (abs_nonneg _)
  · have hp := last_pos hn hj
    refine ⟨fun t => (P n L.jx).eval (t / T) / (cp n L.jx).getLastD 0, fun s hs t ht hst => ?_, ?_, ?_, fun t ht => ?_⟩
    · simp only
      gcongr
      exact P_mono hn hj (div_nonneg hs.1 hT.le) (by gcongr) ((div_le_one hT).2 ht.2)
    · simp only
      rw [zero_div, P0 (by omega), zero_div]
    · simp only
      rw [div_self hT.ne', P1 hn hj, div_self hp.ne']
    · simp only
      rw [ax0_eval hn hj _ _ (div_nonneg ht.1 hT.le) ((div_le_one hT).2 ht.2), ax0_eval hn hj _ _ (div_nonneg ht.1 hT.le) ((div_le_one hT).2 ht.2)]
      simp only [mul_comm]
  · exact ⟨_, _, axis_move hn hj _ _ hT x1 x2 x3⟩
  · exact ⟨_, _, axis_move hn hj _ _ hT y1' y2' (by rw [hy]; exact y3)⟩

/-- The tool with its default limits and knots moves along a sloped line. -/
noncomputable def exLim : Lim := ⟨0.5, 0.5, 0.5, 1, 1, 1, 2, 2, 2, -2⟩

example : ∃ g, newSegment (vehBasis 3 10) exLim (1, 2, 0) (4, -1, 0) = .ok g ∧ 0 < g.T := by
  obtain ⟨g, h, hT, -⟩ := C154_partial 10 (by norm_num) exLim (by norm_num [exLim]) (by norm_num [exLim]) (by norm_num [exLim]) (by norm_num [exLim])
    (by norm_num [exLim]) (by norm_num [exLim]) (by norm_num [exLim]) (1, 2, 0) (4, -1, 0) (by norm_num)
  exact ⟨g, h, hT⟩

theorem cp_none {n : ℕ} (hn : 1 ≤ n) {j : ℝ} (h : n < 4 ∨ j = 0) : (cp n j).getLastD 0 = 0 := by
  have ha : ∀ i, i ≤ n → (ca n j).getD i 0 = 0 := by
    intro i hi
    rw [ca_get hn i hi]
    rcases h with h | h
    · have : cum n i = 0 := by
        have h' : n / 4 = 0 := by omega
        have := cum_bound n i hi
        rw [h'] at this
        simpa using this
      rw [this]; simp
    · rw [h]; simp
  have hv : ∀ i, i ≤ n + 1 → (cv n j).getD i 0 = 0 := by
    intro i hi
    rw [cv_get hn i hi]
    refine sum_eq_zero fun k hk => ?_
    rw [mem_range] at hk
    rw [ha k (by omega), mul_zero]
  have hp : ∀ c ∈ cp n j, c = 0 := by
    intro c hc
    obtain ⟨i, hi, rfl⟩ := List.getElem_of_mem hc
    rw [lp hn] at hi
    have := cp_get hn (j := j) i (by omega)
    rw [List.getD_eq_getElem _ _ (by rw [lp hn]; omega)] at this
    rw [this]
    refine sum_eq_zero fun k hk => ?_
    rw [mem_range] at hk
    rw [hv k (by omega), mul_zero]
  have hl := lp (n := n) (j := j) hn
  have hne : cp n j ≠ [] := by intro e; rw [e] at hl; simp at hl
  rw [List.getLastD_eq_getLast?, List.getLast?_eq_some_getLast hne, Option.getD_some]
  exact hp _ (List.getLast_mem hne)

/-- **C154** (the guess exists for every number of intervals) violated: with less than four intervals the guess is made of `nan`. -/
theorem C154_few_violated (n : ℕ) (h1 : 1 ≤ n) (hn : n < 4) (L : Lim) (hy : L.jy = L.jx) (hm : L.jxmin = -L.jx) (start finish : ℝ × ℝ × ℝ) :
    newSegment (vehBasis 3 n) L start finish = .error .nan := by
  unfold newSegment bangbang
  rw [if_neg (by rw [hy]; simp), if_neg (by rw [hm]; simp)]
  simp only [profile_veh h1]
  rw [if_pos (by exact cp_none h1 (Or.inl hn))]

/-- **C154** (there is a guess for moves along the z-axis) violated: with the limits for such moves, zero in x and y, the guess is made of
`nan`. -/
theorem C154_vertical_violated (n : ℕ) (h1 : 1 ≤ n) (L : Lim) (hx : L.jx = 0) (hy : L.jy = 0) (hm : L.jxmin = 0) (start finish : ℝ × ℝ × ℝ) :
    newSegment (vehBasis 3 n) L start finish = .error .nan := by
  unfold newSegment bangbang
  rw [if_neg (by rw [hx, hy]; simp), if_neg (by rw [hx, hm]; simp)]
  simp only [profile_veh h1]
  rw [if_pos (by exact cp_none h1 (Or.inr hx))]

/-- **C154** (there is a guess for moves along the z-axis) violated: with the limits for moves in the plane, the motion time of the guess is
zero, however far the move goes. -/
theorem C154_instant_violated (n : ℕ) (hn : 4 ≤ n) (L : Lim) (hj : 0 < L.jx) (ha : 0 < L.ax) (hv : 0 < L.vx) (hy : L.jy = L.jx)
    (hm : L.jxmin = -L.jx) (hay : 0 ≤ L.ay) (hvy : 0 ≤ L.vy) (x y z0 z1 : ℝ) :
    ∃ g, newSegment (vehBasis 3 n) L (x, y, z0) (x, y, z1) = .ok g ∧ g.T = 0 := by
  have f0 : ∀ a, fac n L.jx a a = 0 := fun a => by unfold fac; simp
  have t0 : ∀ o, o = 1 ∨ o = 2 ∨ o = 3 → top (axisSpline n L.jx x x) (axisSpline n L.jx y y) o = 0 := by
    intro o ho
    refine le_antisymm (max_le (peak_le fun u _ _ => ?_) (peak_le fun u _ _ => ?_)) (top_nonneg _ _ _)
    · rcases ho with rfl | rfl | rfl
      · rw [ax1_eval hn hj, f0]; simp
      · rw [ax2_eval hn hj, f0]; simp
      · rw [ax3_eval hn hj, f0]; simp
    · rcases ho with rfl | rfl | rfl
      · rw [ax1_eval hn hj, f0]; simp
      · rw [ax2_eval hn hj, f0]; simp
      · rw [ax3_eval hn hj, f0]; simp
  unfold newSegment
  rw [bangbang_veh hn L hj hy hm]
  simp only
  have hT : motionTime L (axisSpline n L.jx x x) (axisSpline n L.jx y y) ⟨vehBasis 3 n, linspace z0 z1 (n + 3)⟩ = 0 := by
    rw [time_eq L _ _ _ hj ha hv, t0 1 (by simp), t0 2 (by simp), t0 3 (by simp)]
    simp
  rw [hT]
  refine ⟨⟨axisSpline n L.jx x x, axisSpline n L.jx y y, ⟨vehBasis 3 n, linspace z0 z1 (n + 3)⟩, 0⟩, ?_, rfl⟩
  unfold tested
  simp only [ax1_eval hn hj, ax2_eval hn hj, ax3_eval hn hj, f0, zero_mul, zero_div]
  have pz : peak (fun _ => (0 : ℝ)) ≤ 0 := peak_le fun _ _ _ => le_rfl
  rw [if_neg (by linarith), if_neg (by linarith), if_neg (by linarith), if_neg (by linarith), if_neg (by linarith), if_neg (by linarith)]

/-- **C154** (the guess starts at rest) violated: a segment that also changes the height starts with a jump of the velocity along z. -/
theorem C154_height_violated (n : ℕ) (hn : 4 ≤ n) (L : Lim) (start finish : ℝ × ℝ × ℝ) (hz : start.2.2 ≠ finish.2.2) (g : Guess)
    (hg : newSegment (vehBasis 3 n) L start finish = .ok g) : (g.z.derivative 1).eval 0 ≠ 0 := by
  have h1 : 1 ≤ n := by omega
  have e : g.z = ⟨vehBasis 3 n, linspace start.2.2 finish.2.2 (n + 3)⟩ := by
    unfold newSegment at hg
    split at hg
    · cases hg
    · rename_i g' hb
      have : g' = g := by
        unfold tested at hg
        split_ifs at hg
        exact Except.ok.inj hg
      subst this
      unfold bangbang at hb
      split_ifs at hb
      simp only at hb
      split_ifs at hb
      rw [← Except.ok.inj hb]
      simp only [profile_veh h1]
      unfold P
      simp only [lp h1]
  have cl := vehBasis_clamped (d := 3) h1
  have wf : (⟨vehBasis 3 n, linspace start.2.2 finish.2.2 (n + 3)⟩ : BSpline ℝ).WF := by
    unfold BSpline.WF linspace
    simp only [List.length_map, List.length_range]
    rw [vehBasis_len]
  rw [e]
  obtain ⟨d1, d2, d3, d4, d5, d6⟩ := derivative_one_spec (s := ⟨vehBasis 3 n, linspace start.2.2 finish.2.2 (n + 3)⟩) cl wf (by show 1 ≤ 3; omega)
  have hn0 : (0 : ℝ) < n := by exact_mod_cast (by omega : 0 < n)
  have hh := (C03_endpoints _ d5 d4 (by
    rw [d1, d1, d3]
    simp only
    rw [vehBasis_len, vehBasis_k h1, vehBasis_k h1]
    gcongr
    omega)).1
  have hz0 : ((⟨vehBasis 3 n, linspace start.2.2 finish.2.2 (n + 3)⟩ : BSpline ℝ).derivative 1).basis.knots.headD 0 = 0 := by
    rw [headD_eq_k d5, d1]
    simp only
    rw [vehBasis_k h1]; simp
  rw [hz0] at hh
  rw [hh]
  have hl := d4
  unfold BSpline.WF at hl
  rw [d3] at hl
  simp only at hl
  rw [vehBasis_len] at hl
  have hg0 := d6 0 (by simp only; rw [vehBasis_len]; omega)
  have : ((⟨vehBasis 3 n, linspace start.2.2 finish.2.2 (n + 3)⟩ : BSpline ℝ).derivative 1).coeffs.headD 0
      = ((⟨vehBasis 3 n, linspace start.2.2 finish.2.2 (n + 3)⟩ : BSpline ℝ).derivative 1).coeffs.getD 0 0 := by
    rw [List.getD_eq_getElem _ _ (by omega), List.headD_eq_head?_getD, List.head?_eq_getElem?, List.getElem?_eq_getElem (by omega), Option.getD_some]
  rw [this, hg0]
  simp only
  rw [vehBasis_k h1, vehBasis_k h1]
  have l0 : (linspace start.2.2 finish.2.2 (n + 3)).getD 0 0 = start.2.2 := by
    unfold linspace
    rw [List.getD_eq_getElem _ _ (by simp), List.getElem_map, List.getElem_range]; simp
  have l1 : (linspace start.2.2 finish.2.2 (n + 3)).getD (0 + 1) 0 = start.2.2 + (finish.2.2 - start.2.2) * (1 / (n + 2)) := by
    unfold linspace
    rw [List.getD_eq_getElem _ _ (by simp), List.getElem_map, List.getElem_range]
    rw [show n + 3 - 1 = n + 2 by omega]
    push_cast
    norm_num
  rw [l0, l1]
  have hd : (vehBasis 3 n).degree = 3 := rfl
  rw [hd]
  have hs : finish.2.2 - start.2.2 ≠ 0 := sub_ne_zero.2 hz.symm
  have hk : ((min (0 + 3 + 1 - 3) n : ℕ) : ℝ) / n - ((min (0 + 1 - 3) n : ℕ) : ℝ) / n ≠ 0 := by
    rw [show min (0 + 3 + 1 - 3) n = 1 by omega, show min (0 + 1 - 3) n = 0 by omega]
    push_cast
    rw [zero_div, sub_zero]
    positivity
  refine div_ne_zero (mul_ne_zero (by norm_num) ?_) hk
  rw [add_sub_cancel_left]
  exact mul_ne_zero hs (by positivity)

/-- **C154** (limits along y) violated: the motion time only looks at the limits along x, and the tests only at the positive direction: for a
move in the negative direction of y and a slow y-axis, a guess that is too fast is accepted. -/
theorem C154_axes_violated (n : ℕ) (hn : 4 ≤ n) (L : Lim) (hj : 0 < L.jx) (ha : 0 < L.ax) (hv : 0 < L.vx) (hy : L.jy = L.jx) (hm : L.jxmin = -L.jx)
    (hay : L.ax ≤ L.ay) (start finish : ℝ × ℝ × ℝ) (hd : finish.2.1 < start.2.1) :
    ∃ v0 > 0, ∀ vy, 0 < vy → vy < v0 → ∃ g, newSegment (vehBasis 3 n) { L with vy := vy } start finish = .ok g ∧
      ∃ t ∈ Set.Icc 0 g.T, HasDerivAt (fun t => g.y.eval (t / g.T)) ((g.y.derivative 1).eval (t / g.T) / g.T) t ∧
        vy < |(g.y.derivative 1).eval (t / g.T) / g.T| := by
  set z : BSpline ℝ := ⟨vehBasis 3 n, linspace start.2.2 finish.2.2 (n + 3)⟩ with hz
  have hT := time_pos hn L hj ha hv (a := start.1) (b := finish.1) (a' := start.2.1) (b' := finish.2.1) z (Or.inr hd.ne')
  obtain ⟨⟨x1, x2, x3⟩, ⟨y1, y2, y3⟩⟩ := axis_time hn L hj ha hv start.1 finish.1 start.2.1 finish.2.1 z
  set T := motionTime L (axisSpline n L.jx start.1 finish.1) (axisSpline n L.jx start.2.1 finish.2.1) z with hTd
  have hV : 0 < (V n L.jx).eval (1 / 2) := lt_of_lt_of_le (by positivity) (V_half hn hj)
  have hf : fac n L.jx start.2.1 finish.2.1 < 0 := div_neg_of_neg_of_pos (by linarith) (last_pos hn hj)
  refine ⟨|fac n L.jx start.2.1 finish.2.1| * (V n L.jx).eval (1 / 2) / T,
    div_pos (mul_pos (abs_pos.2 hf.ne) hV) hT, fun vy h0 h1 =>
    ⟨⟨axisSpline n L.jx start.1 finish.1, axisSpline n L.jx start.2.1 finish.2.1, z, T⟩, ?_, T / 2, ⟨by positivity, by simp only; linarith⟩, ?_, ?_⟩⟩
  · unfold newSegment
    rw [bangbang_veh hn { L with vy := vy } hj hy hm]
    simp only
    have e : motionTime { L with vy := vy } (axisSpline n L.jx start.1 finish.1) (axisSpline n L.jx start.2.1 finish.2.1) z = T := rfl
    rw [← hz, e]
    refine tested_ok hn { L with vy := vy } hj hy z hT x1 x2 x3 (fun u h0' h1' => ?_) (y2.trans (by simp only; gcongr)) y3
    have := V_nonneg hn hj h0' h1'
    have h2 : fac n L.jx start.2.1 finish.2.1 * (V n L.jx).eval u ≤ 0 := mul_nonpos_of_nonpos_of_nonneg hf.le this
    simp only
    have := mul_pos h0 hT
    linarith
  · simp only
    have ht : Traj (axisSpline n L.jx start.2.1 finish.2.1) 2 := by
      refine vehBasis_traj (d := 3) (by omega) (by omega) ?_
      unfold axisGuess
      simp only [List.length_set, List.length_map]
      exact lp (by omega)
    exact (ht.mono (m := 1) (by omega)).phys hT (by linarith) (by linarith)
  · simp only
    rw [show T / 2 / T = 1 / 2 by field_simp, ax1_eval hn hj, abs_div, abs_mul, abs_of_pos hT, abs_of_pos hV]
    exact h1

theorem ca_lin {n : ℕ} (hn : 1 ≤ n) (j : ℝ) (i : ℕ) (hi : i ≤ n) : (ca n j).getD i 0 = j * (ca n 1).getD i 0 := by
  rw [ca_get hn i hi, ca_get hn i hi]; ring

theorem cv_lin {n : ℕ} (hn : 1 ≤ n) (j : ℝ) (i : ℕ) (hi : i ≤ n + 1) : (cv n j).getD i 0 = j * (cv n 1).getD i 0 := by
  rw [cv_get hn i hi, cv_get hn i hi, mul_sum]
  refine sum_congr rfl fun k hk => ?_
  rw [mem_range] at hk
  rw [ca_lin hn j k (by omega)]; ring

theorem cp_lin {n : ℕ} (hn : 1 ≤ n) (j : ℝ) (i : ℕ) (hi : i ≤ n + 2) : (cp n j).getD i 0 = j * (cp n 1).getD i 0 := by
  rw [cp_get hn i hi, cp_get hn i hi, mul_sum]
  refine sum_congr rfl fun k hk => ?_
  rw [mem_range] at hk
  rw [cv_lin hn j k (by omega)]; ring

theorem scale_eq {d n : ℕ} {c c' : List ℝ} {j : ℝ} (hc : c.length = n + d) (hc' : c'.length = n + d)
    (h : ∀ i, i < n + d → c.getD i 0 = j * c'.getD i 0) (u : ℝ) :
    (⟨vehBasis d n, c⟩ : BSpline ℝ).eval u = j * (⟨vehBasis d n, c'⟩ : BSpline ℝ).eval u := by
  have : (⟨vehBasis d n, c⟩ : BSpline ℝ) = (⟨vehBasis d n, c'⟩ : BSpline ℝ).mulNum j := by
    unfold BSpline.mulNum
    congr 1
    apply List.ext_getElem
    · simp [hc, hc']
    · intro i h1 h2
      have := h i (by omega)
      rw [List.getD_eq_getElem _ _ h1, List.getD_eq_getElem _ _ (by omega)] at this
      rw [this, List.getElem_map]
  rw [this, (C09_neg_mul _ _ _).2]

/-- The shape of the guess does not depend on the limit on the jerk. -/
theorem guess_lin {n : ℕ} (hn : 4 ≤ n) {j : ℝ} (hj : 0 < j) (a b u : ℝ) :
    fac n j a b * (V n j).eval u = fac n 1 a b * (V n 1).eval u ∧ fac n j a b * j = fac n 1 a b := by
  have h1 : 1 ≤ n := by omega
  have hp := last_pos hn (zero_lt_one (α := ℝ))
  have e : (cp n j).getLastD 0 = j * (cp n 1).getLastD 0 := by
    rw [last_eq hn, last_eq hn, cp_lin h1 j _ le_rfl]
  have v : (V n j).eval u = j * (V n 1).eval u := scale_eq (lv h1) (lv h1) (fun i hi => cv_lin h1 j i (by omega)) u
  unfold fac
  rw [e, v]
  constructor <;> field_simp

set_option maxHeartbeats 1600000 in
/-- **C154** (limit on the velocity along the path, the default) violated: the motion time looks at each axis alone. On a diagonal where the
velocity is what limits the move, the guess is a third too fast. -/
theorem C154_machining_violated (n : ℕ) (hn : 4 ≤ n) (start finish : ℝ × ℝ × ℝ) (D : ℝ) (hD : D ≠ 0) (hx : finish.1 - start.1 = D)
    (hy : finish.2.1 - start.2.1 = D) (v : ℝ) (hv : 0 < v) :
    ∃ a0 j0, 0 < a0 ∧ 0 < j0 ∧ ∀ L : Lim, L.vx = v → L.vy = v → a0 ≤ L.ax → L.ay = L.ax → j0 ≤ L.jx → L.jy = L.jx → L.jxmin = -L.jx →
      ∃ g, newSegment (vehBasis 3 n) L start finish = .ok g ∧ 0 < g.T ∧
        1.3 * L.vx ≤ Real.sqrt (((g.x.derivative 1).eval (1 / 2) / g.T) ^ 2 + ((g.y.derivative 1).eval (1 / 2) / g.T) ^ 2) := by
  set f1 : ℝ := fac n 1 start.1 finish.1 with hf1
  have hfy : ∀ j, fac n j start.2.1 finish.2.1 = fac n j start.1 finish.1 := fun j => by unfold fac; rw [hx, hy]
  have hf0 : 0 < |f1| := abs_pos.2 (by
    rw [hf1]; unfold fac; rw [hx]; exact div_ne_zero hD (last_pos hn zero_lt_one).ne')
  have hV : 0 < (V n 1).eval (1 / 2) := lt_of_lt_of_le (by norm_num) (V_half hn zero_lt_one)
  have hG : 0 < (V n 1).eval (49 / 99) := by have := V_grid hn (zero_lt_one (α := ℝ)); norm_num at *; linarith
  have hn0 : (0 : ℝ) < n := by exact_mod_cast (by omega : 0 < n)
  have hq0 : (0 : ℝ) < (n / 4 : ℕ) := by exact_mod_cast (by omega : 0 < n / 4)
  set c1 := |f1| * (V n 1).eval (49 / 99) with hc1
  set c2 := |f1| * ((n / 4 : ℕ) / n) with hc2
  have p1 : 0 < c1 := by positivity
  have p2 : 0 < c2 := by positivity
  refine ⟨c2 / (c1 / v) ^ 2, |f1| / (c1 / v) ^ 3, by positivity, by positivity, fun L lvx lvy la lay lj ljy lm => ?_⟩
  have hj : 0 < L.jx := lt_of_lt_of_le (by positivity) lj
  have ha : 0 < L.ax := lt_of_lt_of_le (by positivity) la
  have hvx : 0 < L.vx := by rw [lvx]; exact hv
  set z : BSpline ℝ := ⟨vehBasis 3 n, linspace start.2.2 finish.2.2 (n + 3)⟩ with hz
  have hxne : start.1 ≠ finish.1 := fun e => hD (by rw [← hx, e]; ring)
  have hT := time_pos hn L hj ha hvx (a := start.1) (b := finish.1) (a' := start.2.1) (b' := finish.2.1) z (Or.inl hxne)
  obtain ⟨⟨x1, x2, x3⟩, ⟨y1, y2, y3⟩⟩ := axis_time hn L hj ha hvx start.1 finish.1 start.2.1 finish.2.1 z
  have lin : ∀ u, fac n L.jx start.1 finish.1 * (V n L.jx).eval u = f1 * (V n 1).eval u := fun u => (guess_lin hn hj _ _ u).1
  have lin' : fac n L.jx start.1 finish.1 * L.jx = f1 := (guess_lin hn hj _ _ 0).2
  have facj : |fac n L.jx start.1 finish.1| * L.jx = |f1| := by rw [← lin', abs_mul, abs_of_pos hj]
  set X := axisSpline n L.jx start.1 finish.1 with hX
  set Y := axisSpline n L.jx start.2.1 finish.2.1 with hY
  have dX1 : ∀ u, (X.derivative 1).eval u = f1 * (V n 1).eval u := fun u => by rw [hX, ax1_eval hn hj, lin]
  have dY1 : ∀ u, (Y.derivative 1).eval u = f1 * (V n 1).eval u := fun u => by rw [hY, ax1_eval hn hj, hfy, lin]
  have k1 : top X Y 1 ≤ |f1| * (V n 1).eval (1 / 2) := by
    have : ∀ u, 0 ≤ u → u ≤ 1 → |f1 * (V n 1).eval u| ≤ |f1| * (V n 1).eval (1 / 2) := fun u h0 h1 => by
      rw [abs_mul, abs_of_nonneg (V_nonneg hn zero_lt_one h0 h1)]
      exact mul_le_mul_of_nonneg_left (V_top hn zero_lt_one h0 h1) (abs_nonneg _)
    exact max_le (peak_le fun u h0 h1 => by rw [dX1]; exact this u h0 h1) (peak_le fun u h0 h1 => by rw [dY1]; exact this u h0 h1)
  have k1' : c1 ≤ top X Y 1 := by
    refine le_trans ?_ ((le_peak (fun τ => |(X.derivative 1).eval τ|) (mem_grid (i := 49) (by norm_num))).trans (le_max_left _ _))
    simp only [dX1]
    push_cast
    rw [abs_mul, abs_of_pos hG]
  have k2 : top X Y 2 ≤ c2 := by
    have : ∀ u, 0 ≤ u → u ≤ 1 → |fac n L.jx start.1 finish.1 * (A n L.jx).eval u| ≤ c2 := fun u h0 h1 => by
      rw [abs_mul]
      calc _ ≤ |fac n L.jx start.1 finish.1| * ((n / 4 : ℕ) * L.jx / n) := mul_le_mul_of_nonneg_left (A_abs hn hj h0 h1) (abs_nonneg _)
        _ = c2 := by rw [hc2, ← facj]; ring
    exact max_le (peak_le fun u h0 h1 => by rw [hX, ax2_eval hn hj]; exact this u h0 h1)
      (peak_le fun u h0 h1 => by rw [hY, ax2_eval hn hj, hfy]; exact this u h0 h1)
  have k3 : top X Y 3 ≤ |f1| := by
    have : ∀ u, 0 ≤ u → u ≤ 1 → |fac n L.jx start.1 finish.1 * (J n L.jx).eval u| ≤ |f1| := fun u h0 h1 => by
      rw [abs_mul]
      calc _ ≤ |fac n L.jx start.1 finish.1| * L.jx := mul_le_mul_of_nonneg_left (J_abs hn hj h0 h1) (abs_nonneg _)
        _ = |f1| := facj
    exact max_le (peak_le fun u h0 h1 => by rw [hX, ax3_eval hn hj]; exact this u h0 h1)
      (peak_le fun u h0 h1 => by rw [hY, ax3_eval hn hj, hfy]; exact this u h0 h1)
  have t2 := top_nonneg X Y 2
  have t3 := top_nonneg X Y 3
  have r1 : c1 / v ≤ top X Y 1 / L.vx := by rw [lvx]; gcongr
  have r2 : Real.sqrt (top X Y 2 / L.ax) ≤ top X Y 1 / L.vx := by
    refine le_trans ?_ r1
    rw [Real.sqrt_le_left (by positivity), div_le_iff₀ ha]
    rw [div_le_iff₀ (by positivity)] at la
    linarith
  have r3 : (top X Y 3 / L.jx) ^ ((1 : ℝ) / 3) ≤ top X Y 1 / L.vx := by
    refine le_trans ?_ r1
    rw [← pow_le_pow_iff_left₀ (Real.rpow_nonneg (by positivity) _) (by positivity) (show 3 ≠ 0 by norm_num),
      MotionTime.cube_root _ (by positivity), div_le_iff₀ hj]
    rw [div_le_iff₀ (by positivity)] at lj
    linarith
  have hTe : motionTime L X Y z = 1.05 * (top X Y 1 / v) := by
    rw [time_eq L X Y z hj ha hvx, max_eq_right (le_trans r3 (le_max_right _ _)), max_eq_right r2, lvx]
  have hTle : motionTime L X Y z * v ≤ 1.05 * (|f1| * (V n 1).eval (1 / 2)) := by
    rw [hTe]
    field_simp
    linarith
  set T := motionTime L X Y z with hTd
  refine ⟨⟨X, Y, z, T⟩, ?_, hT, ?_⟩
  · unfold newSegment
    rw [bangbang_veh hn L hj ljy lm]
    simp only
    rw [← hz, ← hX, ← hY, ← hTd]
    refine tested_ok hn L hj ljy z hT x1 x2 x3 (fun u h0 h1 => ?_) (by rw [lay]; exact y2) y3
    rw [lvy, ← lvx]
    refine le_trans ?_ y1
    calc _ ≤ |fac n L.jx start.2.1 finish.2.1| * (V n L.jx).eval u :=
          mul_le_mul_of_nonneg_right (le_abs_self _) (V_nonneg hn hj h0 h1)
      _ ≤ _ := mul_le_mul_of_nonneg_left (V_top hn hj h0 h1) (abs_nonneg _)
  · simp only
    rw [dX1, dY1, lvx]
    refine Real.le_sqrt_of_sq_le ?_
    have e : (f1 * (V n 1).eval (1 / 2) / T) ^ 2 = (|f1| * (V n 1).eval (1 / 2) / T) ^ 2 := by
      rw [div_pow, div_pow, mul_pow, mul_pow, sq_abs]
    rw [e]
    have hm : v / 1.05 ≤ |f1| * (V n 1).eval (1 / 2) / T := by
      rw [div_le_div_iff₀ (by norm_num) hT]
      linarith
    have := pow_le_pow_left₀ (by positivity) hm 2
    norm_num at *
    nlinarith [sq_nonneg v]

example : ∃ L : Lim, ∃ g, newSegment (vehBasis 3 10) L (0, 0, 0) (1, 1, 0) = .ok g ∧ 0 < L.vx ∧
    1.3 * L.vx ≤ Real.sqrt (((g.x.derivative 1).eval (1 / 2) / g.T) ^ 2 + ((g.y.derivative 1).eval (1 / 2) / g.T) ^ 2) := by
  obtain ⟨a0, j0, -, -, h⟩ := C154_machining_violated 10 (by norm_num) (0, 0, 0) (1, 1, 0) 1 one_ne_zero (by norm_num) (by norm_num) 2 (by norm_num)
  obtain ⟨g, h1, -, h2⟩ := h ⟨2, 2, 2, a0, a0, a0, j0, j0, j0, -j0⟩ rfl rfl le_rfl rfl le_rfl rfl rfl
  exact ⟨_, g, h1, by norm_num, h2⟩

end Verif.GCode.BangBang
