import Mathlib.Analysis.SpecialFunctions.Complex.Arg
import Mathlib.Tactic.Linarith
import Mathlib.Tactic.FieldSimp
import Verif.GCode.Blocks

/-! # GCode arcs (C45, C84, C85)

Mirrors the blocks `G02` and `G03`, `omgtools/gui/gcode_block.py:62-284`.  The plane of an arc is always `'XY'` (lines 67, 177), so the
other two branches of `get_coordinates` are never used and not modelled.  Real numbers; `np.arctan2 (y, x)` is the argument of the complex
number `x + y i`. -/

set_option linter.unusedSectionVars false

namespace Verif.GCode

/-! ## Model -/

/-- `np.arctan2`. -/
noncomputable def arctan2 (y x : ℝ) : ℝ := Complex.arg ⟨x, y⟩

/-- `center`, gcode_block.py:69-78, 179-188: zero where the letter is missing. -/
noncomputable def Block.center (b : Block ℝ) : ℝ × ℝ × ℝ :=
  ((match b.i with | some v => b.start.1 + v | none => 0), (match b.j with | some v => b.start.2.1 + v | none => 0),
    (match b.k with | some v => b.start.2.2 + v | none => 0))

/-- `radius` of `G02`, gcode_block.py:79: the distance in space. -/
noncomputable def Block.radius02 (b : Block ℝ) : ℝ :=
  √((b.start.1 - b.center.1) ^ 2 + (b.start.2.1 - b.center.2.1) ^ 2 + (b.start.2.2 - b.center.2.2) ^ 2)

/-- `radius` of `G03` in the plane, gcode_block.py:256. -/
noncomputable def Block.radius03 (b : Block ℝ) : ℝ := √((b.start.1 - b.center.1) ^ 2 + (b.start.2.1 - b.center.2.1) ^ 2)

/-- `np.linspace (a, b, n)` for at least two samples. -/
noncomputable def linspace (a b : ℝ) (n : ℕ) : List ℝ := (List.range n).map fun i : ℕ => a + (b - a) * ((i : ℝ) / ((n : ℝ) - 1))

/-- The first angle, gcode_block.py:146, 259. -/
noncomputable def Block.angle1 (b : Block ℝ) : ℝ := arctan2 (b.start.2.1 - b.center.2.1) (b.start.1 - b.center.1)

/-- The second angle, gcode_block.py:147, 260. -/
noncomputable def Block.angle2 (b : Block ℝ) : ℝ := arctan2 (b.stop.2.1 - b.center.2.1) (b.stop.1 - b.center.1)

open Classical in
/-- `get_coordinates` of `G02`, gcode_block.py:142-166; `n` is 20. -/
noncomputable def coordinates02 (b : Block ℝ) (n : ℕ) : List (ℝ × ℝ × ℝ) :=
  let a1 := if b.angle1 < b.angle2 then b.angle1 + 2 * Real.pi else b.angle1
  let arc := a1 - b.angle2
  (linspace a1 (a1 - arc) n).map fun s => (b.center.1 + b.radius02 * Real.cos s, b.center.2.1 + b.radius02 * Real.sin s, b.start.2.2)

open Classical in
/-- `get_coordinates` of `G03`, gcode_block.py:253-279; `n` is 20. -/
noncomputable def coordinates03 (b : Block ℝ) (n : ℕ) : List (ℝ × ℝ × ℝ) :=
  let a2 := if b.angle2 < b.angle1 then b.angle2 + 2 * Real.pi else b.angle2
  let arc := a2 - b.angle1
  (linspace b.angle1 (b.angle1 + arc) n).map fun s =>
    (b.center.1 + b.radius03 * Real.cos s, b.center.2.1 + b.radius03 * Real.sin s, b.start.2.2)

/-! ## Specification -/

/-- The programmed centre: the start plus the values for `I` and `J`, where a missing letter counts as zero. -/
noncomputable def Spec.centre (b : Block ℝ) : ℝ × ℝ := (b.start.1 + b.i.getD 0, b.start.2.1 + b.j.getD 0)

/-- The point of the circle around `c` with radius `r` at the angle `a`. -/
noncomputable def Spec.onCircle (c : ℝ × ℝ) (r a : ℝ) : ℝ × ℝ := (c.1 + r * Real.cos a, c.2 + r * Real.sin a)

/-- The programmed radius. -/
noncomputable def Spec.radius (b : Block ℝ) : ℝ := √(b.i.getD 0 ^ 2 + b.j.getD 0 ^ 2)

/-- The end of the arc is on the circle. -/
def Spec.Consistent (b : Block ℝ) : Prop :=
  (b.stop.1 - (Spec.centre b).1) ^ 2 + (b.stop.2.1 - (Spec.centre b).2) ^ 2 = b.i.getD 0 ^ 2 + b.j.getD 0 ^ 2

/-- The points of `ps` turn on the circle from the start to the end of the block by an angle in `[0, 2π)`, in the direction `dir`
(`1` counter-clockwise, `-1` clockwise) and in equal steps. -/
def Spec.Turns (b : Block ℝ) (dir : ℝ) (ps : List (ℝ × ℝ × ℝ)) : Prop :=
  ∃ a sweep : ℝ, 0 ≤ sweep ∧ sweep < 2 * Real.pi ∧
    Spec.onCircle (Spec.centre b) (Spec.radius b) a = (b.start.1, b.start.2.1) ∧
    Spec.onCircle (Spec.centre b) (Spec.radius b) (a + dir * sweep) = (b.stop.1, b.stop.2.1) ∧
    ∀ i : ℕ, i < ps.length → ∃ p, ps[i]? = some p ∧ p.2.2 = b.start.2.2 ∧
      (p.1, p.2.1) = Spec.onCircle (Spec.centre b) (Spec.radius b) (a + dir * (sweep * ((i : ℝ) / ((ps.length : ℝ) - 1))))

/-! ## Lemmas -/

theorem polar (dx dy r : ℝ) (h : dx ^ 2 + dy ^ 2 = r ^ 2) (hr : 0 ≤ r) : r * Real.cos (arctan2 dy dx) = dx ∧ r * Real.sin (arctan2 dy dx) = dy := by
  have hn : ‖(⟨dx, dy⟩ : ℂ)‖ = r := by
    rw [Complex.norm_def, Complex.normSq_mk, ← Real.sqrt_sq hr, ← h]
    congr 1; ring
  unfold arctan2
  constructor
  · have := Complex.norm_mul_cos_arg (⟨dx, dy⟩ : ℂ); rw [hn] at this; exact this
  · have := Complex.norm_mul_sin_arg (⟨dx, dy⟩ : ℂ); rw [hn] at this; exact this

theorem arctan2_bounds (y x : ℝ) : -Real.pi < arctan2 y x ∧ arctan2 y x ≤ Real.pi := ⟨Complex.neg_pi_lt_arg _, Complex.arg_le_pi _⟩

theorem length_linspace (a b : ℝ) (n : ℕ) : (linspace a b n).length = n := by simp [linspace]

/-- Both blocks at once. -/
theorem turns_of (b : Block ℝ) (r a sweep dir : ℝ) (n : ℕ) (hc : b.center.1 = (Spec.centre b).1 ∧ b.center.2.1 = (Spec.centre b).2)
    (hr : r = Spec.radius b) (h0 : 0 ≤ sweep) (h1 : sweep < 2 * Real.pi)
    (hs : Spec.onCircle (Spec.centre b) (Spec.radius b) a = (b.start.1, b.start.2.1))
    (he : Spec.onCircle (Spec.centre b) (Spec.radius b) (a + dir * sweep) = (b.stop.1, b.stop.2.1)) :
    Spec.Turns b dir ((linspace a (a + dir * sweep) n).map fun s => (b.center.1 + r * Real.cos s, b.center.2.1 + r * Real.sin s, b.start.2.2)) := by
  refine ⟨a, sweep, h0, h1, hs, he, ?_⟩
  intro i hi
  rw [List.length_map, length_linspace] at hi
  rw [List.length_map, length_linspace]
  refine ⟨(b.center.1 + r * Real.cos (a + dir * (sweep * ((i : ℝ) / ((n : ℝ) - 1)))),
      b.center.2.1 + r * Real.sin (a + dir * (sweep * ((i : ℝ) / ((n : ℝ) - 1)))), b.start.2.2), ?_, ?_, ?_⟩
  · rw [List.getElem?_map]
    simp only [linspace, List.getElem?_map, List.getElem?_range hi, Option.map_some]
    have : a + (a + dir * sweep - a) * ((i : ℝ) / ((n : ℝ) - 1)) = a + dir * (sweep * ((i : ℝ) / ((n : ℝ) - 1))) := by ring
    rw [this]
  · rfl
  · simp only [Spec.onCircle, hc.1, hc.2, hr]

theorem center_given {b : Block ℝ} (hi : b.i.isSome = true) (hj : b.j.isSome = true) :
    b.center.1 = (Spec.centre b).1 ∧ b.center.2.1 = (Spec.centre b).2 := by
  obtain ⟨i, hi⟩ := Option.isSome_iff_exists.1 hi
  obtain ⟨j, hj⟩ := Option.isSome_iff_exists.1 hj
  simp [Block.center, Spec.centre, hi, hj]

theorem radius03_given {b : Block ℝ} (hi : b.i.isSome = true) (hj : b.j.isSome = true) : b.radius03 = Spec.radius b := by
  have := center_given hi hj
  unfold Block.radius03 Spec.radius
  rw [this.1, this.2]
  congr 1
  simp only [Spec.centre]; ring

theorem radius02_given {b : Block ℝ} (hi : b.i.isSome = true) (hj : b.j.isSome = true) (hz : b.center.2.2 = b.start.2.2) :
    b.radius02 = Spec.radius b := by
  have := center_given hi hj
  unfold Block.radius02 Spec.radius
  rw [this.1, this.2, hz]
  congr 1
  simp only [Spec.centre]; ring

theorem radius_sq (b : Block ℝ) : Spec.radius b ^ 2 = b.i.getD 0 ^ 2 + b.j.getD 0 ^ 2 := Real.sq_sqrt (by positivity)

theorem start_angle {b : Block ℝ} (hi : b.i.isSome = true) (hj : b.j.isSome = true) (k : ℤ) :
    Spec.onCircle (Spec.centre b) (Spec.radius b) (b.angle1 + k * (2 * Real.pi)) = (b.start.1, b.start.2.1) := by
  have hc := center_given hi hj
  have := polar (b.start.1 - b.center.1) (b.start.2.1 - b.center.2.1) (Spec.radius b) (by
    rw [radius_sq, hc.1, hc.2]; simp only [Spec.centre]; ring) (Real.sqrt_nonneg _)
  unfold Spec.onCircle
  rw [Real.cos_add_int_mul_two_pi, Real.sin_add_int_mul_two_pi]
  unfold Block.angle1
  rw [this.1, this.2, hc.1, hc.2]
  simp

theorem stop_angle {b : Block ℝ} (hi : b.i.isSome = true) (hj : b.j.isSome = true) (h : Spec.Consistent b) (k : ℤ) :
    Spec.onCircle (Spec.centre b) (Spec.radius b) (b.angle2 + k * (2 * Real.pi)) = (b.stop.1, b.stop.2.1) := by
  have hc := center_given hi hj
  have := polar (b.stop.1 - b.center.1) (b.stop.2.1 - b.center.2.1) (Spec.radius b) (by
    rw [radius_sq, hc.1, hc.2]; exact h) (Real.sqrt_nonneg _)
  unfold Spec.onCircle
  rw [Real.cos_add_int_mul_two_pi, Real.sin_add_int_mul_two_pi]
  unfold Block.angle2
  rw [this.1, this.2, hc.1, hc.2]
  simp

/-- A list that turns starts and ends in the programmed points and stays on the circle. -/
theorem turns_ends {b : Block ℝ} {dir : ℝ} {ps : List (ℝ × ℝ × ℝ)} (h : Spec.Turns b dir ps) (hn : 2 ≤ ps.length) :
    (∃ p, ps.head? = some p ∧ p = b.start) ∧ (∃ p, ps.getLast? = some p ∧ p = (b.stop.1, b.stop.2.1, b.start.2.2)) ∧
    ∀ p ∈ ps, (p.1 - (Spec.centre b).1) ^ 2 + (p.2.1 - (Spec.centre b).2) ^ 2 = b.i.getD 0 ^ 2 + b.j.getD 0 ^ 2 := by
  obtain ⟨a, sweep, _, _, hs, he, hp⟩ := h
  refine ⟨?_, ?_, ?_⟩
  · obtain ⟨p, h1, h2, h3⟩ := hp 0 (by omega)
    refine ⟨p, by rw [List.head?_eq_getElem?]; exact h1, ?_⟩
    simp only [Nat.cast_zero, zero_div, mul_zero, add_zero] at h3
    rw [hs] at h3
    simp only [Prod.mk.injEq] at h3
    exact Prod.ext h3.1 (Prod.ext h3.2 h2)
  · obtain ⟨p, h1, h2, h3⟩ := hp (ps.length - 1) (by omega)
    refine ⟨p, by rw [List.getLast?_eq_getElem?]; exact h1, ?_⟩
    have hl : (2 : ℝ) ≤ (ps.length : ℝ) := by exact_mod_cast hn
    have : ((ps.length - 1 : ℕ) : ℝ) / ((ps.length : ℝ) - 1) = 1 := by
      rw [Nat.cast_sub (by omega), Nat.cast_one]
      exact div_self (by linarith)
    rw [this, mul_one, he] at h3
    simp only [Prod.mk.injEq] at h3
    exact Prod.ext h3.1 (Prod.ext h3.2 h2)
  · intro p hpm
    obtain ⟨i, hi, e⟩ := List.mem_iff_getElem.1 hpm
    obtain ⟨q, h1, _, h3⟩ := hp i hi
    rw [List.getElem?_eq_getElem hi, e, Option.some.injEq] at h1
    subst h1
    simp only [Spec.onCircle, Prod.mk.injEq] at h3
    rw [h3.1, h3.2, ← radius_sq]
    generalize a + dir * (sweep * ((i : ℝ) / ((ps.length : ℝ) - 1))) = t
    have := Real.sin_sq_add_cos_sq t
    linear_combination (Spec.radius b) ^ 2 * this

/-! ## Properties -/

/-- C45 for `G03`: with `I` and `J` given, the samples turn counter-clockwise from the start to the end. -/
theorem C45_g03_partial (b : Block ℝ) (n : ℕ) (hi : b.i.isSome = true) (hj : b.j.isSome = true) (h : Spec.Consistent b) :
    Spec.Turns b 1 (coordinates03 b n) := by
  have hb1 := arctan2_bounds (b.start.2.1 - b.center.2.1) (b.start.1 - b.center.1)
  have hb2 := arctan2_bounds (b.stop.2.1 - b.center.2.1) (b.stop.1 - b.center.1)
  have hs := start_angle hi hj 0
  simp only [Int.cast_zero, zero_mul, add_zero] at hs
  unfold coordinates03
  simp only
  split
  · rename_i hlt
    have := turns_of b b.radius03 b.angle1 (b.angle2 + 2 * Real.pi - b.angle1) 1 n (center_given hi hj) (radius03_given hi hj)
      (by unfold Block.angle1 Block.angle2; linarith) (by linarith) hs (by
        have e := stop_angle hi hj h 1
        simp only [Int.cast_one, one_mul] at e
        rw [← e]; congr 1; ring)
    simpa only [one_mul] using this
  · rename_i hlt
    have := turns_of b b.radius03 b.angle1 (b.angle2 - b.angle1) 1 n (center_given hi hj) (radius03_given hi hj)
      (by linarith) (by unfold Block.angle1 Block.angle2; linarith) hs (by
        have e := stop_angle hi hj h 0
        simp only [Int.cast_zero, zero_mul, add_zero] at e
        rw [← e]; congr 1; ring)
    simpa only [one_mul] using this

/-- C45 for `G02`: with `I` and `J` given and a centre at the height of the start, the samples turn clockwise from the start to the end. -/
theorem C45_g02_partial (b : Block ℝ) (n : ℕ) (hi : b.i.isSome = true) (hj : b.j.isSome = true) (h : Spec.Consistent b)
    (hz : (b.k = none ∧ b.start.2.2 = 0) ∨ b.k = some 0) : Spec.Turns b (-1) (coordinates02 b n) := by
  have hz' : b.center.2.2 = b.start.2.2 := by
    rcases hz with ⟨h1, h2⟩ | h1 <;> simp [Block.center, h1]
    exact h2.symm
  have hb1 := arctan2_bounds (b.start.2.1 - b.center.2.1) (b.start.1 - b.center.1)
  have hb2 := arctan2_bounds (b.stop.2.1 - b.center.2.1) (b.stop.1 - b.center.1)
  have he := stop_angle hi hj h 0
  simp only [Int.cast_zero, zero_mul, add_zero] at he
  unfold coordinates02
  simp only
  split
  · rename_i hlt
    have := turns_of b b.radius02 (b.angle1 + 2 * Real.pi) (b.angle1 + 2 * Real.pi - b.angle2) (-1) n (center_given hi hj)
      (radius02_given hi hj hz') (by unfold Block.angle1 Block.angle2; linarith) (by linarith) (by
        have e := start_angle hi hj 1
        simpa only [Int.cast_one, one_mul] using e) (by rw [← he]; congr 1; ring)
    have e : b.angle1 + 2 * Real.pi + -1 * (b.angle1 + 2 * Real.pi - b.angle2) =
      b.angle1 + 2 * Real.pi - (b.angle1 + 2 * Real.pi - b.angle2) := by ring
    rw [e] at this
    exact this
  · rename_i hlt
    have := turns_of b b.radius02 b.angle1 (b.angle1 - b.angle2) (-1) n (center_given hi hj) (radius02_given hi hj hz')
      (by linarith) (by unfold Block.angle1 Block.angle2; linarith) (by
        have e := start_angle hi hj 0
        simpa only [Int.cast_zero, zero_mul, add_zero] using e) (by rw [← he]; congr 1; ring)
    have e : b.angle1 + -1 * (b.angle1 - b.angle2) = b.angle1 - (b.angle1 - b.angle2) := by ring
    rw [e] at this
    exact this

/-- C45 for both blocks: the number of samples, the first one, the last one for a block in a plane, and the distance to the centre. -/
theorem C45_points_partial (b : Block ℝ) (n : ℕ) (hn : 2 ≤ n) (hi : b.i.isSome = true) (hj : b.j.isSome = true) (h : Spec.Consistent b)
    (hz : (b.k = none ∧ b.start.2.2 = 0) ∨ b.k = some 0) (hp : b.start.2.2 = b.stop.2.2) :
    ∀ ps, ps = coordinates02 b n ∨ ps = coordinates03 b n → ps.length = n ∧ ps.head? = some b.start ∧ ps.getLast? = some b.stop ∧
      ∀ p ∈ ps, (p.1 - (Spec.centre b).1) ^ 2 + (p.2.1 - (Spec.centre b).2) ^ 2 = b.i.getD 0 ^ 2 + b.j.getD 0 ^ 2 := by
  intro ps hps
  have hl : ps.length = n := by
    rcases hps with rfl | rfl <;> simp [coordinates02, coordinates03, length_linspace]
  have ht : ∃ dir, Spec.Turns b dir ps := by
    rcases hps with rfl | rfl
    · exact ⟨_, C45_g02_partial b n hi hj h hz⟩
    · exact ⟨_, C45_g03_partial b n hi hj h⟩
  obtain ⟨dir, ht⟩ := ht
  obtain ⟨⟨p, h1, h2⟩, ⟨q, h3, h4⟩, h5⟩ := turns_ends ht (by omega)
  refine ⟨hl, by rw [h1, h2], ?_, h5⟩
  rw [h3, h4, hp]

/-- The quarter of a circle from (1, 0) to (0, -1) around the origin. -/
noncomputable def exArc : Block ℝ := ⟨.g02, (1, 0, 0), (0, -1, 0), some (-1), some 0, none⟩

example : exArc.i.isSome = true ∧ exArc.j.isSome = true ∧ Spec.Consistent exArc ∧ (exArc.k = none ∧ exArc.start.2.2 = 0) ∧
    exArc.start.2.2 = exArc.stop.2.2 ∧ exArc.start ≠ exArc.stop := by
  refine ⟨rfl, rfl, ?_, ⟨rfl, rfl⟩, rfl, ?_⟩
  · simp [Spec.Consistent, Spec.centre, exArc]
  · simp [exArc]

/-- C45 is violated: an arc above the plane `Z = 0` is drawn with a wrong radius. -/
theorem C45_height_violated : ∃ b : Block ℝ, b.i.isSome = true ∧ b.j.isSome = true ∧ Spec.Consistent b ∧ b.start.2.2 = b.stop.2.2 ∧
    ∀ p ∈ coordinates02 b 20, (p.1 - (Spec.centre b).1) ^ 2 + (p.2.1 - (Spec.centre b).2) ^ 2 = 26 ∧ Spec.radius b ^ 2 = 1 := by
  refine ⟨⟨.g02, (1, 0, 5), (0, -1, 5), some (-1), some 0, none⟩, rfl, rfl, ?_, rfl, ?_⟩
  · simp [Spec.Consistent, Spec.centre]
  · intro p hp
    refine ⟨?_, by rw [radius_sq]; simp⟩
    have hr : (Block.mk (K := ℝ) .g02 (1, 0, 5) (0, -1, 5) (some (-1)) (some 0) none).radius02 ^ 2 = 26 := by
      unfold Block.radius02
      rw [Real.sq_sqrt (by positivity)]
      simp [Block.center]; norm_num
    unfold coordinates02 at hp
    simp only [List.mem_map] at hp
    obtain ⟨s, _, rfl⟩ := hp
    generalize Block.radius02 _ = r at hr
    simp only [Block.center, Spec.centre, Option.getD_some, add_neg_cancel, zero_add, add_zero, sub_zero]
    have := Real.sin_sq_add_cos_sq s
    linear_combination r ^ 2 * this + hr

/-- C45 is violated: if `I` is missing, the centre of the arc is wrong, also if the end is on the programmed circle. -/
theorem C45_letter_violated : ∃ b : Block ℝ, b.i = none ∧ b.j.isSome = true ∧ Spec.Consistent b ∧
    (b.center.1, b.center.2.1) ≠ Spec.centre b ∧ ¬ Spec.Turns b 1 (coordinates03 b 20) := by
  refine ⟨⟨.g03, (3, 0, 0), (2, 1, 0), none, some 1, none⟩, rfl, rfl, ?_, ?_, ?_⟩
  · simp [Spec.Consistent, Spec.centre]; norm_num
  · simp [Block.center, Spec.centre]
  · intro ht
    have hl : (coordinates03 (Block.mk (K := ℝ) .g03 (3, 0, 0) (2, 1, 0) none (some 1) none) 20).length = 20 := by
      simp [coordinates03, length_linspace]
    obtain ⟨_, ⟨p, hp, e⟩, _⟩ := turns_ends ht (by omega)
    have hm := List.mem_of_mem_getLast? hp
    have hr : (Block.mk (K := ℝ) .g03 (3, 0, 0) (2, 1, 0) none (some 1) none).radius03 ^ 2 = 10 := by
      unfold Block.radius03
      rw [Real.sq_sqrt (by positivity)]
      simp [Block.center]; norm_num
    unfold coordinates03 at hm
    simp only [List.mem_map] at hm
    obtain ⟨s, _, rfl⟩ := hm
    generalize Block.radius03 _ = r at hr e
    simp only [Block.center, Prod.mk.injEq] at e
    have := Real.sin_sq_add_cos_sq s
    have h1 : r * Real.cos s = 2 := by linarith [e.1]
    have h2 : r * Real.sin s = 0 := by linarith [e.2.1]
    have : r ^ 2 = 4 := by linear_combination (-r ^ 2) * this + (r * Real.cos s + 2) * h1 + (r * Real.sin s) * h2
    linarith

/-- C85: the arc of a block without a change of height ends in the programmed point; in general only its first two coordinates do. -/
theorem C85_partial (b : Block ℝ) (n : ℕ) (hn : 2 ≤ n) (hi : b.i.isSome = true) (hj : b.j.isSome = true) (h : Spec.Consistent b) :
    (coordinates03 b n).getLast? = some (b.stop.1, b.stop.2.1, b.start.2.2) := by
  have hl : (coordinates03 b n).length = n := by simp [coordinates03, length_linspace]
  obtain ⟨_, ⟨p, h1, h2⟩, _⟩ := turns_ends (C45_g03_partial b n hi hj h) (by omega)
  rw [h1, h2]

/-- C85 is violated: a helical arc does not reach its programmed height. -/
theorem C85_violated : ∃ b : Block ℝ, b.i.isSome = true ∧ b.j.isSome = true ∧ Spec.Consistent b ∧
    (coordinates03 b 20).getLast? ≠ some b.stop := by
  refine ⟨⟨.g03, (1, 0, 0), (0, 1, -1), some (-1), some 0, none⟩, rfl, rfl, ?_, ?_⟩
  · simp [Spec.Consistent, Spec.centre]
  · rw [C85_partial _ 20 (by norm_num) rfl rfl (by simp [Spec.Consistent, Spec.centre])]
    simp

/-- C84: a full circle is drawn by no program; for an arc that does not end where it starts the swept angle is positive. -/
theorem C84_partial (b : Block ℝ) (n : ℕ) (hi : b.i.isSome = true) (hj : b.j.isSome = true) (h : Spec.Consistent b)
    (hne : (b.start.1, b.start.2.1) ≠ (b.stop.1, b.stop.2.1)) :
    ∃ a sweep : ℝ, 0 < sweep ∧ sweep < 2 * Real.pi ∧
      Spec.onCircle (Spec.centre b) (Spec.radius b) (a + sweep) = (b.stop.1, b.stop.2.1) ∧
      ∀ i : ℕ, i < n → ∃ p, (coordinates03 b n)[i]? = some p ∧
        (p.1, p.2.1) = Spec.onCircle (Spec.centre b) (Spec.radius b) (a + sweep * ((i : ℝ) / ((n : ℝ) - 1))) := by
  have hl : (coordinates03 b n).length = n := by simp [coordinates03, length_linspace]
  obtain ⟨a, sweep, h0, h1, hs, he, hp⟩ := C45_g03_partial b n hi hj h
  rw [hl] at hp
  simp only [one_mul] at hp he
  refine ⟨a, sweep, lt_of_le_of_ne h0 ?_, h1, he, ?_⟩
  · rintro rfl
    rw [add_zero] at he
    exact hne (hs.symm.trans he)
  · intro i hi'
    obtain ⟨p, h1, _, h3⟩ := hp i hi'
    exact ⟨p, h1, h3⟩

/-- C84 is violated: a full circle, programmed with the end equal to the start, becomes a single point; for all circles. -/
theorem C84_violated (b : Block ℝ) (n : ℕ) (hi : b.i.isSome = true) (hj : b.j.isSome = true)
    (hz : (b.k = none ∧ b.start.2.2 = 0) ∨ b.k = some 0) (hfull : b.start = b.stop) :
    ∀ p, p ∈ coordinates02 b n ∨ p ∈ coordinates03 b n → p = b.start := by
  have hcon : Spec.Consistent b := by
    unfold Spec.Consistent; rw [← hfull]; simp only [Spec.centre]; ring
  have ha : b.angle1 = b.angle2 := by unfold Block.angle1 Block.angle2; rw [hfull]
  have hz' : b.center.2.2 = b.start.2.2 := by
    rcases hz with ⟨h1, h2⟩ | h1 <;> simp [Block.center, h1]
    exact h2.symm
  have hs := start_angle hi hj 0
  simp only [Int.cast_zero, zero_mul, add_zero, Spec.onCircle, Prod.mk.injEq] at hs
  have hc := center_given hi hj
  have hlin : ∀ s, s ∈ linspace b.angle1 b.angle1 n → s = b.angle1 := by
    intro s hs
    simp only [linspace, List.mem_map] at hs
    obtain ⟨i, _, rfl⟩ := hs
    ring
  rintro p (hp | hp)
  · unfold coordinates02 at hp
    rw [ha] at hp
    simp only [lt_irrefl, if_false, sub_self, sub_zero, List.mem_map] at hp
    obtain ⟨s, hs', rfl⟩ := hp
    rw [hlin s (by rw [ha]; exact hs'), radius02_given hi hj hz', hc.1, hc.2]
    exact Prod.ext hs.1 (Prod.ext hs.2 rfl)
  · unfold coordinates03 at hp
    rw [ha] at hp
    simp only [lt_irrefl, if_false, sub_self, add_zero, List.mem_map] at hp
    obtain ⟨s, hs', rfl⟩ := hp
    rw [hlin s (by rw [ha]; exact hs'), radius03_given hi hj, hc.1, hc.2]
    exact Prod.ext hs.1 (Prod.ext hs.2 rfl)

example : ∃ b : Block ℝ, b.i.isSome = true ∧ b.j.isSome = true ∧ ((b.k = none ∧ b.start.2.2 = 0) ∨ b.k = some 0) ∧ b.start = b.stop ∧
    Spec.radius b ≠ 0 :=
  ⟨⟨.g02, (1, 0, 0), (1, 0, 0), some (-1), some 0, none⟩, rfl, rfl, Or.inl ⟨rfl, rfl⟩, rfl, by simp [Spec.radius]⟩

end Verif.GCode
