import Verif.Timing.Sampling
import Mathlib.Data.Rat.Floor
import Mathlib.Tactic.NormNum
import Mathlib.Tactic.FieldSimp

/-! # The size of the room of a loaded drawing (C206) -/

namespace Verif.SvgSize

open Verif.Timing

variable {K : Type} [Field K] [LinearOrder K] [IsStrictOrderedRing K] [FloorRing K]

/-! ## Model -/

/-- The last two letters of the attribute `width`: `mm`, `px`, no unit, or another unit. -/
inductive Ending
  | mm
  | px
  | none
  | other
  deriving DecidableEq

/-- The attributes of the outer element of a drawing: `width` and `height` with their unit, and the four numbers of `viewBox`: smallest
coordinates, width and height of the region that is shown. -/
structure Svg (K : Type) where
  ending : Ending
  width : K
  height : K
  viewBox : Option (K × K × K × K)

/-- What the reader holds: `width_px`, `height_px`, and `meter_to_pixel` if it was set. -/
structure Reader (K : Type) where
  width : K
  height : K
  scale : Option K

/-- `SVGReader.init`, svg_reader.py:13-32; `none` is an exception. The four numbers of `viewBox` are taken for the extreme coordinates.
The comparison `self.tree.get('width')[-2:] is 'mm'` is false: the slice is a new object. -/
def init (s : Svg K) : Option (Reader K) :=
  match s.ending with
  | .mm | .px => s.viewBox.map fun (xmin, ymin, xmax, ymax) => ⟨xmax - xmin, ymax - ymin, none⟩
  | .none => some ⟨s.width, s.height, none⟩
  | .other => none

/-- `load_svg`, gui.py:509-512 and 550-553: the factor of the reader is not used; if it has none the user is asked, `asked` is their
answer and `before` the factor of the window before. Gives width and height of the frame in meters. -/
def load (before asked : K) (s : Svg K) : Option (K × K) :=
  (init s).map fun r =>
    let m := if r.scale.isNone then asked else before
    (((pyInt r.width : ℤ) : K) * 1 / m, ((pyInt r.height : ℤ) : K) * 1 / m)

/-! ## Specification -/

/-- Width and height of the region of the drawing that is shown, in the units of the shapes in it: those of `viewBox`, and without it
those of the drawing. -/
def Spec.region (s : Svg K) : K × K :=
  match s.viewBox with
  | some (_, _, w, h) => (w, h)
  | none => (s.width, s.height)

/-- The units per meter of a drawing with its size in millimeters. -/
def Spec.scale (s : Svg K) : K := (Spec.region s).1 / (s.width / 1000)

/-! ## Properties -/

/-- C206, for drawings that begin at the origin, of whole numbers of pixels, whose size is given in pixels: the room has the size of
the region of the drawing, in the scale given by the user. Missing: other drawings (see below). -/
theorem C206_partial (before asked : K) (s : Svg K) (w h : ℕ) (hr : Spec.region s = ((w : K), (h : K)))
    (hs : s.ending = .px ∧ (∃ w h, s.viewBox = some (0, 0, w, h)) ∨
      s.ending = .none ∧ (s.viewBox = none ∨ ∃ x y, s.viewBox = some (x, y, s.width, s.height))) :
    load before asked s = some (w / asked, h / asked) := by
  have e : ∀ n : ℕ, ((pyInt (n : K) : ℤ) : K) = n := by
    intro n
    have := pyInt_intCast (K := K) (n : ℤ)
    rw [Int.cast_natCast] at this
    rw [this, Int.cast_natCast]
  rcases hs with ⟨h1, w', h', h2⟩ | ⟨h1, h2 | ⟨x, y, h2⟩⟩
  · simp only [Spec.region, h2, Prod.mk.injEq] at hr
    simp [load, init, h1, h2, hr.1, hr.2, e]
  · simp only [Spec.region, h2, Prod.mk.injEq] at hr
    simp [load, init, h1, hr.1, hr.2, e]
  · simp only [Spec.region, h2, Prod.mk.injEq] at hr
    simp [load, init, h1, hr.1, hr.2, e]

/-- A drawing of 300 by 200 pixels. -/
example : Spec.region (⟨.px, 600, 400, some (0, 0, 300, 200)⟩ : Svg ℚ) = (((300 : ℕ) : ℚ), ((200 : ℕ) : ℚ)) := by
  simp [Spec.region]

/-- C206 fails if the region does not begin at the origin, for all drawings with sizes in pixels or millimeters: the room is
narrower or wider by the offset. -/
theorem C206_offset_violated (before asked : K) (ha : 0 < asked) (s : Svg K) (hs : s.ending = .px ∨ s.ending = .mm) (x y w h : ℤ)
    (hv : s.viewBox = some ((x : K), (y : K), (w : K), (h : K))) :
    load before asked s = some (((w - x : ℤ) : K) / asked, ((h - y : ℤ) : K) / asked) ∧
    (x ≠ 0 → ((w - x : ℤ) : K) / asked ≠ (Spec.region s).1 / asked) := by
  have e : ∀ a b : ℤ, pyInt ((a : K) - b) = a - b := by
    intro a b
    have := pyInt_intCast (K := K) (a - b)
    rwa [Int.cast_sub] at this
  constructor
  · rcases hs with hs | hs <;> simp [load, init, hs, hv, e]
  · intro hx hc
    rw [div_left_inj' ha.ne'] at hc
    simp only [Spec.region, hv] at hc
    have : w - x = w := by exact_mod_cast hc
    omega

/-- A drawing around the origin gets a room that is half as large again. -/
example : (⟨.px, 200, 200, some (((-100 : ℤ) : ℚ), ((-100 : ℤ) : ℚ), ((200 : ℤ) : ℚ), ((200 : ℤ) : ℚ))⟩ : Svg ℚ).ending = .px ∧
    (200 - (-100) : ℤ) = 300 := ⟨rfl, rfl⟩

/-- C206 fails for all drawings with sizes in millimeters: the scale of the drawing is not known to the reader, and the size of the
room follows the scale the user answers; it is not the size of the drawing unless the user finds its scale themselves. -/
theorem C206_mm_violated (before : K) (s : Svg K) (hs : s.ending = .mm) (w h : ℕ) (hv : s.viewBox = some (0, 0, (w : K), (h : K))) :
    (∀ r, init s = some r → r.scale = none) ∧
    ∀ asked, load before asked s = some (w / asked, h / asked) ∧
      (0 < asked → 0 < s.width → asked ≠ Spec.scale s → w / asked ≠ s.width / 1000) := by
  constructor
  · intro r hr
    simp only [init, hs, hv, Option.map_some, Option.some.injEq] at hr
    rw [← hr]
  · intro asked
    have e : ∀ n : ℕ, ((pyInt (n : K) : ℤ) : K) = n := by
      intro n
      have := pyInt_intCast (K := K) (n : ℤ)
      rw [Int.cast_natCast] at this
      rw [this, Int.cast_natCast]
    refine ⟨by simp [load, init, hs, hv, e], ?_⟩
    intro h0 h1 h2 hc
    apply h2
    have h3 : s.width / 1000 ≠ 0 := (div_pos h1 (by norm_num)).ne'
    simp only [Spec.scale, Spec.region, hv]
    rw [eq_div_iff h3, ← hc, mul_div_cancel₀ _ h0.ne']

/-- A drawing of 300 units which are 600 mm has 500 units per meter; the answer 100 gives a room of 3 m instead of 0.6 m. -/
example : Spec.scale (⟨.mm, 600, 400, some (0, 0, 300, 200)⟩ : Svg ℚ) = 500 ∧ (300 : ℚ) / 100 = 3 ∧ (300 : ℚ) / 500 = 0.6 := by
  norm_num [Spec.scale, Spec.region]

/-- C206 fails if the shapes have other units than the size, and the size has no unit: the room has the size on the screen, whatever
the region of the drawing is. -/
theorem C206_unit_violated (before asked : K) (ha : 0 < asked) (w h : ℕ) (x y w' h' : K) (hw : w' ≠ w) :
    let s : Svg K := ⟨.none, w, h, some (x, y, w', h')⟩
    load before asked s = some (w / asked, h / asked) ∧ w / asked ≠ (Spec.region s).1 / asked := by
  have e : ∀ n : ℕ, ((pyInt (n : K) : ℤ) : K) = n := by
    intro n
    have := pyInt_intCast (K := K) (n : ℤ)
    rw [Int.cast_natCast] at this
    rw [this, Int.cast_natCast]
  refine ⟨by simp [load, init, e], ?_⟩
  intro hc
  rw [div_left_inj' ha.ne'] at hc
  exact hw hc.symm

/-- Shown with double size. -/
example : ((100 : ℕ) : ℚ) ≠ ((200 : ℕ) : ℚ) := by norm_num

end Verif.SvgSize
