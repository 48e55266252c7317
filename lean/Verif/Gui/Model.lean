import Verif.Frames.Model
import Mathlib.Algebra.Order.Floor.Ring
import Mathlib.Data.Rat.Floor

/-! # The environment window

Mirrors `omgtools/gui/gui.py:27-626`: the state of the window in which a user places obstacles and chooses start and goal.
Modelled: sizes and grid, the list of obstacles, the items on the canvas, the selection, the clicked positions.  Not modelled: the
widgets (the values typed by the user are arguments), velocities and the `bounce` flag of an obstacle, printed text, scroll bars
(`canvasx`/`canvasy` give the position on the canvas, which is the argument here). -/

set_option linter.unusedSectionVars false

namespace Verif.Gui

open Verif.Geometry

variable {K : Type} [Field K] [LinearOrder K] [IsStrictOrderedRing K]

/-- The shape of an obstacle: `obstacle['shape']` with `width`, `height` or `radius` in meter, gui.py:227-258. -/
inductive Shape (K : Type) where
  | rect (w h : K)
  | circle (r : K)
deriving DecidableEq

/-- An entry of `self.obstacles`: `pos` in meter and `variable`, the number of its item on the canvas. -/
structure Obs (K : Type) where
  pos : K × K
  shape : Shape K
  var : ℕ
deriving DecidableEq

/-- Coordinates of a canvas item: left, top, right, bottom. -/
structure Box (K : Type) where
  x1 : K
  y1 : K
  x2 : K
  y2 : K
deriving DecidableEq

/-- An item on the canvas.  `grid` holds for the cells of the grid (`tags="rect"`). -/
structure Item (K : Type) where
  id : ℕ
  grid : Bool
  box : Box K
deriving DecidableEq

/-- The fields of `EnvironmentGUI` that are modelled. -/
structure Win (K : Type) where
  /-- `meter_to_pixel` -/
  m : K
  widthM : K
  heightM : K
  widthPx : ℤ
  heightPx : ℤ
  /-- `position`, in pixels -/
  position : K × K
  nCells : ℕ × ℕ
  cellW : ℤ
  cellH : ℤ
  columns : ℕ
  rows : ℕ
  obstacles : List (Obs K)
  clicked : List (K × K)
  selected : Option ℕ
  /-- the items on the canvas in the order of `canvas.find_all()` -/
  canvas : List (Item K)
  /-- the number Tk gives to the next item; numbers are not used twice -/
  next : ℕ
deriving DecidableEq

section Coordinates

/-- `pixel_to_world`, gui.py:596-611. -/
def Win.pixelToWorld (g : Win K) (p : K × K) : K × K :=
  let vmin := g.position.2
  let vmax := g.position.2 + g.heightPx
  (p.1 / g.m, (vmax - p.2) / g.m + vmin / g.m)

/-- `world_to_pixel`, gui.py:613-626. -/
def Win.worldToPixel (g : Win K) (p : K × K) : K × K :=
  let vmin := g.position.2
  let vmax := g.position.2 + g.heightPx
  (p.1 * g.m, -p.2 * g.m + vmin + vmax)

/-- The canvas item of a rectangle or a circle with centre `c` and shape `s` (sizes in meter), gui.py:236-238, 254, 470-476, 592. -/
def boxAt (m : K) (c : K × K) : Shape K → Box K
  | .rect w h => ⟨c.1 - w * m * (1 / 2), c.2 - h * m * (1 / 2), c.1 + w * m * (1 / 2), c.2 + h * m * (1 / 2)⟩
  | .circle r => ⟨c.1 - r * m, c.2 - r * m, c.1 + r * m, c.2 + r * m⟩

/-- The numbers `k, k+1, ...` given to new items. -/
def number (grid : Bool) (k : ℕ) : List (Box K) → List (Item K)
  | [] => []
  | b :: bs => ⟨k, grid, b⟩ :: number grid (k + 1) bs

/-- The cells drawn by `draw_grid`, gui.py:198-207. -/
def Win.cells (g : Win K) : List (Box K) :=
  (List.range g.columns).flatMap fun c : ℕ => (List.range g.rows).map fun r : ℕ =>
    ⟨c * g.cellW, r * g.cellH, c * g.cellW + g.cellW, r * g.cellH + g.cellH⟩

/-- `draw_grid`, gui.py:198-207. -/
def Win.drawGrid (g : Win K) : Win K :=
  { g with canvas := g.canvas ++ number true g.next g.cells, next := g.next + g.cells.length }

end Coordinates

section Floor
variable [FloorRing K]

/-- Python `int` of a float: truncation. -/
def trunc (x : K) : ℤ := if 0 ≤ x then ⌊x⌋ else ⌈x⌉

/-- `__init__`, gui.py:27-66: a window of `width` by `height` meter with top left corner `position` in meter; `m` is
`meter_to_pixel` and `n` is `n_cells`, `[horizontal, vertical]`. -/
def start (width height m : K) (position : K × K) (n : ℕ × ℕ) : Win K :=
  let w := trunc (width * m)
  let h := trunc (height * m)
  Win.drawGrid
    { m := m, widthM := width, heightM := height, widthPx := w, heightPx := h,
      position := (position.1 * m, position.2 * m), nCells := n,
      cellW := ⌈(w : K) / n.1⌉, cellH := ⌈(h : K) / n.2⌉,
      rows := n.1, columns := n.2,
      obstacles := [], clicked := [], selected := none, canvas := [], next := 1 }

/-- `reinitialize`, gui.py:168-196; `position` in pixels. -/
def Win.reinitialize (g : Win K) (width height m : K) (position : K × K) (n : ℕ × ℕ) : Win K :=
  let w := trunc (width * m)
  let h := trunc (height * m)
  Win.drawGrid
    { g with
      canvas := [], m := m, widthM := width, heightM := height, widthPx := w, heightPx := h, position := position, nCells := n,
      cellW := ⌈(w : K) / n.1⌉, cellH := ⌈(h : K) / n.2⌉,
      columns := n.1, rows := n.2 }

/-- `snap_to_grid`, gui.py:353-359. -/
def Win.snap (g : Win K) (p : K × K) : ℤ × ℤ :=
  (g.cellW * Frames.roundEven (p.1 / g.cellW), g.cellH * Frames.roundEven (p.2 / g.cellH))

/-- The position of the mouse in `make_obstacle`, gui.py:215-218: snapped, shifted over `position`, converted to meter. -/
def Win.clickWorld (g : Win K) (p : K × K) : K × K :=
  g.pixelToWorld (((g.snap p).1 : K) + g.position.1, ((g.snap p).2 : K) + g.position.2)

/-- The checks of the size in `make_obstacle`, gui.py:224-229, 248-251: `True` if the obstacle is made.  `a or b` is `a` unless `a`
is zero. -/
def Win.sizeOk (g : Win K) : Shape K → Bool
  | .rect w h => !(decide (w ≤ 0) || decide (h ≤ 0)) && !decide ((g.widthPx : K) ≤ w * g.m) && !decide ((g.heightPx : K) ≤ h * g.m)
  | .circle r => !decide (r ≤ 0) && !decide (((if g.widthPx ≠ 0 then g.widthPx else g.heightPx : ℤ) : K) ≤ r * g.m)

/-- `make_obstacle` with a shape chosen, gui.py:209-261. -/
def Win.make (g : Win K) (p : K × K) (s : Shape K) : Win K :=
  if g.sizeOk s then
    { g with
      canvas := g.canvas ++ [⟨g.next, false, boxAt g.m (((g.snap p).1 : K), ((g.snap p).2 : K)) s⟩],
      next := g.next + 1,
      obstacles := g.obstacles ++ [⟨g.clickWorld p, s, g.next⟩] }
  else g

/-- Is the point taken to be in the obstacle?  gui.py:266-267 and 273-279.  `distance_between_points` is a square root
(geometry.py:23-30); it is at most `r` exactly if `r` is not negative and the sum of squares is at most `r²`. -/
def Obs.hit (o : Obs K) (p : K × K) : Bool :=
  match o.shape with
  | .circle r => decide (0 ≤ r) && decide ((o.pos.1 - p.1) ^ 2 + (o.pos.2 - p.2) ^ 2 ≤ r ^ 2)
  | .rect w h => pointInRectangle p (o.pos.1 - w, o.pos.2 - h, o.pos.1 + w, o.pos.2 + h) 0

/-- The loop over the obstacles in `make_obstacle`, gui.py:264-283. -/
def selectLoop (p : K × K) : List (Obs K) → Option ℕ → Option ℕ
  | [], sel => sel
  | o :: os, _ => if o.hit p then some o.var else selectLoop p os none

/-- `make_obstacle` with 'select' chosen, gui.py:262-283. -/
def Win.select (g : Win K) (p : K × K) : Win K :=
  { g with selected := selectLoop (g.clickWorld p) g.obstacles g.selected }

/-- `del self.obstacles[idx]` for the first obstacle with this variable, gui.py:294-298. -/
def delVar (v : ℕ) : List (Obs K) → List (Obs K)
  | [] => []
  | o :: os => if v = o.var then os else o :: delVar v os

/-- `canvas.delete(v)`: nothing happens if there is no such item. -/
def delItem (v : ℕ) (c : List (Item K)) : List (Item K) := c.filter fun i => decide (i.id ≠ v)

/-- `remove_obstacle`, gui.py:285-309.  The canvas always has items in `ids[-1]` unless nothing was drawn; then Python raises and
nothing changes. -/
def Win.remove (g : Win K) : Win K :=
  match g.selected with
  | some v => { g with canvas := delItem v g.canvas, obstacles := delVar v g.obstacles, selected := none }
  | none =>
    if g.obstacles = [] then g
    else match g.canvas.getLast? with
      | none => g
      | some i => { g with canvas := delItem i.id g.canvas, obstacles := g.obstacles.dropLast }

/-- The arrows. -/
inductive Dir where
  | up | down | left | right
deriving DecidableEq

/-- The move in pixels, gui.py:328-345. -/
def Win.delta (g : Win K) : Dir → K × K
  | .up => (0, -g.cellH)
  | .down => (0, g.cellH)
  | .left => (-g.cellW, 0)
  | .right => (g.cellW, 0)

/-- The box after a move, gui.py:326-345. -/
def Box.shift (b : Box K) (d : K × K) : Box K := ⟨b.x1 + d.1, b.y1 + d.2, b.x2 + d.1, b.y2 + d.2⟩

/-- The new position of a moved obstacle, gui.py:325-349. -/
def Win.moved (g : Win K) (d : Dir) (p : K × K) : K × K :=
  let q := g.worldToPixel p
  g.pixelToWorld (q.1 + (g.delta d).1, q.2 + (g.delta d).2)

/-- The first obstacle with this variable gets a new position (`obs` is the entry of the list itself), gui.py:319-349. -/
def setPos (v : ℕ) (f : K × K → K × K) : List (Obs K) → List (Obs K)
  | [] => []
  | o :: os => if o.var = v then { o with pos := f o.pos } :: os else o :: setPos v f os

/-- `canvas.coords(v, ...)` with the shifted coordinates, gui.py:326, 351. -/
def shiftItem (v : ℕ) (d : K × K) (c : List (Item K)) : List (Item K) :=
  c.map fun i => if i.id = v then { i with box := i.box.shift d } else i

/-- `obs_to_move`, gui.py:313-318. -/
def Win.toMove (g : Win K) : Option ℕ :=
  match g.selected with
  | some v => some v
  | none => g.obstacles.getLast?.map Obs.var

/-- `move_obstacle`, gui.py:311-351.  `none` if Python raises: there are no obstacles (`self.obstacles[-1]`), or the variable is not
that of an obstacle in the list (`obs` is unbound), or it is not on the canvas any more (`new_coords` is empty). -/
def Win.move (g : Win K) (d : Dir) : Option (Win K) :=
  match g.toMove with
  | none => none
  | some v =>
    if g.obstacles.any (fun o => decide (o.var = v)) then
      if g.canvas.any (fun i => decide (i.id = v)) then
        some { g with obstacles := setPos v (g.moved d) g.obstacles, canvas := shiftItem v (g.delta d) g.canvas }
      else none
    else none

/-- `get_position`, gui.py:361-372. -/
def Win.rightClick (g : Win K) (p : K × K) : Win K :=
  match g.clicked ++ [g.pixelToWorld p] with
  | _ :: b :: c :: _ => { g with clicked := [b, c] }
  | l => { g with clicked := l }

/-- What `save_environment` writes, gui.py:428-438. -/
structure Saved (K : Type) where
  m : K
  position : K × K
  widthM : K
  heightM : K
  obstacles : List (Obs K)
  clicked : List (K × K)
  nCells : ℕ × ℕ

/-- `save_environment`, gui.py:428-438. -/
def Win.save (g : Win K) : Saved K := ⟨g.m, g.position, g.widthM, g.heightM, g.obstacles, g.clicked, g.nCells⟩

/-- The obstacles of the file get new variables, gui.py:467-476. -/
def renumber (k : ℕ) : List (Obs K) → List (Obs K)
  | [] => []
  | o :: os => { o with var := k } :: renumber (k + 1) os

/-- `load_environment`, gui.py:440-476.  `none` if the user closes the dialog or the file cannot be opened: the items have been
deleted from the canvas then (gui.py:442-443) and the method returns (gui.py:446-450). -/
def Win.load (g : Win K) : Option (Saved K) → Win K
  | none => { g with canvas := g.obstacles.foldl (fun c o => delItem o.var c) g.canvas }
  | some e =>
    let g1 := Win.reinitialize g e.widthM e.heightM e.m e.position e.nCells
    { g1 with
      clicked := e.clicked,
      obstacles := renumber g1.next e.obstacles,
      canvas := g1.canvas ++ number false g1.next (e.obstacles.map fun o => boxAt g1.m (g1.worldToPixel o.pos) o.shape),
      next := g1.next + e.obstacles.length }

/-- What a user can do. -/
inductive Action (K : Type) where
  | make (p : K × K) (s : Shape K)
  | select (p : K × K)
  | remove
  | move (d : Dir)
  | rightClick (p : K × K)
  | load (e : Option (Saved K))

/-- One action.  An exception in a Tk callback is printed and the window goes on with the state as it is. -/
def Win.step (g : Win K) : Action K → Win K
  | .make p s => g.make p s
  | .select p => g.select p
  | .remove => g.remove
  | .move d => (g.move d).getD g
  | .rightClick p => g.rightClick p
  | .load e => g.load e

/-- A session. -/
def Win.run (g : Win K) (as : List (Action K)) : Win K := as.foldl Win.step g

/-- `get_clicked_positions`, gui.py:570-590: one coordinate, with the size of the frame in that direction. -/
def clampCoord (margin size c : K) : K :=
  if c ≤ 0 then 0 + 101 / 100 * margin else if size ≤ c then size - 101 / 100 * margin else c

/-- `get_clicked_positions`, gui.py:570-590. -/
def Win.getClicked (g : Win K) : Option K → List (K × K)
  | none => g.clicked
  | some margin => g.clicked.map fun c => (clampCoord margin g.widthM c.1, clampCoord margin g.heightM c.2)

/-- The room of `build_environment`, gui.py:378-382: centre, width, height; only if there are two clicked positions. -/
def Win.room (g : Win K) : Option ((K × K) × K × K) :=
  if g.clicked.length = 2 then
    some ((g.position.1 / g.m + g.widthM * (1 / 2), g.position.2 / g.m + g.heightM * (1 / 2)), g.widthM, g.heightM)
  else none

end Floor

end Verif.Gui
