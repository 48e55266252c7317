import Mathlib.Algebra.Order.Field.Basic
import Mathlib.Algebra.Order.Round
import Mathlib.Data.List.Chain
import Mathlib.Tactic.Linarith
import Mathlib.Tactic.Ring
import Mathlib.Tactic.FieldSimp
import Mathlib.Tactic.NormNum
import Mathlib.Logic.Relation

/-! # Grid planner: model of globalplanner.py

Cells are pairs of integers.  `K` is the field of the physical lengths. -/

set_option linter.unusedSectionVars false

namespace Verif.Planner

abbrev Cell := ℤ × ℤ

variable {K : Type} [Field K] [LinearOrder K] [IsStrictOrderedRing K]

/-- `Grid`, globalplanner.py:284-295 (the offset only matters for `get_occupied_cells`). -/
structure Grid (K : Type) where
  width : K
  height : K
  position : K × K
  n0 : ℕ
  n1 : ℕ
  occupied : List Cell

/-- globalplanner.py:292-293. -/
def Grid.cellW (g : Grid K) : K := g.width * 1 / g.n0
def Grid.cellH (g : Grid K) : K := g.height * 1 / g.n1

/-- `Grid.in_bounds`, globalplanner.py:297-300.  The coordinates may be fractional, see `isAccessible`. -/
def Grid.inBounds (g : Grid K) (x y : K) : Bool := (0 ≤ x && x < g.n0) && (0 ≤ y && y < g.n1)

/-- `point in self.occupied`: list membership compares numbers. -/
def Grid.isOccupied (g : Grid K) (x y : K) : Bool := g.occupied.any fun c => (c.1 : K) = x && (c.2 : K) = y

/-- `Grid.free`, globalplanner.py:311-317. -/
def Grid.free (g : Grid K) (x y : K) : Bool := !g.isOccupied x y && g.inBounds x y

/-- `Grid.block`, globalplanner.py:302-309 (for a list of cells). -/
def Grid.block (g : Grid K) (cells : List Cell) : Grid K :=
  { g with occupied := g.occupied ++ cells.filter fun c => g.inBounds c.1 c.2 }

/-- `Grid.is_accessible`, globalplanner.py:319-352, for integer points.  The last branch subtracts the
cell *height* from an index. -/
def Grid.isAccessible (g : Grid K) (p q : Cell) : Bool :=
  if p.1 ≠ q.1 ∧ p.2 ≠ q.2 then
    if p.1 + 1 = q.1 ∧ p.2 + 1 = q.2 then g.free p.1 ((p.2 : K) + 1) && g.free ((p.1 : K) + 1) p.2
    else if p.1 - 1 = q.1 ∧ p.2 + 1 = q.2 then g.free p.1 ((p.2 : K) + 1) && g.free ((p.1 : K) - 1) p.2
    else if p.1 + 1 = q.1 ∧ p.2 - 1 = q.2 then g.free p.1 ((p.2 : K) - 1) && g.free ((p.1 : K) + 1) p.2
    else if p.1 - 1 = q.1 ∧ p.2 - 1 = q.2 then g.free p.1 ((p.2 : K) - g.cellH) && g.free ((p.1 : K) - 1) p.2
    else false
  else true

/-- `Grid.get_neighbors`, globalplanner.py:416-426. -/
def Grid.neighbors (g : Grid K) (p : Cell) : List Cell :=
  ((([(p.1 + 1, p.2), (p.1 - 1, p.2), (p.1, p.2 + 1), (p.1, p.2 - 1), (p.1 - 1, p.2 + 1), (p.1 + 1, p.2 + 1),
      (p.1 - 1, p.2 - 1), (p.1 + 1, p.2 - 1)] : List Cell).filter fun c => g.inBounds c.1 c.2).filter
        fun c => g.free c.1 c.2).filter fun c => g.isAccessible p c

/-- `Node`, globalplanner.py:261-267.  `start` is a node without parent.  The parent is stored by value: only
nodes in the open list are ever changed (globalplanner.py:181-184) and parents are in the closed list. -/
inductive Node (K : Type) where
  | start (pos : Cell)
  | child (pos : Cell) (parent : Node K) (g h f : K)

def Node.pos : Node K → Cell
  | .start p => p
  | .child p _ _ _ _ => p

def Node.g : Node K → K
  | .start _ => 0
  | .child _ _ g _ _ => g

def Node.f : Node K → K
  | .start _ => 0
  | .child _ _ _ _ f => f

/-- Errors of `get_path`: globalplanner.py:165, 211, 103, and `None.pos` when no node is cheapest. -/
inductive Err where
  | noNeighbors
  | noPath
  | samePosition
  | noNode
  deriving DecidableEq

/-- `calculate_g_cost` of a node at `pos` with the given parent, globalplanner.py:97-114. -/
def gCost (g : Grid K) (diag : K) (parent : Node K) (pos : Cell) : Except Err K :=
  if pos.1 = parent.pos.1 ∧ pos.2 = parent.pos.2 then .error .samePosition
  else if pos.1 ≠ parent.pos.1 ∧ pos.2 = parent.pos.2 then .ok (g.cellW + parent.g)
  else if pos.1 = parent.pos.1 ∧ pos.2 ≠ parent.pos.2 then .ok (g.cellH + parent.g)
  else .ok (diag + parent.g)

/-- `calculate_h_cost`, globalplanner.py:116-122. -/
def hCost (g : Grid K) (goal pos : Cell) : K :=
  (|goal.1 - pos.1| : ℤ) * g.cellW + (|goal.2 - pos.2| : ℤ) * g.cellH

/-- The loop over the open list, globalplanner.py:175-186: the first node at the point is changed if the new way
is not longer. -/
def update (g : Grid K) (diag : K) (goal : Cell) (cur : Node K) (point : Cell) : List (Node K) → Except Err (List (Node K))
  | [] => .ok []
  | n :: rest =>
    if point = n.pos then
      match gCost g diag cur point with
      | .error e => .error e
      | .ok c => .ok ((if c ≤ n.g then .child point cur c (hCost g goal point) (c + hCost g goal point) else n) :: rest)
    else
      match update g diag goal cur point rest with
      | .error e => .error e
      | .ok r => .ok (n :: r)

/-- The body of the loop over the neighbours, globalplanner.py:167-194. -/
def visit (g : Grid K) (diag : K) (goal : Cell) (cur : Node K) (closed opn : List (Node K)) (point : Cell) :
    Except Err (List (Node K)) :=
  match update g diag goal cur point opn with
  | .error e => .error e
  | .ok opn' =>
    if closed.any (fun n => n.pos = point) || opn.any (fun n => n.pos = point) then .ok opn'
    else
      match gCost g diag cur point with
      | .error e => .error e
      | .ok c => .ok (opn' ++ [.child point cur c (hCost g goal point) (c + hCost g goal point)])

/-- `get_lowest_f_cost_node`, globalplanner.py:127-135: the first node with the smallest cost. -/
def lowest (l : List (Node K)) : Option (Node K) :=
  l.foldl (fun best n => match best with
    | none => some n
    | some b => if n.f < b.f then some n else some b) none

/-- `remove_from_open_list`, globalplanner.py:137-141.  Nodes are compared by identity; the positions in the open
list are distinct (`Inv`), so the position identifies the node. -/
def remove (n : Node K) (l : List (Node K)) : List (Node K) := l.eraseP fun m => m.pos = n.pos

/-- The state of the loop, globalplanner.py:157-159. -/
structure State (K : Type) where
  cur : Node K
  closed : List (Node K)
  opn : List (Node K)

/-- `closed_list_to_path`, globalplanner.py:229-237: follow the parents up to the first node of the closed list,
which is the only one without parent. -/
def pathBack : Node K → List Cell
  | .start p => [p]
  | .child p par _ _ _ => p :: pathBack par

/-- Equality of results, for the examples. -/
instance : DecidableEq (Except Err (List Cell))
  | .ok a, .ok b => decidable_of_iff (a = b) (by simp)
  | .error a, .error b => decidable_of_iff (a = b) (by simp)
  | .ok _, .error _ => isFalse (by simp)
  | .error _, .ok _ => isFalse (by simp)

inductive Outcome (K : Type) where
  | more (s : State K)
  | done (path : List Cell)
  | fail (e : Err)

/-- One turn of the loop in `get_path`, globalplanner.py:161-222. -/
def step (g : Grid K) (diag : K) (goal : Cell) (s : State K) : Outcome K :=
  if s.cur.pos = goal then .done (pathBack s.cur).reverse
  else
    let nb := g.neighbors s.cur.pos
    if nb = [] then .fail .noNeighbors
    else
      match nb.foldlM (visit g diag goal s.cur s.closed) s.opn with
      | .error e => .fail e
      | .ok opn =>
        match lowest opn with
        | none => .fail .noNode
        | some n =>
          let opn' := remove n opn
          let closed' := s.closed ++ [n]
          let nb' := g.neighbors n.pos
          if opn' = [] ∧ (nb' = [] ∨ nb'.all fun c => closed'.any fun m => m.pos = c) then .fail .noPath
          else .more ⟨n, closed', opn'⟩

/-- The loop; `none` means that it has not finished after `fuel` turns. -/
def loop (g : Grid K) (diag : K) (goal : Cell) : ℕ → State K → Option (Except Err (List Cell))
  | 0, _ => none
  | fuel + 1, s =>
    match step g diag goal s with
    | .done p => some (.ok p)
    | .fail e => some (.error e)
    | .more s' => loop g diag goal fuel s'

/-- `get_path` with given start and goal cell, in cells, globalplanner.py:156-222. -/
def getPath (g : Grid K) (diag : K) (start goal : Cell) (fuel : ℕ) : Option (Except Err (List Cell)) :=
  loop g diag goal fuel ⟨.start start, [.start start], []⟩

/-- `convert_node_to_waypoint`, globalplanner.py:239-249. -/
def Grid.waypoint (g : Grid K) (c : Cell) : K × K :=
  (g.position.1 - g.width * (1 / 2) + g.cellW * (1 / 2) + c.1 * g.cellW,
   g.position.2 - g.height * (1 / 2) + g.cellH * (1 / 2) + c.2 * g.cellH)

end Verif.Planner

/-! ## Specification -/

namespace Verif.Planner.Spec

/-- A cell of an `n0` by `n1` grid that is not occupied. -/
def Free (n0 n1 : ℕ) (occ : List Cell) (c : Cell) : Prop :=
  (0 ≤ c.1 ∧ c.1 < n0) ∧ (0 ≤ c.2 ∧ c.2 < n1) ∧ c ∉ occ

/-- A move to one of the eight surrounding cells. -/
def Adjacent (p q : Cell) : Prop := p ≠ q ∧ |q.1 - p.1| ≤ 1 ∧ |q.2 - p.2| ≤ 1

/-- A legal step: to a free surrounding cell, and past the corner of no occupied cell when diagonal. -/
def Step (n0 n1 : ℕ) (occ : List Cell) (p q : Cell) : Prop :=
  Adjacent p q ∧ Free n0 n1 occ q ∧
  (p.1 ≠ q.1 → p.2 ≠ q.2 → Free n0 n1 occ (p.1, q.2) ∧ Free n0 n1 occ (q.1, p.2))

/-- The goal can be reached by legal steps. -/
def Reachable (n0 n1 : ℕ) (occ : List Cell) (p q : Cell) : Prop := Relation.ReflTransGen (Step n0 n1 occ) p q

end Verif.Planner.Spec
