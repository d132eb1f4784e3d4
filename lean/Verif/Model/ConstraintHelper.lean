/-
Weights of cells with hanging nodes and the sparsity pattern of cells:
  include/pf-applications/grid/constraint_helper.h
  include/pf-applications/dofs/dof_tools.h

Simplifications: a mesh is the list of its cells on all levels with the numbers of their lines and children (line number `k` of a cell is entry
`k`); numbers are rational.
-/
import Verif.Model.Res
import Mathlib.Algebra.Field.Rat
import Mathlib.Algebra.Order.Ring.Rat
import Mathlib.Algebra.BigOperators.Group.List.Basic

namespace Verif.ConstraintHelper

/-- A cell on any level; `neighbors`: levels of the neighbours at the faces, `none` at the boundary. -/
structure Cell where
  level : Nat
  active : Bool
  owned : Bool
  lines : List Nat
  children : List Nat
  neighbors : List (Option Nat)

/-- constraint_helper.h:54-65 `line_to_children`. -/
def lineToChildren : List (Nat × Nat) :=
  [(0, 2), (1, 3), (0, 1), (2, 3), (4, 6), (5, 7), (4, 5), (6, 7), (0, 4), (1, 5), (2, 6), (3, 7)]

/-- Numbers of cells, and numbers of lines in them, per line. -/
abbrev Table := Nat → List (Nat × Nat)

/-- constraint_helper.h:72-88: cells of a line, active or not, with the number of the line in the cell. -/
def cellsOfLine (cells : List Cell) (active : Bool) : Table := fun l =>
  cells.zipIdx.flatMap fun ci =>
    if ci.1.active = active then (ci.1.lines.zipIdx.filter fun lk => lk.1 == l).map fun lk => (ci.2, lk.2) else []

/-- constraint_helper.h:107-113: line number `k` of child number `v` of a cell. -/
def childLine (cells : List Cell) (p v k : Nat) : Res Nat := do
  let cell ← Res.index cells p
  let ch ← Res.index cell.children v
  let child ← Res.index cells ch
  Res.index child.lines k

/-- constraint_helper.h:115-117: the cells of line `l` are added to the line `m`; adding to the list that is walked through is undefined. -/
def push (T : Table) (l m : Nat) : Res Table := if m = l then .ub else .ok fun x => if x = m then T x ++ T l else T x

/-- constraint_helper.h:94-120: one line. -/
def propagate (cells : List Cell) (T : Table) (l : Nat) : Res Table :=
  if T l = [] then .ok T
  else
    match cellsOfLine cells false l with
    | [] => .ok T
    | (p, k) :: _ => do
      let v ← Res.index lineToChildren k
      let m0 ← childLine cells p v.1 k
      let T ← push T l m0
      let m1 ← childLine cells p v.2 k
      push T l m1

/-- constraint_helper.h:36-123 `reinit` in 3D; `nLines` is `n_raw_lines`. -/
def reinit (cells : List Cell) (nLines : Nat) : Res Table := (List.range nLines).foldlM (propagate cells) (cellsOfLine cells true)

/-- constraint_helper.h:134-146 `is_face_constrained`. -/
def faceConstrained (c : Cell) : Bool :=
  c.owned && c.neighbors.any fun n => match n with
    | some l => decide (l < c.level)
    | none => false

/-- constraint_helper.h:148-162 `is_edge_constrained`; `dim3`: in 3D. -/
def edgeConstrained (cells : List Cell) (T : Table) (dim3 : Bool) (c : Cell) : Bool :=
  dim3 && c.owned && c.lines.any fun l => (T l).any fun o => match cells[o.1]? with
    | some x => decide (x.level < c.level)
    | none => false

/-- constraint_helper.h:171-191 `hanging_nodes_weighting`; the conversion to `unsigned int` drops the fraction and is undefined outside of the
range. -/
def cellWeight (active owned constrained : Bool) (weight : ℚ) : Res Nat :=
  if active = false ∨ owned = false then .ok 10000
  else if constrained then
    let x := 10000 * weight
    if -1 < x ∧ x < 2 ^ 32 then .ok x.floor.toNat else .ub
  else .ok 10000

/-- dof_tools.h:33-56: scalar mask; `phi q i` is the value of shape function `i` at quadrature point `q`. -/
def scalarMask (nq : Nat) (phi : Nat → Nat → ℚ) (i j : Nat) : Bool :=
  decide (((List.range nq).foldl (fun s q => s + phi q i * phi q j) 0) ≠ 0)

/-- dof_tools.h:58-81: mask for `n` components of an element with `m` shape functions per component. -/
def systemMask (m n : Nat) (scalar : Nat → Nat → Bool) (a b : Nat) : Bool :=
  if n = 1 then scalar a b
  else (List.range m).any fun i => (List.range m).any fun j => scalar i j &&
    (List.range n).any fun ic => (List.range n).any fun jc => decide (a = i * n + ic) && decide (b = j * n + jc)

end Verif.ConstraintHelper
