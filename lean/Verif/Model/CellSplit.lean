/-
Splitting and merging of vectors cell by cell.

Models `split_up` and `merge` in `include/pf-applications/numerics/vector_tools.h:123-190, 215-305, 329-397, 422-514`. A finite element space is given by its
number of components and nodes per cell, the two numberings of the degrees of freedom of a cell and their global indices. Global vectors are functions of the
global index (updates of ghost values left out); vectors of a cell are functions whose indices are checked.
-/
import Verif.Model.Res

namespace Verif.CellSplit

structure Space (Cell : Type) where
  nComp : Nat
  nNode : Nat
  /-- `component_to_system_index` -/
  toSys : Nat → Nat → Nat
  /-- `system_to_component_index` -/
  ofSys : Nat → Nat × Nat
  /-- global indices of a cell -/
  dof : Cell → Nat → Nat

/-- `n_dofs_per_cell` -/
def Space.n {Cell : Type} (S : Space Cell) : Nat := S.nComp * S.nNode

variable {Cell K : Type}

def put (f : Nat → K) (p : Nat × K) : Nat → K := fun k => if k = p.1 then p.2 else f k

/-- Entry of the vector of a cell. -/
def read (n : Nat) (f : Nat → K) (i : Nat) : Res K := if i < n then .ok (f i) else .ub

def write (n : Nat) (f : Nat → K) (p : Nat × K) : Res (Nat → K) := if p.1 < n then .ok (put f p) else .ub

/-- One block of statements of vector_tools.h:144-187: the components from `off` on are copied into a vector of space `S`. `get_dof_values` of the full vector,
the loop over the entries and `set_dof_values`. -/
def splitCell (S0 S : Space Cell) (off : Nat) (vec : Nat → K) (out : Nat → K) (cell : Cell) : Res (Nat → K) := do
  let l := fun i => vec (S0.dof cell i)
  let comp ← (List.range S.n).mapM fun i => do
    let x ← read S0.n l (S0.toSys ((S.ofSys i).1 + off) (S.ofSys i).2)
    .ok (S.dof cell i, x)
  .ok (comp.foldl put out)

/-- vector_tools.h:123-190: loop over the cells of a process for one of the vectors written. -/
def split (S0 S : Space Cell) (off : Nat) (vec out : Nat → K) (cells : List Cell) : Res (Nat → K) := cells.foldlM (splitCell S0 S off vec) out

/-- A vector that is merged: its space, its first component in the full vector and its values. -/
structure Part (Cell K : Type) where
  space : Space Cell
  off : Nat
  vec : Nat → K

/-- vector_tools.h:352-367: the entries of a part copied to the vector of a cell. -/
def readPart (S0 : Space Cell) (cell : Cell) (l : Nat → K) (p : Part Cell K) : Res (Nat → K) :=
  (List.range p.space.n).foldlM
    (fun l i => write S0.n l (S0.toSys ((p.space.ofSys i).1 + p.off) (p.space.ofSys i).2, p.vec (p.space.dof cell i))) l

/-- vector_tools.h:344-392 -/
def mergeCell [Zero K] (S0 : Space Cell) (parts : List (Part Cell K)) (out : Nat → K) (cell : Cell) : Res (Nat → K) := do
  let l ← parts.foldlM (readPart S0 cell) (fun _ => 0)
  .ok (((List.range S0.n).map fun i => (S0.dof cell i, l i)).foldl put out)

def merge [Zero K] (S0 : Space Cell) (parts : List (Part Cell K)) (out : Nat → K) (cells : List Cell) : Res (Nat → K) := cells.foldlM (mergeCell S0 parts) out

end Verif.CellSplit
