/-
Blocks of the vectors of the history at a refinement, and blocks the residual reads:
  applications/sintering/include/pf-applications/sintering/driver.h:1371-1447 (`execute_coarsening_and_refinement`)
  include/pf-applications/grid/grid_tools.h:933-1012 (`coarsen_and_refine_mesh`)
  include/pf-applications/lac/dynamic_block_vector.h:174-203 (`create_view`)
  applications/sintering/include/pf-applications/sintering/operator_base.h:143-149 (`initialize_dof_vector`)
  applications/sintering/include/pf-applications/sintering/operator_sintering_generic.h:927-972 (`do_evalute_history`)

Simplifications: a block is an element of a type `B`, the transfer to the new mesh a function of it; constraints are part of it.
-/
import Verif.Model.Res

namespace Verif.HistBlocks

variable {B : Type}

/-- dynamic_block_vector.h:174-203: the ranges are checked in debug builds only. -/
def view (blocks : List B) (start n : Nat) : Res (List B) := (List.range n).mapM fun j => Res.index blocks (start + j)

/-- driver.h:1416-1417: `for (i = 0; i < v.n_blocks(); i += n)` -/
def starts (n total : Nat) : List Nat := (List.range ((total + n - 1) / n)).map (· * n)

/-- Positions of the blocks a view set up again. -/
def covered (n total : Nat) : List Nat := (starts n total).flatMap fun s => (List.range n).map fun j => s + j

/-- The blocks of vectors of the given sizes; the vectors share them with the long vector (solution_history.h:111-121). -/
def split : List Nat → List B → List (List B)
  | [], _ => []
  | n :: ns, l => l.take n :: split ns (l.drop n)

/-- grid_tools.h:1001-1003: a block that was not set up for the new mesh does not fit. -/
def interpolate (T : B → B) (ready : List Nat) (p : B × Nat) : Res B := if p.2 ∈ ready then .ok (T p.1) else .ub

/-- Refinement of all vectors but the recent one; `n` is the number of components of the operator, the estimate uses the blocks from `off` to `nOP`
of the long vector.  The vectors on the new mesh, and the blocks estimated. -/
def refineAll (T : B → B) (n off nOP : Nat) (vectors : List (List B)) : Res (List (List B) × List B) := do
  let long := vectors.flatten
  let est ← view long off (nOP - off)
  let _ ← (starts n long.length).mapM fun s => view long s n
  let new ← long.zipIdx.mapM (interpolate T (covered n long.length))
  pure (split (vectors.map List.length) new, est)

/-- operator_sintering_generic.h:947-961: blocks read from the old solutions by a kernel for `n` components. -/
def readAll (n : Nat) (olds : List (List B)) : Res (List (List B)) := olds.mapM fun v => view v 0 n

end Verif.HistBlocks
