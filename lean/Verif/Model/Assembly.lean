/-
Assembly of matrices from matrix-free operators:
  include/pf-applications/matrix_free/tools.h:29-170 (`compute_matrix`, one matrix), 207-346 (one matrix per component)
  applications/sintering/include/pf-applications/sintering/operator_base.h:187-222 (`vmult_internal`), 419-494
  (`initialize_system_matrix`), 543-613 (`initialize_block_system_matrix`), 697-790 (`do_vmult_cell`, `do_vmult_range`)
  applications/sintering/include/pf-applications/sintering/driver.h:618-646 (constraints of the problem)

Simplifications: numbers form a field. A cell carries its degrees of freedom and what `do_vmult_cell` makes of the values at its
nodes; the lanes of a batch are independent of each other, so that a batch is the list of the cells in its filled lanes. The sparsity
pattern holds all entries which are written. From deal.II: `FEEvaluation` resolves homogeneous constraints when it reads and adds up
values; `AffineConstraints::distribute_local_to_global` does the same with rows and columns of a local matrix and puts something on the
diagonal of constrained rows (`diag`, a parameter). Communication between ranks, timers and output streams are left out.
-/
import Verif.Model.Res
import Verif.Model.OpBase
import Mathlib.Algebra.Field.Defs
import Mathlib.Order.Defs.LinearOrder
import Mathlib.Algebra.Order.Group.Abs
import Mathlib.Algebra.BigOperators.Group.List.Basic
import Mathlib.Algebra.BigOperators.Group.Finset.Basic

namespace Verif.Assembly

/-- A cell: degrees of freedom in the order of `get_dof_indices`, and `local_vmult`: values at the nodes, component by component, to
integrals. -/
structure Cell (K : Type) where
  dofs : List Nat
  loc : (Nat → K) → Nat → K

/-- `AffineConstraints`: the line of a degree of freedom, `none` for unconstrained ones. -/
abbrev Lines (K : Type) := Nat → Option (List (Nat × K))

variable {K : Type}

/-- Unknowns which stand for the degree of freedom `i`. -/
def resolve [One K] (lines : Lines K) (i : Nat) : List (Nat × K) := (lines i).getD [(i, 1)]

/-- Weight of the unknown `r` in the degree of freedom `i`. -/
def weight [AddMonoid K] [One K] (lines : Lines K) (i r : Nat) : K :=
  (((resolve lines i).filter fun e => e.1 == r).map fun e => e.2).sum

/-- tools.h:135-136: degree of freedom of the node `i` in lexicographic order; outside of `dof_indices` is not reached, `lex` is a
permutation. -/
def mf (lex : List Nat) (c : Cell K) (i : Nat) : Nat := c.dofs.getD (lex.getD i 0) 0

/-- tools.h:139-147: index of the row `c` of the local matrix, `c` counts components first and nodes inside (`if (true)`). -/
def index (n : Nat) (lex : List Nat) (c : Cell K) (k : Nat) : Nat := mf lex c (k % lex.length) * n + k / lex.length

/-! ### Without matrix -/

section
variable [Field K]

/-- `FEEvaluation::read_dof_values` for blocks: value of component `k / lex.length` at node `k % lex.length`. -/
def gather (lex : List Nat) (lines : Lines K) (c : Cell K) (src : Nat × Nat → K) (k : Nat) : K :=
  ((resolve lines (mf lex c (k % lex.length))).map fun e => e.2 * src (k / lex.length, e.1)).sum

/-- `FEEvaluation::distribute_local_to_global` for blocks: what is added to unknown `r` of block `b`. -/
def scatter (lex : List Nat) (lines : Lines K) (c : Cell K) (y : Nat → K) (b r : Nat) : K :=
  ∑ i ∈ Finset.range lex.length, weight lines (mf lex c i) r * y (b * lex.length + i)

/-- operator_base.h:737-790, 203-212: `do_vmult_range` over all batches, `dst` is zero before. -/
def vmultInternal (n : Nat) (lex : List Nat) (lines : Lines K) (batches : List (List (Cell K))) (src : Nat × Nat → K) :
    Nat × Nat → K :=
  batches.flatten.foldl (fun dst c => fun k =>
    dst k + (if k.1 < n then scatter lex lines c (c.loc (gather lex lines c src)) k.1 k.2 else 0)) fun _ => 0

end

/-! ### With matrix -/

section
variable [Field K] [LinearOrder K]

/-- tools.h:114-116. -/
def unit (j : Nat) : Nat → K := fun i => if i = j then 1 else 0

/-- tools.h:112-123: column by column. -/
def localMatrix (c : Cell K) : Nat → Nat → K := fun i j => c.loc (unit j) i

/-- tools.h:150-154. -/
def maxAbs (N : Nat) (A : Nat → Nat → K) : K :=
  (List.range N).foldl (fun m i => (List.range N).foldl (fun m j => max m |A i j|) m) 0

/-- tools.h:156-159; `tol` is 1e-10. -/
def dropSmall (tol : K) (N : Nat) (A : Nat → Nat → K) : Nat → Nat → K := fun i j =>
  if |A i j| < tol * maxAbs N A then 0 else A i j

/-- `distribute_local_to_global` of the constraints of the matrix: what is added to the entry in row `r` and column `s`. -/
def distribute (diag : (Nat → Nat → K) → Nat → K) (lines : Lines K) (I : Nat → Nat) (N : Nat) (A : Nat → Nat → K) (r s : Nat) : K :=
  (∑ i ∈ Finset.range N, ∑ j ∈ Finset.range N, weight lines (I i) r * A i j * weight lines (I j) s) +
  ∑ i ∈ Finset.range N, if (lines (I i)).isSome ∧ r = I i ∧ s = I i then diag A i else 0

/-- tools.h:65-166: lanes of a batch one after the other. -/
def computeMatrix (tol : K) (diag : (Nat → Nat → K) → Nat → K) (n : Nat) (lex : List Nat) (lines : Lines K)
    (batches : List (List (Cell K))) (M : Nat → Nat → K) : Nat → Nat → K :=
  batches.foldl (fun M batch => batch.foldl (fun M c => fun r s =>
    M r s + distribute diag lines (index n lex c) (n * lex.length) (dropSmall tol (n * lex.length) (localMatrix c)) r s) M) M

/-- tools.h:318-331: the block of component `b` of a local matrix. -/
def block (d b : Nat) (A : Nat → Nat → K) : Nat → Nat → K := fun i j => A (b * d + i) (b * d + j)

/-- tools.h:235-345: one matrix per component; a list with fewer matrices than components is read past its end, a matrix behind the
components is only compressed. -/
def computeBlocks (diag : (Nat → Nat → K) → Nat → K) (n : Nat) (lex : List Nat) (lines : Lines K)
    (batches : List (List (Cell K))) (Ms : List (Nat → Nat → K)) : Res (List (Nat → Nat → K)) :=
  if Ms.length < n ∧ batches.flatten ≠ [] then .ub
  else .ok <| Ms.mapIdx fun b M => batches.foldl (fun M batch => batch.foldl (fun M c => fun r s =>
    M r s + (if b < n then distribute diag lines (mf lex c) lex.length (block lex.length b (localMatrix c)) r s else 0)) M) M

/-- operator_base.h:419-494: matrix after `initialize_system_matrix(true)`; `none`: without rows; what was there is cleared. -/
def systemMatrix (tol : K) (diag : (Nat → Nat → K) → Nat → K) (n : Nat) (lex : List Nat) (lines : Lines K)
    (batches : List (List (Cell K))) (old : Option (Nat → Nat → K)) : Nat → Nat → K :=
  let empty := old.isNone
  let M := old.getD fun _ _ => 0
  computeMatrix tol diag n lex lines batches (if empty then M else fun _ _ => 0)

/-- `TrilinosWrappers::SparseMatrix::vmult` with `size` columns. -/
def apply (size : Nat) (M : Nat → Nat → K) (x : Nat → K) (r : Nat) : K := ∑ s ∈ Finset.range size, M r s * x s

end

/-! ### Constraints -/

/-- Interleaved lines of components: `v * n + b` is constrained by the unknowns of component `b`. -/
def interleave (n : Nat) (lines : Lines K) : Lines K := fun i =>
  (lines (i / n)).map fun l => l.map fun e => (e.1 * n + i % n, e.2)

/-- driver.h:618-646: constraints which `MatrixFree` gets; `hanging` and `periodic` are the lines which deal.II makes, lines which are
there already are kept. -/
def problemLines (isPeriodic : Bool) (hanging periodic : Lines K) : Lines K := fun i =>
  match hanging i with
  | some l => some l
  | none => if isPeriodic then periodic i else none

/-- Degrees of freedom of a vertex, line, quadrilateral or hexahedron, one after the other: `DoFHandler::distribute_dofs`. -/
structure Obj where
  offset : Nat
  size : Nat
deriving DecidableEq, Repr

/-- Numbering of `FESystem`: on every object the degrees of freedom of the first component, then those of the second one. -/
def systemIndex (n : Nat) (o : Obj) (l b : Nat) : Nat := o.offset * n + b * o.size + l

/-- operator_base.h:432-449: constraints of the matrix, in the numbering of the system of elements: only hanging nodes and what
`add_matrix_constraints` adds (nothing but for structures). The map to objects is given by `place`: object, number on the object. -/
def matrixLines (n : Nat) (place : Nat → Obj × Nat) (unplace : Nat → Nat × Nat) (hanging : Lines K) : Lines K := fun g =>
  let vb := unplace g
  (hanging vb.1).map fun l => l.map fun e => (systemIndex n (place e.1).1 (place e.1).2 vb.2, e.2)

end Verif.Assembly
