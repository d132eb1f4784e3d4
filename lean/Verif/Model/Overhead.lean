/-
Estimate of the cells that are superfluous because all order parameters share one mesh:
  applications/sintering/include/pf-applications/sintering/postprocessors.h:955-1137 (`estimate_overhead`)
  applications/sintering/include/pf-applications/sintering/driver.h:1462-1463 (its call)

Simplifications: values are elements of an ordered field.  A cell is the list of its degrees of freedom; the mesh that is coarsened is a tree whose
leaves carry the norm of one order parameter on the cell; the norm on a cell that replaces its children, and the cells that the library does not
coarsen to keep the mesh balanced, are parameters.  The optional output of meshes is left out.
-/
import Verif.Model.Res
import Mathlib.Algebra.Order.Group.Abs
import Mathlib.Algebra.Order.Field.Basic
import Mathlib.Algebra.BigOperators.Fin

namespace Verif.Overhead

variable {K : Type} [Field K] [LinearOrder K]

/-- Cells of one rank: degrees of freedom of the owned ones, number of the others. -/
structure Rank where
  owned : List (List Nat)
  foreign : Nat

/-- Value of a block at a degree of freedom, on a rank; entries of other ranks are zero without ghost values. -/
def read (owner : Nat → Nat) (ghosted : Bool) (rank : Nat) (block : Nat → K) (d : Nat) : K :=
  if ghosted ∨ owner d = rank then block d else 0

/-- postprocessors.h:993-996: `values.linfty_norm() > 0.01` -/
def above (th : K) (owner : Nat → Nat) (ghosted : Bool) (rank : Nat) (block : Nat → K) (cell : List Nat) : Bool :=
  cell.any fun d => decide (th < |read owner ghosted rank block d|)

/-- postprocessors.h:979-998: the counters of one rank, zero for the cells of others. -/
def counters (th : K) (owner : Nat → Nat) (ghosted : Bool) (blocks : List (Nat → K)) (rank : Nat) (r : Rank) : List Nat :=
  (r.owned.map fun cell => (blocks.drop 2).countP fun b => above th owner ghosted rank b cell) ++ List.replicate r.foreign 0

/-- postprocessors.h:1000-1001: the largest element of a list that must not be empty. -/
def maxElement (l : List Nat) : Res Nat := if l = [] then .ub else .ok (l.foldl max 0)

/-- postprocessors.h:1004-1010: how many cells have the number `k + 1` -/
def histogram (all : List (List Nat)) (m : Nat) : List Nat :=
  (List.range m).map fun k => (all.map fun c => c.count (k + 1)).sum

/-- postprocessors.h:978-1022: maximal number and histogram; the first entry is printed in any case. With less than two blocks the number of passes is
not the number of order parameters (`n_blocks() - 2`). -/
def maxGrains (th : K) (owner : Nat → Nat) (ghosted : Bool) (blocks : List (Nat → K)) (ranks : List Rank) : Res (Nat × List Nat) :=
  if blocks.length < 2 then .ub
  else do
    let all := ranks.mapIdx fun i r => counters th owner ghosted blocks i r
    let ms ← all.mapM maxElement
    let m := ms.foldl max 0
    let h := histogram all m
    let _ ← Res.index h 0
    pure (m, h)

/-- A mesh with refinement into `n` children. -/
inductive Tree (K : Type) (n : Nat) where
  | leaf (norm : K)
  | node (c : Fin n → Tree K n)

/-- Active cells. -/
def Tree.count {n : Nat} : Tree K n → Nat
  | .leaf _ => 1
  | .node c => ∑ i, (c i).count

/-- postprocessors.h:1062: flag for coarsening, on active cells only. -/
def Tree.small {n : Nat} (th : K) : Tree K n → Bool
  | .leaf x => decide (x ≤ th)
  | .node _ => false

/-- Norm on an active cell. -/
def Tree.norm {n : Nat} : Tree K n → K
  | .leaf x => x
  | .node _ => 0

/-- postprocessors.h:1049-1099: one pass: families of flagged cells are replaced by their parents. -/
def Tree.coarsen {n : Nat} (th : K) (merge : (Fin n → K) → K) (veto : (Fin n → Tree K n) → Bool) : Tree K n → Tree K n
  | .leaf x => .leaf x
  | .node c => if (∀ i, (c i).small th = true) ∧ veto c = false then .leaf (merge fun i => (c i).norm) else .node fun i => (c i).coarsen th merge veto

/-- postprocessors.h:1047-1106: passes until the number of cells stays the same; mesh and number of passes. -/
def loop {M : Type} (step : M → M) (count : M → Nat) : Nat → M → Option (M × Nat)
  | 0, _ => none
  | fuel + 1, m =>
    let m' := step m
    if count m = count m' then some (m', 1) else (loop step count fuel m').map fun r => (r.1, r.2 + 1)

/-- postprocessors.h:1126-1129 in 64 bit numbers; `n0` cells, `n1` cells of all coarsened meshes. -/
def percentage (n0 n1 : Int) (nBlocks : Nat) : Res Int :=
  if n1 + 2 * n0 = 0 then .ub else .ok ((n0 * nBlocks * 100).tdiv (n1 + 2 * n0) - 100)

end Verif.Overhead
