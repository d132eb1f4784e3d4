/-
Levels of the mesh, arrays for the multigrid levels and statistics of the mesh:
  applications/sintering/include/pf-applications/sintering/driver.h
  include/pf-applications/grid/grid_tools.h

Simplifications: the mesh is the list of the levels of its active cells; what deal.II makes of the marks
(`prepare_coarsening_and_refinement`, `execute_coarsening_and_refinement`) is a relation; one rank.
-/
import Verif.Model.Mesh
import Verif.Model.Schedule

namespace Verif.Levels

open Verif.Mesh

/-- Contract of deal.II: a new active cell is an old one, the parent of one marked for coarsening, the child of one marked
for refinement, or the child of a cell refined in addition because there is a finer new cell. -/
def Executed {K : Type} (marked : List (Cell K)) (new : List Nat) : Prop :=
  ∀ l ∈ new, (∃ c ∈ marked, l = c.level) ∨ (∃ c ∈ marked, c.coarsen = true ∧ l + 1 = c.level) ∨
    (∃ c ∈ marked, c.refine = true ∧ l = c.level + 1) ∨ ((∃ c ∈ marked, l = c.level + 1) ∧ ∃ m ∈ new, l < m)

/-- driver.h:1400-1403: coarsest level allowed. -/
def minLevel (levels0 minDepth : Nat) : Nat := (levels0 - 1) - min (levels0 - 1) minDepth

/-- The meshes that occur.  `levels0` is `n_global_levels_0`, `maxD`, `minD` the parameters; the indices are
`current_max_refinement_depth`, the number of times it was increased, and the levels of the cells. -/
inductive Reach (K : Type) [Field K] [LinearOrder K] (vmin vmax : K) (levels0 maxD minD : Nat) :
    Nat → Nat → List Nat → Prop
  /-- driver.h:235-241: the initial mesh -/
  | start (ls : List Nat) (h : ∀ l ∈ ls, l < levels0) : Reach K vmin vmax levels0 maxD minD maxD 0 ls
  /-- driver.h:1371-1464, grid_tools.h:831-893: `execute_coarsening_and_refinement`; the flags of the cells are those of the
  error estimator -/
  | amr {cur k ls} (cells : List (Cell K)) (new : List Nat) (h : Reach K vmin vmax levels0 maxD minD cur k ls)
      (hc : cells.map (·.level) = ls)
      (he : Executed (mark vmin vmax (minLevel levels0 minD) (Schedule.maxLevel levels0 cur) cells) new) :
      Reach K vmin vmax levels0 maxD minD cur k new
  /-- driver.h:2663-2680: the quality is not reached (the refinement follows) -/
  | more {cur k ls} (h : Reach K vmin vmax levels0 maxD minD cur k ls) :
      Reach K vmin vmax levels0 maxD minD ((cur + 1) % 4294967296) (k + 1) ls
  /-- driver.h:2257-2269: extra coarsening (the refinement follows) -/
  | less {k ls} (h : Reach K vmin vmax levels0 maxD minD maxD k ls) :
      Reach K vmin vmax levels0 maxD minD ((maxD + 4294967295) % 4294967296) k ls

/-- driver.h:684-706: the multigrid objects (`mg_constraints`, `mg_matrix_free`) have the levels 0 to
`max_max_level`, the loop runs over the levels of the sequence of coarser meshes, i.e. those of the mesh.  The access is
not checked. -/
def initLevels (levels0 maxD : Nat) (finest : Nat) : Res Unit :=
  (List.range (finest + 1)).forM fun l => if l ≤ levels0 + maxD then .ok () else .ub

/-- driver.h:823-824: `n theoretical fine cells`. -/
def theoreticalCells (dim coarse levels : Nat) : Nat := coarse * (2 * dim) ^ (levels - 1)

/-- A child of a refined cell: `none` if it is refined itself, else index among the active cells and whether locally owned. -/
abbrev Child := Option (Nat × Bool)

/-- driver.h:770-775: whether all children are active and locally owned. -/
def allOwned : List Child → Bool
  | [] => true
  | none :: _ => false
  | some (_, o) :: r => o && allOwned r

/-- driver.h:777-779: the flag of one child is set. -/
def setFlag (fl : List Bool) : Child → List Bool
  | some (i, _) => fl.set i true
  | none => fl

/-- driver.h:764-780: flags of the active cells, one list of children per refined cell. -/
def unrefined (nActive : Nat) (parents : List (List Child)) : List Bool :=
  parents.foldl (fun fl ch =>
    if allOwned ch then ch.foldl setFlag fl else fl)
    (List.replicate nActive false)

/-- driver.h:783-786 -/
def nUnrefined (nActive : Nat) (parents : List (List Child)) : Nat := ((unrefined nActive parents).filter id).length

end Verif.Levels
