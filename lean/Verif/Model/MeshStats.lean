import Verif.Model.Res
/-!
# Coarsened copies and statistics of a mesh

Models `coarsen_triangulation` (include/pf-applications/grid/grid_tools.h:43-122) and the statistics printed by
`Problem::initialize` (applications/sintering/include/pf-applications/sintering/driver.h:745-825).

A mesh is a list of trees with `n = 2^dim` children per refined cell. An active cell has its index, its owner, whether it
has hanging nodes, and the values of the solution at its vertices; vertex `i` of a cell is vertex `i` of its child `i`.
The elements are linear and have one component.

deal.II and p4est are replaced by what the code relies on: cells flagged for coarsening are replaced by their parent if
all children of the parent are active and flagged; the solution transfer takes the values at the vertices of the parent;
the new cell has the owner and the index of the first child. The vectors of partial sums are sums over the ranks.
-/
namespace Verif.MeshStats

/-- an active cell -/
structure ACell (n : Nat) (K : Type) where
  id : Nat
  rank : Nat
  hanging : Bool
  value : Fin n → K

/-- a coarse cell with what it is refined to -/
inductive Tree (n : Nat) (K : Type) where
  | leaf (c : ACell n K)
  | node (ch : Fin n → Tree n K)

variable {n : Nat} {K : Type}

/-- level of the finest cell relative to the root -/
def Tree.height : Tree n K → Nat
  | .leaf _ => 0
  | .node ch => 1 + ((List.finRange n).map fun i => (ch i).height).foldl max 0

/-- `n_global_levels` -/
def nLevels (f : List (Tree n K)) : Nat := (f.map fun t => t.height + 1).foldl max 0

/-- the active cells -/
def Tree.leaves : Tree n K → List (ACell n K)
  | .leaf c => [c]
  | .node ch => (List.finRange n).flatMap fun i => (ch i).leaves

/-- the active cell, if the cell is not refined -/
def Tree.active? : Tree n K → Option (ACell n K)
  | .leaf c => some c
  | .node _ => none

/-- the children if all of them are active -/
def activeFamily (ch : Fin n → Tree n K) : Option (Fin n → ACell n K) :=
  if h : ∀ i, (ch i).active?.isSome then some fun i => (ch i).active?.get (h i) else none

/-- the parent of active cells: values at the vertices from the child at this vertex -/
def parent [NeZero n] (cs : Fin n → ACell n K) : ACell n K :=
  { id := (cs 0).id, rank := (cs 0).rank, hanging := false, value := fun i => (cs i).value i }

/-- One round of coarsening below a cell of level `l` in a mesh with `L` levels (grid_tools.h:78-118): the cells of the
finest level are flagged (lines 81-85) and their families are replaced. -/
def coarsenTree [NeZero n] (L : Nat) : Nat → Tree n K → Tree n K
  | _, .leaf c => .leaf c
  | l, .node ch =>
    match activeFamily ch with
    | some cs => if l + 1 + 1 = L then .leaf (parent cs) else .node fun i => coarsenTree L (l + 1) (ch i)
    | none => .node fun i => coarsenTree L (l + 1) (ch i)

/-- the rounds; the number of levels is that of the current mesh (grid_tools.h:78-119) -/
def coarsenRounds [NeZero n] : Nat → List (Tree n K) → List (Tree n K)
  | 0, f => f
  | k + 1, f => coarsenRounds k (f.map (coarsenTree (nLevels f) 0))

/-- `coarsen_triangulation`: nothing is returned if no step is asked for (grid_tools.h:51-52) -/
def coarsen [NeZero n] (k : Nat) (f : List (Tree n K)) : Option (List (Tree n K)) := if k = 0 then none else some (coarsenRounds k f)

/-- active cells of a rank with (without) hanging nodes (driver.h:748-756) -/
def countHanging (r : Nat) (w : Bool) (f : List (Tree n K)) : Nat :=
  ((f.flatMap Tree.leaves).filter fun c => decide (c.rank = r) && (c.hanging == w)).length

/-- the sum over the ranks -/
def sumRanks (ranks : Nat) (x : Nat → Nat) : Nat := ((List.range ranks).map x).sum

/-- the children of every refined cell -/
def Tree.families : Tree n K → List (Fin n → Tree n K)
  | .leaf _ => []
  | .node ch => ch :: (List.finRange n).flatMap fun i => (ch i).families

/-- the mark of one family (driver.h:771-784): all children active and owned -/
def markFamily (r : Nat) (flags : List Bool) (ch : Fin n → Tree n K) : Res (List Bool) :=
  match activeFamily ch with
  | some cs =>
    if ∀ i, (cs i).rank = r then
      (List.finRange n).foldlM (fun fl i => if (cs i).id < fl.length then .ok (fl.set (cs i).id true) else .ub) flags
    else .ok flags
  | none => .ok flags

/-- cells of a rank that were not refined further (driver.h:769-791); `nActive` is the length of the vector -/
def unrefined (r nActive : Nat) (f : List (Tree n K)) : Res Nat := do
  let flags ← (f.flatMap Tree.families).foldlM (markFamily r) (List.replicate nActive false)
  .ok (flags.count true)

/-- "n theoretical fine cells" (driver.h:824) -/
def theoretical (dim : Nat) (f : List (Tree (2 ^ dim) K)) : Nat := f.length * (2 * dim) ^ (nLevels f - 1)

end Verif.MeshStats
