import Verif.Model.Res
import Mathlib.Algebra.Order.Field.Basic
/-!
# Grain boundaries, areas, and the estimate of the overhead

Models `build_grain_boundaries_mesh`, `compute_surface_area`, `compute_grain_boundaries_area` and
`estimate_overhead` (applications/sintering/include/pf-applications/sintering/postprocessors.h:112-304, 852-950,
953-1138).

The marching cubes algorithm is a parameter: for every grain it gives the pieces of the level surface in a cell. A
piece comes with the values of the shape functions at its centroid, its measure, and the centre used by the box
filter. The coarsening of the mesh in `estimate_overhead` is a parameter: it gives the numbers of cells left for every
block.
-/
namespace Verif.GrainBoundary

section Boundary
variable {K : Type} [Field K] [LinearOrder K]

/-- a piece of the surface: shape functions at the centroid, measure, whether the centre lies in the box -/
structure Piece (K : Type) where
  shape : List K
  measure : K
  inBox : Bool

/-- a cell: values of the grains at the nodes, pieces of the level surfaces of the grains -/
structure Cell (K : Type) where
  values : List (List K)
  pieces : Nat → List (Piece K)

/-- postprocessors.h:205-213, 230-238: some value above and some value below the level -/
def crosses (iso : K) (vs : List K) : Bool := vs.any (iso < ·) && vs.any (· < iso)

/-- postprocessors.h:215-245: the values of the other grains are added up node by node, starting from zero, and
scaled by those of grain `i`; `nDofs` is the number of nodes -/
def boundaryValues (nDofs : Nat) (values : List (List K)) (i : Nat) : List K :=
  List.zipWith (· * ·)
    (values.zipIdx.foldl (fun gb e => if e.2 = i then gb else List.zipWith (· + ·) gb e.1) (List.replicate nDofs 0))
    (values.getD i [])

/-- postprocessors.h:219-241: another grain crosses the level as well -/
def hasOthers (iso : K) (values : List (List K)) (i : Nat) : Bool :=
  values.zipIdx.any fun e => e.2 != i && crosses iso e.1

/-- value of a finite element function at the centroid of a piece -/
def evaluate (shape vals : List K) : K := (List.zipWith (· * ·) shape vals).foldl (· + ·) 0

/-- postprocessors.h:199-295: pieces of grain `i` in one cell that are kept -/
def keptPieces (iso lim : K) (nDofs : Nat) (c : Cell K) (i : Nat) : List (Piece K) :=
  if crosses iso (c.values.getD i []) then
    let gb := boundaryValues nDofs c.values i
    if gb.any (lim < ·) || hasOthers iso c.values i then
      (c.pieces i).filter fun p => lim < evaluate p.shape gb
    else []
  else []

/-- postprocessors.h:193-296: the pieces of one rank -/
def boundaryMesh (iso lim : K) (nDofs : Nat) (owned : List (Cell K)) : List (Piece K) :=
  owned.flatMap fun c => (List.range c.values.length).flatMap (keptPieces iso lim nDofs c)

/-- postprocessors.h:887-892, 938-942: sum of the measures on one rank -/
def rankArea (filtered : Bool) (ps : List (Piece K)) : K :=
  ps.foldl (fun s p => if !filtered || p.inBox then s + p.measure else s) 0

/-- `compute_grain_boundaries_area` (postprocessors.h:905-950): boundaries are counted from both sides -/
def boundaryArea (iso lim : K) (nDofs : Nat) (filtered : Bool) (ranks : List (List (Cell K))) : K :=
  (ranks.foldl (fun s owned => s + rankArea filtered (boundaryMesh iso lim nDofs owned)) 0) * (1 / 2)

/-- `compute_surface_area` (postprocessors.h:852-901): all pieces of the first block -/
def surfaceArea (filtered : Bool) (ranks : List (List (Cell K))) : K :=
  ranks.foldl (fun s owned => s + rankArea filtered (owned.flatMap fun c => c.pieces 0)) 0

end Boundary

section Overhead

/-- postprocessors.h:977-996: number of blocks after the first two with a value above 0.01 in the cell; the blocks of
a cell are given by whether the maximum norm is above -/
def counter (above : List Bool) : Nat := ((above.drop 2).filter id).length

/-- postprocessors.h:998-1000: largest counter on a rank, `counters` is never empty -/
def rankLargest (cs : List Nat) : Res Nat :=
  match cs with
  | [] => .ub
  | c :: cs => .ok (cs.foldl max c)

/-- postprocessors.h:1004-1006: one increment of the histogram -/
def tally (h : List Nat) (i : Nat) : Res (List Nat) :=
  if i = 0 then .ok h else do
    let x ← Res.index h (i - 1)
    .ok (h.set (i - 1) (x + 1))

/-- postprocessors.h:974-1021: largest number of grains in a cell, and the histogram with the entry that is always
printed, `max_values[0]`; a rank is the list of its active cells. With fewer than two blocks the bound of the loop
wraps around and blocks that do not exist are accessed. -/
def overheadHistogram (nBlocks : Nat) (ranks : List (List (List Bool))) : Res (Nat × List Nat) :=
  if nBlocks < 2 then .ub else do
    let counters := ranks.map fun cells => cells.map counter
    let maxima ← counters.mapM rankLargest
    let m := maxima.foldl max 0
    let hists ← counters.mapM fun cs => cs.foldlM tally (List.replicate m 0)
    let total := hists.foldl (fun a b => List.zipWith (· + ·) a b) (List.replicate m 0)
    let _ ← Res.index total 0
    .ok (m, total)

/-- postprocessors.h:1131-1135: the estimate in percent; `n0` cells now, `reduced` numbers of cells of the meshes of
the blocks after the first two -/
def overhead (n0 : Nat) (nBlocks : Nat) (reduced : List Nat) : Int :=
  ((n0 * nBlocks * 100 / (reduced.foldl (· + ·) 0 + 2 * n0) : Nat) : Int) - 100

end Overhead

end Verif.GrainBoundary
