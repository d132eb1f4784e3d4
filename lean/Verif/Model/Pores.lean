/-
Detection of pores and data of the pore contours (sintering/postprocessors.h:1130-1275, 1357-1516).

The flooding differs from the one of the grain tracker only in the predicate that is evaluated for a cell; the later steps
(offsets, local connectivity, distributed stitching) are the functions of the grain tracker modelled in
`Verif/Model/Detect.lean`.
-/
import Verif.Model.Flood
import Mathlib.Algebra.Order.Field.Basic
import Mathlib.Algebra.Order.Group.Unbundled.Abs

namespace Verif.Pores

/-- Mesh seen by the pore detection. -/
structure PMesh (K : Type) where
  children : Nat → List Nat
  owned : Nat → Bool
  nbrs : Nat → List Nat
  /-- `box_filter && box_filter->point_outside(cell->barycenter())` -/
  outside : Nat → Bool
  /-- values of the blocks in a cell -/
  values : Nat → List (List K)

section
variable {K : Type} [Field K] [LinearOrder K]

/-- `Vector::linfty_norm` -/
def linfty (l : List K) : K := l.foldl (fun a v => max a |v|) 0

/-- postprocessors.h:1182-1190: some block reaches the threshold. -/
def solid (M : PMesh K) (thr : K) (c : Nat) : Bool := (M.values c).any fun b => decide (thr ≤ linfty b)

/-- `run_flooding` (postprocessors.h:1145-1205). -/
def floodPore (M : PMesh K) (thr : K) (id : Nat) : Nat → Nat → (Nat → Option Nat) → Option (Nat × (Nat → Option Nat))
  | 0, _, _ => none
  | fuel + 1, c, ids =>
    if M.children c ≠ [] then
      (M.children c).foldlM (fun (p : Nat × (Nat → Option Nat)) ch =>
        (floodPore M thr id fuel ch p.2).map (fun q => (p.1 + q.1, q.2))) (0, ids)
    else if M.owned c = false ∨ M.outside c = true then some (0, ids)
    else if (ids c).isSome then some (0, ids)
    else if solid M thr c then some (0, ids)
    else
      (M.nbrs c).foldlM (fun (p : Nat × (Nat → Option Nat)) n =>
        (floodPore M thr id fuel n p.2).map (fun q => (p.1 + q.1, q.2)))
        (1, fun b => if b = c then some id else ids b)

/-- Step 1 of `detect_pores` (postprocessors.h:1226-1247): ids and number of local pores. -/
def detectPores (M : PMesh K) (thr : K) (fuel : Nat) (active : List Nat) : Option ((Nat → Option Nat) × Nat) :=
  active.foldlM (fun r c => (floodPore M thr r.2 fuel c r.1).map fun q =>
    if q.1 > 0 then (q.2, r.2 + 1) else (q.2, r.2)) (fun _ => none, 0)

end

/-! ### Data of the contours -/

/-- A cell as seen by its owner after the detection: global pore id, boundary flag and degrees of freedom. -/
structure PCell where
  pore : Option Nat
  atBoundary : Bool
  dofs : List Nat

/-- postprocessors.h:1388-1441: ids of the pores that touch the boundary of the domain, gathered over the ranks. -/
def boundaryPores (ranks : List (List PCell)) : List Nat :=
  ranks.flatMap fun cells => cells.filterMap fun c => if c.atBoundary then c.pore else none

/-- postprocessors.h:1480-1500: is the dof written by a cell of the rank? -/
def writes (smooth : Bool) (bp : List Nat) (cells : List PCell) (dof : Nat) : Bool :=
  cells.any fun c => match c.pore with
    | none => false
    | some p => (bp.contains p == smooth) && c.dofs.contains dof

/-- Not smooth (postprocessors.h:1467-1507): one in the cells that are written, zero elsewhere; the contributions of the
ranks are added at the owner and bounded by one. -/
def coarseData {K : Type} [Field K] [LinearOrder K] (ranks : List (List PCell)) (dof : Nat) : K :=
  let bp := boundaryPores ranks
  min (ranks.foldl (fun a cells => a + (if writes false bp cells dof then 1 else 0)) 0) 1

/-- Smooth (postprocessors.h:1451-1463, 1475-1500): value in the copy of rank `r`; the zeros written by a rank are not sent
to other ranks. `total` is the sum of the blocks. -/
def smoothData {K : Type} [Field K] (ranks : List (List PCell)) (total : Nat → K) (r dof : Nat) : K :=
  let bp := boundaryPores ranks
  if writes true bp (ranks.getD r []) dof then 0 else total dof * (-1) + 1

end Verif.Pores
