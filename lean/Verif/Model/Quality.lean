/-
Mesh quality and shrinkage (sintering/postprocessors.h:1546-1895).

Simplifications: a cell is the list of its blocks, a block the list of its nodal values (not empty: `std::min_element` of
an empty range would be dereferenced otherwise).  For the shrinkage a cell is given by its support points and refined
points together with the values there, its centre, its diameter; refined points are the interior points of
`QIterated`-like tensor grids (lines 1665-1673), values at them come from `get_function_values`.
-/
import Verif.Model.Res
import Mathlib.Algebra.Order.Field.Basic
import Mathlib.Data.List.FinRange
import Mathlib.Algebra.Order.Group.Unbundled.Abs

namespace Verif.Quality

variable {K : Type} [Field K] [LinearOrder K]

/-- `std::min_element` / `std::max_element` of a range that is known to be non-empty -/
def minOf : List K → K
  | [] => 0
  | a :: l => l.foldl min a

def maxOf : List K → K
  | [] => 0
  | a :: l => l.foldl max a

/-- postprocessors.h:1775-1790: largest variation in a cell. -/
def deltaCell (blocks : List (List K)) : K :=
  blocks.foldl (fun acc vals => max (maxOf vals - minOf vals) acc) 0

/-- postprocessors.h:1870-1892 (`estimate_mesh_quality_min`); ranks are lists of owned cells. -/
def qualityMin (ranks : List (List (List (List K)))) : K :=
  minOf (ranks.map fun cells => cells.foldl (fun q c => min q (1 - deltaCell c)) 1)

/-- Entry of the vector of `output_mesh_quality_and_min` (postprocessors.h:1806-1810, 1850-1853): initialised with zero, cells
of other ranks (`none`: ghost or artificial) are not written. -/
def cellEntry (c : Option (List (List K))) : K :=
  match c with
  | some c => 1 - deltaCell c
  | none => 0

/-- postprocessors.h:1858-1859: smallest entry of a rank; a rank without active cells dereferences an empty range. -/
def rankOutputMin (cells : List (Option (List (List K)))) : Res K :=
  if cells.isEmpty then .ub else pure (minOf (cells.map cellEntry))

/-- postprocessors.h:1843-1863 (`output_mesh_quality_and_min`). -/
def qualityOutputMin (ranks : List (List (Option (List (List K))))) : Res K := do
  let ms ← ranks.mapM rankOutputMin
  pure (minOf ms)

/-- Cell data used by `estimate_shrinkage`. -/
structure SCell (K : Type) (d : Nat) where
  pts : List ((Fin d → K) × K)
  refined : List ((Fin d → K) × K)
  center : Fin d → K
  diameter : K
  deriving Inhabited

variable {d : Nat}

/-- postprocessors.h:1599-1608: both values above and below. -/
def interfaceCell (thr : K) (c : SCell K d) : Bool :=
  (c.pts.any fun p => decide (thr < p.2)) && (c.pts.any fun p => decide (p.2 < thr))

/-- `Vector::linfty_norm` -/
def cNorm (c : SCell K d) : K := c.pts.foldl (fun a p => max a |p.2|) 0

/-- postprocessors.h:1613-1645: update of the candidate cell for the minimum (`sgn = 1`) or maximum (`sgn = -1`) in
direction `i`. -/
def candidate (relTol : K) (low : Bool) (i : Fin d) (cur : Option (SCell K d)) (c : SCell K d) : Option (SCell K d) :=
  match cur with
  | none => some c
  | some m =>
    let dist := |c.center i - m.center i|
    let absTol := relTol * c.diameter
    if (dist < absTol ∧ cNorm m < cNorm c)
        ∨ (absTol < dist ∧ (if low then c.center i < m.center i else m.center i < c.center i)) then some c
    else some m

/-- Result of one rank in one direction: (postprocessors.h:1590-1712), `bbLow`/`bbHigh` bounds of the triangulation. -/
def rankBounds (thr relTol bbLow bbHigh : K) (i : Fin d) (cells : List (SCell K d)) : K × K :=
  let cs := cells.filter (interfaceCell thr)
  let pts := (cs.flatMap (·.pts)).filter fun p => decide (thr < p.2)
  let lo := pts.foldl (fun m p => min m (p.1 i)) bbHigh
  let hi := pts.foldl (fun m p => max m (p.1 i)) bbLow
  let cl := cs.foldl (candidate relTol true i) none
  let ch := cs.foldl (candidate relTol false i) none
  let rl := ((cl.map (·.refined)).getD []).filter fun p => decide (thr < p.2)
  let rh := ((ch.map (·.refined)).getD []).filter fun p => decide (thr < p.2)
  (rl.foldl (fun m p => min m (p.1 i)) lo, rh.foldl (fun m p => max m (p.1 i)) hi)

/-- postprocessors.h:1546-1730 (`estimate_shrinkage`): bounds in direction `i` after the reductions. -/
def shrinkage (thr relTol bbLow bbHigh : K) (i : Fin d) (ranks : List (List (SCell K d))) : K × K :=
  let l := ranks.map (rankBounds thr relTol bbLow bbHigh i)
  (minOf (l.map (·.1)), maxOf (l.map (·.2)))

end Verif.Quality
