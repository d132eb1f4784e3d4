/-
Files with surfaces and with grains as spheres:
  applications/sintering/include/pf-applications/sintering/postprocessors.h:426-536 (`build_write_grain_contours_vtu`), 634-711
  (`output_grain_contours_vtu`), 713-756 (`output_grain_boundaries_vtu`), 758-851 (`output_concentration_contour_vtu`)
  applications/sintering/include/pf-applications/sintering/projection.h:386-413 (`output_grain_contours_projected_vtu`)
  include/pf-applications/grain_tracker/output.h:197-253 (`output_grains_as_spherical_particles`)

Simplifications: the marching cubes algorithm is a parameter, it gives the pieces of a block in a cell (a cell with vertices has
pieces and the other way round); the mesh of the surface keeps the pieces as they are; the parallel writer writes the pieces of
all ranks one after the other; an exception of one rank ends the run (the other ranks wait for it); coarsening and the filter
are `MeshStats` and `GhostSync`, here they only exchange cells and values; `insert_global_particles` keeps what each of the
ranks hands over.
-/
import Verif.Model.OutTrack

namespace Verif.Surfaces

open Verif.Cycle Verif.OutTrack

variable {P K Cell Q : Type}

/-- What is written for a piece: the piece, number of the grain, order parameter, rank. -/
structure Elem (Q : Type) where
  piece : Q
  grain : Int
  op : Int
  rank : Nat
deriving DecidableEq

/-- postprocessors.h:475-489: number of the piece; without a tracker `CellData` keeps the number 0. -/
def numberOf (tracker : Option (State P K)) (b cell : Nat) : Res (Option Nat) :=
  match tracker with
  | none => .ok (some 0)
  | some st => number st b cell

/-- postprocessors.h:467-491: the new pieces of a cell, each asks for itself. -/
def cellElems (tracker : Option (State P K)) (index : Cell → Nat) (r b : Nat) (cell : Cell) :
    List Q → List (Elem Q) → Res (List (Elem Q))
  | [], acc => .ok acc
  | q :: qs, acc => (numberOf tracker b (index cell)).bind fun g =>
      cellElems tracker index r b cell qs (acc ++ [⟨q, (g.getD invalidUInt : Nat), b, r⟩])

/-- postprocessors.h:462-491: loop over the owned cells. -/
def blockElems (tracker : Option (State P K)) (index : Cell → Nat) (mc : Nat → Cell → List Q) (r b : Nat) :
    List Cell → List (Elem Q) → Res (List (Elem Q))
  | [], acc => .ok acc
  | c :: cs, acc => (cellElems tracker index r b c (mc b c) acc).bind (blockElems tracker index mc r b cs)

/-- postprocessors.h:460-492: loop over the blocks. -/
def rankElems (tracker : Option (State P K)) (index : Cell → Nat) (mc : Nat → Cell → List Q) (r : Nat) (owned : List Cell) :
    List Nat → List (Elem Q) → Res (List (Elem Q))
  | [], acc => .ok acc
  | b :: bs, acc => (blockElems tracker index mc r b owned acc).bind (rankElems tracker index mc r owned bs)

/-- postprocessors.h:494-520: a rank without pieces writes the small cube around the origin with numbers -1. -/
def orDummy (cube : Q) (r : Nat) (es : List (Elem Q)) : List (Elem Q) := if es.isEmpty then [⟨cube, -1, -1, r⟩] else es

/-- postprocessors.h:451-535: the file; `dofs` is whether there are any degrees of freedom, ranks are numbered from `r`. -/
def writeFrom (dofs : Bool) (tracker : Option (State P K)) (index : Cell → Nat) (mc : Nat → Cell → List Q) (cube : Q) (nBlocks : Nat) :
    Nat → List (List Cell) → Res (List (Elem Q))
  | _, [] => .ok []
  | r, owned :: rest =>
    (if dofs then rankElems tracker index mc r owned (List.range nBlocks) [] else .ok []).bind fun es =>
      (writeFrom dofs tracker index mc cube nBlocks (r + 1) rest).bind fun f => .ok (orDummy cube r es ++ f)

/-- A mesh with the values of the order parameters, as far as the surface is concerned. -/
structure Mesh (Cell Q : Type) where
  dofs : Bool
  ranks : List (List Cell)
  index : Cell → Nat
  mc : Nat → Cell → List Q

/-- postprocessors.h:652-687: the mesh the surface is taken from. -/
def usedMesh (steps : Nat) (filter : Option (Mesh Cell Q → Mesh Cell Q)) (mesh coarse : Mesh Cell Q) : Mesh Cell Q :=
  match filter with
  | some f => f (if steps ≠ 0 then coarse else mesh)
  | none => if steps ≠ 0 then coarse else mesh

/-- `output_grain_contours_vtu` (postprocessors.h:634-711): which mesh is used, whether the tracker is asked, and whether the
vector has its ghost values afterwards.  `coarse` is the mesh after coarsening, `filter` what the box does to a mesh. -/
def writeContours (steps : Nat) (filter : Option (Mesh Cell Q → Mesh Cell Q)) (mesh coarse : Mesh Cell Q) (cube : Q) (nBlocks : Nat)
    (st : State P K) (ghosted : Bool) : Res (List (Elem Q)) × Bool :=
  let used := usedMesh steps filter mesh coarse
  let tracker := if steps = 0 then some st else none
  match writeFrom used.dofs tracker used.index used.mc cube nBlocks 0 used.ranks with
  | .ok f => (.ok f, ghosted)
  | .exc e => (.exc e, true)
  | .ub => (.ub, true)

/-- postprocessors.h:817-851: the file with the surface of the concentration, pieces and ranks. -/
def writeSurface (mc : Cell → List Q) (cube : Q) : Nat → List (List Cell) → List (Q × Nat)
  | _, [] => []
  | r, owned :: rest =>
    (if (owned.flatMap mc).isEmpty then [(cube, r)] else (owned.flatMap mc).map fun q => (q, r)) ++ writeSurface mc cube (r + 1) rest

/-- output.h:220-236: lists of positions and properties, the same on every rank. -/
def spheres (grains : OMap (Grain P K)) : List (P × Nat × K × Nat) :=
  grains.flatMap fun e => e.2.segments.map fun s => (s.center, e.1, s.radius, e.2.op)

/-- output.h:238-251: every rank hands over its list; the file has what was handed over. -/
def writeSpheres (nRanks : Nat) (grains : OMap (Grain P K)) : List (P × Nat × K × Nat) :=
  (List.range nRanks).flatMap fun _ => spheres grains

end Verif.Surfaces
