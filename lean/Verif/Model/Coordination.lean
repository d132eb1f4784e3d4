/-
Average coordination number (sintering/postprocessors.h:1950-2064).

Simplifications: `particle op cell` is `get_particle_index` and `grainOf op particle` the first component of
`get_grain_and_segment`, `none` is `invalid_unsigned_int`.  `std::set<unsigned int>` is an ordered map with unit values.
Segments are pairs of centre and radius.  A rank is the list of its owned cells.
-/
import Verif.Model.OMap
import Verif.Model.BoxFilter

namespace Verif.Coordination
open Verif.BoxFilter

/-- `std::map<unsigned int, std::set<unsigned int>>` -/
abbrev Neighbors := OMap (OMap Unit)

/-- postprocessors.h:1971-1988: grains whose particles cover the cell. -/
def grainsAt (particle : Nat → Nat → Option Nat) (grainOf : Nat → Nat → Option Nat) (nOp cell : Nat) : List Nat :=
  (List.range nOp).filterMap fun op => (particle op cell).bind (grainOf op)

/-- postprocessors.h:1993-2015: all segments of the grain have both corners of their cube in the box. -/
def grainInside {K : Type} [Field K] [LinearOrder K] {d : Nat} (eps : K) (b : Option (Box K d))
    (grains : OMap (List ((Fin d → K) × K))) (g : Nat) : Res Bool :=
  match b with
  | none => .ok true
  | some b =>
    match grains.get? g with
    | none => .exc .outOfRange
    | some segs => .ok (segs.all fun s =>
        !(position eps b (fun i => s.1 i - s.2) == .outside || position eps b (fun i => s.1 i + s.2) == .outside))

/-- `neighbors[g].insert(h)` -/
def insertPair (nb : Neighbors) (g h : Nat) : Neighbors :=
  nb.set g (((nb.get? g).getD []).emplace h ())

/-- postprocessors.h:1990-2022: contribution of the grains of one cell. -/
def cellPairs (inside : Nat → Res Bool) (gs : List Nat) (nb : Neighbors) : Res Neighbors :=
  (List.range gs.length).foldlM (fun nb i => do
    let g := gs.getD i 0
    let ins ← inside g
    if ins then
      pure ((List.range gs.length).foldl (fun nb j => if i ≠ j then insertPair nb g (gs.getD j 0) else nb) nb)
    else pure nb) nb

/-- postprocessors.h:1963-2023: loop over the owned cells. -/
def localNeighbors (inside : Nat → Res Bool) (cells : List (List Nat)) : Res Neighbors :=
  cells.foldlM (fun nb gs => cellPairs inside gs nb) []

/-- postprocessors.h:2027-2035 -/
def flatten (nb : Neighbors) : List Nat :=
  nb.flatMap fun p => p.1 :: p.2.length :: p.2.keys

/-- postprocessors.h:2041-2055: unpacking of the data of one rank; reading past the end is undefined. -/
def absorb (nb : Neighbors) : List Nat → Res Neighbors
  | [] => .ok nb
  | [_] => .ub
  | g :: n :: rest =>
    if rest.length < n then .ub
    else
      let nb := nb.emplace g []
      let s := (rest.take n).foldl (fun s h => OMap.emplace s h ()) ((nb.get? g).getD [])
      absorb (nb.set g s) (rest.drop n)
  termination_by l => l.length
  decreasing_by simp; omega

/-- postprocessors.h:2057-2066 -/
def average {K : Type} [Field K] (nb : Neighbors) : K :=
  if nb.length ≠ 0 then (nb.foldl (fun (a : K) p => a + (p.2.length : K)) 0) / (nb.length : K) else 0

/-- Whole function on rank `r`; `ranks` are the grains of the owned cells of all ranks. -/
def averageCoordination {K : Type} [Field K] (inside : Nat → Res Bool) (ranks : List (List (List Nat))) (r : Nat) : Res K := do
  let nbs ← ranks.mapM (localNeighbors inside)
  let all ← (nbs.map flatten).foldlM absorb (nbs.getD r [])
  pure (average all)

end Verif.Coordination
