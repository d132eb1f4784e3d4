import Verif.Model.Track
import Verif.Model.Components
/-!
# Numbering of grains at detection

Models the second half of `Tracker::detect_grains` (tracker.h:1256-1546) and `PeriodicityGraph`
(periodicity_graph.h). The geometric data of the particles (centres, radii, measures, maxima,
representations; tracker.h:1263-1481) are an input, one `Segment` per particle.
-/
namespace Verif
variable {P K : Type}

/-- `numbers::invalid_unsigned_int` -/
def invalidUInt : Nat := 4294967295

/-- `PeriodicityGraph` (periodicity_graph.h:106-117): `verts` lists the particle ids in the order their
vertices were created, so the position is the vertex number; `edges` are pairs of vertex numbers. -/
structure PGraph where
  verts : List Nat
  edges : List (Nat × Nat)
  deriving DecidableEq, Repr

/-- `vertex` (periodicity_graph.h:86-104) -/
def PGraph.vertex (g : PGraph) (p : Nat) : PGraph × Nat :=
  if p ∈ g.verts then (g, g.verts.idxOf p) else ({ g with verts := g.verts ++ [p] }, g.verts.length)

/-- `add_connection` (periodicity_graph.h:41-50) -/
def PGraph.addConnection (g : PGraph) (c : Nat × Nat) : PGraph :=
  let (g, a) := g.vertex c.1
  let (g, b) := g.vertex c.2
  { g with edges := g.edges ++ [(a, b)] }

/-- `build_groups` (periodicity_graph.h:60-80) on a vector of `n` invalid entries. Writing a particle
id `≥ n` is out of bounds. -/
def PGraph.buildGroups (cc : CCFun) (g : PGraph) (n : Nat) : Res (List (Option Nat) × Nat) :=
  if g.verts = [] then .ok (List.replicate n none, 0)
  else do
    let r := cc g.verts.length g.edges
    let groups ← g.verts.zipIdx.foldlM (fun (acc : List (Option Nat)) (p : Nat × Nat) => do
      let l ← Res.index r.1 p.2
      if p.1 < acc.length then Res.ok (acc.set p.1 (some l)) else Res.ub)
      (List.replicate n none)
    pure (groups, r.2)

/-- particles of one order parameter: their data and the periodic contacts gathered from all ranks
(tracker.h:1287-1351) -/
structure OpParticles (P K : Type) where
  parts : List (Segment P K)
  conns : List (Nat × Nat)

section
variable [Field K] [LinearOrder K]

/-- lambda `append_segment` (tracker.h:1464-1518) -/
def appendSegment (G : Geometry P K) (assign : Bool) (op : Nat) (parts : List (Segment P K))
    (s : OMap (Grain P K) × List (Option Nat × Nat)) (p : Nat × Nat) :
    Res (OMap (Grain P K) × List (Option Nat × Nat)) := do
  let index := p.1
  let gid := p.2
  let grains := s.1.emplace gid (Grain.mk2 G (if assign then gid else invalidUInt) op)
  let seg ← Res.index parts index
  let g ← Res.at? (grains.get? gid)
  let grains := grains.set gid (g.addSegment seg)
  let g' ← Res.at? (grains.get? gid)
  if index < s.2.length then
    pure (grains, s.2.set index (some gid, g'.segments.length - 1))
  else Res.ub

/-- (grain id, particle) assignments of one order parameter in program order: grouped particles first,
then the free ones (tracker.h:1520-1543). -/
def numberParticles (groups : List (Option Nat)) (k base : Nat) : List (Nat × Nat) :=
  let grouped := groups.zipIdx.filterMap (fun p => p.1.map (fun c => (p.2, c + base)))
  let free := (groups.zipIdx.filter (fun p => p.1.isNone)).map (·.2)
  grouped ++ free.zipIdx.map (fun p => (p.1, base + k + p.2))

/-- one order parameter of the detection loop (tracker.h:1256-1535); state: grains, lookup rows so far,
`grains_numerator` -/
def detectOp (G : Geometry P K) (cc : CCFun) (assign : Bool)
    (s : OMap (Grain P K) × Lookup × Nat) (x : OpParticles P K) :
    Res (OMap (Grain P K) × Lookup × Nat) := do
  let op := s.2.1.length
  let n := x.parts.length
  let pg := x.conns.foldl PGraph.addConnection ⟨[], []⟩
  let (groups, k) ← pg.buildGroups cc n
  let (grains, row) ← (numberParticles groups k s.2.2).foldlM (appendSegment G assign op x.parts)
    (s.1, List.replicate n (some 0, 0))
  pure (grains, s.2.1 ++ [row], s.2.2 + k + (groups.filter (·.isNone)).length)

/-- `detect_grains` (tracker.h:1177-1546), numbering part -/
def detectGrains (G : Geometry P K) (cc : CCFun) (assign : Bool) (ops : List (OpParticles P K)) :
    Res (Detection P K) := do
  let (grains, lookup, num) ← ops.foldlM (detectOp G cc assign) ([], [], 0)
  let _ ← Res.assertThrow (num == grains.length)
  pure { grains := grains, lookup := lookup }

end
end Verif
