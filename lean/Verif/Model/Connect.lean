import Verif.Model.Flood
import Verif.Model.Stitch
/-!
# Parallel detection of particles

Models `build_local_connectivity`, `detect_local_particle_groups`, `switch_to_global_indices` and
`compute_particles_max_values` (include/pf-applications/grain_tracker/distributed_stitching.h:121-259,
439-525).

The result of the flooding on each rank is given as a list of `LocalParticles`, one per rank.
-/
namespace Verif
variable {K : Type}

/-- what the mesh tells about the partition -/
structure Partition where
  /-- owner of an active cell (`subdomain_id`) -/
  owner : Nat → Nat
  /-- (ghost cell, active cell on the other side of one of its faces or subfaces) in the order of
  the loops over ghost cells, faces and subfaces, as seen by rank `r` -/
  faces : Nat → List (Nat × Nat)

/-- numbers of local particles per rank (the `counter`s, distributed_stitching.h:485, 491) -/
def localCounts (L : List (LocalParticles K)) : List Nat := L.map fun lp => lp.maxs.length

/-- `particle_ids` after the shift by `offset` and the update of the ghost values
(distributed_stitching.h:497-505): the owner of a cell determines its value -/
def shiftedId (P : Partition) (L : List (LocalParticles K)) (c : Nat) : Option Nat :=
  match L[P.owner c]? with
  | some lp => (lp.ids c).map (offsetOf (localCounts L) (P.owner c) + ·)
  | none => none

/-- body of the loop over ghost cells and their faces (distributed_stitching.h:143-162), on rank `r` -/
def addContact (P : Partition) (pid : Nat → Option Nat) (offset r : Nat) (acc : List (List GId))
    (p : Nat × Nat) : Res (List (List GId)) :=
  match pid p.1 with
  | none => .ok acc
  | some g =>
    if P.owner p.2 ≠ r then .ok acc
    else match pid p.2 with
      | none => .ok acc
      | some l =>
        if offset ≤ l ∧ l - offset < acc.length then
          .ok (acc.modify (l - offset) fun t => uniqG (sortG (t ++ [(P.owner p.1, g)])))
        else .ub

/-- `build_local_connectivity` on rank `r` (distributed_stitching.h:121-181) -/
def buildConnectivity (P : Partition) (L : List (LocalParticles K)) (r : Nat) :
    Res (List (List GId)) :=
  (P.faces r).foldlM (addContact P (shiftedId P L) (offsetOf (localCounts L) r) r)
    (List.replicate ((localCounts L).getD r 0) [])

/-- steps 2-4 of `detect_local_particle_groups` (distributed_stitching.h:493-520) with the iterative
stitching. Result: for every local particle (numbered over all ranks) its global number. -/
def detectParallel (P : Partition) (L : List (LocalParticles K))
    (order : Nat → List (GId × List GId) → List (GId × List GId))
    (orderN : List (GId × Nat) → List (GId × Nat)) (fuel : Nat) : Option (Res (List (Option Nat))) :=
  match (List.range L.length).mapM (buildConnectivity P L) with
  | .ok conn => stitch (localCounts L) order orderN fuel conn.flatten
  | .exc e => some (.exc e)
  | .ub => some .ub

/-- the same with `stitching_via_graphs` (the default) -/
def detectParallelGraph (cc : CCFun) (P : Partition) (L : List (LocalParticles K)) :
    Res (List (List Nat)) :=
  (List.range L.length).mapM (buildConnectivity P L) >>= stitchGraph cc

/-- `switch_to_global_indices` (distributed_stitching.h:188-211): number of a cell's particle -/
def globalId (P : Partition) (L : List (LocalParticles K)) (labels : List Nat) (c : Nat) : Option Nat :=
  (shiftedId P L c).bind (labels[·]?)

/-- loop body of `compute_particles_max_values` (distributed_stitching.h:233-246); `l2g` are the global
numbers of the local particles of the rank, `ids` its local numbers (`particle_id - local_offset`) -/
def rankMaxStep (ids : Nat → Option Nat) (l2g : List Nat) (maxs : List K) (acc : List K) (c : Nat) :
    Res (List K) :=
  match ids c with
  | none => Res.ok acc
  | some i => do
    let u ← Res.index l2g i
    let m ← Res.index maxs i
    if u < acc.length then Res.ok (acc.set u m) else Res.ub

/-- loop over the locally owned cells in `compute_particles_max_values`
(distributed_stitching.h:230-247) on one rank -/
def rankMax (ids : Nat → Option Nat) (l2g : List Nat) (maxs : List K) (owned : List Nat)
    (init : List K) : Res (List K) :=
  owned.foldlM (rankMaxStep ids l2g maxs) init

/-- `MPI_Allreduce` with `MPI_MAX` (distributed_stitching.h:250-255): elementwise maximum over the
ranks, there is at least one rank -/
def allMax [LinearOrder K] : List (List K) → List K
  | [] => []
  | [v] => v
  | v :: vs => List.zipWith max v (allMax vs)

/-- `compute_particles_max_values` (distributed_stitching.h:213-259): the vectors start with zeros -/
def particleMax [LinearOrder K] [Zero K] (n : Nat)
    (ranks : List ((Nat → Option Nat) × List Nat × List K × List Nat)) : Res (List K) := do
  let vs ← ranks.mapM fun r => rankMax r.1 r.2.1 r.2.2.1 r.2.2.2 (List.replicate n 0)
  pure (allMax vs)

end Verif
