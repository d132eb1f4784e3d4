import Verif.Model.Res
import Verif.Model.OMap
import Verif.Model.Grain
/-!
# Transfer of grain identifiers between two tracking calls

Models `include/pf-applications/grain_tracker/tracking.h`.
-/
namespace Verif
variable {P K : Type}

/-- `extract_grain_indices_per_op` (tracking.h:35-46): `grains_per_op[op].push_back(id)` on a vector
of length `n_order_params` without bounds check. -/
def extractPerOp (grains : OMap (Grain P K)) (n : Nat) : Res (List (List Nat)) :=
  grains.foldlM (fun acc (p : Nat × Grain P K) =>
    if p.2.op < acc.length then Res.ok (acc.modify p.2.op (· ++ [p.1])) else Res.ub)
    (List.replicate n [])

/-- Flattened segments of the old grains of one order parameter together with the grain id
(tracking.h:97-107: `old_segments_to_grains` and `boxes`). -/
def flattenOld (old : OMap (Grain P K)) (ids : List Nat) : Res (List (Nat × Segment P K)) :=
  ids.foldlM (fun acc id => do
    let g ← Res.at? (old.get? id)
    pure (acc ++ g.segments.map (fun s => (id, s)))) []

/-- `work_id` loop (tracking.h:145-151): start index of the block of equal grain ids ending at `i`. -/
def blockStart (ids : List Nat) : Nat → Nat
  | 0 => 0
  | i + 1 => if ids[i]? = ids[i + 1]? then blockStart ids i else i + 1

/-- State of the search for the best old grain: `old_grain_id` (`none` is
`numbers::invalid_unsigned_int`) and `min_dist` (`none` is `DBL_MAX`; a distance is always smaller). -/
abbrev Best (K : Type) := Option Nat × Option K

/-- Loop body for one hit `id` of the box query (tracking.h:139-166). -/
def hitStep [LinearOrder K] (dist : P → P → K) (old : OMap (Grain P K))
    (flat : List (Nat × Segment P K)) (newSeg : Segment P K) (best : Best K) (id : Nat) :
    Res (Best K) := do
  let cand ← Res.index (flat.map (·.1)) id
  let segmentId := id - blockStart (flat.map (·.1)) id
  let g ← Res.at? (old.get? cand)
  let s ← Res.index g.segments segmentId
  let d := dist s.center newSeg.center
  match best.2 with
  | some m => if d < m then pure (some cand, some d) else pure best
  | none => pure (some cand, some d)

/-- Processing of one segment of a new grain (tracking.h:116-173). `query boxes box` is the R-tree
query `bgi::intersects(box)`: indices of intersecting boxes in unspecified order. -/
def segmentStep [LinearOrder K] (dist : P → P → K) (query : List (P × K) → P × K → List Nat)
    (old : OMap (Grain P K)) (flat : List (Nat × Segment P K)) (best : Best K)
    (newSeg : Segment P K) : Res (Best K) :=
  let result := query (flat.map (fun p => (p.2.center, p.2.radius))) (newSeg.center, newSeg.radius)
  match result with
  | [] => pure best
  | r :: rs =>
    if rs ≠ [] ∨ best.1.isSome then
      (r :: rs).foldlM (hitStep dist old flat newSeg) best
    else do
      let o ← Res.index (flat.map (·.1)) r
      pure (some o, best.2)

/-- The two mappings `new_grains_to_old` (value `none` is the invalid id) and `old_grains_to_new`. -/
structure Mappings where
  newToOld : OMap (Option Nat)
  oldToNew : OMap Nat
  deriving DecidableEq, Repr

/-- `override_mapping` (tracking.h:72-85) -/
def overrideMapping [LinearOrder K] (G : Geometry P K) (new old : OMap (Grain P K))
    (oldId cand existing : Nat) : Res Bool := do
  let o ← Res.at? (old.get? oldId)
  let c ← Res.at? (new.get? cand)
  let e ← Res.at? (new.get? existing)
  pure (decide (Grain.distanceCenters G o c < Grain.distanceCenters G o e))

/-- `m.at(k) = v` -/
def assignAt {α : Type} (m : OMap α) (k : Nat) (v : α) : Res (OMap α) :=
  match m.get? k with
  | some _ => Res.ok (m.set k v)
  | none => Res.exc .outOfRange

/-- Loop body over the new grains of one order parameter (tracking.h:111-239; logging omitted). -/
def grainStep [LinearOrder K] (G : Geometry P K) (query : List (P × K) → P × K → List Nat)
    (new old : OMap (Grain P K)) (flat : List (Nat × Segment P K)) (m : Mappings)
    (grainId : Nat) : Res Mappings := do
  let g ← Res.at? (new.get? grainId)
  let best ← g.segments.foldlM (segmentStep G.dist query old flat) (none, none)
  match best.1 with
  | none => pure m
  | some oldId =>
    match m.oldToNew.get? oldId with
    | none => do
      let n2o ← assignAt m.newToOld grainId (some oldId)
      pure ⟨n2o, m.oldToNew.emplace oldId grainId⟩
    | some existing => do
      let ov ← overrideMapping G new old oldId grainId existing
      if ov then do
        let n2o ← assignAt m.newToOld existing none
        let n2o ← assignAt n2o grainId (some oldId)
        let o2n ← assignAt m.oldToNew oldId grainId
        pure ⟨n2o, o2n⟩
      else pure m

/-- Loop body over order parameters (tracking.h:87-240). -/
def opStep [LinearOrder K] (G : Geometry P K) (query : List (P × K) → P × K → List Nat)
    (new old : OMap (Grain P K)) (newPerOp oldPerOp : List (List Nat)) (m : Mappings) (op : Nat) :
    Res Mappings := do
  let newIds ← Res.index newPerOp op
  let oldIds ← Res.index oldPerOp op
  let m := { m with newToOld := newIds.foldl (fun acc id => acc.emplace id none) m.newToOld }
  let flat ← flattenOld old oldIds
  newIds.foldlM (grainStep G query new old flat) m

/-- `transfer_grain_ids` (tracking.h:49-243). -/
def transferGrainIds [LinearOrder K] (G : Geometry P K) (query : List (P × K) → P × K → List Nat)
    (new old : OMap (Grain P K)) (n : Nat) : Res (OMap (Option Nat)) := do
  let oldPerOp ← extractPerOp old n
  let newPerOp ← extractPerOp new n
  let m ← (List.range n).foldlM (opStep G query new old newPerOp oldPerOp) ⟨[], []⟩
  pure m.newToOld

/-- `extract_active_order_parameter_ids` (tracking.h:245-260): the `std::set` of order parameters in
use, as an ascending list without duplicates. -/
def insertSet : List Nat → Nat → List Nat
  | [], k => [k]
  | k' :: l, k => if k < k' then k :: k' :: l else if k = k' then k' :: l else k' :: insertSet l k

def activeOps (grains : OMap (Grain P K)) : List Nat :=
  grains.foldl (fun acc p => insertSet acc p.2.op) []

end Verif
