import Mathlib.Order.Defs.LinearOrder
import Mathlib.Algebra.Field.Defs
/-!
# Grains and segments

Models `include/pf-applications/grain_tracker/segment.h` and `grain.h`.
`P` is the type of points, `K` the (idealised) type of floating point numbers.
-/
namespace Verif

/-- `GrainTracker::Segment` (segment.h:36-140). `repr` stands for the polymorphic
`representation`; `trivial` is `Segment::trivial()` (segment.h:90-94). -/
structure Segment (P K : Type) where
  center : P
  radius : K
  measure : K
  maxValue : K
  trivial : Bool := true
  deriving DecidableEq, Repr

/-- `Grain::Dynamics` (grain.h:41-46) -/
inductive Dynamics
  | shrinking | none | growing
  deriving DecidableEq, Repr

/-- `GrainTracker::Grain` (grain.h:37-369), data members 352-368. -/
structure Grain (P K : Type) where
  grainId : Nat
  op : Nat
  oldOp : Nat
  segments : List (Segment P K)
  maxRadius : K
  nearest : K
  dynamics : Dynamics := .none
  maxValue : K
  measure : K
  deriving DecidableEq, Repr

/-- The geometric primitives the grain tracker uses. `dist` is `Point::distance`,
`segDist` is `Segment::distance` (segment.h:96-105), `dmax`/`dlowest` are
`std::numeric_limits<double>::max()`/`lowest()`. -/
structure Geometry (P K : Type) where
  dist : P → P → K
  segDist : Segment P K → Segment P K → K
  dmax : K
  dlowest : K

namespace Grain
variable {P K : Type}

/-- `Grain(grain_id, order_parameter_id, old_order_parameter_id)` with the default member
initialisers (grain.h:56-62, 360-368). -/
def mk3 [Zero K] (G : Geometry P K) (id op oldOp : Nat) : Grain P K :=
  { grainId := id, op := op, oldOp := oldOp, segments := [], maxRadius := 0, nearest := G.dmax,
    maxValue := G.dlowest, measure := 0 }

/-- `Grain(grain_id, order_parameter_id)` (grain.h:50-54) -/
def mk2 [Zero K] (G : Geometry P K) (id op : Nat) : Grain P K := mk3 G id op op

section order
variable [LinearOrder K]

/-- double loop `min_distance = std::min(current, min_distance)` starting from `DBL_MAX`
(grain.h:70-80, 89-100, 109-124). -/
def minOverPairs (f : Segment P K → Segment P K → K) (init : K)
    (l₁ l₂ : List (Segment P K)) : K :=
  l₁.foldl (fun acc a => l₂.foldl (fun acc b => min (f a b) acc) acc) init

/-- `Grain::distance` (grain.h:67-81) -/
def distance (G : Geometry P K) (a b : Grain P K) : K :=
  minOverPairs G.segDist G.dmax a.segments b.segments

/-- `Grain::distance_centers` (grain.h:86-101) -/
def distanceCenters (G : Geometry P K) (a b : Grain P K) : K :=
  minOverPairs (fun s t => G.dist s.center t.center) G.dmax a.segments b.segments

end order

section field
variable [Field K] [LinearOrder K]

/-- `distance_between_spheres` (representation.h:31-44) -/
def sphereDist (G : Geometry P K) (s t : Segment P K) : K :=
  G.dist s.center t.center - (s.radius + t.radius)

/-- `Grain::distance_lower_bound` (grain.h:106-125) -/
def distanceLowerBound (G : Geometry P K) (a b : Grain P K) : K :=
  minOverPairs (sphereDist G) G.dmax a.segments b.segments

/-- `Grain::add_segment` (grain.h:206-234; both overloads update the aggregates the same way) -/
def addSegment (g : Grain P K) (s : Segment P K) : Grain P K :=
  { g with
    segments := g.segments ++ [s]
    maxRadius := max g.maxRadius s.radius
    maxValue := max g.maxValue s.maxValue
    measure := g.measure + s.measure }

/-- `has_non_trivial_segments` (grain.h:287-293) -/
def hasNonTrivial (l : List (Segment P K)) : Bool := l.any (fun s => !s.trivial)

/-- `Grain::overlaps` (grain.h:258-308) -/
def overlaps (G : Geometry P K) (ratio fixed : K) (a b : Grain P K) : Bool :=
  let bufBase := ratio * a.maxRadius
  let bufOther := ratio * b.maxRadius
  if distanceLowerBound G a b > bufBase + bufOther + fixed then false
  else if hasNonTrivial a.segments || hasNonTrivial b.segments then
    decide (distance G a b < bufBase + bufOther + fixed)
  else true

/-- `Grain::transfer_buffer` (grain.h:313-317) -/
def transferBuffer (g : Grain P K) : K := max 0 (g.nearest / 2)

/-- the update of `Grain::add_neighbor` (grain.h:251-252), after its two `AssertThrow`s -/
def addNeighborCore (G : Geometry P K) (g n : Grain P K) : Grain P K :=
  { g with nearest := min g.nearest (distanceLowerBound G g n) }

end field
end Grain
end Verif
