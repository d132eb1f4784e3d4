/-
Initial values from polygons.

/repo/applications/sintering/include/pf-applications/sintering/{initial_values_microstructure.h,
initial_values_microstructure_imaging.h}
-/
import Verif.Model.InitialValues
import Verif.Model.Csv

namespace Verif.Micro

open Verif.Initial

section
variable {K : Type} [Field K] [LinearOrder K]

/-- initial_values_microstructure.h:45-141; the box as lower and upper corner. -/
structure MicroSegment (K : Type) where
  vertices : List (K × K)
  lo : K × K
  hi : K × K
  deriving DecidableEq, Repr

/-- `BoundingBox(points)` of deal.II: componentwise smallest and largest coordinates. -/
def boxOf (first : K × K) (rest : List (K × K)) : (K × K) × (K × K) :=
  rest.foldl (fun b v => ((min b.1.1 v.1, min b.1.2 v.2), (max b.2.1 v.1, max b.2.2 v.2))) (first, first)

/-- initial_values_microstructure.h:48-63: the first vertex is repeated at the end, the box is extended by the part of the
interface outside of the contour. -/
def mkSegment (w : K) (d : Direction) (contour : List (K × K)) : Res (MicroSegment K) :=
  match contour with
  | [] => .ub
  | v :: vs =>
    let vertices := v :: vs ++ [v]
    let b := boxOf v (vs ++ [v])
    let ext := if d = .outside then w else if d = .middle then w / 2 else 0
    .ok ⟨vertices, (b.1.1 - ext, b.1.2 - ext), (b.2.1 + ext, b.2.2 + ext)⟩

/-- Condition of the loop 72-82 for one edge. -/
def crosses (p vi vj : K × K) : Bool :=
  decide ((decide (p.2 < vi.2)) ≠ (decide (p.2 < vj.2))) &&
    decide (p.1 < (vj.1 - vi.1) * (p.2 - vi.2) / (vj.2 - vi.2) + vi.1)

/-- The loop, `vj` is the previous vertex. -/
def insideLoop (p : K × K) : K × K → List (K × K) → Bool → Bool
  | _, [], b => b
  | vj, vi :: vs, b => insideLoop p vi vs (if crosses p vi vj then !b else b)

/-- initial_values_microstructure.h:67-85 `point_inside`; `vertices` is not empty. -/
def pointInside (s : MicroSegment K) (p : K × K) : Bool :=
  match s.vertices.getLast? with
  | none => false
  | some last => insideLoop p last s.vertices false

/-- initial_values_microstructure.h:87-91 (`BoundingBox::point_inside` of deal.II, tolerance neglected). -/
def pointInsideBox (s : MicroSegment K) (p : K × K) : Bool :=
  decide (s.lo.1 ≤ p.1 ∧ p.1 ≤ s.hi.1 ∧ s.lo.2 ≤ p.2 ∧ p.2 ≤ s.hi.2)

def distSq (a b : K × K) : K := (a.1 - b.1) * (a.1 - b.1) + (a.2 - b.2) * (a.2 - b.2)

/-- Lines 103-121: squared distance of the point to one edge; `none` is NaN (edge of length zero). -/
def edgeDistSq (p p1 p2 : K × K) : Option K :=
  let l2 := distSq p1 p2
  if l2 = 0 then none
  else
    let r := ((p2.1 - p1.1) * (p.1 - p1.1) + (p2.2 - p1.2) * (p.2 - p1.2)) / l2
    some (if r < 0 then distSq p p1 else if 1 < r then distSq p2 p else distSq p p1 - r * r * l2)

/-- `std::min(dist, dist_min)`: `dist_min < dist ? dist_min : dist`, where comparisons with NaN are false. -/
def minNan : Option K → Option K → Option K
  | some dist, some best => if best < dist then some best else some dist
  | dist, _ => dist

/-- initial_values_microstructure.h:96-127 `distance`, squared (the square root is monotone); the numeric limit as start
value is `big`. -/
def distanceLoop (p : K × K) : List (K × K) → Option K → Option K
  | p1 :: p2 :: vs, best => distanceLoop p (p2 :: vs) (minNan (edgeDistSq p p1 p2) best)
  | _, best => best

def distance (big : K) (s : MicroSegment K) (p : K × K) : Option K := distanceLoop p s.vertices (some big)

/-- initial_values_microstructure.h:250-261 -/
def refH (d : Direction) (w : K) : K := if d = .middle then w / 2 else w
def refK (d : Direction) : K := if d = .middle then 1 / 2 else 1
def refB (d : Direction) : K := if d = .middle then 1 / 2 else if d = .outside then 1 else 0

/-- Lines 288-302, inside of a grain; `dist` is the distance to the nearest edge, NaN is `none`. -/
def insideValue (d : Direction) (w : K) (dist : Option K) : K :=
  if d = .outside ∨ w = 0 then 1
  else match dist with
    | none => 1
    | some x => if x < refH d w then refB d + refK d * x / refH d w else 1

/-- Lines 304-313, outside of a grain. -/
def outsideValue (d : Direction) (w : K) (dist : Option K) : K :=
  if 0 < w ∧ d ≠ .inside then
    match dist with
    | none => 0
    | some x => if x < refH d w then refB d - refK d * x / refH d w else 0
  else 0

/-- A grain at a point: whether the point is in one of the boxes, inside, and its distance
(initial_values_microstructure.h:157-195). -/
structure At (K : Type) where
  inBox : Bool
  inside : Bool
  dist : Option K
  deriving DecidableEq, Repr

/-- Loop of lines 285-314 over the candidates. -/
def opLoop (d : Direction) (w : K) : List (At K) → K → K
  | [], v => v
  | g :: gs, v =>
    if g.inside then insideValue d w g.dist
    else opLoop d w gs (if 0 < w ∧ d ≠ .inside then
      (if v < outsideValue d w g.dist then outsideValue d w g.dist else v) else v)

/-- initial_values_microstructure.h:264-317 `op_value`, given the grains of the order parameter. -/
def opValue (d : Direction) (w : K) (gs : List (At K)) : K := opLoop d w (gs.filter (·.inBox)) 0
end

end Verif.Micro
