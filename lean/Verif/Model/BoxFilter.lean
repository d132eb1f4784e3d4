/-
Bounding box filter, intersections with planes, clipping and sections, control boxes
(include/pf-applications/grid/bounding_box_filter.h, include/pf-applications/grid/grid_tools.h:159-345,
sintering/projection.h:100-235, sintering/driver.h:2876-2973).

Simplifications: floating point numbers are the elements of an ordered field, `eps` stands for the machine epsilon of
the number type.  `BoundingBox::point_inside` is deal.II's: closed box enlarged by `eps` times the side lengths.  Points
of dimension `d` are functions on `Fin d`.
-/
import Verif.Model.Res
import Mathlib.Algebra.Order.Field.Basic
import Mathlib.Data.List.FinRange
import Mathlib.Data.Matrix.Mul
import Mathlib.Algebra.Order.Group.Unbundled.Abs

namespace Verif.BoxFilter

variable {K : Type} [Field K] [LinearOrder K] {d : Nat}

/-- deal.II `BoundingBox`. -/
structure Box (K : Type) (d : Nat) where
  lower : Fin d → K
  upper : Fin d → K

/-- bounding_box_filter.h:30-35. -/
inductive Position
  | outside | boundary | inside
  deriving DecidableEq, Repr

/-- deal.II `BoundingBox::point_inside` with its default tolerance. -/
def pointInside (eps : K) (b : Box K d) (p : Fin d → K) : Bool :=
  (List.finRange d).all fun i =>
    let side := b.upper i - b.lower i
    !(decide (p i < b.lower i - eps * side) || decide (b.upper i + eps * side < p i))

/-- bounding_box_filter.h:64-87 (`position`). -/
def position (eps : K) (b : Box K d) (p : Fin d → K) : Position :=
  if pointInside eps b p then
    if (List.finRange d).any fun i => decide (|b.lower i - p i| < eps) || decide (|b.upper i - p i| < eps) then .boundary
    else .inside
  else .outside

/-- bounding_box_filter.h:119-150 (`filter`) for one lane. -/
def filter (b : Box K d) (p : Fin d → K) : K :=
  (List.finRange d).foldl (fun v i =>
    let v := if b.lower i < p i then v else 0
    if p i < b.upper i then v else 0) 1

/-- bounding_box_filter.h:152-171 (`intersects`) for the vertices of a cell. -/
def intersects (eps : K) (b : Box K d) (vertices : List (Fin d → K)) : Bool :=
  let nInside := vertices.countP fun v => position eps b v == .inside
  let nOutside := vertices.countP fun v => position eps b v == .outside
  decide (nInside < vertices.length) && decide (nOutside < vertices.length)

/-- bounding_box_filter.h:181-211 (`intersect_line_plane`). -/
def intersectLinePlane (tol : K) (p0 p1 origin normal : Fin d → K) : Option (K × (Fin d → K)) :=
  let u := p0 - p1
  let dot := normal ⬝ᵥ u
  if tol < |dot| then
    let w := p0 - origin
    let fac := -(normal ⬝ᵥ w) / dot
    some (fac, p0 + fac • u)
  else none

/-- projection.h:212-217: value at the intersection. -/
def projectValue (fac val0 val1 : K) : K := val0 + fac * (val0 - val1)

/-- grid_tools.h:307-329: new value of the end point with the smaller value; `true` if it is the second one. -/
def clipValue (iso length fac val0 val1 : K) : Bool × K :=
  let (valMax, second, ratio) := if val1 < val0 then (val0, true, |fac|) else (val1, false, 1 - |fac|)
  let refVal := valMax - iso
  let isoPos := ratio * length
  let k := -refVal / isoPos
  (second, k * length + valMax)

/-- driver.h:2881-2911: box derived from the geometry. -/
def autoBox (relPadding rMax : K) (lower upper : Fin d → K) : Option (Box K d) :=
  let size := upper - lower
  let padding := relPadding • size
  let boxSize := fun i => (size - padding) i - 2 * rMax
  if (List.finRange d).any fun i => decide (boxSize i ≤ 0) then none
  else some ⟨fun i => lower i + (padding i + rMax), fun i => upper i - (padding i + rMax)⟩

/-- driver.h:2913-2943: boxes of the input file, degenerate ones are dropped. -/
def userBoxes (l : List (Box K d)) : List (Box K d) :=
  l.filter fun b => !(List.finRange d).any fun i => decide (b.upper i - b.lower i ≤ 0)

/-- driver.h:2945-2953: list of filters; `none` is the whole domain. -/
def boxFilters {B : Type} (boxes : List B) (only : Bool) : List (Option B) :=
  let l := boxes.map some
  if boxes.isEmpty || !only then none :: l else l

/-- driver.h:2975-2984 (`generate_name`); `str` is `std::to_string`. -/
def generateName (str : Nat → List Char) (hasBoxes only : Bool) (name : List Char) (index : Nat) : List Char :=
  if !hasBoxes then name
  else if only then name ++ '_' :: str index
  else if index = 0 then name
  else name ++ '_' :: str (index - 1)

end Verif.BoxFilter
