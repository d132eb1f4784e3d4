/-
Constraints for displacements: clamped sections, particles and domain boundaries, choice of the origin.

/repo/applications/sintering/include/pf-applications/sintering/boundary_conditions.h
/repo/applications/sintering/include/pf-applications/sintering/driver.h:1735-1830

Not modelled: the search for cells around a point (deal.II), numbering of unknowns local to a rank (global numbers are used instead),
order of the indices within one direction.
-/
import Verif.Model.Res
import Mathlib.Algebra.Order.Group.Abs
import Mathlib.Algebra.Order.Ring.Defs
import Mathlib.Algebra.BigOperators.Fin

namespace Verif.Clamp

variable {K : Type} {dim : Nat}

/-- Face of a cell: centre, unknowns, and boundary id if at the boundary of the domain. -/
structure Face (K : Type) (dim : Nat) where
  center : Fin dim → K
  dofs : List Nat
  boundary : Option Nat

/-- Locally owned cell: faces, and particle index for each order parameter. -/
structure Cell (K : Type) (dim : Nat) where
  faces : List (Face K dim)
  particle : Nat → Option Nat

/-- driver.h:1751-1754: the mask of directions; entries that are not set are indeterminate (`none`). -/
def requestedMask (dim : Nat) (requested : List Nat) : Fin dim → Option Bool :=
  fun d => if d.1 ∈ requested then some true else none

/-- boundary_conditions.h:149-152, 244-247: directions of the mask. -/
def directions (mask : Fin dim → Bool) : List (Fin dim) := (List.finRange dim).filter fun d => mask d

section
variable [Ring K] [LinearOrder K]

/-- boundary_conditions.h:176: the face lies in the section, by its centre. -/
def inSection (tol : K) (origin : Fin dim → K) (d : Fin dim) (f : Face K dim) : Bool :=
  |f.center d - origin d| < tol

/-- boundary_conditions.h:164-184: unknowns of the faces in the section, without repetition (`std::set`). -/
def sectionDofs (tol : K) (cells : List (Cell K dim)) (origin : Fin dim → K) (mask : Fin dim → Bool) (d : Fin dim) : List Nat :=
  if mask d then ((cells.flatMap (·.faces)).filter (inSection tol origin d)).flatMap (·.dofs) |>.dedup else []

/-- boundary_conditions.h:196-211 (`limit` is `dim - 1`) and 363-375 (`limit` is `dim`): constraints at the origin, on the rank that has
it. -/
def pointwise (limit : Nat) (mask : Fin dim → Bool) (here : Bool) (point : Nat) (d : Fin dim) : List Nat :=
  if (here && decide ((directions mask).length < limit)) && !mask d then [point] else []

/-- boundary_conditions.h:141-212 `clamp_section` on one rank; `here`: the rank has the vertex `point` nearest to the origin. -/
def clampSection (tol : K) (cells : List (Cell K dim)) (origin : Fin dim → K) (mask : Fin dim → Bool) (here : Bool)
    (point : Nat) (d : Fin dim) : List Nat :=
  sectionDofs tol cells origin mask d ++ pointwise (dim - 1) mask here point d

/-- boundary_conditions.h:308-350: unknowns of the faces in the section that belong to cells of the particle and have a value of the
order parameter above the threshold. -/
def particleDofs (tol threshold : K) (cells : List (Cell K dim)) (value : Nat → K) (op particle : Nat) (origin : Fin dim → K)
    (mask : Fin dim → Bool) (d : Fin dim) : List Nat :=
  if mask d then
    ((((cells.filter fun c => c.particle op == some particle).flatMap (·.faces)).filter (inSection tol origin d)).flatMap
      (·.dofs)).filter (fun i => threshold < value i) |>.dedup
  else []

/-- boundary_conditions.h:231-379 `clamp_section_within_particle` on one rank. -/
def clampParticle (tol threshold : K) (cells : List (Cell K dim)) (value : Nat → K) (op particle : Nat) (origin : Fin dim → K)
    (mask : Fin dim → Bool) (here : Bool) (point : Nat) (d : Fin dim) : List Nat :=
  particleDofs tol threshold cells value op particle origin mask d ++ pointwise dim mask here point d

end

/-- boundary_conditions.h:441-472 `clamp_domain` on one rank. -/
def clampDomain (cells : List (Cell K dim)) (d : Fin dim) : List Nat :=
  ((cells.flatMap (·.faces)).filter fun f => f.boundary == some (2 * d.1)).flatMap (·.dofs)

/-- boundary_conditions.h:58-104: the rank that treats the origin: for each rank whether the cell found is owned (`none`: no cell found)
and whether any of all cells around the point is owned. -/
def ownerRank (ranks : List (Option Bool × Bool)) : Res Nat :=
  let first := ranks.findIdx fun r => r.1 == some true
  if first < ranks.length then .ok first
  else
    let second := ranks.findIdx fun r => r.1.isSome && r.2
    if second < ranks.length then .ok second else .exc .assertThrow

section
variable [LinearOrder K]

/-- One step of the loops for the smallest distance, boundary_conditions.h:115-129; `none` is the largest number. -/
def nearestStep {α : Type} (best : Option (K × α)) (x : K × α) : Option (K × α) :=
  match best with
  | none => some x
  | some b => if x.1 < b.1 then some x else some b

/-- boundary_conditions.h:113-130: the vertex nearest to the origin, the first one of several; distances are below the largest number. -/
def nearest {α : Type} (xs : List (K × α)) : Option (K × α) := xs.foldl nearestStep none

/-- boundary_conditions.h:272-300: order parameter and particle with the largest measure at the cell of the origin; for each order
parameter the particle index and the measure of its grain if there is one. -/
def primary [Zero K] (ops : List (Option (Nat × K))) : Res (Nat × Nat) :=
  let r := ops.zipIdx.foldl
    (fun (best : Option (Nat × Nat) × K) (x : Option (Nat × K) × Nat) =>
      match x.1 with
      | none => best
      | some (p, m) => if best.2 < m then (some (x.2, p), m) else best) (none, 0)
  match r.1 with
  | none => .exc .assertThrow
  | some q => .ok q

/-- A segment in the order of the loops over grains and segments: distance to the centre, dynamics of the grain (-1, 0, 1). -/
structure Candidate (K : Type) where
  dist : K
  dynamics : Int

/-- boundary_conditions.h:421-437: one step of `find_center_origin`: current segment (`none`: distance is the largest number). -/
def originStep (preferGrowing : Bool) (best : Option (Candidate K)) (x : Candidate K) : Option (Candidate K) :=
  match best with
  | none => some x
  | some b =>
    if !preferGrowing && decide (x.dist < b.dist) || preferGrowing && (decide (x.dist < b.dist) && decide (b.dynamics ≤ x.dynamics))
    then some x else some b

/-- boundary_conditions.h:397-440 `find_center_origin`: the segment whose centre is returned (`none`: the origin of coordinates). -/
def findOrigin (preferGrowing : Bool) (xs : List (Candidate K)) : Option (Candidate K) :=
  xs.foldl (originStep preferGrowing) none

end

end Verif.Clamp
