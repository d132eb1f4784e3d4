/-
Initial values of the debug mode: a table for the nodes of two squares (cubes) side by side.

Models `applications/sintering/include/pf-applications/sintering/initial_values_debug.h` and its use in `runner.h:329-340`.
Coordinates are elements of an ordered field; decimal numbers of the table are taken as they are written.
-/
import Verif.Model.Res
import Mathlib.Algebra.Order.Field.Basic
import Mathlib.Algebra.BigOperators.Fin
import Mathlib.Algebra.Order.Field.Rat

namespace Verif.DebugValues

open Finset

variable {K : Type} [Field K] [LinearOrder K] {d : Nat}

/-- initial_values_debug.h:37 -/
def tol : K := 1 / 10 ^ 9

/-- `p.distance(q) < tol`, with squares on both sides instead of the root. -/
def near (p : Fin d → K) (q : Fin d → Int) : Bool := decide (∑ i, (p i - (q i : K)) ^ 2 < tol ^ 2)

/-- The chain of branches (initial_values_debug.h:48-65, 84-101): the values of the first one with a point near `p`; the last one throws. -/
def lookup (p : Fin d → K) : List (List (Fin d → Int) × List Rat) → Res (List Rat)
  | [] => .exc .assertThrow
  | b :: bs => if b.1.any (near p) then .ok b.2 else lookup p bs

/-- initial_values_debug.h:41-60 -/
def table2 : List (List (Fin 2 → Int) × List Rat) :=
  [([![0, 0]], [1, 1/10, 1, 0]),
   ([![1, 0]], [8/10, 2/10, 4/10, 4/10]),
   ([![2, 0]], [1, 3/10, 0, 1]),
   ([![0, 1]], [1, 4/10, 1, 0]),
   ([![1, 1]], [8/10, 5/10, 4/10, 4/10]),
   ([![2, 1]], [1, 6/10, 0, 1])]

/-- initial_values_debug.h:69-96 -/
def table3 : List (List (Fin 3 → Int) × List Rat) :=
  [([![0, 0, 0], ![0, 0, 1]], [1, 1/10, 1, 0]),
   ([![1, 0, 0], ![1, 0, 1]], [8/10, 2/10, 4/10, 4/10]),
   ([![2, 0, 0], ![2, 0, 1]], [1, 3/10, 0, 1]),
   ([![0, 1, 0], ![0, 1, 1]], [1, 4/10, 1, 0]),
   ([![1, 1, 0], ![1, 1, 1]], [8/10, 5/10, 4/10, 4/10]),
   ([![2, 1, 0], ![2, 1, 1]], [1, 6/10, 0, 1])]

/-- initial_values_debug.h:32-105 (`do_value`) with the table of the dimension. -/
def doValue (t : List (List (Fin d → Int) × List Rat)) (p : Fin d → K) (component : Nat) : Res Rat := do
  let vals ← lookup p t
  if component < 4 then Res.index vals component else .ok 0

/-- initial_values_debug.h:107-112 (`get_domain_boundaries`): a pair of default points, both in the origin. -/
def boundaries : (Fin d → K) × (Fin d → K) := (fun _ => 0, fun _ => 0)

/-- initial_values_debug.h:114-118 (`get_r_max`) -/
def rMax : K := 1

/-- driver.h:509-521: the domain without a custom bounding box. -/
def domain (factor : K) : (Fin d → K) × (Fin d → K) :=
  (fun i => (boundaries (d := d)).1 i - factor * rMax, fun i => (boundaries (d := d)).2 i + factor * rMax)

/-- initial_values_debug.h:120-130 and initial_values.h:109-113: order parameters, particles and components. -/
def nOrderParameters : Nat := 2
def nParticles : Nat := 2
def nComponents : Nat := nOrderParameters + 2

end Verif.DebugValues
