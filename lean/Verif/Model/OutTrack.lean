/-
The grain tracker at output:
  applications/sintering/include/pf-applications/sintering/driver.h:2959-2977 (`output_result`), 2513-2533 (its call after a step)
  applications/sintering/include/pf-applications/sintering/postprocessors.h:466-494 (numbers of the pieces of contours)
  include/pf-applications/grain_tracker/tracker.h:1068-1077 (`empty`)

Simplifications: those of module `Cycle`; only what output does with the tracker and asks it.
-/
import Verif.Model.Cycle

namespace Verif.OutTrack

open Verif.Cycle

variable {P K : Type} [Field K] [LinearOrder K]

/-- Parameters of output that need the tracker. -/
structure Ask where
  contours : Bool
  contoursTex : Bool
  stats : Bool
  coordination : Bool
deriving DecidableEq

/-- driver.h:2966-2971: without advection the tracker looks at the solution again, without reassignment.  An exception is not caught. -/
def look (c : Conf P K) (advection : Bool) (a : Ask) (s : Seen P K) (st : State P K) : Res (State P K) :=
  if (a.contours || a.contoursTex || a.stats || a.coordination) && !st.tr.grains.isEmpty && !advection then
    (trackAll c true s st).bind fun q => .ok q.1
  else .ok st

omit [Field K] [LinearOrder K] in
/-- postprocessors.h:466-494: number of a piece of a contour; the tracker is asked only if it has grains. -/
def number (st : State P K) (b cell : Nat) : Res (Option Nat) := if st.tr.grains.isEmpty then .ok (some 0) else label st b cell

/-- What happens to the tracker in a simulation. -/
inductive Op (P K : Type)
  /-- `run_grain_tracker`: what is seen first and after the remapping -/
  | run (s s' : Seen P K)
  /-- output -/
  | output (a : Ask) (s : Seen P K)

/-- One of them. -/
def op (c : Conf P K) (advection : Bool) (st : State P K) : Op P K → Res (State P K)
  | .run s s' => runTracker c false s s' st
  | .output a s => look c advection a s st

/-- Many of them. -/
def ops (c : Conf P K) (advection : Bool) : List (Op P K) → State P K → Res (State P K)
  | [], st => .ok st
  | o :: l, st => (op c advection st o).bind (ops c advection l)

end Verif.OutTrack
