/-
A run of the grain tracker as a whole and the questions put to it afterwards:
  include/pf-applications/grain_tracker/tracker.h
  applications/sintering/include/pf-applications/sintering/driver.h
  applications/sintering/include/pf-applications/sintering/postprocessors.h

Simplifications: what the search for particles sees is an input of each call; the remapping of the values is `Remap`, here only
its effect on later searches matters; the inverse mapping of segments is `Inverse`.
-/
import Verif.Model.Track
import Verif.Model.Detect
import Verif.Model.Reassign

namespace Verif.Cycle

variable {P K : Type} [Field K] [LinearOrder K]

/-- What one search sees: the particles of every order parameter, and for every order parameter the number of the particle
each cell belongs to (`op_particle_ids`, tracker.h:1260-1286). -/
structure Seen (P K : Type) where
  ops : List (OpParticles P K)
  pids : List (List (Option Nat))

/-- Members of the tracker, and `sintering_data.n_grains()` of the driver. -/
structure State (P K : Type) where
  tr : Tracker P K
  active : List Nat
  pids : List (List (Option Nat))
  n : Nat

/-- Settings and externals. -/
structure Conf (P K : Type) where
  G : Geometry P K
  cc : CCFun
  query : List (P × K) → P × K → List Nat
  track : TrackCfg K
  reassign : ReassignCfg K
  greedyInit : Bool
  fast : Bool
  /-- advection or boundary conditions need the tracker, driver.h:1706 -/
  again : Bool

/-- The part common to tracker.h:311-343 and 365-395: reassignment or not.  The result of the call is the pair of
`grains_reassigned` and `op_number_changed`. -/
def assignOps (c : Conf P K) (force skip : Bool) (tr : Tracker P K) (pids : List (List (Option Nat))) (n : Nat) :
    Res (State P K × Bool × Bool) :=
  if skip then .ok (⟨tr, extractActive tr.grains, pids, n⟩, false, false)
  else (reassignGrains c.G c.reassign force c.fast tr.grains).bind fun r =>
    .ok (⟨{ tr with grains := r.grains }, r.active, pids, n⟩, r.flag, r.active.length != n)

/-- `initial_setup` (tracker.h:350-399). -/
def setup (c : Conf P K) (skip : Bool) (s : Seen P K) (n : Nat) : Res (State P K × Bool × Bool) :=
  (detectGrains c.G c.cc true s.ops).bind fun d =>
    assignOps c c.greedyInit skip ⟨d.grains, [], d.lookup⟩ s.pids n

/-- `track` (tracker.h:148-348). -/
def trackAll (c : Conf P K) (skip : Bool) (s : Seen P K) (st : State P K) : Res (State P K × Bool × Bool) :=
  (detectGrains c.G c.cc false s.ops).bind fun d =>
    (trackMatch c.G c.query c.track st.tr d st.n).2.bind fun _ =>
      assignOps c false skip (trackMatch c.G c.query c.track st.tr d st.n).1 s.pids st.n

/-- driver.h:1603-1722, after the call: the number of order parameters is set, and if grains were reassigned or their number
changed the tracker looks again, but only if advection or boundary conditions need it. -/
def after (c : Conf P K) (s' : Seen P K) (r : State P K × Bool × Bool) : Res (State P K) :=
  if r.2.1 || r.2.2 then
    let st := if r.2.2 then { r.1 with n := r.1.active.length } else r.1
    if c.again then (trackAll c true s' st).bind fun q => .ok q.1 else .ok st
  else .ok r.1

/-- `run_grain_tracker` (driver.h:1515-1729); `init` selects the initial setup, `s` is what is seen first and `s'` after the
remapping. -/
def runTracker (c : Conf P K) (init : Bool) (s s' : Seen P K) (st : State P K) : Res (State P K) :=
  (if init then setup c false s st.n else trackAll c false s st).bind (after c s')

omit [Field K] [LinearOrder K] in
/-- `get_particle_index` and `get_grain_and_segment` (tracker.h:1079-1121): which grain and segment is in the order
parameter `b` at the cell.  The first two accesses are checked, the last is not; `none` is no particle. -/
def grainAt (st : State P K) (b cell : Nat) : Res (Option (Option Nat × Nat)) :=
  match st.pids[b]? with
  | none => .exc .assertThrow
  | some row =>
    match row[cell]? with
    | none => .exc .assertThrow
    | some none => .ok none
    | some (some p) =>
      match st.tr.lookup[b]? with
      | none => .ub
      | some es => match es[p]? with
        | none => .ub
        | some e => .ok (some e)

omit [Field K] [LinearOrder K] in
/-- postprocessors.h:466-494: number written for a piece of the contour of the order parameter `b` in the cell.
`CellData` begins with the number 0; `none` is the invalid number. -/
def label (st : State P K) (b cell : Nat) : Res (Option Nat) :=
  (grainAt st b cell).bind fun e => match e with
    | none => .ok (some 0)
    | some e => .ok e.1

end Verif.Cycle
