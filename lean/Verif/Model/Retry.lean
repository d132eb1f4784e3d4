/-
Repeated attempts of a step after an inconsistency of the grains:
  include/pf-applications/grain_tracker/tracker.h:148-306 (what `track` leaves behind if it throws)
  applications/sintering/include/pf-applications/sintering/driver.h:2163-2202 (`process_failure`), 2318-2324 (tracker within the step),
  2502-2505 (handler), 2744-2745 and 2959-2977 (output for debugging)

Simplifications: those of modules `Cycle` and `OutTrack`; attempts that fail in a solver do not reach the tracker and are left out.  The list of
attempts ends when the step gets too small.
-/
import Verif.Model.OutTrack

namespace Verif.Retry

open Verif.Cycle Verif.OutTrack

variable {P K : Type} [Field K] [LinearOrder K]

/-- The tracker after a search that ended with an inconsistency: the grains found and matched so far have replaced the known ones
(tracker.h:156-158, 252-258), the order parameters in use are the old ones, since the reassignment was not reached. -/
def left (c : Conf P K) (s : Seen P K) (st : State P K) : State P K :=
  match detectGrains c.G c.cc false s.ops with
  | .ok d => ⟨(trackMatch c.G c.query c.track st.tr d st.n).1, st.active, s.pids, st.n⟩
  | _ => st

/-- How an attempt ends for the tracker. -/
inductive Tried (P K : Type)
  | accepted (st : State P K)
  | rejected (st : State P K)

/-- The number of order parameters is set before the tracker looks again (driver.h:1697-1698). -/
def counted (r : State P K × Bool × Bool) : State P K := if r.2.2 then { r.1 with n := r.1.active.length } else r.1

/-- The tracker within a step (driver.h:2321, 2502-2505): an inconsistency in the first or the second search is caught. -/
def tryTrack (c : Conf P K) (s s' : Seen P K) (st : State P K) : Res (Tried P K) :=
  match trackAll c false s st with
  | .ok r =>
    match after c s' r with
    | .ok st' => .ok (.accepted st')
    | .exc .grainsInconsistency => .ok (.rejected (left c s' (counted r)))
    | .exc e => .exc e
    | .ub => .ub
  | .exc .grainsInconsistency => .ok (.rejected (left c s st))
  | .exc e => .exc e
  | .ub => .ub

/-- Output for debugging after a rejection (driver.h:2179-2186): what is asked for and what is seen in the recent solution.
With advection this output does not run the tracker, as without output. -/
def debugOut (c : Conf P K) (dbg : Option (Ask × Seen P K)) (st : State P K) : Res (State P K) :=
  match dbg with
  | none => .ok st
  | some (a, s) => look c false a s st

/-- The attempts of a step (driver.h:2163-2202): the first accepted one counts; without one the step gets too small (driver.h:2188-2190). -/
def attempts (c : Conf P K) (dbg : Option (Ask × Seen P K)) : List (Seen P K × Seen P K) → State P K → Res (State P K)
  | [], _ => .exc .assertThrow
  | (s, s') :: l, st =>
    (tryTrack c s s' st).bind fun t => match t with
      | .accepted st' => .ok st'
      | .rejected st' => (debugOut c dbg st').bind (attempts c dbg l)

end Verif.Retry
