import Verif.Model.TimeData
import Verif.Model.BlockVector
import Mathlib.Algebra.Order.Group.Unbundled.Abs
/-!
# Solution history and the time loop of the driver

Models `include/pf-applications/time_integration/solution_history.h` (lines 26-229) and the time loop
`applications/sintering/include/pf-applications/sintering/driver.h` (lines 1924-2707). Everything the
loop calls (solvers, mesh refinement, grain tracker, predictor) is a parameter of one attempt: it may
do anything to the vectors it is given. Ghost values are left out.
-/
namespace Verif
variable {K V : Type}

/-! ## Solution history -/

/-- `can_process` (solution_history.h:218-226) -/
def canProcess (i : Nat) (current recent old : Bool) : Bool :=
  (i == 0 && current) || (i == 1 && recent) || (decide (i > 1) && old)

/-- `filter` (solution_history.h:67-79); the selected vectors are shared, not copied -/
def histFilter (current recent old : Bool) (h : List V) : List V :=
  (h.zipIdx.filter fun p => canProcess p.2 current recent old).map Prod.fst

/-- an operation applied to all vectors of a filtered history (`filter(...).apply(f)`,
solution_history.h:41-46) changes the shared vectors -/
def histApply (current recent old : Bool) (f : V → V) (h : List V) : List V :=
  h.mapIdx fun i x => if canProcess i current recent old then f x else x

/-- `commit_old_solutions` (solution_history.h:135-144): `i = size - 2, ..., 1` -/
def commitOld (h : List V) : Res (List V) :=
  (downTo (h.length - 2) 0).foldlM (fun h i => copyR h (i + 1) i) h

/-- `set_recent_old_solution` (solution_history.h:146-157); the size check is for debug builds -/
def setRecent (h : List V) (x : V) : Res (List V) := setR h 1 x

/-- `get_recent_old_solution` (solution_history.h:159-169) -/
def getRecent (h : List V) : Res V := Res.index h 1

/-- `get_current_solution` (solution_history.h:171-183) -/
def getCurrent (h : List V) : Res V := Res.index h 0

/-- `get_old_solutions` (solution_history.h:185-190) -/
def oldSolutions (h : List V) : List V := h.drop 1

/-! ## Time loop -/

/-- parameters of the time integration (`params.time_integration_data`) and `tol_termination`
(driver.h:1928) -/
structure LoopParams (K : Type) where
  timeEnd : K
  dtMin : K
  dtMax : K
  growth : K
  tol : K
  deriving Repr

/-- variables of the loop -/
structure RunState (K V : Type) where
  t : K
  dt : K
  n : Nat
  hist : List V
  data : TimeData K
  converged : Bool
  deriving DecidableEq, Repr

/-- what the solvers make of the step (driver.h:2204-2505): the current solution after a normal return
and whether few iterations were needed, or the current solution left behind by an exception
(Newton, linear solver, Courant condition, grain inconsistency) -/
inductive Outcome (V : Type)
  | success (sol : V) (good : Bool)
  | failure (garbage : V)

/-- everything that is decided outside of the loop in one pass -/
structure Attempt (V : Type) where
  /-- sanity check of the solution (driver.h:1941-1946), identity if disabled -/
  limit : V → V
  /-- mesh refinement and grain tracker (driver.h:1948-1994), identity if not executed -/
  remesh : V → V
  /-- initial guess of the predictor (driver.h:2001-2058), `none` if disabled -/
  guess : Option V
  outcome : Outcome V

/-- the part before the solver is called (driver.h:1938-2058) -/
def prepare (a : Attempt V) (converged : Bool) (h : List V) : Res (List V) := do
  let h := if converged then
      histApply true false true a.remesh (histApply true false false a.limit h) else h
  let sol ← getCurrent h
  let h ← setRecent h sol
  match a.guess with
  | some g => setR h 0 g
  | none => pure h

section
variable [Field K] [LinearOrder K]

/-- `is_last_time_step` (driver.h:2250-2252, 2513-2515) -/
def isLast (p : LoopParams K) (t : K) : Bool := decide (|t - p.timeEnd| < p.tol)

/-- growth of the step size (driver.h:2391-2402) -/
def growDt (p : LoopParams K) (good : Bool) (dt : K) : K :=
  if good ∧ p.growth > 1 then
    let dt := dt * p.growth
    if dt > p.dtMax then p.dtMax else dt
  else dt

/-- step size after an accepted step ending at `t` (driver.h:2387-2409) -/
def nextDt (p : LoopParams K) (good : Bool) (t dt : K) : K :=
  if isLast p t then dt
  else
    let dt := growDt p good dt
    if t + dt > p.timeEnd then p.timeEnd - t else dt

/-- end of a pass after an accepted step (driver.h:2370-2409, 2510, 2696) -/
def accept (p : LoopParams K) (st : RunState K V) (h : List V) (sol : V) (good : Bool) :
    Res (RunState K V) := do
  let h ← setR h 0 sol
  let t := st.t + st.dt
  let dt := nextDt p good t st.dt
  let h ← commitOld h
  let data ← st.data.updateDt dt
  pure ⟨t, dt, st.n + 1, h, data, true⟩

/-- `process_failure` (driver.h:2163-2202) and the replacement of the step (driver.h:2701) -/
def reject (p : LoopParams K) (st : RunState K V) (h : List V) (garbage : V) :
    Res (RunState K V) := do
  let h ← setR h 0 garbage
  let dt := st.dt * (1 / 2)
  let old ← getRecent h
  let h ← setR h 0 old
  Res.assertThrow (decide (dt > p.dtMin))
  let data ← st.data.replaceDt dt
  pure ⟨st.t, dt, st.n, h, data, false⟩

/-- one pass of the loop (driver.h:1935-2706) -/
def pass (p : LoopParams K) (st : RunState K V) (a : Attempt V) : Res (RunState K V) := do
  let h ← prepare a st.converged st.hist
  match a.outcome with
  | .success sol good => accept p st h sol good
  | .failure garbage => reject p st h garbage

/-- condition of the loop (driver.h:1932-1933) -/
def loopCond (p : LoopParams K) (t : K) : Bool := decide (|t - p.timeEnd| > p.tol)

/-- the loop with at most `fuel` passes, `oracle k` decides pass number `k`; `none` if the loop has not
ended after that many passes -/
def timeLoop (p : LoopParams K) (oracle : Nat → Attempt V) :
    Nat → Nat → RunState K V → Option (Res (RunState K V))
  | 0, _, st => if loopCond p st.t then none else some (.ok st)
  | fuel + 1, k, st =>
    if loopCond p st.t then
      match pass p st (oracle k) with
      | .ok st => timeLoop p oracle fuel (k + 1) st
      | .exc e => some (.exc e)
      | .ub => some .ub
    else some (.ok st)

/-- state at the beginning of a run (driver.h:203-211, 954-959, 1829-1830): the history holds the
initial values `u0`, something in the second entry and `rest` in the others -/
def RunState.init (t0 dt0 : K) (s : Option Scheme) (u0 x : V) (rest : List V) :
    Res (RunState K V) := do
  let data ← TimeData.ofSchemeDt s dt0
  let dt ← data.currentDt
  pure ⟨t0, dt, 0, u0 :: x :: rest, data, true⟩

end
end Verif
