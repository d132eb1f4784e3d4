import Verif.Model.Res
/-!
# Schedule of refinement and grain tracking in the time loop

Models which parts of a pass of the time loop are executed when
(applications/sintering/include/pf-applications/sintering/driver.h:1456-1460, 1471-1489, 1593-1596, 1831-1892,
1935-1994, 2163-2202, 2204-2388, 2449-2466, 2480-2505, 2634-2694).

Vectors, meshes and the data of the tracker are replaced by numbers that say to which step or mesh they belong. What
solvers, tracker and estimators make of their data is a parameter of a pass. The step size is left out (see
`TimeLoop`). Counters of steps are natural numbers, the depth of the refinement is an `unsigned int`.
-/
namespace Verif.Schedule

/-- parameters -/
structure Conf where
  refFreq : Nat
  gtFreq : Nat
  quality : Bool
  autoQuality : Bool
  trackWithQuality : Bool
  advection : Bool
  checkCourant : Bool
  /-- boundary conditions that need the tracker (driver.h:1471-1473) -/
  ebc : Bool
  /-- output that needs the tracker (driver.h:1475-1478) -/
  output : Bool
  checkInconsistency : Bool
  extraCoarsening : Bool
  fluxes : Bool
  fullRefinement : Bool
  maxDepth : Nat
  minDepth : Nat

/-- variables of the loop; `mesh` counts the changes of the mesh -/
structure State where
  n : Nat
  lastAmr : Nat
  lastGt : Nat
  depth : Nat
  doMesh : Bool
  doGt : Bool
  converged : Bool
  /-- step to which the current solution belongs, and that to which the recent old one belongs -/
  sol : Nat
  recent : Nat
  mesh : Nat
  /-- mesh of the data of the tracker, of the diameters of the cells, of the boundary conditions -/
  gtMesh : Nat
  cflMesh : Option Nat
  bcMesh : Nat
  /-- steps after which refinement and tracker were run -/
  amrLog : List Nat
  gtLog : List Nat
  deriving DecidableEq, Repr

/-- what is decided outside of the loop in one pass -/
structure Attempt where
  isLast : Bool
  gtStartFails : Bool
  courantFails : Bool
  stepFails : Bool
  good : Bool
  qualityLow : Bool
  gtCheckFails : Bool
  postFails : Bool
  dtTooSmall : Bool
  /-- refinements until the quality is reached, driver.h:2663-2690 -/
  qualityLoop : Nat

/-- `grain_tracker_enabled` (driver.h:1480-1486) -/
def gtEnabled (c : Conf) : Bool :=
  c.gtFreq > 0 || (c.quality && c.trackWithQuality) || c.advection || c.ebc || c.output || c.checkInconsistency

/-- `execute_coarsening_and_refinement` (driver.h:1371-1464) -/
def refine (c : Conf) (st : State) : State :=
  { st with mesh := st.mesh + 1
            cflMesh := if c.advection && c.checkCourant then some (st.mesh + 1) else st.cflMesh
            amrLog := st.amrLog ++ [st.n] }

/-- `run_grain_tracker` (driver.h:1521-1722), `step` is the step of the solution -/
def track (st : State) (step : Nat) : State :=
  { st with gtMesh := st.mesh, gtLog := st.gtLog ++ [step] }

/-- number of initial refinements (driver.h:1855-1859): `levels` of the mesh, `levels0` those of the finest mesh asked
for -/
def initialRefinements (c : Conf) (levels levels0 : Nat) : Nat :=
  max (min (levels - 1) c.minDepth) (levels0 - levels + c.maxDepth)

/-- the initial local refinement (driver.h:1831-1876); `fresh` is false for a restart -/
def initialMesh (c : Conf) (fresh : Bool) (levels levels0 : Nat) (st : State) : State :=
  if fresh && (c.refFreq > 0 || c.quality || !c.fullRefinement) then
    let k := initialRefinements c levels levels0
    let st := (List.range k).foldl (fun st _ => refine c st) st
    if k = 0 then { st with cflMesh := some st.mesh } else st
  else if c.advection && c.checkCourant then { st with cflMesh := some st.mesh } else st

/-- first run of the tracker (driver.h:1878-1889) -/
def initialTrack (c : Conf) (st : State) : State := if gtEnabled c then track st st.n else st

/-- from the initial mesh to the first pass (driver.h:1831-1894). The logs begin empty. -/
def start (c : Conf) (fresh : Bool) (levels levels0 : Nat) (st : State) : State :=
  let st := initialMesh c fresh levels levels0 { st with doMesh := false, doGt := false, converged := true }
  let st := initialTrack c st
  { st with bcMesh := st.mesh, amrLog := [], gtLog := [] }

/-- beginning of a pass (driver.h:1938-1994) -/
def begin (c : Conf) (st : State) (a : Attempt) : Res State :=
  if st.converged then do
    let st := if st.doMesh then { refine c st with lastAmr := st.n } else st
    let st ← if st.doGt then
        (if a.gtStartFails then .exc .assertThrow else .ok { track st st.n with lastGt := st.n })
      else .ok st
    .ok (if st.doMesh then { st with bcMesh := st.mesh } else st)
  else .ok st

/-- `process_failure` (driver.h:2163-2202) -/
def processFailure (st : State) (a : Attempt) : Res State :=
  if a.dtTooSmall then .exc .assertThrow
  else .ok { st with sol := st.recent, converged := false, doMesh := false, doGt := false }

/-- the flag of the refinement and the depth (driver.h:2254-2295) -/
def decideMesh (c : Conf) (st : State) (a : Attempt) : Nat × Bool :=
  if a.good && c.extraCoarsening && !c.quality && st.depth == c.maxDepth then ((st.depth + 4294967295) % 4294967296, true)
  else (st.depth, if c.quality then a.qualityLow else decide (c.refFreq > 0) && (st.n + 1 - st.lastAmr) % c.refFreq == 0)

/-- regular execution of the tracker (driver.h:2359-2364) -/
def gtRegular (c : Conf) (st : State) : Bool :=
  decide (c.gtFreq > 0) && (st.n + 1 - st.lastGt) % c.gtFreq == 0

/-- commit of the step and the post-processing of the fluxes (driver.h:2367-2388, 2449-2466); a solver that does not
converge is caught below (driver.h:2484-2488) -/
def commit (c : Conf) (st : State) (a : Attempt) : Res State :=
  let st := { st with converged := true, n := st.n + 1 }
  if c.fluxes && a.postFails then processFailure st a else .ok st

/-- the step itself and the decisions (driver.h:2204-2505); `sol` is the new solution after `make_step` -/
def step (c : Conf) (st : State) (a : Attempt) : Res State :=
  let courant := c.advection && c.checkCourant
  if courant && st.cflMesh != some st.mesh then .ub
  else if (courant && a.courantFails) || a.stepFails then processFailure st a
  else
    let st := { st with sol := st.n + 1, doMesh := false, doGt := false }
    if a.isLast then commit c st a
    else
      let (depth, doMesh) := decideMesh c st a
      let st := { st with depth := depth, doMesh := doMesh }
      if c.checkInconsistency then
        if a.gtCheckFails then processFailure st a
        else
          let st := { track st (st.n + 1) with lastGt := st.n + 1 }
          commit c { st with doGt := doMesh && ((c.quality && c.trackWithQuality) || c.advection || c.ebc || c.output) } a
      else
        commit c { st with doGt := (doMesh && c.quality && c.trackWithQuality) || c.advection || (doMesh && c.output) ||
          c.ebc || gtRegular c st } a

/-- end of a pass: the quality after the first step (driver.h:2634-2694) -/
def finish (c : Conf) (st : State) (a : Attempt) : State :=
  if st.converged && st.n == 1 && c.quality && !c.autoQuality && a.qualityLow then
    (List.range a.qualityLoop).foldl
      (fun st _ => { refine c { st with depth := (st.depth + 1) % 4294967296 } with lastAmr := st.n }) st
  else st

/-- the state in which the solver is called -/
def atSolver (c : Conf) (st : State) (a : Attempt) : Res State := do
  let st ← begin c st a
  .ok { st with recent := st.sol }

/-- one pass of the loop (driver.h:1932-2706) -/
def pass (c : Conf) (st : State) (a : Attempt) : Res State := do
  let st ← atSolver c st a
  let st ← step c st a
  .ok (finish c st a)

/-- the loop -/
def run (c : Conf) (st : State) (as : List Attempt) : Res State := as.foldlM (pass c) st

/-- finest level allowed (driver.h:1398-1399) -/
def maxLevel (levels0 depth : Nat) : Nat := (levels0 - 1 + depth) % 4294967296

end Verif.Schedule
