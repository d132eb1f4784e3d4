import Verif.Model.Inverse
import Verif.Model.OutputTable
import Mathlib.Algebra.Field.Defs
/-!
# Tables of grains and pores

Models `output_grains_stats` and `output_porosity_stats` (applications/sintering/include/pf-applications/sintering/postprocessors_stats.h:31-304),
the accesses to the data of `AdvectionMechanism` (advection.h:317-320, 351-363, 405-428), and when the driver evaluates the forces
(driver.h:1905-1922, 2221-2232, 2321-2324, 2516-2533).

Floating-point numbers are the elements of a field, `none` is not a number (also a quotient by zero). Points are functions of the
direction. The values of the displacements at a point (`RemotePointEvaluation`) are a parameter, as are the centres and measures of the pores.
Only the table of rank zero is modelled. `TableHandler` is the one of `OutputTable`; how numbers are printed is not modelled.
-/
namespace Verif.GrainStats
open Verif.OutputTable (Name Table addValue)

/-- entries of the table -/
inductive Val (K : Type)
  | int (n : Nat)
  | num (x : Option K)
  deriving DecidableEq, Repr

/-- `GrainTracker::Grain` as far as printed; of the segments the centres -/
structure Grain (K : Type) where
  measure : K
  radius : K
  maxValue : K
  op : Nat
  segments : List (Nat → K)

/-- `AdvectionMechanism`: `is_active`, `mt`, `grains_data` -/
structure Mech (K : Type) where
  enabled : Bool
  mt : K
  data : List K

/-- `moment_s` -/
def moments (dim : Nat) : Nat := if dim = 3 then 3 else 1

/-- `n_comp_volume_force_torque` (advection.h:319-320) -/
def nComp (dim : Nat) : Nat := if dim = 3 then 7 else 4

variable {K : Type} [Field K] [DecidableEq K]

/-- `grain_data(index)[j]` (advection.h:424-428) -/
def dataAt (dim : Nat) (M : Mech K) (index j : Nat) : Res K := Res.index M.data (nComp dim * index + j)

/-- the quotient of two numbers -/
def quot (a b : K) : Option K := if b = 0 then none else some (a / b)

/-- `get_translation_velocity_for_grain` (advection.h:351-363) -/
def translationVelocity (dim : Nat) (M : Mech K) (index : Nat) : Res (List (Option K)) := do
  let volume ← dataAt dim M index 0
  let force ← (List.range dim).mapM fun d => dataAt dim M index (1 + d)
  pure (force.map fun f => quot (M.mt * f) volume)

/-- the operators: with forces, or coupled to mechanics with displacements at points and the current time step -/
inductive Operator (K : Type)
  | plain
  | coupled (displacement : (Nat → K) → Nat → K) (dt : K)

/-- the points at which displacements are evaluated, by grain; only for coupled operators (postprocessors_stats.h:145-155) -/
def evaluationPoints (grains : OMap (Grain K)) : Operator K → Res (List (Nat → K))
  | .coupled _ _ => grains.mapM fun g => Res.index g.2.segments 0
  | .plain => .ok []

/-- everything that `output_grains_stats` is given -/
structure Input (K : Type) where
  dim : Nat
  op : Operator K
  mech : Mech K
  grains : OMap (Grain K)
  /-- `grain_segment_ids_numbering` -/
  numbering : OMap (OMap Nat)

/-- not a number in all components -/
def dummy (n : Nat) : List (Option K) := List.replicate n none

/-- whether the data of the forces are used (postprocessors_stats.h:200-201, 255-256) -/
def hasData (I : Input K) (g : Grain K) : Bool := !I.mech.data.isEmpty && g.segments.length == 1

/-- `get_velocity` (postprocessors_stats.h:171-186, 195-208) for the grain at the position `pos` of the map; `points` are evaluated before -/
def velocity (I : Input K) (points : List (Nat → K)) (pos id : Nat) (g : Grain K) : Res (List (Option K)) :=
  match I.op with
  | .coupled displacement dt =>
    if g.segments.length = 1 ∧ dt ≠ 0 then do
      let p ← Res.index points pos
      pure ((List.range I.dim).map fun d => some (displacement p d / dt))
    else pure (dummy I.dim)
  | .plain =>
    if hasData I g then do
      let i ← segmentIndex I.numbering id 0
      translationVelocity I.dim I.mech i
    else pure (dummy I.dim)

def coordLabels : List Name := ["x", "y", "z"].map String.toList
def forceLabels : List Name := ["fx", "fy", "fz"].map String.toList
def torqueLabels (dim : Nat) : List Name :=
  if moments dim = 1 then [['t']] else ["tx", "ty", "tz"].map String.toList
def velocityLabels : List Name := ["vx", "vy", "vz"].map String.toList

/-- columns of floating-point numbers -/
def numbers (labels : List Name) (xs : List (Option K)) : List (Name × Val K) :=
  labels.zip (xs.map .num)

/-- the centre of a grain with one segment (postprocessors_stats.h:242-249) -/
def centre (dim : Nat) (g : Grain K) : List (Option K) :=
  match g.segments with
  | [c] => (List.range dim).map fun d => some (c d)
  | _ => dummy dim

/-- volume, forces and torques: pointer into the data (postprocessors_stats.h:253-279) -/
def forces (I : Input K) (id : Nat) (g : Grain K) : Res (List (Option K)) :=
  if hasData I g then do
    let i ← segmentIndex I.numbering id 0
    let xs ← (List.range (1 + I.dim + moments I.dim)).mapM fun j => dataAt I.dim I.mech i j
    pure (xs.map some)
  else pure (dummy (1 + I.dim + moments I.dim))

/-- the entries added for one grain (postprocessors_stats.h:232-292) -/
def row (I : Input K) (points : List (Nat → K)) (pos id : Nat) (g : Grain K) : Res (List (Name × Val K)) :=
  let first : List (Name × Val K) :=
    [("id".toList, .int id), ("measure".toList, .num (some g.measure)), ("radius".toList, .num (some g.radius)),
      ("max_value".toList, .num (some g.maxValue)), ("order_parameter_id".toList, .int g.op)] ++
    numbers (coordLabels.take I.dim) (centre I.dim g)
  if I.mech.enabled then do
    let data ← forces I id g
    let vt ← velocity I points pos id g
    pure (first ++ numbers (["volume".toList] ++ forceLabels.take I.dim ++ (torqueLabels I.dim).take (moments I.dim)) data ++
      numbers (velocityLabels.take I.dim) vt)
  else pure first

/-- a table from the entries of its rows -/
def tableOf (rows : List (List (Name × Val K))) : Table (Val K) :=
  rows.flatten.foldl (fun t e => addValue t e.1 e.2) []

/-- the line `k` behind the names of the columns -/
def line (t : Table (Val K)) (k : Nat) : List (Option (Val K)) := t.map fun c => c.2[k]?

/-- `output_grains_stats` (postprocessors_stats.h:111-302) -/
def grainStats (I : Input K) : Res (Table (Val K)) := do
  let points ← evaluationPoints I.grains I.op
  let rows ← I.grains.zipIdx.mapM fun e => row I points e.2 e.1.1 e.1.2
  pure (tableOf rows)

/-- the loop of `output_porosity_stats` over the pores (postprocessors_stats.h:79-93) -/
def poreStats (dim n : Nat) (measures radii : List K) (centres : List (Nat → K)) : Res (Table (Val K)) := do
  let rows ← (List.range n).mapM fun i => do
    let m ← Res.index measures i
    let r ← Res.index radii i
    let c ← Res.index centres i
    pure ([("id".toList, Val.int i), ("measure".toList, .num (some m)), ("radius".toList, .num (some r))] ++
      numbers (coordLabels.take dim) ((List.range dim).map fun d => some (c d)))
  pure (tableOf rows)

/-- state of the driver: grains and particles of the tracker, data of the forces -/
structure St (K : Type) where
  grains : OMap (Grain K)
  lookup : Lookup
  data : List K

/-- what the driver does between two outputs -/
inductive Event (K : Type)
  /-- `evaluate_forces`: the values of a segment of a grain (operator_advection.h:88-137; driver.h:1911, 2224, residual_wrapper.h:62, 77) -/
  | evaluate (F : Option Nat × Nat → Nat → K)
  /-- `run_grain_tracker` (driver.h:1962, 2323): new grains and particles; the data of the forces are kept -/
  | track (grains : OMap (Grain K)) (lookup : Lookup)

/-- data of the forces after `evaluate_forces`: in the order of the numbers of the segments -/
def evaluated (dim : Nat) (lookup : Lookup) (F : Option Nat × Nat → Nat → K) : List K :=
  lookup.flatten.flatMap fun e => (List.range (nComp dim)).map (F e)

def event (dim : Nat) (st : St K) : Event K → St K
  | .evaluate F => { st with data := evaluated dim st.lookup F }
  | .track grains lookup => { st with grains := grains, lookup := lookup }

/-- the table of the grains at an output of the driver with advection (driver.h:3139-3156) -/
def output (dim : Nat) (mt : K) (st : St K) : Res (Table (Val K)) :=
  grainStats ⟨dim, .plain, ⟨true, mt, st.data⟩, st.grains, (buildInverse st.lookup).1⟩

end Verif.GrainStats
