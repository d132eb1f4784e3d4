import Verif.Model.BoxFilter
/-!
# The table of scalar results

Models the table of `Problem::output_result` (applications/sintering/include/pf-applications/sintering/driver.h:2735-2757,
2992-3100, 3115-3132, 3157-3182, 3201), of `advanced_output` (output.h:72-128), `write_table`
(applications/sintering/src/postprocessors.cc:18-51), and the calls of `output_result` by the driver (driver.h:187, 1388-1395,
1453-1460, 1532-1539, 1718-1725, 1907-1922, 1967-1974, 2179-2186, 2516-2533).

The values are those of a function of the quantity and the box. `TableHandler` of deal.II is a list of columns in the
order of their creation; of its text only the first two lines are used, the names of the columns and the first entries.
How numbers are printed is not modelled. Files are lists of lines.
-/
namespace Verif.OutputTable
open Verif.BoxFilter (boxFilters generateName)

abbrev Name := List Char

/-- parameters of the output and of the program -/
structure Conf (B : Type) where
  str : Nat → Name
  dim : Nat
  debug : Bool
  /-- labels returned by `build_domain_quantities_evaluators` -/
  integrals : List Name
  boxes : List B
  only : Bool
  shrinkage : Bool
  qualityMin : Bool
  isoSurf : Bool
  isoGb : Bool
  coordination : Bool
  /-- `offset_op > 0` and `n_op > 0` -/
  hasConcentration : Bool
  hasGrains : Bool

variable {B V : Type}

/-- values at one output: of a quantity, in the whole domain or for a box of the list of filters -/
structure Obs (V : Type) where
  value : Name → Option Nat → V
  trackerEmpty : Bool

/-- `TableHandler`: columns with their entries -/
abbrev Table (V : Type) := List (Name × List V)

/-- `TableHandler::add_value` -/
def addValue (t : Table V) (key : Name) (v : V) : Table V :=
  if t.any fun c => c.1 == key then t.map fun c => if c.1 == key then (c.1, c.2 ++ [v]) else c
  else t ++ [(key, [v])]

/-- driver.h:2993-3015, without `step` and `time` -/
def generalNames : List Name :=
  ["dt", "n_dofs", "n_op", "n_grains", "n_newton_iter", "n_linear_iter", "n_resid_eval"].map String.toList

/-- driver.h:3091, 3097 -/
def shrinkageNames (dim : Nat) : List Name :=
  (["dim_x", "dim_y", "dim_z"].take dim ++ ["volume"]).map String.toList

/-- the name of a column for a box -/
def boxed (c : Conf B) (q : Name) (i : Nat) : Name := generateName c.str (!c.boxes.isEmpty) c.only q i

/-- the columns of one box in `advanced_output` (output.h:76-126) -/
def advancedColumns (c : Conf B) (o : Obs V) (f : Option B) (i : Nat) : List (Name × V) :=
  let add (on : Bool) (q : String) := if on then [(boxed c q.toList i, o.value q.toList (some i))] else []
  add f.isSome "control_box" ++ add (c.isoSurf && c.hasConcentration) "iso_surf_area" ++
    add (c.isoGb && c.hasGrains) "iso_gb_area" ++ add (c.coordination && !o.trackerEmpty) "avg_coord_num"

/-- the values in the order in which they are added to the table -/
def columns (c : Conf B) (o : Obs V) (step time : V) : List (Name × V) :=
  let filters := boxFilters c.boxes c.only
  [("step".toList, step), ("time".toList, time)] ++
    generalNames.map (fun q => (q, o.value q none)) ++
    (List.range filters.length).flatMap (fun i => c.integrals.map fun q => (boxed c q i, o.value q (some i))) ++
    (if c.shrinkage then (shrinkageNames c.dim).map (fun q => (q, o.value q none)) else []) ++
    (if c.qualityMin then [("mesh_quality".toList, o.value "mesh_quality".toList none)] else []) ++
    filters.zipIdx.flatMap fun f => advancedColumns c o f.1 f.2

/-- the table of one output -/
def table (c : Conf B) (o : Obs V) (step time : V) : Table V :=
  (columns c o step time).foldl (fun t e => addValue t e.1 e.2) []

/-- lines of the file -/
inductive Line (V : Type)
  | header (names : List Name)
  | row (values : List V)
  deriving DecidableEq, Repr

/-- the second line of `write_text`: the first entries of the columns -/
def firstRow (t : Table V) : List V := t.filterMap fun c => c.2.head?

/-- `write_table` on rank zero (postprocessors.cc:23-50) -/
def writeTable {T : Type} [Zero T] [DecidableEq T] (tab : Table V) (t : T) (file : List (Line V)) : List (Line V) :=
  (if t = 0 then [.header (tab.map Prod.fst)] else file) ++ [.row (firstRow tab)]

/-- the labels used by the driver -/
inductive Label
  | solution
  | refinement
  | track
  | remap
  | grainsInconsistency
  | newtonNotConverged
  | linearSolverNotConverged
  | courantViolated
  deriving DecidableEq, Repr

/-- members of the driver: `time_last_output`, `counters`, and the files of the tables -/
structure St (T V : Type) where
  last : T
  counter : Label → Nat
  file : Label → List (Line V)

/-- how counters and times are printed -/
structure Fmt (T V : Type) where
  nat : Nat → V
  time : T → V

variable {T : Type} [Zero T] [DecidableEq T]

/-- the part of `output_result` that deals with the table, for `params.output_data.table` (driver.h:2746-2752, 2992-3183,
3201) -/
def outputResult (c : Conf B) (F : Fmt T V) (st : St T V) (t : T) (label : Label) (o : Obs V) : St T V :=
  if !c.debug && label != .solution then st
  else
    let tab := table c o (F.nat (st.counter label)) (F.time t)
    { st with
      file := fun l => if l = label then writeTable tab t (st.file label) else st.file l
      counter := fun l => if l = label then st.counter label + 1 else st.counter l }

/-- what the driver does -/
inductive Event (T V : Type)
  /-- output after a step at the time `t` (driver.h:2523-2532) -/
  | solution (t : T) (o : Obs V)
  /-- before and after a refinement, before tracking, after remapping at the time `t` (lines 1388, 1453, 1532, 1718) -/
  | debug (label : Label) (t : T) (o : Obs V)
  /-- failures at the time `t` (lines 1967, 2179) -/
  | failure (label : Label) (t : T) (o : Obs V)

/-- one output of the driver; failures are passed `time_last_output` -/
def event (c : Conf B) (F : Fmt T V) (st : St T V) : Event T V → St T V
  | .solution t o => outputResult c F { st with last := t } t .solution o
  | .debug label t o => outputResult c F st t label o
  | .failure label _ o => outputResult c F st st.last label o

/-- the initial output (driver.h:1907-1922) of a new run (driver.h:187, 200) on files left by earlier runs -/
def initial (c : Conf B) (F : Fmt T V) (files : Label → List (Line V)) (o : Obs V) : St T V :=
  let st : St T V := ⟨0, fun _ => 0, files⟩
  outputResult c F st st.last .solution o

/-- a run -/
def run (c : Conf B) (F : Fmt T V) (files : Label → List (Line V)) (o : Obs V) (es : List (Event T V)) : St T V :=
  es.foldl (event c F) (initial c F files o)

end Verif.OutputTable
