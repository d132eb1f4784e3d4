/-
Cut-off of irrelevant order parameters and storage of the linearisation point:
  applications/sintering/include/pf-applications/sintering/operator_sintering_data.h
  applications/sintering/include/pf-applications/sintering/operator_sintering_generic.h (reading)

Simplifications: one rank; a cell batch is the list of its active lanes, a lane gives the dof values of every
block; the values and gradients at the quadrature points (FEEvaluation) are given functions; the statistics
printed by `set_component_mask` are left out except for the dereferencing of an empty range.  `Table<2>` and
`Table<3>` are flat arrays as in deal.II, an access beyond the array is undefined behaviour.
-/
import Verif.Model.Res
import Mathlib.Algebra.Order.Group.Abs

namespace Verif.Cutoff

/-- Sizes and flags.  `gradMask` and `gradFill` are the arguments `save_op_gradients` of
`set_component_mask` (driver.h:2213-2218: `advection_data.enable`) and of `fill_quadrature_point_values`
(driver.h:1092-1094: that or a request of the free energy). -/
structure Conf where
  nLanes : Nat
  nq : Nat
  offset : Nat
  nGrains : Nat
  nBlocks : Nat
  saveAll : Bool
  gradMask : Bool
  gradFill : Bool
  tensorial : Bool

/-- operator_sintering_data.h:120-124 `n_components` -/
def Conf.nComponents (cf : Conf) : Nat := cf.offset + cf.nGrains

/-- operator_sintering_data.h:319-320, 375-376 (and the first operand in 229) -/
def Conf.nSaveV (cf : Conf) : Nat := if cf.saveAll then cf.nBlocks else cf.nComponents

/-- operator_sintering_data.h:327-329, 378-381 -/
def Conf.nSaveG (cf : Conf) : Nat := if cf.tensorial || cf.gradFill then cf.nSaveV else cf.offset

/-- `t[i] = a` without bounds check. -/
def writeAt {α : Type} (l : List α) (i : Nat) (a : α) : Res (List α) :=
  if i < l.length then .ok (l.set i a) else .ub

/-- operator_sintering_data.h:165-170: initialisation of `table_lanes`.  The table has
`VectorizedArrayType::size()` columns, the loop runs over the order parameters. -/
def initLanes (nCells nLanes nGrains : Nat) : Res (List (Option Nat)) :=
  ((List.range nCells).flatMap fun i => (List.range nGrains).map fun j => i * nLanes + j).foldlM
    (fun t k => writeAt t k none) (List.replicate (nCells * nLanes) (some 0))

variable {K : Type} [LinearOrder K] [AddCommGroup K]

/-- `Vector::linfty_norm` -/
def linfty (l : List K) : K := l.foldl (fun m x => max m |x|) 0

/-- operator_sintering_data.h:192-203: one active lane. -/
def markLane (cf : Conf) (tol : K) (row : List Bool) (v : Nat → List K) : List Bool :=
  row.mapIdx fun b m => if tol < linfty (v (b + cf.offset)) then true else m

/-- operator_sintering_data.h:172-207: `component_table`, one row per cell batch. -/
def componentTable (cf : Conf) (tol : K) (cells : List (List (Nat → List K))) : List (List Bool) :=
  cells.map fun lanes => lanes.foldl (markLane cf tol) (List.replicate cf.nGrains false)

/-- operator_sintering_data.h:493-499: the data set by `set_component_mask`. -/
structure Mask where
  table : List (List Bool)
  /-- `relevant_grains_vector`, elements are `unsigned char` -/
  relevant : List Nat
  relPtr : List Nat
  valuePtr : List Nat
  gradPtr : List Nat
  deriving DecidableEq, Repr

/-- operator_sintering_data.h:215-242: one cell batch. -/
def pushCell (cf : Conf) (m : Mask) (row : List Bool) : Mask :=
  let sel := (List.range cf.nGrains).filter fun j => row.getD j false
  let relevant := m.relevant ++ sel.map (· % 256)
  let nv := cf.nSaveV - cf.nGrains + sel.length
  let ng := if cf.tensorial || cf.gradMask then nv else cf.offset
  { table := m.table ++ [row]
    relevant := relevant
    relPtr := m.relPtr ++ [relevant.length]
    valuePtr := m.valuePtr ++ [m.valuePtr.getLastD 0 + cf.nq * nv]
    gradPtr := m.gradPtr ++ [m.gradPtr.getLastD 0 + cf.nq * ng] }

/-- operator_sintering_data.h:149-298 `set_component_mask`.  `src.block` is not checked; `print_stat`
(248-295) dereferences the maximum of an empty range if there is no cell. -/
def setMask (cf : Conf) (tol : K) (cells : List (List (Nat → List K))) : Res Mask := do
  let _ ← initLanes cells.length cf.nLanes cf.nGrains
  if cf.nBlocks < cf.nComponents then .ub
  else if cells.isEmpty then .ub
  else .ok ((componentTable cf tol cells).foldl (pushCell cf) ⟨[], [], [0], [0], [0]⟩)

variable {X : Type} [Zero X]

/-- operator_sintering_data.h:353-370: the value stored in the uncompressed table. -/
def plain (cf : Conf) (m : Option Mask) (val : Nat → Nat → Nat → X) (cell q c : Nat) : Res X :=
  match m with
  | none => .ok (val cell q c)
  | some m =>
    if 0 < m.table.length ∧ cf.offset ≤ c then do
      let r ← Res.index m.table.flatten (cell * cf.nGrains + (c - cf.offset))
      .ok (if r then val cell q c else 0)
    else .ok (val cell q c)

/-- operator_sintering_data.h:341-371: the uncompressed table, `n` components are stored. -/
def plainTable (cf : Conf) (m : Option Mask) (n : Nat) (val : Nat → Nat → Nat → X) (nCells : Nat) :
    Res (List (List (List X))) :=
  (List.range nCells).mapM fun cell => (List.range cf.nq).mapM fun q =>
    (List.range n).mapM fun c => plain cf m val cell q c

/-- operator_sintering_data.h:389-391, 396-398 -/
def keep (cf : Conf) (row : List Bool) (c : Nat) : Bool :=
  decide (c < cf.offset) || decide (cf.offset + cf.nGrains ≤ c) || row.getD (c - cf.offset) false

/-- operator_sintering_data.h:386-401: what is appended for one cell batch, in order. -/
def compressed (cf : Conf) (row : List Bool) (n : Nat) (tab : List (List X)) : List X :=
  tab.flatMap fun vals => ((List.range n).filter (keep cf row)).map fun c => vals.getD c 0

/-- `array[counter++] = x` for a list of values. -/
def writeSeq (arr : List X) (start : Nat) (xs : List X) : Res (List X) :=
  match xs with
  | [] => .ok arr
  | x :: xs => do
    let a ← writeAt arr start x
    writeSeq a (start + 1) xs

/-- operator_sintering_data.h:373-405, one cell batch after the other. -/
def compressLoop (cf : Conf) (n : Nat) (ptr : List Nat) :
    Nat → List (List Bool) → List (List (List X)) → List X → Res (List X)
  | cell, row :: rows, tab :: tabs, arr => do
    let start ← Res.index ptr cell
    let a ← writeSeq arr start (compressed cf row n tab)
    compressLoop cf n ptr (cell + 1) rows tabs a
  | _, _, _, arr => .ok arr

/-- The uncompressed (flat) and the compressed table of values or gradients. -/
structure Field (X : Type) where
  full : List X
  compact : List X
  deriving DecidableEq, Repr

/-- operator_sintering_data.h:331-335 (resize), 341-406 for one of the two fields. -/
def fillField (cf : Conf) (m : Option Mask) (n : Nat) (ptr : Mask → List Nat) (val : Nat → Nat → Nat → X)
    (nCells : Nat) : Res (Field X) := do
  let t ← plainTable cf m n val nCells
  match m with
  | none => .ok { full := (t.map List.flatten).flatten, compact := [] }
  | some m => do
    let a ← compressLoop cf n (ptr m) 0 m.table t (List.replicate ((ptr m).getLastD 0) 0)
    .ok { full := (t.map List.flatten).flatten, compact := a }

/-- operator_sintering_data.h:300-409 `fill_quadrature_point_values` -/
def fill {Y : Type} [Zero Y] (cf : Conf) (m : Option Mask) (val : Nat → Nat → Nat → X) (grad : Nat → Nat → Nat → Y)
    (nCells : Nat) : Res (Field X × Field Y) := do
  Res.assertThrow (decide (cf.nComponents ≤ cf.nBlocks))
  let v ← fillField cf m cf.nSaveV Mask.valuePtr val nCells
  let g ← fillField cf m cf.nSaveG Mask.gradPtr grad nCells
  .ok (v, g)

/-- operator_sintering_data.h:443-450 `get_relevant_grains` -/
def relevantGrains (m : Mask) (cell : Nat) : Res (List Nat) := do
  let a ← Res.index m.relPtr cell
  let b ← Res.index m.relPtr (cell + 1)
  if a ≤ b ∧ b ≤ m.relevant.length then .ok ((m.relevant.drop a).take (b - a)) else .ub

/-- operator_sintering_data.h:468-469 -/
def invertLoop : List Nat → Nat → List Nat → Res (List Nat)
  | [], _, r => .ok r
  | g :: gs, i, r => do
    let r ← writeAt r g (i % 256)
    invertLoop gs (i + 1) r

/-- operator_sintering_data.h:452-472 `get_grain_to_relevant_grain` -/
def grainToRelevant (cf : Conf) (m : Option Mask) (cell : Nat) : Res (List Nat) :=
  match m with
  | none => .ok ((List.range cf.nGrains).map (· % 256))
  | some m => do
    let rel ← relevantGrains m cell
    invertLoop rel 0 (List.replicate cf.nGrains 255)

/-- operator_sintering_generic.h:181-187: the pointer to the linearisation point after `q` quadrature points. -/
def ptrAfter (base stride : Nat) : Nat → Nat
  | 0 => base
  | q + 1 => ptrAfter base stride q + stride

/-- operator_sintering_data.h:82-98 `get_nonlinear_values(cell)`, `get_nonlinear_gradients(cell)`: array and
start position. -/
def linBase (cf : Conf) (m : Option Mask) (n : Nat) (ptr : Mask → List Nat) (f : Field X) (cell : Nat) :
    Res (List X × Nat) :=
  match m with
  | none => .ok (f.full, cell * (cf.nq * n))
  | some m => do
    let p ← Res.index (ptr m) cell
    .ok (f.compact, p)

/-- operator_sintering_generic.h:51, 114-117, 181: value number `k` seen by the Jacobian kernel at quadrature point `q`;
the kernel is instantiated for `nRel` order parameters. -/
def linValue (cf : Conf) (m : Option Mask) (f : Field X) (cell q nRel k : Nat) : Res X := do
  let b ← linBase cf m cf.nSaveV Mask.valuePtr f cell
  Res.index b.1 (ptrAfter b.2 (2 + nRel) q + k)

/-- operator_sintering_generic.h:52, 125-126, 182-187: gradient number `k` seen by the kernel. -/
def linGradient (cf : Conf) (m : Option Mask) (f : Field X) (cell q nRel k : Nat) : Res X := do
  let b ← linBase cf m cf.nSaveG Mask.gradPtr f cell
  Res.index b.1 (ptrAfter b.2 (2 + if cf.tensorial then nRel else 0) q + k)

end Verif.Cutoff
