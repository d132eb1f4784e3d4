import Verif.Model.Res
import Mathlib.Algebra.Group.Defs

/-!
# Life of the preconditioners

Models, across the whole run:
  include/pf-applications/lac/preconditioners.h (`clear`, `do_update`, `vmult`, `underlying_entity`, `memory_consumption` of all classes but
  `GMG`, of which only `memory_consumption`),
  applications/sintering/include/pf-applications/sintering/operator_base.h:95-107 (`clear`), 417-502 (`initialize_system_matrix`),
  543-613 (`initialize_block_system_matrix`), 640-657 (`memory_consumption`),
  applications/sintering/include/pf-applications/sintering/preconditioners.h:568-630 (`OperatorAllenCahnBlocked::get_block_system_matrix`),
  1154-1186 (`BlockPreconditioner2::clear`), 1259-1291 (`do_update`, `underlying_entity`),
  include/pf-applications/time_integration/time_marching.h:170-207 (`nl_setup_preconditioner`), 528-532 (`clear`),
  include/pf-applications/lac/solvers_nonlinear.h:247-298, 351-356 (when the preconditioner is updated),
  applications/sintering/include/pf-applications/sintering/driver.h:1402-1414, 1624-1628, 2190-2194 (when everything is cleared),
  2399-2445 (report of the memory).

Simplifications: what a matrix is computed from is the shape `S` (mesh and number of components) and the data `D` (linearisation point, time
step, velocities).  A matrix carries its shape; work with matrices or vectors of another shape is undefined.  What a preconditioner makes out
of a matrix is not modelled, it is represented by the matrix.  The numerical tangent is left out (C126).
-/

namespace Verif.Prepared

/-- Classes of lac/preconditioners.h. -/
inductive Kind where
  | identity
  | inverseDiagonal
  | componentBlocks
  | cellBlocks
  | amg
  | blockAmg
  | ilu
  | blockIlu
  | ic
  | gmg
deriving DecidableEq, Repr

/-- lac/preconditioners.h:146, 199, 305, 410, 665, 746, 835, 967, 1059, 1323: `underlying_entity`. -/
inductive Entity where
  | none
  | system
  | blocks
deriving DecidableEq, Repr

/-- `underlying_entity`. -/
def entity : Kind → Entity
  | .identity | .inverseDiagonal | .gmg => .none
  | .componentBlocks | .cellBlocks | .amg | .ilu | .ic => .system
  | .blockAmg | .blockIlu => .blocks

/-- The operator behind a preconditioner: number of components, number of different blocks (`n_unique_components`), whether its kernel is
implemented (`OperatorAllenCahn` for one order parameter is not), and what the integrals give. `own`: `get_block_system_matrix` assembles by
itself (`OperatorAllenCahnBlocked`). -/
structure Disc (S D M : Type) where
  comps : S → Nat
  unique : S → Nat
  implemented : S → Bool
  own : Bool
  system : S → D → M
  block : S → D → Nat → M
  diagonal : S → D → M

/-- `system_matrix` (`none`: without rows) and `block_system_matrix`. Of a pair `OperatorAllenCahn`, `OperatorAllenCahnBlocked` the former only
uses the first and the latter only the second. -/
structure Op (S M : Type) where
  sys : Option (S × M)
  blocks : List (S × M)
deriving DecidableEq, Repr

/-- A preconditioner: class, `single_block` (decided by the constructor), matrices it was computed from, work vectors (`src_`, `dst_`). -/
structure Part (S M : Type) where
  kind : Kind
  single : Bool
  content : List (S × M)
  work : Option S
deriving DecidableEq, Repr

section
variable {S D M : Type} [DecidableEq S] [AddMonoid M]

/-- operator_base.h:95-107 `clear`. -/
def Op.clear (_ : Op S M) : Op S M := ⟨none, []⟩

/-- `system_matrix = 0.0`. -/
def zeroed (m : S × M) : S × M := (m.1, 0)

/-- Integrals added to a matrix; a matrix of another shape is undefined. -/
def added (s : S) (x : M) (m : S × M) : Res (S × M) := if m.1 = s then .ok (m.1, m.2 + x) else .ub

/-- operator_base.h:417-502 `initialize_system_matrix(true)`. -/
def initSystem (o : Disc S D M) (s : S) (d : D) (op : Op S M) : Res (Op S M) := do
  let start := match op.sys with
    | none => (s, 0)
    | some m => zeroed m
  if o.implemented s = false then .exc .assertThrow
  else do
    let m ← added s (o.system s d) start
    .ok { op with sys := some m }

/-- operator_base.h:600-605, preconditioners.h:624-626: `for (b < n) *block_system_matrix[b] = 0.0`. -/
def zeroBlocks (n : Nat) (l : List (S × M)) : Res (List (S × M)) :=
  if n ≤ l.length then .ok ((l.take n).map zeroed ++ l.drop n) else .ub

/-- `compute_matrix` with a matrix per block. -/
def addBlocks (o : Disc S D M) (s : S) (d : D) (n : Nat) (l : List (S × M)) : Res (List (S × M)) := do
  let a ← (l.take n).zipIdx.mapM fun mb => added s (o.block s d mb.2) mb.1
  .ok (a ++ l.drop n)

/-- operator_base.h:543-613 `initialize_block_system_matrix(true)` with `n = n_components()` and preconditioners.h:568-752 with
`n = n_unique_components()`. The report reads the first block. -/
def initBlocks (o : Disc S D M) (n : Nat) (s : S) (d : D) (op : Op S M) : Res (Op S M) := do
  let start ← match op.blocks with
    | [] => if n = 0 then .ub else .ok (List.replicate n (s, 0))
    | l => zeroBlocks n l
  if o.implemented s = false then .exc .assertThrow
  else do
    let l ← addBlocks o s d n start
    .ok { op with blocks := l }

/-- Constructors, lac/preconditioners.h:875-891: `single_block` with the components at that time. -/
def Part.make (o : Disc S D M) (k : Kind) (s : S) : Part S M := ⟨k, decide (o.unique s = 1), [], none⟩

/-- `clear`: lac/preconditioners.h:131-133, 181-185, 231-235, 330-335, 625-631, 700-704, 788-794, 893-897, 1018-1024. Only AMG, ILU and IC
release their work vectors. -/
def Part.clear (p : Part S M) : Part S M :=
  match p.kind with
  | .identity => p
  | .amg | .ilu | .ic => { p with content := [], work := none }
  | _ => { p with content := [] }

/-- `op.get_block_system_matrix()`: operator_base.h:538-542 or preconditioners.h:568-752. -/
def getBlocks (o : Disc S D M) (s : S) (d : D) (op : Op S M) : Res (Op S M) :=
  if o.own then initBlocks o (o.unique s) s d op else .ok op

/-- `do_update`: lac/preconditioners.h:150-152, 203-207, 277-302, 393-408, 655-662, 730-743, 827-832, 944-964, 1051-1056. A matrix without rows
is undefined. -/
def updatePart (o : Disc S D M) (s : S) (d : D) (op : Op S M) (p : Part S M) : Res (Op S M × Part S M) :=
  match p.kind with
  | .identity => .ok (op, p)
  | .inverseDiagonal => if o.implemented s then .ok (op, { p with content := [(s, o.diagonal s d)] }) else .exc .assertThrow
  | .componentBlocks =>
    match op.sys with
    | none => .ub
    | some m => .ok (op, { p with content := [m], work := none })
  | .cellBlocks | .amg | .ilu | .ic =>
    match op.sys with
    | none => .ub
    | some m => .ok (op, { p with content := [m] })
  | .blockAmg => do
    let op ← getBlocks o s d op
    .ok (op, { p with content := op.blocks })
  | .blockIlu => do
    let op ← getBlocks o s d op
    if p.single = false ∨ op.blocks.length = 1 then .ok (op, { p with content := op.blocks }) else .exc .assertThrow
  | .gmg => .exc .assertThrow

/-- A matrix used with vectors of shape `s`. -/
def usable (s : S) (m : S × M) : Res M := if m.1 = s then .ok m.2 else .ub

/-- Work vectors are made if there are none. -/
def workShape (s : S) (p : Part S M) : S := p.work.getD s

/-- Preconditioner of one block. -/
def blockMatrix (s : S) (l : List (S × M)) (b : Nat) : Res M := do
  let m ← Res.index l b
  usable s m

/-- `vmult`: lac/preconditioners.h:135-148, 193-197, 253-275, 330-391, 640-653, 720-728, 805-825, 905-942, 1031-1049; the matrices applied, one
for every block or one for all. -/
def applyPart (o : Disc S D M) (s : S) (p : Part S M) : Res (List M × Part S M) :=
  match p.kind with
  | .identity => .ok ([], p)
  | .inverseDiagonal | .cellBlocks => do
    let m ← blockMatrix s p.content 0
    .ok ([m], p)
  | .componentBlocks | .amg | .ilu | .ic => do
    if workShape s p = s then do
      let m ← blockMatrix s p.content 0
      .ok ([m], { p with work := some s })
    else .ub
  | .blockAmg => do
    let l ← (List.range (o.comps s)).mapM (blockMatrix s p.content)
    .ok (l, p)
  | .blockIlu =>
    if p.single then do
      let m ← blockMatrix s p.content 0
      if o.comps s < 20 then .ok (List.replicate (o.comps s) m, p) else .exc .assertThrow
    else do
      let l ← (List.range (o.comps s)).mapM (blockMatrix s p.content)
      .ok (l, p)
  | .gmg => .exc .assertThrow

/-- Part of a preconditioner with its operator; `inner`: part of `BlockPreconditioner2`. -/
structure Item (S D M : Type) where
  disc : Disc S D M
  inner : Bool

/-- time_marching.h:178-206 and preconditioners.h:1259-1284: matrices, then `do_update`. -/
def refresh (i : Item S D M) (s : S) (d : D) (x : Op S M × Part S M) : Res (Op S M × Part S M) := do
  let op ← if i.inner then initSystem i.disc s d x.1
    else match entity x.2.kind with
      | .none => .ok x.1
      | .system => initSystem i.disc s d x.1
      | .blocks => initBlocks i.disc (i.disc.comps s) s d x.1
  updatePart i.disc s d op x.2

/-! ### All parts -/

/-- Update of all parts (one part unless it is `BlockPreconditioner2`). -/
def refreshAll (s : S) (d : D) (l : List (Item S D M × Op S M × Part S M)) : Res (List (Item S D M × Op S M × Part S M)) :=
  l.mapM fun x => do
    let y ← refresh x.1 s d x.2
    .ok (x.1, y)

/-- `nonlinear_operator.clear()` and `preconditioner->clear()`. -/
def clearAll (l : List (Item S D M × Op S M × Part S M)) : List (Item S D M × Op S M × Part S M) :=
  l.map fun x => (x.1, x.2.1.clear, x.2.2.clear)

/-- Application of all parts. -/
def applyAll (s : S) (l : List (Item S D M × Op S M × Part S M)) : Res (List (List M) × List (Item S D M × Op S M × Part S M)) := do
  let r ← l.mapM fun x => do
    let y ← applyPart x.1.disc s x.2.2
    .ok (y.1, x.1, x.2.1, y.2)
  .ok (r.map (·.1), r.map (·.2))

/-! ### The run -/

/-- Parameters of the Newton solver. -/
structure Newton where
  thresholdNewton : Nat
  thresholdLinear : Nat
  reuse : Bool
deriving DecidableEq, Repr

/-- Shape of the problem, parts of the preconditioner, `history_newton_iterations`, `history_linear_iterations_last`. -/
structure St (S D M : Type) where
  shape : S
  parts : List (Item S D M × Op S M × Part S M)
  newtonCount : Nat
  linearLast : Nat

/-- What the driver does: a nonlinear solve with the data and the number of linear iterations of every Newton step, whatever its end; a change
of the mesh or of the number of components (driver.h:1402-1414, 1624-1628), a failed step (driver.h:2190-2194). -/
inductive Event (S D : Type) where
  | solve (its : List (D × Nat))
  | reshape (s : S)
  | failed
deriving DecidableEq, Repr

/-- solvers_nonlinear.h:276-294: one Newton step; `%` by zero is undefined. The number of applications of the preconditioner does not matter, one
stands for all. -/
def newtonStep (c : Newton) (st : St S D M) (it : D × Nat) : Res (List (List M) × St S D M) :=
  if c.thresholdNewton = 0 then .ub
  else do
    let parts ← if st.newtonCount % c.thresholdNewton = 0 ∨ c.thresholdLinear < st.linearLast then refreshAll st.shape it.1 st.parts
      else .ok st.parts
    let r ← applyAll st.shape parts
    .ok (r.1, { st with parts := r.2, newtonCount := st.newtonCount + 1, linearLast := it.2 })

/-- solvers_nonlinear.h:265-339: the loop. -/
def newtonLoop (c : Newton) : List (D × Nat) → St S D M → Res (List (List (List M)) × St S D M)
  | [], st => .ok ([], st)
  | it :: its, st => do
    let a ← newtonStep c st it
    let r ← newtonLoop c its a.2
    .ok (a.1 :: r.1, r.2)

/-- solvers_nonlinear.h:351-356 `clear`. -/
def clearNewton (st : St S D M) : St S D M := { st with newtonCount := 0, linearLast := 0 }

/-- One event; the matrices used in its Newton steps. -/
def event (c : Newton) (st : St S D M) : Event S D → Res (List (List (List M)) × St S D M)
  | .solve its => newtonLoop c its (if c.reuse = false then clearNewton st else st)
  | .reshape s => .ok ([], { clearNewton { st with parts := clearAll st.parts } with shape := s })
  | .failed => .ok ([], clearNewton { st with parts := clearAll st.parts })

/-- A run. -/
def run (c : Newton) : List (Event S D) → St S D M → Res (List (List (List (List M))) × St S D M)
  | [], st => .ok ([], st)
  | e :: es, st => do
    let a ← event c st e
    let r ← run c es a.2
    .ok (a.1 :: r.1, r.2)

end

/-! ### Memory -/

/-- lac/preconditioners.h:92-98 and the overrides: which classes report their memory. -/
def reportsMemory : Kind → Bool
  | .componentBlocks | .cellBlocks | .gmg => false
  | _ => true

/-- driver.h:2399-2445 with preconditioners.h:1293-1303: report after a step; `asked`: it is wanted and the system has changed; `parts` are the classes in use, the
preconditioner of the displacements is not asked. -/
def reportMemory (asked : Bool) (parts : List Kind) : Res Unit :=
  if asked && !(parts.take 2).all reportsMemory then .exc .assertThrow else .ok ()

/-- operator_base.h:640-657: sizes of constraints, matrix, blocks, work vectors, list of constrained entries. -/
def operatorMemory (constraints system : Nat) (blocks : List Nat) (src dst constrained values : Nat) : Nat :=
  constraints + system + blocks.sum + blocks.sum + src + dst + constrained + values

/-- driver.h:2438-2441: the data of the model are evaluated but not part of the total. -/
def totalMemory (tria dofs constraints mf _data op history prec : Nat) : Nat :=
  tria + dofs + constraints + mf + op + history + prec

end Verif.Prepared
