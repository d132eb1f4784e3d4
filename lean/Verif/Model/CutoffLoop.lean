/-
Loops over the cells of the sintering operator with the table of relevant order parameters:
  applications/sintering/include/pf-applications/sintering/operator_sintering_generic.h
  applications/sintering/include/pf-applications/sintering/operator_base.h (dispatch)
  applications/sintering/include/pf-applications/sintering/instantiation.h

Simplifications: one lane and one quadrature point; for every block the value, the gradient, the contribution of the
old solutions and (order parameters only) the velocity at the point are given.  Reading the values from the vector
and distributing the result are linear and act block by block, they are left out.
-/
import Verif.Model.Cutoff
import Verif.Model.SinteringKernel

namespace Verif.CutoffLoop

open Verif.SinteringKernel

/-- One block of the solution at the quadrature point. -/
structure Blk (K V : Type) where
  val : K
  grad : V
  buf : K
  vel : Option V

/-- operator_sintering_generic.h:1038-1045: `vector_indices`, elements are `unsigned char`. -/
def residualBlocks (rel : List Nat) : List Nat := 0 :: 1 :: rel.map fun b => (b + 2) % 256

/-- operator_sintering_generic.h:496-508: blocks used by the Jacobian (no conversion back to `unsigned char`). -/
def vmultBlocks (rel : List Nat) : List Nat := 0 :: 1 :: rel.map (· + 2)

/-- operator_sintering_generic.h:498-508, 1047-1051 (`src_view`): `block(b)` is not checked. -/
def gather {α : Type} (l : List α) (idx : List Nat) : Res (List α) := idx.mapM (Res.index l)

/-- operator_sintering_generic.h:529, 1075 (`distribute_local_to_global(dst_view)`): one result per entry of the view is
added to the block. -/
def scatter {α : Type} [Add α] (dst : List α) : List Nat → List α → Res (List α)
  | b :: idx, r :: rows =>
    match dst[b]? with
    | some a => scatter (dst.set b (a + r)) idx rows
    | none => .ub
  | _, _ => .ok dst

/-- instantiation.h:97-109: instantiations of the kernels for 1 to `MAX_SINTERING_GRAINS` order parameters. -/
def dispatchAll (maxGrains n : Nat) : Res Unit := Res.assertThrow (decide (1 ≤ n ∧ n ≤ maxGrains))

/-- instantiation.h:143-150: instantiations for 2 to `MAX_SINTERING_GRAINS + 2` components. -/
def dispatchNt (maxGrains nComp : Nat) : Res Unit :=
  Res.assertThrow (decide (2 ≤ nComp ∧ nComp ≤ maxGrains + 2))

variable {K : Type} [Field K] [LinearOrder K] {V : Type} [AddCommGroup V] [Module K V]

/-- operator_sintering_generic.h:254-262: a view of at least two blocks as data of the kernel. -/
def toPoint : List (Blk K V) → Res (Point K V)
  | b0 :: b1 :: gs =>
    .ok { c := b0.val, mu := b1.val, gradC := b0.grad, gradMu := b1.grad, bufC := b0.buf
          grains := gs.map fun b => { eta := b.val, grad := b.grad, vel := b.vel, buf := b.buf } }
  | _ => .ub

/-- A view of increments as data of the Jacobian kernel. -/
def toIncr : List (K × V) → Res (Incr K V)
  | b0 :: b1 :: gs => .ok { c := b0.1, mu := b1.1, gradC := b0.2, gradMu := b1.2, etas := gs }
  | _ => .ub

/-- operator_sintering_generic.h:919-920: `submit_value` and `submit_gradient`, block by block. -/
def rows (o : Out K V) : List (K × V) := (o.valC, o.gradC) :: (o.valMu, o.gradMu) :: o.etas

/-- operator_sintering_generic.h:975-1006 (`do_evaluate_nonlinear_residual`): all blocks. -/
def residualAll (maxGrains : Nat) (p : Par K) (mode : Nat) (blocks : List (Blk K V)) : Res (List (K × V)) := do
  dispatchAll maxGrains (blocks.length - 2)
  let x ← toPoint blocks
  let o ← residual p mode x
  .ok (rows o)

/-- operator_sintering_generic.h:1008-1085 (`do_evaluate_nonlinear_residual_nt`): relevant blocks only. -/
def residualNt (maxGrains : Nat) (p : Par K) (mode : Nat) (blocks : List (Blk K V)) (rel : List Nat) :
    Res (List (K × V)) := do
  -- the integrators for every possible number of components are created first (1019-1030)
  dispatchNt maxGrains blocks.length
  let idx := residualBlocks rel
  let view ← gather blocks idx
  dispatchNt maxGrains view.length
  let x ← toPoint view
  let o ← residual p mode x
  scatter (blocks.map fun _ => (0, 0)) idx (rows o)

/-- operator_sintering_generic.h:540-577 (`do_vmult_range`): all blocks, `lin` is the linearisation point. -/
def vmultAll (maxGrains : Nat) (p : Par K) (lin : List (Blk K V)) (src : List (K × V)) : Res (List (K × V)) := do
  dispatchAll maxGrains (src.length - 2)
  let x ← toPoint lin
  let d ← toIncr src
  let o ← vmult p x d
  .ok (rows o)

/-- operator_sintering_generic.h:456-538 (`do_vmult_range_no_template`): relevant blocks only.  The linearisation
point is stored for the relevant blocks only (C40, C55). -/
def vmultNt (maxGrains : Nat) (p : Par K) (lin : List (Blk K V)) (src : List (K × V)) (rel : List Nat) :
    Res (List (K × V)) := do
  dispatchNt maxGrains src.length
  let idx := vmultBlocks rel
  let view ← gather src idx
  dispatchNt maxGrains view.length
  let l ← gather lin idx
  let x ← toPoint l
  let d ← toIncr view
  let o ← vmult p x d
  scatter (src.map fun _ => (0, 0)) idx (rows o)

/-- The vector types for which the products are overloaded. -/
inductive Vec
  /-- `LinearAlgebra::distributed::Vector` -/
  | flat
  /-- `LinearAlgebra::distributed::BlockVector` -/
  | block
  /-- `LinearAlgebra::distributed::DynamicBlockVector` -/
  | dynamic
  deriving DecidableEq

/-- The call made next. -/
inductive Call
  | vmult (v : Vec)
  | internal (v : Vec)
  | cellLoop (v : Vec)
  | matrix
  deriving DecidableEq

/-- operator_base.h:232-292, 295-356 (`vmult`) and operator_sintering_generic.h:450-454, 580-605, 608-614
(`vmult_internal`): what is called.  `none`: the call does its work and returns. -/
def next (matrixBased : Bool) : Call → Option Call
  | .vmult .flat => if matrixBased then some .matrix else some (.internal .flat)
  | .vmult v => if matrixBased then some (.vmult .flat) else some (.internal v)
  | .internal .flat => some (.vmult .flat)
  | .internal .block => some (.vmult .block)
  | .internal .dynamic => some (.cellLoop .dynamic)
  | .cellLoop _ => none
  | .matrix => none

/-- Running a chain of calls with bounded depth; `none`: not finished. -/
def run (matrixBased : Bool) : Nat → Call → Option Call
  | 0, _ => none
  | n + 1, c =>
    match next matrixBased c with
    | none => some c
    | some d => run matrixBased n d

end Verif.CutoffLoop
