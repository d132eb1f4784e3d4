/-
The clamped bar: linear elasticity with the operator and the Newton method.
  applications/structural/clamped_bar.cc:46-290 (`run`)
  applications/structural/include/pf-applications/structural/operator_elastic_linear.h:65-300
  applications/sintering/include/pf-applications/sintering/operator_base.h:223-353, 417-502

Simplifications: one rank; a vector is a function of direction and node; the sum over the cells without conditions is a parameter `A` with the load
`load`; copies between blocks and interleaved components (C79) are left out; conditions in `AffineConstraints` are those of
`make_zero_boundary_constraints`: such entries are read as zero and nothing is added to them; when a matrix is assembled they get some entry on the
diagonal. The linear solver is a parameter with a contract in the specification.
-/
import Verif.Model.Structural
import Verif.Model.Newton
import Mathlib.Algebra.Order.Field.Basic
import Mathlib.Algebra.Module.Pi

namespace Verif.ClampedBar

open Verif.OpBase Verif.Structural Verif.Newton

/-- Vectors: direction and node. -/
abbrev Vec (K : Type) := Nat × Nat → K

/-- The operator: `given` are the conditions attached by hand, `idx` the nodes with conditions in `AffineConstraints`, `diagonal` the entries which
assembly puts on the diagonal of the latter. -/
structure Operator (K : Type) where
  dim : Nat
  A : Vec K → Vec K
  load : Vec K
  given : Dirichlet K
  idx : List Nat
  diagonal : Nat × Nat → K
  matrixBased : Bool

variable {K : Type} [Field K]

/-- A vector as read on the cells. -/
def Operator.read (o : Operator K) (u : Vec K) : Vec K := fun k => if k ∈ blockKeys o.dim o.idx then 0 else u k

/-- The sum over the cells: entries with conditions are read as zero, nothing is added to them. -/
def Operator.cells (o : Operator K) (u : Vec K) : Vec K := o.read (o.A (o.read u))

/-- The assembled matrix (operator_base.h:417-502): `post_system_matrix_compute` (operator_elastic_linear.h:181-197) makes rows with conditions by
hand those of the identity. -/
def Operator.matrix (o : Operator K) (u : Vec K) : Vec K := fun k =>
  if k ∈ o.given.keys then u k else if k ∈ blockKeys o.dim o.idx then o.diagonal k * u k else o.A (o.read u) k

/-- operator_base.h:293-353 `vmult` of block vectors with `do_pre_vmult` and `do_post_vmult` (operator_elastic_linear.h:147-179): source and
destination afterwards. With a matrix the copies of the vectors go through `pre_vmult` and `post_vmult` (229-263), too. -/
def Operator.vmult (o : Operator K) (src : Vec K) : Vec K × Vec K :=
  let ks := o.given.keys
  let s := writeAll ks (ks.map o.given.value) src
  let r := if o.matrixBased then
      (s, writeAll ks (ks.map o.given.value) (o.matrix (writeAll ks (ks.map o.given.value) s)))
    else vmultBlock o.cells o.dim o.idx s
  (writeAll ks (ks.map fun _ => 0) r.1, writeAll ks (ks.map o.given.value) r.2)

/-- operator_elastic_linear.h:65-94 `evaluate_nonlinear_residual`. -/
def Operator.residual (o : Operator K) (u : Vec K) : Vec K :=
  writeAll o.given.keys (o.given.keys.map o.given.value) (o.read fun k => o.A (o.read u) k + o.load k)

/-- The Newton method of clamped_bar.cc:215-262: at most 100 iterations, tolerances 1e-9 and 1e-6, no damping. -/
def newton [LinearOrder K] (o : Operator K) (norm : Vec K → Fl K) (lin : Nat → Vec K → Vec K → Res (Vec K × Nat)) : Solver K (Vec K) :=
  { residual := o.residual, norm := norm, lin := lin, maxIter := 100, absTol := 1 / 1000000000, relTol := 1 / 1000000, damping := false, reuse := true,
    doUpdate := true, hasPrecond := true, thresholdNewton := 100, thresholdLinear := 100, user := none }

/-- The bar: `left` are the nodes of the boundary with number 1, `nodes` the number of nodes. -/
structure Bar (K : Type) where
  dim : Nat
  nodes : Nat
  left : List Nat
  A : Vec K → Vec K
  load : Vec K
  diagonal : Nat × Nat → K

/-- clamped_bar.cc:107-121, 143-177: the conditions are attached by hand or put into `AffineConstraints`. -/
def Bar.operator (b : Bar K) (manual matrixBased : Bool) : Operator K :=
  { dim := b.dim, A := b.A, load := b.load, diagonal := b.diagonal, matrixBased := matrixBased
    given := attach b.dim b.nodes fun _ i => if manual && b.left.contains i then some 0 else none
    idx := if manual then [] else b.left }

/-- clamped_bar.cc:140, 264: the displacement at the end; `none`: the iterations do not end. -/
def Bar.run [LinearOrder K] (b : Bar K) (manual matrixBased : Bool) (norm : Vec K → Fl K) (lin : Nat → Vec K → Vec K → Res (Vec K × Nat)) :
    Option (Res (Vec K)) :=
  (solve (newton (b.operator manual matrixBased) norm lin) 0 0 (fun _ => 0) 101).map fun r =>
    match r with
    | .ok st => .ok st.dst
    | .exc e => .exc e
    | .ub => .ub

end Verif.ClampedBar
