/-
What the implicit time step gives to the nonlinear solver:
  include/pf-applications/time_integration/time_marching.h:85-520 (callbacks)
  applications/sintering/include/pf-applications/sintering/driver.h:1286-1312 (`nl_quantities_to_check`)
  include/pf-applications/lac/solvers_nonlinear_snes.h:215-400
  include/pf-applications/lac/solvers_nonlinear.h:418-520 (`NonLinearSolverWrapper`)

Simplifications: a matrix is an element of an additive group, its assembly adds the contributions of the cells at the linearisation point,
`calc_numeric_tangent` overwrites entries of what is there and is a parameter (C93). The nonlinear solvers of Trilinos and PETSc are
parameters. Matrices of blocks, timers and output streams are left out.
-/
import Verif.Model.Res
import Mathlib.Algebra.Group.Defs
import Mathlib.Algebra.BigOperators.Group.List.Basic
import Mathlib.Algebra.Field.Defs
import Mathlib.Order.Defs.LinearOrder

namespace Verif.NewtonSetup

/-! ### Jacobian and preconditioner -/

/-- Parameters; `usesSystem`: bit `System` of `underlying_entity` of the preconditioner. -/
structure Cfg where
  matrixBased : Bool
  jacobiFree : Bool
  fdmJacobian : Bool
  fdmPrecond : Bool
  usesSystem : Bool
  direct : Bool
deriving DecidableEq, Repr

/-- Linearisation point of the operator, its matrix (`none`: without rows), the point of `JacobianFree`, the matrix the preconditioner was
computed from. -/
structure St (P M : Type) where
  point : Option P
  matrix : Option M
  freePoint : Option P
  precond : Option M
deriving DecidableEq, Repr

section
variable {P M : Type} [AddCommGroup M] (contrib : P → M) (tangent : P → M → M)

/-- operator_base.h:419-494 `initialize_system_matrix`; the integrals read the data at the linearisation point, which are not there before the
first `setup_linearization_point`. -/
def initMatrix (compute : Bool) (s : St P M) : Res (St P M) :=
  let empty := s.matrix.isNone
  let m := s.matrix.getD 0
  if compute then
    match s.point with
    | none => .ub
    | some p => .ok { s with matrix := some ((if empty then m else 0) + contrib p) }
  else .ok { s with matrix := some m }

/-- `calc_numeric_tangent` at `u` on the matrix of the operator. -/
def numeric (u : P) (s : St P M) : Res (St P M) :=
  match s.matrix with
  | none => .ub
  | some m => .ok { s with matrix := some (tangent u m) }

/-- time_marching.h:138-167 `nl_setup_jacobian`, with `do_update` (operator_base.h:691-695). -/
def setupJacobian (c : Cfg) (u : P) (s : St P M) : Res (St P M) := do
  let s := { s with point := some u }
  let s ← if c.matrixBased then initMatrix contrib true s else .ok s
  let s ← if c.fdmJacobian then (initMatrix contrib false s >>= numeric tangent u) else .ok s
  .ok (if c.jacobiFree then { s with freePoint := some u } else s)

/-- time_marching.h:170-207 `nl_setup_preconditioner`. -/
def setupPreconditioner (c : Cfg) (u : P) (s : St P M) : Res (St P M) :=
  if c.usesSystem then do
    let s ← if c.fdmPrecond then (initMatrix contrib false s >>= numeric tangent u) else initMatrix contrib true s
    .ok { s with precond := s.matrix }
  else .ok s

/-- solvers_nonlinear.h:276-288: before a linear system is solved at `u`; `update`: also the preconditioner. -/
def prepare (c : Cfg) (s : St P M) (e : P × Bool) : Res (St P M) := do
  let s ← setupJacobian contrib tangent c e.1 s
  if e.2 && !c.direct then setupPreconditioner contrib tangent c e.1 s else .ok s

/-- What the linear solver multiplies with or factorises. -/
inductive Used (P M : Type) where
  | matrix (m : M)
  | analytic (p : P)
  | differences (p : P)
deriving DecidableEq, Repr

/-- time_marching.h:106-125, solvers_linear.h:362-472, jacobian_operator.h, operator_base.h:231-380. -/
def used (c : Cfg) (s : St P M) : Res (Used P M) :=
  if c.direct || (!c.jacobiFree && c.matrixBased) then
    match s.matrix with
    | none => .ub
    | some m => .ok (.matrix m)
  else if c.jacobiFree then
    match s.freePoint with
    | none => .ub
    | some p => .ok (.differences p)
  else
    match s.point with
    | none => .ub
    | some p => .ok (.analytic p)

end

/-! ### Report of the residuals -/

/-- driver.h:1286-1312: name, first block, number of blocks; `n` components of the phase field, `off` before the order parameters, `nOp`
components of the operator. -/
def quantities (n off nOp dim : Nat) : List (String × Nat × Nat) :=
  (if 0 < off then [("ch", 0, 1)] else []) ++
  (if 1 < off then [("mu", 1, 1)] else []) ++
  (if n - off ≠ 0 then [("ac", off, n - off)] else []) ++
  (if n < nOp then [("mec", nOp - dim, dim)] else [])

section
variable {K : Type} [Field K] [LinearOrder K] (sqrt : K → K)

/-- Variables of the closure `nl_check_iteration_status`. -/
structure Report (K : Type) where
  v0 : K
  vs0 : List K
  prev : Nat
deriving DecidableEq

/-- A line that is printed; `none`: dashes. -/
structure Line (K : Type) where
  step : Nat
  abs : K
  rel : Option K
  parts : List (K × Option K)
  linear : Nat
deriving DecidableEq

/-- time_marching.h:259-263: squared norm of a quantity; `r` are the squared norms of the blocks of the vector. -/
def partSum (r : List K) (off : Nat) : Nat → Res K
  | 0 => .ok 0
  | k + 1 => do
    let a ← partSum r off k
    match r[off + k]? with
    | none => .ub
    | some x => .ok (a + x)

/-- time_marching.h:310-322: a quantity and its number. -/
def relPart (step : Nat) (vs0 : List K) (x : K × Nat) : Res (K × Option K) :=
  if 0 < step then
    match vs0[x.2]? with
    | none => .ub
    | some y => .ok (x.1, some (if y = 0 then 0 else x.1 / y))
  else .ok (x.1, none)

/-- time_marching.h:243-338 `nl_check_iteration_status`; `n` linear iterations so far, `unsigned int` differences modulo 2^32. -/
def report (qs : List (String × Nat × Nat)) (s : Report K) (step : Nat) (v : K) (r : List K) (n : Nat) : Res (Report K × Line K) := do
  let vs ← qs.mapM fun q => do
    let x ← partSum r q.2.1 q.2.2
    Res.ok (sqrt x)
  let s := if step = 0 then ⟨v, vs, 0⟩ else s
  let linear := ((n : Int) - s.prev) % 2 ^ 32
  let parts ← vs.zipIdx.mapM (relPart step s.vs0)
  .ok (⟨s.v0, s.vs0, n⟩, ⟨step, v, if 0 < step then some (if s.v0 = 0 then 0 else v / s.v0) else none, parts, linear.toNat⟩)

/-- The calls in one solve: norm, squared norms of the blocks, linear iterations so far, with the numbers of the steps (solvers_nonlinear.h:265,
355). -/
def reports (qs : List (String × Nat × Nat)) : Nat → Report K → List (K × List K × Nat) → Res (List (Line K))
  | _, _, [] => .ok []
  | step, s, (v, r, n) :: runs => do
    let (s, l) ← report sqrt qs s step v r n
    let ls ← reports qs (step + 1) s runs
    .ok (l :: ls)

end

/-! ### Wrappers of other nonlinear solvers -/

/-- What a call of the wrapped solver leaves behind: the vector, the number of steps, or a failure. -/
inductive Outcome (V : Type) where
  | done (x : V) (steps : Nat)
  | failed (x : V)
deriving DecidableEq

/-- solvers_nonlinear.h:446-460 (NOX): vector, counter of Newton steps, exception or not. -/
def noxSolve {V : Type} (solver : V → Outcome V) (x : V) (newton : Nat) : V × Nat × Res Unit :=
  match solver x with
  | .done y k => (y, newton + k, .ok ())
  | .failed y => (y, newton, .exc .newtonDidNotConverge)

/-- solvers_nonlinear_snes.h:386-397, solvers_nonlinear.h:492-510 (SNES). A failure of PETSc leaves the vector as it was, as it works on a copy. -/
def snesSolve {V : Type} (maxIter : Nat) (solver : V → Outcome V) (x : V) (newton : Nat) : V × Nat × Res Unit :=
  match solver x with
  | .done y k => if maxIter = 0 ∨ k < maxIter then (y, newton + k, .ok ()) else (y, newton, .exc .newtonDidNotConverge)
  | .failed _ => (x, newton, .exc .newtonDidNotConverge)

/-- solvers_nonlinear_snes.h:285-307: decisions to update the preconditioner in one call of `solve`, one per nonlinear step, for the numbers of
linear iterations `ls`; `k` steps so far, the last one with `l` linear iterations. -/
def snesUpdates (thrN thrL : Nat) : Nat → Nat → List Nat → List Bool
  | _, _, [] => []
  | k, l, m :: ls => (decide (0 < thrN) && decide (k % thrN = 0) || decide (thrL < l)) :: snesUpdates thrN thrL (k + 1) m ls

/-- All calls of `solve`: `reuse_solver` keeps its default `false` (time_marching.h:467-473), so the counters are cleared in each. -/
def snesRuns (thrN thrL : Nat) (runs : List (List Nat)) : List (List Bool) := runs.map (snesUpdates thrN thrL 0 0)

/-- solvers_nonlinear.h:278-298: the same for `DampedNewtonSolver`, with the counters left behind; division by zero is undefined. -/
def dampedUpdates (thrN thrL : Nat) : Nat → Nat → List Nat → Res (List Bool × Nat × Nat)
  | k, l, [] => .ok ([], k, l)
  | k, l, m :: ls =>
    if thrN = 0 then .ub
    else do
      let (bs, k', l') ← dampedUpdates thrN thrL (k + 1) m ls
      .ok ((decide (k % thrN = 0) || decide (thrL < l)) :: bs, k', l')

/-- All calls of `solve` of `DampedNewtonSolver`. -/
def dampedRuns (thrN thrL : Nat) (reuse : Bool) : Nat → Nat → List (List Nat) → Res (List (List Bool))
  | _, _, [] => .ok []
  | k, l, r :: rs => do
    let (bs, k', l') ← dampedUpdates thrN thrL (if reuse then k else 0) (if reuse then l else 0) r
    let bss ← dampedRuns thrN thrL reuse k' l' rs
    .ok (bs :: bss)

end Verif.NewtonSetup
