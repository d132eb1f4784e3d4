import Verif.Model.Res
import Mathlib.Algebra.Module.Defs
import Mathlib.Algebra.Order.Field.Basic
/-!
# Damped Newton solver

Models `NewtonSolverSolverControl::check` and `DampedNewtonSolver`
(include/pf-applications/lac/solvers_nonlinear.h:93-117, 236-394). Residual norms are elements of an
ordered field, infinite or not-a-number; comparisons follow IEEE 754. The residual, the norm and the
linear solver are parameters; the latter may depend on the number of the iteration (it is called once
per iteration) and may throw. `setup_jacobian` and the vector allocation have no modelled effect; the
calls of `setup_preconditioner` are recorded. Counters are unbounded.
-/
namespace Verif.Newton
variable {K V : Type}

/-- results of floating point computations on norms -/
inductive Fl (K : Type)
  | fin (x : K)
  | inf
  | nan
  deriving DecidableEq, Repr

section
variable [Field K] [LinearOrder K]

/-- `x > c` -/
def Fl.gt : Fl K → K → Bool
  | .fin x, c => decide (x > c)
  | .inf, _ => true
  | .nan, _ => false
/-- `x <= c` -/
def Fl.le : Fl K → K → Bool
  | .fin x, c => decide (x ≤ c)
  | _, _ => false
/-- `x >= y` -/
def Fl.ge : Fl K → Fl K → Bool
  | .fin x, .fin y => decide (x ≥ y)
  | .inf, .fin _ => true
  | .inf, .inf => true
  | _, _ => false
/-- `x < y` -/
def Fl.lt : Fl K → Fl K → Bool
  | .fin x, .fin y => decide (x < y)
  | .fin _, .inf => true
  | _, _ => false
/-- `x / y` for non-negative operands -/
def Fl.div : Fl K → Fl K → Fl K
  | .fin x, .fin y => if y = 0 then (if x = 0 then .nan else .inf) else .fin (x / y)
  | .fin _, .inf => .fin 0
  | .inf, .fin _ => .inf
  | _, _ => .nan
/-- `c * x` for positive `c` -/
def Fl.scale (c : K) : Fl K → Fl K
  | .fin x => .fin (c * x)
  | .inf => .inf
  | .nan => .nan
end

/-- `SolverControl::State` -/
inductive State
  | iterate | success | failure
  deriving DecidableEq, Repr

/-- parameters and callbacks of the solver -/
structure Solver (K V : Type) where
  residual : V → V
  norm : V → Fl K
  /-- `solve_with_jacobian`: iteration, linearisation point, right hand side; increment and number
  of linear iterations -/
  lin : Nat → V → V → Res (V × Nat)
  maxIter : Nat
  absTol : K
  relTol : K
  damping : Bool
  reuse : Bool
  doUpdate : Bool
  hasPrecond : Bool
  thresholdNewton : Nat
  thresholdLinear : Nat
  /-- `check_iteration_status` -/
  user : Option (Nat → Fl K → V → V → State)

/-- variables of `solve`; `log` lists the residual norms of all checks, newest first, `updates` the
iterations in which the preconditioner was set up, newest first -/
structure NState (K V : Type) where
  it : Nat
  dst : V
  res : V
  norm : Fl K
  v0 : Fl K
  histN : Nat
  histL : Nat
  log : List (Fl K)
  updates : List Nat
  deriving DecidableEq

variable [Field K] [LinearOrder K]

/-- `NewtonSolverSolverControl::check` (lines 93-117) for given initial residual -/
def statCheck (S : Solver K V) (step : Nat) (v v0 : Fl K) : State :=
  if v.gt S.absTol && (v.div v0).gt S.relTol && decide (step < S.maxIter) then .iterate
  else if v.le S.absTol || (v.div v0).le S.relTol then .success
  else .failure

/-- `DampedNewtonSolver::check` (lines 367-387); also stores the initial residual (line 102-103) -/
def check (S : Solver K V) (st : NState K V) : NState K V × State :=
  let v0 := if st.it = 0 then st.norm else st.v0
  let st := { st with v0 := v0, log := st.norm :: st.log }
  let s1 := statCheck S st.it st.norm v0
  match S.user with
  | none => (st, s1)
  | some f =>
    let s2 := f st.it st.norm st.dst st.res
    (st, if s1 = .failure ∨ s2 = .failure then .failure
      else if s1 = .iterate ∨ s2 = .iterate then .iterate
      else .success)

variable [AddCommGroup V] [Module K V]

/-- damping loop (lines 306-325) with `n` further iterations allowed: temporary solution, its
residual and norm, and the halved damping factor -/
def damp (S : Solver K V) (dst inc : V) (norm : Fl K) : Nat → K → V × V × Fl K × K
  | n, omega =>
    let tmp := dst + omega • inc
    let r := S.residual tmp
    let v := S.norm r
    let omega := omega / 2
    match n with
    | 0 => (tmp, r, v, omega)
    | n + 1 =>
      if v.ge (norm.scale (1 - 1 / 10 * omega)) then damp S dst inc norm n omega
      else (tmp, r, v, omega)

/-- body of the Newton loop up to the check (lines 271-350) -/
def iteration (S : Solver K V) (st : NState K V) : Res (NState K V) :=
  if S.thresholdNewton = 0 then .ub   -- remainder of a division by zero (line 280)
  else
    let exceeded := st.histN % S.thresholdNewton = 0 ∨ st.histL > S.thresholdLinear
    let updates := if S.hasPrecond ∧ S.doUpdate ∧ exceeded then st.it :: st.updates else st.updates
    match S.lin st.it st.dst ((-1 : K) • st.res) with
    | .ok (inc, nl) =>
      if S.damping then
        let (tmp, r, v, omega) := damp S st.dst inc st.norm 99 1
        if v.lt (st.norm.scale (1 - 1 / 10 * omega)) then
          .ok { st with it := st.it + 1, dst := tmp, res := r, norm := v, histN := st.histN + 1,
                        histL := nl, updates := updates }
        else .exc .newtonDidNotConverge
      else
        let dst := st.dst + (1 : K) • inc
        let r := S.residual dst
        .ok { st with it := st.it + 1, dst := dst, res := r, norm := S.norm r, histN := st.histN + 1,
                      histL := nl, updates := updates }
    | .exc e => .exc e
    | .ub => .ub

/-- Newton loop (lines 267-356); `none`: more than `fuel` iterations -/
def loop (S : Solver K V) : Nat → NState K V → Option (Res (NState K V))
  | fuel, st =>
    match check S st with
    | (st, .success) => some (.ok st)
    | (_, .failure) => some (.exc .newtonDidNotConverge)
    | (st, .iterate) =>
      match fuel with
      | 0 => none
      | fuel + 1 =>
        match iteration S st with
        | .ok st => loop S fuel st
        | .exc e => some (.exc e)
        | .ub => some .ub

/-- state before the loop (lines 250-265): `histN`, `histL` are the counters left by earlier calls -/
def start (S : Solver K V) (histN histL : Nat) (x : V) : NState K V :=
  let r := S.residual x
  ⟨0, x, r, S.norm r, .fin 0, if S.reuse then histN else 0, if S.reuse then histL else 0, [], []⟩

/-- `DampedNewtonSolver::solve` (lines 247-357) -/
def solve (S : Solver K V) (histN histL : Nat) (x : V) (fuel : Nat) : Option (Res (NState K V)) :=
  loop S fuel (start S histN histL x)

end Verif.Newton
