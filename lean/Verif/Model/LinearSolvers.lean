/-
Wrappers of the linear solvers and their selection:
  include/pf-applications/lac/solvers_linear.h

Simplifications: the solvers of deal.II are parameters; a run has a limit of steps and a first guess and ends with convergence, with
`SolverControl::NoConvergence` or with another exception.
-/
import Verif.Model.Res

namespace Verif.LinearSolvers

/-- End of a run of an iterative solver: value of the vector and number of steps, or another exception. -/
inductive End (X : Type) where
  | converged (x : X) (steps : Nat)
  | noConvergence (x : X) (steps : Nat)
  | other
deriving DecidableEq

/-- An iterative solver: limit of steps and first guess. -/
abbrev Solver (X : Type) := Nat → X → End X

/-- The part of `SolverControl` used here. -/
structure Control where
  maxSteps : Nat
  lastStep : Nat
deriving DecidableEq

/-- What `solve` gives: the number of steps reported, or the exception that leaves it; `dst` at the end (unknown after another exception). -/
inductive Outcome (X : Type) where
  | solved (x : X) (steps : Nat)
  | noConvergence (x : X)
  | other
deriving DecidableEq

/-- solvers_linear.h:80-105, 145-156, 257-266 (`solve_internal` of GMRES, CG and IDR). -/
def plain {X : Type} (run : Solver X) (c : Control) (dst : X) : Control × Outcome X :=
  match run c.maxSteps dst with
  | .converged x n => ({ c with lastStep := n }, .solved x n)
  | .noConvergence x n => ({ c with lastStep := n }, .noConvergence x)
  | .other => (c, .other)

/-- solvers_linear.h:306-346 (`SolverBicgstabWrapper::solve_internal`). -/
def bicgstab {X : Type} (bicg gmres : Solver X) (maxBicg : Nat) (c : Control) (dst : X) : Control × Outcome X :=
  match bicg maxBicg dst with
  | .converged x n => ({ maxSteps := c.maxSteps, lastStep := n }, .solved x n)
  | .other => ({ c with maxSteps := maxBicg }, .other)
  | .noConvergence _ _ =>
    match gmres c.maxSteps dst with
    | .converged x n => ({ maxSteps := c.maxSteps, lastStep := n }, .solved x (n + maxBicg))
    | .noConvergence x n => ({ maxSteps := c.maxSteps, lastStep := n }, .noConvergence x)
    | .other => ({ maxSteps := c.maxSteps, lastStep := c.lastStep }, .other)

/-- The solvers that can be created. -/
inductive Kind where
  | gmres
  | relaxation
  | idr
  | bicgstab
  | direct
deriving DecidableEq

/-- solvers_linear.h:405-441 (`create` without the nonlinear operator). -/
def createKind (label : String) : Res Kind :=
  if label = "GMRES" then .ok .gmres
  else if label = "Relaxation" then .ok .relaxation
  else if label = "IDR" then .ok .idr
  else if label = "Bicgstab" then .ok .bicgstab
  else .exc .assertThrow

/-- solvers_linear.h:443-462 (`create` with the nonlinear operator). -/
def createKindDirect (label : String) : Res Kind := if label = "Direct" then .ok .direct else createKind label

/-- solvers_linear.h:89-98: orthogonalisation of GMRES; true for the classical method. -/
def orthogonalization (s : String) : Res Bool :=
  if s = "classical gram schmidt" then .ok true
  else if s = "modified gram schmidt" then .ok false
  else .exc .assertThrow

end Verif.LinearSolvers
