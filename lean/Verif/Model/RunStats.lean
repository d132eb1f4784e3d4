/-
Statistics of a run: counters of the solver (lac/solvers_nonlinear.h:34-113), where they are changed
(lac/solvers_nonlinear.h:247-386, 437-450, time_integration/time_marching.h:129-136, 200-241) and the totals of the driver
(sintering/driver.h:188-198, 2162-2176, 2209-2210, 2369-2385, 2468-2505, 2711-2725).

Counters are natural numbers, the overflow of 32 bit is left out.  An attempt to make a step is given by the work done in
it, in the order of execution, and by the way it ends; what is computed is not modelled here (see `Verif/Model/Newton.lean`
and `Verif/Model/TimeLoop.lean`).
-/
import Mathlib.Algebra.Order.Field.Basic

namespace Verif.RunStats

/-- What happens during an attempt. -/
inductive Work
  /-- evaluation of the residual -/
  | residual
  /-- linear solve with `n` iterations; if it does not converge it throws -/
  | linear (n : Nat) (converged : Bool)
  /-- `NewtonSolverSolverControl::check(step, ...)` -/
  | check (step : Nat)
  /-- call of an external solver (NOX, SNES) that needs `n` iterations; it throws if it does not converge -/
  | external (n : Nat) (converged : Bool)
  deriving DecidableEq, Repr

/-- solvers_nonlinear.h:34-113, the three counters -/
structure Stat where
  newton : Nat
  linear : Nat
  residual : Nat
  deriving DecidableEq, Repr

/-- `clear` (solvers_nonlinear.h:48-54) -/
def Stat.clear : Stat := ⟨0, 0, 0⟩

/-- Change of the counters: time_marching.h:135 (residual), 238 (linear solve, reached only if it converges),
solvers_nonlinear.h:107 (`check` stores the step), 443-444 and 482-483 (external solvers, reached only if they
converge). -/
def Stat.after (s : Stat) : Work → Stat
  | .residual => { s with residual := s.residual + 1 }
  | .linear n true => { s with linear := s.linear + n }
  | .linear _ false => s
  | .check step => { s with newton := step }
  | .external n true => { s with newton := s.newton + n }
  | .external _ false => s

/-- How an attempt ends: the step is accepted; an exception before it is accepted (Courant condition, solvers, grain
tracker); an exception after it was accepted (solver of the divergences of the fluxes, driver.h:2468-2485, which is in the
same `try` block). -/
inductive End
  | accepted
  | failed
  | late
  deriving DecidableEq, Repr

structure Attempt (K : Type) where
  dt : K
  work : List Work
  ending : End

/-- Totals of the driver (driver.h:147-157). -/
structure Totals (K : Type) where
  steps : Nat
  linear : Nat
  newton : Nat
  residual : Nat
  failed : Nat
  failedLinear : Nat
  failedNewton : Nat
  failedResidual : Nat
  maxDt : K
  deriving DecidableEq, Repr

section
variable {K : Type} [Field K] [LinearOrder K]

/-- driver.h:188-198 -/
def Totals.init : Totals K := ⟨0, 0, 0, 0, 0, 0, 0, 0, 0⟩

/-- driver.h:2237, 2372, 2382-2385 -/
def Totals.accept (c : Totals K) (s : Stat) (dt : K) : Totals K :=
  { c with steps := c.steps + 1, linear := c.linear + s.linear, newton := c.newton + s.newton
           residual := c.residual + s.residual, maxDt := max c.maxDt dt }

/-- `process_failure` (driver.h:2170-2175) -/
def Totals.fail (c : Totals K) (s : Stat) : Totals K :=
  { c with failed := c.failed + 1, failedLinear := c.failedLinear + s.linear
           failedNewton := c.failedNewton + s.newton, failedResidual := c.failedResidual + s.residual }

/-- One attempt: driver.h:2204-2505.  The counters are cleared first. -/
def attempt (c : Totals K) (a : Attempt K) : Totals K :=
  let s := a.work.foldl Stat.after Stat.clear
  match a.ending with
  | .accepted => c.accept s a.dt
  | .failed => c.fail s
  | .late => (c.accept s a.dt).fail s

/-- The time loop. -/
def run (c : Totals K) (as : List (Attempt K)) : Totals K := as.foldl attempt c

/-- driver.h:2717: non-linear iterations per step; a division by zero gives NaN or infinity, both are `none`. -/
def avgNewton (c : Totals K) : Option K := if c.steps = 0 then none else some ((c.newton : K) / (c.steps : K))

/-- driver.h:2718: linear iterations per non-linear iteration. -/
def avgLinear (c : Totals K) : Option K := if c.newton = 0 then none else some ((c.linear : K) / (c.newton : K))

end

/-- `DampedNewtonSolver::solve` (solvers_nonlinear.h:247-358) as work: for every completed iteration the number of linear
iterations and of evaluations of the residual (several with damping); `rest` is the work after the last check. -/
def newtonWork (its : List (Nat × Nat)) (rest : List Work) : List Work :=
  .residual :: .check 0 :: ((its.zipIdx.flatMap fun p =>
    .linear p.1.1 true :: List.replicate p.1.2 .residual ++ [.check (p.2 + 1)]) ++ rest)

end Verif.RunStats
