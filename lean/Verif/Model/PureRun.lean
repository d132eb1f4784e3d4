/-
A run of the driver in which the steps are solved by the damped Newton method for the equations of sintering.
-/
import Verif.Model.TimeLoop
import Verif.Model.Newton
import Verif.Model.Energy
import Mathlib.Algebra.Group.TransferInstance
import Mathlib.Algebra.Module.TransferInstance
import Mathlib.Algebra.Module.Prod
import Mathlib.Algebra.Module.Pi

namespace Verif.PureRun

open Verif.Newton Verif.Energy

variable {K : Type} [Field K] {n m d : Nat}

/-- The entries of a block vector. -/
def entries : Fields K n m ≃ (Fin n → K) × (Fin n → K) × (Fin m → Fin n → K) where
  toFun u := (u.c, u.mu, u.eta)
  invFun t := ⟨t.1, t.2.1, t.2.2⟩
  left_inv _ := rfl
  right_inv _ := rfl

instance : AddCommGroup (Fields K n m) := entries.addCommGroup

instance : Module K (Fields K n m) := entries.module K

variable [LinearOrder K]

/-- What is decided outside of one pass of the loop: see `Attempt` (sanity check, refinement, predictor), the points of the mesh, the solver without its
residual, the counters left by earlier calls, whether the iterations were few, and what an exception leaves behind. The number of nodes is kept: simplified. -/
structure Config (K : Type) (n m d : Nat) where
  limit : Fields K n m → Fields K n m
  remesh : Fields K n m → Fields K n m
  guess : Option (Fields K n m)
  pts : List (VPt K n m d)
  solver : Solver K (Fields K n m)
  histN : Nat
  histL : Nat
  good : Bool
  garbage : Fields K n m

/-- time_marching.h:129-136, 360 with operator_sintering_generic.h:978-1006: the residual handed to the solver, with order and weights of the time integrator and the old
solutions of the history. Whether it is defined does not depend on the vector, which `stepOutcome` asks first. -/
def residualFn (par : SinteringKernel.Par K) (c : Config K n m d) (data : TimeData K) (h : List (Fields K n m)) (u : Fields K n m) : Fields K n m :=
  match residualAll par 2 data.order data.weights c.pts u (oldSolutions h) with
  | .ok r => r
  | _ => u

/-- driver.h:2204-2235, 2411-2505 with solvers_nonlinear.h:247-357: the solver starts from the current solution; exceptions are caught. -/
def stepOutcome (par : SinteringKernel.Par K) (c : Config K n m d) (data : TimeData K) (h : List (Fields K n m)) : Res (Outcome (Fields K n m)) := do
  let x ← getCurrent h
  let _ ← residualAll par 2 data.order data.weights c.pts x (oldSolutions h)
  match solve { c.solver with residual := residualFn par c data h } c.histN c.histL x c.solver.maxIter with
  | some (.ok st) => .ok (.success st.dst c.good)
  | some (.exc _) => .ok (.failure c.garbage)
  | _ => .ub

/-- driver.h:1935-2706: one pass. -/
def passNewton (p : LoopParams K) (par : SinteringKernel.Par K) (st : RunState K (Fields K n m)) (c : Config K n m d) : Res (RunState K (Fields K n m)) := do
  let h ← prepare ⟨c.limit, c.remesh, c.guess, .failure c.garbage⟩ st.converged st.hist
  let o ← stepOutcome par c st.data h
  pass p st ⟨c.limit, c.remesh, c.guess, o⟩

/-- driver.h:1932-2707: the loop, with at most `fuel` passes; `none` if it has not ended by then. -/
def runNewton (p : LoopParams K) (par : SinteringKernel.Par K) (oracle : Nat → Config K n m d) :
    Nat → Nat → RunState K (Fields K n m) → Option (Res (RunState K (Fields K n m)))
  | 0, _, st => if loopCond p st.t then none else some (.ok st)
  | fuel + 1, j, st =>
    if loopCond p st.t then
      match passNewton p par st (oracle j) with
      | .ok st => runNewton p par oracle fuel (j + 1) st
      | .exc e => some (.exc e)
      | .ub => some .ub
    else some (.ok st)

end Verif.PureRun
