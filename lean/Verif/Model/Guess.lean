import Verif.Model.TimeLoop
import Verif.Model.Explicit

/-!
# Initial guess of a time step

`driver.h:2001-2058` (predictors), `solution_history.h:204-215` (`extrapolate`), with the pass of the time loop of module `TimeLoop`, in which the
guess was a parameter.

A vector has a layout (mesh and number of blocks, as set up by `initialize_dof_vector`) and values in a vector space. Adding vectors with different
layouts is undefined: the checks in deal.II are for debug builds. Refinement and tracker (`remesh`) work on all vectors of the history but the recent
one (`driver.h:1383, 1527`).
-/

namespace Verif.Guess

/-- A block vector. -/
structure Vec (L W : Type) where
  layout : L
  val : W
deriving DecidableEq

/-- `params.time_integration_data.predictor`. -/
inductive Kind where
  | none | linear | euler | midpoint
deriving DecidableEq

section
variable {K L W : Type} [Field K] [LinearOrder K] [DecidableEq L] [AddCommGroup W] [Module K W]

/-- `x.sadd(s, y)`: `x := s * x + y`. -/
def sadd (x : Vec L W) (s : K) (y : Vec L W) : Res (Vec L W) :=
  if x.layout = y.layout then .ok ⟨x.layout, s • x.val + y.val⟩ else .ub

/-- `x.add(s, y)`: `x := x + s * y`. -/
def add (x : Vec L W) (s : K) (y : Vec L W) : Res (Vec L W) :=
  if x.layout = y.layout then .ok ⟨x.layout, x.val + s • y.val⟩ else .ub

/-- `solution_history.h:204-215`. -/
def extrapolate (h : List (Vec L W)) (factor : K) : Res (Vec L W) := do
  let s0 ← Res.index h 0
  let s1 ← Res.index h 1
  let d ← add s0 (-1 : K) s1
  sadd d factor s0

/-- `evaluate_nonlinear_residual<0>` into a vector set up for the present mesh. -/
def residualOf (res : L → W → W) (v : Vec L W) : Vec L W := ⟨v.layout, res v.layout v.val⟩

/-- `driver.h:2004-2042`: `extrap` for a predictor other than `None`; it starts as the zero vector of the present mesh. The last branch is an `Assert`,
which does nothing in release builds. -/
def extrap (c : Kind) (res : L → W → W) (dt : K) (data : TimeData K) (h : List (Vec L W)) : Res (Vec L W) := do
  let sol ← getCurrent h
  let zero : Vec L W := ⟨sol.layout, 0⟩
  match c with
  | .euler => sadd (residualOf res sol) (-dt) sol
  | .midpoint => do
    let m ← sadd (residualOf res sol) (-dt / 2) sol
    sadd (residualOf res m) (-dt) sol
  | _ =>
    if c = .linear ∧ data.order > 1 then do
      let dt0 ← Res.index data.dt 0
      let dt1 ← Res.index data.dt 1
      if dt0 > 0 ∧ dt1 > 0 then extrapolate h (dt0 / dt1) else .ok zero
    else .ok zero

/-- `driver.h:2001-2058`: the guess that replaces the solution, if any; `clip`: sanity check of the predictor. -/
def guess (c : Kind) (clip : Vec L W → Vec L W) (res : L → W → W) (t dt : K) (data : TimeData K) (h : List (Vec L W)) :
    Res (Option (Vec L W)) :=
  if c ≠ .none ∧ t > 0 then do
    let e ← extrap c res dt data h
    .ok (some (clip e))
  else .ok none

/-- The history when the predictor is called (`driver.h:1938-1994`). -/
def adapted (a : Attempt (Vec L W)) (converged : Bool) (h : List (Vec L W)) : List (Vec L W) :=
  if converged then histApply true false true a.remesh (histApply true false false a.limit h) else h

/-- One pass of the loop with its predictor. -/
def passGuess (p : LoopParams K) (c : Kind) (clip : Vec L W → Vec L W) (res : L → W → W) (st : RunState K (Vec L W)) (a : Attempt (Vec L W)) :
    Res (RunState K (Vec L W)) := do
  let g ← guess c clip res st.t st.dt st.data (adapted a st.converged st.hist)
  pass p st { a with guess := g }

end

end Verif.Guess
