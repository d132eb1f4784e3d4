/-
Residual and tangent of the sintering operator, assembled: the row of the concentration.
  applications/sintering/include/pf-applications/sintering/operator_sintering_generic.h:393-448, 876-1006
  include/pf-applications/lac/solvers_nonlinear.h:285-345 (the increment of Newton's method)

Simplifications: cells, lanes and ranks are one list of quadrature points with the values and gradients of all shape functions there;
shape functions are those of the constrained space (values at hanging nodes are eliminated), and old solutions, which are read without
resolving constraints (951), fulfil them.  Only the entries of the first block are followed; what the history adds to the rows of the
order parameters is left out, as these rows do not enter the first block.  Scalar mobility; the velocities are given for every point.
-/
import Verif.Model.Apps
import Verif.Model.SinteringKernel
import Verif.Model.TimeLoop
import Verif.Model.Numerics

namespace Verif.Amount

open Finset Verif.SinteringKernel
open Verif.Apps (QPt value gradient)

variable {K : Type} {n d : Nat}

/-- A block vector: concentration, chemical potential, order parameters. -/
structure Sol (K : Type) (n : Nat) where
  c : Fin n → K
  mu : Fin n → K
  etas : List (Fin n → K)

section
variable [Field K]

/-- operator_sintering_generic.h:948-965 (one pass of the loop over the old solutions): the first one sets the buffer, the others are added. -/
def historyStep (weights : List K) (olds : List (Fin n → K)) (b : Fin n → K) (i : Nat) : Res (Fin n → K) := do
  let w ← Res.index weights (i + 1)
  let o ← Res.index olds i
  .ok (if i = 0 then fun j => o j * w else fun j => b j + o j * w)

/-- operator_sintering_generic.h:928-973 (`do_evalute_history`): with order zero the buffer is not set. -/
def history (order : Nat) (weights : List K) (olds : List (Fin n → K)) : Res (Fin n → K) :=
  if order = 0 then .ub else (List.range order).foldlM (historyStep weights olds) fun _ => 0

variable [LinearOrder K]

/-- operator_sintering_generic.h:893-905: values and gradients at a quadrature point. -/
def point (q : QPt K n d) (vel : List (Option (Fin d → K))) (u : Sol K n) (buf : Fin n → K) : Point K (Fin d → K) :=
  { c := value q u.c, mu := value q u.mu, gradC := gradient q u.c, gradMu := gradient q u.mu,
    grains := u.etas.zipIdx.map fun e => ⟨value q e.1, gradient q e.1, (vel[e.2]?).join, 0⟩, bufC := value q buf }

/-- operator_sintering_generic.h:920-925, 1003: integration and addition to the vector, first block. -/
def submit (q : QPt K n d) (o : Out K (Fin d → K)) (acc : Fin n → K) : Fin n → K :=
  fun i => acc i + q.w * (o.valC * q.N i + ∑ e, o.gradC e * q.G i e)

/-- operator_sintering_generic.h:978-1006 (`do_evaluate_nonlinear_residual`): first block. `mode` is the template parameter
`with_time_derivative`; order and weights are those of the time integrator (940-942, 246). -/
def residualC (p : Par K) (mode order : Nat) (weights : List K) (pts : List (QPt K n d)) (vel : Nat → List (Option (Fin d → K)))
    (u : Sol K n) (olds : List (Sol K n)) : Res (Fin n → K) := do
  let w ← Res.index weights 0
  let buf ← if mode = 2 then history order weights (olds.map (·.c)) else .ok fun _ => 0
  pts.zipIdx.foldlM (fun acc q => do
    let o ← residual { p with weight := w } mode (point q.1 (vel q.2) u buf)
    .ok (submit q.1 o acc)) fun _ => 0

/-- operator_sintering_generic.h:101-190 summed over all points (`vmult`), first block, at the linearisation point `u`. -/
def tangentC (p : Par K) (weights : List K) (pts : List (QPt K n d)) (vel : Nat → List (Option (Fin d → K))) (u x : Sol K n) : Res (Fin n → K) := do
  let w ← Res.index weights 0
  pts.zipIdx.foldlM (fun acc q => do
    let o ← vmult { p with weight := w } (point q.1 (vel q.2) u fun _ => 0)
      ⟨value q.1 x.c, value q.1 x.mu, gradient q.1 x.c, gradient q.1 x.mu, x.etas.map fun e => (value q.1 e, gradient q.1 e)⟩
    .ok (submit q.1 o acc)) fun _ => 0

/-- solvers_nonlinear.h:308-310, 339: the solution with the increment added, `omega` is the damping factor (one without damping). -/
def moved (omega : K) (u x : Sol K n) : Sol K n :=
  ⟨fun i => u.c i + omega * x.c i, fun i => u.mu i + omega * x.mu i, List.zipWith (fun a b i => a i + omega * b i) u.etas x.etas⟩

/-- The mass matrix of the explicit schemes (time_marching.h:589-629), for one block. -/
def massC (pts : List (QPt K n d)) (k : Fin n → K) (i : Fin n) : K := (pts.map fun q => q.w * (value q k * q.N i)).sum

/-- driver.h:1941-1946 with phasefield_tools.h:22-44: the sanity check, first block. -/
def limited (u : Fin n → K) : Fin n → K := fun i => (Numerics.limitValue 0 1 (some (u i))).getD 0

end

/-- A solution with the mesh it lives on. -/
structure Disc (K : Type) where
  n : Nat
  d : Nat
  pts : List (QPt K n d)
  u : Sol K n

end Verif.Amount
