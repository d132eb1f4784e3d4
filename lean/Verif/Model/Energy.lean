/-
Residual of the sintering operator, assembled for all blocks.
  applications/sintering/include/pf-applications/sintering/operator_sintering_generic.h:876-1006

Simplifications: cells, lanes and ranks are one list of quadrature points with the values and gradients of all shape functions there and the
velocities of the grains; shape functions are those of the constrained space (values at hanging nodes are eliminated), and old solutions, which
are read without resolving constraints (951), fulfil them.  Scalar mobility.
-/
import Verif.Model.Apps
import Verif.Model.SinteringKernel

namespace Verif.Energy

open Finset Verif.SinteringKernel
open Verif.Apps (QPt value gradient)

/-- A block vector: concentration, chemical potential, order parameters. -/
structure Fields (K : Type) (n m : Nat) where
  c : Fin n → K
  mu : Fin n → K
  eta : Fin m → Fin n → K

variable {K : Type} [Field K] {n m d : Nat}

/-- All entries times a number. -/
def Fields.scale (u : Fields K n m) (w : K) : Fields K n m := ⟨fun i => u.c i * w, fun i => u.mu i * w, fun g i => u.eta g i * w⟩

/-- Sum of all entries. -/
def Fields.add (u v : Fields K n m) : Fields K n m := ⟨fun i => u.c i + v.c i, fun i => u.mu i + v.mu i, fun g i => u.eta g i + v.eta g i⟩

/-- A vector of zeros. -/
def Fields.zero : Fields K n m := ⟨fun _ => 0, fun _ => 0, fun _ _ => 0⟩

/-- operator_sintering_generic.h:948-965 (one pass of the loop over the old solutions): the first one sets the buffer, the others are added. -/
def historyStep (weights : List K) (olds : List (Fields K n m)) (b : Fields K n m) (i : Nat) : Res (Fields K n m) := do
  let w ← Res.index weights (i + 1)
  let o ← Res.index olds i
  .ok (if i = 0 then o.scale w else b.add (o.scale w))

/-- operator_sintering_generic.h:928-973 (`do_evalute_history`): with order zero the buffer is not set. -/
def history (order : Nat) (weights : List K) (olds : List (Fields K n m)) : Res (Fields K n m) :=
  if order = 0 then .ub else (List.range order).foldlM (historyStep weights olds) Fields.zero

variable [LinearOrder K]

/-- A quadrature point with the velocities of the grains there. -/
abbrev VPt (K : Type) (n m d : Nat) := QPt K n d × (Fin m → Option (Fin d → K))

/-- operator_sintering_generic.h:893-905: values and gradients at a quadrature point. -/
def point (q : VPt K n m d) (u buf : Fields K n m) : Point K (Fin d → K) :=
  { c := value q.1 u.c, mu := value q.1 u.mu, gradC := gradient q.1 u.c, gradMu := gradient q.1 u.mu,
    grains := List.ofFn fun g => ⟨value q.1 (u.eta g), gradient q.1 (u.eta g), q.2 g, value q.1 (buf.eta g)⟩, bufC := value q.1 buf.c }

/-- operator_sintering_generic.h:920-925: value and gradient of a component times all shape functions, added. -/
def entry (q : QPt K n d) (val : K) (grad : Fin d → K) (acc : Fin n → K) : Fin n → K :=
  fun i => acc i + q.w * (val * q.N i + ∑ e, grad e * q.G i e)

/-- operator_sintering_generic.h:920-925, 1003: integration and addition to the vector, all blocks. -/
def submit (q : QPt K n d) (o : Out K (Fin d → K)) (acc : Fields K n m) : Fields K n m :=
  ⟨entry q o.valC o.gradC acc.c, entry q o.valMu o.gradMu acc.mu,
    fun g => entry q (o.etas.getD g (0, 0)).1 (o.etas.getD g (0, 0)).2 (acc.eta g)⟩

/-- operator_sintering_generic.h:978-1006 (`do_evaluate_nonlinear_residual`). `mode` is the template parameter
`with_time_derivative`; order and weights are those of the time integrator (940-942, 246). -/
def residualAll (p : Par K) (mode order : Nat) (weights : List K) (pts : List (VPt K n m d)) (u : Fields K n m) (olds : List (Fields K n m)) :
    Res (Fields K n m) := do
  let w ← Res.index weights 0
  let buf ← if mode = 2 then history order weights olds else .ok Fields.zero
  pts.foldlM (fun acc q => do
    let o ← residual { p with weight := w } mode (point q u buf)
    .ok (submit q.1 o acc)) Fields.zero

end Verif.Energy
