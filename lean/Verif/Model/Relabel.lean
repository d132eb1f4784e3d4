/-
Tangent of the sintering operator, assembled for all blocks (`Verif.Energy` has the residual).
  applications/sintering/include/pf-applications/sintering/operator_sintering_generic.h:101-190, 539-678

Simplifications as in `Verif.Energy`.
-/
import Verif.Model.Energy

namespace Verif.Relabel

open Verif.SinteringKernel Verif.Energy
open Verif.Apps (QPt value gradient)

variable {K : Type} [Field K] [LinearOrder K] {n m d : Nat}

/-- operator_sintering_generic.h:562-567, 643-678: value and gradient of the vector the tangent is applied to. -/
def incr (q : VPt K n m d) (x : Fields K n m) : Incr K (Fin d → K) :=
  ⟨value q.1 x.c, value q.1 x.mu, gradient q.1 x.c, gradient q.1 x.mu, List.ofFn fun g => (value q.1 (x.eta g), gradient q.1 (x.eta g))⟩

/-- operator_sintering_generic.h:101-190, 539-577 at all points, integrated and added (`vmult`), at the linearisation point `u`. -/
def tangentAll (p : Par K) (weights : List K) (pts : List (VPt K n m d)) (u x : Fields K n m) : Res (Fields K n m) := do
  let w ← Res.index weights 0
  pts.foldlM (fun acc q => do
    let o ← vmult { p with weight := w } (point q u Fields.zero) (incr q x)
    .ok (submit q.1 o acc)) Fields.zero

end Verif.Relabel
