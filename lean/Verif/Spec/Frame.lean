/-
Specification: turned and mirrored frames.
-/
import Verif.Model.Relabel
import Verif.Model.MobilityParts
import Mathlib.Algebra.Module.LinearMap.Defs

namespace Verif.Frame.Spec

open Finset Verif.Energy
open Verif.Apps (QPt)

variable {K : Type} [Field K] {n m d : Nat}

/-- A turn or reflection: linear, keeps products of vectors. -/
structure Turn (Q : (Fin d → K) →ₗ[K] (Fin d → K)) : Prop where
  dot : ∀ a b, ∑ e, Q a e * Q b e = ∑ e, a e * b e

/-- A mesh in the other frame: gradients of shape functions and velocities are turned. -/
def turned (Q : (Fin d → K) →ₗ[K] (Fin d → K)) (q : VPt K n m d) : VPt K n m d := (⟨q.1.w, q.1.N, fun i => Q (q.1.G i)⟩, fun g => (q.2 g).map Q)

/-- Inner products of pairs and triples (vectors of the plane and of space as the rotations use them). -/
def inner2 {K : Type} [Field K] (a b : K × K) : K := a.1 * b.1 + a.2 * b.2
def inner3 {K : Type} [Field K] (a b : K × K × K) : K := a.1 * b.1 + a.2.1 * b.2.1 + a.2.2 * b.2.2

end Verif.Frame.Spec
