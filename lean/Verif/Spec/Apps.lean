/-
Specification of the small applications: energies, amounts, moved vectors.
-/
import Verif.Model.Apps

namespace Verif.Spec.Apps

open Finset Verif.Apps

variable {K : Type} [Field K] {n d nq m : Nat}

/-- A vector moved by `t` along another one. -/
def along (u x : Fin n → K) (t : K) : Fin n → K := fun i => u i + t * x i

/-- Scalar product with a test function, for one component of a vector. -/
def test (r w : Fin n → K) : K := ∑ i, r i * w i

/-- Integral of the product of two functions. -/
def inner (D : Fin nq → QPt K n d) (u w : Fin n → K) : K := ∑ q, (D q).w * (value (D q) u * value (D q) w)

/-- Integral of the product of two gradients. -/
def stiff (D : Fin nq → QPt K n d) (u w : Fin n → K) : K := ∑ q, (D q).w * ∑ e, gradient (D q) u e * gradient (D q) w e

/-- Energy with density `f` and gradient term. -/
def energy (f : K → K) (kappa : K) (D : Fin nq → QPt K n d) (u : Fin n → K) : K :=
  ∑ q, (D q).w * (f (value (D q) u) + kappa / 2 * ∑ e, gradient (D q) u e ^ 2)

/-- Double well with minima at one and minus one. -/
def doubleWell (x : K) : K := (x ^ 2 - 1) ^ 2 / 2

/-- Double well with minima at zero and one. -/
def mixture (x : K) : K := x ^ 2 * (1 - x) ^ 2

/-- Integral of a function. -/
def amount (D : Fin nq → QPt K n d) (u : Fin n → K) : K := ∑ q, (D q).w * value (D q) u

/-- The shape functions sum up to one. -/
def Unity (D : Fin nq → QPt K n d) : Prop := ∀ q, ∑ i, (D q).N i = 1 ∧ ∀ e, ∑ i, (D q).G i e = 0

/-- The mass matrix is regular. -/
def Regular (D : Fin nq → QPt K n d) : Prop := ∀ u : Fin n → K, (∀ w, inner D u w = 0) → u = fun _ => 0

end Verif.Spec.Apps
