/-
Hooke's law of an isotropic body.
-/
import Mathlib.LinearAlgebra.Matrix.Notation
import Mathlib.Algebra.Field.Defs

namespace Verif.Spec.Structural

open Matrix

variable {K : Type} [Field K]

/-- Strain: symmetric part of the displacement gradient. -/
def strain {n : Nat} (H : Matrix (Fin n) (Fin n) K) : Matrix (Fin n) (Fin n) K := fun i j => (H i j + H j i) / 2

/-- Hooke's law in terms of modulus of elasticity and Poisson's ratio: `(1 + nu) / E * sigma - nu / E * tr(sigma) I` is the
strain. -/
def Hooke (E nu : K) (eps sigma : Matrix (Fin 3) (Fin 3) K) : Prop :=
  ∀ i j, eps i j = (1 + nu) / E * sigma i j - if i = j then nu / E * (sigma 0 0 + sigma 1 1 + sigma 2 2) else 0

/-- Plane tensor as part of a tensor in space, with the given normal component. -/
def inSpace (H : Matrix (Fin 2) (Fin 2) K) (z : K) : Matrix (Fin 3) (Fin 3) K :=
  !![H 0 0, H 0 1, 0; H 1 0, H 1 1, 0; 0, 0, z]

/-- Double contraction. -/
def contract {n : Nat} (S H : Matrix (Fin n) (Fin n) K) : K := ∑ i, ∑ j, S i j * H i j

end Verif.Spec.Structural
