/-
Linear elasticity: material law, Voigt notation, elastic operator with Dirichlet values.

/repo/applications/structural/include/pf-applications/structural/tools.h, material.h, stvenantkirchhoff.h,
operator_elastic_linear.h
/repo/applications/sintering/include/pf-applications/sintering/operator_sintering_coupled_base.h:94-103
-/
import Mathlib.LinearAlgebra.Matrix.Notation
import Mathlib.Algebra.Field.Defs
import Verif.Model.OpBase

namespace Verif.Structural

open Matrix Verif.OpBase

variable {K : Type} [Field K]

/-- tools.h:46-54 `apply_l` in two dimensions. -/
def voigt2 (H : Matrix (Fin 2) (Fin 2) K) : Fin 3 → K := ![H 0 0, H 1 1, H 1 0 + H 0 1]

/-- tools.h:55-65 `apply_l` in three dimensions. -/
def voigt3 (H : Matrix (Fin 3) (Fin 3) K) : Fin 6 → K :=
  ![H 0 0, H 1 1, H 2 2, H 0 1 + H 1 0, H 1 2 + H 2 1, H 0 2 + H 2 0]

/-- tools.h:76-85 `apply_l_transposed` in two dimensions. -/
def unvoigt2 (v : Fin 3 → K) : Matrix (Fin 2) (Fin 2) K := !![v 0, v 2; v 2, v 1]

/-- tools.h:86-102 `apply_l_transposed` in three dimensions. -/
def unvoigt3 (v : Fin 6 → K) : Matrix (Fin 3) (Fin 3) K := !![v 0, v 3, v 5; v 3, v 1, v 4; v 5, v 4, v 2]

/-- material.h:11-16 `MaterialPlaneType` -/
inductive Plane
  | stress
  | strain
  | none
  deriving DecidableEq

/-- stvenantkirchhoff.h:20: `lambda`. -/
def lambda (dim : Nat) (E nu : K) : K := E * nu / (1 + nu) / (1 - ((dim - 1 : Nat) : K) * nu)

/-- stvenantkirchhoff.h:21: `mu_x_2`. -/
def mu2 (E nu : K) : K := E / (1 + nu)

/-- stvenantkirchhoff.h:23-38: the coefficients `f0`, `f1`, `f2` in two dimensions. -/
def coefficients (E nu : K) (plane : Plane) : K × K × K :=
  if plane = .stress then (E * 1 / (1 - nu * nu), E * nu / (1 - nu * nu), E * (1 - nu) / 2 / (1 - nu * nu))
  else
    (E * (1 - nu) / (1 + nu) / (1 - 2 * nu), E * nu / (1 + nu) / (1 - 2 * nu), E * (1 - 2 * nu) / 2 / (1 + nu) / (1 - 2 * nu))

/-- stvenantkirchhoff.h:40-48: the matrix `C` in two dimensions. -/
def stiffness (E nu : K) (plane : Plane) : Matrix (Fin 3) (Fin 3) K :=
  let f := coefficients E nu plane
  !![f.1, f.2.1, 0; f.2.1, f.1, 0; 0, 0, f.2.2]

/-- stvenantkirchhoff.h:54-69: stress from the tensor as given (not made symmetric). -/
def lame {n : Nat} (E nu : K) (H : Matrix (Fin n) (Fin n) K) : Matrix (Fin n) (Fin n) K :=
  fun i j => mu2 E nu * H i j + if i = j then lambda n E nu * ∑ k, H k k else 0

/-- stvenantkirchhoff.h:51-77 `get_S` in two dimensions. -/
def stress2 (E nu : K) (plane : Plane) (H : Matrix (Fin 2) (Fin 2) K) : Matrix (Fin 2) (Fin 2) K :=
  if plane = .none then lame E nu H else unvoigt2 (stiffness E nu plane *ᵥ voigt2 H)

/-- stvenantkirchhoff.h:51-77 `get_S` in three dimensions. -/
def stress3 (E nu : K) (H : Matrix (Fin 3) (Fin 3) K) : Matrix (Fin 3) (Fin 3) K := lame E nu H

/-- operator_sintering_coupled_base.h:94-103, preconditioners.h:267-275 `get_stress`: factor of the stress. -/
def solidFraction [LinearOrder K] (cMin c : K) : K := if c < cMin then cMin else c

/-! The elastic operator -/

/-- Entries with Dirichlet values, operator_elastic_linear.h:197-226, in the order direction, owned index. -/
structure Dirichlet (K : Type) where
  keys : List (Nat × Nat)
  value : Nat × Nat → K

/-- operator_elastic_linear.h:197-226 `attach_dirichlet_boundary_conditions` for all directions: constrained owned indices with
their inhomogeneity (`none`: not constrained). -/
def attach (dim owned : Nat) (ac : Nat → Nat → Option K) : Dirichlet K :=
  { keys := (List.range dim).flatMap fun d => ((List.range owned).filter fun i => (ac d i).isSome).map fun i => (d, i)
    value := fun k => (ac k.1 k.2).getD 0 }

/-- operator_base.h:293-353 with `do_pre_vmult` and `do_post_vmult` of operator_elastic_linear.h:147-179: source and destination
afterwards. -/
def vmult (A : (Nat × Nat → K) → Nat × Nat → K) (D : Dirichlet K) (src : Nat × Nat → K) :
    (Nat × Nat → K) × (Nat × Nat → K) :=
  let s := writeAll D.keys (D.keys.map D.value) src
  let d := A s
  (writeAll D.keys (D.keys.map fun _ => 0) s, writeAll D.keys (D.keys.map D.value) d)

/-- operator_elastic_linear.h:64-94 `evaluate_nonlinear_residual`; `R` is the sum over the cells. -/
def residual (R : (Nat × Nat → K) → Nat × Nat → K) (D : Dirichlet K) (u : Nat × Nat → K) : Nat × Nat → K :=
  writeAll D.keys (D.keys.map D.value) (R u)

/-- operator_elastic_linear.h:279-299: what is integrated at a quadrature point: value and gradient. `FEEvaluation` keeps evaluated and
submitted values in the same place, so without `submit_value` the evaluated value is integrated. -/
def submitted {n : Nat} (S : Matrix (Fin n) (Fin n) K → Matrix (Fin n) (Fin n) K) (loading : Option (Fin n → K))
    (value : Fin n → K) (gradient : Matrix (Fin n) (Fin n) K) : (Fin n → K) × Matrix (Fin n) (Fin n) K :=
  (loading.getD value, S gradient)

end Verif.Structural
