/-
Specification: the energy of a solution, its rate.
-/
import Verif.Model.Energy
import Mathlib.Analysis.Calculus.Deriv.Pow
import Mathlib.Analysis.Calculus.Deriv.Add
import Mathlib.Analysis.Calculus.Deriv.Mul

namespace Verif.Energy.Spec

open Finset
open Verif.Apps (QPt)

variable {n m d : Nat}

/-- The bulk energy of a mixture with concentration and order parameters. -/
noncomputable def bulk (A B c : ℝ) (eta : Fin m → ℝ) : ℝ :=
  A * c ^ 2 * (1 - c) ^ 2 + B * (c ^ 2 + 6 * (1 - c) * ∑ g, eta g ^ 2 - 4 * (2 - c) * ∑ g, eta g ^ 3 + 3 * (∑ g, eta g ^ 2) ^ 2)

/-- The value of a field at a point. -/
noncomputable def valAt (q : QPt ℝ n d) (u : Fin n → ℝ) : ℝ := ∑ i, q.N i * u i

/-- The squared length of the gradient of a field at a point. -/
noncomputable def grad2 (q : QPt ℝ n d) (u : Fin n → ℝ) : ℝ := ∑ e, (∑ i, q.G i e * u i) ^ 2

/-- The density of the energy: bulk and interfaces. -/
noncomputable def density (A B kC kP : ℝ) (q : QPt ℝ n d) (u : Fields ℝ n m) : ℝ :=
  bulk A B (valAt q u.c) (fun g => valAt q (u.eta g)) + kC / 2 * grad2 q u.c + kP / 2 * ∑ g, grad2 q (u.eta g)

/-- The energy: the integral of its density. -/
noncomputable def energy (A B kC kP : ℝ) (pts : List (QPt ℝ n d)) (u : Fields ℝ n m) : ℝ :=
  (pts.map fun q => q.w * density A B kC kP q u).sum

/-- The integral of the squared rates of the order parameters. -/
noncomputable def motion (pts : List (QPt ℝ n d)) (x : Fields ℝ n m) : ℝ := (pts.map fun q => q.w * ∑ g, valAt q (x.eta g) ^ 2).sum

/-- The entries of the mass matrix times a vector. -/
noncomputable def mass (pts : List (QPt ℝ n d)) (x : Fin n → ℝ) (i : Fin n) : ℝ := (pts.map fun q => q.w * (valAt q x * q.N i)).sum

/-- A curve of vectors has a velocity. -/
def Moves (U : ℝ → Fields ℝ n m) (x : Fields ℝ n m) (t : ℝ) : Prop :=
  (∀ i, HasDerivAt (fun s => (U s).c i) (x.c i) t) ∧ ∀ g i, HasDerivAt (fun s => (U s).eta g i) (x.eta g i) t

/-- The straight line from `u` in direction `x`. -/
noncomputable def line (u x : Fields ℝ n m) (s : ℝ) : Fields ℝ n m :=
  ⟨fun i => u.c i + s * x.c i, fun i => u.mu i + s * x.mu i, fun g i => u.eta g i + s * x.eta g i⟩

/-- The discrete rate: the solution and the old ones, weighted. -/
noncomputable def rate (order : Nat) (weights : List ℝ) (u : Fields ℝ n m) (olds : List (Fields ℝ n m)) : Fields ℝ n m :=
  ⟨fun i => weights.getD 0 0 * u.c i + ∑ j ∈ range order, weights.getD (j + 1) 0 * (olds.getD j ⟨0, 0, 0⟩).c i,
   fun i => weights.getD 0 0 * u.mu i + ∑ j ∈ range order, weights.getD (j + 1) 0 * (olds.getD j ⟨0, 0, 0⟩).mu i,
   fun g i => weights.getD 0 0 * u.eta g i + ∑ j ∈ range order, weights.getD (j + 1) 0 * (olds.getD j ⟨0, 0, 0⟩).eta g i⟩

/-- Coefficients without sign errors, no advection, and order parameters that are not negative at the points. -/
structure Regular (p : SinteringKernel.Par ℝ) (pts : List (VPt ℝ n m d)) (u : Fields ℝ n m) : Prop where
  vol : 0 ≤ p.mob.Mvol
  vap : 0 ≤ p.mob.Mvap
  surf : 0 ≤ p.mob.Msurf
  gb : 0 ≤ p.mob.Mgb
  L : 0 < p.mob.L
  alg : 0 ≤ p.weightAlg
  w : ∀ q ∈ pts, 0 ≤ q.1.w
  still : ∀ q ∈ pts, ∀ g, q.2 g = none
  eta : ∀ q ∈ pts, ∀ g, 0 ≤ valAt q.1 (u.eta g)

end Verif.Energy.Spec
