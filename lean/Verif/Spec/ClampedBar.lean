/-
Equilibrium of a clamped elastic body, and what is expected of the linear solver.
-/
import Verif.Model.ClampedBar

namespace Verif.ClampedBar.Spec

variable {K : Type} [Field K]

/-- Clamped at the nodes given, in equilibrium with the load at all other ones. -/
def Equilibrium (dim nodes : Nat) (left : List Nat) (A : Vec K → Vec K) (load u : Vec K) : Prop :=
  ∀ d < dim, ∀ i < nodes, (i ∈ left → u (d, i) = 0) ∧ (i ∉ left → A u (d, i) + load (d, i) = 0)

/-- The stiffness: linear, nothing outside of the nodes, and a clamped body does not move without forces. -/
structure Stiff (dim nodes : Nat) (left : List Nat) (A : Vec K → Vec K) : Prop where
  add : ∀ u v, A (fun k => u k + v k) = fun k => A u k + A v k
  neg : ∀ u, A (fun k => - u k) = fun k => - A u k
  only : ∀ u v, (∀ d < dim, ∀ i < nodes, u (d, i) = v (d, i)) → A u = A v
  outside : ∀ u k, ¬ (k.1 < dim ∧ k.2 < nodes) → A u k = 0
  definite : ∀ u, (∀ d < dim, ∀ i < nodes, (i ∈ left → u (d, i) = 0) ∧ (i ∉ left → A u (d, i) = 0)) → ∀ d < dim, ∀ i < nodes, u (d, i) = 0

/-- What iterative solvers do: the increment is a combination of vectors the operator was applied to, as they are afterwards. -/
def Combination (vmult : Vec K → Vec K × Vec K) (x : Vec K) : Prop :=
  ∃ l : List (K × Vec K), x = fun k => (l.map fun c => c.1 * (vmult c.2).1 k).sum

/-- Such a solver, without any accuracy. -/
def Krylov (vmult : Vec K → Vec K × Vec K) (lin : Nat → Vec K → Vec K → Res (Vec K × Nat)) : Prop :=
  ∀ it u b x n, lin it u b = .ok (x, n) → Combination vmult x

/-- An exact solver: it solves what can be solved. -/
def Exact (vmult : Vec K → Vec K × Vec K) (lin : Nat → Vec K → Vec K → Res (Vec K × Nat)) : Prop :=
  ∀ it u b, (∃ y, (vmult y).2 = b) → ∃ x n, lin it u b = .ok (x, n) ∧ (vmult x).2 = b

end Verif.ClampedBar.Spec
