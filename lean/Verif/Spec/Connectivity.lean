/-
Specification: connected packings.
-/
import Verif.Model.Connectivity
import Mathlib.Logic.Relation

namespace Verif.Connectivity.Spec

open Verif.Connectivity

variable {K : Type} [Field K] [LinearOrder K]

/-- Two particles are in contact. -/
def Contact (dist : Nat → Nat → K) (tol : K) (r : Nat → K) (i j : Nat) : Prop := dist i j ≤ r i + r j + tol

/-- Two of `n` particles in contact. -/
def Step (n : Nat) (dist : Nat → Nat → K) (tol : K) (r : Nat → K) (i j : Nat) : Prop := i < n ∧ j < n ∧ Contact dist tol r i j

/-- Every particle is reached from every other one through contacts. -/
def Connected (n : Nat) (dist : Nat → Nat → K) (tol : K) (r : Nat → K) : Prop := ∀ i j, i < n → j < n → Relation.ReflTransGen (Step n dist tol r) i j

/-- What SciPy gives: labels of components of the contacts, and bridges that make up a tree on the components. -/
structure Bridges (n : Nat) (dist : Nat → Nat → K) (tol : K) (r : Nat → K) (bs : List (Nat × Nat)) : Prop where
  inside : ∀ e ∈ bs, e.1 < n ∧ e.2 < n ∧ e.1 ≠ e.2
  spans : ∃ label : Nat → Nat, (∀ i j, i < n → j < n → label i = label j → Relation.ReflTransGen (Step n dist tol r) i j) ∧
    ∀ i j, i < n → j < n → Relation.ReflTransGen (fun a b => ∃ e ∈ bs, (label e.1 = a ∧ label e.2 = b) ∨ (label e.2 = a ∧ label e.1 = b)) (label i) (label j)

/-- The smallest gap between two groups. -/
def SmallestGap (dist : Nat → Nat → K) (r : Nat → K) (a b : List Nat) (p : Nat × Nat) : Prop :=
  p.1 ∈ a ∧ p.2 ∈ b ∧ ∀ i ∈ a, ∀ j ∈ b, dist p.1 p.2 - r p.1 - r p.2 ≤ dist i j - r i - r j

end Verif.Connectivity.Spec
