/-
Specification: pairs of spheres in contact.
-/
import Verif.Model.ContactPairs

namespace Verif.ContactPairs.Spec

open Verif.ContactPairs

variable {K : Type} [Field K] [LinearOrder K]

/-- Two different spheres touch or overlap. -/
def Touch (dist : Nat → Nat → K) (r : Nat → K) (i j : Nat) : Prop := i ≠ j ∧ dist i j ≤ r i + r j

/-- Candidates: valid, each once, and all spheres in contact among them. -/
def Candidates (dist : Nat → Nat → K) (r : Nat → K) (n : Nat) (nb : Nat → List Nat) : Prop :=
  ∀ i, i < n → (nb i).Nodup ∧ (∀ j ∈ nb i, j < n) ∧ ∀ j, j < n → Touch dist r i j → j ∈ nb i

/-- The number of spheres that touch sphere `i`. -/
def degree (dist : Nat → Nat → K) (r : Nat → K) (n i : Nat) : Nat := ((List.range n).filter fun j => decide (i ≠ j) && decide (dist i j ≤ r i + r j)).length

end Verif.ContactPairs.Spec
