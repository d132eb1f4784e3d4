/-
When assembly and application of an operator are supposed to agree.
-/
import Mathlib.Algebra.Field.Defs
import Mathlib.Order.Defs.LinearOrder
import Mathlib.Algebra.Order.Group.Abs

namespace Verif.Assembly.Spec

variable {K : Type} [Field K]

/-- The first `N` integrals depend linearly on the first `N` values. -/
structure Linear (N : Nat) (f : (Nat → K) → Nat → K) : Prop where
  add : ∀ x y, ∀ i < N, f (fun k => x k + y k) i = f x i + f y i
  smul : ∀ a x, ∀ i < N, f (fun k => a * x k) i = a * f x i
  only : ∀ x y, (∀ k < N, x k = y k) → ∀ i < N, f x i = f y i

/-- Constraints in terms of unknowns which are not constrained themselves. -/
def Closed (lines : Nat → Option (List (Nat × K))) : Prop :=
  ∀ i l, lines i = some l → ∀ e ∈ l, lines e.1 = none

/-- Constraints in terms of unknowns below `size`. -/
def Inside (size : Nat) (lines : Nat → Option (List (Nat × K))) : Prop :=
  ∀ i l, lines i = some l → ∀ e ∈ l, e.1 < size

/-- Components stored next to each other. -/
def interleaved (n : Nat) (src : Nat × Nat → K) : Nat → K := fun s => src (s % n, s / n)

/-- No entry other than zero is below the share `tol` of the greatest one. -/
def NoSmall [LinearOrder K] (tol : K) (N : Nat) (A : Nat → Nat → K) : Prop :=
  ∀ i < N, ∀ j < N, A i j = 0 ∨ ∃ m, (∀ k < N, ∀ l < N, |A k l| ≤ m) ∧ tol * m ≤ |A i j|

/-- A numbering of `n` components: `place` gives offset and size of the object of a degree of freedom and its number there, `number` the
index of a component, `unplace` the way back. -/
structure Numbering (n : Nat) (place : Nat → (Nat × Nat) × Nat) (number : Nat → Nat → Nat) (unplace : Nat → Nat × Nat) : Prop where
  place : ∀ v, (place v).1.1 + (place v).2 = v ∧ (place v).2 < (place v).1.2
  unplace : ∀ v, ∀ b < n, unplace (number v b) = (v, b)

end Verif.Assembly.Spec
