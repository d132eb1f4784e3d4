import Verif.Model.GrainBoundary
import Mathlib.Algebra.BigOperators.Fin
/-!
# Grain boundaries, areas, and the estimate of the overhead: what they should be
-/
namespace Verif.GrainBoundary.Spec
open Verif.GrainBoundary

variable {K : Type} [Field K] [LinearOrder K]

/-- a finite element function with nodal values `v` at the centroid of a piece -/
def valueAt (p : Piece K) (v : Nat → K) : K := ∑ k ∈ Finset.range p.shape.length, p.shape.getD k 0 * v k

/-- indicator of the boundaries of grain `i` at node `k`: its value times the sum of the values of the others -/
def boundaryAt (c : Cell K) (i k : Nat) : K :=
  (∑ j ∈ (Finset.range c.values.length).filter (· ≠ i), (c.values.getD j []).getD k 0) * (c.values.getD i []).getD k 0

/-- sizes fit: every grain has a value at each of the `n` nodes, every piece has a value of each shape function -/
def Sized (n : Nat) (c : Cell K) : Prop :=
  (∀ v ∈ c.values, v.length = n) ∧ ∀ i, ∀ p ∈ c.pieces i, p.shape.length = n

/-- contract of marching cubes: there are pieces only where the level is crossed -/
def Level (iso : K) (c : Cell K) : Prop :=
  ∀ i < c.values.length, c.pieces i ≠ [] →
    (∃ x ∈ c.values.getD i [], iso < x) ∧ ∃ x ∈ c.values.getD i [], x < iso

/-- the shape functions at the centroid are not negative and add up to one, as those of linear elements -/
def Convex (p : Piece K) : Prop := (∀ x ∈ p.shape, 0 ≤ x) ∧ p.shape.sum = 1

open Classical in
/-- the pieces of the boundaries in a cell: those where the indicator is above the limit -/
noncomputable def boundaries (lim : K) (c : Cell K) : List (Piece K) :=
  (List.range c.values.length).flatMap fun i => (c.pieces i).filter fun p => lim < valueAt p (boundaryAt c i)

/-- total measure -/
def total (filtered : Bool) (ps : List (Piece K)) : K :=
  ((ps.filter fun p => !filtered || p.inBox).map (·.measure)).sum

end Verif.GrainBoundary.Spec

/-!
The estimate of the overhead
-/
namespace Verif.GrainBoundary.Spec

/-- number of grains present in a cell: blocks after the concentration and the chemical potential -/
def grainsIn (above : List Bool) : Nat :=
  ((Finset.range above.length).filter fun b => 2 ≤ b ∧ above.getD b false = true).card

end Verif.GrainBoundary.Spec
