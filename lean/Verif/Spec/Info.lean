import Verif.Model.Info
/-!
# Specification of particle properties

Plain sums and maxima over all the cells of a particle, without ranks or loops.
-/
namespace Verif.Spec
variable {K : Type}

/-- the cells of particle `u` -/
def cellsOf (ids : Nat → Option Nat) (cells : List Nat) (u : Nat) : List Nat :=
  cells.filter fun c => ids c == some u

/-- sum of a quantity over the cells of a particle -/
def total [AddMonoid K] (ids : Nat → Option Nat) (cells : List Nat) (u : Nat) (q : Nat → K) : K :=
  ((cellsOf ids cells u).map q).sum

/-- The ranks share out the cells of the mesh and all numbers are below `n`. -/
structure Shares (ids : Nat → Option Nat) (cells : List Nat) (ranks : List (List Nat)) (n : Nat) :
    Prop where
  some_rank : ranks ≠ []
  perm : ranks.flatten.Perm cells
  range : ∀ c ∈ cells, ∀ u, ids c = some u → u < n

end Verif.Spec
