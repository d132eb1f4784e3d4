/-
Specification for the levels and the statistics of the mesh.
-/
import Verif.Model.Levels

namespace Verif.Levels.Spec

/-- Number of cells after `r` uniform refinements: every cell is replaced by `2 ^ dim` ones. -/
def uniformCells (dim coarse : Nat) : Nat → Nat
  | 0 => coarse
  | r + 1 => uniformCells dim coarse r * 2 ^ dim

/-- The active cell `i` could be merged on this rank: its parent has only active and locally owned children. -/
def Mergeable (parents : List (List Child)) (i : Nat) : Prop :=
  ∃ ch ∈ parents, (∃ o, some (i, o) ∈ ch) ∧ ∀ c ∈ ch, ∃ j, c = some (j, true)

end Verif.Levels.Spec
