/-
What the product with the Jacobian by finite differences is to be; contract of the cell loop of deal.II with pre and post operations.
-/
import Verif.Model.JacobianFree

namespace Verif.JacobianFree

variable {nb n : Nat} {F : Type}

/-- Whether a call concerns entry `i`; `dofs c i`: cell `c` reads or writes entry `i`. -/
def touches (dofs : Nat → Fin n → Bool) (i : Fin n) : Act → Bool
  | .pre b e => decide (b ≤ i.1) && decide (i.1 < e)
  | .cell c => dofs c i
  | .post b e => decide (b ≤ i.1) && decide (i.1 < e)

/-- The cell of a call. -/
def cellOf : Act → Option Nat
  | .cell c => some c
  | _ => none

/-- Contract of `MatrixFree::cell_loop` with pre and post operations: the ranges are inside the vectors, every cell is visited once, and for
every entry there is one pre operation, before all cells that need the entry, and one post operation, after them. -/
structure Schedule (n : Nat) (dofs : Nat → Fin n → Bool) (cells : List Nat) (acts : List Act) : Prop where
  bounds : ∀ b e, (Act.pre b e ∈ acts ∨ Act.post b e ∈ acts) → e ≤ n
  visited : (acts.filterMap cellOf).Perm cells
  order : ∀ i : Fin n, ∃ (b e : Nat) (cs : List Nat) (b' e' : Nat), acts.filter (touches dofs i) = Act.pre b e :: (cs.map Act.cell ++ [Act.post b' e'])

/-- A cell reads and writes only its own entries. -/
structure LocalCells (dofs : Nat → Fin n → Bool) (cellDst : Nat → Vec nb n → Vec nb n) (cellAcc : Nat → Vec nb n → F) : Prop where
  readsDst : ∀ c u v, (∀ k i, dofs c i = true → u k i = v k i) → cellDst c u = cellDst c v
  readsAcc : ∀ c u v, (∀ k i, dofs c i = true → u k i = v k i) → cellAcc c u = cellAcc c v
  writes : ∀ c u k i, dofs c i = false → cellDst c u k i = 0

/-- Difference quotient of `G` at `u` in direction `v`. -/
noncomputable def quotient (G : Vec nb n → Vec nb n) (u v : Vec nb n) (h : ℝ) : Vec nb n := fun k i => (G (u + h • v) k i - G u k i) / h

end Verif.JacobianFree
