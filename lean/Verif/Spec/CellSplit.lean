/-
Specification: fields by component and node.
-/
import Verif.Model.CellSplit

namespace Verif.CellSplit.Spec

open Verif.CellSplit

variable {Cell N K : Type}

/-- What deal.II guarantees: the numberings of a cell are inverse to each other and two degrees of freedom are the same exactly if component and node are. -/
structure Numbered (S : Space Cell) (node : Cell → Nat → N) : Prop where
  to : ∀ c j, c < S.nComp → j < S.nNode → S.toSys c j < S.n ∧ S.ofSys (S.toSys c j) = (c, j)
  of : ∀ i, i < S.n → (S.ofSys i).1 < S.nComp ∧ (S.ofSys i).2 < S.nNode ∧ S.toSys (S.ofSys i).1 (S.ofSys i).2 = i
  same : ∀ x y c d i j, c < S.nComp → d < S.nComp → i < S.nNode → j < S.nNode →
    (S.dof x (S.toSys c i) = S.dof y (S.toSys d j) ↔ c = d ∧ node x i = node y j)

/-- On the cells, component `c` of the vector is component `c + off` of the field. -/
def Holds (S : Space Cell) (node : Cell → Nat → N) (cells : List Cell) (off : Nat) (vec : Nat → K) (field : Nat → N → K) : Prop :=
  ∀ x ∈ cells, ∀ c j, c < S.nComp → j < S.nNode → vec (S.dof x (S.toSys c j)) = field (c + off) (node x j)

/-- Entry of no cell. -/
def Elsewhere (S : Space Cell) (cells : List Cell) (k : Nat) : Prop := ∀ x ∈ cells, ∀ i, i < S.n → S.dof x i ≠ k

end Verif.CellSplit.Spec
