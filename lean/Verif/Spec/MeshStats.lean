import Verif.Model.MeshStats
/-!
# Coarsened copies and statistics of a mesh: what they should be
-/
namespace Verif.MeshStats.Spec
open Verif.MeshStats
variable {n : Nat} {K : Type}

/-- value at vertex `i` of a cell, however it is refined -/
def vertex : Tree n K → Fin n → K
  | .leaf c, i => c.value i
  | .node ch, i => vertex (ch i) i

/-- the shape of a tree: two trees with the same active cells up to the data of the cells -/
inductive Shape (n : Nat) where
  | leaf
  | node (ch : Fin n → Shape n)

/-- shape of a mesh -/
def shape : Tree n K → Shape n
  | .leaf _ => .leaf
  | .node ch => .node fun i => shape (ch i)

/-- shape of a mesh without all cells deeper than `d` -/
def cut : Nat → Shape n → Shape n
  | _, .leaf => .leaf
  | 0, .node _ => .leaf
  | d + 1, .node ch => .node fun i => cut d (ch i)

/-- the mesh refined uniformly `d` times has so many cells -/
def uniformCells (n d roots : Nat) : Nat := roots * n ^ d

/-- all children are active and owned by the rank -/
def ownFamily (r : Nat) (ch : Fin n → Tree n K) : Prop := ∀ i, ∃ c, ch i = .leaf c ∧ c.rank = r

/-- the cell is a child of a refined cell all of whose children are active and owned by the rank -/
inductive InOwnFamily (r : Nat) (c : ACell n K) : Tree n K → Prop
  | here (ch : Fin n → Tree n K) (h : ownFamily r ch) (i : Fin n) (hi : ch i = .leaf c) : InOwnFamily r c (.node ch)
  | deeper (ch : Fin n → Tree n K) (i : Fin n) (h : InOwnFamily r c (ch i)) : InOwnFamily r c (.node ch)

/-- numbers of active cells, each below `N`, no two equal -/
def Numbered (N : Nat) (f : List (Tree n K)) : Prop :=
  ((f.flatMap Tree.leaves).map ACell.id).Nodup ∧ ∀ c ∈ f.flatMap Tree.leaves, c.id < N

end Verif.MeshStats.Spec
