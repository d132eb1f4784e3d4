import Verif.Model.Overhead

namespace Verif.Overhead.Spec

variable {K : Type} [Field K] [LinearOrder K]

/-- Order parameters (blocks from the third on) that are present in a cell. -/
def present (th : K) (blocks : List (Nat → K)) (cell : List Nat) : Nat :=
  (blocks.drop 2).countP fun b => cell.any fun d => decide (th < |b d|)

/-- All cells. -/
def cells (ranks : List Rank) : List (List Nat) := ranks.flatMap fun r => r.owned

/-- No family is left that could be coarsened. -/
inductive Stable {n : Nat} (th : K) (veto : (Fin n → Tree K n) → Bool) : Tree K n → Prop
  | leaf (x : K) : Stable th veto (.leaf x)
  | node (c : Fin n → Tree K n) (h : ¬ ((∀ i, ∃ x, c i = .leaf x ∧ x ≤ th) ∧ veto c = false)) (hc : ∀ i, Stable th veto (c i)) : Stable th veto (.node c)

end Verif.Overhead.Spec
