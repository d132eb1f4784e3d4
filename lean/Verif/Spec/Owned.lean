/-
Specification: who owns an entry.
-/
import Verif.Model.Owned

namespace Verif.Owned.Spec

open Verif.Owned

/-- Position of an entry when all blocks are written one after the other. -/
def position (l : List Blk) (b i : Nat) : Nat := ((l.take b).map Blk.size).sum + i

/-- A process owns entry `i` of block `b`. -/
def Owns (l : List Blk) (b i : Nat) : Prop := ∃ x, l[b]? = some x ∧ x.lo ≤ i ∧ i < x.hi

/-- Processes share the blocks: the same sizes everywhere and each entry of a block owned by one process only. -/
structure Shared (sizes : List Nat) (ranks : List (List Blk)) : Prop where
  same : ∀ l ∈ ranks, l.map Blk.size = sizes
  inside : ∀ l ∈ ranks, ∀ x ∈ l, x.hi ≤ x.size
  one : ∀ b i n, sizes[b]? = some n → i < n → ∃ r : Nat, (∃ l, ranks[r]? = some l ∧ Owns l b i) ∧ ∀ r' l', ranks[r']? = some l' → Owns l' b i → r' = r

end Verif.Owned.Spec
