/-
Entries of block vectors owned by a process.

Models `include/pf-applications/lac/dynamic_block_vector.h:539-559` (`all_zero`, `locally_owned_elements`). Each process owns an interval of every block, as in
deal.II's distributed vectors; an index set is the list of its members (merging of intervals in `compress` left out).
-/
import Verif.Model.BlockVector

namespace Verif.Owned

/-- A block as a process sees it: global size and the interval `[lo, hi)` it owns. -/
structure Blk where
  size : Nat
  lo : Nat
  hi : Nat
  deriving DecidableEq, Repr

/-- A block vector as a process sees it: the blocks and the sizes stored in `block_indices`. -/
structure Vec where
  blocks : List Blk
  indices : List Nat
  deriving DecidableEq, Repr

/-- dynamic_block_vector.h:571-580 (`collect_sizes`) -/
def collect (l : List Blk) : Vec := ⟨l, l.map Blk.size⟩

/-- `IndexSet::add_indices(other, offset)`: all members moved by the offset; members beyond the size of the set violate an assertion. -/
def addIndices (n : Nat) (is : List Nat) (b : Blk) (offset : Nat) : Res (List Nat) :=
  if b.lo < b.hi ∧ n < offset + b.hi then .ub else .ok (is ++ (List.range (b.hi - b.lo)).map (offset + b.lo + ·))

/-- One pass of the loop; `block_start(b)` beyond the stored sizes is out of range. -/
def ownedStep (v : Vec) (is : List Nat) (p : Blk × Nat) : Res (List Nat) :=
  if v.indices.length < p.2 then .ub else addIndices v.indices.sum is p.1 (DBV.start v.indices p.2)

/-- dynamic_block_vector.h:545-559 -/
def locallyOwned (v : Vec) : Res (List Nat) := v.blocks.zipIdx.foldlM (ownedStep v) []

/-- dynamic_block_vector.h:173-203, 242-259: blocks of a view and of a vector after `move_block`; the stored sizes are not computed again. -/
def viewOf (v : Vec) (s e : Nat) : Vec := ⟨(v.blocks.drop s).take (e - s), []⟩
def moved (v : Vec) (src dst : Nat) : Res Vec := do
  let l ← moveBlocks v.blocks src dst
  .ok ⟨l, v.indices⟩

/-- dynamic_block_vector.h:539-543 (`all_zero`) -/
def allZero {K : Type} [Field K] [LinearOrder K] (v : DBV K) : Bool := decide (v.linfty = 0)

end Verif.Owned
