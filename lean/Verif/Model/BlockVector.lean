import Verif.Model.Res
import Mathlib.Algebra.Field.Defs
import Mathlib.Algebra.Order.Group.Unbundled.Abs
/-!
# `DynamicBlockVector`

Models `include/pf-applications/lac/dynamic_block_vector.h` (lines 32-585): the array of blocks and the
`BlockIndices` object that translates global into (block, local) indices, and the places where the
code rearranges blocks: `TimeMarchingArkode` (time_marching.h:921-936, 1070-1094) and the change of the
number of components in the driver (driver.h:1603-1690).

A block is the list of its entries; ghost entries and the parallel distribution of a block are left out.
`B` is the type of blocks where the entries do not matter. Index checks are `AssertIndexRange`, active
in debug builds only: an index out of range is undefined behaviour.
-/
namespace Verif
variable {B K : Type}

/-- `v[i] = x` -/
def setR (l : List B) (i : Nat) (x : B) : Res (List B) :=
  if i < l.length then .ok (l.set i x) else .ub

/-- `v[i] = v[j]` -/
def copyR (l : List B) (i j : Nat) : Res (List B) := do
  let x ← Res.index l j
  setR l i x

/-- the numbers `hi, hi-1, ..., lo+1` of a loop `for (i = hi; i > lo; --i)` -/
def downTo (hi lo : Nat) : List Nat := (List.range (hi - lo)).map fun k => hi - k

/-- the numbers `lo, ..., hi-1` of a loop `for (i = lo; i < hi; ++i)` -/
def upTo (lo hi : Nat) : List Nat := (List.range (hi - lo)).map (lo + ·)

/-- `for (i = from; i > to; --i) blocks[i] = blocks[i - 1]` -/
def shiftRight (l : List B) (hi lo : Nat) : Res (List B) :=
  (downTo hi lo).foldlM (fun l i => copyR l i (i - 1)) l

/-- `for (i = from; i < to; ++i) blocks[i] = blocks[i + 1]` -/
def shiftLeft (l : List B) (lo hi : Nat) : Res (List B) :=
  (upTo lo hi).foldlM (fun l i => copyR l i (i + 1)) l

/-- `move_block` on the array (dynamic_block_vector.h:242-259) -/
def moveBlocks (l : List B) (src dst : Nat) : Res (List B) := do
  let tmp ← Res.index l src
  let l ← if src > dst then shiftRight l src dst
    else if src < dst then shiftLeft l src dst else pure l
  setR l dst tmp

/-- `insert_block` on the array (dynamic_block_vector.h:261-274): `resize` appends a null pointer,
modelled by any element (`dflt`); it is overwritten -/
def insertBlocks (dflt : B) (l : List B) (b : B) (dst : Nat) : Res (List B) := do
  let l := l ++ [dflt]
  let l ← shiftRight l (l.length - 1) dst
  setR l dst b

/-- `remove_block` on the array (dynamic_block_vector.h:276-291): result and removed block -/
def removeBlocks (l : List B) (src : Nat) : Res (List B × B) := do
  let b ← Res.index l src
  let l ← shiftLeft l src (l.length - 1)
  pure (l.take (l.length - 1), b)

/-- `reinit(n)` on the array (dynamic_block_vector.h:125-146): new blocks are default constructed and
made compatible with block 0 if there was one, entries zeroed -/
def reinitBlocks [Zero K] (l : List (List K)) (n : Nat) : List (List K) :=
  l.take n ++ List.replicate (n - l.length) (List.replicate (l.headD []).length 0)

/-- the class: blocks and the sizes stored in `block_indices` -/
structure DBV (K : Type) where
  blocks : List (List K)
  indices : List Nat
  deriving DecidableEq, Repr

namespace DBV

/-- `collect_sizes` (dynamic_block_vector.h:571-580) -/
def collect (l : List (List K)) : DBV K := ⟨l, l.map List.length⟩

/-- structural operations of the class -/
inductive Op (K : Type)
  | reinit (n : Nat)
  | insert (b : List K) (dst : Nat)
  | remove (src : Nat)
  | move (src dst : Nat)
  /-- `operator=` and the copy constructor (dynamic_block_vector.h:49-81), also `equ` (434-441) -/
  | assign (v : DBV K)
  /-- any operation that changes entries only (`add`, `scale`, `operator*=`, ...) -/
  | entries (f : Nat → K → K)

/-- execution of a structural operation -/
def step [Zero K] (v : DBV K) : Op K → Res (DBV K)
  | .reinit n => .ok (collect (reinitBlocks v.blocks n))
  | .insert b dst => do
    let l ← insertBlocks [] v.blocks b dst
    pure (collect l)
  | .remove src => do
    let r ← removeBlocks v.blocks src
    pure (collect r.1)
  | .move src dst => do
    let l ← moveBlocks v.blocks src dst
    pure ⟨l, v.indices⟩
  | .assign w => .ok (collect w.blocks)
  | .entries f => .ok ⟨v.blocks.mapIdx fun b x => x.map (f b), v.indices⟩

/-- a sequence of operations on a vector created empty (dynamic_block_vector.h:44-47) -/
def run [Zero K] (ops : List (Op K)) : Res (DBV K) := ops.foldlM step (collect [])

/-- start of a block in `BlockIndices` -/
def start (sizes : List Nat) (b : Nat) : Nat := (sizes.take b).sum

/-- `BlockIndices::global_to_local` (deal.II): from the last block downwards, the first block whose
start is not beyond the index; no block at all is undefined -/
def globalToLocal (sizes : List Nat) (i : Nat) : Nat → Res (Nat × Nat)
  | 0 => .ub
  | b + 1 => if start sizes b ≤ i then .ok (b, i - start sizes b) else globalToLocal sizes i b

/-- `operator()` (dynamic_block_vector.h:97-103) -/
def get (v : DBV K) (i : Nat) : Res K := do
  let p ← globalToLocal v.indices i v.indices.length
  let b ← Res.index v.blocks p.1
  Res.index b p.2

/-- `create_view` (dynamic_block_vector.h:173-203): the blocks are shared, the indices are those of an
empty vector -/
def view (v : DBV K) (s e : Nat) : DBV K := ⟨(v.blocks.drop s).take (e - s), []⟩

/-- `size()` (dynamic_block_vector.h:166-170) -/
def size (v : DBV K) : Nat := v.indices.sum

/-! ### Computation (dynamic_block_vector.h:345-516)

The operations on single blocks are those of `LinearAlgebra::distributed::Vector`. -/

section Arith
variable [Field K]

/-- `Vector::operator*` -/
def dotV (x y : List K) : K := (List.zipWith (· * ·) x y).sum

/-- `operator*` (dynamic_block_vector.h:507-516) -/
def dot (v w : DBV K) : Res K :=
  v.blocks.zipIdx.foldlM (fun r p => do
    let y ← Res.index w.blocks p.2
    pure (r + dotV p.1 y)) 0

/-- the radicand of `l2_norm` (dynamic_block_vector.h:346-351); the square of a block's norm is its
sum of squares -/
def normSq (v : DBV K) : K := v.blocks.foldl (fun r x => r + dotV x x) 0

/-- `l1_norm` (dynamic_block_vector.h:354-361) -/
def l1 [LinearOrder K] (v : DBV K) : K := v.blocks.foldl (fun r x => r + (x.map abs).sum) 0

/-- `Vector::linfty_norm` -/
def linftyV [LinearOrder K] (x : List K) : K := x.foldl (fun r a => max r |a|) 0

/-- `linfty_norm` (dynamic_block_vector.h:363-370) -/
def linfty [LinearOrder K] (v : DBV K) : K := v.blocks.foldl (fun r x => max r (linftyV x)) 0

/-- `mean_value` (dynamic_block_vector.h:372-381); `none` is not-a-number. The mean value of an empty
block is taken to be 0 -/
def mean (v : DBV K) : Option K :=
  let s := v.blocks.foldl (fun r x => r + x.sum / (x.length : K) * (x.length : K)) 0
  if v.size = 0 then none else some (s / (v.size : K))

/-- one block in `sadd(s, a, V)` (dynamic_block_vector.h:416-423); `add(a, V)` is `s = 1`,
`operator+=` is `s = a = 1`, `operator-=` is `s = 1, a = -1`, `operator*=` has no `V` -/
def saddV (s a : K) (x y : List K) : List K := List.zipWith (fun x y => s * x + a * y) x y

/-- `sadd(s, a, V)` (dynamic_block_vector.h:416-423) -/
def sadd (s a : K) (v w : DBV K) : Res (DBV K) := do
  let l ← v.blocks.zipIdx.mapM fun p => do
    let y ← Res.index w.blocks p.2
    pure (saddV s a p.1 y)
  pure ⟨l, v.indices⟩

/-- `equ(a, v)` (dynamic_block_vector.h:434-441) -/
def equ (a : K) (w : DBV K) : DBV K := ⟨w.blocks.map fun x => x.map (a * ·), w.blocks.map List.length⟩

end Arith

end DBV

/-! ## Stationary blocks of the external integrator -/

/-- `stationary_blocks[i] = current_solution.remove_block(stationary_indices[i])` -/
def stripStep (s : List B × List B) (i : Nat) : Res (List B × List B) := do
  let r ← removeBlocks s.1 i
  pure (r.1, r.2 :: s.2)

/-- removal of the stationary blocks (time_marching.h:1071-1074), from the last to the first index;
the removed blocks are stored at their position in `stationary_blocks` -/
def stripBlocks (l : List B) (idx : List Nat) : Res (List B × List B) :=
  idx.reverse.foldlM stripStep (l, [])

/-- insertion of the stationary blocks (time_marching.h:1092-1094, 923-928) -/
def restoreBlocks (dflt : B) (l : List B) (idx : List Nat) (bs : List B) : Res (List B) :=
  (idx.zip bs).foldlM (fun l p => insertBlocks dflt l p.2 p.1) l

/-! ## Changing the number of components -/

/-- Change of the number of order parameters for one solution vector (driver.h:1605-1690).
`nComp` is `sintering_data.n_components()` (concentration, chemical potential and order parameters),
`total` is `nonlinear_operator.n_components()`, `nGrains`/`nGrainsNew` are the old and new numbers of
order parameters, `reassigned` is `has_reassigned_grains`. `remap` is what the grain tracker does to the
blocks. The loop `for (i = nComp - 1; i >= nNew; --i)` is `downTo (nComp - 1) (nNew - 1)`, as `nNew > 0`. -/
def changeComponents [Zero K] (remap : List (List K) → List (List K)) (reassigned : Bool)
    (nComp total nGrains nGrainsNew : Nat) (l : List (List K)) : Res (List (List K)) := do
  let nOld := l.length
  let nNew := nOld - nGrains + nGrainsNew
  let distance := total - nComp
  let l ← if reassigned ∧ nNew < nOld then
      let l := remap l
      if distance > 0 then
        (downTo (nComp - 1) (nNew - 1)).foldlM (fun l i => moveBlocks l i (i + distance)) l
      else pure l
    else pure l
  let l := reinitBlocks l nNew
  if reassigned ∧ nNew > nOld then
    let l ← if distance > 0 then
        (upTo total nNew).foldlM (fun l i => moveBlocks l i (i - distance)) l
      else pure l
    pure (remap l)
  else pure l

end Verif
