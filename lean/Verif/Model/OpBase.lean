/-
Application of operators with constrained degrees of freedom, and vectors with blocks or interleaved components.

/repo/applications/sintering/include/pf-applications/sintering/operator_base.h:223-353, 844-934
/repo/include/pf-applications/numerics/vector_tools.h:42-118, 192-208, 281-298, 366-382
/repo/applications/sintering/include/pf-applications/sintering/operator_sintering_coupled_base.h:66-80
/repo/applications/sintering/include/pf-applications/sintering/operator_sintering_coupled_monolithic.h:63-173, 327-391
-/
import Mathlib.Algebra.Ring.Defs
import Verif.Model.Res

namespace Verif.OpBase

variable {κ K : Type}

/-- `vector.local_element(k) = x`; a vector is a function of its local indices, `κ` are pairs of block and local index for block
vectors. -/
def put [DecidableEq κ] (v : κ → K) (k : κ) (x : K) : κ → K := fun j => if j = k then x else v j

/-- operator_base.h:313-320, 259-267: loop which stores the values of the given entries and sets the entries to zero; stored
values and vector. -/
def saveZero [DecidableEq κ] [Zero K] : List κ → (κ → K) → List K × (κ → K)
  | [], s => ([], s)
  | k :: ks, s => (s k :: (saveZero ks (put s k 0)).1, (saveZero ks (put s k 0)).2)

/-- operator_base.h:325-335, 271-279: loop which restores the source and copies the entries to the destination. -/
def restore [DecidableEq κ] : List κ → List K → (κ → K) → (κ → K) → (κ → K) × (κ → K)
  | k :: ks, v :: vs, s, d => restore ks vs (put s k v) (put d k (put s k v k))
  | _, _, s, d => (s, d)

/-- Loop which writes values to the given entries. -/
def writeAll [DecidableEq κ] : List κ → List K → (κ → K) → (κ → K)
  | k :: ks, v :: vs, d => writeAll ks vs (put d k v)
  | _, _, d => d

/-- Entries in the order of operator_base.h:313-314: block, then constrained index. -/
def blockKeys (n : Nat) (idx : List Nat) : List (Nat × Nat) := (List.range n).flatMap fun b => idx.map fun i => (b, i)

/-- Entries in the order of operator_base.h:259-260: constrained index, then component. -/
def vecKeys (u : Nat) (idx : List Nat) : List Nat := idx.flatMap fun i => (List.range u).map fun b => i * u + b

/-- operator_base.h:293-336 `vmult` of block vectors without matrix; `A` is `vmult_internal`. Source and destination
afterwards. -/
def vmultBlock [Zero K] (A : (Nat × Nat → K) → Nat × Nat → K) (n : Nat) (idx : List Nat) (src : Nat × Nat → K) :
    (Nat × Nat → K) × (Nat × Nat → K) :=
  let keys := blockKeys n idx
  let s := saveZero keys src
  restore keys s.1 s.2 (A s.2)

/-- operator_base.h:231-287 `vmult` of a vector with interleaved components, without matrix; `u` is `user_comp`. The last loop
(lines 281-287) writes the first stored values to the constrained indices themselves. -/
def vmultVec [Zero K] (A : (Nat → K) → Nat → K) (u : Nat) (idx : List Nat) (src : Nat → K) : (Nat → K) × (Nat → K) :=
  let keys := vecKeys u idx
  let s := saveZero keys src
  let r := restore keys s.1 s.2 (A s.2)
  (writeAll idx s.1 r.1, writeAll idx s.1 r.2)

/-! Blocks and interleaved components -/

/-- vector_tools.h:53-57: number of rounds of the outer loop for a vector of the given size, if `n` entries are handled per
round; `none`: the loop does not end. -/
def rounds (n size : Nat) : Option Nat :=
  if size = 0 then some 0 else if n = 0 then none else some ((size + n - 1) / n)

/-- Sequence of assignments `dst(a) = src(b)`; entries outside of a vector are undefined behaviour. -/
def copyAll {α β : Type} [DecidableEq α] (okD : α → Bool) (okS : β → Bool) (src : β → K) :
    List (α × β) → (α → K) → Res (α → K)
  | [], d => .ok d
  | (a, b) :: l, d => if okD a && okS b then copyAll okD okS src l (put d a (src b)) else .ub

/-- Number of the target and index within the group, in the order of one round. -/
def slots (gs : List Nat) : List (Nat × Nat) := gs.zipIdx.flatMap fun g => (List.range g.1).map fun m => (g.2, m)

/-- vector_tools.h:67-77 (groups of one entry for every block), 98-118 (groups 2, n_grains), 192-208 (groups 1, 1, n_grains):
assignments of round `j`: entry of the target and entry of the merged vector. -/
def assignments (gs : List Nat) (r : Nat) : List ((Nat × Nat) × Nat) :=
  (List.range r).flatMap fun j =>
    (slots gs).zipIdx.map fun s => ((s.1.1, j * gs.getD s.1.1 0 + s.1.2), j * gs.sum + s.2)

/-- vector_tools.h:67-77, 98-118, 192-208: `split_up_components_fast`, `split_up_fast`; `size` and `sizes` are the sizes of the
vectors. -/
def splitUp (gs : List Nat) (size : Nat) (sizes : Nat → Nat) (vec : Nat → K) (dst : Nat × Nat → K) : Res (Nat × Nat → K) :=
  match rounds gs.sum size with
  | none => .ub
  | some r => copyAll (fun a => decide (a.2 < sizes a.1)) (fun i => decide (i < size)) vec (assignments gs r) dst

/-- vector_tools.h:81-94, 281-298, 366-382: `merge_components_fast`, `merge_fast`. -/
def merge (gs : List Nat) (size : Nat) (sizes : Nat → Nat) (src : Nat × Nat → K) (vec : Nat → K) : Res (Nat → K) :=
  match rounds gs.sum size with
  | none => .ub
  | some r =>
    copyAll (fun i => decide (i < size)) (fun a => decide (a.2 < sizes a.1)) src
      ((assignments gs r).map fun a => (a.2, a.1)) vec

/-! The coupled operator -/

/-- Data of `SinteringOperatorCoupledMonolithic`: `offset` is the block of the first displacement
(`data.n_components() + n_additional_components()`), `n` the number of components; the stored values are members of the
operator. -/
structure Coupled (K : Type) where
  dim : Nat
  offset : Nat
  n : Nat
  zeroC : List Nat
  displ : Nat → List Nat
  zeroValues : List K
  displValues : List K

/-- operator_sintering_coupled_base.h:66-80 `update_state`: owned entries with small concentration. -/
def zeroIndices [LT K] [DecidableLT K] (cZero : K) (owned : Nat) (c : Nat → K) : List Nat :=
  (List.range owned).filter fun i => decide (c i < cZero)

variable [Zero K]

/-- Entries in the order of operator_sintering_coupled_monolithic.h:105-119. -/
def Coupled.zeroKeys (o : Coupled K) : List (Nat × Nat) :=
  o.zeroC.flatMap fun i => (List.range o.dim).map fun d => (o.offset + d, i)

/-- Entries in the order of operator_sintering_coupled_monolithic.h:124-137. -/
def Coupled.displKeys (o : Coupled K) : List (Nat × Nat) :=
  (List.range o.dim).flatMap fun d => (o.displ d).map fun i => (o.offset + d, i)

/-- Index within a vector with interleaved components, operator_sintering_coupled_monolithic.h:344-346. -/
def Coupled.flat (o : Coupled K) (k : Nat × Nat) : Nat := o.n * k.2 + k.1

/-- operator_sintering_coupled_monolithic.h:94-138 `do_pre_vmult`: operator with stored values, source. -/
def Coupled.preBlock (o : Coupled K) (src : Nat × Nat → K) : Coupled K × (Nat × Nat → K) :=
  let z := saveZero o.zeroKeys src
  let d := saveZero o.displKeys z.2
  ({ o with zeroValues := z.1, displValues := d.1 }, d.2)

/-- operator_sintering_coupled_monolithic.h:140-173 `do_post_vmult`: source and destination. -/
def Coupled.postBlock (o : Coupled K) (src dst : Nat × Nat → K) : (Nat × Nat → K) × (Nat × Nat → K) :=
  let r := restore o.displKeys o.displValues src dst
  (r.1, writeAll o.zeroKeys o.zeroValues r.2)

/-- operator_sintering_coupled_monolithic.h:327-361 `pre_vmult`. -/
def Coupled.preVec (o : Coupled K) (src : Nat → K) : Coupled K × (Nat → K) :=
  let z := saveZero (o.zeroKeys.map o.flat) src
  ({ o with zeroValues := z.1 }, writeAll (o.displKeys.map o.flat) (o.displKeys.map fun _ => 0) z.2)

/-- operator_sintering_coupled_monolithic.h:363-391 `post_vmult`. -/
def Coupled.postVec (o : Coupled K) (dst : Nat → K) : Nat → K :=
  writeAll (o.displKeys.map o.flat) (o.displKeys.map fun _ => 0) (writeAll (o.zeroKeys.map o.flat) o.zeroValues dst)

/-- operator_base.h:293-353 `vmult` of the coupled operator without matrix and without further constraints. -/
def Coupled.vmultFree (o : Coupled K) (A : (Nat × Nat → K) → Nat × Nat → K) (src : Nat × Nat → K) :
    (Nat × Nat → K) × (Nat × Nat → K) :=
  let p := o.preBlock src
  p.1.postBlock p.2 (A p.2)

/-- operator_base.h:231-292: `vmult` with matrix `M` for interleaved components: operator, source, destination. -/
def Coupled.vmultMatrixVec (o : Coupled K) (M : (Nat → K) → Nat → K) (src : Nat → K) : Coupled K × (Nat → K) × (Nat → K) :=
  let p := o.preVec src
  (p.1, p.2, p.1.postVec (M p.2))

/-- operator_base.h:337-353: `vmult` of block vectors with matrix. The vectors are merged, the matrix is applied, with the hooks of
the interleaved vectors, and the result is split up. -/
def Coupled.vmultMatrix (o : Coupled K) (M : (Nat → K) → Nat → K) (src : Nat × Nat → K) :
    (Nat × Nat → K) × (Nat × Nat → K) :=
  let p := o.preBlock src
  let v := p.1.vmultMatrixVec M (fun i => p.2 (i % o.n, i / o.n))
  v.1.postBlock p.2 (fun k => v.2.2 (o.flat k))

/-! Integrals over the domain -/

/-- A batch of cells: values of the quantity for all lanes, number of lanes in use. -/
structure Batch (K : Type) where
  lanes : List K
  active : Nat

/-- operator_base.h:844-934 `do_calc_domain_quantities` for one quantity: sum over the active lanes of all batches, sum over the
ranks. The value of a lane is the integral over its cell. -/
def domainQuantity [Add K] (ranks : List (List (Batch K))) : K :=
  (ranks.map fun bs => bs.foldl (fun acc b => acc + (b.lanes.take b.active).foldl (· + ·) 0) 0).foldl (· + ·) 0

/-- operator_base.h:872-903: integral over one cell: quadrature points with value of the quantity, filter and weight. -/
def cellIntegral [Add K] [Mul K] (points : List (K × K × K)) : K :=
  points.foldl (fun acc p => acc + p.1 * p.2.1 * p.2.2) 0

end Verif.OpBase
