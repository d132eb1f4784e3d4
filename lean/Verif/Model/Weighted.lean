/-
Forces between grains weighted by their contacts (advection):
  applications/sintering/include/pf-applications/sintering/operator_advection.h:389-800 `AdvectionOperatorWeighted`

Simplifications: arithmetic is exact; a cell is given by its quadrature points (weight, concentration, values and
gradients of the order parameters there) and by the number of the segment every order parameter belongs to there; the
lists of indices, which are modelled in `Verif.Advection`, are left out; `MPI_Allreduce` adds the arrays of the ranks.
-/
import Verif.Model.Res
import Verif.Model.Advection
import Mathlib.Algebra.Order.Field.Basic
import Mathlib.Algebra.Module.Pi
import Mathlib.Algebra.BigOperators.Group.List.Basic

namespace Verif.Weighted

/-- One quadrature point: `JxW`, concentration, order parameters and their gradients. -/
structure Point (dim : Nat) (K : Type) where
  w : K
  c : K
  eta : Nat → K
  grad : Nat → Fin dim → K

/-- One active lane of a batch, that is a cell; `seg`: operator_advection.h:563-600, the number of the segment the order
parameter belongs to in this cell (`none`: no particle or no grain). -/
structure Cell (dim : Nat) (K : Type) where
  points : List (Point dim K)
  seg : Nat → Option Nat

/-- A batch of cells with its table `grain_to_relevant_grain` (operator_advection.h:624-625). -/
structure Batch (dim : Nat) (K : Type) where
  cells : List (Cell dim K)
  g2r : List Nat

/-- Parameters of the operator (operator_advection.h:411-420); `smooth`: the smoothened filter, an exponential, if
`smoothening > 0`. -/
structure Par (K : Type) where
  k : K
  cgb : K
  ceq : K
  smooth : Option (K → K)

section
variable {dim : Nat} {K : Type} [Field K] [LinearOrder K]

/-- The arrays `grains_data_volumes` and `grains_data_forces_gbs`. -/
abbrev Mem (K : Type) := (Nat → K) × (Nat → K)

/-- operator_advection.h:402, `n_comp_force_gb` -/
def nComp (dim : Nat) : Nat := dim + 1

/-- operator_advection.h:441-442: number of entries of `grains_data_forces_gbs`. -/
def sizeForces (dim nSeg : Nat) : Nat := nSeg * nComp dim * nSeg

/-- `v[i] += x` for an array with `size` entries; outside of it the behaviour is undefined. -/
def addAt (size : Nat) (f : Nat → K) (i : Nat) (x : K) : Res (Nat → K) :=
  if i < size then .ok (Function.update f i (f i + x)) else .ub

/-- `v[i]` for an array with `size` entries. -/
def readAt (size : Nat) (f : Nat → K) (i : Nat) : Res K :=
  if i < size then .ok (f i) else .ub

/-- `submit_value` in all quadrature points and `integrate_value` (operator_advection.h:634-647, 721-724). -/
def integrate (ps : List (Point dim K)) (f : Point dim K → K) : K :=
  ps.foldl (fun s p => s + p.w * f p) 0

/-- operator_advection.h:678-719: what is submitted for the pair of order parameters, component `d`. -/
def pairValue (P : Par K) (ig jg d : Nat) (p : Point dim K) : K :=
  if h : d < dim then
    Advection.pairForce P.k P.cgb P.ceq P.smooth p.c (p.eta ig, p.grad ig) (p.eta jg, p.grad jg) ⟨d, h⟩
  else p.eta ig * p.eta jg

/-- operator_advection.h:649-666: the volume of one cell. -/
def addVolume (nSeg ig : Nat) (m : Mem K) (c : Cell dim K) : Res (Mem K) :=
  match c.seg ig with
  | none => .ok m
  | some s => do
    let v ← addAt nSeg m.1 s (integrate c.points fun p => p.eta ig)
    .ok (v, m.2)

/-- operator_advection.h:726-767: force and contact of one cell. -/
def addForce (P : Par K) (nSeg ig jg : Nat) (m : Mem K) (c : Cell dim K) : Res (Mem K) :=
  match c.seg ig with
  | none => .ok m
  | some si =>
    match c.seg jg with
    | none => .ok m
    | some sj => do
      let offset := nSeg * nComp dim * si
      (List.range (nComp dim)).foldlM (fun (m : Mem K) d => do
        let f ← addAt (sizeForces dim nSeg) m.2 (offset + nComp dim * sj + d)
          (integrate c.points (pairValue P ig jg d))
        .ok (m.1, f)) m

/-- operator_advection.h:668-769: the order parameter `jg`. -/
def innerStep (P : Par K) (nSeg ig : Nat) (b : Batch dim K) (m : Mem K) (jg : Nat) : Res (Mem K) :=
  if ig = jg then .ok m
  else do
    let r ← Res.index b.g2r jg
    if r = 255 then .ok m
    else b.cells.foldlM (addForce P nSeg ig jg) m

/-- operator_advection.h:627-770: the order parameter `ig`. -/
def outerStep (P : Par K) (nSeg nGrains : Nat) (b : Batch dim K) (m : Mem K) (ig : Nat) : Res (Mem K) := do
  let r ← Res.index b.g2r ig
  if r = 255 then .ok m
  else
    let m ← b.cells.foldlM (addVolume nSeg ig) m
    (List.range nGrains).foldlM (innerStep P nSeg ig b) m

/-- operator_advection.h:612-776 `do_evaluate_forces` -/
def doBatch (P : Par K) (nSeg nGrains : Nat) (m : Mem K) (b : Batch dim K) : Res (Mem K) :=
  (List.range nGrains).foldlM (outerStep P nSeg nGrains b) m

/-- operator_advection.h:440-457: one rank, beginning with zeros. -/
def doRank (P : Par K) (nSeg nGrains : Nat) (bs : List (Batch dim K)) : Res (Mem K) :=
  bs.foldlM (doBatch P nSeg nGrains) 0

/-- operator_advection.h:459-473: all ranks and `MPI_Allreduce` of both arrays. -/
def allRanks (P : Par K) (nSeg nGrains : Nat) (ranks : List (List (Batch dim K))) : Res (Mem K) :=
  ranks.foldlM (fun s bs => do
    let m ← doRank P nSeg nGrains bs
    .ok (s + m)) 0

/-- operator_advection.h:489: the bound for a contact. -/
def tol : K := 1 / 10 ^ 10

/-- operator_advection.h:484-497: one other segment. -/
def forceStep (dim nSeg : Nat) (fg : Nat → K) (i : Nat) (force : Fin dim → K) (j : Nat) : Res (Fin dim → K) := do
  let offset := i * (nComp dim * nSeg) + j * nComp dim
  let gb ← readAt (sizeForces dim nSeg) fg (offset + dim)
  if i ≠ j ∧ tol < |gb| then
    .ok (force + (1 / gb) • (fun d : Fin dim => fg (offset + d)))
  else .ok force

/-- operator_advection.h:480-498 -/
def forceOf (dim nSeg : Nat) (fg : Nat → K) (i : Nat) : Res (Fin dim → K) :=
  (List.range nSeg).foldlM (forceStep dim nSeg fg i) 0

/-- operator_advection.h:499-509 and advection.h `n_comp_volume_force_torque`: the data of a segment. -/
def rowOf (dim nSeg : Nat) (m : Mem K) (i : Nat) : Res (List K) := do
  let f ← forceOf dim nSeg m.2 i
  let v ← readAt nSeg m.1 i
  .ok (v :: List.ofFn f ++ List.replicate (if dim = 3 then 3 else 1) 0)

/-- operator_advection.h:426-511 `AdvectionOperatorWeighted::evaluate_forces`: the data of all segments. -/
def evaluate (P : Par K) (nSeg nGrains : Nat) (ranks : List (List (Batch dim K))) : Res (List (List K)) := do
  let m ← allRanks P nSeg nGrains ranks
  (List.range nSeg).foldlM (fun rows i => do
    let r ← rowOf dim nSeg m i
    .ok (rows ++ [r])) []

end
end Verif.Weighted
