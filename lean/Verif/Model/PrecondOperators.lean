/-
Operators and matrices behind the block preconditioner.

/repo/applications/sintering/include/pf-applications/sintering/preconditioners.h
/repo/applications/sintering/include/pf-applications/sintering/operator_sintering_generic.h:799-874

Simplifications: one lane unless stated, scalar mobility; velocities are `none` where `has_velocity` is false, in particular if advection is
not enabled; the assembly of cell matrices to the global matrix (deal.II) is not modelled.
-/
import Verif.Model.SinteringKernel
import Mathlib.Algebra.Order.Group.Abs
import Mathlib.Data.Matrix.Mul

namespace Verif.Precond

open Verif.FreeEnergy Verif.Mobility Verif.SinteringKernel

section kernels

variable {K : Type} [Field K] [LinearOrder K] {V : Type} [AddCommGroup V] [Module K V]

/-- operator_sintering_generic.h:815-821: one order parameter in `precondition_advection_ch`. -/
def advectCH (c : K) (g : V) (t : Grain K V) : V :=
  match t.vel with
  | some v => g - c • v
  | none => g

/-- preconditioners.h:82-170 `OperatorCahnHilliard::do_vmult_kernel` at a quadrature point, with operator_sintering_generic.h:799-822.
Values and gradients of the two rows; `dM_dgrad_c` is zero for the scalar mobility (mobility.h:398-408). -/
def chKernel (p : Par K) (x : Point K V) (c mu : K) (gradC gradMu : V) : Res ((K × V) × (K × V)) := do
  let etas := x.grains.map (·.eta)
  let fe ← FreeEnergy.eval false p.A p.B (x.c :: x.mu :: etas) etas.length
  let v0 := c * p.weight
  let v1 := mu * p.weightAlg - fe.d2f_dc2 * c
  let g0 := applyM p.mob x.c etas gradMu + (dMdc p.mob x.c * c) • x.gradMu
  let g1 := (-p.kappaC) • gradC
  let g0 := x.grains.foldl (advectCH c) g0
  .ok ((v0, g0), (v1, g1))

/-- preconditioners.h:343-412 `OperatorAllenCahn::do_vmult_kernel` at a quadrature point, with operator_sintering_generic.h:824-848: the
advection terms use the value of component 0 for all rows. One pair of value and gradient per order parameter; `d` are those of the source. -/
def acKernel (p : Par K) (x : Point K V) (d : List (K × V)) : Res (List (K × V)) :=
  if x.grains.length ≤ 1 then .exc .assertThrow
  else do
    let etas := x.grains.map (·.eta)
    let fe ← FreeEnergy.eval false p.A p.B (x.c :: x.mu :: etas) etas.length
    let gd := x.grains.zip d
    let L := p.mob.L
    let first := (d.headD (0, 0)).1
    .ok (gd.zipIdx.map fun ti =>
      let v := ti.1.2.1 * p.weight + L * fe.d2f_detai2 ti.1.1.eta * ti.1.2.1
      let v := gd.zipIdx.foldl (fun acc sj =>
        if ti.2 ≠ sj.2 then acc + L * fe.d2f_detaidetaj ti.1.1.eta sj.1.1.eta * sj.1.2.1 else acc) v
      let g := (L * p.kappaP) • ti.1.2.2
      let g := match ti.1.1.vel with
        | some u => g - first • u
        | none => g
      (v, g))

/-- preconditioners.h:779-824: row of block `b` of the blocked Allen–Cahn matrix at a quadrature point, with
operator_sintering_generic.h:850-874; `active`: the block is relevant for the cell or there is no table. `exact` is
`free_energy_approximation == 0`. -/
def blockedKernel (p : Par K) (exact active : Bool) (vel : Option V) (scaling value : K) (gradient : V) : K × V :=
  let off := exact && !active
  let value' := if off then 0 else value
  let gradient' := if off then (0 : V) else gradient
  let v := value' * p.weight + p.mob.L * scaling * value'
  let g := (p.mob.L * p.kappaP) • gradient'
  let g := if exact then (match vel with
    | some u => g - value • u
    | none => g) else g
  if off then (0, 0) else (v, g)

end kernels

/-- preconditioners.h:466-480 `to_value`. -/
def approximation (label : String) : Res Nat :=
  if label = "all" then .ok 0
  else if label = "const" then .ok 1
  else if label = "max" then .ok 2
  else if label = "avg" then .ok 3
  else .exc .assertThrow

section scaling

variable {K : Type} [Field K] [LinearOrder K]

/-- preconditioners.h:696-701: case 2. -/
def scaling2 (d2 : List K) : K := d2.foldl (· + ·) 0 / (d2.length : K)

/-- preconditioners.h:709-724: case 3, for one lane. -/
def scaling3 (d2 : List K) : K := d2.foldl (fun s t => if |t| < |s| then s else t) 0

/-- preconditioners.h:679-756: factor of the mass matrix for block `b`; `d2` are the second derivatives with respect to the order
parameters. -/
def scaling (approx : Nat) (d2 : List K) (b : Nat) : Res K :=
  match approx with
  | 0 => match d2[b]? with
    | some v => .ok v
    | none => .ub
  | 1 => .ok 0
  | 2 => .ok (scaling2 d2)
  | 3 => .ok (scaling3 d2)
  | _ => .exc .assertThrow

/-- preconditioners.h:696-756, 785-824: row of block `b` at a quadrature point with the approximation `approx` of the free energy. -/
def blockRow {V : Type} [AddCommGroup V] [Module K V] (p : Par K) (approx : Nat) (active : Bool) (x : SinteringKernel.Point K V) (b : Nat)
    (value : K) (gradient : V) : Res (K × V) := do
  let etas := x.grains.map (·.eta)
  let fe ← FreeEnergy.eval false p.A p.B (x.c :: x.mu :: etas) etas.length
  let s ← scaling approx (etas.map fe.d2f_detai2) b
  match x.grains[b]? with
  | none => .ub
  | some g => .ok (blockedKernel p (approx == 0) active g.vel s value gradient)

/-- preconditioners.h:840-851: entries that are small relative to the largest one are set to zero. -/
def dropSmall {n : Nat} (tol : K) (M : Fin n → Fin n → K) : Fin n → Fin n → K :=
  let max := (List.finRange n).foldl (fun m i => (List.finRange n).foldl (fun m j => max m |M i j|) m) 0
  fun i j => if |M i j| < tol * max then 0 else M i j

/-- preconditioners.h:871-887: zeros on the diagonal become one. -/
def fixDiagonal {ι : Type} [DecidableEq ι] (M : ι → ι → K) : ι → ι → K := fun i j => if i = j ∧ M i j = 0 then 1 else M i j

end scaling

section apply

variable {B : Type}

/-- preconditioners.h:1198-1237 `BlockPreconditioner2::vmult`: blocks `[0, 2)`, `[2, end)` and, with a solid part, the last `dim` blocks;
every part maps a list of blocks to a list of blocks of the same length. A view beyond the blocks of the vector is undefined. -/
def blockVmult (dim : Nat) (p0 p1 : List B → List B) (p2 : Option (List B → List B)) (src : List B) : Res (List B) :=
  let n := src.length
  if n < 2 then .ub
  else
    match p2 with
    | none => .ok (p0 (src.take 2) ++ p1 (src.drop 2))
    | some q =>
      if n < 2 + dim then .ub
      else .ok (p0 (src.take 2) ++ p1 ((src.drop 2).take (n - dim - 2)) ++ q (src.drop (n - dim)))

/-- preconditioners.h:492-496 `n_unique_components`. -/
def uniqueBlocks (approx n : Nat) : Nat := if 0 < approx then 1 else n

/-- lac/preconditioners.h:726-727, 939-940: block with its number. -/
def applyBlock (precs : List (B → B)) (sb : B × Nat) : Res B :=
  match precs[sb.2]? with
  | some p => .ok (p sb.1)
  | none => .ub

/-- lac/preconditioners.h:720-728 `BlockAMG::vmult`; `precs` are the preconditioners of the blocks of the matrix. -/
def blockAmg (precs : List (B → B)) (src : List B) : Res (List B) := src.zipIdx.mapM (applyBlock precs)

/-- lac/preconditioners.h:905-942 `BlockILU::vmult`. -/
def blockIlu (single : Bool) (precs : List (B → B)) (src : List B) : Res (List B) :=
  if single then
    match precs[0]? with
    | none => .ub
    | some p => if src.length < 20 then .ok (src.map p) else .exc .assertThrow
  else blockAmg precs src

/-- lac/preconditioners.h:944-963 `BlockILU::do_update`: one preconditioner per block of the matrix. -/
def blockIluUpdate (single : Bool) (matrices : List (B → B)) : Res (List (B → B)) :=
  if single = false ∨ matrices.length = 1 then .ok matrices else .exc .assertThrow

end apply

/-! Preconditioner with inverses of cell blocks, /repo/include/pf-applications/lac/preconditioners.h -/

section cellwise

variable {K : Type} [Field K]

/-- lac/preconditioners.h:585-613 `compute_weights`: how many cells contain an unknown; the weight is the square root of the inverse. The
cells of all ranks; each one is a list of unknowns. -/
def multiplicity (cells : List (List Nat)) (i : Nat) : Nat := (cells.map fun c => c.count i).sum

/-- lac/preconditioners.h:606-607. -/
def cellWeight (sqrt : K → K) (cells : List (List Nat)) (i : Nat) : K :=
  if multiplicity cells i = 0 then 0 else sqrt (1 / (multiplicity cells i : K))

/-- lac/preconditioners.h:514-537: entry of a cell matrix in a row that is owned by another rank; `row` is the row received, sorted by column.
`std::lower_bound`; the check that the column exists is only made in debug mode: another column or past the end is undefined. -/
def ghostEntry (row : List (Nat × K)) (col : Nat) : Res K :=
  match row.find? (fun e => !decide (e.1 < col)) with
  | some e => if e.1 = col then .ok e.2 else .ub
  | none => .ub

/-- lac/preconditioners.h:342-379: contribution of one cell: gather, weight, apply the inverse block, weight, scatter. `inv` is the inverse
block with local indices. -/
def cellContribution (w : Nat → K) (cell : List Nat) (inv : Nat → Nat → K) (src : Nat → K) (i : Nat) : K :=
  (cell.zipIdx.map fun ja =>
    if ja.1 = i then (cell.zipIdx.map fun kb => inv ja.2 kb.2 * (src kb.1 * w kb.1)).sum * w ja.1 else 0).sum

/-- lac/preconditioners.h:330-380 `InverseBlockDiagonalMatrix::vmult`: sum over the cells of all ranks. -/
def cellwiseVmult (w : Nat → K) (cells : List (List Nat × (Nat → Nat → K))) (src : Nat → K) (i : Nat) : K :=
  (cells.map fun c => cellContribution w c.1 c.2 src i).sum

/-- lac/preconditioners.h:232-251, 286-300 `InverseComponentBlockDiagonalMatrix`: blocks of the components of each point; `inv` is the
inverse of the block of the matrix. -/
def pointVmult {n : Nat} (inv : Nat → Matrix (Fin n) (Fin n) K) (src : Nat → K) (i : Nat) : K :=
  if h : 0 < n then Matrix.mulVec (inv (i / n)) (fun c : Fin n => src (c.1 + (i / n) * n)) ⟨i % n, Nat.mod_lt i h⟩ else src i

end cellwise

/-! Work vectors of the preconditioners for merged blocks, /repo/include/pf-applications/lac/preconditioners.h -/

/-- What happens to a preconditioner: the system gets another size (refinement, other number of blocks), `clear`, `do_update`, `vmult`. -/
inductive Event where
  | resize (n : Nat)
  | clear
  | update
  | vmult

/-- Size of the system, size of the system at the last update, size of the work vectors `src_` and `dst_` (0: empty). -/
structure Work where
  size : Nat
  prec : Option Nat
  cache : Nat

/-- lac/preconditioners.h:631-675 `AMG` (the same 813-850 `ILU` and 1023-1060 `IC`): `clear` empties the work vectors, `do_update` leaves
them, `vmult` creates them if they are empty. A `vmult` before an update or with work vectors or a preconditioner of another size is undefined. -/
def amgStep (s : Work) : Event → Res Work
  | .resize n => .ok { s with size := n }
  | .clear => .ok { s with prec := none, cache := 0 }
  | .update => .ok { s with prec := some s.size }
  | .vmult =>
    let c := if s.cache = 0 then s.size else s.cache
    if s.prec = some s.size ∧ c = s.size then .ok { s with cache := c } else .ub

/-- lac/preconditioners.h:225-300 `InverseComponentBlockDiagonalMatrix`: `do_update` empties the work vectors, `clear` does not. -/
def pointStep (s : Work) : Event → Res Work
  | .resize n => .ok { s with size := n }
  | .clear => .ok { s with prec := none }
  | .update => .ok { s with prec := some s.size, cache := 0 }
  | .vmult =>
    let c := if s.cache = 0 then s.size else s.cache
    if s.prec = some s.size ∧ c = s.size then .ok { s with cache := c } else .ub

/-- Any sequence of events. -/
def runWork (step : Work → Event → Res Work) (s : Work) (l : List Event) : Res Work := l.foldlM step s

end Verif.Precond
