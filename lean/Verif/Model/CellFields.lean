/-
Fields written per cell: the file with the pores and the translation velocities of the grains
(sintering/postprocessors.h:1278-1356, 1894-1946).

The detection of the pores is modelled in `Verif/Model/Pores.lean`, the data of the advection in
`Verif/Model/Advection.lean`.  deal.II's `DataOut` is modelled as the list of the cells it is told to write together with
the value of the field there; `add_data_vector` is assumed to copy the vector.
-/
import Verif.Model.Res
import Verif.Model.Advection

namespace Verif.CellFields

/-! ### File with the pores -/

/-- A cell of the triangulation as met by `++cell` (all levels).  `index` is the active cell index, absent for cells that
are refined. -/
structure OCell where
  index : Option Nat
  owned : Bool
  /-- `global_active_cell_index` -/
  global : Nat
  deriving DecidableEq, Repr

/-- What a cell gets (postprocessors.h:1310-1319); `none` stands for the invalid id.  The difference of the unsigned
numbers wraps around if the id is below the offset, the access is then out of bounds. -/
def cellId (ids : Nat → Option Nat) (l2g : List Nat) (offset g : Nat) : Res (Option Nat) :=
  match ids g with
  | none => .ok none
  | some p => if p < offset then .ub else (Res.index l2g (p - offset)) >>= fun v => .ok (some v)

/-- postprocessors.h:1304-1319: `cell_to_id`, made of zeros. -/
def cellToId (ids : Nat → Option Nat) (l2g : List Nat) (offset nActive : Nat) (cells : List OCell) :
    Res (List (Option Nat)) :=
  cells.foldlM (fun (v : List (Option Nat)) c => match c.index with
    | none => .ok v
    | some i => if c.owned then do
        let x ← cellId ids l2g offset c.global
        if i < v.length then .ok (v.set i x) else .ub
      else .ok v) (List.replicate nActive (some 0))

/-- postprocessors.h:1323-1336 `get_valid_cell`; an iterator is the list of the cells from there to the end. -/
def getValid (v : List (Option Nat)) : List OCell → Res (List OCell)
  | [] => .ok []
  | c :: rest => match c.index with
    | none => getValid v rest
    | some i => if c.owned then do
        let x ← Res.index v i
        if x.isSome then .ok (c :: rest) else getValid v rest
      else getValid v rest

/-- `DataOut::build_patches` with the selection of postprocessors.h:1338-1349: from `first_cell` on, `next_cell` is called
until the end is reached.  Every cell is written with its value; `none` in the result if the steps do not suffice. -/
def patches (v : List (Option Nat)) : Nat → List OCell → Res (Option (List (Nat × Option Nat)))
  | 0, _ => .ok none
  | fuel + 1, cells => do
    let l ← getValid v cells
    match l with
    | [] => .ok (some [])
    | c :: rest => do
      let x ← Res.index v (c.index.getD 0)
      let t ← patches v fuel rest
      .ok (t.map fun t => (c.global, x) :: t)

/-- postprocessors.h:1303-1356 on one rank after the detection. -/
def poreFile (ids : Nat → Option Nat) (l2g : List Nat) (offset nActive fuel : Nat) (cells : List OCell) :
    Res (Option (List (Nat × Option Nat))) := do
  let v ← cellToId ids l2g offset nActive cells
  patches v fuel cells

/-! ### Translation velocities -/

section
open Verif.Advection
variable {K D : Type} [Field K] [LinearOrder K] {dim : Nat}

/-- A matrix entry is set, `v[i][j] = x`. -/
def setEntry (v : List (List K)) (i j : Nat) (x : K) : Res (List (List K)) := do
  let row ← Res.index v i
  if j < row.length then .ok (v.set i (row.set j x)) else .ub

/-- postprocessors.h:1925-1936: the active lanes of a batch; `cells` are their active cell indices. -/
def writeLanes (ig : Nat) (vt : List (Fin dim → K)) (cells : List Nat) (v : List (List K)) : Res (List (List K)) :=
  (List.range cells.length).foldlM (fun v lane => do
    let c ← Res.index cells lane
    let x ← Res.index vt lane
    (List.finRange dim).foldlM (fun v d => setEntry v (dim * ig + d.val) c (x d)) v) v

/-- postprocessors.h:1919-1938: one order parameter of a batch. -/
def writeOp (vel : (Fin dim → K) → D → (Fin dim → K)) (x : VelData (Fin dim → K) D) (cells : List Nat) (ig : Nat)
    (v : List (List K)) : Res (List (List K)) := do
  let b ← hasVelocity x ig
  if b then do
    let vt ← slotVelocity vel x ig
    writeLanes ig vt cells v
  else .ok v

/-- postprocessors.h:1915-1939: one batch after another; a batch comes with the cut-off table (empty without cut-off) and
the active cell indices of its lanes. -/
def writeBatches (vel : (Fin dim → K) → D → (Fin dim → K)) (vol : D → K) (nLanes nGrains : Nat)
    (m : Mech (Fin dim → K) D) (batches : List (List Nat × List Nat)) (v : List (List K)) : Res (List (List K)) :=
  batches.zipIdx.foldlM (fun v b => do
    let x ← reinit vol nLanes m b.1.1 b.2
    (List.range nGrains).foldlM (fun v ig => writeOp vel x b.1.2 ig v) v) v

/-- postprocessors.h:1904-1945: names and values of the fields, in the order in which they are added. -/
def velocityFields (vel : (Fin dim → K) → D → (Fin dim → K)) (vol : D → K) (nLanes nGrains nActive : Nat) (pre : String)
    (m : Mech (Fin dim → K) D) (batches : List (List Nat × List Nat)) : Res (List (String × List K)) := do
  let v ← writeBatches vel vol nLanes nGrains m batches (List.replicate (nGrains * dim) (List.replicate nActive 0))
  (List.range nGrains).flatMap (fun ig => (List.range dim).map fun d => (ig, d)) |>.mapM fun p => do
    let x ← Res.index v (dim * p.1 + p.2)
    .ok (pre ++ toString p.1, x)

end

end Verif.CellFields
