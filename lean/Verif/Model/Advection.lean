/-
Rigid body motion of grains (advection):
  applications/sintering/include/pf-applications/sintering/operator_advection.h
  applications/sintering/include/pf-applications/sintering/advection.h
  include/pf-applications/base/tensor.h (cross products)

Simplifications: what the grain tracker returns for a cell and an order parameter (particle, grain, segment, number of the
segment) is one partial function; the integrals of volume, force and torque over a cell are given elements of an additive
monoid; arithmetic is exact.  Force and torque at one quadrature point are modelled separately (`pairForce`, `forceOn`,
`torque2`, `torque3`).
-/
import Verif.Model.Cutoff
import Mathlib.Algebra.Field.Defs
import Mathlib.Algebra.Module.Defs
import Mathlib.Algebra.Group.Prod

namespace Verif.Advection


/-! ### Index tables and sums -/

/-- One active lane (a cell): the number of the segment an order parameter belongs to there (`none` if there is no
particle or no grain), and the integrals of volume, force and torque. -/
structure Lane (D : Type) where
  seg : Nat → Option Nat
  data : Nat → D

/-- advection.h:417-500: data of `AdvectionMechanism`.  `grains_data` and `grains_center` are flat in the code,
here one element per segment. -/
structure Mech (V D : Type) where
  data : List D
  center : List V
  indexPtr : List Nat
  indexValues : List (Option Nat)
  deriving DecidableEq, Repr

section
variable {V D : Type} [AddCommMonoid V] [AddCommMonoid D]

/-- advection.h:405-415 `nullify_data` -/
def nullify (nSeg : Nat) : Mech V D :=
  { data := List.replicate nSeg 0, center := List.replicate nSeg 0, indexPtr := [0], indexValues := [] }

/-- `v[i] += a` without bounds check. -/
def addTo {α : Type} [Add α] (l : List α) (i : Nat) (a : α) : Res (List α) :=
  match l[i]? with
  | some b => .ok (l.set i (b + a))
  | none => .ub

/-- operator_advection.h:190-244 (558-610 in the weighted operator): entries of one order parameter. -/
def pushIndices (nLanes : Nat) (lanes : List (Lane D)) (ig : Nat) (m : Mech V D) : Mech V D :=
  { m with indexValues := m.indexValues ++ lanes.map (fun l => l.seg ig) ++
      List.replicate (nLanes - lanes.length) none }

/-- operator_advection.h:342-365: adding the centre and the integrals of the lanes. -/
def addLanes (center : Nat → V) (ig : Nat) : List (Lane D) → Mech V D → Res (Mech V D)
  | [], m => .ok m
  | l :: ls, m =>
    match l.seg ig with
    | none => addLanes center ig ls m
    | some s => do
      let c ← addTo m.center s (center s)
      let d ← addTo m.data s (l.data ig)
      addLanes center ig ls { m with center := c, data := d }

/-- operator_advection.h:179-366: the loop over the order parameters; `g2r` is `grain_to_relevant_grain`. -/
def opLoop (nLanes : Nat) (center : Nat → V) (lanes : List (Lane D)) (g2r : List Nat) :
    List Nat → Mech V D → Res (Mech V D)
  | [], m => .ok m
  | ig :: igs, m => do
    let r ← Res.index g2r ig
    if r = 255 then opLoop nLanes center lanes g2r igs m
    else do
      let m ← addLanes center ig lanes (pushIndices nLanes lanes ig m)
      opLoop nLanes center lanes g2r igs m

/-- operator_advection.h:166-371: the loop over the cell batches with their tables `grain_to_relevant_grain`. -/
def cellLoop (nLanes nGrains : Nat) (center : Nat → V) : List (List (Lane D) × List Nat) → Mech V D → Res (Mech V D)
  | [], m => .ok m
  | (lanes, g2r) :: cs, m => do
    let m ← opLoop nLanes center lanes g2r (List.range nGrains) m
    cellLoop nLanes nGrains center cs { m with indexPtr := m.indexPtr ++ [m.indexValues.length] }

/-- operator_advection.h:87-121 `AdvectionOperatorGeneric::evaluate_forces` on all ranks: local loops, then the sum of
`grains_data` (only) over the ranks. -/
def evaluateForces (nLanes nGrains nSeg : Nat) (center : Nat → V) (ranks : List (List (List (Lane D) × List Nat))) :
    Res (List (Mech V D)) := do
  let ms ← ranks.mapM fun cs => cellLoop nLanes nGrains center cs (nullify nSeg)
  let total := (List.range nSeg).map fun s => (ms.map fun m => m.data.getD s 0).sum
  .ok (ms.map fun m => { m with data := total })

/-- operator_advection.h:626-771: indices pushed by the weighted operator on one cell batch: those of `ig`, then
those of every other relevant `jg`. -/
def opLoopWeighted (nLanes nGrains : Nat) (lanes : List (Lane D)) (g2r : List Nat) :
    List Nat → Mech V D → Res (Mech V D)
  | [], m => .ok m
  | ig :: igs, m => do
    let r ← Res.index g2r ig
    if r = 255 then opLoopWeighted nLanes nGrains lanes g2r igs m
    else
      let m := pushIndices nLanes lanes ig m
      let m := ((List.range nGrains).filter fun jg => jg ≠ ig ∧ g2r.getD jg 255 ≠ 255).foldl
        (fun m jg => pushIndices nLanes lanes jg m) m
      opLoopWeighted nLanes nGrains lanes g2r igs m

/-- operator_advection.h:612-776 -/
def cellLoopWeighted (nLanes nGrains : Nat) : List (List (Lane D) × List Nat) → Mech V D → Res (Mech V D)
  | [], m => .ok m
  | (lanes, g2r) :: cs, m => do
    let m ← opLoopWeighted nLanes nGrains lanes g2r (List.range nGrains) m
    cellLoopWeighted nLanes nGrains cs { m with indexPtr := m.indexPtr ++ [m.indexValues.length] }

/-- operator_advection.h:430-514 `AdvectionOperatorWeighted::evaluate_forces`: after the loop the data are nullified
again (481) and volumes and forces are written; `result` is what is written. -/
def evaluateWeighted (nLanes nGrains nSeg : Nat) (cells : List (List (Lane D) × List Nat)) (result : List D) :
    Res (Mech V D) := do
  let _ ← (cellLoopWeighted nLanes nGrains cells (nullify nSeg) : Res (Mech V D))
  let m : Mech V D := nullify nSeg
  .ok { m with data := result }
end

/-! ### Reading in the kernels -/

/-- advection.h:159-308: data of `AdvectionVelocityData`.  `slots`: for every slot and lane centre and data of the
segment, `none` if nullified. -/
structure VelData (V D : Type) where
  slots : List (List (Option (V × D)))
  has : List Bool
  g2r : List Nat
  deriving DecidableEq, Repr

section
variable {K V D : Type} [Field K] [LinearOrder K]

/-- advection.h:200-212: one entry. -/
def readEntry (m : Mech V D) : Option Nat → Res (Option (V × D))
  | none => .ok none
  | some s => do
    let c ← Res.index m.center s
    let d ← Res.index m.data s
    .ok (some (c, d))

/-- Chunks of `n` elements. -/
def chunks {α : Type} (n : Nat) : Nat → List α → List (List α)
  | 0, _ => []
  | k + 1, l => l.take n :: chunks n k (l.drop n)

/-- advection.h:41-47 `has_non_zero`; `volume_inv` is 1/volume (infinity for zero) or -1. -/
def hasNonZero (vol : D → K) (lanes : List (Option (V × D))) : Bool :=
  lanes.any fun x => match x with
    | some (_, d) => decide (0 ≤ vol d)
    | none => false

/-- advection.h:183-223 `reinit`, for an enabled mechanism; `g2r` is empty without cut-off. -/
def reinit (vol : D → K) (nLanes : Nat) (m : Mech V D) (g2r : List Nat) (cell : Nat) : Res (VelData V D) := do
  let b ← Res.index m.indexPtr (cell + 1)
  let a ← Res.index m.indexPtr cell
  let vals ← ((List.range (b - a)).mapM fun i => do
    let x ← Res.index m.indexValues (a + i)
    readEntry m x)
  let slots := chunks nLanes ((b - a) / nLanes) vals
  .ok { slots := slots, has := slots.map (hasNonZero vol), g2r := g2r }

/-- advection.h:287-296 `get_relevant_id` -/
def relevantId (x : VelData V D) (op : Nat) : Res Nat :=
  if x.g2r.isEmpty then .ok (op % 256) else Res.index x.g2r op

/-- advection.h:231-245 `has_velocity` -/
def hasVelocity (x : VelData V D) (op : Nat) : Res Bool :=
  if x.has.isEmpty then .ok false
  else do
    let r ← relevantId x op
    if r = 255 then .ok false else Res.index x.has r

/-- advection.h:265-284: translation and rotation velocity of the lanes, from the data of the slot
`get_relevant_id(id)`; `vel` is the velocity of one lane, zero for nullified lanes. -/
def slotVelocity [Zero V] (vel : V → D → V) (x : VelData V D) (op : Nat) : Res (List V) := do
  let r ← relevantId x op
  let s ← Res.at? x.slots[r]?
  .ok (s.map fun l => match l with
    | some (c, d) => vel c d
    | none => 0)

/-- advection.h:247-263 `get_velocity`: the relevant id is computed here and again in the two functions called. -/
def getVelocity [Zero V] (vel : V → D → V) (x : VelData V D) (op : Nat) : Res (List V) := do
  let r ← relevantId x op
  slotVelocity vel x r
end

/-! ### Forces, torques and velocities at a point -/

section
variable {K : Type} [Field K] [LinearOrder K]

/-- tensor.h:61-66 `cross_product` in two dimensions -/
def cross2 (a b : K × K) : K := a.2 * b.1 - a.1 * b.2

/-- deal.II `cross_product_3d` (tensor.h:78-83) -/
def cross3 (a b : K × K × K) : K × K × K :=
  (a.2.1 * b.2.2 - a.2.2 * b.2.1, a.2.2 * b.1 - a.1 * b.2.2, a.1 * b.2.1 - a.2.1 * b.1)

/-- operator_advection.h:311-317, 337-340, 359-363: torque of forces acting at points, relative to the centre. -/
def torque2 (l : List ((K × K) × (K × K))) : K := l.foldl (fun t p => t + cross2 p.1 p.2) 0

def torque3 (l : List ((K × K × K) × (K × K × K))) : K × K × K := l.foldl (fun t p => t + cross3 p.1 p.2) 0

/-- advection.h:104-113, 341-353: rotation velocity at a point relative to the centre, two dimensions. -/
def rotation2 (mr volume torque : K) (r : K × K) : K × K :=
  (mr * (1 / volume) * (-r.2 * torque), mr * (1 / volume) * (r.1 * torque))

/-- advection.h:148-152, 341-353: three dimensions. -/
def rotation3 (mr volume : K) (torque r : K × K × K) : K × K × K :=
  let c := cross3 torque r
  (mr * (1 / volume) * c.1, mr * (1 / volume) * c.2.1, mr * (1 / volume) * c.2.2)

variable {V : Type} [AddCommGroup V] [Module K V]

/-- operator_advection.h:279-307: force on grain i from grain j at a quadrature point (`cgb`: filter threshold; the
smoothened filter involves the exponential and is a parameter). -/
def pairForce (k cgb ceq : K) (smooth : Option (K → K)) (c : K) (i j : K × V) : V :=
  let f := i.1 * j.1
  let f := if 0 < cgb then
      match smooth with
      | some s => s f
      | none => if cgb < f then 1 else 0
    else f * 4
  (k * (c - ceq) * f) • (i.2 - j.2)

/-- operator_advection.h:268-319: force on grain `ig` from the other relevant grains (`none`: not relevant). -/
def forceOn (k cgb ceq : K) (smooth : Option (K → K)) (c : K) (gs : List (Option (K × V))) (ig : Nat) : V :=
  match gs[ig]? with
  | some (some i) =>
    gs.zipIdx.foldl (fun f p => match p.1 with
      | some j => if ig ≠ p.2 then f + pairForce k cgb ceq smooth c i j else f
      | none => f) 0
  | _ => 0
end

end Verif.Advection
