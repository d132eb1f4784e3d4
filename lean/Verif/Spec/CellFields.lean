/-
Specification of the fields written per cell.
-/
import Verif.Model.CellFields

namespace Verif.Spec.CellFields

open Verif.CellFields Verif.Advection

/-- The cells of a rank as its triangulation numbers them. -/
structure Numbered (nActive : Nat) (cells : List OCell) : Prop where
  bound : ∀ c ∈ cells, ∀ i, c.index = some i → i < nActive
  inj : ∀ c ∈ cells, ∀ c' ∈ cells, ∀ i, c.index = some i → c'.index = some i → c = c'

/-- A cell that belongs to a pore, on the rank that owns it. -/
def inPore (ids : Nat → Option Nat) (c : OCell) : Bool := c.index.isSome && c.owned && (ids c.global).isSome

/-- Number of the data of the order parameter `ig` on a batch: without a table its own number, with a table the entry
there unless it is 255. -/
def slotOf (g2r : List Nat) (ig : Nat) : Option Nat :=
  if g2r = [] then some ig else (g2r[ig]?).bind fun r => if r = 255 then none else some r

/-- Centre and data of the grain that the order parameter `ig` represents in a lane of the batch, if there is one. -/
def grainAt {V D : Type} (x : VelData V D) (ig lane : Nat) : Option (V × D) :=
  (slotOf x.g2r ig).bind fun r => (x.slots[r]?).bind fun s => (s[lane]?).join

/-- Velocity to be shown: that of the grain, zero without grain. -/
def shown {K D : Type} [Zero K] {dim : Nat} (vel : (Fin dim → K) → D → (Fin dim → K))
    (x : VelData (Fin dim → K) D) (ig lane : Nat) : Fin dim → K :=
  (grainAt x ig lane).elim 0 fun p => vel p.1 p.2

/-- The data read for a batch with `n` active lanes are complete: see C54 for the data that the operator of the forces
leaves. -/
structure Complete {K V D : Type} [Field K] [LinearOrder K] (vol : D → K) (nGrains n : Nat) (g2r : List Nat)
    (x : VelData V D) : Prop where
  table : x.g2r = g2r
  len : g2r = [] ∨ g2r.length = nGrains
  has : x.has = x.slots.map (hasNonZero vol)
  few : x.slots.length ≤ 255
  slots : ∀ ig < nGrains, ∀ r, slotOf g2r ig = some r → ∃ s, x.slots[r]? = some s ∧ n ≤ s.length
  volume : ∀ s ∈ x.slots, ∀ p, some p ∈ s → 0 ≤ vol p.2

end Verif.Spec.CellFields
