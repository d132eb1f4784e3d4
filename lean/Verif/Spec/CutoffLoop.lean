/-
Specification for the loops over relevant order parameters, independent of the loops themselves.
-/
import Verif.Model.CutoffLoop

namespace Verif.CutoffLoop.Spec

open Verif.CutoffLoop

variable {K : Type} [Field K] [LinearOrder K] {V : Type} [AddCommGroup V] [Module K V]

/-- The order parameter has no influence at the point: value, gradient and old values vanish, it is not advected. -/
def Neglected (b : Blk K V) : Prop := b.val = 0 ∧ b.grad = 0 ∧ b.buf = 0 ∧ b.vel = none

/-- The order parameter does not enter the linearisation. -/
def NeglectedLin (b : Blk K V) : Prop := b.val = 0 ∧ b.vel = none

/-- The relevant order parameters in ascending order, as listed by the table of the cell (C40). -/
def relevant (n : Nat) (keep : Nat → Bool) : List Nat := (List.range n).filter keep

/-- Block `b` takes part: the first two always do. -/
def active (keep : Nat → Bool) (b : Nat) : Bool := decide (b < 2) || keep (b - 2)

/-- Increments with those of the irrelevant order parameters removed. -/
def truncate (keep : Nat → Bool) (src : List (K × V)) : List (K × V) :=
  src.mapIdx fun b r => if active keep b then r else (0, 0)

/-- The chain of calls from `c` comes to an end, with the call `e`. -/
def Ends (matrixBased : Bool) (c e : Call) : Prop := ∃ n, run matrixBased n c = some e

end Verif.CutoffLoop.Spec
