import Verif.Model.Grain
import Verif.Model.OMap
/-!
# Specification of order parameter reassignment
-/
namespace Verif.Spec
variable {P K : Type}

/-- No two different grains (in key order) that are too close share an order parameter. -/
def SafeOps (close : Grain P K → Grain P K → Bool) (gs : OMap (Grain P K)) : Prop :=
  ∀ i j a b, gs.get? i = some a → gs.get? j = some b → i < j → close a b = true → a.op ≠ b.op

/-- The order parameters in use are exactly `0..k-1`. -/
def GapFree (gs : OMap (Grain P K)) (k : Nat) : Prop :=
  ∀ o, (∃ g a, gs.get? g = some a ∧ a.op = o) ↔ o < k

/-- Reassignment changes order parameters and nearest neighbour distances only. -/
def SameGrains (gs gs' : OMap (Grain P K)) : Prop :=
  gs'.Sorted ∧ (∀ k, (gs'.get? k).isSome ↔ (gs.get? k).isSome) ∧
  ∀ k a a', gs.get? k = some a → gs'.get? k = some a' →
    a' = { a with op := a'.op, nearest := a'.nearest }

end Verif.Spec
