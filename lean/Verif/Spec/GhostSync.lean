/-
What ranks did to an entry.
-/
import Mathlib.Order.Defs.LinearOrder

namespace Verif.GhostSync.Spec

/-- Old and new values which the ranks noted for entry `i`. -/
def noted {K : Type} (maps : List (List (Nat × (K × K)))) (i : Nat) : List (K × K) :=
  maps.flatten.filterMap fun e => if e.1 = i then some e.2 else none

/-- The last value written to entry `i`. -/
def lastWrite {K : Type} (ws : List (Nat × K)) (i : Nat) : Option K := (ws.filterMap fun e => if e.1 = i then some e.2 else none).getLast?

/-- Last values which the ranks other than the owner wrote to entry `i`. -/
def others {K : Type} (owner : Nat → Nat) (writes : List (List (Nat × K))) (i : Nat) : List K :=
  (writes.mapIdx fun p ws => if owner i = p then none else lastWrite ws i).filterMap id

end Verif.GhostSync.Spec
