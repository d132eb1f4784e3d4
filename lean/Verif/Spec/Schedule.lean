import Verif.Model.Schedule
/-!
# Schedule of refinement and grain tracking: what it should be
-/
namespace Verif.Schedule.Spec
open Verif.Schedule

/-- the steps up to `n` at which something is due every `f` steps -/
def due (f n : Nat) : List Nat := (List.range (n + 1)).filter fun k => decide (0 < k) && decide (f > 0) && k % f == 0

/-- some part needs the data of the tracker to belong to the current mesh -/
def needsTracker (c : Conf) : Bool := c.advection || c.ebc || c.output

/-- the Courant condition is checked -/
def courant (c : Conf) : Bool := c.advection && c.checkCourant

/-- state before the first step of a run -/
def Fresh (c : Conf) (st : State) : Prop :=
  st.n = 0 ∧ st.lastAmr = 0 ∧ st.lastGt = 0 ∧ st.sol = 0 ∧ st.depth = c.maxDepth

end Verif.Schedule.Spec
