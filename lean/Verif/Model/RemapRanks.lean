/-
Remapping of grains on several ranks:
  include/pf-applications/grain_tracker/tracker.h:425-649 (`remap_new`), 405-423 (`remap`)
  include/pf-applications/grain_tracker/distributed_stitching.h:36-88 (`run_flooding`, test of a cell)
  applications/sintering/include/pf-applications/sintering/driver.h:1515-1732 (`run_grain_tracker`: ghost values)

Simplifications: one solution vector. The copy of a rank has all entries; a rank reads and writes only those of its own cells. Cells and
graphs are those of module `Remap`; the order of boost may be another one on every rank.
-/
import Verif.Model.Remap
import Mathlib.Order.Defs.LinearOrder

namespace Verif.RemapRanks

variable {P K D : Type} [DecidableEq D] [Zero K]

/-- A rank: its order of edges and its own cells. -/
abbrev Rank (D : Type) := RemapExt × List (RCell D)

/-- driver.h:1530, tracker.h:425-649: ghost values are there when the remapping begins, so that all copies are equal; then every rank
goes through its own cells.  The result is the copy of every rank, nothing is exchanged. -/
def views (nb off : Nat) (grains : OMap (Grain P K)) (lookup : Lookup) (ranks : List (Rank D)) (sol : Fld D K) : Res (List (Fld D K)) :=
  ranks.mapM fun r => (remapNew r.1 nb off grains lookup r.2 sol).bind fun q => .ok q.2

omit [DecidableEq D] [Zero K] in
/-- driver.h:1730-1731: `zero_out_ghost_values`, `update_ghost_values`: from now on the entry of the owner counts. -/
def exchange (owner : D → Nat) (vs : List (Fld D K)) (sol : Fld D K) : Fld D K := fun b d =>
  match vs[owner d]? with
  | some f => f b d
  | none => sol b d

/-- Remapping as the driver does it. -/
def remapAll (nb off : Nat) (grains : OMap (Grain P K)) (lookup : Lookup) (owner : D → Nat) (ranks : List (Rank D)) (sol : Fld D K) :
    Res (Fld D K) :=
  (views nb off grains lookup ranks sol).bind fun vs => .ok (exchange owner vs sol)

omit [DecidableEq D] [Zero K] in
/-- distributed_stitching.h:69-74: whether there is a particle in the cell. -/
def occupied [LinearOrder K] (thr : K) (f : Fld D K) (b : Nat) (c : RCell D) : Bool := c.dofs.any fun d => decide (thr < f b d)

end Verif.RemapRanks
