/-
Values which several ranks write to entries they do not own:
  include/pf-applications/grid/grid_tools.h:124-156 (`update_selected_ghosts`), 331-348, 358-470 (`filter_mesh_withing_bounding_box`)

Simplifications: numbers form an ordered field. A vector is given by the values of the owners; after `update_ghost_values` all ranks see
them. The map of new values of a rank is the list of its entries, ordered by index; set of indices and array of values are filled in this
order, so that they fit together. From deal.II: `import_from_ghosted_array` lets the owner combine its entry with every value sent to it.
-/
import Verif.Model.Res
import Mathlib.Algebra.Field.Defs
import Mathlib.Order.Defs.LinearOrder
import Mathlib.Algebra.Order.Group.Abs

namespace Verif.GhostSync

variable {K : Type} [Field K] [LinearOrder K]

/-- grid_tools.h:331-348: the new value is stored together with the value before the first change; `cur` is the value in the ghost entry. -/
def note (m : List (Nat × (K × K))) (i : Nat) (cur new : K) : List (Nat × (K × K)) :=
  if m.any fun e => e.1 == i then m.map fun e => if e.1 = i then (i, (e.2.1, new)) else e
  else m.takeWhile (fun e => decide (e.1 < i)) ++ (i, (cur, new)) :: m.dropWhile fun e => decide (e.1 < i)

/-- grid_tools.h:124-156 `update_selected_ghosts`: values sent by the ranks, one after the other. -/
def update (op : K → K → K) (v : Nat → K) (sent : List (List (Nat × K))) : Nat → K :=
  sent.foldl (fun v l => l.foldl (fun v e => fun i => if i = e.1 then op (v i) e.2 else v i) v) v

/-- grid_tools.h:383-395: entries which the owner did not change. -/
def kept (tol : K) (v : Nat → K) (maps : List (List (Nat × (K × K)))) : List (List (Nat × (K × K))) :=
  maps.map fun m => m.filter fun e => decide (|v e.1 - e.2.1| < tol)

/-- grid_tools.h:358-470: values after the exchange; `tol` is `eps_tol`. -/
def reconcile (tol : K) (v : Nat → K) (maps : List (List (Nat × (K × K)))) : Nat → K :=
  let maps := kept tol v maps
  let v1 := update (· + ·) v (maps.map fun m => m.map fun e => (e.1, -e.2.1))
  let v2 := update max v1 (maps.map fun m => (m.filter fun e => decide (v1 e.1 < -tol)).map fun e => (e.1, 0))
  let v3 := update min v2 (maps.map fun m => (m.filter fun e => decide (e.2.2 < 0)).map fun e => (e.1, e.2.2))
  update max v3 (maps.map fun m => (m.filter fun e => decide (0 < e.2.2)).map fun e => (e.1, e.2.2))

/-- grid_tools.h:326-348: a rank writes to an entry of its copy of the vector; `ghost`: entries owned by others. -/
def write (ghost : Nat → Bool) (s : (Nat → K) × List (Nat × (K × K))) (e : Nat × K) : (Nat → K) × List (Nat × (K × K)) :=
  (fun i => if i = e.1 then e.2 else s.1 i, if ghost e.1 then note s.2 e.1 (s.1 e.1) e.2 else s.2)

/-- Entry in the copy of its owner. -/
def ownValue (r : Option ((Nat → K) × List (Nat × (K × K)))) (v0 : Nat → K) (i : Nat) : K :=
  match r with
  | some r => r.1 i
  | none => v0 i

/-- grid_tools.h:231-470, one level and one block: every rank writes to its copy, then the values are exchanged. `owner` gives the rank of
an entry, `writes` the writing of the ranks in the order of their cells. -/
def level (tol : K) (owner : Nat → Nat) (writes : List (List (Nat × K))) (v0 : Nat → K) : Nat → K :=
  let ranks := writes.mapIdx fun p ws => ws.foldl (write fun i => owner i != p) (v0, [])
  reconcile tol (fun i => ownValue ranks[owner i]? v0 i) (ranks.map fun r => r.2)

end Verif.GhostSync
