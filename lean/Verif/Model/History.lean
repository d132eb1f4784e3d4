/-
History of solutions in the time loop, with ghost values and with a run of the grain tracker inside of a step:
  include/pf-applications/time_integration/solution_history.h:81-183
  include/pf-applications/lac/dynamic_block_vector.h:60-82 (assignment)
  applications/sintering/include/pf-applications/sintering/driver.h:268-272, 1371-1447, 1515-1732, 1938-2058, 2163-2202, 2318-2345, 2507-2590, 2663-2692
  applications/sintering/include/pf-applications/sintering/operator_sintering_generic.h:927-972 (`do_evalute_history`)

Simplifications: the values of a vector are an element of a type `V`; the ghost entries of all ranks are a copy of these values, taken when they
were updated, or zero.  Solvers, refinement, remapping and predictor are parameters of a pass.  Time step sizes are left out (`TimeLoop`).
-/
import Verif.Model.Res
import Mathlib.Algebra.BigOperators.Group.List.Basic

namespace Verif.History

variable {V : Type}

/-- A vector: values of the owners, and what the other ranks see (`none`: no ghost values, they see zeros). -/
structure Vec (V : Type) where
  own : V
  ghost : Option V
deriving DecidableEq

/-- `update_ghost_values` -/
def Vec.update (v : Vec V) : Vec V := ⟨v.own, some v.own⟩

/-- `zero_out_ghost_values` -/
def Vec.zeroOut (v : Vec V) : Vec V := ⟨v.own, none⟩

/-- dynamic_block_vector.h:60-82: the new value of the left side; ghost values if the right side has some. -/
def Vec.assign (src : Vec V) : Vec V := if src.ghost.isSome then src.update else src.zeroOut

/-- Values are changed by their owners only. -/
def Vec.change (f : V → V) (v : Vec V) : Vec V := ⟨f v.own, v.ghost⟩

/-- The vectors of the history: current solution, recent one, older ones (driver.h:957-960: at least two). -/
structure Hist (V : Type) where
  cur : Vec V
  recent : Vec V
  old : List (Vec V)
deriving DecidableEq

/-- driver.h:1371-1447: refinement of all vectors but the recent one; vectors are set up again, ghost values of the older ones updated. -/
def refine (T : V → V) (h : Hist V) : Hist V :=
  { h with cur := ⟨T h.cur.own, none⟩, old := h.old.map fun v => Vec.update ⟨T v.own, none⟩ }

/-- driver.h:1527-1530: begin of the run of the grain tracker. -/
def trackBegin (h : Hist V) : Hist V := { h with cur := h.cur.update, old := h.old.map Vec.update }

/-- driver.h:1603-1700: remapping of all vectors but the recent one. -/
def remap (R : V → V) (h : Hist V) : Hist V := { h with cur := h.cur.change R, old := h.old.map (Vec.change R) }

/-- driver.h:1730-1731: end of the run of the grain tracker. -/
def trackEnd (h : Hist V) : Hist V := { h with cur := h.cur.zeroOut, old := h.old.map Vec.update }

/-- driver.h:1515-1732 -/
def track (R : V → V) (h : Hist V) : Hist V := trackEnd (remap R (trackBegin h))

/-- solution_history.h:146-157, called with the current solution; the first check is for debug builds. -/
def setRecent (h : Hist V) : Res (Hist V) :=
  if h.cur.ghost.isSome then .exc .assertThrow else .ok { h with recent := h.cur.assign.update }

/-- solution_history.h:135-144: from the end, so that every vector gets the one before. -/
def shift (prev : Vec V) : List (Vec V) → List (Vec V)
  | [] => []
  | v :: l => prev.zeroOut.assign.update :: shift v l

/-- solution_history.h:135-144 -/
def commit (h : Hist V) : Hist V :=
  { h with recent := if h.old = [] then h.recent else h.recent.zeroOut, old := shift h.recent h.old }

/-- driver.h:2179, solution_history.h:159-169: back to the recent solution. -/
def fail (h : Hist V) : Hist V := { h with cur := h.recent.zeroOut.assign, recent := h.recent.zeroOut }

/-- What comes out of a step. -/
inductive Outcome (V : Type)
  /-- the new solution; with `check_inconsistency` the tracker runs in the step -/
  | success (sol : V) (inner : Option (V → V))
  /-- solver, Courant condition -/
  | failure (garbage : V)
  /-- the tracker finds an inconsistency, in the search before or in that after the remapping -/
  | inconsistent (sol : V) (remapped : Option (V → V))

/-- Everything that is decided elsewhere in one pass of the loop. -/
structure Pass (V : Type) where
  /-- driver.h:1941-1946, identity if disabled -/
  limit : V → V
  /-- driver.h:1948-1956 -/
  refine : Option (V → V)
  /-- driver.h:1958-1989 -/
  track : Option (V → V)
  /-- driver.h:2001-2053 -/
  guess : Option V
  outcome : Outcome V
  /-- flexible restart files, with or without history (driver.h:2556-2587) -/
  save : Option Bool
  /-- driver.h:2663-2692 -/
  more : List (V → V)

/-- driver.h:1938-1989 -/
def adapt (a : Pass V) (converged : Bool) (h : Hist V) : Hist V :=
  if converged then
    let h := { h with cur := h.cur.change a.limit }
    let h := match a.refine with | some T => refine T h | none => h
    match a.track with | some R => track R h | none => h
  else h

/-- driver.h:2001-2058 -/
def prepare (a : Pass V) (converged : Bool) (h : Hist V) : Res (Hist V) :=
  (setRecent (adapt a converged h)).bind fun h =>
    match a.guess with
    | some g => .ok { h with cur := ⟨g, none⟩ }
    | none => .ok h

/-- driver.h:2556-2587: what is written, and the history afterwards. -/
def save (full : Option Bool) (h : Hist V) : Hist V × List (Vec V) :=
  match full with
  | none => (h, [])
  | some full =>
    let cur := if h.cur.ghost.isSome then h.cur else h.cur.update
    ({ h with cur := cur.zeroOut }, cur :: if full then h.old else [])

/-- What is seen from outside in a pass: the old solutions the residual reads, the vectors written. -/
structure Seen (V : Type) where
  reads : List (Vec V)
  saved : List (Vec V)
deriving DecidableEq

/-- The tracker in a step, driver.h:2318-2322. -/
def inner (R : Option (V → V)) (h : Hist V) : Hist V := match R with | some R => track R h | none => h

/-- The tracker up to an exception. -/
def innerThrown (R : Option (V → V)) (h : Hist V) : Hist V := match R with | some R => remap R (trackBegin h) | none => trackBegin h

/-- One pass of the loop (driver.h:1935-2706): history, whether converged, what is seen. -/
def pass (a : Pass V) (converged : Bool) (h : Hist V) : Res (Hist V × Bool × Seen V) :=
  (prepare a converged h).bind fun h =>
    match a.outcome with
    | .success sol R =>
      let h1 := commit (inner R { h with cur := ⟨sol, none⟩ })
      let s := save a.save h1
      .ok (a.more.foldl (fun h T => refine T h) s.1, true, ⟨h.recent :: h.old, s.2⟩)
    | .failure garbage => .ok (fail { h with cur := ⟨garbage, none⟩ }, false, ⟨h.recent :: h.old, []⟩)
    | .inconsistent sol R => .ok (fail (innerThrown R { h with cur := ⟨sol, none⟩ }), false, ⟨h.recent :: h.old, []⟩)

/-- Several passes. -/
def run : List (Pass V) → Bool → Hist V → Res (Hist V × Bool × List (Seen V))
  | [], c, h => .ok (h, c, [])
  | a :: l, c, h => (pass a c h).bind fun r => (run l r.2.1 r.1).bind fun q => .ok (q.1, q.2.1, r.2.2 :: q.2.2)

/-- operator_sintering_generic.h:947-961: contribution of the old solutions at an entry, for the weights from the second on. -/
def contribution {K : Type} [AddCommMonoid K] [Mul K] (w : List K) (x : List K) : K := (List.zipWith (fun a b => b * a) w x).sum

/-- Values the owner reads. -/
def ownerReads {K : Type} (l : List (Vec K)) : List K := l.map fun v => v.own

/-- Values another rank reads. -/
def ghostReads {K : Type} [Zero K] (l : List (Vec K)) : List K := l.map fun v => v.ghost.getD 0

end Verif.History
