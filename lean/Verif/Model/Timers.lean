/-
Timers:
  src/base/timer.cc:82-165 (`TimerPredicate`, type `real_time`), 167-217 (`TimerCollection`), 220-300 (`MyTimerOutput`), 304-365 (`MyScope`)
  include/pf-applications/base/timer.h:25-153
  include/pf-applications/base/scoped_name.h:20-47, as used in driver.h, tracker.h and time_marching.h (`ScopedName sc("..."); MyScope scope(timer, sc);`)

`TimerOutput` and `Timer` are deal.II: entering a section resets and starts its timer, counts the call and makes the section active; leaving it
stops the timer and adds the time. Entering an active section or one without a name is against the contract (`Assert`), here undefined.

Simplifications: CPU times and memory (`monitor`) are left out; time is exact; the counter of `TimerCollection::attach` does not overflow.
-/
import Verif.Model.Res
import Mathlib.Algebra.Order.Field.Basic

namespace Verif.Timers

abbrev Name := List Char

/-- scoped_name.h:36-40: `join(path, "::")`. -/
def join : List Name → Name
  | [] => []
  | [n] => n
  | n :: ns => n ++ ':' :: ':' :: join ns

/-- Code with timers: `scope name timer body` is `ScopedName sc(name); MyScope scope(timer, sc, do_timing)` and what follows in the block; the
timer is `none` if `do_timing` is false or the program is built without timing. `work` takes a time. -/
inductive Code (K : Type) where
  | skip
  | work (t : K)
  | scope (name : Name) (timer : Option Nat) (body : Code K)
  | seq (a b : Code K)
  | throws
  | handled (body : Code K)

/-- A section of a `TimerOutput`: when its timer was started, what it has accumulated since the last reset, the total, the number of calls. -/
structure Sec (K : Type) where
  start : Option K
  acc : K
  total : K
  calls : Nat
deriving DecidableEq

/-- Clock, sections and active sections of the timers; a section exists once it has been called. -/
structure St (K : Type) where
  clock : K
  secs : Nat → Name → Sec K
  active : Nat → List Name

section
variable {K : Type} [AddCommGroup K]

/-- `TimerOutput::enter_subsection`. -/
def enter (s : St K) (t : Nat) (n : Name) : Res (St K) :=
  if n = [] ∨ n ∈ s.active t then .ub
  else .ok { s with
    secs := fun t' n' => if t' = t ∧ n' = n then
      { start := some s.clock, acc := 0, total := (s.secs t n).total, calls := (s.secs t n).calls + 1 } else s.secs t' n'
    active := fun t' => if t' = t then s.active t ++ [n] else s.active t' }

/-- `Timer::stop` and `Timer::wall_time`. -/
def stopped (clock : K) (x : Sec K) : K :=
  match x.start with
  | some a => x.acc + (clock - a)
  | none => x.acc

/-- `TimerOutput::leave_subsection`. -/
def leave (s : St K) (t : Nat) (n : Name) : Res (St K) :=
  if n ∈ s.active t then
    .ok { s with
      secs := fun t' n' => if t' = t ∧ n' = n then
        { start := none, acc := stopped s.clock (s.secs t n), total := (s.secs t n).total + stopped s.clock (s.secs t n),
          calls := (s.secs t n).calls } else s.secs t' n'
      active := fun t' => if t' = t then (s.active t).erase n else s.active t' }
  else .ub

/-- Run code with the static `path` (timer.cc:304-347): the state and whether an exception is on its way. The scopes are left in both cases. -/
def run (path : List Name) (s : St K) : Code K → Res (St K × Bool)
  | .skip => .ok (s, false)
  | .work t => .ok ({ s with clock := s.clock + t }, false)
  | .throws => .ok (s, true)
  | .scope name timer body =>
    match timer with
    | none => run (path ++ [name]) s body
    | some t => do
      let s ← enter s t (join (path ++ [name]))
      let r ← run (path ++ [name]) s body
      let s ← leave r.1 t (join (path ++ [name]))
      .ok (s, r.2)
  | .seq a b => do
    let r ← run path s a
    if r.2 then .ok r else run path r.1 b
  | .handled body => do
    let r ← run path s body
    .ok (r.1, false)

/-- Nothing measured yet. -/
def St.init (clock : K) : St K := ⟨clock, fun _ _ => ⟨none, 0, 0, 0⟩, fun _ => []⟩
end

/-! ### `TimerCollection` -/

/-- The singleton: the static counter and the set of pairs of number and address, in the order of the set. -/
structure Coll where
  counter : Nat
  timers : List (Nat × Nat)
deriving DecidableEq

/-- Life of a timer at an address; `enabled`: argument of the constructor. -/
inductive Op where
  | create (addr : Nat) (enabled : Bool)
  | destroy (addr : Nat) (enabled : Bool)

/-- Insertion into the set. -/
def insertSet (p : Nat × Nat) : List (Nat × Nat) → List (Nat × Nat)
  | [] => [p]
  | q :: l => if p.1 < q.1 ∨ (p.1 = q.1 ∧ p.2 < q.2) then p :: q :: l else if p = q then q :: l else q :: insertSet p l

/-- timer.cc:167-173 `attach`, 176-189 `detach` (erasing `end()` is undefined), called by constructor and destructor (220-246). -/
def Coll.step (c : Coll) : Op → Res Coll
  | .create a e => if e then .ok ⟨c.counter + 1, insertSet (c.counter, a) c.timers⟩ else .ok c
  | .destroy a e =>
    if e then
      match c.timers.findIdx? (fun p => p.2 == a) with
      | some i => .ok { c with timers := c.timers.eraseIdx i }
      | none => .ub
    else .ok c

/-- A sequence of constructions and destructions. -/
def Coll.steps : Coll → List Op → Res Coll
  | c, [] => .ok c
  | c, o :: os => do
    let c ← c.step o
    Coll.steps c os

/-! ### `TimerPredicate` of type `real_time` -/

section
variable {K : Type} [Field K] [LinearOrder K]

/-- timer.cc:142-158 `now` on all ranks: times of the last output, the two times each of the ranks reads from its clock; answers and new times
of the last output. -/
def nowReal (interval : K) (ranks : List (K × K × K)) : List (Bool × K) :=
  if interval ≤ 0 then ranks.map fun r => (false, r.1)
  else
    let sum := (ranks.map fun r => if interval < r.2.1 - r.1 then 1 else 0).sum
    ranks.map fun r => if sum = (0 : Nat) then (false, r.1) else (true, r.2.2)

/-- A sequence of calls: for each the clocks of the ranks. -/
def nowRuns (interval : K) : List K → List (List (K × K)) → List (List Bool)
  | _, [] => []
  | last, c :: cs =>
    let r := nowReal interval (last.zip c)
    (r.map (·.1)) :: nowRuns interval (r.map (·.2)) cs

/-- timer.cc:211-217, 280-288: collective operations of a rank when all statistics are printed: the timers of the collection that have sections,
with the names of these; `names` gives the sections in the order of the map. -/
def collectives (timers : List Nat) (names : Nat → List Name) : List (Nat × Name) :=
  timers.flatMap fun t => if (names t).isEmpty then [] else (names t).map fun n => (t, n)
end

end Verif.Timers
