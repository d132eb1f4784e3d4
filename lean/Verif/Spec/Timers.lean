/-
What timers should measure.
-/
import Verif.Model.Timers

namespace Verif.Timers.Spec
open Verif.Timers

section
variable {K : Type} [AddCommGroup K]

/-- Time the code takes until it ends or throws, and whether it throws. -/
def takes : Code K → K × Bool
  | .skip => (0, false)
  | .work t => (t, false)
  | .throws => (0, true)
  | .scope _ _ body => takes body
  | .seq a b => if (takes a).2 then takes a else ((takes a).1 + (takes b).1, (takes b).2)
  | .handled body => ((takes body).1, false)

/-- The executions of scopes with timers: timer, full name, time. -/
def executions (path : List Name) : Code K → List (Nat × Name × K)
  | .skip => []
  | .work _ => []
  | .throws => []
  | .scope name timer body =>
    executions (path ++ [name]) body ++
      (match timer with
        | some t => [(t, join (path ++ [name]), (takes body).1)]
        | none => [])
  | .seq a b => if (takes a).2 then executions path a else executions path a ++ executions path b
  | .handled body => executions path body

/-- All names have at least one character. -/
def Named : Code K → Prop
  | .scope name _ body => name ≠ [] ∧ Named body
  | .seq a b => Named a ∧ Named b
  | .handled body => Named body
  | _ => True

/-- Total time of a section. -/
def timeOf (l : List (Nat × Name × K)) (t : Nat) (n : Name) : K :=
  ((l.filter fun e => e.1 = t ∧ e.2.1 = n).map fun e => e.2.2).sum

/-- Calls of a section. -/
def callsOf (l : List (Nat × Name × K)) (t : Nat) (n : Name) : Nat := (l.filter fun e => e.1 = t ∧ e.2.1 = n).length

/-- The same code with other times. -/
def Alike : Code K → Code K → Prop
  | .skip, .skip => True
  | .work _, .work _ => True
  | .throws, .throws => True
  | .scope n t b, .scope n' t' b' => n = n' ∧ t = t' ∧ Alike b b'
  | .seq a b, .seq a' b' => Alike a a' ∧ Alike b b'
  | .handled b, .handled b' => Alike b b'
  | _, _ => False
end

/-- The timers alive after the operations, in the order of construction, with the argument `enabled`; `none`: two timers at one address, or the
destruction of something that is not alive. -/
def alive : List (Nat × Bool) → List Op → Option (List (Nat × Bool))
  | l, [] => some l
  | l, .create a e :: os => if a ∈ l.map (·.1) then none else alive (l ++ [(a, e)]) os
  | l, .destroy a e :: os => if (a, e) ∈ l then alive (l.filter fun p => p.1 ≠ a) os else none

end Verif.Timers.Spec
