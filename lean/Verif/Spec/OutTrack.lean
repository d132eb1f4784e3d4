/-
Specification for the grain tracker at output.
-/
import Verif.Model.OutTrack
import Verif.Spec.Cycle
import Verif.Spec.Tracking

namespace Verif.OutTrack.Spec

open Verif.Cycle Verif.Cycle.Spec Verif.Spec

variable {P K : Type}

/-- What is seen fits to the solution in this state. -/
def Fit [Field K] [LinearOrder K] (c : Conf P K) (st : State P K) : Op P K → Prop
  | .run s s' => Fits s ∧ Fits s' ∧ s.ops.length = st.n ∧ ∀ r, trackAll c false s st = .ok r → s'.ops.length = r.1.active.length
  | .output _ s => Fits s ∧ s.ops.length = st.n

/-- It does so in all states a list of operations goes through. -/
def FitAll [Field K] [LinearOrder K] (c : Conf P K) (advection : Bool) : List (Op P K) → State P K → Prop
  | [], _ => True
  | o :: l, st => Fit c st o ∧ ∀ st', op c advection st o = .ok st' → FitAll c advection l st'

/-- The grains `new` continue the grains `old`, one each: `f` names the old grain; a new grain touches it and no other one of its order parameter. -/
structure Continues (inter : P × K → P × K → Prop) (f : Nat → Nat) (old new : OMap (Grain P K)) : Prop where
  touches : ∀ g G, new.get? g = some G → ∃ O, old.get? (f g) = some O ∧ O.op = G.op ∧ Touch inter O G
  only : ∀ g G o O, new.get? g = some G → old.get? o = some O → O.op = G.op → Touch inter O G → o = f g
  inj : ∀ g g' G G', new.get? g = some G → new.get? g' = some G' → f g = f g' → g = g'

/-- A grain without the note whether it grows. -/
def plain (R : Grain P K) : Grain P K := { R with dynamics := .none }

/-- A table of grains without these notes. -/
def plainAll (gs : OMap (Grain P K)) : OMap (Grain P K) := gs.map fun p => (p.1, plain p.2)

/-- A state without these notes and without the grains before the last search. -/
def plainState (st : State P K) : State P K := ⟨⟨plainAll st.tr.grains, [], st.tr.lookup⟩, st.active, st.pids, st.n⟩

/-- Two states with the same grains under the same numbers and the same answers; only the notes whether grains grow may differ, and what is kept of
the search before. -/
def Same (st st' : State P K) : Prop := plainState st = plainState st'

end Verif.OutTrack.Spec
