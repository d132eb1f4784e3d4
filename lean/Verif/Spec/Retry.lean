/-
Specification for repeated attempts of a step.
-/
import Verif.Model.Retry
import Verif.Spec.OutTrack

namespace Verif.Retry.Spec

open Verif.Cycle Verif.Cycle.Spec Verif.Spec Verif.OutTrack.Spec

variable {P K : Type}

/-- What is seen in the attempts fits to the solution. -/
def FitTries [Field K] [LinearOrder K] (c : Conf P K) (dbg : Option (OutTrack.Ask × Seen P K)) : List (Seen P K × Seen P K) → State P K → Prop
  | [], _ => True
  | (s, s') :: l, st => Fits s ∧ Fits s' ∧ s.ops.length = st.n ∧
      (∀ r, trackAll c false s st = .ok r → s'.ops.length = r.1.active.length) ∧
      ∀ st', tryTrack c s s' st = .ok (.rejected st') →
        (∀ a x, dbg = some (a, x) → Fits x ∧ x.ops.length = st'.n) ∧ ∀ st'', debugOut c dbg st' = .ok st'' → FitTries c dbg l st''

/-- Every grain of `new` either continues one of `old`, which `f` names, or touches none of its order parameter. -/
structure Partly (inter : P × K → P × K → Prop) (f : Nat → Option Nat) (old new : OMap (Grain P K)) : Prop where
  touches : ∀ g G o, new.get? g = some G → f g = some o → ∃ O, old.get? o = some O ∧ O.op = G.op ∧ Touch inter O G
  only : ∀ g G o O, new.get? g = some G → old.get? o = some O → O.op = G.op → Touch inter O G → f g = some o
  inj : ∀ g g' G G' o, new.get? g = some G → new.get? g' = some G' → f g = some o → f g' = some o → g = g'

end Verif.Retry.Spec
