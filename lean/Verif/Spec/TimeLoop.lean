import Verif.Model.TimeLoop
/-!
# Specification of the time loop

What the history of accepted steps is, without reference to how the loop stores it.
-/
namespace Verif
variable {K V : Type}

/-- effect of sanity check, refinement and remapping on the accepted solutions (newest first) -/
def specPrep (a : Attempt V) (converged : Bool) : List V → List V
  | [] => []
  | u :: us => if converged then a.remesh (a.limit u) :: us.map a.remesh else u :: us

/-- accepted solutions after a pass, newest first -/
def specSols (a : Attempt V) (converged : Bool) (sols : List V) : List V :=
  match a.outcome with
  | .success sol _ => sol :: specPrep a converged sols
  | .failure _ => specPrep a converged sols

/-- sizes of the accepted steps after a pass, newest first -/
def specDts (a : Attempt V) (dt : K) (dts : List K) : List K :=
  match a.outcome with
  | .success _ _ => dt :: dts
  | .failure _ => dts

/-- number of old solutions kept: the order of the scheme, at least one -/
def depth (s : Option Scheme) : Nat := max ((s.map Scheme.order).getD 0) 1

section
variable [Field K] [LinearOrder K]

/-- Start of a run: current solution `u0`, older solutions `rest`, step sizes `dts` of the past (zeros in
a fresh run). -/
structure Started (s : Option Scheme) (st : RunState K V) (sols : List V) (dts : List K) : Prop where
  hist : ∃ u0 x rest, st.hist = u0 :: x :: rest ∧ sols = u0 :: rest ∧ rest.length + 1 = depth s
  scheme : st.data.scheme = s
  order : st.data.order = (s.map Scheme.order).getD 0
  steps : st.data.dt = st.dt :: dts
  ndts : dts.length + 1 = depth s
  weights : ∀ k, s = some k → st.data.weights = computeWeights k st.data.dt
  conv : st.converged = true

/-- States at the head of the loop, with the accepted solutions and step sizes so far. -/
inductive RunReach (p : LoopParams K) (s : Option Scheme) : RunState K V → RunState K V → List V → List K → Prop
  | start {st : RunState K V} {sols dts} (h : Started s st sols dts) : RunReach p s st st sols dts
  | pass {st0 st st' : RunState K V} {sols dts} (a : Attempt V) (h : RunReach p s st0 st sols dts)
      (hc : loopCond p st.t = true) (hp : pass p st a = .ok st') :
      RunReach p s st0 st' (specSols a st.converged sols) (specDts a st.dt dts)
end
end Verif
