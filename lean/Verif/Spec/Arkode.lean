import Verif.Model.Arkode
/-!
# Specification of the time stepping with ARKODE
-/
namespace Verif.Arkode.Spec
variable {V : Type}

/-- the time-dependent blocks among the blocks `u` of equations of the types `ts` -/
def free (ts : List EqType) (u : List V) : List V :=
  ((ts.zip u).filter fun x => x.1 != .stationary).map Prod.snd

/-- the stationary blocks -/
def stat (ts : List EqType) (u : List V) : List V :=
  ((ts.zip u).filter fun x => x.1 == .stationary).map Prod.snd

/-- `full` has one block for each equation, its time-dependent blocks are `y` and its stationary blocks are `b` -/
def Merged (ts : List EqType) (y b full : List V) : Prop :=
  full.length = ts.length ∧ free ts full = y ∧ stat ts full = b

/-- `l` are consecutive intervals from `t` to `e` of the given lengths -/
def Consecutive {K : Type} [Add K] : K → List K → List (K × K) → K → Prop
  | t, [], l, e => l = [] ∧ t = e
  | t, dt :: dts, l, e => ∃ l', l = (t, t + dt) :: l' ∧ Consecutive (t + dt) dts l' e

end Verif.Arkode.Spec
