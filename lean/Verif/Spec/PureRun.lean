/-
Specification: what keeps a pure phase as it is.
-/
import Verif.Model.PureRun
import Verif.Spec.Locality

namespace Verif.PureRun.Spec

open Verif.Newton Verif.Energy Verif.Locality.Spec

variable {K : Type} [Field K] [LinearOrder K] {n m d : Nat}

/-- Everything around the solver respects the phase, the mesh is sound, grains carry as much in as out, and the solver accepts a residual of zero. -/
structure Fair (k : Option (Fin m)) (c : Config K n m d) : Prop where
  limit : c.limit (phase k) = phase k
  remesh : c.remesh (phase k) = phase k
  guess : ∀ g, c.guess = some g → g = phase k
  unity : Unity c.pts
  flux : k = none ∨ ∀ g i, netFlux c.pts i g = 0
  norm : c.solver.norm Fields.zero = .fin 0
  tol : 0 ≤ c.solver.absTol
  user : ∀ f, c.solver.user = some f → ∀ a b x y, f a b x y = .success

/-- The past of a run in a pure phase: steps made so far, then zeros for those that are missing; a solution for every step made is the phase, what the
others hold does not matter. -/
def Past (k : Option (Fin m)) (sols : List (Fields K n m)) (dts : List K) : Prop :=
  ∃ (past : List K) (z : Nat) (rest : List (Fields K n m)),
    (∀ x ∈ past, 0 < x) ∧ dts = past ++ List.replicate z 0 ∧ sols = phase k :: (List.replicate past.length (phase k) ++ rest)

end Verif.PureRun.Spec
