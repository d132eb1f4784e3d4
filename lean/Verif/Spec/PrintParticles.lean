/-
Specification: one record per particle.
-/
import Verif.Model.PrintParticles

namespace Verif.PrintParticles.Spec

open Verif.PrintParticles Verif.Cloud

/-- A record for every particle in their order, with an order parameter that has this particle. -/
def Records {K P : Type} (ps : List (Part K P)) (t : OMap (List Nat)) (rs : List (Rec K P)) : Prop :=
  rs.length = ps.length ∧ ∀ p a, ps[p]? = some a → ∃ op l, rs[p]? = some ⟨a.center, p, a.radius, op⟩ ∧ t.get? op = some l ∧ p ∈ l

end Verif.PrintParticles.Spec
