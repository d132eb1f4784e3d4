/-
Specification of remapping on several ranks.
-/
import Verif.Model.RemapRanks
import Verif.Spec.Remap

namespace Verif.RemapRanks.Spec

open Verif.Spec

variable {P K D : Type} [LinearOrder K]

/-- All cells of the mesh. -/
def cells (ranks : List (Rank D)) : List (RCell D) := ranks.flatMap fun r => r.2

/-- Every degree of freedom of the mesh belongs to a rank which has one of its cells (contract of deal.II). -/
def Owned (owner : D → Nat) (ranks : List (Rank D)) : Prop :=
  ∀ d, (∃ c ∈ cells ranks, d ∈ c.dofs) → ∃ r, ranks[owner d]? = some r ∧ ∃ c ∈ r.2, d ∈ c.dofs

/-- What the search for particles has found in the values which are remapped: a value above the threshold puts all cells at the degree
of freedom into the same particle, and this particle belongs to a grain. -/
structure Searched (thr : K) (off : Nat) (grains : OMap (Grain P K)) (lookup : Lookup) (cs : List (RCell D)) (sol : Fld D K) : Prop where
  found : ∀ op d, (∃ c ∈ cs, d ∈ c.dofs) → thr < sol (op + off) d →
    ∃ g G, grains.get? g = some G ∧ G.oldOp = op ∧ ∀ c ∈ cs, d ∈ c.dofs → PresentAt lookup c op g

/-- Where values above the threshold have to be after the remapping. -/
def Above (thr : K) (off : Nat) (grains : OMap (Grain P K)) (sol : Fld D K) (cs : List (RCell D)) (lookup : Lookup) (o : Nat) (d : D) : Prop :=
  ∃ g G, grains.get? g = some G ∧ G.op = o ∧ thr < sol (G.oldOp + off) d ∧ ∀ c ∈ cs, d ∈ c.dofs → PresentAt lookup c G.oldOp g

end Verif.RemapRanks.Spec
