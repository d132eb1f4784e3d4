import Verif.Model.Track
/-! # Specification of one tracking call, in terms of the tables before and after -/
namespace Verif.Spec
open Verif
variable {P K : Type}

/-- growth state a grain must be flagged with, given the matched previous grain -/
def dynamicsOf [LinearOrder K] (prev : Option (Grain P K)) (g : Grain P K) : Dynamics :=
  match prev with
  | none => .none
  | some o => if o.measure < g.measure then .growing else .shrinking

/-- `φ` is the renaming performed by a successful tracking call: detected id ↦ final id (`none`: the
grain is dropped). `old`, `new` are the previous and the detected grains, `m` the matching, `after`
the resulting table. -/
structure IsTracking [LinearOrder K] (threshold : K) (old new : OMap (Grain P K))
    (m : OMap (Option Nat)) (after : OMap (Grain P K)) (φ : Nat → Option Nat) : Prop where
  /-- a matched grain keeps the identity of its predecessor -/
  matched : ∀ g o, m.get? g = some (some o) → φ g = some o
  /-- an unmatched grain above the threshold gets an identity larger than all previous ones -/
  fresh : ∀ g G, new.get? g = some G → m.get? g = some none → threshold < G.maxValue →
    ∃ k, φ g = some k ∧ ∀ o O, old.get? o = some O → o < k
  /-- the other grains are dropped -/
  skipped : ∀ g G, new.get? g = some G → m.get? g = some none → ¬ threshold < G.maxValue → φ g = none
  /-- identities are unique -/
  inj : ∀ g g' G G' k, new.get? g = some G → new.get? g' = some G' → φ g = some k →
    φ g' = some k → g = g'
  /-- the table holds exactly the detected grains that were not dropped, under their new identity -/
  table : ∀ k R, after.get? k = some R ↔ ∃ g G, new.get? g = some G ∧ φ g = some k ∧
    R = { G with
          grainId := k
          dynamics := dynamicsOf ((m.get? g).join.bind old.get?) G }

/-- every lookup entry of order parameter `op` refers to a detected grain of this order parameter -/
def LookupConsistent (new : OMap (Grain P K)) (lookup : Lookup) : Prop :=
  ∀ (op : Nat) (es : List (Option Nat × Nat)), lookup[op]? = some es → ∀ e ∈ es, ∃ g G, e.1 = some g ∧ new.get? g = some G ∧ G.op = op

/-- the lookup after renaming: every grain id replaced by its new identity, segment ids kept -/
def renamed (φ : Nat → Option Nat) (lookup : Lookup) : Lookup :=
  lookup.map (fun es => es.map (fun e => (e.1.bind φ, e.2)))

end Verif.Spec
