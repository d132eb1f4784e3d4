import Verif.Model.GrainStats
/-!
# Specification of the tables of grains and pores
-/
namespace Verif.GrainStats.Spec
open Verif.OutputTable (Name)

/-- the column `key` exists once and the line has the value `v` in it -/
def Shows {V : Type} (names : List Name) (line : List (Option V)) (key : Name) (v : V) : Prop :=
  ∃ p : Nat, names[p]? = some key ∧ line[p]? = some (some v) ∧ ∀ p' : Nat, names[p']? = some key → p' = p

/-- every particle belongs to a segment of a grain, different particles to different segments -/
def Valid (lookup : Lookup) : Prop :=
  lookup.flatten.Nodup ∧ ∀ e ∈ lookup.flatten, ∃ g, e.1 = some g ∧ g < invalidUInt

/-- every grain with a single segment has its particle -/
def Covers {K : Type} (lookup : Lookup) (grains : OMap (Grain K)) : Prop :=
  ∀ e ∈ grains, e.2.segments.length = 1 → (some e.1, 0) ∈ lookup.flatten

def axis (prefix' : String) (d : Nat) : Name := prefix'.toList ++ [(['x', 'y', 'z'][d]?).getD 'x']

/-- the name of a torque -/
def torque (dim d : Nat) : Name := if dim = 3 then axis "t" d else "t".toList

end Verif.GrainStats.Spec
