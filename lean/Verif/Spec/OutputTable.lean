import Verif.Model.OutputTable
/-!
# Specification of the table of scalar results
-/
namespace Verif.OutputTable.Spec

/-- domain integrals accepted by the operators, except `order_params` -/
def integralNames : List Name :=
  ["solid_vol", "void_vol", "surf_area", "gb_area", "avg_grain_size", "surf_area_nrm", "free_energy", "bulk_energy",
    "interface_energy", "control_vol"].map String.toList

/-- labels as they are returned for accepted quantities -/
def Accepted (str : Nat → Name) (q : Name) : Prop := q ∈ integralNames ∨ ∃ k, q = "op".toList ++ '_' :: str k

/-- `std::to_string` of unsigned numbers: digits -/
def Digits (str : Nat → Name) : Prop := Function.Injective str ∧ ∀ k, str k ≠ [] ∧ ∀ c ∈ str k, c.isDigit = true

/-- the column `key` exists once and the row has the value `v` in it -/
def Tabulates {V : Type} (names : List Name) (row : List V) (key : Name) (v : V) : Prop :=
  ∃ p : Nat, names[p]? = some key ∧ row[p]? = some v ∧ ∀ p' : Nat, names[p']? = some key → p' = p

/-- the outputs of the solution during a run -/
def outputs {T V : Type} : List (Event T V) → List (T × Obs V)
  | [] => []
  | .solution t o :: es => (t, o) :: outputs es
  | _ :: es => outputs es

end Verif.OutputTable.Spec
