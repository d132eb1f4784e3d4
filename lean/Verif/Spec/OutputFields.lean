import Verif.Model.OutputFields
/-!
# Specification of the fields in the output

Tables of the fields a user can ask for: every field consists of named components with a meaning. The tables do
not use the counts, masks and lists of names of the model.
-/
namespace Verif.OutputFields

/-- fields with their components -/
abbrev FieldTable := List (String × List (String × Quantity))

/-- components of the fields asked for, in the order of the table -/
def requested (table : FieldTable) (fields : List String) : List (String × Quantity) :=
  table.flatMap fun e => if e.1 ∈ fields then e.2 else []

/-- what the output has to contain: at all `nq` quadrature points the quantity with that name -/
def expected (nq : Nat) (l : List (String × Quantity)) : List (String × List (Option Quantity)) :=
  l.map fun e => (e.1, List.replicate nq (some e.2))

/-- all `i < j < n` -/
def upper {α : Type} (n : Nat) (f : Nat → Nat → α) : List α :=
  (List.range n).flatMap fun i => ((List.range n).filter fun j => i < j).map (f i)

def sinteringTable (n dim : Nat) : FieldTable :=
  [("bnds", [("bnds", .bnds)]),
   ("gb", [("gb", .gb)]),
   ("d2f", ("d2f_dc2", .d2fDc2) :: ((List.range n).map (fun i => ("d2f_dcdeta" ++ toString i, .d2fDcDeta i)) ++
      (List.range n).map (fun i => ("d2f_deta" ++ toString i ++ "2", .d2fDeta2 i)) ++
      upper n fun i j => ("d2f_deta" ++ toString i ++ "deta" ++ toString j, .d2fDetaDeta i j))),
   ("M", [("M", .mobility)]),
   ("dM", ("nrm_dM_dc_x_mu_grad", .dMDc) :: ("nrm_dM_dgrad_c", .dMDgradC) ::
      (List.range n).map fun i => ("nrm_dM_deta" ++ toString i ++ "_x_mu_grad", .dMDeta i)),
   ("kappa", [("kappa_c", .kappaC), ("kappa_p", .kappaP)]),
   ("L", [("L", .mobilityL)]),
   ("energy", [("f", .energy), ("df_dc", .dfDc)]),
   ("flux", (List.range dim).map (fun d => ("flux_vol", .flux 0 d)) ++
      (List.range dim).map (fun d => ("flux_vap", .flux 1 d)) ++
      (List.range dim).map (fun d => ("flux_surf", .flux 2 d)) ++
      (List.range dim).map (fun d => ("flux_gb", .flux 3 d)))]

/-- velocity of the order parameters; zero without advection or without grain in the cell -/
def velocityTable (enabled : Bool) (has : Nat → Bool) (n dim : Nat) : FieldTable :=
  [("vel", (List.range n).flatMap fun ig => (List.range dim).map fun d =>
    ("vel" ++ toString ig, if enabled && has ig then .velocity ig d else .zero))]

def growthTable (n : Nat) : FieldTable :=
  [("bnds", [("bnds", .bnds)]), ("gb", [("gb", .gb)]), ("energy", [("f", .energy)]),
   ("df", (List.range n).map fun i => ("df_deta" ++ toString i, .dfDeta i)),
   ("d2f", upper n fun i j => ("d2f_deta" ++ toString i ++ "deta" ++ toString j, .d2fDetaDeta i j))]

def greenquistTable : FieldTable := [("bnds", [("bnds", .bnds)]), ("gb", [("gb", .gb)])]

/-- letters of the axes -/
def axis (i : Nat) : String := if i = 0 then "x" else if i = 1 then "y" else "z"

/-- name of a component of the strain -/
def strainName : Quantity → String
  | .eps i => "lin_eps_" ++ axis i ++ axis i
  | .gamma i j => "lin_tau_" ++ axis i ++ axis j
  | _ => ""

end Verif.OutputFields
