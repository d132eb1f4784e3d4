import Verif.Model.Choice

/-!
# What the texts mean

The names of the implementations, and which choices a program can run.
-/

namespace Verif.Choice.Spec

open Verif.Params (Vals)

def Direction.name : Direction → String
  | .inside => "Inside" | .outside => "Outside" | .middle => "Middle"
def Refine.name : Refine → String
  | .none => "None" | .base => "Base" | .full => "Full"
def Mesh.name : Mesh → String
  | .interface => "Interface" | .maxRadius => "MaxRadius" | .divisions => "Divisions"
def Shape.name : Shape → String
  | .spherical => "Spherical" | .elliptical => "Elliptical" | .wavefront => "Wavefront"
def MaterialType.name : MaterialType → String
  | .abstract => "Abstract" | .realistic => "Realistic"
def Plane.name : Plane → String
  | .none => "None" | .strain => "PlaneStrain" | .stress => "PlaneStress"
def Step.name : Step → String
  | .bdf1 => "BDF1" | .bdf2 => "BDF2" | .bdf3 => "BDF3" | .forwardEuler => "FE" | .rungeKutta4 => "RK4"
def Linear.name : Linear → String
  | .gmres => "GMRES" | .relaxation => "Relaxation" | .idr => "IDR" | .bicgstab => "Bicgstab" | .direct => "Direct"
def Nonlinear.name : Nonlinear → String
  | .damped => "damped" | .nox => "NOX" | .snes => "SNES"
def Ortho.name : Ortho → String
  | .classical => "classical gram schmidt" | .modified => "modified gram schmidt"
def Clamp.name : Clamp → String
  | .none => "None" | .centralSection => "CentralSection" | .centralParticle => "CentralParticle"
  | .centralParticleSection => "CentralParticleSection" | .domain => "Domain"
def Pre.name : Pre → String
  | .inverseDiagonal => "InverseDiagonalMatrix" | .inverseComponentBlock => "InverseComponentBlockDiagonalMatrix"
  | .inverseBlock => "InverseBlockDiagonalMatrix" | .amg => "AMG" | .blockAMG => "BlockAMG" | .ilu => "ILU" | .blockILU => "BlockILU" | .ic => "IC"
  | .identity => "Identity"

/-- The data a preconditioner needs. -/
def Pre.needs : Pre → With
  | .amg | .blockAMG => .amg
  | .ilu | .blockILU => .ilu
  | .ic => .ic
  | _ => .nothing

/-- Names of the approximations of the second block. -/
def approximations : List String := ["all", "const", "max", "avg"]

/-- A preconditioner is the one that is named, with the data it needs. -/
def Is (p : Single) (v : List Char) : Prop := (Pre.name p.pre).toList = v ∧ p.data = Pre.needs p.pre

/-- The preconditioner is the one that is asked for. -/
def IsPrecond (b : Build) (x : Vals) : Precond → Prop
  | .single p => Is p (outer x)
  | .blocks p0 p1 _ n p2 => outer x = "BlockPreconditioner2".toList ∧ Is p0 (bp2 x ["block_0", "type"]) ∧ Is p1 (bp2 x ["block_1", "type"]) ∧
      (approximations.map String.toList)[n]? = some (bp2 x ["block_1_approximation"]) ∧
      (match p2 with | some p => b.monolithic = true ∧ Is p (bp2 x ["block_2", "type"]) | none => b.monolithic = false)

/-- What runs is what the texts name. -/
structure Named (b : Build) (new : Bool) (x : Vals) (c : Config) : Prop where
  step : (Step.name c.step).toList = x ["time_integration_data", "integration_scheme"]
  refine : (c.refine.isSome = new) ∧ ∀ r, c.refine = some r → (Refine.name r).toList = x ["geometry_data", "global_refinement"]
  mesh : (Mesh.name c.mesh).toList = x ["geometry_data", "initial_mesh"]
  material : (MaterialType.name c.material).toList = x ["material_data", "type"]
  shape : (Shape.name c.shape).toList = x ["grain_tracker_data", "grain_representation"]
  plane : (Plane.name c.plane).toList = x ["material_data", "mechanics_data", "plane_type"]
  precond : IsPrecond b x c.precond
  solvers : (c.solvers.isSome = true ↔ c.step = .bdf1 ∨ c.step = .bdf2 ∨ c.step = .bdf3) ∧ ∀ s, c.solvers = some s →
    (Linear.name s.linear).toList = x ["nonlinear_data", "l_solver"] ∧
    (Nonlinear.name s.nonlinear).toList = x ["nonlinear_data", "nonlinear_solver_type"] ∧
    ((s.ortho.isSome = true ↔ s.linear = .gmres) ∧
      ∀ o, s.ortho = some o → (Ortho.name o).toList = x ["nonlinear_data", "gmres_data", "orthogonalization_strategy"])
  clamp : if b.coupled then (Clamp.name c.clamp).toList = x ["boundary_conditions", "type"] else c.clamp = .none

/-- Not a name of a multigrid preconditioner. -/
def NoMultigrid (v : List Char) : Prop := v ≠ "GMG".toList ∧ v ≠ "BlockGMG".toList

/-- Preconditioners that the second block can have. -/
def second : List String := ["AMG", "ILU", "IC", "InverseDiagonalMatrix", "BlockAMG", "BlockILU"]

/-- Choices that are refused although every text is one of the alternatives. -/
structure Runs (b : Build) (f : Flags) (x : Vals) : Prop where
  outer : NoMultigrid (outer x)
  blocks : Choice.outer x = "BlockPreconditioner2".toList → NoMultigrid (bp2 x ["block_0", "type"]) ∧
    (∃ s ∈ second, bp2 x ["block_1", "type"] = s.toList) ∧ (b.monolithic = true → NoMultigrid (bp2 x ["block_2", "type"]))
  fdm : f.fdmJacobian = true → f.matrixBased = true
  direct : x ["nonlinear_data", "l_solver"] = "Direct".toList → f.matrixBased = true
  snes : x ["time_integration_data", "integration_scheme"] ∈ ["BDF1", "BDF2", "BDF3"].map String.toList →
    x ["nonlinear_data", "nonlinear_solver_type"] = "SNES".toList → b.snes = true

/-- The alternatives of the selections that are read here. -/
def alternatives : List (List String × List String) :=
  [ (["geometry_data", "interface_direction"], ["Inside", "Outside", "Middle"])
  , (["geometry_data", "global_refinement"], ["None", "Base", "Full"])
  , (["geometry_data", "initial_mesh"], ["Interface", "MaxRadius", "Divisions"])
  , (["grain_tracker_data", "grain_representation"], ["Spherical", "Elliptical", "Wavefront"])
  , (["material_data", "type"], ["Abstract", "Realistic"])
  , (["material_data", "mechanics_data", "plane_type"], ["None", "PlaneStrain", "PlaneStress"])
  , (["boundary_conditions", "type"], ["None", "CentralSection", "CentralParticle", "CentralParticleSection", "Domain"])
  , (["time_integration_data", "integration_scheme"], ["BDF1", "BDF2", "BDF3", "FE", "RK4"])
  , (["nonlinear_data", "l_solver"], ["GMRES", "IDR", "Bicgstab", "Relaxation", "Direct"])
  , (["nonlinear_data", "nonlinear_solver_type"], ["damped", "NOX", "SNES"])
  , (["nonlinear_data", "gmres_data", "orthogonalization_strategy"], ["classical gram schmidt", "modified gram schmidt"])
  , (["preconditioners_data", "outer", "type"], Params.preconditionerTypes ++ ["BlockPreconditioner2"])
  , (["preconditioners_data", "block_preconditioner_2_data", "block_0", "type"], Params.preconditionerTypes)
  , (["preconditioners_data", "block_preconditioner_2_data", "block_1", "type"], Params.preconditionerTypes)
  , (["preconditioners_data", "block_preconditioner_2_data", "block_1_approximation"], ["all", "const", "max", "avg"])
  , (["preconditioners_data", "block_preconditioner_2_data", "block_2", "type"], Params.preconditionerTypes) ]

/-- Every text is one of the alternatives. -/
def Valid (x : Vals) : Prop := ∀ e ∈ alternatives, ∃ s ∈ e.2, x e.1 = s.toList

/-- The members have their initial values. -/
def Initial (x : Vals) : Prop := ∀ e ∈ Params.initial, x e.1 = e.2.toList

end Verif.Choice.Spec
