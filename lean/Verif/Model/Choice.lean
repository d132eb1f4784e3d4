import Verif.Model.Params

/-!
# Choice of the implementations by the parameters

How the texts of the selections decide which implementation runs: `driver.h:205-233, 381-391, 671-690, 859, 971-981, 1035-1042, 1104-1175, 1735-1822`,
`time_schemes.h:213-227`, `preconditioners.h:467-480, 942-975, 991-1121`, `lac/preconditioners.h:1365-1470`, `solvers_linear.h:96-102, 421-474`,
`time_marching.h:95-125, 342-520`, `initial_values.h:44-56`, `driver.h:2001-2046` (labels of the predictors).

The implementations themselves are labels. Options of NOX and SNES are handed over as texts and left out, restarts by time are in module `TimerPredicate`.
-/

namespace Verif.Choice

open Verif.Params (Vals)

/-- The program: whether the operator has displacements, whether it has them as unknowns of its own linear system, whether SNES is available. -/
structure Build where
  coupled : Bool
  monolithic : Bool
  snes : Bool
deriving DecidableEq

inductive Direction where
  | inside | outside | middle
deriving DecidableEq

inductive Refine where
  | none | base | full
deriving DecidableEq

inductive Mesh where
  | interface | maxRadius | divisions
deriving DecidableEq

inductive Shape where
  | spherical | elliptical | wavefront
deriving DecidableEq

inductive MaterialType where
  | abstract | realistic
deriving DecidableEq

inductive Plane where
  | none | strain | stress
deriving DecidableEq

inductive Step where
  | bdf1 | bdf2 | bdf3 | forwardEuler | rungeKutta4
deriving DecidableEq

/-- `TimeIntegratorData::is_implicit`: whether an implicit scheme could be taken. -/
def Step.implicit : Step → Bool
  | .bdf1 | .bdf2 | .bdf3 => true
  | _ => false

inductive Linear where
  | gmres | relaxation | idr | bicgstab | direct
deriving DecidableEq

inductive Nonlinear where
  | damped | nox | snes
deriving DecidableEq

inductive Ortho where
  | classical | modified
deriving DecidableEq

inductive Clamp where
  | none | centralSection | centralParticle | centralParticleSection | domain
deriving DecidableEq

/-- Classes of preconditioners. -/
inductive Pre where
  | inverseDiagonal | inverseComponentBlock | inverseBlock | amg | blockAMG | ilu | blockILU | ic | identity
deriving DecidableEq

/-- Additional data that a preconditioner is created with. -/
inductive With where
  | nothing | amg | ilu | ic
deriving DecidableEq

/-- A preconditioner of an operator. -/
structure Single where
  pre : Pre
  data : With
deriving DecidableEq

/-- The preconditioner of the linear system: one for all or one per block; `blocked`: the second one has the blocked operator. -/
inductive Precond where
  | single (p : Single)
  | blocks (p0 : Single) (p1 : Single) (blocked : Bool) (approximation : Nat) (p2 : Option Single)
deriving DecidableEq

/-- First alternative that equals the text; `e` if there is none. -/
def select {α : Type} (e : Exc) (v : List Char) : List (String × α) → Res α
  | [] => .exc e
  | (s, a) :: l => if v = s.toList then .ok a else select e v l

/-- `initial_values.h:44-56`. -/
def toDirection (v : List Char) : Res Direction :=
  select .assertThrow v [("Inside", .inside), ("Outside", .outside), ("Middle", .middle)]

/-- `time_schemes.h:213-227`: `at` of the map. -/
def toStep (v : List Char) : Res Step :=
  select .outOfRange v [("BDF1", .bdf1), ("BDF2", .bdf2), ("BDF3", .bdf3), ("FE", .forwardEuler), ("RK4", .rungeKutta4)]

/-- `driver.h:213-222`. -/
def toRefine (v : List Char) : Res Refine := select .assertThrow v [("None", .none), ("Base", .base), ("Full", .full)]

/-- `driver.h:224-233, 380-389`. -/
def toMesh (v : List Char) : Res Mesh := select .assertThrow v [("Interface", .interface), ("MaxRadius", .maxRadius), ("Divisions", .divisions)]

/-- `driver.h:859`: everything but one text is the other material. -/
def toMaterial (v : List Char) : MaterialType := if v = "Abstract".toList then .abstract else .realistic

/-- `driver.h:972-981`. -/
def toShape (v : List Char) : Res Shape :=
  select .assertThrow v [("Spherical", .spherical), ("Elliptical", .elliptical), ("Wavefront", .wavefront)]

/-- `driver.h:1034-1042`. -/
def toPlane (v : List Char) : Res Plane := select .assertThrow v [("None", .none), ("PlaneStrain", .strain), ("PlaneStress", .stress)]

/-- `preconditioners.h:467-480`. -/
def toApproximation (v : List Char) : Res Nat := select .assertThrow v [("all", 0), ("const", 1), ("max", 2), ("avg", 3)]

/-- `lac/preconditioners.h:1365-1396`. -/
def create (v : List Char) : Res Single := do
  let p ← select .assertThrow v [("InverseDiagonalMatrix", Pre.inverseDiagonal), ("InverseComponentBlockDiagonalMatrix", .inverseComponentBlock),
    ("InverseBlockDiagonalMatrix", .inverseBlock), ("AMG", .amg), ("BlockAMG", .blockAMG), ("ILU", .ilu), ("BlockILU", .blockILU), ("IC", .ic),
    ("Identity", .identity)]
  .ok ⟨p, .nothing⟩

/-- `lac/preconditioners.h:1398-1454`: with additional data. -/
def createWith (d : With) (l : List (String × Pre)) (v : List Char) : Res Single := do
  let p ← select .assertThrow v l
  .ok ⟨p, d⟩

/-- `preconditioners.h:941-975` `create_preconditioner`. -/
def createPreconditioner (v : List Char) : Res Single :=
  if v = "AMG".toList ∨ v = "BlockAMG".toList then createWith .amg [("AMG", .amg), ("BlockAMG", .blockAMG)] v
  else if v = "ILU".toList ∨ v = "BlockILU".toList then createWith .ilu [("ILU", .ilu), ("BlockILU", .blockILU)] v
  else if v = "IC".toList then createWith .ic [("IC", .ic)] v
  else create v

/-- Text of a member below `block_preconditioner_2_data`. -/
def bp2 (x : Vals) (m : List String) : List Char := x (["preconditioners_data", "block_preconditioner_2_data"] ++ m)

/-- The second preconditioner, `preconditioners.h:1039-1057`. -/
def createSecond (v : List Char) : Res (Single × Bool) := do
  Res.assertThrow (decide (v ≠ "GMG".toList ∧ v ≠ "BlockGMG".toList))
  if v = "AMG".toList ∨ v = "ILU".toList ∨ v = "IC".toList ∨ v = "InverseDiagonalMatrix".toList then do
    let p ← createPreconditioner v
    .ok (p, false)
  else if v = "BlockAMG".toList ∨ v = "BlockILU".toList then do
    let p ← createPreconditioner v
    .ok (p, true)
  else .exc .assertThrow

/-- The constructors of `BlockPreconditioner2`, `preconditioners.h:991-1092`. -/
def createBlocks (b : Build) (x : Vals) : Res Precond := do
  let n ← toApproximation (bp2 x ["block_1_approximation"])
  let p0 ← createPreconditioner (bp2 x ["block_0", "type"])
  let p1 ← createSecond (bp2 x ["block_1", "type"])
  if b.monolithic then do
    let p2 ← createPreconditioner (bp2 x ["block_2", "type"])
    .ok (.blocks p0 p1.1 p1.2 n (some p2))
  else .ok (.blocks p0 p1.1 p1.2 n none)

/-- Text of the outer preconditioner. -/
def outer (x : Vals) : List Char := x ["preconditioners_data", "outer", "type"]

/-- Whether the multigrid hierarchy (`transfer`) is set up, `driver.h:671-677`. -/
def multigrid (x : Vals) : Bool :=
  decide (outer x = "GMG".toList ∨ outer x = "BlockGMG".toList ∨
    (outer x = "BlockPreconditioner2".toList ∧
      (bp2 x ["block_1", "type"] = "GMG".toList ∨ bp2 x ["block_1", "type"] = "BlockGMG".toList)))

/-- `driver.h:1104-1160`; the constructor with multigrid begins with a failing check (`preconditioners.h:1112`). -/
def toPrecond (b : Build) (x : Vals) : Res Precond :=
  if multigrid x then .exc .assertThrow
  else if outer x = "BlockPreconditioner2".toList then createBlocks b x
  else do
    let p ← createPreconditioner (outer x)
    .ok (.single p)

/-- `solvers_linear.h:454-474` with `421-452`. -/
def toLinear (v : List Char) : Res Linear :=
  if v = "Direct".toList then .ok .direct
  else select .assertThrow v [("GMRES", .gmres), ("Relaxation", .relaxation), ("IDR", .idr), ("Bicgstab", .bicgstab)]

/-- `time_marching.h:342-520`. -/
def toNonlinear (b : Build) (v : List Char) : Res Nonlinear :=
  select .assertThrow v ([("damped", .damped), ("NOX", .nox)] ++ if b.snes then [("SNES", .snes)] else [])

/-- `solvers_linear.h:96-102`. -/
def toOrtho (v : List Char) : Res Ortho := select .assertThrow v [("classical gram schmidt", .classical), ("modified gram schmidt", .modified)]

/-- `driver.h:1767-1822`: nothing is clamped for other texts. -/
def toClamp (v : List Char) : Clamp :=
  if v = "CentralSection".toList then .centralSection
  else if v = "CentralParticle".toList then .centralParticle
  else if v = "CentralParticleSection".toList then .centralParticleSection
  else if v = "Domain".toList then .domain
  else .none

/-- The tracker: frequency positive, and the flags of `driver.h:1472-1482` that ask for it. -/
structure Flags where
  matrixBased : Bool
  fdmJacobian : Bool
  /-- tracker needed by something other than the boundary conditions -/
  tracked : Bool
deriving DecidableEq

/-- Whether the tracker is enabled, `driver.h:1467-1482`. -/
def trackerEnabled (f : Flags) (v : List Char) : Bool :=
  f.tracked || decide (v = "CentralParticle".toList ∨ v = "CentralParticleSection".toList)

/-- Types of clamping that check for the tracker. -/
def Clamp.checksTracker : Clamp → Bool
  | .centralParticle | .centralParticleSection => true
  | _ => false

/-- Clamping with its checks, `driver.h:1735-1822`. -/
def clamp (b : Build) (f : Flags) (v : List Char) : Res Clamp :=
  if b.coupled then do
    Res.assertThrow (!(toClamp v).checksTracker || trackerEnabled f v)
    .ok (toClamp v)
  else .ok .none

/-- Solvers of an implicit scheme. -/
structure Solvers where
  linear : Linear
  nonlinear : Nonlinear
  ortho : Option Ortho
deriving DecidableEq

/-- What runs. -/
structure Config where
  step : Step
  /-- only for new runs -/
  refine : Option Refine
  mesh : Mesh
  material : MaterialType
  shape : Shape
  plane : Plane
  precond : Precond
  solvers : Option Solvers
  clamp : Clamp
deriving DecidableEq

/-- Solvers of an implicit scheme, `time_marching.h:118-125, 342-520`; the orthogonalization is looked up in the first solution of a linear system. -/
def toSolvers (b : Build) (x : Vals) : Res Solvers := do
  let l ← toLinear (x ["nonlinear_data", "l_solver"])
  let n ← toNonlinear b (x ["nonlinear_data", "nonlinear_solver_type"])
  if l = .gmres then do
    let o ← toOrtho (x ["nonlinear_data", "gmres_data", "orthogonalization_strategy"])
    .ok ⟨l, n, some o⟩
  else .ok ⟨l, n, none⟩

/-- Checks of `driver.h:1162-1175`. -/
def checks (f : Flags) (x : Vals) : Res Unit := do
  Res.assertThrow (!f.fdmJacobian || f.matrixBased)
  Res.assertThrow (decide (x ["nonlinear_data", "l_solver"] ≠ "Direct".toList) || f.matrixBased)

/-- Something that is looked up only in some runs. -/
def onlyIf {α : Type} (c : Bool) (r : Res α) : Res (Option α) :=
  if c then do
    let a ← r
    .ok (some a)
  else .ok none

/-- The choices in the order of a run; `new`: not a restart. -/
def configure (b : Build) (new : Bool) (f : Flags) (x : Vals) : Res Config := do
  let step ← toStep (x ["time_integration_data", "integration_scheme"])
  let refine ← onlyIf new (toRefine (x ["geometry_data", "global_refinement"]))
  let mesh ← toMesh (x ["geometry_data", "initial_mesh"])
  let material := toMaterial (x ["material_data", "type"])
  let shape ← toShape (x ["grain_tracker_data", "grain_representation"])
  let plane ← toPlane (x ["material_data", "mechanics_data", "plane_type"])
  let precond ← toPrecond b x
  checks f x
  let solvers ← onlyIf step.implicit (toSolvers b x)
  let c ← clamp b f (x ["boundary_conditions", "type"])
  .ok ⟨step, refine, mesh, material, shape, plane, precond, solvers, c⟩

end Verif.Choice
