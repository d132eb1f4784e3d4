import Verif.Model.Params

/-!
# What a run has to set

Small specification for the parameters: the requests in the order in which they are given and the last one for a path.
-/

namespace Verif.Params.Spec

open Verif.BaseTools (Call)

/-- A path as it is written after `--`: the parts with dots between them. -/
def dotted : List String → List Char
  | [] => []
  | [s] => s.toList
  | s :: t :: l => s.toList ++ '.' :: dotted (t :: l)

/-- The requests of one call: all entries of a file in their order, the one of an option. -/
def requests (w : World) : Call → List (List String × List Char)
  | .file f => (w.content f).getD []
  | .set n v => [((splitDots n).map String.ofList, v)]
  | .check => []

/-- The value that is requested last for a path. -/
def lastValue (rs : List (List String × List Char)) (p : List String) : Option (List Char) :=
  (rs.reverse.find? (fun r => decide (r.1 = p))).map Prod.snd

/-- A value fits to an entry: one of the alternatives, or readable for the type of the member. -/
def Fits (w : World) (d : Decl) (v : List Char) : Prop :=
  (∀ l, d.sel = some l → ∃ s ∈ l, s.toList = v) ∧ (d.sel = none → ∀ k, ⟨d.member, k⟩ ∈ members → w.reads k v = true)

/-- The member that no entry is bound to. -/
def forgotten : List String := ["material_data", "mobility_realistic_data", "arrhenius_unit"]

/-- A name without its way of writing: no underscores, small letters. -/
def plain (s : String) : List Char := (s.toList.filter (fun c => c ≠ '_')).map Char.toLower

/-- The same for names of sections and structs, without a final `data`. -/
def plainSection (s : String) : List Char :=
  let p := plain s
  if p.drop (p.length - 4) = ['d', 'a', 't', 'a'] then p.take (p.length - 4) else p

/-- Entries whose members have a shorter name. -/
def abbreviations : List (String × String) :=
  [ ("TensorialMobilityGradientOnTheFly", "use_tensorial_mobility_gradient_on_the_fly")
  , ("Refinements", "n_refinements")
  , ("InterfaceValueMin", "interface_val_min")
  , ("InterfaceValueMax", "interface_val_max")
  , ("Type", "plane_type")
  , ("Contour", "contours")
  , ("ContourTex", "contours_tex")
  , ("ContourNCoarseningSteps", "n_coarsening_steps")
  , ("MCASubdivisions", "n_mca_subdivisions")
  , ("IsoSurfaceArea", "iso_surf_area")
  , ("IsoGrainBoundariesArea", "iso_gb_area")
  , ("GrainBoundariesThreshold", "gb_threshold")
  , ("BoxRelativePadding", "box_rel_padding")
  , ("MaximalOutput", "max_output")
  , ("NonLinearMaxIterations", "nl_max_iter")
  , ("NonLinearAbsoluteTolerance", "nl_abs_tol")
  , ("NonLinearRelativeTolerance", "nl_rel_tol")
  , ("LinearMaxIterations", "l_max_iter")
  , ("LinearAbsoluteTolerance", "l_abs_tol")
  , ("LinearRelativeTolerance", "l_rel_tol")
  , ("LinearSolver", "l_solver")
  , ("LinearSolverBicgstabTries", "l_bisgstab_tries")
  , ("NewtonThresholdNewtonIterations", "newton_threshold_newton_iter")
  , ("NewtonThresholdLinearIterations", "newton_threshold_linear_iter") ]

/-- An entry is called like its member. -/
def Called (path member : List String) : Prop :=
  path.dropLast.map plainSection = member.dropLast.map plainSection ∧
    ∃ e m, path.getLast? = some e ∧ member.getLast? = some m ∧ (plain e = plain m ∨ (e, m) ∈ abbreviations)

end Verif.Params.Spec
