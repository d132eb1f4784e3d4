/-
Names of the files of an output:
  applications/sintering/include/pf-applications/sintering/driver.h:2733-2758, 2783-2786, 2840-2880, 2949-2960, 2980-2989, 3072-3080, 3101-3110,
  3140-3146, 3177-3201 (`output_result`)
  applications/sintering/include/pf-applications/sintering/output.h:126-325 (`advanced_output`)

Simplifications: names are lists of characters without the directory, which is the same for all files; printing of numbers is a parameter
(`std::to_string` and the stream print a counter alike); what is in the files is elsewhere (`OutputFiles`, `OutputTable`, `Surfaces`, ...).
-/
import Verif.Model.BoxFilter

namespace Verif.FileNames

open Verif.BoxFilter

/-- The labels the driver uses (driver.h:1395, 1460, 1539, 1725, 1920, 1974, 2531). -/
inductive Label
  | solution | refinement | track | remap | inconsistency
deriving DecidableEq

/-- A text. -/
def txt (s : String) : List Char := s.toList

/-- The text of a label. -/
def Label.text : Label → List Char
  | .solution => txt "solution"
  | .refinement => txt "refinement"
  | .track => txt "track"
  | .remap => txt "remap"
  | .inconsistency => txt "grains_inconsistency"

/-- Kinds of files; those with a number belong to a section or a box. -/
inductive Kind
  | regular
  | sectionVtu (i : Nat)
  | shrinkage
  | quality
  | grainsStats
  | contour (box : Nat)
  | contourSection (i : Nat)
  | surface (box : Nat)
  | boundaries (box : Nat)
  | porosity (box : Nat)
  | porosityStats (box : Nat)
  | porosityContours (box : Nat)
  | contourTex
  | contourTexSection (i : Nat)
  | table
  | spheres
  | particleIds
deriving DecidableEq

/-- Parameters of output as far as they decide about files. -/
structure Flags where
  debug : Bool
  regular : Bool
  shrinkage : Bool
  quality : Bool
  grainsStats : Bool
  contours : Bool
  concentration : Bool
  boundaries : Bool
  porosity : Bool
  porosityStats : Bool
  porosityContours : Bool
  contoursTex : Bool
  table : Bool
  spheres : Bool
  particleIds : Bool
  /-- `only_control_boxes` -/
  only : Bool
  /-- sections, none in 2D -/
  nSections : Nat

/-- What differs from output to output: number of proper control boxes, whether the tracker has grains, whether there is a block with the
concentration and blocks with order parameters. -/
structure Env where
  boxes : Nat
  tracked : Bool
  hasConc : Bool
  hasOp : Bool

/-- Number of entries of `box_filters` (driver.h:2949-2957). -/
def nFilters (f : Flags) (e : Env) : Nat := if e.boxes = 0 ∨ f.only = false then e.boxes + 1 else e.boxes

/-- Number of sections that are set up (driver.h:2766-2790). -/
def sectionsOf (f : Flags) : Nat := if f.regular || f.contours || f.contoursTex then f.nSections else 0

/-- Files of one entry of `box_filters` (output.h:126-286). -/
def boxKinds (f : Flags) (e : Env) (b : Nat) : List Kind :=
  (if f.contours && e.hasOp then .contour b :: (List.range (sectionsOf f)).map .contourSection else []) ++
  (if f.concentration && e.hasConc then [.surface b] else []) ++
  (if f.boundaries && e.hasOp then [.boundaries b] else []) ++
  (if f.porosity then [.porosity b] else []) ++
  (if f.porosityStats then [.porosityStats b] else []) ++
  (if f.porosityContours then [.porosityContours b] else [])

/-- Files of an output in the order in which they are written. -/
def kinds (f : Flags) (e : Env) (l : Label) : List Kind :=
  (if f.regular || l != .solution then .regular :: (List.range (sectionsOf f)).map .sectionVtu else []) ++
  (if f.shrinkage then [.shrinkage] else []) ++
  (if f.quality then [.quality] else []) ++
  (if f.grainsStats && e.tracked then [.grainsStats] else []) ++
  (List.range (nFilters f e)).flatMap (boxKinds f e) ++
  (if f.contoursTex && e.tracked && e.hasOp then .contourTex :: (List.range (sectionsOf f)).map .contourTexSection else []) ++
  (if f.table then [.table] else []) ++
  (if f.spheres then [.spheres] else []) ++
  (if f.particleIds then [.particleIds] else [])

/-- How numbers are printed: counters, and a section (`x=0.5`). -/
structure Show where
  nat : Nat → List Char
  sec : Nat → List Char

/-- The name without counter and extension. -/
def stem (s : Show) (f : Flags) (e : Env) (l : Label) : Kind → List Char
  | .regular => l.text
  | .sectionVtu i => txt "section_" ++ s.sec i ++ '_' :: l.text
  | .shrinkage => txt "shrinkage_" ++ l.text
  | .quality => txt "mesh_quality_" ++ l.text
  | .grainsStats => txt "grains_stats_" ++ l.text
  | .contour b => txt "contour_" ++ generateName s.nat (e.boxes != 0) f.only l.text b
  | .contourSection i => txt "contour_section_" ++ s.sec i ++ '_' :: l.text
  | .surface b => txt "surface_" ++ generateName s.nat (e.boxes != 0) f.only l.text b
  | .boundaries b => txt "gb_" ++ generateName s.nat (e.boxes != 0) f.only l.text b
  | .porosity b => txt "porosity_" ++ generateName s.nat (e.boxes != 0) f.only l.text b
  | .porosityStats b => txt "porosity_stats_" ++ generateName s.nat (e.boxes != 0) f.only l.text b
  | .porosityContours b => txt "porosity_contours_" ++ generateName s.nat (e.boxes != 0) f.only l.text b
  | .contourTex => txt "contour_" ++ l.text
  | .contourTexSection i => txt "contour_section_" ++ s.sec i ++ '_' :: l.text
  | .table => l.text
  | .spheres => txt "grains_as_spheres_" ++ l.text
  | .particleIds => txt "particle_ids_" ++ l.text

/-- The extension. -/
def ext : Kind → List Char
  | .grainsStats | .porosityStats _ | .table => txt ".log"
  | .contourTex | .contourTexSection _ => txt ".txt"
  | _ => txt ".vtu"

/-- The name; only the table has no counter. -/
def fileName (s : Show) (f : Flags) (e : Env) (l : Label) (n : Nat) (k : Kind) : List Char :=
  if k = .table then stem s f e l k ++ ext k else stem s f e l k ++ '.' :: s.nat n ++ ext k

/-- `counters` (driver.h:161), missing entries are zero (2751-2752). -/
abbrev Counters := Label → Nat

/-- One output (driver.h:2733-3202): the files and the counters afterwards. -/
def output (s : Show) (f : Flags) (c : Counters) (l : Label) (e : Env) : List (List Char) × Counters :=
  if !f.debug && l != .solution then ([], c)
  else ((kinds f e l).map (fileName s f e l (c l)), fun l' => if l' = l then c l + 1 else c l')

/-- All outputs of a run: the files of each. -/
def outputs (s : Show) (f : Flags) : Counters → List (Label × Env) → List (List (List Char))
  | _, [] => []
  | c, o :: os => (output s f c o.1 o.2).1 :: outputs s f (output s f c o.1 o.2).2 os

/-- The counters after the outputs. -/
def counters (s : Show) (f : Flags) : Counters → List (Label × Env) → Counters
  | c, [] => c
  | c, o :: os => counters s f (output s f c o.1 o.2).2 os

/-- The counters are part of the state that is saved and read again (driver.h:499, 328): outputs until the snapshot, outputs after it until the run
is interrupted, and outputs of the restarted run. -/
def restarted (s : Show) (f : Flags) (upTo lost again : List (Label × Env)) : List (List (List Char)) × List (List (List Char)) × List (List (List Char)) :=
  (outputs s f (fun _ => 0) upTo, outputs s f (counters s f (fun _ => 0) upTo) lost, outputs s f (counters s f (fun _ => 0) upTo) again)

end Verif.FileNames
