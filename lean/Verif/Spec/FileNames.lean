/-
Specification for the names of files.
-/
import Verif.Model.FileNames

namespace Verif.FileNames.Spec

/-- Numbers are printed with digits, different ones differently; sections are printed without underscores, different ones differently. -/
structure Prints (s : Show) (nSections : Nat) : Prop where
  inj : Function.Injective s.nat
  some : ∀ n, s.nat n ≠ []
  digits : ∀ n, ∀ c ∈ s.nat n, c.isDigit = true
  plain : ∀ i < nSections, '_' ∉ s.sec i
  sections : ∀ i < nSections, ∀ j < nSections, s.sec i = s.sec j → i = j

/-- The output is done at all. -/
def Done (f : Flags) (l : Label) : Prop := f.debug = true ∨ l = .solution

/-- Number of outputs with this label in a list. -/
def before (f : Flags) (l : Label) (os : List (Label × Env)) : Nat := if f.debug || l == .solution then os.countP (fun o => o.1 == l) else 0

/-- A file of a table. -/
def IsTable (x : List Char) : Prop := ∃ l : Label, x = l.text ++ ['.', 'l', 'o', 'g']

/-- The number of sections in files: without fields and contours there are none. -/
def sections (f : Flags) : Nat := if f.regular = false ∧ f.contours = false ∧ f.contoursTex = false then 0 else f.nSections

/-- Whether there is output for the box: one more than there are control boxes, for the whole domain, unless only control boxes are wanted and there are some. -/
def BoxWanted (f : Flags) (e : Env) (b : Nat) : Prop := b < e.boxes ∨ (b = e.boxes ∧ ¬ (f.only = true ∧ 0 < e.boxes))

/-- The files that are asked for: fields also for all labels of debugging. -/
def Wanted (f : Flags) (e : Env) (l : Label) : Kind → Prop
  | .regular => f.regular = true ∨ l ≠ .solution
  | .sectionVtu i => (f.regular = true ∨ l ≠ .solution) ∧ i < sections f
  | .shrinkage => f.shrinkage = true
  | .quality => f.quality = true
  | .grainsStats => f.grainsStats = true ∧ e.tracked = true
  | .contour b => f.contours = true ∧ e.hasOp = true ∧ BoxWanted f e b
  | .contourSection i => f.contours = true ∧ e.hasOp = true ∧ i < f.nSections ∧ ∃ b, BoxWanted f e b
  | .surface b => f.concentration = true ∧ e.hasConc = true ∧ BoxWanted f e b
  | .boundaries b => f.boundaries = true ∧ e.hasOp = true ∧ BoxWanted f e b
  | .porosity b => f.porosity = true ∧ BoxWanted f e b
  | .porosityStats b => f.porosityStats = true ∧ BoxWanted f e b
  | .porosityContours b => f.porosityContours = true ∧ BoxWanted f e b
  | .contourTex => f.contoursTex = true ∧ e.tracked = true ∧ e.hasOp = true
  | .contourTexSection i => f.contoursTex = true ∧ e.tracked = true ∧ e.hasOp = true ∧ i < f.nSections
  | .table => f.table = true
  | .spheres => f.spheres = true
  | .particleIds => f.particleIds = true

end Verif.FileNames.Spec
