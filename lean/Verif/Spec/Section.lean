import Verif.Model.Section
import Mathlib.Data.Fin.Tuple.Basic
import Mathlib.Algebra.BigOperators.Fin
/-!
# Sections of the mesh: what they should be

The section of a cell by the plane "coordinate `dir` equals `loc`" is the rectangle of the other two coordinates. Its
values are those of the trilinear function of the cell.
-/
namespace Verif.Section.Spec
open Verif.Section BoxFilter

variable {K : Type} [Field K]

/-- corner `j` of the rectangle; bit `k` of `j` chooses the side along the `k`-th remaining axis -/
def corner (dir : Fin 3) (b : Box K 3) (j : Fin 4) : Fin 2 → K :=
  fun k => if j.val.testBit k then b.upper (dir.succAbove k) else b.lower (dir.succAbove k)

/-- the corner in space -/
def point (dir : Fin 3) (loc : K) (b : Box K 3) (j : Fin 4) : Fin 3 → K := dir.insertNth loc (corner dir b j)

/-- one-dimensional weight of the side `up` -/
def weight (b : Box K 3) (p : Fin 3 → K) (d : Fin 3) (up : Bool) : K :=
  let t := (p d - b.lower d) / (b.upper d - b.lower d)
  if up then t else 1 - t

/-- the trilinear function with the values `v` at the vertices -/
def trilinear (b : Box K 3) (v : Fin 8 → K) (p : Fin 3 → K) : K :=
  ∑ i : Fin 8, v i * (weight b p 0 (i.val.testBit 0) * weight b p 1 (i.val.testBit 1) * weight b p 2 (i.val.testBit 2))

/-- the cell has a positive extent in every direction, and more than `eps` across the plane -/
def Proper [LT K] (eps : K) (dir : Fin 3) (b : Box K 3) : Prop :=
  (∀ d, b.lower d < b.upper d) ∧ eps < b.upper dir - b.lower dir

/-- the plane meets the cell, up to the tolerance `t` relative to the size of the cell -/
def Hit [LE K] (t : K) (dir : Fin 3) (loc : K) (b : Box K 3) : Prop :=
  b.lower dir - t * (b.upper dir - b.lower dir) ≤ loc ∧ loc ≤ b.upper dir + t * (b.upper dir - b.lower dir)

end Verif.Section.Spec
