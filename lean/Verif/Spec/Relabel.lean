/-
Specification: the same grains under other numbers of order parameters.
-/
import Verif.Model.Relabel

namespace Verif.Relabel.Spec

open Verif.Energy
open Verif.Apps (QPt)

variable {K : Type} [Field K] {n m d : Nat}

/-- The shape function of the node is seen at the point. -/
def Seen (q : QPt K n d) (i : Fin n) : Prop := q.N i ≠ 0 ∨ ∃ e, q.G i e ≠ 0

/-- The same fields, order parameters have other numbers; which ones may differ from place to place, as long as all nodes seen at a point agree
(nodes where both are zero agree with every numbering). -/
def Same (pts : List (VPt K n m d)) (s : VPt K n m d → Equiv.Perm (Fin m)) (u u' : Fields K n m) : Prop :=
  u'.c = u.c ∧ u'.mu = u.mu ∧ ∀ q ∈ pts, ∀ i, Seen q.1 i → ∀ g, u'.eta g i = u.eta (s q g) i

/-- The points with the velocities of the grains under the other numbers. -/
def renumbered (s : VPt K n m d → Equiv.Perm (Fin m)) (pts : List (VPt K n m d)) : List (VPt K n m d) :=
  pts.map fun q => (q.1, fun g => q.2 (s q g))

/-- No grain with this order parameter around the point, in none of the vectors. -/
def NoGrain (q : VPt K n m d) (l : List (Fields K n m)) (g : Fin m) : Prop := ∀ u ∈ l, ∀ i, Seen q.1 i → u.eta g i = 0

/-- The entries of order parameter `g` at the node were those of order parameter `h`: around the node they have this number, or there are no grains. -/
def Was (pts : List (VPt K n m d)) (s : VPt K n m d → Equiv.Perm (Fin m)) (l : List (Fields K n m)) (g h : Fin m) (i : Fin n) : Prop :=
  ∀ q ∈ pts, Seen q.1 i → s q g = h ∨ (NoGrain q l (s q g) ∧ NoGrain q l h)

/-- One more order parameter that is not in use. -/
def more (u : Fields K n m) : Fields K n (m + 1) := ⟨u.c, u.mu, Fin.snoc (α := fun _ => Fin n → K) u.eta fun _ => 0⟩

/-- No grain, no velocity. -/
def morePts (pts : List (VPt K n m d)) : List (VPt K n (m + 1) d) := pts.map fun q => (q.1, Fin.snoc (α := fun _ => Option (Fin d → K)) q.2 none)

end Verif.Relabel.Spec
