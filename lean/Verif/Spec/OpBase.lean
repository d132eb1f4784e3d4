/-
What it means to apply an operator with constraints, to interleave components and to integrate over the domain.
-/
import Mathlib.Algebra.Ring.Defs
import Mathlib.Algebra.BigOperators.Group.List.Basic

namespace Verif.Spec.OpBase

/-- `dst` is the result of the operator `A` applied to `src` with the constraint that the entries in `C` vanish: constrained
entries are copied, the other ones result from the source without its constrained entries. -/
def Constrained {κ K : Type} [Zero K] (C : κ → Prop) [DecidablePred C] (A : (κ → K) → κ → K) (src dst : κ → K) : Prop :=
  ∀ k, dst k = if C k then src k else A (fun j => if C j then 0 else src j) k

/-- `vec` holds, for every point, the entries of the vectors one after the other; vector `t` has `g t` entries per point, these
come behind `before t` entries. -/
def Interleaved {K : Type} (g before : Nat → Nat) (vectors n points : Nat) (vec : Nat → K) (parts : Nat × Nat → K) : Prop :=
  ∀ j < points, ∀ t < vectors, ∀ m < g t, vec (j * n + before t + m) = parts (t, j * g t + m)

end Verif.Spec.OpBase
