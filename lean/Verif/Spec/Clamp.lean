/-
Rigid motions of a body whose unknowns have positions, and what constraints leave of them.
-/
import Mathlib.Algebra.Ring.Defs
import Mathlib.Data.Fin.VecNotation

namespace Verif.Spec.Clamp

variable {K : Type}

/-- All constraints of all ranks hold for the displacement: prescribed components are zero. -/
def Respects [Zero K] {dim : Nat} (constraints : List (Fin dim → List Nat)) (u : Nat → Fin dim → K) : Prop :=
  ∀ c ∈ constraints, ∀ d, ∀ i ∈ c d, u i d = 0

/-- Infinitesimal rigid motion of the plane. -/
def motion2 [Ring K] (t : Fin 2 → K) (w : K) (x : Nat → Fin 2 → K) (i : Nat) : Fin 2 → K :=
  ![t 0 - w * x i 1, t 1 + w * x i 0]

/-- Infinitesimal rigid motion of space. -/
def motion3 [Ring K] (t w : Fin 3 → K) (x : Nat → Fin 3 → K) (i : Nat) : Fin 3 → K :=
  ![t 0 + (w 1 * x i 2 - w 2 * x i 1), t 1 + (w 2 * x i 0 - w 0 * x i 2), t 2 + (w 0 * x i 1 - w 1 * x i 0)]

end Verif.Spec.Clamp
