/-
Specification of ellipsoids: images of the unit ball.
-/
import Mathlib.Analysis.Real.Sqrt
import Mathlib.Data.Matrix.Mul

namespace Verif.Spec.Ellipsoid

open Matrix

/-- Orthonormal axes. -/
def Orthonormal {n : Nat} (axes : Fin n → Fin n → ℝ) : Prop :=
  ∀ d e, axes d ⬝ᵥ axes e = if d = e then 1 else 0

/-- The points `center + sum_d u_d r_d a_d` with `|u|^2 <= k`; `k = 1` is the ellipsoid itself. -/
def Region {n : Nat} (center radii : Fin n → ℝ) (axes : Fin n → Fin n → ℝ) (k : ℝ) (p : Fin n → ℝ) : Prop :=
  ∃ u : Fin n → ℝ, u ⬝ᵥ u ≤ k ∧ p = center + ∑ d, (u d * radii d) • axes d

/-- Square of the Euclidean distance. -/
def distSq {n : Nat} (p q : Fin n → ℝ) : ℝ := (p - q) ⬝ᵥ (p - q)

/-- The point `b` moved away from `c` by the length `l`. -/
noncomputable def outward {n : Nat} (c b : Fin n → ℝ) (l : ℝ) : Fin n → ℝ := b + (l / Real.sqrt (distSq b c)) • (b - c)

end Verif.Spec.Ellipsoid
