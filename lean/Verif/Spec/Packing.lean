/-
Specification: extent and contacts of a packing.
-/
import Verif.Model.Packing
import Mathlib.LinearAlgebra.Matrix.Notation

namespace Verif.Packing.Spec

open Verif.Packing

variable {K : Type} [Field K] [LinearOrder K]

/-- Smallest interval that has all particles in coordinate `i`. -/
structure Extent (i : Fin 3) (ps : List (Particle K)) (lo hi : K) : Prop where
  inside : ∀ p ∈ ps, lo ≤ p.pos i - p.r ∧ p.pos i + p.r ≤ hi
  low : ∃ p ∈ ps, p.pos i - p.r = lo
  high : ∃ p ∈ ps, p.pos i + p.r = hi

/-- The origin is the middle of the extent. -/
def Centred (i : Fin 3) (ps : List (Particle K)) : Prop := ∃ h, Extent i ps (-h) h

/-- Square of the distance of two centres. -/
def dist2 (p q : Particle K) : K := (p.pos 0 - q.pos 0) ^ 2 + (p.pos 1 - q.pos 1) ^ 2 + (p.pos 2 - q.pos 2) ^ 2

/-- Two particles have a point in common. -/
def Touch (p q : Particle K) : Prop := dist2 p q ≤ (p.r + q.r) ^ 2

/-- The packing enlarged by `s`: the same number of particles, all distances and radii times `s`. -/
def Similar (s : K) (ps qs : List (Particle K)) : Prop :=
  ps.length = qs.length ∧ (∀ (i : Nat) (p q : Particle K), ps[i]? = some p → qs[i]? = some q → q.r = s * p.r) ∧
    ∀ (i j : Nat) (p q p' q' : Particle K), ps[i]? = some p → ps[j]? = some q → qs[i]? = some p' → qs[j]? = some q' → dist2 p' q' = s ^ 2 * dist2 p q

/-- The factor asked for. -/
def factor (o : Opts K) : K := match o.scale with
  | some s => if s ≠ 0 then s else 1
  | none => 1

/-- Matrices of right-handed rotations about the axes by the angle with cosine `a.1` and sine `a.2`. -/
def matX (a : K × K) : Matrix (Fin 3) (Fin 3) K := !![1, 0, 0; 0, a.1, -a.2; 0, a.2, a.1]
def matY (a : K × K) : Matrix (Fin 3) (Fin 3) K := !![a.1, 0, a.2; 0, 1, 0; -a.2, 0, a.1]
def matZ (a : K × K) : Matrix (Fin 3) (Fin 3) K := !![a.1, -a.2, 0; a.2, a.1, 0; 0, 0, 1]

/-- The rotation asked for: about x, then about y, then about z. -/
def rotation (o : Opts K) : Matrix (Fin 3) (Fin 3) K := match o.rotate with
  | some w => matZ (w 2) * matY (w 1) * matX (w 0)
  | none => 1

end Verif.Packing.Spec
