/-
Specification for files with surfaces.
-/
import Verif.Model.Surfaces

namespace Verif.Surfaces.Spec

open Verif.Cycle

variable {P K Cell Q : Type}

/-- The pieces a file has to contain, cell by cell: piece, order parameter, rank. -/
def expected (mc : Nat → Cell → List Q) (nBlocks : Nat) (ranks : List (List Cell)) : List (Q × Int × Nat) :=
  ranks.zipIdx.flatMap fun o => o.1.flatMap fun c => (List.range nBlocks).flatMap fun b => (mc b c).map fun q => (q, (b : Int), o.2)

/-- A rank has no piece of any surface. -/
def Bare (mc : Nat → Cell → List Q) (nBlocks : Nat) (owned : List Cell) : Prop := ∀ c ∈ owned, ∀ b < nBlocks, mc b c = []

/-- Without degrees of freedom there are no cells. -/
def Sound (m : Mesh Cell Q) : Prop := m.dofs = false → ∀ owned ∈ m.ranks, owned = []

/-- The mesh the surface is taken from. -/
def Uses (steps : Nat) (filter : Option (Mesh Cell Q → Mesh Cell Q)) (mesh coarse used : Mesh Cell Q) : Prop :=
  (steps = 0 → filter = none → used = mesh) ∧ (steps ≠ 0 → filter = none → used = coarse) ∧
    ∀ f, filter = some f → (steps = 0 → used = f mesh) ∧ (steps ≠ 0 → used = f coarse)

/-- Every question put to the tracker is answered with a number. -/
def Answered (m : Mesh Cell Q) (nBlocks : Nat) (ask : Nat → Nat → Res (Option Nat)) : Prop :=
  ∀ owned ∈ m.ranks, ∀ c ∈ owned, ∀ b < nBlocks, m.mc b c ≠ [] → ∃ g, ask b (m.index c) = .ok g

end Verif.Surfaces.Spec
