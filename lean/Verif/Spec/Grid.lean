import Verif.Model.Grid

/-! # Specification for the grid at start and at restart, independent of how it is made -/
namespace Verif.Spec.Grid
open Verif.Grid

section
variable {K : Type} [Field K] [LinearOrder K]

/-- the domain leaves the same free space around the packing on every side -/
def Margin (w : K) (box dom : List (K × K)) : Prop :=
  List.Forall₂ (fun b d => b.1 - d.1 = w ∧ d.2 - b.2 = w) box dom

/-- the packing lies in the domain -/
def Inside (box dom : List (K × K)) : Prop := List.Forall₂ (fun b d => d.1 ≤ b.1 ∧ b.2 ≤ d.2) box dom

/-- size of a cell of a domain of size `x` with `m` coarse cells after `n` refinements -/
def cellSize (x : K) (m n : Nat) : K := x / ((m : K) * 2 ^ n)
end

/-- two sets of parameters differ at most in how vectors are stored -/
def SameGrid {K : Type} (p q : Params K) : Prop := { p with flexible := q.flexible } = q

/-- the initial grid consists of coarse cells only unless asked for otherwise -/
def CoarseOnly {K : Type} (p : Params K) : Prop := p.kind = .divisions → p.nRefinements = 0
end Verif.Spec.Grid
