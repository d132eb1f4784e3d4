/-
Specification: nodes near each other, vectors that agree around a node, pure phases.
-/
import Verif.Spec.Relabel

namespace Verif.Locality.Spec

open Finset Verif.Energy Verif.Relabel.Spec
open Verif.Apps (QPt)

variable {K : Type} [Field K] {n m d : Nat}

/-- Nodes that are near each other: some point sees the shape functions of both. -/
def Near (pts : List (VPt K n m d)) (i j : Fin n) : Prop := ∃ q ∈ pts, Seen q.1 i ∧ Seen q.1 j

/-- Two vectors agree at the nodes near `i`, in all blocks. -/
def Agree (pts : List (VPt K n m d)) (i : Fin n) (u u' : Fields K n m) : Prop :=
  ∀ j, Near pts i j → u.c j = u'.c j ∧ u.mu j = u'.mu j ∧ ∀ g, u.eta g j = u'.eta g j

/-- The same mesh; grains have the same velocities around node `i`. -/
def SameMesh (i : Fin n) (pts pts' : List (VPt K n m d)) : Prop :=
  List.Forall₂ (fun q q' => q'.1 = q.1 ∧ (Seen q.1 i → q'.2 = q.2)) pts pts'

/-- A pure phase everywhere: void, or the inside of a grain with order parameter `k`. -/
def phase (k : Option (Fin m)) : Fields K n m := ⟨fun _ => if k = none then 0 else 1, fun _ => 0, fun g _ => if k = some g then 1 else 0⟩

/-- Shape functions add up to one. -/
def Unity (pts : List (VPt K n m d)) : Prop := ∀ q ∈ pts, ∑ i, q.1.N i = 1 ∧ ∀ e, ∑ i, q.1.G i e = 0

/-- The net flux of a constant density moving with the grain, into the surroundings of node `i`. -/
def netFlux (pts : List (VPt K n m d)) (i : Fin n) (g : Fin m) : K := (pts.map fun q => q.1.w * ∑ e, (q.2 g).getD 0 e * q.1.G i e).sum

end Verif.Locality.Spec
