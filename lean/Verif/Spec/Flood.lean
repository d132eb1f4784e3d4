import Verif.Model.Flood
/-!
# Specification of local particles
-/
namespace Verif.Spec
variable {K : Type}

/-- the cell is active (a leaf of the refinement hierarchy), locally owned and its value exceeds the
threshold -/
def Inside [LinearOrder K] (M : FMesh K) (thr : K) (c : Nat) : Prop :=
  M.children c = [] ∧ M.owned c = true ∧ thr < M.cellMax c

/-- `b` is an active cell inside `a` -/
inductive LeafOf (M : FMesh K) : Nat → Nat → Prop
  | leaf {a : Nat} : M.children a = [] → LeafOf M a a
  | child {a c b : Nat} : c ∈ M.children a → LeafOf M c b → LeafOf M a b

/-- active cells across the faces of an active cell, as the code sees them: if a neighbour is refined,
all active cells in it -/
def Across (M : FMesh K) (a b : Nat) : Prop := ∃ n ∈ M.nbrs a, LeafOf M n b

/-- connected by a chain of cells inside, each across a face of the previous one -/
def Connected [LinearOrder K] (M : FMesh K) (thr : K) : Nat → Nat → Prop :=
  Relation.ReflTransGen (fun a b => Across M a b ∧ Inside M thr b)

/-- a finite mesh: `active` lists the active cells, `height` is the depth of refinement below a cell -/
structure MeshOk (M : FMesh K) (active : List Nat) (height : Nat → Nat) (H : Nat) : Prop where
  nodup : active.Nodup
  leaves : ∀ c ∈ active, M.children c = []
  reach : ∀ c ∈ active, ∀ b, Across M c b → b ∈ active
  depth : ∀ c, ∀ d ∈ M.children c, height d < height c
  bound : ∀ c, height c ≤ H

/-- What the detection has to deliver. -/
structure LocalRegions [LinearOrder K] (M : FMesh K) (thr : K) (active : List Nat)
    (r : LocalParticles K) : Prop where
  /-- exactly the cells inside get a number, smaller than the number of particles -/
  inside : ∀ c ∈ active, Inside M thr c ↔ ∃ k < r.maxs.length, r.ids c = some k
  outside : ∀ c, ¬ Inside M thr c ∨ c ∉ active → r.ids c = none
  /-- every number is used -/
  used : ∀ k < r.maxs.length, ∃ c ∈ active, r.ids c = some k
  /-- equal numbers exactly for connected cells -/
  same : ∀ a ∈ active, ∀ b ∈ active, Inside M thr a → Inside M thr b →
    (r.ids a = r.ids b ↔ Connected M thr a b)
  /-- the recorded value is the maximum over the region -/
  maxs : ∀ (k : Nat) (m : K), r.maxs[k]? = some m →
    (∃ c ∈ active, r.ids c = some k ∧ M.cellMax c = m) ∧ ∀ c ∈ active, r.ids c = some k → M.cellMax c ≤ m

end Verif.Spec
