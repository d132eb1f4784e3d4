import Verif.Spec.Flood
import Verif.Spec.Stitch
import Verif.Model.Connect
/-!
# Specification of the parallel detection
-/
namespace Verif.Spec
variable {K : Type}

/-- the mesh as seen by rank `r` -/
def onRank (M : FMesh K) (P : Partition) (r : Nat) : FMesh K :=
  ⟨M.children, fun c => decide (P.owner c = r), M.nbrs, M.cellMax⟩

/-- the whole mesh owned by a single process -/
def whole (M : FMesh K) : FMesh K := ⟨M.children, fun _ => true, M.nbrs, M.cellMax⟩

/-- A partitioned mesh with the results of the local detection (C12) on every rank. Every rank
is supposed to know its ghost cells. -/
structure ParallelSetup [LinearOrder K] (M : FMesh K) (thr : K) (active : List Nat) (P : Partition)
    (L : List (LocalParticles K)) : Prop where
  leaves : ∀ c ∈ active, M.children c = []
  reach : ∀ c ∈ active, ∀ b, Across M c b → b ∈ active
  owner : ∀ c ∈ active, P.owner c < L.length
  regions : ∀ (r : Nat) (lp : LocalParticles K), L[r]? = some lp →
    LocalRegions (onRank M P r) thr active lp
  sym : ∀ a ∈ active, ∀ b ∈ active, Across M a b → Across M b a
  /-- the loops over the faces of ghost cells visit cells of the mesh -/
  ghost : ∀ r, ∀ p ∈ P.faces r, P.owner p.1 ≠ r ∧ p.1 ∈ active ∧ p.2 ∈ active
  /-- and find exactly the contacts to locally owned cells -/
  faces : ∀ g ∈ active, ∀ c ∈ active, P.owner g ≠ P.owner c →
    ((g, c) ∈ P.faces (P.owner c) ↔ Across M g c)

end Verif.Spec
