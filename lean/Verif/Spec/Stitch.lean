import Verif.Model.Stitch
/-!
# Specification of stitching
-/
namespace Verif.Spec

/-- the list of particle `g` mentions particle `q` -/
def Touches (input : List (List GId)) (g q : Nat) : Prop :=
  ∃ l e, input[g]? = some l ∧ e ∈ l ∧ e.2 = q

/-- connected through a chain of touching particles, in whatever direction the contacts are recorded -/
def SameParticle (input : List (List GId)) : Nat → Nat → Prop := Relation.EqvGen (Touches input)

/-- Contact lists as produced by `build_local_connectivity` (distributed_stitching.h:121-181): strictly
ordered, and the entries name particles of other ranks together with the rank holding them. -/
structure ContactLists (sizes : List Nat) (input : List (List GId)) : Prop where
  length : input.length = sizes.sum
  sorted : ∀ (g : Nat) (l : List GId), input[g]? = some l →
    l.Pairwise (fun a b => a.1 < b.1 ∨ (a.1 = b.1 ∧ a.2 < b.2))
  entry : ∀ (g : Nat) (l : List GId), input[g]? = some l → ∀ e ∈ l, Holds sizes e.1 e.2
  other : ∀ (g : Nat) (l : List GId), input[g]? = some l → ∀ e ∈ l, ¬ Holds sizes e.1 g

/-- Global numbers `0..n-1`, each of them used, equal exactly for particles belonging together. -/
structure IsStitching (input : List (List GId)) (labels : List Nat) (n : Nat) : Prop where
  length : labels.length = input.length
  lt : ∀ (v l : Nat), labels[v]? = some l → l < n
  surj : ∀ l, l < n → ∃ v : Nat, labels[v]? = some l
  iff : ∀ (v w a b : Nat), labels[v]? = some a → labels[w]? = some b →
    (a = b ↔ SameParticle input v w)

end Verif.Spec
