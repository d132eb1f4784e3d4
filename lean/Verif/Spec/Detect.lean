import Verif.Model.Detect
/-! # Specification of grain detection -/
namespace Verif.Spec
open Verif
variable {P K : Type}

/-- Two particles of one order parameter belong together: identical or joined by periodic contacts. -/
abbrev SameParticleGrain (x : OpParticles P K) (i j : Nat) : Prop := Linked x.conns i j

/-- What detection must deliver for the particles `ops` (indexed by order parameter). -/
structure IsDetection (ops : List (OpParticles P K)) (d : Detection P K) : Prop where
  sorted : d.grains.Sorted
  /-- one lookup row per order parameter, one entry per particle -/
  rows : d.lookup.length = ops.length
  cols : ∀ (op : Nat) (x : OpParticles P K) (row : List (Option Nat × Nat)), ops[op]? = some x →
    d.lookup[op]? = some row → row.length = x.parts.length
  /-- grains are numbered without gaps -/
  contiguous : ∀ g, (d.grains.get? g).isSome ↔ g < d.grains.length
  /-- each particle is found as the stated segment of the stated grain -/
  entry : ∀ (op i : Nat) (x : OpParticles P K) (row : List (Option Nat × Nat)) (seg : Segment P K),
    ops[op]? = some x → d.lookup[op]? = some row → x.parts[i]? = some seg →
    ∃ g s G, row[i]? = some (some g, s) ∧ d.grains.get? g = some G ∧ G.op = op ∧ G.oldOp = op ∧
      G.segments[s]? = some seg
  /-- every segment of every grain is a particle -/
  segment : ∀ (g s : Nat) (G : Grain P K) (seg : Segment P K), d.grains.get? g = some G →
    G.segments[s]? = some seg →
    ∃ (op i : Nat) (row : List (Option Nat × Nat)), d.lookup[op]? = some row ∧
      row[i]? = some (some g, s)
  /-- no grain without segments -/
  nonempty : ∀ g G, d.grains.get? g = some G → G.segments ≠ []
  /-- (grain, segment) identifies the particle -/
  inj : ∀ (op i op' i' : Nat) (row row' : List (Option Nat × Nat)) (e : Option Nat × Nat),
    d.lookup[op]? = some row → d.lookup[op']? = some row' → row[i]? = some e → row'[i']? = some e →
    op = op' ∧ i = i'
  /-- same grain exactly for linked particles of the same order parameter -/
  sameGrain : ∀ (op i op' i' g g' s s' : Nat) (x : OpParticles P K)
    (row row' : List (Option Nat × Nat)), ops[op]? = some x →
    d.lookup[op]? = some row → d.lookup[op']? = some row' → row[i]? = some (some g, s) →
    row'[i']? = some (some g', s') → (g = g' ↔ op = op' ∧ SameParticleGrain x i i')

end Verif.Spec
