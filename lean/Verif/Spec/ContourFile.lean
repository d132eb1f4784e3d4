import Verif.Model.ContourFile
/-!
# Files with contours of grains: what they should contain

A file describes every segment of every grain, in the order of the grains. Its points are those that the cells
belonging to the segment contribute, rank after rank, then block after block, then cell after cell.
-/
namespace Verif.ContourFile.Spec
open Verif.ContourFile

variable {dim : Nat} {K : Type}

/-- contract of printing and parsing: a number is printed as a word, and read back as `round` of it -/
structure Lawful [Field K] (F : Fmt K) (round : K → K) : Prop where
  nat_ne : ∀ n, F.showNat n ≠ []
  nat_blank : ∀ n, ' ' ∉ F.showNat n
  nat_end : ∀ n, '\n' ∉ F.showNat n
  nat_read : ∀ n, F.readNat (F.showNat n) = some n
  num_ne : ∀ x, F.showNum x ≠ []
  num_blank : ∀ x, ' ' ∉ F.showNum x
  num_end : ∀ x, '\n' ∉ F.showNum x
  num_read : ∀ x, F.readNum (F.showNum x) = some (round x)
  one : F.trunc (round 1) = 1
  two : F.trunc (round 2) = 2
  three : F.trunc (round 3) = 3

/-- all segments: key of the grain and number within the grain, the grain, the representation -/
def segments (grains : List (Nat × Grain dim K)) : List ((Nat × Nat) × Grain dim K × Shape dim K) :=
  grains.flatMap fun g => g.2.segments.zipIdx.map fun s => ((g.1, s.2), g.2, s.1)

/-- the keys of the segments -/
def keys (grains : List (Nat × Grain dim K)) : List (Nat × Nat) := (segments grains).map (·.1)

/-- cell `cell` belongs to the segment `key` for order parameter `b` -/
def Belongs (T : Tracker) (b : Nat) (key : Nat × Nat) (cell : Nat) : Prop :=
  ∃ p, T.particle b cell = some p ∧ T.grainSegment b p = .ok (some key.1, key.2)

/-- every particle met is known, and its grain and segment are among those of the tracker -/
def Consistent (T : Tracker) (known : List (Nat × Nat)) (nBlocks : Nat) (owned : List Nat) : Prop :=
  ∀ b < nBlocks, ∀ cell ∈ owned, ∀ p, T.particle b cell = some p →
    ∃ gs, T.grainSegment b p = .ok gs ∧ ∀ g, gs.1 = some g → (g, gs.2) ∈ known

open Classical in
/-- points of a segment on one rank -/
noncomputable def segmentPoints {P : Type} (T : Tracker) (pieces : Nat → Nat → List P) (nBlocks : Nat)
    (owned : List Nat) (key : Nat × Nat) : List P :=
  (List.range nBlocks).flatMap fun b => (owned.filter fun cell => Belongs T b key cell).flatMap (pieces b)

/-- a representation after rounding of the numbers; `offset` is the number written for fronts -/
def readBack (round : K → K) (offset : Nat × Nat → List ((Nat × Nat) × K) → K) : Shape dim K → RShape K
  | .sphere c r => .sphere (List.ofFn fun d => round (c d)) (round r)
  | .ellipse c a r =>
    .ellipse (List.ofFn fun d => round (c d)) (List.ofFn fun i => List.ofFn fun d => round (a i d))
      (List.ofFn fun d => round (r d))
  | .front s c ds => .front (List.ofFn fun d => round (c d)) (round (offset s ds))

/-- `m` is the smallest distance to a particle of the same order parameter, or `big` if there is none that is
nearer -/
def IsNearest [LE K] (big : K) (self : Nat × Nat) (distances : List ((Nat × Nat) × K)) (m : K) : Prop :=
  m ≤ big ∧ (∀ e ∈ distances, e.1.1 = self.1 → m ≤ e.2) ∧
    (m = big ∨ ∃ e ∈ distances, e.1.1 = self.1 ∧ e.2 = m)

/-- the whole file as the reader should see it; `points` lists the points of a segment on all ranks -/
def expected (round : K → K) (offset : Nat × Nat → List ((Nat × Nat) × K) → K) (nOp : Nat) (lo hi : Fin dim → K)
    (grains : List (Nat × Grain dim K)) (points : Nat × Nat → List (Fin dim → K)) : Parsed K where
  dim := dim
  nSegments := (segments grains).length
  nOp := nOp
  grainIds := (segments grains).map fun s => s.2.1.id
  grainOps := (segments grains).map fun s => s.2.1.op
  lo := List.ofFn fun d => round (lo d)
  hi := List.ofFn fun d => round (hi d)
  shapes := (segments grains).map fun s => readBack round offset s.2.2
  points := (keys grains).map fun k => (points k).map fun p => List.ofFn fun d => round (p d)

/-- `p` is the foot of the perpendicular from `c` onto the plane -/
def IsFoot [Field K] (c origin normal p : Fin 3 → K) : Prop :=
  dot3 (fun d => p d - origin d) normal = 0 ∧ ∃ t, ∀ d, p d = c d + t * normal d

end Verif.ContourFile.Spec
