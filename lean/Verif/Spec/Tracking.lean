import Verif.Model.OMap
import Verif.Model.Grain
/-!
# Specification of grain matching

Stated on the grain tables only; nothing of the search or of the conflict resolution appears here.
-/
namespace Verif.Spec
open Verif
variable {P K : Type}

/-- A new and an old grain touch: some of their segment boxes intersect. -/
def Touch (inter : P × K → P × K → Prop) (o g : Grain P K) : Prop :=
  ∃ s ∈ g.segments, ∃ t ∈ o.segments, inter (t.center, t.radius) (s.center, s.radius)

/-- If the new grain `g` consists of a single segment, `o` has the segment nearest to it among all
segments of old grains of the same order parameter that touch it. (For grains of several segments the
code does not guarantee this, see `C01_multi_segment_not_nearest`.) -/
def Nearest (dist : P → P → K) (inter : P × K → P × K → Prop) [LE K] (old : OMap (Grain P K))
    (o g : Grain P K) : Prop :=
  ∀ s, g.segments = [s] → ∃ t ∈ o.segments, inter (t.center, t.radius) (s.center, s.radius) ∧
    ∀ o' O', old.get? o' = some O' → O'.op = g.op → ∀ t' ∈ O'.segments,
      inter (t'.center, t'.radius) (s.center, s.radius) →
      dist t.center s.center ≤ dist t'.center s.center

/-- The R-tree query returns exactly the indices of the intersecting boxes (in any order, any
multiplicity). Contract of `boost::geometry::index::rtree::query(intersects(box))`. -/
def QueryContract (inter : P × K → P × K → Prop) (query : List (P × K) → P × K → List Nat) : Prop :=
  ∀ boxes b i, i ∈ query boxes b ↔ ∃ bx, boxes[i]? = some bx ∧ inter bx b

/-- What a user may rely on for the matching `m : new id ↦ old id or nothing`.
`dc` is the distance of two grains used to settle conflicts, `dist` the distance of points. -/
structure IsMatching (dist : P → P → K) (inter : P × K → P × K → Prop) (dc : Grain P K → Grain P K → K) [LE K]
    (new old : OMap (Grain P K)) (m : OMap (Option Nat)) : Prop where
  /-- every detected grain gets an answer, and nothing else does -/
  total : ∀ g, (m.get? g).isSome ↔ (new.get? g).isSome
  /-- the matched grain existed, lived on the same order parameter, touches the new one and is the
  nearest one -/
  sound : ∀ g o, m.get? g = some (some o) →
    ∃ G O, new.get? g = some G ∧ old.get? o = some O ∧ O.op = G.op ∧ Touch inter O G ∧
      Nearest dist inter old O G
  /-- no old grain is given away twice -/
  injective : ∀ g g' o, m.get? g = some (some o) → m.get? g' = some (some o) → g = g'
  /-- a grain stays unmatched only if it touches no old grain of its order parameter, or it lost its
  nearest touching old grain to another new grain that is at least as close -/
  unmatched : ∀ g G, new.get? g = some G → m.get? g = some none →
    (∀ o O, old.get? o = some O → O.op = G.op → ¬ Touch inter O G) ∨
    ∃ o O g' G', old.get? o = some O ∧ O.op = G.op ∧ (Touch inter O G ∧ Nearest dist inter old O G) ∧
      new.get? g' = some G' ∧ g' ≠ g ∧ m.get? g' = some (some o) ∧ dc O G' ≤ dc O G

end Verif.Spec
