import Verif.Model.RemapOld
/-!
# Specification of the remapping by zones
-/
namespace Verif.RemapOld.Spec

variable {P K D : Type} [Field K] [LinearOrder K]

/-- The zone of a grain: points nearer to one of its spheres than the transfer buffer. -/
def Zone (G : Geometry P K) (g : Grain P K) (p : P) : Prop := ∃ s ∈ g.segments, G.dist p s.center < s.radius + max 0 (g.nearest / 2)

/-- The degree of freedom `d` belongs to a cell with its centre in the zone of `g`. -/
def Touches (G : Geometry P K) (cells : List (ZCell D P)) (g : Grain P K) (d : D) : Prop := ∃ c ∈ cells, d ∈ c.dofs ∧ Zone G g c.center

/-- The tables the remapping works with. -/
structure Tables (nb off : Nat) (old grains : OMap (Grain P K)) : Prop where
  sorted : grains.Sorted
  ids : ∀ p ∈ grains, p.2.grainId = p.1
  blocks : ∀ p ∈ grains, p.2.op + off < nb ∧ p.2.oldOp + off < nb
  oldBlocks : ∀ p ∈ old, p.2.op + off < nb

/-- A grain that changes its order parameter and has `d` in its zone. -/
def MovedAt (G : Geometry P K) (grains : OMap (Grain P K)) (cells : List (ZCell D P)) (d : D) (k : Nat) (g : Grain P K) : Prop :=
  (k, g) ∈ grains ∧ g.op ≠ g.oldOp ∧ Touches G cells g d

/-- A grain of order parameter `o` that had `d` in its zone is gone. -/
def GoneAt (G : Geometry P K) (old grains : OMap (Grain P K)) (cells : List (ZCell D P)) (o : Nat) (d : D) : Prop :=
  ∃ k g, (k, g) ∈ old ∧ (∀ h, (k, h) ∉ grains) ∧ g.op = o ∧ Touches G cells g d

/-- The zones at `d` do not disturb each other: grains that move and have `d` in their zones come from different order parameters and go to different
ones, and are seen to overlap if one takes the place of the other. -/
def Compatible (G : Geometry P K) (grains : OMap (Grain P K)) (cells : List (ZCell D P)) (d : D) : Prop :=
  ∀ k g l h, MovedAt G grains cells d k g → MovedAt G grains cells d l h → k ≠ l →
    g.op ≠ h.op ∧ g.oldOp ≠ h.oldOp ∧
      (g.op = h.oldOp → Grain.distance G g h < max 0 (g.nearest / 2) + max 0 (h.nearest / 2))

/-- The value `v` of order parameter `o` at `d` before the moves: zero if a grain is gone there. -/
def Before (G : Geometry P K) (off : Nat) (old grains : OMap (Grain P K)) (cells : List (ZCell D P)) (sol : Fld D K) (o : Nat) (d : D) (v : K) : Prop :=
  (GoneAt G old grains cells o d ∧ v = 0) ∨ (¬ GoneAt G old grains cells o d ∧ v = sol (o + off) d)

/-- What has to hold at `d` afterwards. -/
structure Correct (G : Geometry P K) (off : Nat) (old grains : OMap (Grain P K)) (cells : List (ZCell D P)) (sol sol' : Fld D K) (d : D) : Prop where
  /-- values of a grain are found in its new order parameter -/
  arrived : ∀ k g, MovedAt G grains cells d k g → Before G off old grains cells sol g.oldOp d (sol' (g.op + off) d)
  /-- an order parameter that is left and not entered is zero -/
  left : ∀ k g, MovedAt G grains cells d k g → (∀ l h, MovedAt G grains cells d l h → h.op ≠ g.oldOp) → sol' (g.oldOp + off) d = 0
  /-- others keep their values -/
  kept : ∀ o, (∀ l h, MovedAt G grains cells d l h → h.op ≠ o ∧ h.oldOp ≠ o) → Before G off old grains cells sol o d (sol' (o + off) d)
  /-- blocks in front of the order parameters too -/
  front : ∀ b, b < off → sol' b d = sol b d

end Verif.RemapOld.Spec
