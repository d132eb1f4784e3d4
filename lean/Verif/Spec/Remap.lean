import Verif.Model.Remap
/-!
# Specification of remapping
-/
namespace Verif.Spec
variable {P K D : Type}

/-- Grain `g` is present at the cell `c` in order parameter `op`: the particle of that order parameter
covering the cell belongs to `g`. -/
def PresentAt (lookup : Lookup) (c : RCell D) (op g : Nat) : Prop :=
  ∃ pid row s, c.pids[op]? = some (some pid) ∧ lookup[op]? = some row ∧ row[pid]? = some (some g, s)

/-- Grain `g`, with record `G`, is present at the cell `c`. -/
def GrainAt (lookup : Lookup) (grains : OMap (Grain P K)) (c : RCell D) (g : Nat) (G : Grain P K) :
    Prop :=
  (∃ op, PresentAt lookup c op g) ∧ grains.get? g = some G

/-- State of the tracker in which remapping is called. -/
structure Remappable (nb off : Nat) (grains : OMap (Grain P K)) (lookup : Lookup)
    (cells : List (RCell D)) : Prop where
  /-- the table of grains is keyed by the grain identifiers -/
  sorted : grains.Sorted
  ids : ∀ p ∈ grains, p.2.grainId = p.1
  /-- every particle number at a cell has an entry in the table of particles -/
  valid : ∀ c ∈ cells, ∀ (op pid : Nat), c.pids[op]? = some (some pid) →
    ∃ row e, lookup[op]? = some row ∧ row[pid]? = some e
  /-- a particle of order parameter `op` belongs to a grain that lived in `op` -/
  home : ∀ c ∈ cells, ∀ op g G, PresentAt lookup c op g → grains.get? g = some G → G.oldOp = op
  /-- different grains at the same cell go to different order parameters -/
  apart : ∀ c ∈ cells, ∀ g g' G G', GrainAt lookup grains c g G → GrainAt lookup grains c g' G' →
    g ≠ g' → G.op ≠ G'.op
  /-- all order parameters have a block in the solution vector -/
  blocks : ∀ p ∈ grains, p.2.op + off < nb ∧ p.2.oldOp + off < nb

/-- What remapping has to achieve: `sol` and `sol'` are the solution before and after. -/
structure Remapped [Zero K] (off : Nat) (grains : OMap (Grain P K)) (lookup : Lookup)
    (cells : List (RCell D)) (sol sol' : Fld D K) : Prop where
  /-- at degrees of freedom inside a grain its values are found in its new order parameter -/
  grain : ∀ g G d, (∃ c ∈ cells, d ∈ c.dofs) →
    (∀ c ∈ cells, d ∈ c.dofs → GrainAt lookup grains c g G) →
    sol' (G.op + off) d = sol (G.oldOp + off) d
  /-- an order parameter left by a grain and taken by no other becomes zero -/
  vacated : ∀ o d, (∀ c ∈ cells, d ∈ c.dofs → ∀ g G, GrainAt lookup grains c g G → G.op ≠ o) →
    (∃ c ∈ cells, d ∈ c.dofs ∧ ∃ g G, GrainAt lookup grains c g G ∧ G.oldOp = o) →
    sol' (o + off) d = 0
  /-- an order parameter which no grain at the cells of `d` leaves or enters is unchanged -/
  untouched : ∀ o d, (∀ c ∈ cells, d ∈ c.dofs → ∀ g G, GrainAt lookup grains c g G →
      G.op ≠ G.oldOp → G.op ≠ o ∧ G.oldOp ≠ o) → sol' (o + off) d = sol (o + off) d
  /-- blocks in front of the order parameters are unchanged -/
  front : ∀ b d, b < off → sol' b d = sol b d

/-- The moves a schedule stands for, with the position at which the values of the source are read and
the source is cleared, and the position at which the destination is written. -/
def ReadAt (steps : List Step) (m : Move) (i : Nat) : Prop :=
  steps[i]? = some (Step.plain m) ∨ steps[i]? = some (Step.toTemp m)

def WriteAt (steps : List Step) (m : Move) (i : Nat) : Prop :=
  steps[i]? = some (Step.plain m) ∨ steps[i]? = some (Step.fromTemp m)

/-- A correct schedule for the moves `rs`, where `ov a b` tells that `a` and `b` may interfere. -/
structure GoodSchedule (ov : Move → Move → Bool) (rs : List Move) (steps : List Step) : Prop where
  /-- only requested moves are done, directly or via temporary storage -/
  sound : ∀ s ∈ steps, ∃ m ∈ rs, s = Step.plain m ∨ s = Step.toTemp m ∨ s = Step.fromTemp m
  /-- the values of every requested move are read exactly once and written exactly once -/
  read : ∀ m ∈ rs, steps.count (Step.plain m) + steps.count (Step.toTemp m) = 1
  write : ∀ m ∈ rs, steps.count (Step.plain m) + steps.count (Step.fromTemp m) = 1
  /-- a move out of an order parameter is read, and the order parameter cleared, before another move
  into it is written -/
  order : ∀ a b (i j : Nat), a ≠ b → ov a b = true → a.dst = b.src → WriteAt steps a i →
    ReadAt steps b j → j < i
  /-- temporary storage is used as a stack: what is put there last is taken first, and nothing is
  taken before everything has been put there -/
  lifo : steps.filter (fun s => s.dst.isNone) =
    ((steps.filter (fun s => s.src.isNone)).map (fun s => Step.toTemp s.move)).reverse
  phases : ∀ (i j : Nat) a b, steps[i]? = some (Step.toTemp a) → steps[j]? = some (Step.fromTemp b) →
    i < j
  /-- temporary storage is used only for moves that close a cycle -/
  cycles : ∀ m, Step.toTemp m ∈ steps → Reach rs m.dst m.src

end Verif.Spec
