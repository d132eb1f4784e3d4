import Mathlib.Order.Defs.LinearOrder
import Mathlib.Logic.Relation
/-!
# Detection of local particles by flood filling

Models `run_flooding` and the first step of `detect_local_particle_groups`
(include/pf-applications/grain_tracker/distributed_stitching.h:40-101, 439-491).

A mesh is seen through the accessors the code uses. `cellMax` is the maximum of the solution over the
degrees of freedom of a cell (`*std::max_element`, lines 73-77; cells have degrees of freedom).
Particle ids are stored as `double` with the invalid value −1 in the code, here as `Option Nat`.
-/
namespace Verif

/-- cells of all levels with the accessors used by the flooding -/
structure FMesh (K : Type) where
  /-- `child_iterators`, empty if `has_children() == false` -/
  children : Nat → List Nat
  /-- `is_locally_owned` (asked for active cells only) -/
  owned : Nat → Bool
  /-- `neighbor(face)` for all faces not at the boundary -/
  nbrs : Nat → List Nat
  cellMax : Nat → K

/-- `particle_ids` (`none` is `invalid_particle_id`) and `max_value` -/
structure FloodState (K : Type) where
  ids : Nat → Option Nat
  maxv : K

section
variable {K : Type} [LinearOrder K]

/-- `run_flooding` (distributed_stitching.h:40-101). `fuel` bounds the depth of the recursion, `none`
means that the bound was hit. Returned is the counter and the state. -/
def flood (M : FMesh K) (thr : K) (id : Nat) : Nat → Nat → FloodState K → Option (Nat × FloodState K)
  | 0, _, _ => none
  | fuel + 1, c, s =>
    if M.children c ≠ [] then
      (M.children c).foldlM (fun (p : Nat × FloodState K) ch =>
        (flood M thr id fuel ch p.2).map (fun q => (p.1 + q.1, q.2))) (0, s)
    else if M.owned c = false then some (0, s)
    else if (s.ids c).isSome then some (0, s)
    else if ¬ (M.cellMax c > thr) then some (0, s)
    else
      (M.nbrs c).foldlM (fun (p : Nat × FloodState K) n =>
        (flood M thr id fuel n p.2).map (fun q => (p.1 + q.1, q.2)))
        (1, ⟨fun b => if b = c then some id else s.ids b, max s.maxv (M.cellMax c)⟩)

/-- result of step 1 of `detect_local_particle_groups` -/
structure LocalParticles (K : Type) where
  ids : Nat → Option Nat
  maxs : List K

/-- loop body over the active cells (distributed_stitching.h:472-486); `counter` is the number of
maxima recorded so far -/
def detectStep (M : FMesh K) (thr lowest : K) (fuel : Nat) (r : LocalParticles K × K) (c : Nat) :
    Option (LocalParticles K × K) :=
  (flood M thr r.1.maxs.length fuel c ⟨r.1.ids, r.2⟩).map fun q =>
    if q.1 > 0 then (⟨q.2.ids, r.1.maxs ++ [q.2.maxv]⟩, lowest) else (⟨q.2.ids, r.1.maxs⟩, q.2.maxv)

/-- step 1 of `detect_local_particle_groups` (distributed_stitching.h:449-491) -/
def detectLocal (M : FMesh K) (thr lowest : K) (fuel : Nat) (active : List Nat) :
    Option (LocalParticles K) :=
  (active.foldlM (detectStep M thr lowest fuel) (⟨fun _ => none, []⟩, lowest)).map (·.1)

end
end Verif
