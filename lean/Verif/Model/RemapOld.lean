import Verif.Model.Remap
/-!
# Remapping of grains by transfer zones

Models `Tracker::remap_old` (tracker.h:650-1021), which is used instead of `remap_new` if `use_old_remap` is set. The graph of
`remap_graph.h` is that of module `Remap`. One rank with its owned cells and one solution vector: the loop over several vectors repeats the same steps.
-/
namespace Verif.RemapOld

variable {P K D : Type}

/-- a locally owned cell: its degrees of freedom and its barycenter -/
structure ZCell (D P : Type) where
  dofs : List D
  center : P

section
variable [Field K] [LinearOrder K]

/-- the test for a cell (tracker.h:681-690) -/
def inGrain (G : Geometry P K) (g : Grain P K) (c : ZCell D P) : Bool :=
  g.segments.any fun s => decide (G.dist c.center s.center < s.radius + Grain.transferBuffer g)

/-- `alter_dof_values_for_grain` (tracker.h:663-702) -/
def alter {α : Type} (G : Geometry P K) (cells : List (ZCell D P)) (g : Grain P K) (callback : List D → α → Res α) (a : α) : Res α :=
  cells.foldlM (fun a c => if inGrain G g c then callback c.dofs a else .ok a) a

/-- the grains that are gone (tracker.h:705-712) -/
def disappeared (old grains : OMap (Grain P K)) : OMap (Grain P K) :=
  old.filter fun p => !grains.keys.contains p.1

/-- the moves (tracker.h:738-752) -/
def moves (grains : OMap (Grain P K)) : List Move :=
  (grains.filter fun p => decide (p.2.op ≠ p.2.oldOp)).map fun p => ⟨p.2.grainId, p.2.oldOp, p.2.op⟩

/-- `has_overlap` (tracker.h:771-775) for the grains of two moves -/
def hasOverlap (G : Geometry P K) (grains : OMap (Grain P K)) (a b : Move) : Bool :=
  match grains.get? a.grain, grains.get? b.grain with
  | some g, some h => decide (Grain.distance G g h - Grain.transferBuffer g - Grain.transferBuffer h < 0)
  | _, _ => false

/-- the moves through temporary vectors and the other ones in their order (tracker.h:757-847); the lookups of the grains of all moves throw if a grain is
missing -/
def plan (x : RemapExt) (G : Geometry P K) (grains : OMap (Grain P K)) (rs : List Move) : Res (List Move × List Move) := do
  let _ ← rs.mapM fun m => Res.at? (grains.get? m.grain)
  let g ← buildRemapGraph (hasOverlap G grains) rs
  if g.verts = [] then .ok ([], rs)
  else
    let (cut, rs', g') ← g.resolveCycles (x.back g.verts g.edges) rs
    let rs'' ← g'.rearrange x.inOrd rs'
    .ok (cut, rs'')

variable [DecidableEq D]

/-- zeros into a block at a cell (tracker.h:727-735) -/
def clear (nb b : Nat) (dofs : List D) (f : Fld D K) : Res (Fld D K) :=
  if b < nb then .ok (setVals dofs b (fun _ => 0) f) else .ub

/-- from one block to another at a cell (tracker.h:950-958) -/
def copy (nb src dst : Nat) (dofs : List D) (f : Fld D K) : Res (Fld D K) :=
  if src < nb ∧ dst < nb then .ok (setVals dofs dst (f src) f) else .ub

/-- into the temporary vector at a cell (tracker.h:900-909) -/
def save (nb src k : Nat) (f : Fld D K) (dofs : List D) (t : Fld D K) : Res (Fld D K) :=
  if src < nb then .ok (setVals dofs k (f src) t) else .ub

/-- out of the temporary vector at a cell (tracker.h:1001-1010) -/
def restore (nb k dst : Nat) (t : Fld D K) (dofs : List D) (f : Fld D K) : Res (Fld D K) :=
  if dst < nb then .ok (setVals dofs dst (t k) f) else .ub

/-- a move into the temporary vector (tracker.h:879-921); solution and temporary vector -/
def toTemp (G : Geometry P K) (nb off : Nat) (cells : List (ZCell D P)) (grains : OMap (Grain P K)) (s : Fld D K × Fld D K) (mk : Move × Nat) :
    Res (Fld D K × Fld D K) := do
  let g ← Res.at? (grains.get? mk.1.grain)
  let t ← alter G cells g (save nb (mk.1.src + off) mk.2 s.1) s.2
  let f ← alter G cells g (clear nb (mk.1.src + off)) s.1
  .ok (f, t)

/-- a move (tracker.h:924-971) -/
def transfer (G : Geometry P K) (nb off : Nat) (cells : List (ZCell D P)) (grains : OMap (Grain P K)) (f : Fld D K) (m : Move) : Res (Fld D K) := do
  let g ← Res.at? (grains.get? m.grain)
  let f ← alter G cells g (copy nb (m.src + off) (m.dst + off)) f
  alter G cells g (clear nb (m.src + off)) f

/-- a move out of the temporary vector (tracker.h:974-1015) -/
def fromTemp (G : Geometry P K) (nb off : Nat) (cells : List (ZCell D P)) (grains : OMap (Grain P K)) (t : Fld D K) (f : Fld D K) (mk : Move × Nat) :
    Res (Fld D K) := do
  let g ← Res.at? (grains.get? mk.1.grain)
  alter G cells g (restore nb mk.2 (mk.1.dst + off) t) f

/-- `remap_old` (tracker.h:650-1021): number of grains and solution; temporary vectors start as zero -/
def remapOld (x : RemapExt) (G : Geometry P K) (nb off : Nat) (old grains : OMap (Grain P K)) (cells : List (ZCell D P)) (sol : Fld D K) :
    Res (Nat × Fld D K) := do
  let f ← (disappeared old grains).foldlM (fun f p => alter G cells p.2 (clear nb (p.2.op + off)) f) sol
  let rs := moves grains
  let (cut, direct) ← plan x G grains rs
  let (f, t) ← cut.zipIdx.foldlM (toTemp G nb off cells grains) (f, fun _ _ => 0)
  let f ← direct.foldlM (transfer G nb off cells grains) f
  let f ← cut.zipIdx.foldlM (fromTemp G nb off cells grains t) f
  .ok (rs.length, f)

end

end Verif.RemapOld
