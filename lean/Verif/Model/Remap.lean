import Verif.Model.Track
/-!
# Remapping of grains to new order parameters

Models `include/pf-applications/grain_tracker/remapping.h`, `remap_graph.h` and
`Tracker::remap_new` (tracker.h:425-649).

The iteration order of the edges of a vertex in the boost graph is by vertex address, hence
unspecified: `inOrd`/`back` are parameters. `numbers::invalid_unsigned_int` as "temporary storage" is
`none`.
-/
namespace Verif
variable {P K D : Type}

/-- `Remapping` (remapping.h:20-46) -/
structure Move where
  grain : Nat
  src : Nat
  dst : Nat
  deriving DecidableEq, Repr

/-- `RemapGraph` (remap_graph.h:31-290): vertices in order of creation (`listS`), edges -/
structure RGraph where
  verts : List Nat
  edges : List Move
  deriving DecidableEq, Repr

namespace RGraph

/-- `vertex` (remap_graph.h:239-251) -/
def addVertex (g : RGraph) (v : Nat) : RGraph :=
  if v ∈ g.verts then g else { g with verts := g.verts ++ [v] }

/-- `add_remapping` (remap_graph.h:62-75) with `remapping_exists` (254-265) -/
def addRemapping (g : RGraph) (m : Move) : RGraph :=
  let g := (g.addVertex m.src).addVertex m.dst
  if m ∈ g.edges then g else { g with edges := g.edges ++ [m] }

/-- one back edge in `resolve_cycles` (remap_graph.h:109-130) -/
def resolveStep (acc : List Move × List Move × RGraph) (e : Move) :
    Res (List Move × List Move × RGraph) :=
  if e ∈ acc.2.1 then
    Res.ok (acc.1 ++ [e], acc.2.1.erase e, ⟨acc.2.2.verts, acc.2.2.edges.erase e⟩)
  else Res.exc .assertThrow

/-- `resolve_cycles` (remap_graph.h:82-133) for the back edges `es` found by the depth first search:
returns the moves to be done via temporary storage, the shortened list and the graph. -/
def resolveCycles (es : List Move) (g : RGraph) (rs : List Move) :
    Res (List Move × List Move × RGraph) :=
  es.foldlM resolveStep ([], rs, g)

/-- inner loop of `rearrange` over the in-edges of a vertex (remap_graph.h:184-209) -/
def takeEdges (es : List Move) (acc : List Move × List Move) : Res (List Move × List Move) :=
  es.foldlM (fun (acc : List Move × List Move) r =>
    if r ∈ acc.1 then Res.ok (acc.1.erase r, acc.2 ++ [r]) else Res.exc .assertThrow) acc

/-- main loop of `rearrange` (remap_graph.h:174-231): the scan restarts after each removed vertex;
the number of removals is bounded by the number of vertices. `acc` = (old list, new list). -/
def peel (inOrd : List Move → List Move) : Nat → RGraph → List Move × List Move →
    Res (List Move × List Move)
  | 0, _, acc => Res.ok acc
  | n + 1, g, acc =>
    match g.verts.find? (fun v => !(g.edges.any (fun e => e.src == v)) &&
        g.edges.any (fun e => e.dst == v)) with
    | none => Res.ok acc
    | some v => do
      let acc ← takeEdges (inOrd (g.edges.filter (fun e => e.dst == v))) acc
      peel inOrd n { verts := g.verts.erase v, edges := g.edges.filter (fun e => !(e.dst == v)) } acc

/-- `rearrange` (remap_graph.h:164-236) -/
def rearrange (inOrd : List Move → List Move) (g : RGraph) (rs : List Move) : Res (List Move) := do
  let (old, new) ← peel inOrd g.verts.length g (rs, [])
  Res.ok (new ++ old)

end RGraph

/-- The collision check building the graph (tracker.h:512-563; with a geometric `ov` also
remap_old, tracker.h:756-803). -/
def buildRemapGraph (ov : Move → Move → Bool) (rs : List Move) : Res RGraph :=
  rs.foldlM (fun g ri => rs.foldlM (fun (g : RGraph) rj =>
    if ri ≠ rj ∧ ov ri rj = true ∧ ri.dst = rj.src then
      match rs.find? (fun a => a.grain == rj.grain) with
      | some re => Res.ok ((g.addRemapping ri).addRemapping re)
      | none => Res.exc .assertThrow
    else Res.ok g) g) ⟨[], []⟩

/-- one entry of the final sequence; `none` is temporary storage -/
structure Step where
  move : Move
  src : Option Nat
  dst : Option Nat
  deriving DecidableEq, Repr

def Step.plain (m : Move) : Step := ⟨m, some m.src, some m.dst⟩
def Step.toTemp (m : Move) : Step := ⟨m, some m.src, none⟩
def Step.fromTemp (m : Move) : Step := ⟨m, none, some m.dst⟩

/-- Externals: back edges of a depth first search, and the order in which in-edges are visited. -/
structure RemapExt where
  back : List Nat → List Move → List Move
  inOrd : List Move → List Move

/-- The sequence of remappings for one list of moves (tracker.h:501-586): `to_temp` entries are
inserted at the beginning, `from_temp` entries at the end, one pair after the other. -/
def planMoves (x : RemapExt) (ov : Move → Move → Bool) (rs : List Move) : Res (List Step) := do
  let g ← buildRemapGraph ov rs
  if g.verts = [] then Res.ok (rs.map Step.plain)
  else
    let (cut, rs', g') ← g.resolveCycles (x.back g.verts g.edges) rs
    let rs'' ← g'.rearrange x.inOrd rs'
    Res.ok (cut.foldl (fun seq m => Step.toTemp m :: (seq ++ [Step.fromTemp m]))
      (rs''.map Step.plain))

/-! ## moves at a cell -/

/-- `grain_id_to_remapping` (tracker.h:434-449) -/
def remapTable (grains : OMap (Grain P K)) : OMap Move :=
  grains.foldl (fun m p =>
    if p.2.op ≠ p.2.oldOp then m.emplace p.2.grainId ⟨p.2.grainId, p.2.oldOp, p.2.op⟩ else m) []

/-- `grains_at_cell` (tracker.h:471-488); `pids` holds for each order parameter the particle number at
the cell. The table lookup (tracker.h:1116-1123) is unchecked. -/
def grainsAtCell (lookup : Lookup) (pids : List (Option Nat)) : Res (List (Option Nat)) :=
  (pids.zipIdx).foldlM (fun acc x =>
    match x.1 with
    | none => Res.ok acc
    | some pid => do
      let row ← Res.index lookup x.2
      let e ← Res.index row pid
      Res.ok (acc ++ [e.1])) []

/-- the local remappings (tracker.h:500-508) -/
def localMoves (tbl : OMap Move) (gs : List (Option Nat)) : List Move :=
  gs.filterMap (fun g => g.bind tbl.get?)

/-! ## execution -/

/-- blocks × degrees of freedom -/
abbrev Fld (D K : Type) := Nat → D → K

/-- `set_dof_values` on one cell -/
def setVals [DecidableEq D] (dofs : List D) (b : Nat) (v : D → K) (f : Fld D K) : Fld D K :=
  fun b' d => if b' = b ∧ d ∈ dofs then v d else f b' d

/-- One entry of the sequence at one cell (tracker.h:604-644). `nb` is the number of blocks, `off` the
offset of the order parameters, `copy` the copied solution. -/
def runStep [DecidableEq D] [Zero K] (nb off : Nat) (dofs : List D) (copy : Fld D K)
    (s : Fld D K × List (D → K)) (re : Step) : Res (Fld D K × List (D → K)) := do
  let (vals, st) ← (match re.src with
    | some f => if f + off < nb then Res.ok (copy (f + off), s.2) else Res.ub
    | none => match s.2 with
      | v :: st => Res.ok (v, st)
      | [] => Res.ub : Res ((D → K) × List (D → K)))
  let (sol, st) ← (match re.dst with
    | some t => if t + off < nb then Res.ok (setVals dofs (t + off) vals s.1, st) else Res.ub
    | none => Res.ok (s.1, vals :: st) : Res (Fld D K × List (D → K)))
  match re.src with
  | some f => Res.ok (setVals dofs (f + off) (fun _ => 0) sol, st)
  | none => Res.ok (sol, st)

/-- the sequence at one cell, with its own stack (tracker.h:596-645) -/
def runCell [DecidableEq D] [Zero K] (nb off : Nat) (dofs : List D) (copy : Fld D K)
    (steps : List Step) (sol : Fld D K) : Res (Fld D K) := do
  let r ← steps.foldlM (runStep nb off dofs copy) (sol, [])
  Res.ok r.1

/-- a locally owned cell: its degrees of freedom and the particle numbers per order parameter -/
structure RCell (D : Type) where
  dofs : List D
  pids : List (Option Nat)

/-- `remappings_cache` (tracker.h:457-459) -/
abbrev RCache := List (List (Option Nat) × List Step)

/-- one cell of the main loop (tracker.h:468-645) -/
def remapCell [DecidableEq D] [Zero K] (x : RemapExt) (nb off : Nat) (tbl : OMap Move)
    (lookup : Lookup) (copy : Fld D K) (s : RCache × Fld D K) (c : RCell D) :
    Res (RCache × Fld D K) := do
  let gs ← grainsAtCell lookup c.pids
  if gs = [] then Res.ok s
  else
    match s.1.lookup gs with
    | some steps => do
      let sol ← runCell nb off c.dofs copy steps s.2
      Res.ok (s.1, sol)
    | none => do
      let steps ← planMoves x (fun _ _ => true) (localMoves tbl gs)
      let sol ← runCell nb off c.dofs copy steps s.2
      Res.ok ((gs, steps) :: s.1, sol)

/-- `remap_new` (tracker.h:425-649) for one solution vector (the loop over several vectors repeats the
same steps with an own copy each); result: number of remapped grains and the solution -/
def remapNew [DecidableEq D] [Zero K] (x : RemapExt) (nb off : Nat) (grains : OMap (Grain P K))
    (lookup : Lookup) (cells : List (RCell D)) (sol : Fld D K) : Res (Nat × Fld D K) := do
  let tbl := remapTable grains
  if tbl.length = 0 then Res.ok (0, sol)
  else
    let r ← cells.foldlM (remapCell x nb off tbl lookup sol) ([], sol)
    Res.ok (tbl.length, r.2)

/-! ## depth first search -/

/-- vertices still white are those neither on the stack nor finished -/
structure DfsState where
  gray : List Nat
  fin : List Nat
  back : List Move

/-- `depth_first_visit` recording back edges; `fuel` bounds the recursion depth -/
def dfsVisit (outOrd : List Move → List Move) (edges : List Move) : Nat → Nat → DfsState → DfsState
  | 0, _, s => s
  | fuel + 1, v, s =>
    let s' := (outOrd (edges.filter (fun e => e.src == v))).foldl (fun (s : DfsState) e =>
        if e.dst ∈ s.fin then s
        else if e.dst ∈ s.gray then { s with back := s.back ++ [e] }
        else dfsVisit outOrd edges fuel e.dst s) { s with gray := v :: s.gray }
    { s' with gray := s.gray, fin := s'.fin ++ [v] }

/-- the loop over the out-edges of a vertex -/
def dfsEdges (outOrd : List Move → List Move) (edges : List Move) (fuel : Nat) (l : List Move)
    (s : DfsState) : DfsState :=
  l.foldl (fun (s : DfsState) e =>
        if e.dst ∈ s.fin then s
        else if e.dst ∈ s.gray then { s with back := s.back ++ [e] }
        else dfsVisit outOrd edges fuel e.dst s) s

/-- `boost::depth_first_search` with the visitor `CycleDetector` (remap_graph.h:102-107, 275-290) -/
def dfsBack (outOrd : List Move → List Move) (verts : List Nat) (edges : List Move) : List Move :=
  (verts.foldl (fun s v => if v ∈ s.fin then s else dfsVisit outOrd edges (verts.length + 1) v s)
    ⟨[], [], []⟩).back

/-! ## contracts -/

/-- a strict ranking of the vertices along the edges: no directed cycles -/
def Ranked (edges : List Move) : Prop := ∃ rank : Nat → Nat, ∀ e ∈ edges, rank e.dst < rank e.src

/-- reachability along edges -/
inductive Reach (edges : List Move) : Nat → Nat → Prop
  | refl (v : Nat) : Reach edges v v
  | step {u : Nat} {e : Move} : Reach edges u e.src → e ∈ edges → Reach edges u e.dst

/-- what the cycle detection guarantees: the reported edges exist, are reported once, each lies on a
cycle, and without them the graph has no cycles -/
structure BackOk (es bs : List Move) : Prop where
  sub : ∀ e ∈ bs, e ∈ es
  nodup : bs.Nodup
  acyclic : Ranked (es.filter (fun e => !(decide (e ∈ bs))))
  cycle : ∀ e ∈ bs, Reach es e.dst e.src

def BackContract (back : List Nat → List Move → List Move) : Prop :=
  ∀ (vs : List Nat) (es : List Move), vs.Nodup → es.Nodup →
    (∀ e ∈ es, e.src ∈ vs ∧ e.dst ∈ vs) → BackOk es (back vs es)

structure RemapExt.Ok (x : RemapExt) : Prop where
  back : BackContract x.back
  inOrd : ∀ l, List.Perm (x.inOrd l) l

end Verif
