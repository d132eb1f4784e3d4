import Mathlib.Order.Defs.LinearOrder
import Mathlib.Algebra.Order.Ring.Defs
import Mathlib.Algebra.Order.Field.Basic
import Verif.Model.Res
/-!
# Distances of particles by growing fronts and direct neighbours

Models `run_flooding_prep` and `estimate_particle_distances`
(include/pf-applications/grain_tracker/distributed_stitching.h:527-1018), `get_direct_neighbors`
(distributed_stitching.h:1020-1149), the assembly of the distances in `Tracker::detect_grains`
(include/pf-applications/grain_tracker/tracker.h:1243-1251, 1366-1400) and
`RepresentationWavefront::distance_impl`, `save`
(include/pf-applications/grain_tracker/representation.h:313-400).

A mesh is seen through the accessors the code uses. Particle ids and markers are `double` with the invalid
value −1 in the code, here `Option Nat`; distances in numbers of cells are `double` holding integers, here
`Int`. Vectors are functions of the global index of an active cell; what a rank sees of the cells of the other
ranks is the copy made by `update_ghost_values`. Not modelled: the timer and the optional output of the two
vectors (distributed_stitching.h:993-1015).
-/
namespace Verif.Wavefront

/-- a child of a refined neighbour: its global index, `is_active()`, and whether one of its faces has the
cell as neighbour (`neighbor_of_child->id() == cell->id()`) -/
structure Child where
  cell : Nat
  active : Bool
  touches : Bool

/-- what is on the other side of a face -/
inductive Side where
  /-- `at_boundary(face)` -/
  | boundary
  /-- `neighbor(face)` without children, of the same level or coarser -/
  | active (c : Nat)
  /-- `neighbor(face)` with children; `leaves` are all its active descendants -/
  | refined (children : List Child) (leaves : List Nat)

/-- distributed mesh -/
structure WMesh where
  /-- active cells in the order of `active_cell_iterators` -/
  cells : List Nat
  sides : Nat → List Side
  level : Nat → Nat
  /-- `n_global_levels` -/
  levels : Nat
  owner : Nat → Nat
  ranks : Nat
  /-- `is_artificial` on a rank -/
  artificial : Nat → Nat → Bool

/-- active cells reached across a face: the neighbour itself or those children that have the cell as neighbour
(e.g. distributed_stitching.h:927-957) -/
def Side.contact : Side → List Nat
  | .boundary => []
  | .active n => [n]
  | .refined ch _ => (ch.filter fun x => x.active && x.touches).map Child.cell

/-- all cells reached across the faces -/
def nbrs (M : WMesh) (c : Nat) : List Nat := (M.sides c).flatMap Side.contact

/-- assignment of an entry of a vector -/
def upd {α : Type} (f : Nat → α) (c : Nat) (a : α) : Nat → α := fun x => if x = c then a else f x

/-- `agglomerations[k].push_back(c)` -/
def pushAt (a : List (List Nat)) (k c : Nat) : List (List Nat) := a.modify k (· ++ [c])

/-! ## Preparatory flooding -/

structure PrepState where
  marker : Nat → Option Nat
  aggl : List (List Nat)

/-- `agglomerations[agglomerations.size() - cell->level() - 1].push_back(*cell)`; levels are below
`n_global_levels` (contract of the mesh), so that the index is valid -/
def prepPush (M : WMesh) (c : Nat) (s : PrepState) : PrepState :=
  { s with aggl := pushAt s.aggl (s.aggl.length - M.level c - 1) c }

/-- treatment of one face in `run_flooding_prep` (distributed_stitching.h:572-632); `rec` is the recursive
call -/
def prepSide (M : WMesh) (pid : Nat → Option Nat) (r c : Nat)
    (rec : Nat → PrepState → Option PrepState) (s : PrepState) : Side → Option PrepState
  | .boundary => some s
  | .active n => if pid n = none then some (prepPush M c s) else rec n s
  | .refined ch leaves =>
    leaves.foldlM (fun s l => rec l s)
      ((ch.filter fun x => x.active && (M.owner x.cell == r) && (pid x.cell == none) && x.touches).foldl
        (fun s _ => prepPush M c s) s)

/-- `run_flooding_prep` (distributed_stitching.h:531-633) on rank `r`; `fuel` bounds the depth of the
recursion -/
def prep (M : WMesh) (pid : Nat → Option Nat) (r : Nat) : Nat → Nat → PrepState → Option PrepState
  | 0, _, _ => none
  | fuel + 1, c, s =>
    if M.owner c ≠ r then some s
    else match pid c with
      | none => some s
      | some p =>
        if (s.marker c).isSome then some s
        else (M.sides c).foldlM (prepSide M pid r c (prep M pid r fuel))
          { s with marker := upd s.marker c (some p) }

/-- the loop over the active cells on rank `r` (distributed_stitching.h:673-693) -/
def prepAll (M : WMesh) (pid : Nat → Option Nat) (fuel r : Nat) (marker : Nat → Option Nat) :
    Option PrepState :=
  M.cells.foldlM (fun s c => prep M pid r fuel c s) ⟨marker, List.replicate M.levels []⟩

/-! ## Growing fronts -/

/-- `std::map<std::pair<unsigned int, unsigned int>, double>`; the order of iteration is not observed -/
abbrev PMap (K : Type) := List ((Nat × Nat) × K)

def lookup {α : Type} : List ((Nat × Nat) × α) → Nat × Nat → Option α
  | [], _ => none
  | (k', v) :: m, k => if k' = k then some v else lookup m k

/-- insertion of the first value, afterwards the minimum (distributed_stitching.h:745-755, 981-990) -/
def record {K : Type} [LinearOrder K] : PMap K → Nat × Nat → K → PMap K
  | [], k, v => [(k, v)]
  | (k', v') :: m, k, v => if k' = k then (k', min v' v) :: m else (k', v') :: record m k v

/-- state of all ranks; `aggl r`, `cache r`, `found r` are `agglomerations`, `all_ghost_cells` and
`assessment_distances` of rank `r` -/
structure WState (K : Type) where
  marker : Nat → Option Nat
  dist : Nat → Int
  aggl : Nat → List (List Nat)
  cache : Nat → List (Nat × List Nat)
  found : Nat → PMap K

/-- `cell_weight` (distributed_stitching.h:696-698) -/
def weight (M : WMesh) (c : Nat) : Int := 2 ^ (M.levels - 1 - M.level c)

/-- key of a pair of particles (distributed_stitching.h:745-747) -/
def pairKey (p q : Nat) : Nat × Nat := (min p q, max p q)

section
variable {K : Type} [Field K] [LinearOrder K]

/-- a newly reached cell: distance, marker, and the front it belongs to -/
def colour (M : WMesh) (r : Nat) (s : WState K) (n : Nat) (m : Option Nat) (d : Int) : WState K :=
  { s with
    marker := upd s.marker n m
    dist := upd s.dist n d
    aggl := upd s.aggl r (pushAt (s.aggl r) (M.levels - 1 - M.level n) n) }

/-- `handle_cells` (distributed_stitching.h:712-756); a cell in a front has a marker, the last case does not
occur -/
def handle (M : WMesh) (h : K) (r c : Nat) (s : WState K) (n : Nat) : WState K :=
  match s.marker n, s.marker c with
  | none, m => colour M r s n m (s.dist c + weight M n)
  | some q, some p =>
    if q ≠ p then
      let m := record (s.found r) (pairKey p q) (h * ((s.dist c + s.dist n : Int) : K))
      { s with found := upd s.found r m }
    else s
  | some _, none => s

/-- one cell of the front: all locally owned cells across its faces (distributed_stitching.h:921-957) -/
def processCell (M : WMesh) (h : K) (r : Nat) (s : WState K) (c : Nat) : WState K :=
  ((nbrs M c).filter fun n => M.owner n == r).foldl (handle M h r c) s

/-- a local cell next to a ghost cell that has been reached (distributed_stitching.h:886-912); `p`, `d` are
marker and distance of the ghost cell -/
def fromGhost (M : WMesh) (r : Nat) (p : Option Nat) (d : Int) (s : WState K) (l : Nat) : WState K :=
  if s.marker l = none then colour M r s l p (d + weight M l) else s

/-- one entry of the list of ghost cells (distributed_stitching.h:879-919); `m0`, `d0` are the ghost values -/
def ghostStep (M : WMesh) (r : Nat) (m0 : Nat → Option Nat) (d0 : Nat → Int) (s : WState K)
    (e : Nat × List Nat) : WState K :=
  if m0 e.1 = none then s else e.2.foldl (fromGhost M r (m0 e.1) (d0 e.1)) s

/-- one pass of the `while` loop on rank `r` (distributed_stitching.h:860-958): take the first front, add an
empty one, transfer from ghost cells and forget those used, process the front -/
def rankRound (M : WMesh) (h : K) (m0 : Nat → Option Nat) (d0 : Nat → Int) (s : WState K) (r : Nat) :
    WState K :=
  let s1 : WState K := { s with aggl := upd s.aggl r ((s.aggl r).tail ++ [[]]) }
  let s2 := (s.cache r).foldl (ghostStep M r m0 d0) s1
  let s3 : WState K := { s2 with cache := upd s2.cache r ((s.cache r).filter fun e => m0 e.1 == none) }
  ((s.aggl r).headD []).foldl (processCell M h r) s3

/-- one pass of the `while` loop on all ranks. Ghost values are updated at the beginning of the pass if some
rank still has ghost cells in its list, otherwise they are not read. A rank writes only its own cells, so that
the ranks can be taken one after the other. -/
def round (M : WMesh) (h : K) (s : WState K) : WState K :=
  (List.range M.ranks).foldl (rankRound M h s.marker s.dist) s

/-- `check_agglomerations` (distributed_stitching.h:825-835) -/
def anyFront (M : WMesh) (s : WState K) : Bool :=
  (List.range M.ranks).any fun r => (s.aggl r).any fun a => !a.isEmpty

/-- the `while` loop (distributed_stitching.h:857-961) -/
def loop (M : WMesh) (h : K) : Nat → WState K → Option (WState K)
  | 0, s => if anyFront M s then none else some s
  | fuel + 1, s => if anyFront M s then loop M h fuel (round M h s) else some s

/-- locally owned cells without marker next to a ghost cell (distributed_stitching.h:777-822) -/
def ghostEntry (M : WMesh) (marker : Nat → Option Nat) (r c : Nat) : Nat × List Nat :=
  (c, (nbrs M c).filter fun n => (M.owner n == r) && (marker n == none))

/-- `all_ghost_cells` of rank `r` -/
def ghostCache (M : WMesh) (marker : Nat → Option Nat) (r : Nat) : List (Nat × List Nat) :=
  ((M.cells.filter fun c => (M.owner c != r) && !M.artificial r c).map (ghostEntry M marker r)).filter
    fun e => !e.2.isEmpty

/-- preparatory flooding on all ranks; every rank writes the markers of its own cells only -/
def prepRanks (M : WMesh) (pid : Nat → Option Nat) (fuel : Nat) :
    Option ((Nat → Option Nat) × (Nat → List (List Nat))) :=
  (List.range M.ranks).foldlM (fun s r => do
    let t ← prepAll M pid fuel r s.1
    pure (t.marker, upd s.2 r t.aggl)) ((fun _ => none), (fun _ => []))

/-- distances at the beginning (distributed_stitching.h:700-705): invalid (−1) except for the cells of the
first fronts -/
def startDist (M : WMesh) (aggl : Nat → List (List Nat)) (c : Nat) : Int :=
  if (aggl (M.owner c)).any (fun a => a.contains c) then weight M c - 1 else -1

/-- state before the loop -/
def startState (M : WMesh) (marker : Nat → Option Nat) (aggl : Nat → List (List Nat)) : WState K :=
  ⟨marker, startDist M aggl, aggl, ghostCache M marker, fun _ => []⟩

/-- conversion of a map to a vector (distributed_stitching.h:967-974) -/
def flatten (m : PMap K) : List K := m.flatMap fun e => [(e.1.1 : K), (e.1.2 : K), e.2]

/-- a gathered vector is merged into the map (distributed_stitching.h:981-991); `toU` is
`static_cast<unsigned int>` -/
def mergeFlat (toU : K → Nat) : PMap K → List K → Res (PMap K)
  | m, [] => .ok m
  | m, a :: b :: d :: t => mergeFlat toU (record m (toU a, toU b) d) t
  | _, _ => .ub

/-- `estimate_particle_distances`; `h` is `h_cell`. `none` means that a bound on the recursion was hit. -/
def estimate (M : WMesh) (toU : K → Nat) (h : K) (pid : Nat → Option Nat) (fuel : Nat) :
    Option (Res (PMap K)) := do
  let (marker, aggl) ← prepRanks M pid fuel
  let s ← loop M h fuel (startState M marker aggl)
  pure (((List.range M.ranks).map fun r => flatten (s.found r)).foldlM (mergeFlat toU) [])

end

/-! ## Direct neighbours -/

/-- (order parameter, particle id) -/
abbrev Part := Nat × Nat

/-- `std::map<Part, std::set<Part>>`; the order of iteration is not observed -/
abbrev NMap := List (Part × List Part)

/-- `neighbors[a].insert(b)` -/
def insertN : NMap → Part → Part → NMap
  | [], a, b => [(a, [b])]
  | (k, l) :: m, a, b => if k = a then (k, if b ∈ l then l else l ++ [b]) :: m else (k, l) :: insertN m a b

/-- `add_neighbors` (distributed_stitching.h:1036-1041) -/
def addNeighbors (m : NMap) (a b : Part) : NMap := insertN (insertN m a b) b a

/-- active cells examined across a face (distributed_stitching.h:1072-1107): all active children of a refined
neighbour that are not artificial, whether or not they share the face -/
def Side.examined (M : WMesh) (r : Nat) : Side → List Nat
  | .boundary => []
  | .active n => [n]
  | .refined ch _ => (ch.filter fun x => x.active && !M.artificial r x.cell).map Child.cell

/-- add the particle of order parameter `j` at cell `x`, if any -/
def addAt (ids : Nat → Nat → Option Nat) (a : Part) (j : Nat) (m : NMap) (x : Nat) : NMap :=
  match ids j x with
  | none => m
  | some q => addNeighbors m a (j, q)

/-- the loop over the second order parameter `j` (distributed_stitching.h:1057-1109) -/
def addPair (M : WMesh) (ids : Nat → Nat → Option Nat) (r c : Nat) (a : Part) (m : NMap) (j : Nat) : NMap :=
  (c :: (M.sides c).flatMap (Side.examined M r)).foldl (addAt ids a j) m

/-- the loop over the first order parameter `i` (distributed_stitching.h:1047-1110) -/
def addBlock (M : WMesh) (nOp : Nat) (ids : Nat → Nat → Option Nat) (r c : Nat) (m : NMap) (i : Nat) : NMap :=
  match ids i c with
  | none => m
  | some p => ((List.range nOp).filter fun j => i < j).foldl (addPair M ids r c (i, p)) m

/-- neighbours found on rank `r` (distributed_stitching.h:1043-1110); ghost values of `particle_ids` are up to
date (distributed_stitching.h:210) -/
def localNeighbors (M : WMesh) (nOp : Nat) (ids : Nat → Nat → Option Nat) (r : Nat) : NMap :=
  (M.cells.filter fun c => M.owner c == r).foldl
    (fun m c => (List.range nOp).foldl (addBlock M nOp ids r c) m) []

/-- (distributed_stitching.h:1113-1125) -/
def encode (m : NMap) : List Nat :=
  m.flatMap fun e => e.1.1 :: e.1.2 :: e.2.length :: e.2.flatMap fun b => [b.1, b.2]

/-- `emplace` with an empty set: nothing if the key exists -/
def emplaceN : NMap → Part → NMap
  | [], a => [(a, [])]
  | (k, l) :: m, a => if k = a then (k, l) :: m else (k, l) :: emplaceN m a

/-- `n` pairs are read and inserted (distributed_stitching.h:1140-1144); reading behind the end is undefined -/
def readPairs (a : Part) : Nat → NMap → List Nat → Res (NMap × List Nat)
  | 0, m, l => .ok (m, l)
  | n + 1, m, x :: y :: l => readPairs a n (insertN m a (x, y)) l
  | _ + 1, _, _ => .ub

/-- (distributed_stitching.h:1132-1147); `fuel` bounds the number of records -/
def decode : Nat → NMap → List Nat → Res NMap
  | _, m, [] => .ok m
  | fuel + 1, m, x :: y :: n :: l =>
    match readPairs (x, y) n (emplaceN m (x, y)) l with
    | .ok (m', l') => decode fuel m' l'
    | .exc e => .exc e
    | .ub => .ub
  | _, _, _ => .ub

/-- `get_direct_neighbors` -/
def directNeighbors (M : WMesh) (nOp : Nat) (ids : Nat → Nat → Option Nat) : Res NMap :=
  (List.range M.ranks).foldlM (fun m r =>
    let l := encode (localNeighbors M nOp ids r)
    decode l.length m l) []

/-! ## Representation of the particles -/

section
variable {K : Type} [Field K] [LinearOrder K]

/-- `std::map::emplace`: nothing if the key exists -/
def emplaceP {α : Type} : List ((Nat × Nat) × α) → Nat × Nat → α → List ((Nat × Nat) × α)
  | [], k, v => [(k, v)]
  | (k', v') :: m, k, v => if k' = k then (k', v') :: m else (k', v') :: emplaceP m k v

/-- `particle_distances[i].emplace(key, v)`, undefined behind the end -/
def putAt (l : List (PMap K)) (i : Nat) (k : Nat × Nat) (v : K) : Res (List (PMap K)) :=
  if i < l.length then .ok (l.modify i fun m => emplaceP m k v) else .ub

/-- both directions of an estimated distance (tracker.h:1385-1393) -/
def putBoth (op : Nat) (l : List (PMap K)) (e : (Nat × Nat) × K) : Res (List (PMap K)) := do
  let l ← putAt l e.1.1 (op, e.1.2) e.2
  putAt l e.1.2 (op, e.1.1) e.2

/-- direct neighbours of particles of order parameter `op` (tracker.h:1394-1399) -/
def putDirect (op : Nat) (l : List (PMap K)) (e : Part × List Part) : Res (List (PMap K)) :=
  if e.1.1 = op then e.2.foldlM (fun l b => putAt l e.1.2 b 0) l else .ok l

/-- `particle_distances` of order parameter `op` (tracker.h:1366-1400) -/
def buildDistances (op n : Nat) (est : PMap K) (dn : NMap) : Res (List (PMap K)) := do
  let l ← est.foldlM (putBoth op) (List.replicate n [])
  dn.foldlM (putDirect op) l

/-- `RepresentationWavefront` (without the centre) -/
structure Rep (K : Type) where
  key : Part
  distances : PMap K

/-- `distance_impl` (representation.h:330-337); `big` is `numeric_limits<double>::max()` -/
def Rep.distance (big : K) (a b : Rep K) : K := (lookup a.distances b.key).getD big

/-- the offset in `save` (representation.h:378-392) -/
def Rep.offset (big : K) (a : Rep K) : K :=
  (a.distances.foldl (fun m e => if e.1.1 = a.key.1 ∧ e.2 < m then e.2 else m) big) / 2

end
end Verif.Wavefront
