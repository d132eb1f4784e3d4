/-
Restart files:
  include/pf-applications/base/solution_serialization.h (vectors)
  include/pf-applications/grain_tracker/{grain,segment,representation,ellipsoid}.h, tracker.h (grains), inst.cc

Simplifications: a file is a partial map from positions to values; `MPI_Exscan` leaves the zero on rank 0; values missing in
the file leave the zero of the freshly allocated buffer.  A boost archive is a list of numbers; class names of
polymorphic pointers are numbers.
-/
import Verif.Model.Res
import Verif.Model.OMap
import Mathlib.Algebra.Group.Defs

namespace Verif.Serialize

/-! ### Order of the dofs -/

/-- A cell of the mesh hierarchy: active with its owner flag and the global dofs, or refined. -/
inductive Cell
  | active (owned : Bool) (dofs : List Nat)
  | refined (children : List Cell)

/-- State of the recursion: `mask` and `result`. -/
structure MapState where
  mask : List Bool
  result : List Nat
  deriving DecidableEq, Repr

/-- solution_serialization.h:104-118: dofs of a cell; `loc` is `is_element` and `index_within_set`. -/
def visitDofs (loc : Nat → Option Nat) : List Nat → MapState → Res MapState
  | [], s => .ok s
  | d :: ds, s =>
    match loc d with
    | none => visitDofs loc ds s
    | some i => do
      let b ← Res.index s.mask i
      if b then visitDofs loc ds s
      else visitDofs loc ds { mask := s.mask.set i true, result := s.result ++ [i] }

mutual
/-- solution_serialization.h:87-130 `visit_cells_recursevely` -/
def visit (loc : Nat → Option Nat) : Cell → MapState → Res MapState
  | .active owned dofs, s => if owned then visitDofs loc dofs s else .ok s
  | .refined cs, s => visitList loc cs s
def visitList (loc : Nat → Option Nat) : List Cell → MapState → Res MapState
  | [], s => .ok s
  | c :: cs, s => do
    let s ← visit loc c s
    visitList loc cs s
end

/-- solution_serialization.h:132-150 `create_unique_dof_map`; `n` is the number of locally owned dofs. -/
def dofMap (loc : Nat → Option Nat) (n : Nat) (cells : List Cell) : Res (List Nat) := do
  let s ← visitList loc cells ⟨List.replicate n false, []⟩
  Res.assertThrow (s.result.length = n)
  .ok s.result

/-! ### Writing and reading vectors -/

section
variable {K : Type}

/-- Content of a file. -/
abbrev File (K : Type) := Nat → Option K

/-- `MPI_File_write_all` of one rank at its displacement. -/
def File.write (f : File K) (off : Nat) (data : List K) : File K :=
  fun i => if off ≤ i ∧ i < off + data.length then data[i - off]? else f i

/-- `MPI_File_read_all` of one rank into a zero buffer. -/
def File.read [Zero K] (f : File K) (off n : Nat) : List K := (List.range n).map fun i => (f (off + i)).getD 0

/-- solution_serialization.h:52-66: values of a rank in the order of the file. -/
def collect (map : List Nat) (vecs : List (List K)) : Res (List K) := do
  let parts ← vecs.mapM fun v => map.mapM fun i => Res.index v i
  .ok parts.flatten

/-- solution_serialization.h:79-82: one vector. -/
def scatterOne : List Nat → List K → List K → Res (List K)
  | [], _, v => .ok v
  | i :: is, t, v =>
    match t with
    | [] => .ub
    | x :: t => if i < v.length then scatterOne is t (v.set i x) else .ub

/-- solution_serialization.h:78-82: all vectors, `n` values each. -/
def scatter (map : List Nat) (n : Nat) : List K → List (List K) → Res (List (List K))
  | _, [] => .ok []
  | temp, v :: vs => do
    let w ← scatterOne map (temp.take n) v
    let ws ← scatter map n (temp.drop n) vs
    .ok (w :: ws)

/-- A rank: its dof order and its vectors (local values). -/
structure Rank (K : Type) where
  map : List Nat
  vecs : List (List K)
  deriving DecidableEq, Repr

/-- solution_serialization.h:156-168: displacement of rank `r`, from the local sizes of the ranks before. -/
def offset (sizes : List Nat) (r : Nat) : Nat := (sizes.take r).sum

/-- solution_serialization.h:52-69 `save` on all ranks; the ranks write in the given order. -/
def save (ranks : List (Rank K)) (order : List Nat) (f : File K) : Res (File K) := do
  let temps ← ranks.mapM fun r => collect r.map r.vecs
  .ok (order.foldl (fun f r => f.write (offset (temps.map List.length) r) (temps.getD r [])) f)

/-- solution_serialization.h:71-83 `load` on all ranks, overwriting the vectors. -/
def load [Zero K] (ranks : List (Rank K)) (f : File K) : Res (List (List (List K))) :=
  let sizes := ranks.map fun r => r.map.length * r.vecs.length
  (List.range ranks.length).mapM fun i => do
    let r ← Res.index ranks i
    let temp := f.read (offset sizes i) (r.map.length * r.vecs.length)
    scatter r.map r.map.length temp r.vecs
end

/-! ### Grains -/

/-- ellipsoid.h:280-303 -/
structure Ellipsoid (K : Type) where
  A : List K
  b : List K
  alpha : K
  norm : K
  radii : List K
  rMin : K
  rMax : K
  axes : List (List K)
  center : List K
  deriving DecidableEq, Repr

/-- representation.h: the object behind the pointer of a segment. -/
inductive Repres (K : Type)
  | spherical (center : List K) (radius : K)
  | elliptical (e : Ellipsoid K)
  | wavefront (op index : Nat) (center : List K) (distances : List ((Nat × Nat) × K))
  deriving DecidableEq, Repr

/-- segment.h:133-139 -/
structure Seg (K : Type) where
  center : List K
  radius : K
  measure : K
  maxValue : K
  repr : Option (Repres K)
  deriving DecidableEq, Repr

/-- grain.h:351-368; `dynamics` as number. -/
structure SGrain (K : Type) where
  grainId : Nat
  op : Nat
  oldOp : Nat
  segments : List (Seg K)
  maxRadius : K
  nearest : K
  dynamics : Nat
  maxValue : K
  sumMeasure : K
  deriving DecidableEq, Repr

/-- Element of an archive. -/
inductive Tok (K : Type)
  | nat (n : Nat)
  | num (x : K)
  deriving DecidableEq, Repr

section
variable {K : Type}

/-- Reader of an archive. -/
abbrev Reader (K α : Type) := List (Tok K) → Res (α × List (Tok K))

def readNat : Reader K Nat
  | .nat n :: t => .ok (n, t)
  | _ => .exc .archive

def readNum : Reader K K
  | .num x :: t => .ok (x, t)
  | _ => .exc .archive

/-- `n` elements. -/
def readMany {α : Type} (rd : Reader K α) : Nat → Reader K (List α)
  | 0, t => .ok ([], t)
  | n + 1, t => do
    let (x, t) ← rd t
    let (xs, t) ← readMany rd n t
    .ok (x :: xs, t)

/-- Points and tensors: a fixed number of values. -/
def putNums (l : List K) : List (Tok K) := l.map .num

/-- Tags of the classes exported in inst.cc:63-66; 0 is the null pointer. -/
def putRepr : Option (Repres K) → Res (List (Tok K))
  | none => .ok [.nat 0]
  | some (.spherical c r) => .ok (.nat 1 :: putNums c ++ [.num r])
  | some (.elliptical e) =>
    -- ellipsoid.h:194-207: `axes` is missing
    .ok (.nat 2 :: putNums e.A ++ putNums e.b ++ [.num e.alpha, .num e.norm] ++ putNums e.radii ++
      [.num e.rMin, .num e.rMax] ++ putNums e.center)
  | some (.wavefront ..) =>
    -- not exported in inst.cc: boost throws unregistered_class
    .exc .archive

/-- Loading into a new object: representation.h:136-143, 231-237; a default constructed `Point` is zero. -/
def getRepr [Zero K] (dim : Nat) : Reader K (Option (Repres K)) := fun t => do
  let (tag, t) ← readNat t
  if tag = 0 then .ok (none, t)
  else if tag = 1 then do
    let (c, t) ← readMany readNum dim t
    let (r, t) ← readNum t
    .ok (some (.spherical c r), t)
  else if tag = 2 then do
    let (A, t) ← readMany readNum (dim * dim) t
    let (b, t) ← readMany readNum dim t
    let (alpha, t) ← readNum t
    let (norm, t) ← readNum t
    let (radii, t) ← readMany readNum dim t
    let (rMin, t) ← readNum t
    let (rMax, t) ← readNum t
    let (center, t) ← readMany readNum dim t
    .ok (some (.elliptical ⟨A, b, alpha, norm, radii, rMin, rMax, List.replicate dim (List.replicate dim 0), center⟩), t)
  else .exc .archive

/-- segment.h:121-130 -/
def putSeg (s : Seg K) : Res (List (Tok K)) := do
  let r ← putRepr s.repr
  .ok (putNums s.center ++ [.num s.radius, .num s.measure, .num s.maxValue] ++ r)

def getSeg [Zero K] (dim : Nat) : Reader K (Seg K) := fun t => do
  let (c, t) ← readMany readNum dim t
  let (r, t) ← readNum t
  let (m, t) ← readNum t
  let (mv, t) ← readNum t
  let (rep, t) ← getRepr dim t
  .ok (⟨c, r, m, mv, rep⟩, t)

/-- A `std::vector`: the number of elements and the elements. -/
def putList {α : Type} (put : α → Res (List (Tok K))) (l : List α) : Res (List (Tok K)) := do
  let ts ← l.mapM put
  .ok (.nat l.length :: ts.flatten)

def getList {α : Type} (get : Reader K α) : Reader K (List α) := fun t => do
  let (n, t) ← readNat t
  readMany get n t

/-- grain.h:336-349 -/
def putGrain (g : SGrain K) : Res (List (Tok K)) := do
  let s ← putList putSeg g.segments
  .ok ([.nat g.grainId, .nat g.op, .nat g.oldOp] ++ s ++ [.num g.maxRadius, .num g.nearest, .nat g.dynamics,
    .num g.maxValue, .num g.sumMeasure])

def getGrain [Zero K] (dim : Nat) : Reader K (SGrain K) := fun t => do
  let (id, t) ← readNat t
  let (op, t) ← readNat t
  let (oldOp, t) ← readNat t
  let (segs, t) ← getList (getSeg dim) t
  let (mr, t) ← readNum t
  let (nn, t) ← readNum t
  let (dy, t) ← readNat t
  let (mv, t) ← readNum t
  let (sm, t) ← readNum t
  .ok (⟨id, op, oldOp, segs, mr, nn, dy, mv, sm⟩, t)

/-- tracker.h:1030-1036 `save_grains` and driver.h:2612-2617. -/
def saveGrains (grains : OMap (SGrain K)) : Res (List (Tok K)) := putList putGrain (grains.map Prod.snd)

/-- driver.h:343-347 and tracker.h:1022-1028 `load_grains`. -/
def loadGrains [Zero K] (dim : Nat) (grains : OMap (SGrain K)) (t : List (Tok K)) : Res (OMap (SGrain K)) := do
  let (gs, _) ← getList (getGrain dim) t
  .ok (gs.foldl (fun m g => m.emplace g.grainId g) grains)
end

end Verif.Serialize
