/-
Reading of polygonal microstructures:
  applications/sintering/include/pf-applications/sintering/initial_values_microstructure_imaging.h
  applications/sintering/include/pf-applications/sintering/initial_values_microstructure_voronoi.h
  applications/sintering/include/pf-applications/sintering/initial_values_microstructure.h:318-361

Simplifications: `std::stoi` and `std::stod` are parameters that fail with `std::invalid_argument`; `reserve` has no effect. The stream of the
Voronoi reader is a list of tokens separated by white space; a number with a fraction read as an `unsigned int` fails (the code would take its
integer part and go on with the fraction). Numbers are exact.
-/
import Verif.Model.Microstructure
import Verif.Model.OMap
import Verif.Model.Reassign

namespace Verif.Readers

open Verif.Initial Verif.Micro

/-- initial_values_microstructure.h:144-240: a grain. -/
structure MGrain (K : Type) where
  color : Nat
  segments : List (MicroSegment K)
  deriving DecidableEq, Repr

/-- initial_values_microstructure.h:358-361: the data of the class. -/
structure Structure (K : Type) where
  grains : List (MGrain K)
  ops : OMap (List Nat)
  deriving DecidableEq, Repr

/-- `m[k].push_back(i)`, also `find`, `try_emplace` and `add_segment` (voronoi.h:115-122). -/
def pushAt {α : Type} (m : OMap (List α)) (k : Nat) (i : α) : OMap (List α) := m.set k ((m.get? k).getD [] ++ [i])

/-- initial_values_microstructure.h:341-345 `n_order_parameters` -/
def Structure.nOrderParameters {K : Type} (s : Structure K) : Nat := s.ops.length

/-- initial_values_microstructure.h:271-277: the grains of an order parameter, `at` twice. -/
def Structure.grainsOf {K : Type} (s : Structure K) (op : Nat) : Res (List (MGrain K)) :=
  match s.ops.get? op with
  | none => .exc .outOfRange
  | some l => l.mapM fun g => match s.grains[g]? with
    | none => .exc .outOfRange
    | some x => .ok x

section
variable {K : Type} [Field K] [LinearOrder K]

/-- initial_values_microstructure.h:199-212 `bounding_box`, corners; a grain without segments is undefined. -/
def MGrain.box (g : MGrain K) : Res ((K × K) × (K × K)) :=
  match g.segments with
  | [] => .ub
  | s :: ss => .ok (ss.foldl (fun b t => ((min b.1.1 t.lo.1, min b.1.2 t.lo.2), (max b.2.1 t.hi.1, max b.2.2 t.hi.2))) (s.lo, s.hi))

/-- initial_values_microstructure.h:320-338 `get_domain_boundaries`; `big` is the largest number. -/
def Structure.domain (big : K) (s : Structure K) : Res ((K × K) × (K × K)) :=
  s.grains.foldlM (fun b g => do
    let t ← g.box
    .ok ((min b.1.1 t.1.1, min b.1.2 t.1.2), (max b.2.1 t.2.1, max b.2.2 t.2.2))) ((big, big), (-big, -big))

/-! ### Imaging -/

/-- Conversion of `int` to `unsigned int`. -/
def wrap (z : Int) : Nat := (z % 2 ^ 32).toNat

section
variable (stoi : List Char → Option Int) (stod : List Char → Option K) (w : K) (d : Direction)

/-- `std::stoi(std::string(row[i]))` -/
def intColumn (r : Csv.Row) (i : Nat) : Res Int := do
  let f ← r.field i
  match stoi f with
  | some x => .ok x
  | none => .exc .invalidArgument

/-- initial_values_microstructure_imaging.h:72-77: fields `i`, ..., `i + n - 1` of the second row. -/
def colours (r : Csv.Row) : Nat → Nat → Structure K → Res (Structure K)
  | _, 0, s => .ok s
  | i, n + 1, s => do
    let c ← intColumn stoi r i
    colours r (i + 1) n ⟨s.grains ++ [⟨wrap c, []⟩], pushAt s.ops (wrap c) i⟩

/-- initial_values_microstructure_imaging.h:81-86: `n` passes of the loop from field `i` on. The order in which the two arguments are evaluated is
not specified; here the second goes first. -/
def contour (r : Csv.Row) : Nat → Nat → Res (List (K × K))
  | _, 0 => .ok []
  | i, n + 1 => do
    let y ← Csv.column stod r (i + 1)
    let x ← Csv.column stod r i
    let l ← contour r (i + 2) n
    .ok ((x, y) :: l)

/-- initial_values_microstructure_imaging.h:61-95: row number `k`. -/
def imagingRow (k : Nat) (r : Csv.Row) (s : Structure K) : Res (Structure K) :=
  match k with
  | 0 => do
    let _ ← intColumn stoi r 0
    .ok s
  | 1 => colours stoi r 0 r.size s
  | k + 2 => do
    let vs ← contour stod r 0 ((r.size + 1) / 2)
    let seg ← mkSegment w d vs
    match s.grains[k]? with
    | none => .ub
    | some g => .ok ⟨s.grains.set k ⟨g.color, g.segments ++ [seg]⟩, s.ops⟩

/-- initial_values_microstructure_imaging.h:58-96: all rows from number `k` on. -/
def imagingRows : Nat → List Csv.Row → Structure K → Res (Structure K)
  | _, [], s => .ok s
  | k, r :: rs, s => do
    let s' ← imagingRow stoi stod w d k r s
    imagingRows (k + 1) rs s'

/-- initial_values_microstructure_imaging.h:42-97: the constructor. -/
def readImaging (text : List Char) : Res (Structure K) :=
  imagingRows stoi stod w d 0 (Csv.rows (text.length + 1) text) ⟨[], []⟩

end

/-! ### Voronoi -/

/-- Tokens of a stream. -/
inductive Tok (K : Type) where
  | nat (n : Nat)
  | num (x : K)
  | bad
  deriving DecidableEq

/-- A stream: what is left and whether reading failed before. -/
structure Stream (K : Type) where
  toks : List (Tok K)
  failed : Bool

/-- `stream >> x` for `unsigned int`; after a failure and at the end `x` keeps its value, if there is no number it becomes zero. -/
def readU (old : Nat) (s : Stream K) : Nat × Stream K :=
  if s.failed then (old, s)
  else match s.toks with
    | [] => (old, ⟨[], true⟩)
    | .nat n :: l => (n, ⟨l, false⟩)
    | t :: l => (0, ⟨t :: l, true⟩)

/-- `stream >> x` for `double`. -/
def readD (old : K) (s : Stream K) : K × Stream K :=
  if s.failed then (old, s)
  else match s.toks with
    | [] => (old, ⟨[], true⟩)
    | .nat n :: l => ((n : K), ⟨l, false⟩)
    | .num x :: l => (x, ⟨l, false⟩)
    | t :: l => (0, ⟨t :: l, true⟩)

/-- initial_values_microstructure_voronoi.h:59-76: `n` points. -/
def readPoints : Nat → OMap (K × K) → Stream K → OMap (K × K) × Stream K
  | 0, ps, s => (ps, s)
  | n + 1, ps, s =>
    let (id, s) := readU 0 s
    let (x, s) := readD 0 s
    let (y, s) := readD x s
    readPoints n (ps.emplace id (x, y)) s

/-- initial_values_microstructure_voronoi.h:89-101: `n` vertices of a segment; `id` is the last number read. -/
def readVertices (ps : OMap (K × K)) : Nat → Nat → Stream K → Res (List (Nat × (K × K)) × Stream K)
  | 0, _, s => .ok ([], s)
  | n + 1, id, s =>
    let (id, s) := readU id s
    if 0 < id then
      match ps.get? id with
      | none => .exc .outOfRange
      | some p => do
        let (l, s) ← readVertices ps n id s
        .ok ((id, p) :: l, s)
    else readVertices ps n id s

/-- What the loop over the segments builds: pairs of a vertex and a grain at it (`connectivity`), and the segments of the grains. -/
structure Seen (K : Type) where
  conn : List (Nat × Nat)
  grains : OMap (List (MicroSegment K))

/-- initial_values_microstructure_voronoi.h:83-123: `n` segments. -/
def readSegments (w : K) (d : Direction) (ps : OMap (K × K)) (maxV : Nat) : Nat → Seen K → Stream K → Res (Seen K × Stream K)
  | 0, a, s => .ok (a, s)
  | n + 1, a, s => do
    let (_, s) := readU 0 s
    let (vs, s) ← readVertices ps maxV 0 s
    let seg ← mkSegment w d (vs.map (·.2))
    let (g, s) := readU 0 s
    readSegments w d ps maxV n
      ⟨a.conn ++ vs.map (fun v => (v.1, g)), pushAt a.grains g seg⟩ s

/-- initial_values_microstructure_voronoi.h:134-147: row `i` of the pattern (its diagonal is always there); `ids` are the old numbers of the
grains. -/
def patternRow (conn : List (Nat × Nat)) (ids : List Nat) (i : Nat) : List Nat :=
  if ids.length ≤ i then []
  else (List.range ids.length).filter fun j => decide (i = j) || conn.any fun a => conn.any fun b =>
    decide (a.1 = b.1) && decide (a.2 ≠ b.2) && decide (ids[i]? = some a.2) && decide (ids[j]? = some b.2)

/-- initial_values_microstructure_voronoi.h:41-152: the constructor. `order` is the order in which `unordered_map` gives its keys, `color` is
`color_sparsity_pattern`. -/
def readVoronoi (w : K) (d : Direction) (order : List Nat → List Nat) (color : Nat → (Nat → List Nat) → List Nat × Nat)
    (toks : List (Tok K)) : Res (Structure K) := do
  let (nPoints, s) := readU 0 (⟨toks, false⟩ : Stream K)
  let (maxV, s) := readU 0 s
  let (nSegments, s) := readU 0 s
  let (ps, s) := readPoints nPoints [] s
  let (a, _) ← readSegments w d ps maxV nSegments ⟨[], []⟩ s
  let ids := order a.grains.keys
  let cs := (color ids.length (patternRow a.conn ids)).1
  .ok ⟨ids.map (fun g => ⟨2 ^ 32 - 1, (a.grains.get? g).getD []⟩),
    (List.range ids.length).foldl (fun m i => pushAt m (cs.getD i 0 - 1) i) []⟩

end

end Verif.Readers
