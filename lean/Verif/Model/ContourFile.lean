import Verif.Model.Res
import Mathlib.Algebra.Order.Field.Basic
/-!
# Files with contours of grains

Models `output_grain_contours` and `write_grain_contours_tex`
(applications/sintering/include/pf-applications/sintering/postprocessors.h:306-425, 545-630), `save` of the
representations of grains (include/pf-applications/grain_tracker/representation.h:145-156, 239-258, 350-370), the
writer for sections `output_grain_contours_projected` (projection.h:249-383) and the reader of the files
(applications/sintering/scripts/build_tex_packings.py:202-260).

A file is a list of characters. Printing and parsing of single numbers are parameters; `operator<<` prints six
significant digits, so that the number read back is a rounded one. Numbers are elements of an ordered field. The
marching cubes algorithm and the queries of the grain tracker are parameters. Failures of MPI are not modelled.
-/
namespace Verif.ContourFile

/-- printing of numbers by a stream, parsing by `int` and `float` of Python, `int` of a float -/
structure Fmt (K : Type) where
  showNat : Nat → List Char
  readNat : List Char → Option Nat
  showNum : K → List Char
  readNum : List Char → Option K
  trunc : K → Int

/-- the representations of a segment (representation.h:104-372) -/
inductive Shape (dim : Nat) (K : Type)
  | sphere (center : Fin dim → K) (radius : K)
  | ellipse (center : Fin dim → K) (axes : Fin dim → Fin dim → K) (radii : Fin dim → K)
  | front (self : Nat × Nat) (center : Fin dim → K) (distances : List ((Nat × Nat) × K))

section Save
variable {dim : Nat} {K : Type} [Field K] [LinearOrder K]

/-- representation.h:360-366; `big` is `std::numeric_limits<double>::max()` -/
def frontMin (big : K) (self : Nat × Nat) (distances : List ((Nat × Nat) × K)) : K :=
  distances.foldl (fun m e => if e.1.1 = self.1 ∧ e.2 < m then e.2 else m) big

/-- `save` (representation.h:145-156, 239-258, 350-370): the type, then the data -/
def save (big : K) : Shape dim K → List K
  | .sphere c r => 1 :: (List.ofFn c ++ [r])
  | .ellipse c a r => 2 :: (List.ofFn c ++ ((List.ofFn fun d => List.ofFn (a d)).flatten ++ List.ofFn r))
  | .front s c ds => 3 :: (List.ofFn c ++ [frontMin big s ds / 2])

/-- a grain as seen by the writer -/
structure Grain (dim : Nat) (K : Type) where
  id : Nat
  op : Nat
  segments : List (Shape dim K)

/-- the lists set up by the loop over the segments (postprocessors.h:572-590) -/
structure Lists (K : Type) where
  counter : Nat
  parameters : List K
  index : List ((Nat × Nat) × Nat)
  data : List (Nat × Nat)

/-- postprocessors.h:581-590, `emplace` keeps an entry that is there -/
def collectSegment (big : K) (g : Nat × Grain dim K) (st : Lists K) (s : Shape dim K × Nat) : Lists K :=
  { counter := st.counter + 1
    parameters := st.parameters ++ save big s.1
    index := if (st.index.lookup (g.1, s.2)).isSome then st.index else st.index ++ [((g.1, s.2), st.counter)]
    data := st.data ++ [(g.2.id, g.2.op)] }

/-- postprocessors.h:577-590 -/
def collect (big : K) (grains : List (Nat × Grain dim K)) : Lists K :=
  grains.foldl (fun st g => g.2.segments.zipIdx.foldl (collectSegment big g) st) ⟨0, [], [], []⟩

/-- the queries of the tracker: particle of a cell, grain and segment of a particle -/
structure Tracker where
  particle : Nat → Nat → Option Nat
  grainSegment : Nat → Nat → Res (Option Nat × Nat)

/-- postprocessors.h:600-619: one cell -/
def gatherCell {P : Type} (T : Tracker) (index : List ((Nat × Nat) × Nat)) (pieces : Nat → Nat → List P) (b : Nat)
    (pts : List (List P)) (cell : Nat) : Res (List (List P)) :=
  match T.particle b cell with
  | none => .ok pts
  | some p => do
    let gs ← T.grainSegment b p
    match gs.1 with
    | none => .ok pts
    | some g => do
      let k ← Res.at? (index.lookup (g, gs.2))
      let old ← Res.index pts k
      .ok (pts.set k (old ++ pieces b cell))

/-- postprocessors.h:592-620: the points of one rank, `owned` are its cells -/
def gather {P : Type} (T : Tracker) (l : Lists K) (pieces : Nat → Nat → List P) (nBlocks : Nat) (owned : List Nat) :
    Res (List (List P)) :=
  (List.range nBlocks).foldlM (fun pts b => owned.foldlM (gatherCell T l.index pieces b) pts)
    (List.replicate l.counter [])

end Save

section Write
variable {dim : Nat} {K : Type}

/-- numbers, each followed by a blank, and the end of the line -/
def line (ws : List (List Char)) : List Char := ws.flatMap (· ++ [' ']) ++ ['\n']

/-- postprocessors.h:362-388 -/
def header (F : Fmt K) (dim nOp : Nat) (l : Lists K) (lo hi : List K) : List Char :=
  F.showNat dim ++ ['\n'] ++ (F.showNat l.counter ++ ['\n']) ++ (F.showNat nOp ++ ['\n']) ++
    line (l.data.map fun e => F.showNat e.1) ++ line (l.data.map fun e => F.showNat e.2) ++
    line (lo.map F.showNum) ++ line (hi.map F.showNum) ++ line (l.parameters.map F.showNum)

/-- postprocessors.h:397-405: a segment without points on the rank is left out -/
def segmentStream (F : Fmt K) (e : List (Fin dim → K) × Nat) : List Char :=
  if e.1.isEmpty then [] else
    F.showNat e.2 ++ ['\n'] ++ line (e.1.flatMap fun p => (List.ofFn p).map F.showNum)

/-- postprocessors.h:397-405 -/
def rankStream (F : Fmt K) (pts : List (List (Fin dim → K))) : List Char :=
  pts.zipIdx.flatMap (segmentStream F)

/-- contents of a file: nothing beyond its end and in holes -/
abbrev File := Nat → Option Char

/-- `File_write_at` -/
def writeAt (f : File) (off : Nat) (s : List Char) : File :=
  fun i => if off ≤ i ∧ i < off + s.length then s[i - off]? else f i

/-- offset of a rank (postprocessors.h:408-416): `header_size` is an `unsigned int`, the sum of the sizes on the
ranks before comes from `MPI_Exscan` -/
def offset (head : List Char) (streams : List (List Char)) (r : Nat) : Nat :=
  head.length % 2 ^ 32 + ((streams.take r).map List.length).sum

/-- postprocessors.h:418-425 -/
def writeRank (head : List Char) (streams : List (List Char)) (f : File) (r : Nat) : File :=
  writeAt f (offset head streams r) (streams.getD r [])

/-- postprocessors.h:335-425: the file after the ranks have written in any order `order` -/
def writeFile (head : List Char) (streams : List (List Char)) (order : List Nat) : File :=
  order.foldl (writeRank head streams) (writeAt (fun _ => none) 0 (head.take (head.length % 2 ^ 32)))

end Write

section Read
variable {K : Type}

/-- `readlines()` without the ends of the lines -/
def linesAux : List Char → List Char → List (List Char)
  | acc, [] => if acc.isEmpty then [] else [acc]
  | acc, c :: cs => if c = '\n' then acc :: linesAux [] cs else linesAux (acc ++ [c]) cs

/-- `split()` of a line -/
def wordsAux : List Char → List Char → List (List Char)
  | acc, [] => if acc.isEmpty then [] else [acc]
  | acc, c :: cs =>
    if c = ' ' then (if acc.isEmpty then wordsAux [] cs else acc :: wordsAux [] cs) else wordsAux (acc ++ [c]) cs

/-- `int(line)`, blanks around the number are ignored -/
def oneNat (F : Fmt K) (l : List Char) : Option Nat :=
  match wordsAux [] l with
  | [w] => F.readNat w
  | _ => none

def nats (F : Fmt K) (l : List Char) : Option (List Nat) := (wordsAux [] l).mapM F.readNat

def nums (F : Fmt K) (l : List Char) : Option (List K) := (wordsAux [] l).mapM F.readNum

/-- a representation as read back; slices of Python may be shorter than asked for -/
inductive RShape (K : Type)
  | sphere (center : List K) (radius : K)
  | ellipse (center : List K) (axes : List (List K)) (radii : List K)
  | front (center : List K) (offset : K)
  deriving DecidableEq

/-- `properties[i : j]` -/
def slice (l : List K) (i j : Nat) : List K := (l.take j).drop i

/-- build_tex_packings.py:226-250; the argument `rest` are the properties after the type -/
def readShape (F : Fmt K) (dim : Nat) (t : K) (rest : List K) : Option (RShape K × Nat) :=
  if F.trunc t = 1 then (rest[dim]?).map fun r => (.sphere (slice rest 0 dim) r, dim + 1)
  else if F.trunc t = 2 then
    some (.ellipse (slice rest 0 dim) ((List.range dim).map fun d => slice rest ((1 + d) * dim) ((2 + d) * dim))
      (slice rest ((1 + dim) * dim) ((2 + dim) * dim)), 2 * dim + dim * dim)
  else if F.trunc t = 3 then (rest[dim]?).map fun r => (.front (slice rest 0 dim) r, dim + 1)
  else none

/-- build_tex_packings.py:221-252; an unknown type and a missing number are exceptions. The fuel is the number of
the properties. -/
def readShapes (F : Fmt K) (dim : Nat) : Nat → List K → Option (List (RShape K))
  | _, [] => some []
  | 0, _ :: _ => none
  | fuel + 1, t :: rest => do
    let (s, n) ← readShape F dim t rest
    let l ← readShapes F dim fuel (rest.drop n)
    some (s :: l)

/-- build_tex_packings.py:256-258 -/
def readPoints (F : Fmt K) : List (List Char) → List (List K) → Option (List (List K))
  | [], pts => some pts
  | [_], _ => none
  | a :: b :: rest, pts => do
    let g ← oneNat F a
    let xs ← nums F b
    let old ← pts[g]?
    readPoints F rest (pts.set g (old ++ xs))

/-- build_tex_packings.py:260 -/
def chunk (dim : Nat) (p : List K) : List (List K) :=
  (List.range (p.length / dim)).map fun g => (List.range dim).filterMap fun d => p[g * dim + d]?

/-- what the reader knows of a file -/
structure Parsed (K : Type) where
  dim : Nat
  nSegments : Nat
  nOp : Nat
  grainIds : List Nat
  grainOps : List Nat
  lo : List K
  hi : List K
  shapes : List (RShape K)
  points : List (List (List K))
  deriving DecidableEq

/-- build_tex_packings.py:202-260 -/
def readFile (F : Fmt K) (cs : List Char) : Option (Parsed K) :=
  match linesAux [] cs with
  | l0 :: l1 :: l2 :: l3 :: l4 :: l5 :: l6 :: l7 :: rest => do
    let dim ← oneNat F l0
    let n ← oneNat F l1
    let nOp ← oneNat F l2
    let ids ← nats F l3
    let ops ← nats F l4
    let lo ← nums F l5
    let hi ← nums F l6
    let props ← nums F l7
    let shapes ← readShapes F dim props.length props
    let pts ← readPoints F rest (List.replicate n [])
    some ⟨dim, n, nOp, ids, ops, lo, hi, shapes, pts.map (chunk dim)⟩
  | _ => none

end Read

section Projected
variable {K : Type} [Field K] [LinearOrder K]

/-- scalar product of two points -/
def dot3 (a b : Fin 3 → K) : K := a 0 * b 0 + a 1 * b 1 + a 2 * b 2

/-- projection.h:315-316 -/
def planeDist (c origin normal : Fin 3 → K) : K := dot3 (fun d => c d - origin d) normal

/-- projection.h:317-318 -/
def circleCenter (c origin normal : Fin 3 → K) : Fin 3 → K := fun d => c d + planeDist c origin normal * normal d

/-- projection.h:324-328: radicand of the square root, `none` if the radius is set to zero -/
def circleRadicand (c origin normal : Fin 3 → K) (r : K) : Option K :=
  if planeDist c origin normal ≤ r then some (r * r - planeDist c origin normal * planeDist c origin normal) else none

/-- projection.h:313-330: the numbers written for one segment; `root` is `std::sqrt` -/
def projectedParameters (root : K → K) (c origin normal : Fin 3 → K) (r : K) : List K :=
  List.ofFn (circleCenter c origin normal) ++ [((circleRadicand c origin normal r).map root).getD 0]

/-- projection.h:276-297, one coordinate of the upper corner of the box of all ranks; `tiny` is
`std::numeric_limits<Number>::min()`, a rank without cells of the section is `none` -/
def upperCorner (tiny : K) (ranks : List (Option K)) : Option K :=
  match ranks.map (·.getD tiny) with
  | [] => none
  | x :: xs => some (xs.foldl max x)

/-- projection.h:276-297, one coordinate of the lower corner; `big` is `std::numeric_limits<Number>::max()` -/
def lowerCorner (big : K) (ranks : List (Option K)) : Option K :=
  match ranks.map (·.getD big) with
  | [] => none
  | x :: xs => some (xs.foldl min x)

end Projected

end Verif.ContourFile
