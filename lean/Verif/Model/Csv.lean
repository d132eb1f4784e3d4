/-
Reading of particle tables:
  applications/sintering/src/csv_reader.cc
  applications/sintering/include/pf-applications/sintering/particle.h

Simplifications: the stream is the list of its characters and good when reading starts; lines are shorter than 2^31
characters (positions are stored as `int`); `std::stod` is a parameter that fails with `std::invalid_argument`.
-/
import Verif.Model.Res

namespace Verif.Csv

/-- `line.find(',', pos)` -/
def find (line : List Char) (pos : Nat) : Option Nat := ((line.drop pos).findIdx? (· == ',')).map (pos + ·)

/-- csv_reader.cc:38-43: the loop collecting the positions of the commas. -/
def commaLoop (line : List Char) : Nat → Nat → List Nat
  | _, 0 => []
  | pos, fuel + 1 =>
    match find line pos with
    | none => []
    | some p => p :: commaLoop line (p + 1) fuel

/-- csv_reader.h:42-44: a row. -/
structure Row where
  line : List Char
  data : List Int
  deriving DecidableEq, Repr

/-- csv_reader.cc:31-47 `read_next_row`, after `std::getline`. -/
def parseRow (line : List Char) : Row :=
  { line := line
    data := (-1) :: (commaLoop line 0 (line.length + 1)).map Int.ofNat ++ [(line.length : Int)] }

/-- csv_reader.cc:25-29 `size` -/
def Row.size (r : Row) : Nat := r.data.length - 1

/-- csv_reader.cc:18-23 `operator[]`; beyond the last field `data` is read out of bounds. -/
def Row.field (r : Row) (i : Nat) : Res (List Char) := do
  let a ← Res.index r.data i
  let b ← Res.index r.data (i + 1)
  .ok ((r.line.drop (a + 1).toNat).take (b - (a + 1)).toNat)

/-- `std::getline` on the remaining characters: fails at the end of the stream. -/
def getline : List Char → Option (List Char × List Char)
  | [] => none
  | t => some (t.takeWhile (· != '\n'), (t.dropWhile (· != '\n')).drop 1)

/-- csv_reader.cc:56-80: the rows produced by the iterator. -/
def rows : Nat → List Char → List Row
  | 0, _ => []
  | fuel + 1, t =>
    match getline t with
    | none => []
    | some (l, rest) => parseRow l :: rows fuel rest

/-- particle.h:26-33 (without `neighbours`, initially empty). -/
structure Particle (K : Type) where
  center : List K
  radius : K
  id : Nat
  deriving DecidableEq, Repr

section
variable {K : Type} (stod : List Char → Option K)

/-- `std::stod(std::string(row[i]))` -/
def column (r : Row) (i : Nat) : Res K := do
  let f ← r.field i
  match stod f with
  | some x => .ok x
  | none => .exc .invalidArgument

/-- particle.h:53-77: a particle from a row; the radius is always in column 3. -/
def readRow (dim id : Nat) (r : Row) : Res (Particle K) := do
  let x ← column stod r 0
  let c ← (if dim = 1 then .ok [x]
    else if dim = 2 then do
      let y ← column stod r 1
      .ok [x, y]
    else do
      let y ← column stod r 1
      let z ← column stod r 2
      .ok [x, y, z])
  let rad ← column stod r 3
  .ok ⟨c, rad, id⟩

/-- particle.h:45-79: rows behind the header. -/
def readRows (dim : Nat) : Nat → List Row → Res (List (Particle K))
  | _, [] => .ok []
  | id, r :: rs => do
    let p ← readRow stod dim id r
    let ps ← readRows dim (id + 1) rs
    .ok (p :: ps)

/-- particle.h:36-82 `read_particles` -/
def readParticles (dim : Nat) (text : List Char) : Res (List (Particle K)) :=
  readRows stod dim 0 (rows (text.length + 1) text).tail
end

end Verif.Csv
