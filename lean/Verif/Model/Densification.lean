/-
Densification from the output of the grain tracker.

Models `applications/sintering/scripts/densification_analysis.py:76-120, 193-207, 229-236` and the unpacking of positions in `contacts.py:105-117`: the loop over folders and files,
the table of results, the share of covered points, coordination numbers. Convex hull, triangulation and search trees are external; reading of files is a parameter.
-/
import Verif.Model.ContactPairs

namespace Verif.Densification

open Verif.ContactPairs

/-- A folder: the number of rows of the solution file, and for each file of the grain tracker its row of results, `none` if the file is skipped for its values (line 117). -/
structure Folder (R : Type) where
  size : Nat
  files : List (Option R)

/-- densification_analysis.py:100-120, 208-216: the table starts without values (`np.empty`); `none` is a row that is not set. -/
def rows {R : Type} (f : Folder R) : List (Option R) := f.files.mapIdx fun idx x => if f.size ≤ idx then none else x

/-- densification_analysis.py:76-87, 229-232: the name of the csv file is taken from the list after the table is complete. -/
def save {R N : Type} : List (Folder R) → List N → Res (List (N × List (Option R)))
  | [], _ => .ok []
  | f :: fs, names =>
    if f.files = [] then save fs names
    else match names with
      | [] => .exc .outOfRange
      | n :: ns => do
        let o ← save fs ns
        .ok ((n, rows f) :: o)

/-- densification_analysis.py:193-197 -/
def covered (n : Nat) (coverage : List (List Nat)) : List Nat := coverage.foldl (fun v c => c.foldl (fun v p => v.set p 1) v) (List.replicate n 0)

variable {K : Type} [Field K] [LinearOrder K]

/-- densification_analysis.py:201-203: positions have `dim` entries, three are unpacked once there is a neighbour. -/
def coordination (dim : Nat) (dist : Nat → Nat → K) (r : Nat → K) (nb : Nat → List Nat) (n : Nat) : Res K :=
  if dim ≠ 3 ∧ ∃ i ∈ List.range n, (nb i).filter (fun j => decide (j ≠ i)) ≠ [] then .exc .invalidArgument
  else do
    let l ← pairs dist r nb n
    .ok (2 * (l.length : K) / (n : K))

end Verif.Densification
