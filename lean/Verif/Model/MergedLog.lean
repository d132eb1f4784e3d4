/-
Output and checks that involve all processes, and printing of lists.

Models `print_log` (`include/pf-applications/grain_tracker/tracker.h:1873-1894`), `AssertThrowDistributedDimension` and `to_string`
(`include/pf-applications/base/debug.h:21-27, 50-76`). Events and printed entries are elements of an ordered type and lists of characters.
-/
import Verif.Model.Res
import Mathlib.Order.Lattice
import Mathlib.Order.Defs.LinearOrder

namespace Verif.MergedLog

/-- Insertion into a `std::set`, kept as the list of its elements in ascending order. -/
def insert {E : Type} [LinearOrder E] (s : List E) (x : E) : List E :=
  match s with
  | [] => [x]
  | y :: ys => if x < y then x :: y :: ys else if x = y then y :: ys else y :: insert ys x

/-- tracker.h:1875-1894: what process `rank` prints. `gather` hands the logs of all processes to process 0 and nothing to the others; only process 0 prints. -/
def printLog {E : Type} [LinearOrder E] (logs : List (List E)) (rank : Nat) : List E :=
  let all := if rank = 0 then logs else []
  let events := all.foldl (fun s l => l.foldl insert s) []
  if rank = 0 then events else []

/-- `Utilities::MPI::min` and `max`. -/
def minAll : List Nat → Nat
  | [] => 0
  | n :: l => l.foldl min n

def maxAll : List Nat → Nat
  | [] => 0
  | n :: l => l.foldl max n

/-- debug.h:21-27: the outcome on each process. -/
def checkDimension (sizes : List Nat) : List (Res Unit) := sizes.map fun _ => if minAll sizes = maxAll sizes then .ok () else .exc .assertThrow

/-- debug.h:50-62: entries with their index. -/
def toStringVec (sep : List Char) (v : List (List Char)) : List Char :=
  (List.range v.length).foldl (fun s i => (if i ≠ 0 then s ++ sep else s) ++ v.getD i []) []

/-- debug.h:64-76: an iterator that is advanced before the separator is written. -/
def toStringIt (sep : List Char) (s : List Char) : List (List Char) → List Char
  | [] => s
  | x :: rest => toStringIt sep (if rest ≠ [] then s ++ x ++ sep else s ++ x) rest

end Verif.MergedLog
