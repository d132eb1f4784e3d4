/-
Contacts of spheres in the scripts.

Models `applications/sintering/scripts/contacts.py:19-201`: neighbours in segmented arrays, the sort of short arrays, the pairs in contact. The search tree is external; sorting of arrays
with 80 entries or more (`arr.sort()`) is taken to have the result of the sort of short ones. Square roots are part of the distances, which are a parameter.
-/
import Verif.Model.Res
import Mathlib.Algebra.Order.Field.Basic

namespace Verif.ContactPairs

variable {K : Type} [Field K] [LinearOrder K]

/-- contacts.py:8-11: sizes and values of a list of lists. -/
def flat (ll : List (List Nat)) : List Nat × List Nat := (ll.map List.length, ll.flatten)

/-- contacts.py:32-40 -/
def hgo : List Nat → List Nat → List Nat → List Nat → List Nat × List Nat
  | a :: as, b :: bs, lv, rv =>
    let o := hgo as bs (lv.drop a) (rv.drop b)
    ((a + b) :: o.1, lv.take a ++ rv.take b ++ o.2)
  | _, _, _, _ => ([], [])

/-- contacts.py:24-41 -/
def hstack (l r : List Nat × List Nat) (offset : Nat) : List Nat × List Nat := hgo l.1 r.1 l.2 (r.2.map (· + offset))

/-- contacts.py:19-22 -/
def vstack (t b : List Nat × List Nat) : List Nat × List Nat := (t.1 ++ b.1, t.2 ++ b.2)

/-- contacts.py:43-63 -/
def reorder (v : List Nat × List Nat) (index : Nat → Nat) (rev : List Nat) : List Nat × List Nat :=
  (rev.map fun k => v.1.getD k 0, rev.flatMap fun k => ((v.2.drop (v.1.take k).sum).take (v.1.getD k 0)).map index)

/-- contacts.py:174-183: the places of the balls sorted by radius, `s` the number of small ones. -/
def found (dist : Nat → Nat → K) (rs : Nat → K) (n s i j : Nat) : Bool := decide (dist i j ≤ rs i + if j < s then rs s else rs (n - 1))

/-- contacts.py:70-75: entries larger than `x` move by one place. -/
def sortIn (p : List Nat) (x : Nat) : List Nat := (p.reverse.dropWhile (fun y => decide (x < y))).reverse ++ x :: (p.reverse.takeWhile (fun y => decide (x < y))).reverse

/-- contacts.py:65-78 -/
def sort (l : List Nat) : List Nat := l.foldl sortIn []

/-- contacts.py:96-133: the contacts of one particle. -/
def contactsOf (dist : Nat → Nat → K) (r : Nat → K) (nb : List Nat) (i : Nat) : List ((Nat × Nat) × K) :=
  let c := (sort (nb.filter fun j => decide (j ≠ i))).filter fun j => decide (dist i j - (r j + r i) ≤ 0)
  List.zipWith (fun j g => ((i, j), g)) (sort c) (c.map fun j => dist i j - (r j + r i))

/-- contacts.py:95-139 -/
def directed (dist : Nat → Nat → K) (r : Nat → K) (nb : Nat → List Nat) (n : Nat) : List ((Nat × Nat) × K) := (List.range n).flatMap fun i => contactsOf dist r (nb i) i

/-- contacts.py:141-158: arrays for half of the entries; entries that are not set are undefined. -/
def pairs (dist : Nat → Nat → K) (r : Nat → K) (nb : Nat → List Nat) (n : Nat) : Res (List ((Nat × Nat) × K)) :=
  let d := directed dist r nb n
  if d.length % 2 ≠ 0 then .exc .assertThrow
  else
    let l := d.filter fun e => decide (e.1.1 < e.1.2)
    if d.length / 2 < l.length then .exc .outOfRange
    else if l.length < d.length / 2 then .ub
    else .ok l

end Verif.ContactPairs
