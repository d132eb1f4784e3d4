/-
Short labels of files in the scripts.

Models `generate_short_labels` in `applications/sintering/scripts/library.py:42-117` without the option `extend_to`, up to the loop that handles empty labels
(lines 102-115); of this part the test that comes before the loop is modelled. Names are lists of characters, Python's `IndexError` is an exception.
-/
import Verif.Model.Res

namespace Verif.Labels

abbrev Name := List Char

/-- library.py:50 -/
def minLen : List Name → Nat
  | [] => 0
  | f :: fs => fs.foldl (fun m g => min m g.length) f.length

/-- library.py:56-60: all names have the same character at place `i` as the first one. -/
def agree (files : List Name) (i : Nat) : Bool := files.all fun f => f[i]? == (files.headD [])[i]?

/-- library.py:55-65: the loop ends at the first difference. -/
def lead (files : List Name) : Nat := ((List.range (minLen files)).takeWhile (agree files)).length

/-- library.py:67-77: the same from the end. -/
def trail (files : List Name) : Nat := lead (files.map List.reverse)

/-- `f[s:-e]`; `-0` is 0, the slice ends before the first character. -/
def slice (f : Name) (s e : Nat) : Name := if e = 0 then [] else (f.take (f.length - e)).drop s

/-- `any(os.sep != f[s] for f in files)`: evaluated in order up to the first success. -/
def anySep (s : Nat) : List Name → Res Bool
  | [] => .ok false
  | f :: fs => match f[s]? with
    | none => .exc .outOfRange
    | some c => if c ≠ '/' then .ok true else anySep s fs

/-- library.py:42-79, 96-99: `some` labels, or `none` if the loop for empty labels follows. -/
def labels (parentName : Name → Name) (files : List Name) : Res (Option (List Name)) :=
  match files with
  | [] => .ok (some [])
  | [f] => .ok (some [parentName f])
  | f :: g :: fs =>
    let all := f :: g :: fs
    let ls := all.map fun x => slice x (lead all) (trail all)
    if [] ∈ ls then do
      let _ ← anySep (lead all) all
      .ok none
    else .ok (some ls)

end Verif.Labels
