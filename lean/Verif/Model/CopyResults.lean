/-
Copies of results of many runs.

Models `applications/sintering/scripts/copy_results.py:9-17, 50-81`: which files of one folder are copied, and to which names. The search for files is a parameter (its result sorted by
time), the destination is given with all its parts replaced (lines 36-43).
-/
import Verif.Model.Res

namespace Verif.CopyResults

abbrev Name := List Char

structure File where
  base : Name
  /-- extension without the dot -/
  ext : Name
  dir : Bool
  deriving DecidableEq, Repr

structure Opts where
  jobExt : Name
  all : Bool
  /-- `output_path` -/
  out : Name
  /-- `folder_dst` -/
  folder : Name

/-- copy_results.py:12, 50: the option takes several values, its default is one string, which is gone through by characters. -/
def masks : Option (List Name) → List Name
  | some l => l
  | none => "solution.log".toList.map fun c => [c]

/-- `os.path.join` for a relative second part -/
def join (a b : Name) : Name := if a = [] then b else if a.getLast? = some '/' then a ++ b else a ++ '/' :: b

/-- copy_results.py:67-69: the name without its first part. -/
def afterDot (b : Name) : Name := (b.dropWhile fun c => decide (c ≠ '.')).drop 1

/-- copy_results.py:55-81: a directory cannot be copied by `copy2`. -/
def copyMask (o : Opts) : List File → Res (List (Name × Name))
  | [] => .ok []
  | f :: fs =>
    if f.dir then .exc .invalidArgument
    else if f.ext = o.jobExt ∧ o.all = false then .ok [(f.base, o.out ++ afterDot f.base)]
    else do
      let rest ← copyMask o fs
      .ok ((f.base, if f.ext = o.jobExt then join o.folder f.base else o.out ++ f.base) :: rest)

/-- copy_results.py:50-81 -/
def copyAll (o : Opts) (glob : Name → List File) : List Name → Res (List (Name × Name))
  | [] => .ok []
  | m :: ms => do
    let a ← copyMask o (glob m)
    let b ← copyAll o glob ms
    .ok (a ++ b)

end Verif.CopyResults
