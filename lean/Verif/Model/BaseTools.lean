/-
Masks, command line options and names of scopes:
  include/pf-applications/base/mask.h
  include/pf-applications/base/input.h
  include/pf-applications/base/scoped_name.h

Simplifications: strings are lists of characters; the regular expression of `parse_params` is written as the matcher it denotes
(ECMAScript, locale "C"); parameters are the sequence of calls made on them.
-/
import Verif.Model.Res

namespace Verif.BaseTools

/-! ### mask.h -/

/-- `1 << (N - 1)` for `int`; `none`: not a constant expression. -/
def shifted (N : Int) : Option (BitVec 32) := if 1 ≤ N ∧ N ≤ 32 then some (1#32 <<< (N - 1).toNat) else none

/-- mask.h:22-38 `Mask<...>::value`; `none`: does not compile. -/
def mask : List Int → Option (BitVec 32)
  | [] => none
  | [N] => if N = 0 then some 0#32 else shifted N
  | N :: M => do
    let a ← shifted N
    let b ← mask M
    some (a ||| b)

/-- mask.h:40-49 `is_bit_set`. -/
def isBitSet (value : BitVec 32) (bit : Int) : Option Bool := do
  let s ← shifted bit
  some (decide (0 < (value &&& s).toInt))

/-- mask.h:51-68 `any_bit_of`, also 91-110 `any_energy_eval_of`. The remaining bits are not looked at after the first that is set. -/
def anyBitOf (value : BitVec 32) : List Int → Option Bool
  | [] => none
  | [b] => isBitSet value b
  | b :: bs => do
    let x ← isBitSet value b
    if x then some true else anyBitOf value bs

/-! ### input.h -/

/-- `\w` in the locale "C". -/
def isWord (c : Char) : Bool := c.isAlphanum || c == '_'

/-- `[(\w*).]`. -/
def isNameChar (c : Char) : Bool := isWord c || c == '(' || c == '*' || c == ')' || c == '.'

/-- `.` in ECMAScript, on bytes. -/
def isDot (c : Char) : Bool := !(c == '\n' || c == '\r')

/-- `"?` before the value; it is greedy. -/
def skipQuote : List Char → List Char
  | '"' :: l => l
  | l => l

/-- The rest of the expression after `--`: name, `=`, optional quote, value up to the end of the line. The second optional quote can only match
the empty string, as the value is greedy. -/
def matchName (l : List Char) : Option (List Char × List Char) :=
  match l.dropWhile isNameChar with
  | '=' :: v => some (l.takeWhile isNameChar, (skipQuote v).takeWhile isDot)
  | _ => none

/-- input.h:59-70 `std::regex_search`: the first place where the expression matches. -/
def search : List Char → Option (List Char × List Char)
  | '-' :: '-' :: l =>
    match matchName l with
    | some r => some r
    | none => search ('-' :: l)
  | _ :: l => search l
  | [] => none

/-- Calls on the parameters. -/
inductive Call where
  | file (name : List Char)
  | set (name value : List Char)
  | check
deriving DecidableEq

/-- input.h:45-76: one argument; `first`: it is the one at `offset`. -/
def argument (first : Bool) (flag : List Char) : Res (List Call) :=
  if first && flag.take 2 != ['-', '-'] then .ok [.file flag]
  else if flag.take 2 = ['-', '-'] then
    match search flag with
    | some (n, v) => .ok [.set n v]
    | none => .exc .assertThrow
  else .ok []

/-- input.h:45-76: the arguments from `offset` on. -/
def arguments : Bool → List (List Char) → Res (List Call)
  | _, [] => .ok []
  | first, a :: l => do
    let c ← argument first a
    let cs ← arguments false l
    .ok (c ++ cs)

/-- input.h:30-83 `parse_params`. -/
def parseParams (offset : Nat) (argv : List (List Char)) : Res (List Call) := do
  let cs ← arguments true (argv.drop offset)
  .ok (cs ++ [.check])

/-! ### scoped_name.h -/

/-- Code that uses `ScopedName`: a use of the name in the present scope, a scope, a sequence, code that throws, code with a handler. -/
inductive Code where
  | skip
  | use
  | scope (name : String) (body : Code)
  | seq (a b : Code)
  | throws
  | handled (body : Code)

/-- How a piece of code ends: the `path` and the names used so far; `none` in the first place: `std::terminate`. -/
structure Trace where
  path : List String
  used : List String
  thrown : Bool
deriving DecidableEq

/-- scoped_name.h:30-34: the destructor; it may not throw, so a mismatch ends the program. `path.back()` of an empty path is undefined. -/
def leave (name : String) (path : List String) : Res (List String) :=
  match path.getLast? with
  | none => .ub
  | some l => if l = name then .ok path.dropLast else .exc .assertThrow

/-- scoped_name.h:20-47: run code with the static `path`. -/
def run (path : List String) : Code → Res Trace
  | .skip => .ok ⟨path, [], false⟩
  | .use => .ok ⟨path, ["::".intercalate path], false⟩
  | .throws => .ok ⟨path, [], true⟩
  | .scope name body => do
    let t ← run (path ++ [name]) body
    let p ← leave name t.path
    .ok ⟨p, t.used, t.thrown⟩
  | .seq a b => do
    let t ← run path a
    if t.thrown then .ok t
    else do
      let t' ← run t.path b
      .ok ⟨t'.path, t.used ++ t'.used, t'.thrown⟩
  | .handled body => do
    let t ← run path body
    .ok ⟨t.path, t.used, false⟩

end Verif.BaseTools
