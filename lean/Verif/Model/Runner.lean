/-
Modes of the sintering programs: applications/sintering/include/pf-applications/sintering/runner.h

Simplifications: an argument is a list of characters; `argv` has `argc` entries, the next one is a null pointer. `atof` and `atoi`, the file
system and the numbers of order parameters of initial values are parameters. Printed text is left out. What `SinteringProblem` does is the
subject of other modules; here it is the request that is made to it.
-/
import Verif.Model.BaseTools
import Mathlib.Order.Defs.LinearOrder
import Mathlib.Algebra.Field.Defs

namespace Verif.Runner

open Verif.BaseTools

variable {K : Type} [Field K] [LinearOrder K]

/-- Text. -/
abbrev Arg := List Char

/-- The initial values that are asked for. -/
inductive Start (K : Type) where
  | circle (r0 : K) (n : Nat)
  | hypercube (r0 : K) (n : List Nat)
  | cloud (content : List Char)
  | voronoi (content : List Char)
  | imaging (content : List Char)
  | debug

/-- What is done in the end. -/
inductive Request (K : Type) where
  | help
  | fresh (s : Start K) (calls : List Call)
  | restart (path : Arg) (calls : List Call)

/-- Surroundings of the program. `atof` gives `none` for NaN. -/
structure World (K : Type) where
  dim : Nat
  maxGrains : Nat
  atof : Arg → Option K
  atoi : Arg → Int
  file : Arg → Option (List Char)
  nOps : Start K → List Call → Nat

/-- `const unsigned int n = atoi(...)`: conversion modulo 2^32. -/
def toUnsigned (i : Int) : Nat := (i % 4294967296).toNat

/-- `argv[i]` as a string; a null pointer and what is behind it are undefined. -/
def arg (argv : List Arg) (i : Nat) : Res Arg := Res.index argv i

/-- `AssertThrow` -/
def require (b : Bool) : Res Unit := if b then .ok () else .exc .assertThrow

/-- `r0 > 0`, false for NaN. -/
def positive (r : Option K) : Res K :=
  match r with
  | some r => if 0 < r then .ok r else .exc .assertThrow
  | none => .exc .assertThrow

/-- runner.h:130-134, 194-198, 242-246, 299-303: the last check. -/
def withLimit (w : World K) (s : Start K) (calls : List Call) : Res (Request K) := do
  require (decide (w.nOps s calls ≤ w.maxGrains))
  .ok (.fresh s calls)

/-- runner.h:95-137 -/
def circle (w : World K) (argv : List Arg) : Res (Request K) := do
  require (decide (4 ≤ argv.length))
  let r ← arg argv 2
  let n ← arg argv 3
  let r0 ← positive (w.atof r)
  require (decide (0 < toUnsigned (w.atoi n)))
  let calls ← parseParams 4 argv
  withLimit w (.circle r0 (toUnsigned (w.atoi n))) calls

/-- runner.h:138-201 -/
def hypercube (w : World K) (argv : List Arg) : Res (Request K) := do
  require (decide (3 + w.dim ≤ argv.length))
  let r ← arg argv 2
  let ns ← (List.range w.dim).mapM fun d => arg argv (3 + d)
  let r0 ← positive (w.atof r)
  require (ns.all fun n => decide (0 < toUnsigned (w.atoi n)))
  let calls ← parseParams (3 + w.dim) argv
  withLimit w (.hypercube r0 (ns.map fun n => toUnsigned (w.atoi n))) calls

/-- `std::ifstream` with the check `is_open()`. -/
def openFile (w : World K) (name : Arg) : Res (List Char) :=
  match w.file name with
  | some c => .ok c
  | none => .exc .assertThrow

/-- runner.h:202-249 (reading of particles: module `Cloud`) -/
def cloud (w : World K) (argv : List Arg) : Res (Request K) := do
  require (decide (3 ≤ argv.length))
  let f ← arg argv 2
  let c ← openFile w f
  let calls ← parseParams 3 argv
  withLimit w (.cloud c) calls

/-- runner.h:250-313 -/
def microstructure (w : World K) (imaging : Bool) (argv : List Arg) : Res (Request K) := do
  require (decide (w.dim = 2))
  require (decide (3 ≤ argv.length))
  let f ← arg argv 2
  let c ← openFile w f
  let calls ← parseParams 3 argv
  withLimit w (if imaging then .imaging c else .voronoi c) calls

/-- runner.h:314-328 -/
def restart (argv : List Arg) : Res (Request K) := do
  require (decide (3 ≤ argv.length))
  let p ← arg argv 2
  let calls ← parseParams 3 argv
  .ok (.restart p calls)

/-- runner.h:329-340 -/
def debug (argv : List Arg) : Res (Request K) := do
  let calls ← parseParams 2 argv
  .ok (.fresh .debug calls)

/-- runner.h:63-345 `runner`; the mode is read (83) before the number of arguments is looked at (91). -/
def run (w : World K) (argv : List Arg) : Res (Request K) := do
  let mode ← arg argv 1
  if argv.length = 1 ∨ mode = "--help".toList then .ok .help
  else if mode = "--circle".toList then circle w argv
  else if mode = "--hypercube".toList then hypercube w argv
  else if mode = "--cloud".toList then cloud w argv
  else if mode = "--voronoi".toList ∨ mode = "--imaging".toList then microstructure w (decide (mode = "--imaging".toList)) argv
  else if mode = "--restart".toList then restart argv
  else if mode = "--debug".toList then debug argv
  else .exc .assertThrow

end Verif.Runner
