/-
Specification of the modes of the sintering programs: which command lines ask for which initial values.
-/
import Verif.Model.Runner

namespace Verif.Spec.Runner

open Verif.Runner Verif.BaseTools

variable {K : Type} [Field K] [LinearOrder K]

/-- The command line asks for initial values; the last argument is the part with the parameters. -/
inductive Asks (w : World K) : List Arg → Start K → List Arg → Prop where
  | circle (prog r n : Arg) (rest : List Arg) (r0 : K) (m : Nat) (hr : w.atof r = some r0) (hp : 0 < r0) (hm : 0 < m) (hn : w.atoi n = m) :
      Asks w (prog :: "--circle".toList :: r :: n :: rest) (.circle r0 m) rest
  | hypercube (prog r : Arg) (ns rest : List Arg) (r0 : K) (ms : List Nat) (hd : ns.length = w.dim) (hr : w.atof r = some r0) (hp : 0 < r0)
      (hm : ∀ m ∈ ms, 0 < m) (hn : ns.map w.atoi = ms.map Int.ofNat) :
      Asks w (prog :: "--hypercube".toList :: r :: (ns ++ rest)) (.hypercube r0 ms) rest
  | cloud (prog f : Arg) (rest : List Arg) (c : List Char) (hf : w.file f = some c) :
      Asks w (prog :: "--cloud".toList :: f :: rest) (.cloud c) rest
  | voronoi (prog f : Arg) (rest : List Arg) (c : List Char) (hd : w.dim = 2) (hf : w.file f = some c) :
      Asks w (prog :: "--voronoi".toList :: f :: rest) (.voronoi c) rest
  | imaging (prog f : Arg) (rest : List Arg) (c : List Char) (hd : w.dim = 2) (hf : w.file f = some c) :
      Asks w (prog :: "--imaging".toList :: f :: rest) (.imaging c) rest
  | debug (prog : Arg) (rest : List Arg) : Asks w (prog :: "--debug".toList :: rest) .debug rest

/-- All modes. -/
def modes : List Arg :=
  ["--help".toList, "--circle".toList, "--hypercube".toList, "--cloud".toList, "--voronoi".toList, "--imaging".toList, "--restart".toList,
    "--debug".toList]

/-- What is asked for, as one relation. -/
def Grants (w : World K) (argv : List Arg) (q : Request K) : Prop :=
  (∃ prog rest, argv = prog :: "--help".toList :: rest ∧ q = .help) ∨
  (∃ prog p rest calls, argv = prog :: "--restart".toList :: p :: rest ∧ parseParams 0 rest = .ok calls ∧ q = .restart p calls) ∨
  ∃ s rest calls, Asks w argv s rest ∧ parseParams 0 rest = .ok calls ∧ (s = .debug ∨ w.nOps s calls ≤ w.maxGrains) ∧ q = .fresh s calls

end Verif.Spec.Runner
