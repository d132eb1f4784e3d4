/-
Benchmark of the grain tracker:
  applications/sintering/grain_tracker_throughput.cc
  include/pf-applications/base/performance.h (`run_measurement`)
  tracker.h:1166-1174 (`custom_reassignment`)

Simplifications: the mesh is given (its construction is modelled in `GridSetup` and others) and does not change after the
constructor; the search for grains and the reassignment are parameters (modelled in `Detect`, `Reassign`) with the blocks they
read; measured times are left out; numbers of the command line are read by parameters for `atoi` and `atof`.
-/
import Verif.Model.Remap
import Mathlib.Algebra.Order.Field.Basic

namespace Verif.TrackerBench

section arguments

variable {K : Type} [Field K] [LinearOrder K]

/-- What the tool is asked for: grid of spheres (largest number per row, radius, width of the interface, divisions, factor of
the boundary), a file of particles (name, width, buffer ratio, divisions, factor), or nothing. -/
inductive Job (K : Type)
  | hypercube (maxRow : Nat) (radius width divisions factor : K)
  | cloud (file : String) (width ratio divisions factor : K)
  | nothing
  deriving DecidableEq

/-- `atoi` of the C library, `atof` (`none` is NaN), files that can be opened. -/
structure Env (K : Type) where
  atoi : String → Int
  atof : String → Option K
  opens : String → Bool

/-- conversion of `int` to `unsigned int` (grain_tracker_throughput.cc:362) -/
def toUnsigned (i : Int) : Nat := (i % 2 ^ 32).toNat

/-- grain_tracker_throughput.cc:363-366, 425-428: optional argument with a default -/
def optional (E : Env K) (argv : List String) (i : Nat) (dflt : K) : Option K :=
  match argv[i]? with
  | some s => E.atof s
  | none => some dflt

/-- grain_tracker_throughput.cc:368-382, 430-439: `AssertThrow(x > 0, ...)`; comparisons with NaN are false -/
def positive : Option K → Res K
  | some x => if 0 < x then .ok x else .exc .assertThrow
  | none => .exc .assertThrow

/-- grain_tracker_throughput.cc:346-459 up to the start of the benchmarks. Without arguments `argv[1]` is a null pointer, from
which a string is constructed. -/
def parse (E : Env K) (argv : List String) : Res (Job K) :=
  match argv[1]? with
  | none => .ub
  | some mode =>
    if mode = "--hypercube" then
      match argv[2]? with
      | none => .exc .assertThrow
      | some a =>
        if ¬ 1 < toUnsigned (E.atoi a) then .exc .assertThrow
        else (positive (optional E argv 3 (15 / 2))).bind fun r => (positive (optional E argv 4 1)).bind fun w =>
          (positive (optional E argv 5 2)).bind fun d => (positive (optional E argv 6 (1 / 2))).bind fun f =>
            .ok (.hypercube (toUnsigned (E.atoi a)) r w d f)
    else if mode = "--cloud" then
      match argv[2]? with
      | none => .exc .assertThrow
      | some a =>
        if E.opens a = false then .exc .assertThrow
        else (positive (optional E argv 3 1)).bind fun w => (positive (optional E argv 4 1)).bind fun r =>
          (positive (optional E argv 5 2)).bind fun d => (positive (optional E argv 6 (1 / 2))).bind fun f =>
            .ok (.cloud a w r d f)
    else .ok .nothing -- `ExcNotImplemented();` is constructed but not thrown

/-- increment of the `unsigned int` counter of the loop over sizes (grain_tracker_throughput.cc:384-386) -/
def next (n : Nat) : Nat := (n + 1) % 2 ^ 32

/-- the counter after `k` passes of the loop -/
def counter : Nat → Nat
  | 0 => 2
  | k + 1 => next (counter k)

/-- the numbers of order parameters tried for a size (grain_tracker_throughput.cc:400-402) -/
def opCounts (row : Nat) : List Nat := (List.range (row - 1)).map (· + 2)

end arguments

section tests

variable {P K D : Type} [DecidableEq D] [Zero K]

/-- State of a benchmark: number of blocks of `solution` and its values. -/
structure St (D K : Type) where
  blocks : Nat
  sol : Fld D K

/-- What the tracker finds: grains (all in the order parameter they were found in) and tables of particles. -/
structure Found (P K D : Type) where
  grains : OMap (Grain P K)
  lookup : Lookup
  cells : List (RCell D)

/-- Initial values: number of order parameters and their values. -/
structure Init (D K : Type) where
  nOp : Nat
  val : Fld D K

/-- grain_tracker_throughput.cc:277-296 (`set_initial_conditions`); the first two components are skipped. -/
def setInitial (I : Init D K) (s : St D K) : St D K :=
  { s with sol := fun b d => if b < s.blocks ∧ b + 2 < I.nOp + 2 then I.val b d else s.sol b d }

/-- tracker.h:346-389, 1206-1243 (`initial_setup`): every order parameter below `n` is read, then the grains are searched for. -/
def setup (detect : Nat → Fld D K → Found P K D) (n : Nat) (s : St D K) : Res (Found P K D) :=
  if n ≤ s.blocks then .ok (detect n s.sol) else .ub

/-- tracker.h:1166-1174 with the callbacks of grain_tracker_throughput.cc:227-239, 256-268 -/
def reassigned (f : Nat → Nat) (grains : OMap (Grain P K)) : OMap (Grain P K) :=
  grains.map fun p => (p.1, { p.2 with op := f p.2.op })

/-- performance.h:25-67 (`run_measurement`): ten calls to warm up, then those that are measured -/
def measured {σ : Type} (f : σ → Res σ) : Nat → σ → Res σ
  | 0, s => .ok s
  | k + 1, s => (f s).bind (measured f k)

/-- number of calls -/
def calls : Nat := 10 + 100

/-- `remap(solution)` on the state; order parameters begin at block 0 -/
def remapOnce (x : RemapExt) (F : Found P K D) (grains : OMap (Grain P K)) (s : St D K) : Res (St D K) :=
  (remapNew x s.blocks 0 grains F.lookup F.cells s.sol).bind fun r => .ok { s with sol := r.2 }

/-- grain_tracker_throughput.cc:218-245 (`test_remap_dependent`) -/
def testDependent (x : RemapExt) (detect : Nat → Fld D K → Found P K D) (I : Init D K) (s : St D K) : Res (St D K) :=
  (setup detect I.nOp s).bind fun F =>
    let s' : St D K := { blocks := s.blocks + 1, sol := fun b d => if b = s.blocks then 0 else s.sol b d }
    measured (remapOnce x F (reassigned (· + 1) F.grains)) calls s'

/-- grain_tracker_throughput.cc:247-274 (`test_remap_cycle`) -/
def testCycle (x : RemapExt) (detect : Nat → Fld D K → Found P K D) (I : Init D K) (s : St D K) : Res (St D K) :=
  let s := setInitial I s
  (setup detect I.nOp s).bind fun F => measured (remapOnce x F (reassigned (fun op => (op + 1) % I.nOp) F.grains)) calls s

/-- grain_tracker_throughput.cc:155-275 (`run_tests`): the tests of `initial_setup` and `track` read the same blocks and leave
the solution as it is. -/
def runTests (x : RemapExt) (detect : Nat → Fld D K → Found P K D) (s : St D K) (I : Init D K) : Res (St D K) :=
  let s := setInitial I s
  (setup detect I.nOp s).bind fun _ => (testDependent x detect I s).bind (testCycle x detect I)

/-- grain_tracker_throughput.cc:388-409: the benchmark of one size, constructed for two order parameters -/
def benchmark (x : RemapExt) (detect : Nat → Fld D K → Found P K D) (init : Nat → Fld D K) (row : Nat) : Res (St D K) :=
  (opCounts row).foldlM (fun s n => runTests x detect s ⟨n, init n⟩) (setInitial ⟨2, init 2⟩ ⟨2, fun _ _ => 0⟩)

end tests

end Verif.TrackerBench
