/-
Specification of the benchmark of the grain tracker.
-/
import Verif.Model.TrackerBench
import Verif.Spec.Remap

namespace Verif.TrackerBench.Spec

open Verif.Spec

variable {P K D : Type}

/-- What the search for grains returns for `n` order parameters: every grain is kept in the order parameter it was found in, one
of the `n`; the tables are consistent. -/
structure Good (n : Nat) (F : Found P K D) : Prop where
  sorted : F.grains.Sorted
  ids : ∀ p ∈ F.grains, p.2.grainId = p.1
  same : ∀ p ∈ F.grains, p.2.op = p.2.oldOp ∧ p.2.op < n
  valid : ∀ c ∈ F.cells, ∀ (op pid : Nat), c.pids[op]? = some (some pid) → ∃ row e, F.lookup[op]? = some row ∧ row[pid]? = some e
  home : ∀ c ∈ F.cells, ∀ op g G, PresentAt F.lookup c op g → F.grains.get? g = some G → G.oldOp = op

/-- Every cell at `d` has the same grains. -/
def Uniform (F : Found P K D) (d : D) : Prop :=
  ∀ c ∈ F.cells, d ∈ c.dofs → ∀ c' ∈ F.cells, d ∈ c'.dofs → ∀ g G, GrainAt F.lookup F.grains c g G → GrainAt F.lookup F.grains c' g G

/-- The `i`-th optional argument or its default. -/
def Given (E : Env K) (argv : List String) (i : Nat) (dflt x : K) : Prop :=
  (∃ s, argv[i]? = some s ∧ E.atof s = some x) ∨ (argv[i]? = none ∧ x = dflt)

end Verif.TrackerBench.Spec
