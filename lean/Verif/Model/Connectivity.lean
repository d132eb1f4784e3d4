/-
Repair of packings that are not connected.

Models `applications/sintering/scripts/check_particle_connectivity.py:80-99, 112-161, 204-301`: contacts, closest pairs of components, closing of gaps, the loop. Particles are
numbers with the distances of their centres. The search tree, the components and the minimum spanning tree of SciPy are external; the latter two are parameters.
-/
import Mathlib.Algebra.Order.Field.Basic

namespace Verif.Connectivity

variable {K : Type} [Field K] [LinearOrder K]

/-- check_particle_connectivity.py:84-93: a pair is looked at only within the largest possible distance of contact. -/
def contact (dist : Nat → Nat → K) (rmax tol : K) (r : Nat → K) (i j : Nat) : Bool :=
  decide (dist i j ≤ 2 * rmax + tol) && decide (dist i j - (r i + r j + tol) ≤ 0)

inductive Strategy
  | larger | smaller | split
  deriving DecidableEq, Repr

/-- `radii[k] += x` -/
def add (r : Nat → K) (k : Nat) (x : K) : Nat → K := fun l => if l = k then r l + x else r l

/-- check_particle_connectivity.py:204-234; the strategies other than these three are rejected by the parser of the arguments. -/
def closeGap (s : Strategy) (r : Nat → K) (i j : Nat) (gap : K) : Nat → K :=
  if gap ≤ 0 then r
  else match s with
    | .larger => add r (if r j ≤ r i then i else j) gap
    | .smaller => add r (if r i ≤ r j then i else j) gap
    | .split => add (add r i (gap / 2)) j (gap / 2)

/-- check_particle_connectivity.py:270-282 -/
def bridgeStep (dist : Nat → Nat → K) (tol : K) (s : Strategy) (r : Nat → K) (e : Nat × Nat) : Nat → K :=
  let gap := dist e.1 e.2 - r e.1 - r e.2 - tol
  if gap ≤ 0 then r else closeGap s r e.1 e.2 gap

def iteration (dist : Nat → Nat → K) (tol : K) (s : Strategy) (bridges : List (Nat × Nat)) (r : Nat → K) : Nat → K := bridges.foldl (bridgeStep dist tol s) r

/-- check_particle_connectivity.py:257-297: `none` if the number of iterations is not enough. -/
def repair (dist : Nat → Nat → K) (tol : K) (s : Strategy) (one : (Nat → K) → Bool) (bridges : (Nat → K) → List (Nat × Nat)) : Nat → (Nat → K) → Option (Nat → K)
  | 0, _ => none
  | k + 1, r => if one r then some r else repair dist tol s one bridges k (iteration dist tol s (bridges r) r)

/-- `np.argmin`: the first smallest. -/
def argmin {A : Type} (f : A → K) : List A → Option A
  | [] => none
  | x :: l => some (l.foldl (fun m y => if f y < f m then y else m) x)

/-- check_particle_connectivity.py:143-150: for each particle of `a` the nearest centre of `b`, among these pairs the one with the smallest gap. -/
def closestPair (dist : Nat → Nat → K) (tol : K) (r : Nat → K) (a b : List Nat) : Option (Nat × Nat) :=
  argmin (fun p => dist p.1 p.2 - r p.1 - r p.2 - tol) (a.filterMap fun i => (argmin (dist i) b).map fun j => (i, j))

end Verif.Connectivity
