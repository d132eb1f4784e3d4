import Verif.Model.Res
import Mathlib.Data.Nat.Log
import Mathlib.Algebra.Order.Floor.Ring
import Mathlib.Algebra.Order.Floor.Semiring
import Mathlib.Algebra.Order.Ring.Defs
import Mathlib.Algebra.Field.Defs
/-! # Mesh subdivision and refinement marking

`src/grid/grid_tools.cc` and `include/pf-applications/grid/grid_tools.h:551-895`. Unsigned numbers are
natural numbers; conversions that do not fit 32 bits are undefined behaviour. The triangulation itself
(deal.II) is not modelled, neither is its final smoothing of the flags. -/
namespace Verif.Mesh

/-- grid_tools.cc:31-39: trial division by 2 .. i/2 -/
def isPrimeLoop (i : Nat) : Bool := (List.range' 2 (i / 2 - 1)).all (fun j => i % j != 0)

/-- grid_tools.cc:20-45 `get_primes` (for `end` below the largest unsigned number, otherwise the loop in
the code does not end) -/
def getPrimes (start stop : Nat) : List Nat :=
  (List.range' start (stop + 1 - start)).filter (fun i => !(i == 1 || i == 0) && isPrimeLoop i)

def W : Nat := 2 ^ 32

/-- grid_tools.cc:61-62: `abs(static_cast<int>(n_current - n_ref))` in 32 bit arithmetic -/
def wrapDelta (a b : Nat) : Res Nat :=
  let w := (a + W - b) % W
  if w = W / 2 then .ub else .ok (if w < W / 2 then w else W - w)

/-- candidate for one prime, grid_tools.cc:58-62: number of refinements, number of cells, distance. The
quotient is an integer division; logarithm and power are exact for the numbers that occur. -/
def candidate (nRef p : Nat) : Res (Nat × Nat × Nat) :=
  let q := nRef / p
  if q = 0 then .ub                    -- conversion of ceil(log2(0)) = -inf
  else
    let s := Nat.clog 2 q
    let n := p * 2 ^ s
    if n ≥ W then .ub                  -- conversion of a value out of range
    else (wrapDelta n nRef).bind fun d => .ok (s, n, d)

/-- grid_tools.cc:56-70: state is (prime, refinements, distance) -/
def decomposeLoop (nRef : Nat) : List Nat → Nat × Nat × Nat → Res (Nat × Nat × Nat)
  | [], acc => .ok acc
  | p :: ps, acc => (candidate nRef p).bind fun c =>
      decomposeLoop nRef ps (if c.2.2 < acc.2.2 then (p, c.1, c.2.2) else acc)

/-- grid_tools.cc:47-73 `decompose_to_prime_tuple` -/
def decompose (nRef maxPrime : Nat) : Res (Nat × Nat) :=
  (decomposeLoop nRef (getPrimes 2 maxPrime) (0, 0, W - 1)).bind fun r => .ok (r.1, r.2.1)

/-- grid_tools.cc:86-93 -/
def decomposeAll (maxPrime : Nat) : List Nat → Res (List (Nat × Nat))
  | [] => .ok []
  | n :: ns => (decompose n maxPrime).bind fun r => (decomposeAll maxPrime ns).bind fun rs => .ok (r :: rs)

/-- grid_tools.cc:75-103 `adjust_divisions_to_primes`: base refinements and new subdivisions -/
def adjust (maxPrime : Nat) (subs : List Nat) : Res (Nat × List Nat) :=
  if maxPrime > 0 then
    (decomposeAll maxPrime subs).bind fun rs =>
      match (rs.map (·.2)).min? with
      | none => .ub                    -- min_element of an empty range
      | some base => .ok (base, rs.map (fun r => r.1 * 2 ^ (r.2 - base)))
  else .ok (0, subs)

inductive Refine | none | base | full deriving DecidableEq, Repr

/-- grid_tools.h:599-629 `make_initial_refines`: global and delayed refinements -/
def initialRefines (r : Refine) (nBase nInterface : Nat) : Nat × Nat :=
  match r with
  | .base => (nBase, nInterface)
  | .full => (nBase + nInterface, 0)
  | .none => (0, nBase + nInterface)

section
variable {K : Type} [Field K] [LinearOrder K] [FloorSemiring K]

/-- grid_tools.h:664-666: `static_cast<unsigned>(ceil(log2(r)))` for positive `r` in exact arithmetic; a
negative result is converted out of range -/
def ceilLog2 (r : K) : Res Nat := if r ≤ 1 / 2 then .ub else .ok (Nat.clog 2 ⌈r⌉₊)

/-- grid_tools.h:636-693 `create_mesh_from_interface`: subdivisions, global and delayed refinements.
`elements` is the wanted number of elements per interface, `elements0` that of the coarsest level. -/
def meshFromInterface (sizes : List K) (width elements elements0 : K) (refine : Refine) (maxPrime : Nat) :
    Res (List Nat × Nat × Nat) :=
  let he := width / elements
  (ceilLog2 (elements / elements0)).bind fun s =>
    let subs := sizes.map (fun x => ⌈x / he / 2 ^ s⌉₊)
    (adjust maxPrime subs).bind fun r =>
      let g := initialRefines refine r.1 s
      .ok (r.2, g.1, g.2)
end

/-! ## Marking of cells -/

/-- an active cell: level, whether locally owned, flags, and its local values for every block -/
structure Cell (K : Type) where
  level : Nat
  owned : Bool
  refine : Bool
  coarsen : Bool
  values : List (List K)
deriving DecidableEq, Repr

section
variable {K : Type} [Field K] [LinearOrder K]

/-- grid_tools.h:846-857: whether a value of the block lies in the interface range -/
def anyInside (vmin vmax : K) (vs : List K) : Bool := vs.any (fun v => decide (vmin < v ∧ v < vmax))

/-- grid_tools.h:862-863: whether the average of the block lies in the interface range (only evaluated
if no single value does, hence the sum is complete) -/
def avgInside (vmin vmax : K) (vs : List K) : Bool :=
  let a := vs.sum / (vs.length : K)
  decide (vmin < a ∧ a < vmax)

/-- grid_tools.h:840-872 loop over blocks with early exit -/
def markBlocks (vmin vmax : K) : List (List K) → Bool
  | [] => false
  | vs :: l => if anyInside vmin vmax vs then true
      else if avgInside vmin vmax vs then true
      else markBlocks vmin vmax l

/-- grid_tools.h:835-873 -/
def markInterface (vmin vmax : K) (c : Cell K) : Cell K :=
  if c.owned = false ∨ c.refine = true then c
  else if markBlocks vmin vmax c.values then { c with coarsen := false, refine := true } else c

/-- grid_tools.h:875-891 -/
def limitLevels (lo hi : Nat) (c : Cell K) : Cell K :=
  let c1 := if c.refine = true ∧ c.level = hi then { c with refine := false }
    else if c.coarsen = true ∧ c.level = lo then { c with coarsen := false } else c
  if c1.level > hi then { c1 with refine := false, coarsen := true } else c1

/-- grid_tools.h:831-891: all cells, after the flags were set by the error estimator -/
def mark (vmin vmax : K) (lo hi : Nat) (cells : List (Cell K)) : List (Cell K) :=
  (cells.map (markInterface vmin vmax)).map (limitLevels lo hi)
end
end Verif.Mesh
