import Verif.Model.Res
import Mathlib.Algebra.Order.Field.Basic
/-!
# Time stepping with ARKODE

Models `TimeMarchingArkode` (include/pf-applications/time_integration/time_marching.h:827-1166) together with
`insert_block` and `remove_block` of the block vectors (include/pf-applications/lac/dynamic_block_vector.h:262-291).
A solution is the list of its blocks. The inverse of the mass matrix together with the handling of the
constraints (lines 1028-1042, 1117-1129, or the identity of lines 1131-1136) is a function `minv` on blocks.

The integrator of SUNDIALS with its wrapper of deal.II is outside the repository. Of the wrapper the model keeps what
`solve_ode_incrementally` does with times and vectors: it asserts that the requested time is larger than the end of
the previous interval, integrates from there, starts from the given vector if it is asked to reset and from its own
copy otherwise, and remembers the end. The integrator itself is the parameter `ode`: given a right-hand side, an interval
and an initial value it returns the outcome and the last time at which it evaluated the right-hand side. The step size of
the integrator (lines 945-963), the solution of the linear systems with their failures, and the statistics are not modelled.
-/
namespace Verif.Arkode
variable {K V : Type}

/-- `EquationType` (include/pf-applications/pde/equation_type.h:20-25) -/
inductive EqType
  | timeDependent
  | stationary
  | undefined
  deriving DecidableEq, Repr

/-- the loop of the constructor over the components from `c` on (lines 855-866): `stationary_indices` -/
def stationaryIndices : Nat → List EqType → Res (List Nat)
  | _, [] => .ok []
  | c, e :: es => do
    Res.assertThrow (e != .undefined)
    let rest ← stationaryIndices (c + 1) es
    .ok (if e == .stationary then c :: rest else rest)

/-- `insert_block` (dynamic_block_vector.h:262-273): the blocks behind are moved one place up; the range is only asserted in
debug builds -/
def insertBlock (y : List V) (i : Nat) (b : V) : Res (List V) :=
  if i ≤ y.length then .ok (y.insertIdx i b) else .ub

/-- `remove_block` (dynamic_block_vector.h:275-291): the block and the remaining vector -/
def removeBlock (y : List V) (i : Nat) : Res (V × List V) := do
  let b ← Res.index y i
  .ok (b, y.eraseIdx i)

/-- the loops that insert the stationary blocks in increasing order (lines 922-927, 1104-1106) -/
def insertAll : List V → List (Nat × V) → Res (List V)
  | y, [] => .ok y
  | y, (i, b) :: rest => do
    let y ← insertBlock y i b
    insertAll y rest

/-- the loops that remove the stationary blocks in decreasing order (lines 931-935, 1083-1086): the remaining vector and
the removed blocks in increasing order -/
def removeAll (y : List V) : List Nat → Res (List V × List V)
  | [] => .ok (y, [])
  | i :: rest => do
    let (y, bs) ← removeAll y rest
    let (b, y) ← removeBlock y i
    .ok (y, b :: bs)

/-- the discretised problem: residual as a function of time and of all blocks, inverse mass matrix -/
structure Problem (K V : Type) where
  types : List EqType
  res : K → List V → List V
  minv : V → V

/-- `explicit_function` (lines 912-941) with the stationary blocks `bs` -/
def rhs [Neg V] (P : Problem K V) (idx : List Nat) (bs : List V) (t : K) (y : List V) : Res (List V) := do
  let full ← insertAll y (idx.zip bs)
  let (r, _) ← removeAll (P.res t full) idx
  .ok (r.map fun x => -x)

/-- the integrator: right-hand side, begin and end of the interval, initial value; outcome and last time at which the
right-hand side was evaluated -/
abbrev Ode (K V : Type) := (K → List V → Res (List V)) → K → K → List V → Res (List V) × K

/-- members of the class, of the wrapper (`last_end_time` and its copy of the vector) and the time of `time_data`
(include/pf-applications/time_integration/time_integrator_data.h:40, 49) -/
structure St (K V : Type) where
  time : K
  lastEnd : K
  ready : Bool
  inner : List V
  /-- the intervals integrated so far, latest first (not a variable of the program) -/
  done : List (K × K)

/-- after construction (lines 853, 869, 899-908): the integrator starts at the `time_start` of the parameters, while the
time of `time_data` is zero -/
def construct [Zero K] (timeStart : K) : St K V := ⟨0, timeStart, false, [], []⟩

/-- the loop over the stationary blocks after the integration (lines 1114-1141) with the residual `r` -/
def setStationary [Neg V] (P : Problem K V) (r : List V) : List V → List Nat → Res (List V)
  | x, [] => .ok x
  | x, b :: rest => do
    let rb ← Res.index r b
    if b < x.length then setStationary P r (x.set b (-(P.minv rb))) rest else .ub

/-- the part of `make_step` after the integration (lines 1098-1142): the stationary blocks -/
def stationaryPart [Neg V] (P : Problem K V) (idx : List Nat) (bs : List V) (t : K) (y : List V) : Res (List V) := do
  let full ← insertAll y (idx.zip bs)
  setStationary P (P.res t full) full idx

/-- `make_step` (lines 1058-1143) with step size `dt`: new solution, or the exception, and the new members -/
def makeStep [Add K] [LT K] [DecidableLT K] [Neg V] (P : Problem K V) (idx : List Nat) (ode : Ode K V) (dt : K)
    (st : St K V) (u : List V) : Res (List V) × St K V :=
  let timeEnd := st.time + dt
  match removeAll u idx with
  | .exc e => (.exc e, st)
  | .ub => (.ub, st)
  | .ok (y, bs) =>
    if st.lastEnd < timeEnd then
      match ode (rhs P idx bs) st.lastEnd timeEnd (if st.ready then st.inner else y) with
      | (.ok y', _) =>
        (stationaryPart P idx bs timeEnd y', ⟨timeEnd, timeEnd, true, y', (st.lastEnd, timeEnd) :: st.done⟩)
      | (.exc e, t) => (.exc e, { st with time := t })
      | (.ub, t) => (.ub, { st with time := t })
    else (.exc .assertThrow, st)

/-- `clear` (lines 1145-1152) -/
def clear (st : St K V) : St K V := { st with ready := false }

/-- consecutive successful steps with the given step sizes: the solution is passed on -/
def steps [Add K] [LT K] [DecidableLT K] [Neg V] (P : Problem K V) (idx : List Nat) (ode : Ode K V) :
    List K → St K V → List V → Res (List V) × St K V
  | [], st, u => (.ok u, st)
  | dt :: dts, st, u =>
    match makeStep P idx ode dt st u with
    | (.ok u', st') => steps P idx ode dts st' u'
    | (.exc e, st') => (.exc e, st')
    | (.ub, st') => (.ub, st')

end Verif.Arkode
