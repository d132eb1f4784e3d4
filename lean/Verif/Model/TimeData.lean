import Verif.Model.Res
import Mathlib.Algebra.Order.Field.Basic
/-!
# Time integrator data and implicit schemes

Models `include/pf-applications/time_integration/time_schemes.h` (lines 27-153),
`time_integrator_data.h` (lines 28-227) and `compute_time_derivative` (time_integrators.h:72-91).
Step sizes are elements of an ordered field.
-/
namespace Verif
variable {K : Type}

/-- the implicit schemes created by `create_time_scheme` (time_schemes.h:213-227) -/
inductive Scheme
  | bdf1 | bdf2 | bdf3
  deriving DecidableEq, Repr

/-- `get_order` (time_schemes.h:67-71, 90-94, 119-123) -/
def Scheme.order : Scheme → Nat
  | .bdf1 => 1
  | .bdf2 => 2
  | .bdf3 => 3

section
variable [Field K] [LinearOrder K]

/-- `effective_order` (time_schemes.h:45-51) -/
def effectiveOrder (dt : List K) : Nat := dt.countP (fun v => decide (v > 0))

/-- `dt[i]`; all uses below are in range, as the effective order does not exceed the size -/
def dtAt (dt : List K) (i : Nat) : K := dt.getD i 0

/-- weights of the branch for effective order 1 (time_schemes.h:79-80) -/
def setW1 (dt w : List K) : List K :=
  (w.set 0 (1 / dtAt dt 0)).set 1 (-1 / dtAt dt 0)

/-- weights of the branch for effective order 2 (time_schemes.h:102-104) -/
def setW2 (dt w : List K) : List K :=
  let d0 := dtAt dt 0
  let d1 := dtAt dt 1
  ((w.set 0 ((2 * d0 + d1) / (d0 * (d0 + d1)))).set 1 (-(d0 + d1) / (d0 * d1))).set 2
    (d0 / (d1 * (d0 + d1)))

/-- weights of the branch for effective order 3 (time_schemes.h:131-137) -/
def setW3 (dt w : List K) : List K :=
  let d0 := dtAt dt 0
  let d1 := dtAt dt 1
  let d2 := dtAt dt 2
  let w1 := -(d0 + d1) * (d0 + d1 + d2) / (d0 * d1 * (d1 + d2))
  let w2 := d0 * (d0 + d1 + d2) / (d1 * d2 * (d0 + d1))
  let w3 := -d0 * (d0 + d1) / (d2 * (d1 + d2) * (d0 + d1 + d2))
  (((w.set 1 w1).set 2 w2).set 3 w3).set 0 (-(w1 + w2 + w3))

/-- `compute_weights` (time_schemes.h:73-84, 96-113, 125-152) -/
def computeWeights (s : Scheme) (dt : List K) : List K :=
  let w := List.replicate (dt.length + 1) 0
  match s with
  | .bdf1 => if effectiveOrder dt = 1 then setW1 dt w else w
  | .bdf2 =>
    if effectiveOrder dt = 2 then setW2 dt w
    else if effectiveOrder dt = 1 then setW1 dt w else w
  | .bdf3 =>
    if effectiveOrder dt = 3 then setW3 dt w
    else if effectiveOrder dt = 2 then setW2 dt w
    else if effectiveOrder dt = 1 then setW1 dt w else w

/-- `compute_time_derivative` (time_integrators.h:82-90): `vals` are the value at the new time and the
values in the history, `weights.size() = order + 1` -/
def timeDerivative (weights vals : List K) : K :=
  (List.zipWith (· * ·) vals weights).foldl (· + ·) 0

/-- `TimeIntegratorData` (time_integrator_data.h:218-226); `scheme = none` is the null pointer. The
current time is kept apart. -/
structure TimeData (K : Type) where
  scheme : Option Scheme
  order : Nat
  dt : List K
  weights : List K
  stationaryWeight : K
  deriving DecidableEq, Repr

namespace TimeData

/-- default constructor (time_integrator_data.h:33-40) -/
def default : TimeData K := ⟨none, 0, [0], [1], 0⟩

/-- constructor from a scheme (time_integrator_data.h:42-49); `vector(n)` is filled with zeros -/
def ofScheme (s : Option Scheme) : TimeData K :=
  let order := (s.map Scheme.order).getD 0
  ⟨s, order, List.replicate (max order 1) 0, List.replicate (order + 1) 0,
    if s.isSome then 1 else 0⟩

/-- `update_weights` (time_integrator_data.h:211-216) -/
def updateWeights (d : TimeData K) : TimeData K :=
  match d.scheme with
  | some s => { d with weights := computeWeights s d.dt }
  | none => d

/-- `dt[i] = x` on a vector, undefined out of range -/
def setDt (d : TimeData K) (i : Nat) (x : K) : Res (TimeData K) :=
  if i < d.dt.length then .ok { d with dt := d.dt.set i x } else .ub

/-- `replace_dt` (time_integrator_data.h:90-96) -/
def replaceDt (d : TimeData K) (x : K) : Res (TimeData K) := do
  let d ← d.setDt 0 x
  pure d.updateWeights

/-- body of the loop of `update_dt` -/
def shiftDt (d : TimeData K) (i : Nat) : Res (TimeData K) := do
  let x ← Res.index d.dt i
  d.setDt (i + 1) x

/-- `update_dt` (time_integrator_data.h:98-109): `i = order - 2, ..., 0` -/
def updateDt (d : TimeData K) (x : K) : Res (TimeData K) := do
  let d ← (List.range (d.order - 1)).reverse.foldlM shiftDt d
  let d ← d.setDt 0 x
  pure d.updateWeights

/-- constructor with the first step (time_integrator_data.h:51-56) -/
def ofSchemeDt (s : Option Scheme) (x : K) : Res (TimeData K) := (ofScheme s).updateDt x

/-- body of the copying loop of the constructor below -/
def copyDt (other : TimeData K) (d : TimeData K) (i : Nat) : Res (TimeData K) := do
  let x ← Res.index other.dt i
  d.setDt i x

/-- constructor taking over the steps of another object (time_integrator_data.h:58-67) -/
def ofOther (other : TimeData K) (s : Option Scheme) : Res (TimeData K) := do
  let d : TimeData K := ofScheme s
  let d ← copyDt other d 0
  let d ← ((List.range (min d.order other.order)).tail).foldlM (copyDt other) d
  pure d.updateWeights

/-- `get_current_dt` (time_integrator_data.h:144-148) -/
def currentDt (d : TimeData K) : Res K := Res.index d.dt 0

/-- contents of a binary archive: an unsigned number and raw floating point numbers without a count -/
structure Archive (K : Type) where
  order : Nat
  data : List K
  deriving DecidableEq, Repr

/-- `save` (time_integrator_data.h:187-193) -/
def save (d : TimeData K) : Archive K := ⟨d.order, d.dt⟩

/-- `vector::resize` -/
def resize (l : List K) (n : Nat) : List K := l.take n ++ List.replicate (n - l.length) 0

/-- `load` (time_integrator_data.h:195-206); too little data makes the archive throw -/
def load (d : TimeData K) (a : Archive K) : Res (TimeData K) :=
  if a.data.length < a.order then .exc .assertThrow
  else .ok ({ d with order := a.order, dt := a.data.take a.order,
                     weights := resize d.weights (a.order + 1) } : TimeData K).updateWeights

/-- Reading the time data in the restart constructor of the driver (driver.h:349-378). -/
def restore (full : Bool) (s : Option Scheme) (a : Archive K) : Res (TimeData K) := do
  let d ← load default a
  if full then ofOther d s
  else do
    let x ← d.currentDt
    ofSchemeDt s x

end TimeData
end
end Verif
