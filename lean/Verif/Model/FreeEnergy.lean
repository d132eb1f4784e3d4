/-
Bulk free energy and its derivatives:
  applications/sintering/include/pf-applications/sintering/free_energy.h
  include/pf-applications/numerics/power_helper.h
and the conversion of physical energies to model coefficients:
  applications/sintering/src/tools.cc

Simplifications: `VectorizedArray` is one lane, `double` is a field.
-/
import Verif.Model.Res
import Mathlib.Algebra.Field.Defs

namespace Verif.FreeEnergy

variable {K : Type} [Field K]

/-- power_helper.h:36-81 (`PowerHelper::power_sum`, the generic variants): sum of powers from the
left, starting from zero. -/
def powerSum (p : Nat) (etas : List K) : K := etas.foldl (fun a b => a + b ^ p) 0

/-- power_helper.h:84-108 (`PowerHelper<2,2>::power_sum`). -/
def powerSum22 (a b : K) : K := a * a + b * b

/-- power_helper.h:110-135 (`PowerHelper<2,3>::power_sum`). -/
def powerSum23 (a b : K) : K := a * a * a + b * b * b

/-- free_energy.h:38-176 (`FreeEnergy::Evaluation`): the members.  The sum of cubes is only set if the
template argument `with_power_3` is true. -/
structure Eval (K : Type) where
  A : K
  B : K
  c : K
  p2 : K
  p3 : Option K
deriving DecidableEq

/-- free_energy.h:66-68, 84-86, 102-104: `etas[ig] = state[2 + ig]` for `ig < n_grains`; reading past the
end of the state is undefined. -/
def readEtas (state : List K) : Nat → Res (List K)
  | 0 => .ok []
  | n + 1 => do
    let l ← readEtas state n
    match state[2 + n]? with
    | some v => .ok (l ++ [v])
    | none => .ub

/-- free_energy.h:41-109 (the constructors of `Evaluation`).  Concentration is entry 0 of the state, entry
1 the chemical potential, order parameters follow. -/
def eval (with3 : Bool) (A B : K) (state : List K) (n : Nat) : Res (Eval K) :=
  match state[0]? with
  | none => .ub
  | some c => do
    let etas ← readEtas state n
    .ok { A := A, B := B, c := c, p2 := powerSum 2 etas,
          p3 := if with3 then some (powerSum 3 etas) else none }

namespace Eval

/-- free_energy.h:111-122 (`f`).  Without the sum of cubes an uninitialised member is read (the
`Assert` is compiled only in debug mode). -/
def f (e : Eval K) : Res K :=
  match e.p3 with
  | none => .ub
  | some p3 =>
    .ok (e.A * (e.c * e.c) * ((-e.c + 1) * (-e.c + 1)) +
      e.B * ((e.c * e.c) + (-6 * e.c + 6) * e.p2 - (-4 * e.c + 8) * p3 + 3 * (e.p2 * e.p2)))

/-- free_energy.h:124-134 (`df_dc`). -/
def df_dc (e : Eval K) : Res K :=
  match e.p3 with
  | none => .ub
  | some p3 =>
    .ok (e.A * (e.c * e.c) * (2 * e.c - 2) + 2 * e.A * e.c * ((-e.c + 1) * (-e.c + 1)) +
      e.B * (2 * e.c - 6 * e.p2 + 4 * p3))

/-- free_energy.h:136-141 (`df_detai`). -/
def df_detai (e : Eval K) (etai : K) : K :=
  etai * (e.B * 12) * (etai * (1 * e.c - 2) + (-e.c + 1) + e.p2)

/-- free_energy.h:143-148 (`d2f_dc2`). -/
def d2f_dc2 (e : Eval K) : K :=
  2 * e.A * (e.c * e.c) + 4 * e.A * e.c * (2 * e.c - 2) + 2 * e.A * ((-e.c + 1) * (-e.c + 1)) + 2 * e.B

/-- free_energy.h:150-154 (`d2f_dcdetai`). -/
def d2f_dcdetai (e : Eval K) (etai : K) : K := (e.B * 12) * etai * (etai - 1)

/-- free_energy.h:156-161 (`d2f_detai2`). -/
def d2f_detai2 (e : Eval K) (etai : K) : K :=
  e.B * (12 - 12 * e.c + 2 * etai * (12 * e.c - 24) + 24 * (etai * etai) + 12 * e.p2)

/-- free_energy.h:163-168 (`d2f_detaidetaj`). -/
def d2f_detaidetaj (e : Eval K) (etai etaj : K) : K := 24 * e.B * etai * etaj

end Eval

/-- free_energy.h:246-247: the loop accumulating `etas[ig] * value[ig]` for `ig = 1, …`. -/
def dotFrom (acc : K) : List (K × K) → K
  | [] => acc
  | (e, v) :: r => dotFrom (acc + e * v) r

/-- free_energy.h:233-252 (`apply_d2f_detaidetaj`).  One triple (order parameter, value, result so far)
per grain. -/
def applyD2f (B L : K) (l : List (K × K × K)) : List K :=
  if l.length ≤ 1 then l.map (fun t => t.2.2)
  else
    match l with
    | [] => []
    | (e0, v0, _) :: r =>
      let temp := dotFrom (e0 * v0) (r.map fun t => (t.1, t.2.1))
      l.map fun t => t.2.2 + (L * 24 * B) * t.1 * (temp - t.1 * t.2.1)

/-- tools.h `EnergyCoefficients`. -/
structure Coefficients (K : Type) where
  A : K
  B : K
  kappaC : K
  kappaP : K
deriving DecidableEq

/-- tools.cc:18-43 (`compute_energy_params`). -/
def computeEnergyParams (surface gb width length energy : K) : Coefficients K :=
  let sgb := gb / energy * length * length
  let ssf := surface / energy * length * length
  let kappaC := 3 / 4 * (2 * ssf - sgb) * width
  let kappaP := 3 / 4 * sgb * width
  let A := (12 * ssf - 7 * sgb) / width
  let B := sgb / width
  { A := A, B := B, kappaC := kappaC, kappaP := kappaP }

end Verif.FreeEnergy
