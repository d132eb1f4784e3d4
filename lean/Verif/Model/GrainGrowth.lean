/-
Grain growth model:
  applications/sintering/include/pf-applications/sintering/operator_grain_growth.h
and the choice of the output fields
  applications/sintering/include/pf-applications/sintering/operator_base.h

Simplifications: one lane and one quadrature point; `double` is a field; gradients are elements of a module.
The arrays of values, increments and results are functions of the index, of which the first `n` entries
are used.  The old solutions are given as a list of pairs (weight, value).
-/
import Verif.Model.FreeEnergy
import Mathlib.Algebra.Module.Defs
import Mathlib.Logic.Function.Basic

namespace Verif.GrainGrowth

open Verif.FreeEnergy (powerSum)

variable {K : Type} [Field K]

/-- The first `n` entries of an array. -/
def entries (n : Nat) (x : Nat → K) : List K := (List.range n).map x

/-- operator_grain_growth.h:66-67: inner loop, `j` from `i+1` on; `k` is the number of remaining steps. -/
def mixedInner (x : Nat → K) (i : Nat) (acc : K) : Nat → Nat → K
  | 0, _ => acc
  | k + 1, j => mixedInner x i (acc + x i * x i * x j * x j) k (j + 1)

/-- operator_grain_growth.h:64-67: sum over pairs `i < j < n`. -/
def mixedOuter (n : Nat) (x : Nat → K) (acc : K) : Nat → Nat → K
  | 0, _ => acc
  | k + 1, i => mixedOuter n x (mixedInner x i acc (n - (i + 1)) (i + 1)) k (i + 1)

/-- operator_grain_growth.h:47-187 (`Evaluation`): the members; sum of the fourth powers and mixed sum are set
only if the template argument `with_power_4` is true. -/
structure Eval (K : Type) where
  A : K
  B : K
  p2 : K
  p4mixed : Option (K × K)

/-- operator_grain_growth.h:51-137 (the constructors). -/
def eval (with4 : Bool) (A B : K) (n : Nat) (x : Nat → K) : Eval K :=
  { A := A, B := B, p2 := powerSum 2 (entries n x),
    p4mixed := if with4 then some (powerSum 4 (entries n x), mixedOuter n x 0 n 0) else none }

namespace Eval

/-- operator_grain_growth.h:139-148 (`f`); the `Assert` is compiled in debug mode only. -/
def f (e : Eval K) : Res K :=
  match e.p4mixed with
  | none => .ub
  | some (p4, mx) => .ok (-e.A / 2 * e.p2 + e.B / 4 * p4 + mx + 1 / 4)

/-- operator_grain_growth.h:150-157 (`df_detai`). -/
def df_detai (e : Eval K) (eta : K) : K :=
  let eta2 := eta * eta
  let eta3 := eta * eta * eta
  (-e.A) * eta + e.B * eta3 + 2 * eta * (e.p2 - eta2)

/-- operator_grain_growth.h:166-172 (`d2f_detai2`). -/
def d2f_detai2 (e : Eval K) (eta : K) : K :=
  let eta2 := eta * eta
  (-e.A) + 3 * e.B * eta2 + 2 * (e.p2 - eta2)

/-- operator_grain_growth.h:174-179 (`d2f_detaidetaj`). -/
def d2f_detaidetaj (_ : Eval K) (etai etaj : K) : K := 4 * etai * etaj

end Eval

/-- operator_grain_growth.h:255-256: `temp += etas[ig] * value[ig]` for `ig` from `i` on; an uninitialised
`temp` is `none`, and reading it is undefined. -/
def dotLoop (etas value : Nat → K) (temp : Option K) : Nat → Nat → Res (Option K)
  | 0, _ => .ok temp
  | k + 1, i =>
    match temp with
    | none => .ub
    | some t => dotLoop etas value (some (t + etas i * value i)) k (i + 1)

/-- operator_grain_growth.h:242-261 (`apply_d2f_detaidetaj`) with `temp` starting from `init`. -/
def applyD2fFrom (init : Option K) (L : K) (n : Nat) (etas value result : Nat → K) : Res (Nat → K) :=
  if n ≤ 1 then .ok result
  else do
    match ← dotLoop etas value init (n - 1) 1 with
    | none => .ub
    | some t => .ok fun i => if i < n then result i + (L * 4) * etas i * (t - etas i * value i) else result i

/-- operator_grain_growth.h:242-261 as written: `VectorizedArrayType temp;` is not initialised. -/
def applyD2f (L : K) (n : Nat) (etas value result : Nat → K) : Res (Nat → K) :=
  applyD2fFrom none L n etas value result

/-- Parameters of the operator: coefficients of the energy, mobility, gradient coefficient and weight of the
current solution in the time derivative. -/
structure Par (K : Type) where
  A : K
  B : K
  L : K
  kappa : K
  weight : K

/-- `value_result[i] += v`. -/
def addAt (r : Nat → K) (i : Nat) (v : K) : Nat → K := Function.update r i (r i + v)

/-- operator_grain_growth.h:596-604: mixed terms of row `ig` for `jg < k`. -/
def mixedRows (p : Par K) (e : Eval K) (etas value : Nat → K) (ig : Nat) (r : Nat → K) : Nat → (Nat → K)
  | 0 => r
  | k + 1 =>
    let r := mixedRows p e etas value ig r k
    let d := e.d2f_detaidetaj (etas ig) (etas k)
    let r := addAt r ig (p.L * d * value k)
    addAt r k (p.L * d * value ig)

/-- operator_grain_growth.h:587-605: values of the rows `ig < k`; `value_result` starts from zero
(`Tensor` initialises its entries). -/
def vmultRows (p : Par K) (e : Eval K) (etas value : Nat → K) : Nat → (Nat → K)
  | 0 => fun _ => 0
  | k + 1 =>
    let r := vmultRows p e etas value k
    let r := addAt r k (value k * p.weight + p.L * e.d2f_detai2 (etas k) * value k)
    mixedRows p e etas value k r k

variable {V : Type} [AddCommGroup V] [Module K V]

/-- operator_grain_growth.h:559-610 (`do_vmult_kernel`): values and gradients of the rows. -/
def vmult (p : Par K) (n : Nat) (etas value : Nat → K) (gradient : Nat → V) : (Nat → K) × (Nat → V) :=
  let e := eval false p.A p.B n etas
  (vmultRows p e etas value n, fun i => (p.L * p.kappa) • gradient i)

/-- time_integrators.h:72-91 (`compute_time_derivative`): accumulates on `acc`. -/
def timeDerivative (acc val weight : K) : List (K × K) → K
  | old => old.foldl (fun a wo => a + wo.2 * wo.1) (acc + val * weight)

/-- operator_grain_growth.h:805-891 (`do_evaluate_nonlinear_residual`): values and gradients of the rows.
`mode` is the template argument `with_time_derivative`, of which only the truth value is used. -/
def residual (p : Par K) (mode : Nat) (n : Nat) (old : Nat → List (K × K)) (etas : Nat → K) (grad : Nat → V) :
    (Nat → K) × (Nat → V) :=
  let e := eval false p.A p.B n etas
  (fun i =>
    let v := p.L * e.df_detai (etas i)
    if mode ≠ 0 then timeDerivative v (etas i) p.weight (old i) else v,
   fun i => (p.L * p.kappa) • grad i)

/-! ### Output -/

/-- operator_grain_growth.h:340-347 (`OutputFields`). -/
inductive OutField
  | bnds | gb | f | df | d2f
deriving DecidableEq, Repr

/-- operator_grain_growth.h:349-357 (`possible_entries`): requested name (as the field it is meant for), mask
entry and number of vectors. -/
def possible (n : Nat) : List (OutField × OutField × Nat) :=
  [(.bnds, .bnds, 1), (.gb, .gb, 1), (.f, .f, 1), (.df, .d2f, n), (.d2f, .d2f, n * (n - 1) / 2)]

/-- operator_base.h:936-958 (`get_vector_output_entries_mask`): mask as the list of its set entries. -/
def maskOf (requested : List OutField) : List (OutField × OutField × Nat) → List OutField × Nat
  | [] => ([], 0)
  | (name, entry, k) :: r =>
    let t := maskOf requested r
    if name ∈ requested then (entry :: t.1, k + t.2) else t

/-- Labels of the output vectors, operator_grain_growth.h:454-477. -/
inductive Label
  | bnds | gb | f
  | df (i : Nat)
  | d2f (i j : Nat)
deriving DecidableEq, Repr

/-- operator_grain_growth.h:454-477 (`names`). -/
def names (n : Nat) (mask : List OutField) : List Label :=
  (if .bnds ∈ mask then [.bnds] else []) ++
  (if .gb ∈ mask then [.gb] else []) ++
  (if .f ∈ mask then [.f] else []) ++
  (if .d2f ∈ mask then (List.range n).map Label.df else []) ++
  (if .d2f ∈ mask then
    (List.range n).flatMap fun i => Label.d2f i i :: (List.range' (i + 1) (n - (i + 1))).map (Label.d2f i)
   else [])

/-- operator_grain_growth.h:408-411: sum over pairs. -/
def gbSum (n : Nat) (x : Nat → K) : K :=
  (List.range n).foldl (fun a i => (List.range i).foldl (fun a j => a + x i * x j) a) 0

/-- operator_grain_growth.h:401-430: the values written to `temp` one after the other. -/
def values (A B : K) (n : Nat) (mask : List OutField) (x : Nat → K) : Res (List K) := do
  let e := eval true A B n x
  let f ← e.f
  .ok ((if .bnds ∈ mask then [powerSum 2 (entries n x)] else []) ++
    (if .gb ∈ mask then [gbSum n x] else []) ++
    (if .f ∈ mask then [f] else []) ++
    (if .df ∈ mask then (List.range n).map fun i => e.df_detai (x i) else []) ++
    (if .d2f ∈ mask then
      (List.range n).flatMap fun i =>
        (List.range' (i + 1) (n - (i + 1))).map fun j => e.d2f_detaidetaj (x i) (x j)
     else []))

/-- operator_grain_growth.h:333-484 (`do_add_data_vectors_kernel`) at one quadrature point: the labelled output
values.  Writing behind the end of `temp` or reading behind the end of `names` is undefined; entries of `temp`
which are not written keep the initial zero. -/
def output (A B : K) (n : Nat) (requested : List OutField) (x : Nat → K) : Res (List (Label × K)) :=
  let (mask, k) := maskOf requested (possible n)
  if k = 0 then .ok []
  else do
    let v ← values A B n mask x
    if k < v.length then .ub
    else
      let temp := v ++ List.replicate (k - v.length) 0
      let nm := names n mask
      if nm.length < k then .ub else .ok (nm.zip temp)

end Verif.GrainGrowth
