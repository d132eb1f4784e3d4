import Verif.Model.DomainIntegrals
import Mathlib.Algebra.BigOperators.Group.Finset.Basic
/-!
# Specification of the integrals over the domain

Integrands by their formulas, the integral as sum over all cells in use.
-/
namespace Verif.DomainIntegrals

variable {K : Type} [Field K] [LinearOrder K]

/-- the interface energy of the order parameters and of the concentration (if there is one) -/
def gradEnergy (n : Nat) (kappaP : K) (grads : Nat → K) : K :=
  kappaP / 2 * ∑ i ∈ Finset.range n, grads i

/-- sum over all pairs -/
def pairSum (n : Nat) (eta : Nat → K) : K := ∑ j ∈ Finset.range n, ∑ i ∈ Finset.range j, eta i * eta j

/-- sum of squares -/
def squareSum (n : Nat) (eta : Nat → K) : K := ∑ i ∈ Finset.range n, eta i ^ 2

/-- integrands of the sintering operators -/
inductive Sintering (E : Env K) : String → Eval K → Prop
  | solid : Sintering E "solid_vol" fun v _ => v 0
  | surface : Sintering E "surf_area" fun v _ => v 0 * (1 - v 0)
  | boundary : Sintering E "gb_area" fun v _ => pairSum E.nGrains fun i => v (2 + i)
  | size : Sintering E "avg_grain_size" fun v _ => squareSum E.nGrains fun i => v (2 + i)
  | surfaceNrm : Sintering E "surf_area_nrm" fun v _ => if 45 / 100 ≤ v 0 ∧ v 0 ≤ 55 / 100 then 1 else 0
  | free : Sintering E "free_energy" fun v g =>
      E.bulk v + gradEnergy E.nGrains E.kappaP (fun i => g (2 + i)) + E.kappaC / 2 * g 0
  | bulk : Sintering E "bulk_energy" fun v _ => E.bulk v
  | interface : Sintering E "interface_energy" fun _ g =>
      gradEnergy E.nGrains E.kappaP (fun i => g (2 + i)) + E.kappaC / 2 * g 0
  | volume : Sintering E "control_vol" fun _ _ => 1

/-- integrands of grain growth -/
inductive Growth (E : Env K) : String → Eval K → Prop
  | boundary : Growth E "gb_area" fun v _ => pairSum E.nGrains v
  | size : Growth E "avg_grain_size" fun v _ => squareSum E.nGrains v
  | free : Growth E "free_energy" fun v g => E.bulk v + gradEnergy E.nGrains E.kappaP g
  | bulk : Growth E "bulk_energy" fun v _ => E.bulk v
  | interface : Growth E "interface_energy" fun _ g => gradEnergy E.nGrains E.kappaP g
  | volume : Growth E "control_vol" fun _ _ => 1

/-- integrands of the grand potential operator -/
inductive Greenquist (E : Env K) : String → Eval K → Prop
  | void : Greenquist E "void_vol" fun v _ => v 0
  | surface : Greenquist E "surf_area" fun v _ => v 0 * (1 - v 0)
  | boundary : Greenquist E "gb_area" fun v _ => pairSum E.nGrains fun i => v (2 + i)
  | size : Greenquist E "avg_grain_size" fun v _ => squareSum E.nGrains fun i => v (2 + i)
  | volume : Greenquist E "control_vol" fun _ _ => 1

/-- columns that belong to a label: one, or those of all order parameters -/
inductive Columns (table : String → Eval K → Prop) (o : Nat) (E : Env K) :
    String → List (String × Eval K) → Prop
  | single {s e} : table s e → Columns table o E s [(s, e)]
  | params : Columns table o E "order_params" ((List.range E.maxGrains).map fun i =>
      ("op_" ++ toString i, fun v _ => if i < E.nGrains then v (o + i) else 0))

/-- cells in use -/
def cells (ranks : List (List (CellBatch K))) : List (List (QPoint K)) :=
  ranks.flatten.flatMap fun b => b.lanes.take b.active

/-- integral over all cells in use of all ranks -/
def integral (e : Eval K) (filter : QPoint K → K) (ranks : List (List (CellBatch K))) : K :=
  ((cells ranks).flatten.map fun p => e p.v p.g * filter p * p.jxw).sum

end Verif.DomainIntegrals
