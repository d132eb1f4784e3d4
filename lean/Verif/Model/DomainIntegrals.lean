import Verif.Model.Res
import Mathlib.Algebra.Order.Field.Basic
/-!
# Integrals over the domain

Models `build_domain_quantities_evaluators` of the sintering operators
(applications/sintering/include/pf-applications/sintering/operator_sintering_base.h:395-553), of grain growth
(operator_grain_growth.h:676-797) and of the grand potential operator
(operator_grand_potential_greenquist.h:1171-1260), `calc_domain_quantities` (operator_base.h:660-688,
843-934) and the default of the labels (parameters.h:255-258).

An integrand depends on the values of the components and on the squared norms of their gradients at a quadrature
point. Numbers are elements of an ordered field; lanes of a vectorized number are treated one by one. The bulk
energy is a parameter.
-/
namespace Verif.DomainIntegrals

variable {K : Type} [Field K] [LinearOrder K]

/-- integrand: values of the components, squared norms of the gradients -/
abbrev Eval (K : Type) := (Nat → K) → (Nat → K) → K

/-- data of the operator; `first` is the component of the first order parameter -/
structure Env (K : Type) where
  nGrains : Nat
  kappaC : K
  kappaP : K
  bulk : (Nat → K) → K
  maxGrains : Nat

/-- operator_sintering_base.h:433-437, operator_grain_growth.h:696-700,
operator_grand_potential_greenquist.h:1210-1214; `o` is the offset of the order parameters -/
def gbLoop (o n : Nat) (v : Nat → K) : K :=
  (List.range n).foldl (fun s i => (List.range' (i + 1) (n - (i + 1))).foldl (fun s j => s + v (o + i) * v (o + j)) s) 0

/-- operator_sintering_base.h:446-450 -/
def sizeLoop (o n : Nat) (v : Nat → K) : K :=
  (List.range n).foldl (fun s i => s + v (o + i) * v (o + i)) 0

/-- operator_sintering_base.h:476-479, 508-511 -/
def gradLoop (o n : Nat) (g : Nat → K) : K :=
  (List.range n).foldl (fun s i => s + g (o + i)) 0

/-- operator_sintering_base.h:456-469: two masks, one after the other -/
def surfaceIndicator (c : K) : K :=
  let r : K := 1
  let r := if c < 45 / 100 then 0 else r
  if c > 55 / 100 then 0 else r

/-- evaluators of the sintering operators with one label (operator_sintering_base.h:408-546) -/
def sinteringEval (E : Env K) (label : String) : Option (Eval K) :=
  if label = "solid_vol" then some fun v _ => v 0
  else if label = "surf_area" then some fun v _ => v 0 * (1 - v 0)
  else if label = "gb_area" then some fun v _ => gbLoop 2 E.nGrains v
  else if label = "avg_grain_size" then some fun v _ => sizeLoop 2 E.nGrains v
  else if label = "surf_area_nrm" then some fun v _ => surfaceIndicator (v 0)
  else if label = "free_energy" then
    some fun v g => gradLoop 2 E.nGrains g * (1 / 2 * E.kappaP) + 1 / 2 * E.kappaC * g 0 + E.bulk v
  else if label = "bulk_energy" then some fun v _ => E.bulk v
  else if label = "interface_energy" then
    some fun _ g => gradLoop 2 E.nGrains g * (1 / 2 * E.kappaP) + 1 / 2 * E.kappaC * g 0
  else if label = "control_vol" then some fun _ _ => 1
  else none

/-- evaluators of grain growth (operator_grain_growth.h:689-790) -/
def growthEval (E : Env K) (label : String) : Option (Eval K) :=
  if label = "gb_area" then some fun v _ => gbLoop 0 E.nGrains v
  else if label = "avg_grain_size" then some fun v _ => sizeLoop 0 E.nGrains v
  else if label = "free_energy" then
    some fun v g => gradLoop 0 E.nGrains g * (1 / 2 * E.kappaP) + E.bulk v
  else if label = "bulk_energy" then some fun v _ => E.bulk v
  else if label = "interface_energy" then some fun _ g => gradLoop 0 E.nGrains g * (1 / 2 * E.kappaP)
  else if label = "control_vol" then some fun _ _ => 1
  else none

/-- evaluators of the grand potential operator (operator_grand_potential_greenquist.h:1184-1253) -/
def greenquistEval (E : Env K) (label : String) : Option (Eval K) :=
  if label = "void_vol" then some fun v _ => v 0
  else if label = "surf_area" then some fun v _ => v 0 * (1 - v 0)
  else if label = "gb_area" then some fun v _ => gbLoop 2 E.nGrains v
  else if label = "avg_grain_size" then some fun v _ => sizeLoop 2 E.nGrains v
  else if label = "control_vol" then some fun _ _ => 1
  else none

/-- an order parameter, zero for an unused one (operator_sintering_base.h:529-536) -/
def orderParam (E : Env K) (o i : Nat) : Eval K := fun v _ => if i < E.nGrains then v (o + i) else 0

/-- `q_labels` and `q_evaluators` -/
structure Quantities (K : Type) where
  labels : List String
  evals : List (Eval K)

/-- one pass of the loop over the labels (operator_sintering_base.h:406-548) -/
def buildStep (single : String → Option (Eval K)) (op : Nat → Eval K) (maxGrains : Nat) (s : Quantities K)
    (qty : String) : Res (Quantities K) :=
  match single qty with
  | some e => .ok ⟨if qty ≠ "order_params" then s.labels ++ [qty] else s.labels, s.evals ++ [e]⟩
  | none =>
    if qty = "order_params" then
      .ok ((List.range maxGrains).foldl (fun s i => ⟨s.labels ++ ["op_" ++ toString i], s.evals ++ [op i]⟩) s)
    else .exc .assertThrow

/-- `build_domain_quantities_evaluators`; the chain of the labels does not contain "order_params" twice -/
def build (single : String → Option (Eval K)) (op : Nat → Eval K) (maxGrains : Nat) (labels : List String) :
    Res (Quantities K) :=
  labels.foldlM (buildStep single op maxGrains) ⟨[], []⟩

/-- parameters.h:255-258, in the order of a `std::set` -/
def defaultLabels : List String := ["free_energy", "gb_area", "solid_vol", "surf_area"]

/-! ## Integration -/

/-- a quadrature point: values, squared norms of the gradients, weight times Jacobian, position -/
structure QPoint (K : Type) where
  v : Nat → K
  g : Nat → K
  jxw : K
  pos : Nat → K

/-- a batch of cells: the quadrature points of every lane (cell), number of lanes in use -/
structure CellBatch (K : Type) where
  lanes : List (List (QPoint K))
  active : Nat

/-- `submit_value` and `integrate_value` of a lane (operator_base.h:886-908) -/
def laneIntegral (e : Eval K) (filter : QPoint K → K) (ps : List (QPoint K)) : K :=
  ps.foldl (fun s p => s + e p.v p.g * filter p * p.jxw) 0

/-- contribution of a batch: the lanes in use (operator_base.h:910-920) -/
def batchIntegral (e : Eval K) (filter : QPoint K → K) (b : CellBatch K) : K :=
  (b.lanes.take b.active).foldl (fun s ps => s + laneIntegral e filter ps) 0

/-- values of the rank (operator_base.h:869-921): all quantities are updated batch by batch -/
def rankValues (es : List (Eval K)) (filter : QPoint K → K) (bs : List (CellBatch K)) : List K :=
  bs.foldl (fun q b => List.zipWith (fun x e => x + batchIntegral e filter b) q es) (es.map fun _ => 0)

/-- sum over the ranks, quantity by quantity (operator_base.h:925-931) -/
def domainValues (es : List (Eval K)) (filter : QPoint K → K) (ranks : List (List (CellBatch K))) : List K :=
  ranks.foldl (fun q bs => List.zipWith (· + ·) q (rankValues es filter bs)) (es.map fun _ => 0)

/-- columns of the table (driver.h:3019-3066): `filter` is one or the indicator of a box -/
def columns (single : String → Option (Eval K)) (op : Nat → Eval K) (maxGrains : Nat) (labels : List String)
    (filter : QPoint K → K) (ranks : List (List (CellBatch K))) : Res (List (String × K)) := do
  let q ← build single op maxGrains labels
  let vals := domainValues q.evals filter ranks
  (List.range q.evals.length).mapM fun j => do
    let s ← Res.index q.labels j
    let x ← Res.index vals j
    pure (s, x)

/-- columns of the sintering operators: the order parameters follow two other components
(operator_sintering_base.h:519-552) -/
def columnsSintering (E : Env K) := columns (sinteringEval E) (orderParam E 2) E.maxGrains

/-- columns of grain growth: there are order parameters only (operator_grain_growth.h:759-792) -/
def columnsGrowth (E : Env K) := columns (growthEval E) (orderParam E 0) E.maxGrains

/-- columns of the grand potential operator (operator_grand_potential_greenquist.h:1226-1259) -/
def columnsGreenquist (E : Env K) := columns (greenquistEval E) (orderParam E 2) E.maxGrains

end Verif.DomainIntegrals
