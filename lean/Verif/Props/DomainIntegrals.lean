import Verif.Lemmas.DomainIntegrals
import Mathlib.Algebra.Order.BigOperators.Group.List
import Mathlib.Algebra.Order.Ring.Rat
import Mathlib.Algebra.Field.Rat
import Mathlib.Tactic.NormNum
import Mathlib.Tactic.LinearCombination
/-!
# C115: integrals over the domain
-/
namespace Verif.Props
open Verif.DomainIntegrals

section
variable {K : Type} [Field K] [LinearOrder K]

/-- C115 (sintering): for every list of known labels, every filter and every distribution of the cells over ranks
and batches, every column of the table has the label of its integrand and the value of the integral of the
integrand over all cells in use; the label `order_params` gives a column for every possible order parameter. -/
theorem C115_partial (E : Env K) {labels : List String} {parts : List (List (String × Eval K))}
    (h : List.Forall₂ (Columns (Sintering E) 2 E) labels parts) (filter : QPoint K → K)
    (ranks : List (List (CellBatch K))) :
    columnsSintering E labels filter ranks =
      .ok (parts.flatten.map fun c => (c.1, integral c.2 filter ranks)) :=
  columns_ok (single := sinteringEval E) (table := Sintering E) (fun _ _ => sintering_single E)
    (show sinteringEval E "order_params" = none by simp [sinteringEval]) h filter ranks

/-- an unknown label is refused -/
theorem C115_unknown (E : Env K) {labels : List String}
    (h : ∃ l ∈ labels, ∀ c, ¬Columns (Sintering E) 2 E l c) (filter : QPoint K → K)
    (ranks : List (List (CellBatch K))) :
    columnsSintering E labels filter ranks = .exc .assertThrow :=
  columns_unknown (fun _ => sintering_none E) h filter ranks

omit [LinearOrder K] in
/-- C115 (grain growth) -/
theorem C115_growth (E : Env K) {labels : List String} {parts : List (List (String × Eval K))}
    (h : List.Forall₂ (Columns (Growth E) 0 E) labels parts) (filter : QPoint K → K)
    (ranks : List (List (CellBatch K))) :
    columnsGrowth E labels filter ranks =
      .ok (parts.flatten.map fun c => (c.1, integral c.2 filter ranks)) :=
  columns_ok (single := growthEval E) (table := Growth E) (fun _ _ => growth_single E)
    (show growthEval E "order_params" = none by simp [growthEval]) h filter ranks

omit [LinearOrder K] in
theorem C115_growth_unknown (E : Env K) {labels : List String}
    (h : ∃ l ∈ labels, ∀ c, ¬Columns (Growth E) 0 E l c) (filter : QPoint K → K)
    (ranks : List (List (CellBatch K))) :
    columnsGrowth E labels filter ranks = .exc .assertThrow :=
  columns_unknown (fun _ => growth_none E) h filter ranks

omit [LinearOrder K] in
/-- C115 (grand potential) -/
theorem C115_greenquist (E : Env K) {labels : List String} {parts : List (List (String × Eval K))}
    (h : List.Forall₂ (Columns (Greenquist E) 2 E) labels parts) (filter : QPoint K → K)
    (ranks : List (List (CellBatch K))) :
    columnsGreenquist E labels filter ranks =
      .ok (parts.flatten.map fun c => (c.1, integral c.2 filter ranks)) :=
  columns_ok (single := greenquistEval E) (table := Greenquist E) (fun _ _ => greenquist_single E)
    (show greenquistEval E "order_params" = none by simp [greenquistEval]) h filter ranks

omit [LinearOrder K] in
theorem C115_greenquist_unknown (E : Env K) {labels : List String}
    (h : ∃ l ∈ labels, ∀ c, ¬Columns (Greenquist E) 2 E l c) (filter : QPoint K → K)
    (ranks : List (List (CellBatch K))) :
    columnsGreenquist E labels filter ranks = .exc .assertThrow :=
  columns_unknown (fun _ => greenquist_none E) h filter ranks

/-- The labels used by default are accepted by the sintering operators only: grain growth and the grand potential
operator do not know `solid_vol` and stop with an exception as soon as the table is written. -/
theorem C115_default_violated (E : Env K) (filter : QPoint K → K) (ranks : List (List (CellBatch K))) :
    (∃ r, columnsSintering E defaultLabels filter ranks = .ok r ∧
      r.map Prod.fst = defaultLabels) ∧
    columnsGrowth E defaultLabels filter ranks = .exc .assertThrow ∧
    columnsGreenquist E defaultLabels filter ranks = .exc .assertThrow := by
  refine ⟨⟨_, C115_partial E (.cons (.single .free) (.cons (.single .boundary) (.cons (.single .solid)
    (.cons (.single .surface) .nil)))) filter ranks, rfl⟩, ?_, ?_⟩
  · refine C115_growth_unknown E ⟨"solid_vol", by simp [defaultLabels], fun c hc => ?_⟩ filter ranks
    generalize hs : "solid_vol" = s at hc
    cases hc with
    | single h => cases h <;> simp at hs
    | params => simp at hs
  · refine C115_greenquist_unknown E ⟨"solid_vol", by simp [defaultLabels], fun c hc => ?_⟩ filter ranks
    generalize hs : "solid_vol" = s at hc
    cases hc with
    | single h => cases h <;> simp at hs
    | params => simp at hs

omit [LinearOrder K] in
private theorem sum_map_add' {α : Type} (f g : α → K) : ∀ l : List α,
    (l.map fun a => f a + g a).sum = (l.map f).sum + (l.map g).sum
  | [] => by simp
  | a :: l => by simp only [List.map_cons, List.sum_cons, sum_map_add' f g l]; ring

/-- the columns of the free energy, the bulk energy and the interface energy agree: the first is the sum -/
theorem C115_energy (E : Env K) (filter : QPoint K → K) (ranks : List (List (CellBatch K))) :
    ∃ a b, columnsSintering E ["bulk_energy", "free_energy", "interface_energy"]
        filter ranks = .ok [("bulk_energy", a), ("free_energy", a + b), ("interface_energy", b)] := by
  refine ⟨integral (fun v _ => E.bulk v) filter ranks, integral (fun _ g =>
    gradEnergy E.nGrains E.kappaP (fun i => g (2 + i)) + E.kappaC / 2 * g 0) filter ranks,
    (C115_partial E (.cons (.single .bulk) (.cons (.single .free) (.cons (.single .interface) .nil)))
    filter ranks).trans ?_⟩
  simp only [List.flatten_cons, List.flatten_nil, List.append_nil, List.cons_append, List.nil_append, List.map_cons,
    List.map_nil]
  congr 4
  unfold integral
  rw [← sum_map_add']
  congr 1
  apply List.map_congr_left
  intro p _
  ring

omit [LinearOrder K] in
/-- boxes that cover the domain: if the filters add up to one, the integrals over the boxes add up to the integral
over the domain -/
theorem C115_boxes (e : Eval K) (f1 f2 : QPoint K → K) (ranks : List (List (CellBatch K)))
    (h : ∀ c ∈ cells ranks, ∀ p ∈ c, f1 p + f2 p = 1) :
    ∃ a b, domainValues [e] f1 ranks = [a] ∧ domainValues [e] f2 ranks = [b] ∧
      domainValues [e] (fun _ => 1) ranks = [a + b] := by
  refine ⟨integral e f1 ranks, integral e f2 ranks, by rw [domainValues_eq]; rfl, by rw [domainValues_eq]; rfl, ?_⟩
  rw [domainValues_eq]
  show [integral e (fun _ => 1) ranks] = _
  congr 1
  symm
  unfold integral
  rw [← sum_map_add']
  congr 1
  apply List.map_congr_left
  intro p hp
  obtain ⟨c, hc, hp⟩ := List.mem_flatten.1 hp
  have := h c hc p hp
  linear_combination (e p.v p.g * p.jxw) * this

omit [LinearOrder K] in
/-- the sum of the squares and the sum over the pairs give the square of the sum -/
theorem C115_pairs (o n : Nat) (v : Nat → K) :
    sizeLoop o n v + 2 * gbLoop o n v = (∑ i ∈ Finset.range n, v (o + i)) ^ 2 := by
  rw [gbLoop_eq, sizeLoop_eq]
  unfold pairSum squareSum
  induction n with
  | zero => simp
  | succ n ih =>
    simp only [Finset.sum_range_succ, ← Finset.sum_mul] at ih ⊢
    linear_combination ih

/-- the region counted as surface is not larger than the control volume -/
theorem C115_surface_bounds [IsStrictOrderedRing K] (E : Env K) (filter : QPoint K → K)
    (ranks : List (List (CellBatch K)))
    (hf : ∀ p, 0 ≤ filter p) (hj : ∀ c ∈ cells ranks, ∀ p ∈ c, 0 ≤ p.jxw) :
    ∃ a b, columnsSintering E ["control_vol", "surf_area_nrm"] filter ranks =
        .ok [("control_vol", a), ("surf_area_nrm", b)] ∧ 0 ≤ b ∧ b ≤ a := by
  refine ⟨_, _, C115_partial E (.cons (.single .volume) (.cons (.single .surfaceNrm) .nil)) filter ranks, ?_, ?_⟩
  · unfold integral
    apply List.sum_nonneg
    intro x hx
    obtain ⟨p, hp, rfl⟩ := List.mem_map.1 hx
    obtain ⟨c, hc, hp⟩ := List.mem_flatten.1 hp
    dsimp only
    have h1 := hf p
    have h2 := hj c hc p hp
    split_ifs
    · rw [one_mul]; exact mul_nonneg h1 h2
    · simp
  · unfold integral
    apply List.sum_le_sum
    intro p hp
    obtain ⟨c, hc, hp⟩ := List.mem_flatten.1 hp
    dsimp only
    have h1 := hf p
    have h2 := hj c hc p hp
    split_ifs
    · exact le_refl _
    · rw [zero_mul, zero_mul, one_mul]; exact mul_nonneg h1 h2

end

namespace Ex115

/-- two order parameters, at most three -/
def env : Env ℚ := ⟨2, 1, 2, fun v => v 0 * v 0, 3⟩

/-- two ranks, a lane out of use -/
def ranks : List (List (CellBatch ℚ)) :=
  [[⟨[[⟨fun i => if i = 0 then 1/2 else if i = 2 then 1/4 else 1/2, fun _ => 1, 2, fun _ => 0⟩],
      [⟨fun _ => 100, fun _ => 100, 100, fun _ => 1⟩]], 1⟩],
   [⟨[[⟨fun i => if i = 0 then 1 else if i = 2 then 1 else 0, fun _ => 0, 1, fun _ => 2⟩]], 1⟩]]

private def get (r : Res (List (String × ℚ))) : List (String × ℚ) := match r with | .ok l => l | _ => []

example : get (columnsSintering env
    ["gb_area", "order_params", "surf_area_nrm"] (fun _ => 1) ranks) =
    [("gb_area", 1/4), ("op_0", 3/2), ("op_1", 1), ("op_2", 0), ("surf_area_nrm", 2)] := by decide +kernel

example : List.Forall₂ (Columns (Sintering env) 2 env) ["gb_area", "order_params"]
    [[("gb_area", fun v _ => pairSum 2 fun i => v (2 + i))],
     (List.range 3).map fun i => ("op_" ++ toString i, fun v _ => if i < 2 then v (2 + i) else 0)] :=
  .cons (.single .boundary) (.cons .params .nil)

example : columnsGrowth env defaultLabels (fun _ => 1) ranks =
    .exc .assertThrow := (C115_default_violated env (fun _ => 1) ranks).2.1

example : get (columnsSintering env
    ["bulk_energy", "free_energy", "interface_energy"] (fun _ => 1) ranks) =
    [("bulk_energy", 3/2), ("free_energy", 13/2), ("interface_energy", 5)] := by decide +kernel

end Ex115
end Verif.Props
