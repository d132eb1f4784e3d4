/-
Lemmas on runs in a pure phase.
-/
import Verif.Spec.PureRun
import Verif.Lemmas.Locality
import Verif.Lemmas.TimeLoop
import Mathlib.Tactic.FieldSimp
import Mathlib.Tactic.Ring
import Mathlib.Tactic.Positivity
import Mathlib.Algebra.Order.Field.Basic

set_option linter.unusedSectionVars false

namespace Verif.PureRun

open Finset Verif.Newton Verif.Energy Verif.Relabel Verif.Locality Verif.Locality.Spec Verif.PureRun.Spec

variable {K : Type} [Field K] [LinearOrder K] {n m d : Nat}

/-- Old solutions with weight zero do not matter. -/
theorem history_weightless {order : Nat} {weights : List K} {o o' : List (Fields K n m)} (hl : o.length = o'.length)
    (h : ∀ i, weights.getD (i + 1) 0 = 0 ∨ o[i]? = o'[i]?) : history order weights o = history order weights o' := by
  have key : ∀ b i, historyStep weights o b i = historyStep weights o' b i := by
    intro b i
    unfold historyStep
    cases hw : weights[i + 1]? with
    | none => simp only [Res.index, hw]; rfl
    | some w =>
      simp only [Res.index, hw, Res.ok_bind]
      rcases h i with h0 | h0
      · rw [List.getD_eq_getElem?_getD, hw] at h0
        have h0 : w = 0 := h0
        by_cases hi : i < o.length
        · rw [List.getElem?_eq_getElem hi, List.getElem?_eq_getElem (hl ▸ hi)]
          simp only [Res.ok_bind, h0]
          have : ∀ u : Fields K n m, u.scale 0 = Fields.zero := fun u => by simp [Fields.scale, Fields.zero]
          rw [this, this]
        · rw [List.getElem?_eq_none (by omega), List.getElem?_eq_none (by omega)]
      · rw [h0]
  unfold history
  have : historyStep weights o = historyStep weights o' := funext fun b => funext fun i => key b i
  rw [this]

/-- The history is defined if there are enough weights and solutions. -/
theorem history_defined {order : Nat} (ho : order ≠ 0) {weights : List K} {o : List (Fields K n m)} (hw : order < weights.length) (hl : order ≤ o.length) :
    ∃ b, history order weights o = .ok b := by
  rw [history, if_neg ho]
  clear ho
  induction order with
  | zero => exact ⟨_, rfl⟩
  | succ j ih =>
    obtain ⟨b, hb⟩ := ih (by omega) (by omega)
    rw [List.range_succ, List.foldlM_append, hb]
    have h1 : weights[j + 1]? = some weights[j + 1] := List.getElem?_eq_getElem (by omega)
    have h2 : o[j]? = some o[j] := List.getElem?_eq_getElem (by omega)
    simp only [Res.ok_bind, List.foldlM_cons, List.foldlM_nil, historyStep, Res.index, h1, h2]
    exact ⟨_, rfl⟩

/-- Whether the residual is defined does not depend on the vector. -/
theorem residualAll_defined {par : SinteringKernel.Par K} {order : Nat} (ho : order ≠ 0) {weights : List K} {o : List (Fields K n m)} (hw : order < weights.length)
    (hl : order ≤ o.length) (pts : List (VPt K n m d)) (u : Fields K n m) : ∃ r, residualAll par 2 order weights pts u o = .ok r := by
  obtain ⟨b, hb⟩ := history_defined ho hw hl
  have h0 : weights[0]? = some weights[0] := List.getElem?_eq_getElem (by omega)
  unfold residualAll
  simp only [Res.index, h0, Res.ok_bind, if_true, hb]
  obtain ⟨r, k0, _⟩ := loop_parts _ _ (fun q => rl_residual_eq { par with weight := weights[0] } 2 (point q u b)) pts Fields.zero
  exact ⟨r, k0⟩

theorem residualAll_weightless {par : SinteringKernel.Par K} {order : Nat} {weights : List K} {o o' : List (Fields K n m)} (hl : o.length = o'.length)
    (h : ∀ i, weights.getD (i + 1) 0 = 0 ∨ o[i]? = o'[i]?) (pts : List (VPt K n m d)) (u : Fields K n m) :
    residualAll par 2 order weights pts u o = residualAll par 2 order weights pts u o' := by
  unfold residualAll
  rw [history_weightless hl h]

/-- Newton's method leaves a solution alone. -/
theorem solve_rest {V : Type} [AddCommGroup V] [Module K V] (S : Solver K V) (hN hL fuel : Nat) (x : V) (h0 : S.norm (S.residual x) = .fin 0) (ht : 0 ≤ S.absTol)
    (hu : ∀ f, S.user = some f → ∀ a b x y, f a b x y = .success) :
    ∃ st, solve S hN hL x fuel = some (.ok st) ∧ st.dst = x ∧ st.it = 0 ∧ st.updates = [] ∧ st.log = [.fin 0] := by
  have hc : statCheck S 0 (.fin 0) (.fin 0) = .success := by
    unfold statCheck
    have h1 : (Fl.fin (0 : K)).gt S.absTol = false := by simp [Fl.gt, ht]
    have h2 : (Fl.fin (0 : K)).le S.absTol = true := by simp [Fl.le, ht]
    simp [h1, h2]
  unfold solve
  cases hs : S.user with
  | none =>
    have : check S (start S hN hL x) = ({ start S hN hL x with v0 := .fin 0, log := [.fin 0] }, .success) := by
      unfold check
      simp only [start, if_true, h0, hs, hc]
    cases fuel <;> · unfold loop; rw [this]; exact ⟨_, rfl, rfl, rfl, rfl, rfl⟩
  | some f =>
    have : check S (start S hN hL x) = ({ start S hN hL x with v0 := .fin 0, log := [.fin 0] }, .success) := by
      unfold check
      simp only [start, if_true, h0, hs, hc, hu f hs]
      rfl
    cases fuel <;> · unfold loop; rw [this]; exact ⟨_, rfl, rfl, rfl, rfl, rfl⟩

variable [IsStrictOrderedRing K]

/-- Weights of a run with past: enough of them, sum zero, and weight for steps that were made only. -/
theorem weights_past (s : Scheme) {d0 : K} (h0 : 0 < d0) {past : List K} (hp : ∀ x ∈ past, 0 < x) {z : Nat} (hz : s.order ≤ past.length + z + 1) :
    s.order < (computeWeights s ((d0 :: (past ++ List.replicate z 0)).take s.order)).length ∧
    ∑ j ∈ range (s.order + 1), (computeWeights s ((d0 :: (past ++ List.replicate z 0)).take s.order)).getD j 0 = 0 ∧
    ∀ i, past.length < i → (computeWeights s ((d0 :: (past ++ List.replicate z 0)).take s.order)).getD (i + 1) 0 = 0 := by
  have lt : ¬ (0 : K) < 0 := lt_irrefl _
  have n0 := h0.ne'
  have b1 : ∀ (r : List K), computeWeights .bdf1 ((d0 :: r).take 1) = [1 / d0, -1 / d0] := by
    intro r; simp [computeWeights, effectiveOrder, h0, setW1, dtAt]
  cases s with
  | bdf1 =>
    simp only [Scheme.order, b1]
    refine ⟨by simp, ?_, fun i hi => ?_⟩
    · simp [sum_range_succ]; ring
    · cases i with
      | zero => omega
      | succ i => simp
  | bdf2 =>
    cases past with
    | nil =>
      obtain ⟨z, rfl⟩ : ∃ z', z = z' + 1 := ⟨z - 1, by simp [Scheme.order] at hz; omega⟩
      have e : computeWeights .bdf2 ((d0 :: ([] ++ List.replicate (z + 1) 0)).take 2) = [1 / d0, -1 / d0, 0] := by
        simp [List.replicate_succ, computeWeights, effectiveOrder, h0, setW1, dtAt]
      simp only [Scheme.order, e]
      refine ⟨by simp, ?_, fun i hi => ?_⟩
      · simp [sum_range_succ]; ring
      · match i, hi with
        | 1, _ => rfl
        | i + 2, _ => simp
    | cons d1 past =>
      have h1 : 0 < d1 := hp d1 (by simp)
      have n1 := h1.ne'
      have n01 : d0 + d1 ≠ 0 := by positivity
      have e : computeWeights .bdf2 ((d0 :: (d1 :: past ++ List.replicate z 0)).take 2) = [(2 * d0 + d1) / (d0 * (d0 + d1)), -(d0 + d1) / (d0 * d1), d0 / (d1 * (d0 + d1))] := by
        simp [computeWeights, effectiveOrder, h0, h1, setW2, dtAt]
      simp only [Scheme.order, e]
      refine ⟨by simp, ?_, fun i hi => ?_⟩
      · simp [sum_range_succ]; field_simp; ring
      · match i, hi with
        | 1, hi => simp at hi
        | i + 2, _ => simp
  | bdf3 =>
    match past, hp, hz with
    | [], _, hz =>
      obtain ⟨z, rfl⟩ : ∃ z', z = z' + 2 := ⟨z - 2, by simp [Scheme.order] at hz; omega⟩
      have e : computeWeights .bdf3 ((d0 :: ([] ++ List.replicate (z + 2) 0)).take 3) = [1 / d0, -1 / d0, 0, 0] := by
        simp [List.replicate_succ, computeWeights, effectiveOrder, h0, setW1, dtAt]
      simp only [Scheme.order, e]
      refine ⟨by simp, ?_, fun i hi => ?_⟩
      · simp [sum_range_succ]; ring
      · match i, hi with
        | 1, _ => rfl
        | 2, _ => rfl
        | i + 3, _ => simp
    | [d1], hp, hz =>
      obtain ⟨z, rfl⟩ : ∃ z', z = z' + 1 := ⟨z - 1, by simp [Scheme.order] at hz; omega⟩
      have h1 : 0 < d1 := hp d1 (by simp)
      have n1 := h1.ne'
      have n01 : d0 + d1 ≠ 0 := by positivity
      have e : computeWeights .bdf3 ((d0 :: ([d1] ++ List.replicate (z + 1) 0)).take 3) = [(2 * d0 + d1) / (d0 * (d0 + d1)), -(d0 + d1) / (d0 * d1), d0 / (d1 * (d0 + d1)), 0] := by
        simp [List.replicate_succ, computeWeights, effectiveOrder, h0, h1, setW2, dtAt]
      simp only [Scheme.order, e]
      refine ⟨by simp, ?_, fun i hi => ?_⟩
      · simp [sum_range_succ]; field_simp; ring
      · match i, hi with
        | 1, hi => simp at hi
        | 2, _ => rfl
        | i + 3, _ => simp
    | d1 :: d2 :: past, hp, hz =>
      have h1 : 0 < d1 := hp d1 (by simp)
      have h2 : 0 < d2 := hp d2 (by simp)
      have e : computeWeights .bdf3 ((d0 :: (d1 :: d2 :: past ++ List.replicate z 0)).take 3) =
          [-(-(d0 + d1) * (d0 + d1 + d2) / (d0 * d1 * (d1 + d2)) + d0 * (d0 + d1 + d2) / (d1 * d2 * (d0 + d1)) + -d0 * (d0 + d1) / (d2 * (d1 + d2) * (d0 + d1 + d2))),
            -(d0 + d1) * (d0 + d1 + d2) / (d0 * d1 * (d1 + d2)), d0 * (d0 + d1 + d2) / (d1 * d2 * (d0 + d1)), -d0 * (d0 + d1) / (d2 * (d1 + d2) * (d0 + d1 + d2))] := by
        simp [computeWeights, effectiveOrder, h0, h1, h2, setW3, dtAt]
      simp only [Scheme.order, e]
      refine ⟨by simp, ?_, fun i hi => ?_⟩
      · simp only [sum_range_succ, sum_range_zero, List.getD_cons_zero, List.getD_cons_succ]; ring
      · match i, hi with
        | 1, hi => simp at hi
        | 2, hi => simp only [List.length_cons] at hi; omega
        | i + 3, _ => simp

end Verif.PureRun
