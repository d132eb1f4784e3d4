/-
Lemmas on the amount of material.
-/
import Verif.Spec.Amount
import Verif.Lemmas.FreeEnergy
import Verif.Lemmas.TimeLoop
import Mathlib.Algebra.BigOperators.Ring.Finset
import Mathlib.Algebra.BigOperators.Group.Finset.Sigma
import Mathlib.Tactic.Ring
import Mathlib.Tactic.FieldSimp
import Mathlib.Tactic.Linarith
import Mathlib.Tactic.Positivity
import Mathlib.Tactic.LinearCombination

set_option linter.unusedSectionVars false

namespace Verif.Amount

open Finset Verif.SinteringKernel Verif.Amount.Spec
open Verif.Apps (QPt value gradient)

variable {K : Type} [Field K] {n d : Nat}

theorem history_eq {order : Nat} (ho : order ≠ 0) {weights : List K} {olds : List (Fin n → K)} (hw : order < weights.length) (hl : order ≤ olds.length) :
    history order weights olds = .ok fun j => ∑ i ∈ range order, olds.getD i (fun _ => 0) j * weights.getD (i + 1) 0 := by
  rw [history, if_neg ho]
  clear ho
  induction order with
  | zero => simp
  | succ m ih =>
    rw [List.range_succ, List.foldlM_append, ih (by omega) (by omega)]
    have h1 : weights[m + 1]? = some weights[m + 1] := List.getElem?_eq_getElem (by omega)
    have h2 : olds[m]? = some olds[m] := List.getElem?_eq_getElem (by omega)
    simp only [Res.ok_bind, List.foldlM_cons, List.foldlM_nil, historyStep, Res.index, h1, h2, Res.pure_def]
    congr 1
    funext j
    rw [sum_range_succ]
    simp only [List.getD_eq_getElem?_getD, h1, h2, Option.getD_some]
    by_cases hm : m = 0
    · subst hm; simp
    · rw [if_neg hm]

variable [LinearOrder K]

theorem kernel_ok (p : Par K) (mode : Nat) (x : Point K (Fin d → K)) :
    ∃ o, residual p mode x = .ok o ∧ o.valC = (if 1 ≤ mode then x.c * p.weight else 0) + if mode = 2 then x.bufC else 0 := by
  have h := FreeEnergy.eval_ok true p.A p.B x.c x.mu (x.grains.map (·.eta)) []
  rw [List.append_nil] at h
  refine ⟨_, by
    unfold residual
    simp only [h, Res.ok_bind, FreeEnergy.Eval.df_dc, if_true]
    rfl, ?_⟩
  dsimp only
  by_cases hm : mode = 2
  · rw [if_pos hm, if_pos hm]
  · rw [if_neg hm, if_neg hm, add_zero]

theorem vmult_ok (p : Par K) (x : Point K (Fin d → K)) (i : Incr K (Fin d → K)) :
    ∃ o, vmult p x i = .ok o ∧ o.valC = i.c * p.weight := by
  have h := FreeEnergy.eval_ok false p.A p.B x.c x.mu (x.grains.map (·.eta)) []
  rw [List.append_nil] at h
  refine ⟨_, by
    unfold vmult
    simp only [h, Res.ok_bind]
    rfl, ?_⟩
  rfl

/-- The entries of what is added at a point sum up to the value, whatever the gradient is. -/
theorem submit_sum {q : QPt K n d} (h1 : ∑ i, q.N i = 1) (h2 : ∀ e, ∑ i, q.G i e = 0) (o : Out K (Fin d → K)) (acc : Fin n → K) :
    ∑ i, submit q o acc i = ∑ i, acc i + q.w * o.valC := by
  unfold submit
  rw [sum_add_distrib, ← mul_sum, sum_add_distrib, ← mul_sum, h1, sum_comm]
  have : ∑ e, ∑ i, o.gradC e * q.G i e = 0 := sum_eq_zero fun e _ => by rw [← mul_sum, h2, mul_zero]
  rw [this, mul_one, add_zero]

/-- A loop over all points. -/
theorem loop_ok {pts : List (QPt K n d)} (hu : Unity pts) (k : QPt K n d → Nat → Res (Out K (Fin d → K))) (v : QPt K n d → K)
    (hk : ∀ q j, ∃ o, k q j = .ok o ∧ o.valC = v q) (j : Nat) (acc : Fin n → K) :
    ∃ r, (pts.zipIdx j).foldlM (fun acc q => (k q.1 q.2).bind fun o => .ok (submit q.1 o acc)) acc = .ok r ∧
      ∑ i, r i = ∑ i, acc i + (pts.map fun q => q.w * v q).sum := by
  induction pts generalizing j acc with
  | nil => exact ⟨acc, rfl, by simp⟩
  | cons q pts ih =>
    obtain ⟨o, h1, h2⟩ := hk q j
    obtain ⟨hq1, hq2⟩ := hu q (by simp)
    obtain ⟨r, h3, h4⟩ := ih (fun q hq => hu q (by simp [hq])) (j + 1) (submit q o acc)
    refine ⟨r, ?_, ?_⟩
    · rw [List.zipIdx_cons, List.foldlM_cons]
      simp only [h1]
      exact h3
    · rw [h4, submit_sum hq1 hq2, h2, List.map_cons, List.sum_cons, add_assoc]

theorem amount_eq (pts : List (QPt K n d)) (c : Fin n → K) : amount pts c = (pts.map fun q => q.w * value q c).sum := rfl

theorem amount_zero (pts : List (QPt K n d)) : amount pts (fun _ => 0) = 0 := by
  induction pts with
  | nil => rfl
  | cons q l ih => simp [amount]

theorem amount_add (pts : List (QPt K n d)) (a b : Fin n → K) : amount pts (fun i => a i + b i) = amount pts a + amount pts b := by
  induction pts with
  | nil => simp [amount]
  | cons q l ih =>
    simp only [amount, List.map_cons, List.sum_cons] at ih ⊢
    rw [ih]
    simp only [mul_add, sum_add_distrib]
    ring

theorem amount_smul (pts : List (QPt K n d)) (t : K) (a : Fin n → K) : amount pts (fun i => t * a i) = t * amount pts a := by
  induction pts with
  | nil => simp [amount]
  | cons q l ih =>
    simp only [amount, List.map_cons, List.sum_cons] at ih ⊢
    rw [ih]
    have : ∑ i, q.N i * (t * a i) = t * ∑ i, q.N i * a i := by
      rw [mul_sum]; exact sum_congr rfl fun i _ => by ring
    rw [this]
    ring

theorem amount_sum (pts : List (QPt K n d)) (s : Finset Nat) (f : Nat → Fin n → K) : amount pts (fun j => ∑ i ∈ s, f i j) = ∑ i ∈ s, amount pts (f i) := by
  classical
  induction s using Finset.induction_on with
  | empty => simpa using amount_zero pts
  | insert a s ha ih =>
    simp only [sum_insert ha]
    rw [amount_add, ih]

theorem mass_sum {pts : List (QPt K n d)} (hu : Unity pts) (k : Fin n → K) : ∑ i, massC pts k i = amount pts k := by
  induction pts with
  | nil => simp [massC, amount]
  | cons q l ih =>
    simp only [massC, amount, List.map_cons, List.sum_cons] at ih ⊢
    rw [sum_add_distrib, ih fun q hq => hu q (by simp [hq]), ← mul_sum, ← mul_sum, (hu q (by simp)).1, mul_one]
    rfl

section weights
variable [IsStrictOrderedRing K]

/-- The weights for a step size and those of the past, as far as there are any: a single solution, the others have the same amount. -/
theorem weights_ok {s : Scheme} {x : K} {pre : List K} {z : Nat} (hx : 0 < x) (hp : ∀ y ∈ pre, 0 < y)
    (hl : pre.length + z + 1 = s.order) (ms : List K) (m : K) (hm : ∀ i ≤ pre.length, ms.getD i 0 = m) (M : K)
    (h : (computeWeights s (x :: pre ++ List.replicate z 0)).getD 0 0 * M + past s.order (computeWeights s (x :: pre ++ List.replicate z 0)) ms = 0) :
    M = m := by
  have hx' := hx.ne'
  have one : ∀ a : K, 1 / x * M + -1 / x * m + a = 0 → a = 0 → M = m := by
    intro a h ha
    subst ha
    field_simp at h
    linarith
  have two : ∀ y a : K, 0 < y → (2 * x + y) / (x * (x + y)) * M + (-(x + y) / (x * y) * m + x / (y * (x + y)) * m) + a = 0 → a = 0 → M = m := by
    intro y a hy h ha
    subst ha
    have hy' := hy.ne'
    have hxy : x + y ≠ 0 := by positivity
    have hw : (2 * x + y) / (x * (x + y)) ≠ 0 := by positivity
    have e : -(x + y) / (x * y) * m + x / (y * (x + y)) * m = -((2 * x + y) / (x * (x + y)) * m) := by
      field_simp
      ring
    rw [e] at h
    refine mul_left_cancel₀ hw ?_
    linarith
  rcases s with _ | _ | _
  · simp only [Scheme.order] at hl
    obtain ⟨rfl, rfl⟩ : pre = [] ∧ z = 0 := ⟨List.length_eq_zero_iff.1 (by omega), by omega⟩
    have h0 := hm 0 (by simp)
    have e : computeWeights .bdf1 [x] = [1 / x, -1 / x] := by simp [computeWeights, effectiveOrder, hx, setW1, dtAt]
    simp only [List.replicate_zero, List.append_nil, e, past, Scheme.order, sum_range_succ, sum_range_zero, List.getD_cons_zero, List.getD_cons_succ, h0, zero_add] at h
    exact one 0 (by rw [add_zero]; exact h) rfl
  · simp only [Scheme.order] at hl
    rcases pre with _ | ⟨y, _ | ⟨_, _⟩⟩
    · obtain rfl : z = 1 := by simp at hl; omega
      have h0 := hm 0 (by simp)
      have e : computeWeights .bdf2 [x, 0] = [1 / x, -1 / x, 0] := by simp [computeWeights, effectiveOrder, hx, setW1, dtAt]
      simp only [List.replicate_succ, List.replicate_zero, List.cons_append, List.nil_append, e, past, Scheme.order, sum_range_succ, sum_range_zero, List.getD_cons_zero, List.getD_cons_succ, h0, zero_add, zero_mul, add_zero] at h
      exact one 0 (by rw [add_zero]; exact h) rfl
    · obtain rfl : z = 0 := by simp at hl; omega
      have h0 := hm 0 (by simp)
      have h1 := hm 1 (by simp)
      have hy : 0 < y := hp y (by simp)
      have e : computeWeights .bdf2 [x, y] = [(2 * x + y) / (x * (x + y)), -(x + y) / (x * y), x / (y * (x + y))] := by
        simp [computeWeights, effectiveOrder, hx, hy, setW2, dtAt]
      simp only [List.replicate_zero, List.append_nil, e, past, Scheme.order, sum_range_succ, sum_range_zero, List.getD_cons_zero, List.getD_cons_succ, h0, h1, zero_add] at h
      exact two y 0 hy (by rw [add_zero]; exact h) rfl
    · simp only [List.length_cons] at hl
      omega
  · simp only [Scheme.order] at hl
    rcases pre with _ | ⟨y, _ | ⟨w, _ | ⟨_, _⟩⟩⟩
    · obtain rfl : z = 2 := by simp at hl; omega
      have h0 := hm 0 (by simp)
      have e : computeWeights .bdf3 [x, 0, 0] = [1 / x, -1 / x, 0, 0] := by simp [computeWeights, effectiveOrder, hx, setW1, dtAt]
      simp only [List.replicate_succ, List.replicate_zero, List.cons_append, List.nil_append, e, past, Scheme.order, sum_range_succ, sum_range_zero, List.getD_cons_zero, List.getD_cons_succ, h0, zero_add, zero_mul, add_zero] at h
      exact one 0 (by rw [add_zero]; exact h) rfl
    · obtain rfl : z = 1 := by simp at hl; omega
      have h0 := hm 0 (by simp)
      have h1 := hm 1 (by simp)
      have hy : 0 < y := hp y (by simp)
      have e : computeWeights .bdf3 [x, y, 0] = [(2 * x + y) / (x * (x + y)), -(x + y) / (x * y), x / (y * (x + y)), 0] := by
        simp [computeWeights, effectiveOrder, hx, hy, setW2, dtAt]
      simp only [List.replicate_succ, List.replicate_zero, List.cons_append, List.nil_append, e, past, Scheme.order, sum_range_succ, sum_range_zero, List.getD_cons_zero, List.getD_cons_succ, h0, h1, zero_add, zero_mul, add_zero] at h
      exact two y 0 hy (by rw [add_zero]; exact h) rfl
    · obtain rfl : z = 0 := by simp at hl; omega
      have h0 := hm 0 (by simp)
      have h1 := hm 1 (by simp)
      have h2 := hm 2 (by simp)
      have hy : 0 < y := hp y (by simp)
      have hw : 0 < w := hp w (by simp)
      have hy' := hy.ne'
      have hw' := hw.ne'
      have e : computeWeights .bdf3 [x, y, w] = [-(-(x + y) * (x + y + w) / (x * y * (y + w)) + x * (x + y + w) / (y * w * (x + y)) + -x * (x + y) / (w * (y + w) * (x + y + w))),
          -(x + y) * (x + y + w) / (x * y * (y + w)), x * (x + y + w) / (y * w * (x + y)), -x * (x + y) / (w * (y + w) * (x + y + w))] := by
        simp [computeWeights, effectiveOrder, hx, hy, hw, setW3, dtAt]
      simp only [List.replicate_zero, List.append_nil, e, past, Scheme.order, sum_range_succ, sum_range_zero, List.getD_cons_zero, List.getD_cons_succ, h0, h1, h2, zero_add] at h
      have hs : -(-(x + y) * (x + y + w) / (x * y * (y + w)) + x * (x + y + w) / (y * w * (x + y)) + -x * (x + y) / (w * (y + w) * (x + y + w))) ≠ 0 := by
        have a1 : x + y ≠ 0 := by positivity
        have a2 : y + w ≠ 0 := by positivity
        have a3 : x + y + w ≠ 0 := by positivity
        have e : -(-(x + y) * (x + y + w) / (x * y * (y + w)) + x * (x + y + w) / (y * w * (x + y)) + -x * (x + y) / (w * (y + w) * (x + y + w))) =
            1 / x + 1 / (x + y) + 1 / (x + y + w) := by
          field_simp
          ring
        rw [e]
        positivity
      refine mul_left_cancel₀ hs ?_
      linear_combination h
    · simp only [List.length_cons] at hl
      omega

end weights

end Verif.Amount
