import Verif.Model.TimeData
import Mathlib.Algebra.Polynomial.Derivative
import Mathlib.Algebra.Polynomial.Eval.Degree
import Mathlib.Tactic.FieldSimp
import Mathlib.Tactic.Ring
import Mathlib.Tactic.Positivity
import Mathlib.Algebra.Order.Ring.Rat
import Mathlib.Algebra.Field.Rat
/-! # Weights of the implicit schemes: C21, C23 -/
set_option linter.unusedSectionVars false
namespace Verif.Props
open Verif Polynomial
variable {K : Type} [Field K] [LinearOrder K] [IsStrictOrderedRing K]

/-! ## C21 -/

/-- The times at which the history holds values: new time, and going back by the given steps. -/
def pastTimes (t : K) : List K → List K
  | [] => [t]
  | d :: ds => t :: pastTimes (t - d) ds

/-- The weights differentiate polynomials up to the given degree exactly at the new time. -/
def ExactFor (k : Nat) (w : List K) (dts : List K) : Prop :=
  ∀ (p : K[X]) (t : K), p.natDegree ≤ k →
    timeDerivative w ((pastTimes t dts).map p.eval) = p.derivative.eval t

private theorem eval_low {p : K[X]} {n : Nat} (h : p.natDegree < n) (x : K) :
    p.eval x = (Finset.range n).sum fun i => p.coeff i * x ^ i := eval_eq_sum_range' h x

private theorem deriv_low {p : K[X]} {n : Nat} (h : p.natDegree < n) (x : K) :
    p.derivative.eval x = (Finset.range n).sum fun i => p.coeff (i + 1) * (i + 1) * x ^ i := by
  have h2 : p.derivative.natDegree < n := by
    have := natDegree_derivative_le p
    omega
  rw [eval_eq_sum_range' h2 x]
  apply Finset.sum_congr rfl
  intro i _
  rw [coeff_derivative]

private theorem coeff_zero_of {p : K[X]} {k : Nat} (h : p.natDegree ≤ k) : p.coeff (k + 1) = 0 :=
  coeff_eq_zero_of_natDegree_lt (by omega)

private theorem eff1 {d0 : K} (h0 : 0 < d0) : effectiveOrder [d0] = 1 := by
  simp [effectiveOrder, h0]

/-- First order. -/
theorem C21_bdf1 (d0 : K) (h0 : 0 < d0) :
    (computeWeights .bdf1 [d0]).length = 2 ∧ ExactFor 1 (computeWeights .bdf1 [d0]) [d0] := by
  have e : computeWeights .bdf1 [d0] = [1 / d0, -1 / d0] := by
    simp [computeWeights, eff1 h0, setW1, dtAt]
  rw [e]
  refine ⟨rfl, fun p t hp => ?_⟩
  rw [deriv_low (n := 2) (by omega)]
  simp only [pastTimes, List.map, timeDerivative, List.zipWith, List.foldl,
    eval_low (n := 2) (show p.natDegree < 2 by omega), Finset.sum_range_succ, Finset.sum_range_zero,
    coeff_zero_of hp]
  have := h0.ne'
  push_cast
  field_simp
  ring

/-- Second order for arbitrary step sizes. -/
theorem C21_bdf2 (d0 d1 : K) (h0 : 0 < d0) (h1 : 0 < d1) :
    (computeWeights .bdf2 [d0, d1]).length = 3 ∧
      ExactFor 2 (computeWeights .bdf2 [d0, d1]) [d0, d1] := by
  have e : computeWeights .bdf2 [d0, d1] = [(2 * d0 + d1) / (d0 * (d0 + d1)), -(d0 + d1) / (d0 * d1),
      d0 / (d1 * (d0 + d1))] := by
    have : effectiveOrder [d0, d1] = 2 := by simp [effectiveOrder, h0, h1]
    simp [computeWeights, this, setW2, dtAt]
  rw [e]
  refine ⟨rfl, fun p t hp => ?_⟩
  rw [deriv_low (n := 3) (by omega)]
  simp only [pastTimes, List.map, timeDerivative, List.zipWith, List.foldl,
    eval_low (n := 3) (show p.natDegree < 3 by omega), Finset.sum_range_succ, Finset.sum_range_zero,
    coeff_zero_of hp]
  have := h0.ne'
  have := h1.ne'
  have : d0 + d1 ≠ 0 := by positivity
  push_cast
  field_simp
  ring

/-- Third order for arbitrary step sizes. -/
theorem C21_bdf3 (d0 d1 d2 : K) (h0 : 0 < d0) (h1 : 0 < d1) (h2 : 0 < d2) :
    (computeWeights .bdf3 [d0, d1, d2]).length = 4 ∧
      ExactFor 3 (computeWeights .bdf3 [d0, d1, d2]) [d0, d1, d2] := by
  have e : computeWeights .bdf3 [d0, d1, d2] =
      [-(-(d0 + d1) * (d0 + d1 + d2) / (d0 * d1 * (d1 + d2)) +
          d0 * (d0 + d1 + d2) / (d1 * d2 * (d0 + d1)) +
          -d0 * (d0 + d1) / (d2 * (d1 + d2) * (d0 + d1 + d2))),
        -(d0 + d1) * (d0 + d1 + d2) / (d0 * d1 * (d1 + d2)),
        d0 * (d0 + d1 + d2) / (d1 * d2 * (d0 + d1)),
        -d0 * (d0 + d1) / (d2 * (d1 + d2) * (d0 + d1 + d2))] := by
    have : effectiveOrder [d0, d1, d2] = 3 := by simp [effectiveOrder, h0, h1, h2]
    simp [computeWeights, this, setW3, dtAt]
  rw [e]
  refine ⟨rfl, fun p t hp => ?_⟩
  rw [deriv_low (n := 4) (by omega)]
  simp only [pastTimes, List.map, timeDerivative, List.zipWith, List.foldl,
    eval_low (n := 4) (show p.natDegree < 4 by omega), Finset.sum_range_succ, Finset.sum_range_zero,
    coeff_zero_of hp]
  have := h0.ne'
  have := h1.ne'
  have := h2.ne'
  have : d0 + d1 ≠ 0 := by positivity
  have : d1 + d2 ≠ 0 := by positivity
  have : d0 + d1 + d2 ≠ 0 := by positivity
  push_cast
  field_simp
  ring

omit [IsStrictOrderedRing K] in
/-- During start-up, when trailing step sizes are still zero, the weights are those of the highest
possible order, padded with zeros. -/
theorem C21_startup (d0 d1 : K) (h0 : 0 < d0) (h1 : 0 < d1) :
    computeWeights .bdf2 [d0, 0] = computeWeights .bdf1 [d0] ++ [0] ∧
    computeWeights .bdf3 [d0, 0, 0] = computeWeights .bdf1 [d0] ++ [0, 0] ∧
    computeWeights .bdf3 [d0, d1, 0] = computeWeights .bdf2 [d0, d1] ++ [0] := by
  refine ⟨?_, ?_, ?_⟩
  · simp [computeWeights, effectiveOrder, h0, setW1, dtAt]
  · simp [computeWeights, effectiveOrder, h0, setW1, dtAt]
  · simp [computeWeights, effectiveOrder, h0, h1, setW2, dtAt]

/-- Weights padded with zeros do not look at the trailing values, so they stay exact whatever is stored
there. -/
theorem C21_padding (w : List K) (n : Nat) (vals : List K) :
    timeDerivative (w ++ List.replicate n 0) vals = timeDerivative w vals := by
  have key : ∀ (w vals : List K) (r : K),
      (List.zipWith (· * ·) vals (w ++ List.replicate n 0)).foldl (· + ·) r =
      (List.zipWith (· * ·) vals w).foldl (· + ·) r := by
    intro w
    induction w with
    | nil =>
      intro vals r
      rw [List.nil_append, List.zipWith_nil_right]
      induction n generalizing vals r with
      | zero => simp
      | succ n ih =>
        cases vals with
        | nil => rfl
        | cons v vals =>
          simp only [List.replicate_succ, List.zipWith_cons_cons, List.foldl_cons, mul_zero, add_zero]
          exact ih vals r
    | cons a w ih =>
      intro vals r
      cases vals with
      | nil => rfl
      | cons v vals => exact ih vals _
  exact key w vals 0

/-- The weights sum to zero. -/
theorem C21_sum_zero (k : Nat) (w dts : List K) (h : ExactFor k w dts)
    (hl : w.length = dts.length + 1) : w.sum = 0 := by
  have h1 := h 1 0 (by simp)
  have hp : ∀ (dts : List K) (t : K), (pastTimes t dts).length = dts.length + 1 := by
    intro dts
    induction dts with
    | nil => intro t; rfl
    | cons d ds ih => intro t; simp [pastTimes, ih]
  have e : (pastTimes (0 : K) dts).map (fun x => (1 : K[X]).eval x) = List.replicate w.length 1 := by
    simp only [eval_one, List.map_const', hp, hl]
  rw [e] at h1
  simp only [derivative_one, eval_zero] at h1
  rw [← h1, timeDerivative]
  clear h1 e h hl
  have : ∀ (w : List K) (r : K),
      (List.zipWith (· * ·) (List.replicate w.length 1) w).foldl (· + ·) r = r + w.sum := by
    intro w
    induction w with
    | nil => intro r; simp
    | cons a w ih =>
      intro r
      simp only [List.length_cons, List.replicate_succ, List.zipWith_cons_cons, List.foldl_cons, one_mul,
        List.sum_cons]
      rw [ih, add_assoc]
  rw [this, zero_add]

namespace Ex21

example : computeWeights .bdf2 [(1 : Rat), 2] = [4 / 3, -3 / 2, 1 / 6] := by decide +kernel
/-- derivative of x² at 3 from the values at 3, 2, 0 -/
example : timeDerivative (computeWeights .bdf2 [(1 : Rat), 2]) [9, 4, 0] = 6 := by decide +kernel
/-- derivative of x³ at 3 from the values at 3, 2, 0, -1 -/
example : timeDerivative (computeWeights .bdf3 [(1 : Rat), 2, 1]) [27, 8, 0, -1] = 27 := by
  decide +kernel
example : computeWeights .bdf3 [(2 : Rat), 0, 0] = [1 / 2, -1 / 2, 0, 0] := by decide +kernel
/-- A step of negative size (which the driver produces after overshooting the final time, see C26)
switches the time derivative off. -/
example : computeWeights .bdf1 [(-1 : Rat)] = [0, 0] := by decide +kernel

end Ex21

/-! ## C23 -/

/-- Object in use with an implicit scheme: as many steps as the order, weights computed from them. -/
structure TimeData.Valid (s : Scheme) (d : TimeData K) : Prop where
  scheme : d.scheme = some s
  order : d.order = s.order
  size : d.dt.length = s.order
  weights : d.weights = computeWeights s d.dt
  stationary : d.stationaryWeight = 1

omit [IsStrictOrderedRing K] in
/-- Saving and restoring with full history and the same implicit scheme gives the same object. -/
theorem C23_implicit_partial (s : Scheme) (d : TimeData K) (h : TimeData.Valid s d) :
    TimeData.restore true (some s) d.save = .ok d := by
  obtain ⟨sch, ord, dt, w, sw⟩ := d
  obtain ⟨h1, h2, h3, h4, h5⟩ := h
  simp only at h1 h2 h3 h4 h5
  subst h1; subst h2; subst h4; subst h5
  match s, dt, h3 with
  | .bdf1, [a], _ => rfl
  | .bdf2, [a, b], _ => rfl
  | .bdf3, [a, b, c], _ => rfl

omit [IsStrictOrderedRing K] in
/-- Loading directly into any object with the same implicit scheme gives the saved object, including its
weights, whatever the steps and weights of that object were. -/
theorem C23_load (s : Scheme) (d e : TimeData K) (h : TimeData.Valid s d) (he : e.scheme = some s)
    (hw : e.stationaryWeight = 1) : e.load d.save = .ok d := by
  obtain ⟨sch, ord, dt, w, sw⟩ := d
  obtain ⟨h1, h2, h3, h4, h5⟩ := h
  simp only at h1 h2 h3 h4 h5
  subst h1; subst h2; subst h4; subst h5
  obtain ⟨sch', ord', dt', w', sw'⟩ := e
  simp only at he hw
  subst he; subst hw
  match s, dt, h3 with
  | .bdf1, [a], _ => rfl
  | .bdf2, [a, b], _ => rfl
  | .bdf3, [a, b, c], _ => rfl

omit [IsStrictOrderedRing K] in
/-- Without full history the current step is kept and the scheme starts from the lowest order. -/
theorem C23_lowest_order (s s' : Scheme) (d : TimeData K) (h : TimeData.Valid s d) :
    ∃ x r, d.currentDt = .ok x ∧ TimeData.restore false (some s') d.save = .ok r ∧
      TimeData.Valid s' r ∧ r.dt = x :: List.replicate (s'.order - 1) 0 := by
  obtain ⟨sch, ord, dt, w, sw⟩ := d
  obtain ⟨h1, h2, h3, h4, h5⟩ := h
  simp only at h1 h2 h3 h4 h5
  subst h1; subst h2; subst h4; subst h5
  match s, dt, h3 with
  | .bdf1, [a], _ => cases s' <;> exact ⟨a, _, rfl, rfl, ⟨rfl, rfl, rfl, rfl, rfl⟩, rfl⟩
  | .bdf2, [a, b], _ => cases s' <;> exact ⟨a, _, rfl, rfl, ⟨rfl, rfl, rfl, rfl, rfl⟩, rfl⟩
  | .bdf3, [a, b, c], _ => cases s' <;> exact ⟨a, _, rfl, rfl, ⟨rfl, rfl, rfl, rfl, rfl⟩, rfl⟩

omit [IsStrictOrderedRing K] in
/-- Changing the implicit scheme between the runs keeps the common step sizes. -/
theorem C23_scheme_change (s s' : Scheme) (d : TimeData K) (h : TimeData.Valid s d) :
    ∃ r, TimeData.restore true (some s') d.save = .ok r ∧ TimeData.Valid s' r ∧
      r.dt = d.dt.take s'.order ++ List.replicate (s'.order - s.order) 0 := by
  obtain ⟨sch, ord, dt, w, sw⟩ := d
  obtain ⟨h1, h2, h3, h4, h5⟩ := h
  simp only at h1 h2 h3 h4 h5
  subst h1; subst h2; subst h4; subst h5
  match s, dt, h3 with
  | .bdf1, [a], _ => cases s' <;> exact ⟨_, rfl, ⟨rfl, rfl, rfl, rfl, rfl⟩, rfl⟩
  | .bdf2, [a, b], _ => cases s' <;> exact ⟨_, rfl, ⟨rfl, rfl, rfl, rfl, rfl⟩, rfl⟩
  | .bdf3, [a, b, c], _ => cases s' <;> exact ⟨_, rfl, ⟨rfl, rfl, rfl, rfl, rfl⟩, rfl⟩

omit [IsStrictOrderedRing K] in
/-- Restoring after an explicit run is undefined behaviour for every step size, with and without full
history and for every scheme of the new run: the order is 0, so no step size is read. -/
theorem C23_violated (x : K) (full : Bool) (s : Option Scheme) :
    ∃ d : TimeData K, TimeData.ofSchemeDt none x = .ok d ∧ d.currentDt = .ok x ∧
      TimeData.restore full s d.save = .ub := by
  refine ⟨⟨none, 0, [x], [0], 0⟩, rfl, rfl, ?_⟩
  cases full <;> cases s <;> rfl

namespace Ex23

def d : TimeData Rat := ⟨some .bdf2, 2, [1, 2], computeWeights .bdf2 [1, 2], 1⟩
example : TimeData.Valid .bdf2 d := ⟨rfl, rfl, rfl, rfl, rfl⟩
example : TimeData.restore true (some .bdf2) d.save = .ok d := by decide +kernel
example : TimeData.restore true (some .bdf3) d.save =
    .ok ⟨some .bdf3, 3, [1, 2, 0], [4 / 3, -3 / 2, 1 / 6, 0], 1⟩ := by decide +kernel

/-- loading into an object with other steps -/
example : (⟨some .bdf2, 2, [7, 8], [1, 1, 1], 1⟩ : TimeData Rat).load d.save = .ok d := by decide +kernel

end Ex23
end Verif.Props
