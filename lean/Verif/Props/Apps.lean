/-
C106: residual and tangent of the small applications.
C107: amount and time in the applications for the Cahn-Hilliard equation.
C108: model of Kim, Kim and Suzuki.
-/
import Verif.Spec.Apps
import Mathlib.Analysis.Calculus.Deriv.Add
import Mathlib.Analysis.Calculus.Deriv.Mul
import Mathlib.Analysis.Calculus.Deriv.Inv
import Mathlib.Algebra.BigOperators.Field
import Mathlib.Analysis.Calculus.Deriv.Pow
import Mathlib.Algebra.BigOperators.Ring.Finset
import Mathlib.Tactic.Ring
import Mathlib.Tactic.FieldSimp
import Mathlib.Tactic.LinearCombination
import Mathlib.Tactic.NormNum
import Mathlib.Algebra.Order.Ring.Rat

namespace Verif.Props

open Finset Verif.Apps Verif.Spec.Apps

section
variable {K : Type} [Field K] {n d nq m : Nat}

private theorem value_along (p : QPt K n d) (u x : Fin n → K) (t : K) : value p (along u x t) = value p u + t * value p x := by
  unfold value along
  rw [mul_sum, ← sum_add_distrib]
  exact sum_congr rfl fun i _ => by ring

private theorem gradient_along (p : QPt K n d) (u x : Fin n → K) (t : K) (e : Fin d) :
    gradient p (along u x t) e = gradient p u e + t * gradient p x e := by
  unfold gradient along
  rw [mul_sum, ← sum_add_distrib]
  exact sum_congr rfl fun i _ => by ring

/-- A vector of integrals, tested. -/
private theorem test_integrate (D : Fin nq → QPt K n d) (s : Fin nq → Sub K m d) (c : Fin m) (w : Fin n → K) :
    test (integrate D s c) w = ∑ q, (D q).w * ((s q).val c * value (D q) w + ∑ e, (s q).grd c e * gradient (D q) w e) := by
  unfold test integrate
  simp only [sum_mul]
  rw [sum_comm]
  refine sum_congr rfl fun q _ => ?_
  unfold value gradient
  rw [mul_add, mul_sum, mul_sum, mul_sum]
  simp only [mul_sum]
  rw [sum_comm (s := (univ : Finset (Fin d))), ← sum_add_distrib]
  refine sum_congr rfl fun i _ => ?_
  rw [mul_add, mul_sum, add_mul, sum_mul]
  congr 1
  · ring
  · exact sum_congr rfl fun e _ => by ring

private theorem test_mass (D : Fin nq → QPt K n d) (u : Fin m → Fin n → K) (c : Fin m) (w : Fin n → K) :
    test (mass D u c) w = inner D (u c) w := by
  unfold mass loop
  rw [test_integrate]
  simp [inner]

private theorem test_ext {r r' : Fin n → K} (h : ∀ w, test r w = test r' w) : r = r' := by
  funext i
  have := h fun j => if j = i then 1 else 0
  simpa [test] using this

private theorem value_one {D : Fin nq → QPt K n d} (h : Unity D) (q : Fin nq) : value (D q) (fun _ => 1) = 1 := by
  unfold value; simpa using (h q).1

private theorem gradient_one {D : Fin nq → QPt K n d} (h : Unity D) (q : Fin nq) (e : Fin d) : gradient (D q) (fun _ => 1) e = 0 := by
  unfold gradient; simpa using (h q).2 e

private theorem inner_one {D : Fin nq → QPt K n d} (h : Unity D) (u : Fin n → K) : inner D u (fun _ => 1) = amount D u := by
  unfold inner amount
  exact sum_congr rfl fun q _ => by rw [value_one h, mul_one]

private theorem stiff_one {D : Fin nq → QPt K n d} (h : Unity D) (u : Fin n → K) : stiff D u (fun _ => 1) = 0 := by
  unfold stiff
  simp only [gradient_one h, mul_zero, sum_const_zero]

end

/-! ## C106 -/

section
variable {n d nq m : Nat}

private theorem energy_deriv (f f' : ℝ → ℝ) (hf : ∀ x, HasDerivAt f (f' x) x) (kappa : ℝ) (D : Fin nq → QPt ℝ n d) (u w : Fin n → ℝ) :
    HasDerivAt (fun t => energy f kappa D (along u w t))
      (∑ q, (D q).w * (f' (value (D q) u) * value (D q) w + kappa * ∑ e, gradient (D q) u e * gradient (D q) w e)) 0 := by
  unfold energy
  refine HasDerivAt.fun_sum fun q _ => ?_
  refine HasDerivAt.const_mul _ ?_
  have lin : ∀ a b : ℝ, HasDerivAt (fun t : ℝ => a + t * b) b 0 := by
    intro a b
    simpa using ((hasDerivAt_id (0 : ℝ)).mul_const b).const_add a
  refine HasDerivAt.add ?_ ?_
  · simp only [value_along]
    have h := hf (value (D q) u + 0 * value (D q) w)
    exact (h.comp (0 : ℝ) (lin (value (D q) u) (value (D q) w))).congr_deriv (by simp)
  · simp only [gradient_along]
    have : HasDerivAt (fun t : ℝ => ∑ e, (gradient (D q) u e + t * gradient (D q) w e) ^ 2)
        (∑ e, 2 * gradient (D q) u e * gradient (D q) w e) 0 := by
      refine HasDerivAt.fun_sum fun e _ => ?_
      exact ((lin (gradient (D q) u e) (gradient (D q) w e)).fun_pow 2).congr_deriv (by simp)
    have h2 := this.const_mul (kappa / 2)
    have e : kappa * ∑ e, gradient (D q) u e * gradient (D q) w e = kappa / 2 * ∑ e, 2 * gradient (D q) u e * gradient (D q) w e := by
      rw [mul_sum, mul_sum]
      exact sum_congr rfl fun e _ => by ring
    rw [e]
    exact h2

private theorem doubleWell_deriv (x : ℝ) : HasDerivAt doubleWell (dfDphi x) x := by
  unfold doubleWell dfDphi
  have h := ((((hasDerivAt_id x).pow 2).sub_const 1).pow 2).div_const 2
  have e : (((2 : ℕ) : ℝ) * (id x ^ 2 - 1) ^ (2 - 1) * (((2 : ℕ) : ℝ) * id x ^ (2 - 1) * 1)) / 2 = x * x * x * 2 - x * 2 := by
    simp only [id_eq]; norm_num; ring
  rw [← e]
  exact h

private theorem mixture_deriv (x : ℝ) : HasDerivAt mixture (dfDc x) x := by
  unfold mixture dfDc
  have h := ((hasDerivAt_id x).pow 2).mul (((hasDerivAt_id x).const_sub 1).pow 2)
  refine h.congr_deriv ?_
  simp only [id_eq]; norm_num; ring

/-- C106: the residual of the application with several components is the one of the implicit Euler scheme for the gradient flow of the
energy, for every mesh and all vectors. -/
theorem C106_residual (D : Fin nq → QPt ℝ n d) (p : Par ℝ) (old u : Fin m → Fin n → ℝ) (c : Fin m) (w : Fin n → ℝ) :
    ∃ E', HasDerivAt (fun t => energy doubleWell p.kappa D (along (u c) w t)) E' 0 ∧
      test (acEvaluate D p old u c) w = inner D (u c) w - inner D (old c) w + p.dt * p.M * E' := by
  refine ⟨_, energy_deriv _ _ doubleWell_deriv p.kappa D (u c) w, ?_⟩
  unfold acEvaluate loop
  rw [test_integrate]
  unfold inner
  rw [mul_sum, ← sum_sub_distrib, ← sum_add_distrib]
  refine sum_congr rfl fun q _ => ?_
  simp only [acResidual]
  have e : ∑ e, p.dt * p.M * p.kappa * gradient (D q) (u c) e * gradient (D q) w e =
      p.dt * p.M * p.kappa * ∑ e, gradient (D q) (u c) e * gradient (D q) w e := by
    rw [mul_sum]; exact sum_congr rfl fun e _ => by ring
  rw [e]
  ring

/-- C106: the right-hand side of the explicit applications is the one of the explicit Euler scheme for the same flow. -/
theorem C106_explicit (D : Fin nq → QPt ℝ n d) (p : Par ℝ) (u : Fin m → Fin n → ℝ) (c : Fin m) (w : Fin n → ℝ) :
    ∃ E', HasDerivAt (fun t => energy doubleWell p.kappa D (along (u c) w t)) E' 0 ∧
      test (loop D (fun _ => acRhs p) u c) w = inner D (u c) w - p.dt * p.M * E' := by
  refine ⟨_, energy_deriv _ _ doubleWell_deriv p.kappa D (u c) w, ?_⟩
  unfold loop
  rw [test_integrate]
  unfold inner
  rw [mul_sum, ← sum_sub_distrib]
  refine sum_congr rfl fun q _ => ?_
  simp only [acRhs]
  have e : ∑ e, -p.dt * p.M * p.kappa * gradient (D q) (u c) e * gradient (D q) w e =
      -p.dt * p.M * p.kappa * ∑ e, gradient (D q) (u c) e * gradient (D q) w e := by
    rw [mul_sum]; exact sum_congr rfl fun e _ => by ring
  rw [e]
  ring

private theorem loop_deriv (D : Fin nq → QPt ℝ n d) (k k' : Fin nq → (Fin m → ℝ) → (Fin m → Fin d → ℝ) → Sub ℝ m d) (u x : Fin m → Fin n → ℝ)
    (hv : ∀ q (v : Fin m → ℝ) (g : Fin m → Fin d → ℝ) c, v = (fun c => value (D q) (u c)) →
      HasDerivAt (fun t : ℝ => (k q (fun c => v c + t * value (D q) (x c))
        (fun c e => g c e + t * gradient (D q) (x c) e)).val c) ((k' q (fun c => value (D q) (x c)) (fun c e => gradient (D q) (x c) e)).val c) 0)
    (hg : ∀ q (v : Fin m → ℝ) (g : Fin m → Fin d → ℝ) c e, v = (fun c => value (D q) (u c)) →
      HasDerivAt (fun t : ℝ => (k q (fun c => v c + t * value (D q) (x c))
        (fun c e => g c e + t * gradient (D q) (x c) e)).grd c e)
        ((k' q (fun c => value (D q) (x c)) (fun c e => gradient (D q) (x c) e)).grd c e) 0)
    (c : Fin m) (i : Fin n) :
    HasDerivAt (fun t => loop D k (fun c => along (u c) (x c) t) c i) (loop D k' x c i) 0 := by
  unfold loop integrate
  simp only [value_along, gradient_along]
  refine HasDerivAt.fun_sum fun q _ => ?_
  refine HasDerivAt.const_mul _ ?_
  refine HasDerivAt.add ?_ ?_
  · exact (hv q _ _ c rfl).mul_const _
  · refine HasDerivAt.fun_sum fun e _ => ?_
    exact (hg q _ _ c e rfl).mul_const _

private theorem lin0 (a b : ℝ) : HasDerivAt (fun t : ℝ => a + t * b) b 0 := by
  simpa using ((hasDerivAt_id (0 : ℝ)).mul_const b).const_add a

private theorem dfDphi_deriv (a b : ℝ) : HasDerivAt (fun t : ℝ => dfDphi (a + t * b)) (d2fDphi2 a * b) 0 := by
  unfold dfDphi d2fDphi2
  have h := (((lin0 a b).fun_mul (lin0 a b)).fun_mul (lin0 a b)).mul_const 2 |>.sub ((lin0 a b).mul_const 2)
  refine h.congr_deriv ?_
  ring

private theorem dfDc_deriv (a b : ℝ) : HasDerivAt (fun t : ℝ => dfDc (a + t * b)) (d2fDc2 a * b) 0 := by
  unfold dfDc d2fDc2
  have h := (((lin0 a b).const_mul 4).fun_mul ((lin0 a b).sub_const 1)).fun_mul ((lin0 a b).sub_const (1 / 2))
  refine h.congr_deriv ?_
  simp only [zero_mul, add_zero]
  ring

/-- C106: the product with the tangent of this application is the derivative of the residual at the vector given to `evaluate_newton_step`. -/
theorem C106_tangent (D : Fin nq → QPt ℝ n d) (p : Par ℝ) (old u x : Fin m → Fin n → ℝ) (c : Fin m) (i : Fin n) :
    HasDerivAt (fun t => acEvaluate D p old (fun c => along (u c) (x c) t) c i) (acVmult D p (nonlinearValues D u) x c i) 0 := by
  unfold acEvaluate acVmult
  refine loop_deriv D _ (fun q v g => acTangent p (nonlinearValues D u q) v g) u x ?_ ?_ c i
  · rintro q v g c rfl
    simp only [acResidual, acTangent, nonlinearValues]
    have h := ((lin0 (value (D q) (u c)) (value (D q) (x c))).sub_const (value (D q) (old c))).add
      ((dfDphi_deriv (value (D q) (u c)) (value (D q) (x c))).const_mul (p.dt * p.M))
    refine h.congr_deriv ?_
    ring
  · rintro q v g c e rfl
    simp only [acResidual, acTangent]
    exact (lin0 _ _).const_mul _

/-- C106 for the Cahn-Hilliard equation: the residual is the implicit Euler scheme with the potential as the derivative of the energy. -/
theorem C106_ch_residual (D : Fin nq → QPt ℝ n d) (p : Par ℝ) (old u : Fin 2 → Fin n → ℝ) (w : Fin n → ℝ) :
    test (chEvaluate D p old u 0) w = (inner D (u 0) w - inner D (old 0) w) / p.dt + p.M * stiff D (u 1) w ∧
    ∃ E', HasDerivAt (fun t => energy mixture p.kappa D (along (u 0) w t)) E' 0 ∧
      test (chEvaluate D p old u 1) w = -inner D (u 1) w + E' := by
  refine ⟨?_, _, energy_deriv _ _ mixture_deriv p.kappa D (u 0) w, ?_⟩
  · unfold chEvaluate loop
    rw [test_integrate]
    unfold inner stiff
    rw [mul_sum, ← sum_sub_distrib, sum_div, ← sum_add_distrib]
    refine sum_congr rfl fun q _ => ?_
    simp only [chResidual, Matrix.cons_val_zero]
    have e : ∑ e, p.M * gradient (D q) (u 1) e * gradient (D q) w e = p.M * ∑ e, gradient (D q) (u 1) e * gradient (D q) w e := by
      rw [mul_sum]; exact sum_congr rfl fun e _ => by ring
    rw [e]
    ring
  · unfold chEvaluate loop
    rw [test_integrate]
    unfold inner
    rw [← sum_neg_distrib, ← sum_add_distrib]
    refine sum_congr rfl fun q _ => ?_
    simp only [chResidual, Matrix.cons_val_one]
    have e : ∑ e, p.kappa * gradient (D q) (u 0) e * gradient (D q) w e = p.kappa * ∑ e, gradient (D q) (u 0) e * gradient (D q) w e := by
      rw [mul_sum]; exact sum_congr rfl fun e _ => by ring
    simp only [Matrix.cons_val_fin_one]
    rw [e]
    ring

/-- C106 for the Cahn-Hilliard equation: the tangent. -/
theorem C106_ch_tangent (D : Fin nq → QPt ℝ n d) (p : Par ℝ) (old u x : Fin 2 → Fin n → ℝ) (c : Fin 2) (i : Fin n) :
    HasDerivAt (fun t => chEvaluate D p old (fun c => along (u c) (x c) t) c i) (chVmult D p (nonlinearValues D u) x c i) 0 := by
  unfold chEvaluate chVmult
  refine loop_deriv D _ (fun q v g => chTangent p (nonlinearValues D u q) v g) u x ?_ ?_ c i
  · rintro q v g c rfl
    match c with
    | 0 =>
      simp only [chResidual, chTangent, Matrix.cons_val_zero]
      exact ((lin0 _ _).sub_const _).div_const _
    | 1 =>
      simp only [chResidual, chTangent, Matrix.cons_val_one, Matrix.cons_val_fin_one, nonlinearValues]
      exact (lin0 _ _).neg.add (dfDc_deriv _ _)
  · rintro q v g c e rfl
    match c with
    | 0 => exact (lin0 _ _).const_mul _
    | 1 => exact (lin0 _ _).const_mul _

end

/-- C106 is violated by the application with one component: the derivative of the energy is multiplied by the solution; at a quadrature
point this agrees with the scheme only where one of the factors vanishes. -/
theorem C106_one_violated {K : Type} [Field K] {d : Nat} (p : Par K) (o v : Fin 1 → K) (g : Fin 1 → Fin d → K) :
    (ac1Residual p o v g).val 0 = (acResidual p o v g).val 0 ↔ p.dt * p.M * dfDphi (v 0) * (v 0 - 1) = 0 := by
  unfold ac1Residual acResidual
  constructor
  · intro h; linear_combination h
  · intro h; linear_combination h

/-- C106 is violated by the application with one component: the product with the tangent uses a gradient that was not evaluated. -/
theorem C106_gradient_violated {K : Type} [Field K] {n d nq : Nat} (D : Fin nq → QPt K n d) (p : Par K) (stored x : Fin 1 → Fin n → K) :
    ac1Vmult D p stored x = if nq = 0 then .ok (fun _ _ => 0) else .ub := by
  cases nq with
  | zero =>
    unfold ac1Vmult integrate
    rfl
  | succ k =>
    rw [if_neg (Nat.succ_ne_zero k)]
    unfold ac1Vmult
    rw [List.finRange_succ, List.mapM_cons]
    rfl

/-! ## C107 -/

section
variable {K : Type} [Field K] {n d nq : Nat}

private theorem ch_test0 (D : Fin nq → QPt K n d) (p : Par K) (old u : Fin 2 → Fin n → K) (w : Fin n → K) :
    test (chEvaluate D p old u 0) w = (inner D (u 0) w - inner D (old 0) w) / p.dt + p.M * stiff D (u 1) w := by
  unfold chEvaluate loop
  rw [test_integrate]
  unfold inner stiff
  rw [mul_sum, ← sum_sub_distrib, sum_div, ← sum_add_distrib]
  refine sum_congr rfl fun q _ => ?_
  simp only [chResidual, Matrix.cons_val_zero]
  have e : ∑ e, p.M * gradient (D q) (u 1) e * gradient (D q) w e = p.M * ∑ e, gradient (D q) (u 1) e * gradient (D q) w e := by
    rw [mul_sum]; exact sum_congr rfl fun e _ => by ring
  rw [e]
  ring

/-- C107: the sum of the entries of the residual is the change of the amount divided by the step, also if the residual does not vanish. -/
theorem C107_balance (D : Fin nq → QPt K n d) (hu : Unity D) (p : Par K) (hdt : p.dt ≠ 0) (old u : Fin 2 → Fin n → K) :
    amount D (u 0) - amount D (old 0) = p.dt * ∑ i, chEvaluate D p old u 0 i := by
  have h := ch_test0 D p old u fun _ => 1
  rw [inner_one hu, inner_one hu, stiff_one hu, mul_zero, add_zero] at h
  have e : test (chEvaluate D p old u 0) (fun _ => 1) = ∑ i, chEvaluate D p old u 0 i := by simp [test]
  rw [← e, h]
  field_simp

/-- One step of the explicit application, tested: the potential that moves the concentration is the one of the vector before the step, and the
new potential belongs to the concentration before the step. -/
private theorem chStep_test {D : Fin nq → QPt K n d} {p : Par K} {u u' : Fin 2 → Fin n → K} (h : ChStep D p u u') (w : Fin n → K) :
    inner D (u' 0) w = inner D (u 0) w - p.dt * p.M * stiff D (u 1) w ∧
    inner D (u' 1) w = ∑ q, (D q).w * (dfDc (value (D q) (u 0)) * value (D q) w + p.kappa * ∑ e, gradient (D q) (u 0) e * gradient (D q) w e) := by
  constructor
  · rw [← test_mass D u', show mass D u' = loop D (fun _ => chRhs p) u from h]
    unfold loop
    rw [test_integrate]
    unfold inner stiff
    rw [mul_sum, ← sum_sub_distrib]
    refine sum_congr rfl fun q _ => ?_
    simp only [chRhs, Matrix.cons_val_zero]
    have e : ∑ e, -p.dt * p.M * gradient (D q) (u 1) e * gradient (D q) w e =
        -p.dt * p.M * ∑ e, gradient (D q) (u 1) e * gradient (D q) w e := by
      rw [mul_sum]; exact sum_congr rfl fun e _ => by ring
    rw [e]
    ring
  · rw [← test_mass D u', show mass D u' = loop D (fun _ => chRhs p) u from h]
    unfold loop
    rw [test_integrate]
    refine sum_congr rfl fun q _ => ?_
    simp only [chRhs, Matrix.cons_val_one, Matrix.cons_val_fin_one]
    have e : ∑ e, p.kappa * gradient (D q) (u 0) e * gradient (D q) w e = p.kappa * ∑ e, gradient (D q) (u 0) e * gradient (D q) w e := by
      rw [mul_sum]; exact sum_congr rfl fun e _ => by ring
    rw [e]

/-- C107: the explicit application keeps the amount, for any number of steps. -/
theorem C107_explicit (D : Fin nq → QPt K n d) (hu : Unity D) (p : Par K) (u : Nat → Fin 2 → Fin n → K)
    (h : ∀ k, ChStep D p (u k) (u (k + 1))) (k : Nat) : amount D (u k 0) = amount D (u 0 0) := by
  induction k with
  | zero => rfl
  | succ k ih =>
    have := (chStep_test (h k) fun _ => 1).1
    rw [inner_one hu, inner_one hu, stiff_one hu, mul_zero, sub_zero] at this
    rw [this, ih]

/-- C107 is violated by the explicit application: with the initial potential (which is zero) the first step changes nothing, whatever the
concentration is. -/
theorem C107_first_violated (D : Fin nq → QPt K n d) (hr : Regular D) (p : Par K) (u u' : Fin 2 → Fin n → K) (h0 : u 1 = fun _ => 0)
    (h : ChStep D p u u') : u' 0 = u 0 := by
  have key : (fun i => u' 0 i - u 0 i) = fun _ => 0 := by
    refine hr _ fun w => ?_
    have h1 := (chStep_test h w).1
    have hs : stiff D (u 1) w = 0 := by
      rw [h0]; unfold stiff gradient; simp
    rw [hs, mul_zero, sub_zero] at h1
    have e : inner D (fun i => u' 0 i - u 0 i) w = inner D (u' 0) w - inner D (u 0) w := by
      unfold inner value
      rw [← sum_sub_distrib]
      refine sum_congr rfl fun q _ => ?_
      rw [← mul_sub, ← sub_mul, ← sum_sub_distrib]
      congr 2
      exact sum_congr rfl fun i _ => by ring
    rw [e, h1, sub_self]
  funext i
  exact sub_eq_zero.1 (congrFun key i)

end

/-- C107 is violated by the explicit application: the concentration moves along the gradient of the potential of the step before, not of the
present one; in all steps. -/
theorem C107_lag_violated {n d nq : Nat} (D : Fin nq → QPt ℝ n d) (p : Par ℝ) (u : Nat → Fin 2 → Fin n → ℝ)
    (h : ∀ k, ChStep D p (u k) (u (k + 1))) (k : Nat) (w : Fin n → ℝ) :
    inner D (u (k + 2) 0) w = inner D (u (k + 1) 0) w - p.dt * p.M * stiff D (u (k + 1) 1) w ∧
    HasDerivAt (fun t => energy mixture p.kappa D (along (u k 0) w t)) (inner D (u (k + 1) 1) w) 0 := by
  refine ⟨(chStep_test (h (k + 1)) w).1, ?_⟩
  rw [(chStep_test (h k) w).2]
  exact energy_deriv _ _ mixture_deriv p.kappa D (u k 0) w

section
variable {K : Type} [Field K] [LinearOrder K] [IsStrictOrderedRing K]

private theorem nextDt_pos {c : TimeCfg K} (hmax : 0 < c.dtMax) (hg : 0 < c.growth) (htol : 0 ≤ c.tol) {t dt : K} (ht : t ≤ c.tEnd)
    (hdt : 0 < dt) (nn nl : Nat) : 0 < nextDt c t dt nn nl := by
  unfold nextDt
  by_cases h1 : c.tol < (if t - c.tEnd < 0 then -(t - c.tEnd) else t - c.tEnd)
  · rw [if_pos h1]
    have hlt : t < c.tEnd := by
      by_contra hcon
      have : t = c.tEnd := le_antisymm ht (not_lt.1 hcon)
      subst this
      simp at h1
      exact absurd h1 (not_lt.2 htol)
    dsimp only
    by_cases h2 : c.tEnd < t + (if nn < c.newton ∧ nl < c.linear then (if c.dtMax < dt * c.growth then c.dtMax else dt * c.growth) else dt)
    · rw [if_pos h2]; exact sub_pos.2 hlt
    · rw [if_neg h2]
      split_ifs
      · exact hmax
      · exact mul_pos hdt hg
      · exact hdt
  · rw [if_neg h1]; exact hdt

/-- C107: the implicit application keeps the amount in the whole run, with failed solves and all step sizes, if solves that succeed have
residual zero. -/
theorem C107_run {n d nq : Nat} (D : Fin nq → QPt K n d) (hu : Unity D) (M kappa : K) (c : TimeCfg K) (hmax : 0 < c.dtMax) (hmin : 0 ≤ c.dtMin)
    (hg : 0 < c.growth) (htol : 0 ≤ c.tol) (solve : K → (Fin 2 → Fin n → K) → Solved (Fin 2 → Fin n → K))
    (hs : ∀ dt old nn nl x, 0 < dt → solve dt old = .done nn nl x → ∀ i, chEvaluate D ⟨dt, M, kappa⟩ old x 0 i = 0) :
    ∀ (k : Nat) (s s' : LoopSt K (Fin 2 → Fin n → K)), 0 < s.dt → timeLoop c solve k s = .ok s' →
      amount D (s'.solution 0) = amount D (s.solution 0)
  | 0, s, s', _, h => by injection h with h; rw [h]
  | k + 1, s, s', hdt, h => by
    rw [timeLoop] at h
    by_cases ht : s.t ≤ c.tEnd
    · rw [if_pos ht] at h
      obtain ⟨s1, h1, h2⟩ := Res.bind_eq_ok.1 h
      rw [turn] at h1
      cases hso : solve s.dt s.solution with
      | done nn nl x =>
        rw [hso] at h1
        injection h1 with h1
        subst h1
        rw [C107_run D hu M kappa c hmax hmin hg htol solve hs k _ s' (nextDt_pos hmax hg htol ht hdt nn nl) h2]
        have hb := C107_balance D hu ⟨s.dt, M, kappa⟩ (ne_of_gt hdt) s.solution x
        rw [sum_eq_zero (fun i _ => hs _ _ _ _ _ hdt hso i), mul_zero] at hb
        exact sub_eq_zero.1 hb
      | failed x =>
        rw [hso] at h1
        dsimp only at h1
        by_cases hm : c.dtMin < s.dt * (1 / 2)
        · rw [if_pos hm] at h1
          injection h1 with h1
          subst h1
          have := C107_run D hu M kappa c hmax hmin hg htol solve hs k ⟨s.t, s.dt * (1 / 2), s.solution⟩ s' (lt_of_le_of_lt hmin hm) h2
          exact this
        · rw [if_neg hm] at h1; cases h1
    · rw [if_neg ht] at h
      injection h with h
      rw [h]

omit [IsStrictOrderedRing K] in
/-- C107 is violated: time advances by the size of the next step, not of the one that was solved. Here the solution is the time it has been
advanced; without failed solves it differs from the time of the loop by the difference of the last and the first step. -/
theorem C107_time_violated (c : TimeCfg K) (nn nl : K → K → Nat) : ∀ (k : Nat) (s s' : LoopSt K K),
    timeLoop c (fun dt x => .done (nn dt x) (nl dt x) (x + dt)) k s = .ok s' →
      s'.t - s'.solution = s.t - s.solution + (s'.dt - s.dt)
  | 0, s, s', h => by injection h with h; rw [h]; ring
  | k + 1, s, s', h => by
    rw [timeLoop] at h
    by_cases ht : s.t ≤ c.tEnd
    · rw [if_pos ht] at h
      obtain ⟨s1, h1, h2⟩ := Res.bind_eq_ok.1 h
      rw [turn] at h1
      injection h1 with h1
      subst h1
      rw [C107_time_violated c nn nl k _ s' h2]
      ring
    · rw [if_neg ht] at h
      injection h with h
      rw [h]; ring

end

/-! ## C108 -/

section
variable {K : Type} [Field K]

/-- C108: the concentrations of the phases make up the concentration, and their chemical potentials agree. -/
theorem C108_equilibrium (p : KksPar K) (c : K) (phi : Fin 2 → K) (h : denom p phi ≠ 0) :
    phi 0 * calcCa p c phi 0 + phi 1 * calcCa p c phi 1 = c ∧
    calcMu (calcCa p c phi 0) (p.k 0) (p.c0 0) = calcMu (calcCa p c phi 1) (p.k 1) (p.c0 1) := by
  unfold calcMu calcCa
  constructor
  · have : phi 0 * nom p c phi 0 + phi 1 * nom p c phi 1 = c * denom p phi := by
      simp [nom, denom, other, linf]; ring
    rw [← mul_div_assoc, ← mul_div_assoc, ← add_div, this, mul_div_cancel_right₀ _ h]
  · have : p.k 0 * nom p c phi 0 - p.k 1 * nom p c phi 1 = (p.k 0 * p.c0 0 - p.k 1 * p.c0 1) * denom p phi := by
      simp [nom, denom, other, linf]; ring
    field_simp
    linear_combination this

/-- C108: the gradients of the concentrations of the phases belong to one gradient of the chemical potential. -/
theorem C108_flux (p : KksPar K) (c cg : K) (phi pg : Fin 2 → K) : p.k 0 * calcGradCa p c cg phi pg 0 = p.k 1 * calcGradCa p c cg phi pg 1 := by
  unfold calcGradCa
  rw [← mul_div_assoc, ← mul_div_assoc]
  congr 1
  simp [nom, denom, other, linf]
  ring

end

private theorem nom_along (p : KksPar ℝ) (c cg : ℝ) (phi pg : Fin 2 → ℝ) (a : Fin 2) (t : ℝ) :
    nom p (c + t * cg) (fun i => phi i + t * pg i) a = nom p c phi a + t * nom p cg pg a := by
  unfold nom; ring

private theorem denom_along (p : KksPar ℝ) (phi pg : Fin 2 → ℝ) (t : ℝ) :
    denom p (fun i => phi i + t * pg i) = denom p phi + t * denom p pg := by
  unfold denom; ring

/-- C108: the gradient of the concentration of a phase is the derivative of that concentration. -/
theorem C108_gradient (p : KksPar ℝ) (c cg : ℝ) (phi pg : Fin 2 → ℝ) (a : Fin 2) (h : denom p phi ≠ 0) :
    HasDerivAt (fun t => calcCa p (c + t * cg) (fun i => phi i + t * pg i) a) (calcGradCa p c cg phi pg a) 0 := by
  unfold calcCa
  simp only [nom_along, denom_along]
  have h0 : denom p phi + 0 * denom p pg ≠ 0 := by simpa using h
  refine ((lin0 (nom p c phi a) (nom p cg pg a)).fun_div (lin0 (denom p phi) (denom p pg)) h0).congr_deriv ?_
  unfold calcGradCa
  simp only [zero_mul, add_zero]
  rw [pow_two]

/-- Specification: the density of the free energy. -/
noncomputable def kksEnergy (p : KksPar ℝ) (c : ℝ) (phi : Fin 2 → ℝ) : ℝ :=
  p.B * phi 0 ^ 2 * phi 1 ^ 2 + phi 0 * calcGa (calcCa p c phi 0) (p.k 0) (p.c0 0) + phi 1 * calcGa (calcCa p c phi 1) (p.k 1) (p.c0 1)

/-- C108: the driving forces are the derivatives of the density of the free energy with respect to the phases, at constant concentration,
and the chemical potential is the one with respect to the concentration. -/
theorem C108_driving (p : KksPar ℝ) (c cg : ℝ) (phi pg : Fin 2 → ℝ) (h : denom p phi ≠ 0) :
    HasDerivAt (fun t => kksEnergy p (c + t * cg) (fun i => phi i + t * pg i))
      (vvars p c phi 0 * pg 0 + vvars p c phi 1 * pg 1 + calcMu (calcCa p c phi 0) (p.k 0) (p.c0 0) * cg) 0 := by
  obtain ⟨e1, e2⟩ := C108_equilibrium p c phi h
  have hga : ∀ a, HasDerivAt (fun t => calcGa (calcCa p (c + t * cg) (fun i => phi i + t * pg i) a) (p.k a) (p.c0 a))
      (calcMu (calcCa p c phi a) (p.k a) (p.c0 a) * calcGradCa p c cg phi pg a) 0 := by
    intro a
    unfold calcGa
    refine ((((C108_gradient p c cg phi pg a h).sub_const (p.c0 a)).fun_pow 2).const_mul (1 / 2 * p.k a)).congr_deriv ?_
    simp only [zero_mul, add_zero, calcMu]
    norm_num
    ring
  have hmix : HasDerivAt (fun t => (phi 0 + t * pg 0) * calcCa p (c + t * cg) (fun i => phi i + t * pg i) 0 +
      (phi 1 + t * pg 1) * calcCa p (c + t * cg) (fun i => phi i + t * pg i) 1)
      (pg 0 * calcCa p c phi 0 + phi 0 * calcGradCa p c cg phi pg 0 + (pg 1 * calcCa p c phi 1 + phi 1 * calcGradCa p c cg phi pg 1)) 0 := by
    refine (((lin0 (phi 0) (pg 0)).fun_mul (C108_gradient p c cg phi pg 0 h)).fun_add
      ((lin0 (phi 1) (pg 1)).fun_mul (C108_gradient p c cg phi pg 1 h))).congr_deriv ?_
    simp only [zero_mul, add_zero]
  -- the same function is the concentration
  have hc : pg 0 * calcCa p c phi 0 + phi 0 * calcGradCa p c cg phi pg 0 + (pg 1 * calcCa p c phi 1 + phi 1 * calcGradCa p c cg phi pg 1) = cg := by
    unfold calcCa calcGradCa
    field_simp
    simp [nom, denom, other, linf]
    ring
  unfold kksEnergy
  have h1 := (((lin0 (phi 0) (pg 0)).fun_pow 2).const_mul p.B).fun_mul ((lin0 (phi 1) (pg 1)).fun_pow 2)
  have h2 := (lin0 (phi 0) (pg 0)).fun_mul (hga 0)
  have h3 := (lin0 (phi 1) (pg 1)).fun_mul (hga 1)
  refine ((h1.fun_add h2).fun_add h3).congr_deriv ?_
  simp only [zero_mul, add_zero, vvars, ← e2]
  simp [other]
  linear_combination (calcMu (calcCa p c phi 0) (p.k 0) (p.c0 0)) * hc

section
variable {K : Type} [Field K] [LinearOrder K] {n d nq m : Nat}

private theorem kksPoint_some {p : KksPar K} {v : Fin 3 → K} {g : Fin 3 → Fin d → K} {s : Sub K 3 d} (h : kksPoint p v g = some s) :
    s.val 0 + s.val 1 = 0 ∧ s.val 2 = 0 ∧ ∀ e, s.grd 0 e + s.grd 1 e = 0 := by
  unfold kksPoint at h
  dsimp only at h
  split_ifs at h
  injection h with h
  subst h
  refine ⟨?_, ?_, fun e => ?_⟩
  · simp; ring
  · simp
  · simp; ring

/-- C108: a right-hand side changes neither the sum of the phases nor the amount. -/
theorem C108_rhs (D : Fin nq → QPt K n d) (p : KksPar K) {y x : Fin 3 → Fin n → K} (h : KksRhs D p y x) :
    (Regular D → ∀ i, x 0 i + x 1 i = 0) ∧ (Unity D → amount D (x 2) = 0) := by
  obtain ⟨s, h1, h2⟩ := h
  have ht : ∀ c w, inner D (x c) w = ∑ q, (D q).w * ((s q).val c * value (D q) w + ∑ e, (s q).grd c e * gradient (D q) w e) := by
    intro c w
    rw [← test_mass, h2, test_integrate]
  constructor
  · intro hr i
    have key : (fun i => x 0 i + x 1 i) = fun _ => 0 := by
      refine hr _ fun w => ?_
      have e : inner D (fun i => x 0 i + x 1 i) w = inner D (x 0) w + inner D (x 1) w := by
        unfold inner value
        rw [← sum_add_distrib]
        refine sum_congr rfl fun q _ => ?_
        rw [← mul_add, ← add_mul, ← sum_add_distrib]
        congr 2
        exact sum_congr rfl fun i _ => by ring
      rw [e, ht, ht, ← sum_add_distrib]
      refine sum_eq_zero fun q _ => ?_
      obtain ⟨a1, -, a3⟩ := kksPoint_some (h1 q)
      have e2 : ∑ e, (s q).grd 0 e * gradient (D q) w e + ∑ e, (s q).grd 1 e * gradient (D q) w e = 0 := by
        rw [← sum_add_distrib]
        refine sum_eq_zero fun e _ => ?_
        rw [← add_mul, a3 e, zero_mul]
      linear_combination (D q).w * value (D q) w * a1 + (D q).w * e2
    exact congrFun key i
  · intro hu
    rw [← inner_one hu, ht]
    refine sum_eq_zero fun q _ => ?_
    obtain ⟨-, a2, -⟩ := kksPoint_some (h1 q)
    rw [a2, zero_mul, zero_add, sum_eq_zero fun e _ => by rw [gradient_one hu, mul_zero], mul_zero]

omit [LinearOrder K] in
/-- What is invariant under all stages: a linear functional that vanishes on all of them. -/
private theorem rkPoint_inv (ell : (Fin m → Fin n → K) → K) (hl : ∀ z x a, ell (fun c i => z c i + a * x c i) = ell z + a * ell x) (dt : K) :
    ∀ (a : List K) (fs : List (Fin m → Fin n → K)) (y : Fin m → Fin n → K), (∀ x ∈ fs, ell x = 0) → ell (rkPoint dt y a fs) = ell y
  | [], _, _, _ => rfl
  | _ :: _, [], _, _ => rfl
  | a :: as, f :: fs, y, h => by
    unfold rkPoint
    rw [List.zip_cons_cons, List.foldl_cons]
    have := rkPoint_inv ell hl dt as fs (fun c i => y c i + dt * a * f c i) fun x hx => h x (by simp [hx])
    unfold rkPoint at this
    rw [this, hl, h f (by simp), mul_zero, add_zero]

omit [LinearOrder K] in
private theorem rkStages_inv (ell : (Fin m → Fin n → K) → K) {f : (Fin m → Fin n → K) → (Fin m → Fin n → K) → Prop} {dt : K}
    {y : Fin m → Fin n → K} (hf : ∀ z x, f z x → ell x = 0) {as : List (List K)} {fs fs' : List (Fin m → Fin n → K)}
    (h : RkStages f dt y as fs fs') (h0 : ∀ x ∈ fs, ell x = 0) : ∀ x ∈ fs', ell x = 0 := by
  induction h with
  | done => exact h0
  | stage a as fs fs' x hx hr ih =>
    refine ih fun z hz => ?_
    rcases List.mem_append.1 hz with hz | hz
    · exact h0 z hz
    · rw [List.mem_singleton.1 hz]; exact hf _ _ hx

omit [LinearOrder K] in
private theorem ell_sum (i : Fin n) (z x : Fin 3 → Fin n → K) (a : K) :
    (z 0 i + a * x 0 i) + (z 1 i + a * x 1 i) = (z 0 i + z 1 i) + a * (x 0 i + x 1 i) := by ring

omit [LinearOrder K] in
private theorem ell_amount (D : Fin nq → QPt K n d) (z x : Fin 3 → Fin n → K) (a : K) :
    amount D (fun i => z 2 i + a * x 2 i) = amount D (z 2) + a * amount D (x 2) := by
  have : (fun i => z 2 i + a * x 2 i) = along (z 2) (x 2) a := rfl
  rw [this]
  unfold amount
  rw [mul_sum, ← sum_add_distrib]
  exact sum_congr rfl fun q _ => by rw [value_along]; ring

/-- C108: every explicit Runge-Kutta method keeps the sum of the phases at every node and the amount, for any number of steps. -/
theorem C108_run (D : Fin nq → QPt K n d) (p : KksPar K) (as : List (List K)) (b : List K) (dt : K) (y : Nat → Fin 3 → Fin n → K) (N : Nat)
    (h : ∀ k < N, RkStep (KksRhs D p) as b dt (y k) (y (k + 1))) (k : Nat) (hk : k ≤ N) :
    (Regular D → ∀ i, y k 0 i + y k 1 i = y 0 0 i + y 0 1 i) ∧ (Unity D → amount D (y k 2) = amount D (y 0 2)) := by
  induction k with
  | zero => exact ⟨fun _ _ => rfl, fun _ => rfl⟩
  | succ k ih =>
    obtain ⟨i1, i2⟩ := ih (by omega)
    obtain ⟨fs, hs, he⟩ := h k (by omega)
    constructor
    · intro hr i
      rw [← i1 hr i, he]
      have := rkStages_inv (fun x => x 0 i + x 1 i) (fun z x hx => (C108_rhs D p hx).1 hr i) hs (by simp)
      exact rkPoint_inv (fun x => x 0 i + x 1 i) (ell_sum i) dt b fs (y k) this
    · intro hu
      rw [← i2 hu, he]
      have := rkStages_inv (fun x => amount D (x 2)) (fun z x hx => (C108_rhs D p hx).2 hu) hs (by simp)
      exact rkPoint_inv (fun x => amount D (x 2)) (ell_amount D) dt b fs (y k) this

/-- C108: if the phases sum up to one at the start, no evaluation in the whole run divides by zero, with equal curvatures of the phases (as in the
program). -/
theorem C108_defined [IsStrictOrderedRing K] (D : Fin nq → QPt K n d) (hr : Regular D) (hu : Unity D) (p : KksPar K)
    (hk0 : p.k 0 ≠ 0) (hk : p.k 0 = p.k 1) (as : List (List K))
    (b : List K) (dt : K) (y : Nat → Fin 3 → Fin n → K) (N : Nat) (h0 : ∀ i, y 0 0 i + y 0 1 i = 1)
    (h : ∀ k < N, RkStep (KksRhs D p) as b dt (y k) (y (k + 1)))
    (as' : List (List K)) (fs : List (Fin 3 → Fin n → K)) (hs : RkStages (KksRhs D p) dt (y N) as' [] fs) (a : List K) (q : Fin nq) :
    ∃ s, kksPoint p (fun c => value (D q) (rkPoint dt (y N) a fs c)) (fun c e => gradient (D q) (rkPoint dt (y N) a fs c) e) = some s := by
  have hz : ∀ i, rkPoint dt (y N) a fs 0 i + rkPoint dt (y N) a fs 1 i = 1 := by
    intro i
    have h1 := rkStages_inv (fun x => x 0 i + x 1 i) (fun z x hx => (C108_rhs D p hx).1 hr i) hs (by simp)
    have h2 := rkPoint_inv (fun x => x 0 i + x 1 i) (ell_sum i) dt a fs (y N) h1
    rw [h2, (C108_run D p as b dt y N h N (le_refl _)).1 hr i, h0 i]
  have hsum : value (D q) (rkPoint dt (y N) a fs 0) + value (D q) (rkPoint dt (y N) a fs 1) = 1 := by
    unfold value
    rw [← sum_add_distrib, ← (hu q).1]
    refine sum_congr rfl fun i _ => ?_
    rw [← mul_add, hz i, mul_one]
  generalize hv0 : value (D q) (rkPoint dt (y N) a fs 0) = v0 at hsum
  generalize hv1 : value (D q) (rkPoint dt (y N) a fs 1) = v1 at hsum
  have hn : nsz ![v0, v1] ≠ 0 := by
    show (if 0 < v0 then (1 : K) else 0) + (if 0 < v1 then (1 : K) else 0) ≠ 0
    by_cases p0 : 0 < v0
    · by_cases p1 : 0 < v1
      · rw [if_pos p0, if_pos p1]
        exact ne_of_gt (add_pos one_pos one_pos)
      · rw [if_pos p0, if_neg p1, add_zero]; exact one_ne_zero
    · by_cases p1 : 0 < v1
      · rw [if_neg p0, if_pos p1, zero_add]; exact one_ne_zero
      · exfalso
        have : v0 + v1 ≤ 0 := add_nonpos (not_lt.1 p0) (not_lt.1 p1)
        rw [hsum] at this
        exact absurd one_pos (not_lt.2 this)
  have hd : denom p ![v0, v1] ≠ 0 := by
    unfold denom
    simp only [Matrix.cons_val_zero, Matrix.cons_val_one, Matrix.cons_val_fin_one]
    rw [← hk, ← mul_add, add_comm v1, hsum, mul_one]
    exact hk0
  unfold kksPoint
  dsimp only
  rw [hv0, hv1, if_neg (by rintro (h | h); exacts [hn h, hd h])]
  exact ⟨_, rfl⟩

end

/-- Specification: the density with the term of the gradients; `p` are values, `g` one gradient per phase. -/
noncomputable def kksDensity {d : Nat} (p : KksPar ℝ) (c : ℝ) (phi : Fin 2 → ℝ) (g : Fin 2 → Fin d → ℝ) : ℝ :=
  kksEnergy p c phi - p.A * ∑ e, g 0 e * g 1 e

/-- C108: what is submitted for the phases is minus the mobility times the derivative of the density of the energy along an exchange of the
phases (by a test function with value `w` and gradient `wg`), and what is submitted for the concentration is a flux down the gradient of the
chemical potential. -/
theorem C108_flow {d : Nat} (p : KksPar ℝ) (v : Fin 3 → ℝ) (g : Fin 3 → Fin d → ℝ) (s : Sub ℝ 3 d) (h : kksPoint p v g = some s)
    (w : ℝ) (wg : Fin d → ℝ) :
    (∃ E', HasDerivAt (fun t => kksDensity p (v 2) ![v 0 + t * w, v 1 + t * -w] ![fun e => g 0 e + t * wg e, fun e => g 1 e + t * -wg e]) E' 0 ∧
      s.val 0 * w + ∑ e, s.grd 0 e * wg e = -(p.L / nsz ![v 0, v 1]) * E') ∧
    (p.k 0 ≠ 0 → p.k 1 ≠ 0 → ∀ e, ∃ m', HasDerivAt
        (fun t => calcMu (calcCa p (v 2 + t * g 2 e) (fun i => ![v 0, v 1] i + t * ![g 0 e, g 1 e] i) 0) (p.k 0) (p.c0 0)) m' 0 ∧
      s.grd 2 e = -p.D * (v 0 / p.k 0 + v 1 / p.k 1) * m') := by
  unfold kksPoint at h
  dsimp only at h
  by_cases hn : nsz ![v 0, v 1] = 0 ∨ denom p ![v 0, v 1] = 0
  · rw [if_pos hn] at h; cases h
  · rw [if_neg hn] at h
    push Not at hn
    injection h with h
    subst h
    constructor
    · have hE := C108_driving p (v 2) 0 ![v 0, v 1] ![w, -w] hn.2
      have e1 : (fun t => kksEnergy p (v 2 + t * 0) (fun i => ![v 0, v 1] i + t * ![w, -w] i)) =
          fun t => kksEnergy p (v 2) ![v 0 + t * w, v 1 + t * -w] := by
        funext t
        rw [mul_zero, add_zero]
        congr 1
        funext i
        match i with
        | 0 => rfl
        | 1 => rfl
      rw [e1] at hE
      have hg : HasDerivAt (fun t => ∑ e, (g 0 e + t * wg e) * (g 1 e + t * -wg e)) (∑ e, (wg e * g 1 e + g 0 e * -wg e)) 0 := by
        refine HasDerivAt.fun_sum fun e _ => ?_
        exact ((lin0 (g 0 e) (wg e)).fun_mul (lin0 (g 1 e) (-wg e))).congr_deriv (by simp only [zero_mul, add_zero])
      refine ⟨_, hE.fun_sub (hg.const_mul p.A), ?_⟩
      simp only [Matrix.cons_val_zero, Matrix.cons_val_one, Matrix.cons_val_fin_one, mul_zero, add_zero]
      have e2 : ∑ e, p.L / nsz ![v 0, v 1] * p.A * (g 1 e - g 0 e) * wg e =
          p.L / nsz ![v 0, v 1] * p.A * ∑ e, (wg e * g 1 e + g 0 e * -wg e) := by
        rw [mul_sum]; exact sum_congr rfl fun e _ => by ring
      rw [e2]
      ring
    · intro k0 k1 e
      have hc := (C108_gradient p (v 2) (g 2 e) ![v 0, v 1] ![g 0 e, g 1 e] 0 hn.2)
      refine ⟨_, (hc.sub_const (p.c0 0)).const_mul (p.k 0), ?_⟩
      have hf := C108_flux p (v 2) (g 2 e) ![v 0, v 1] ![g 0 e, g 1 e]
      have hf' : calcGradCa p (v 2) (g 2 e) ![v 0, v 1] ![g 0 e, g 1 e] 1 =
          p.k 0 * calcGradCa p (v 2) (g 2 e) ![v 0, v 1] ![g 0 e, g 1 e] 0 / p.k 1 := by
        rw [hf, mul_comm, mul_div_cancel_right₀ _ k1]
      show -p.D * (v 0 * calcGradCa p (v 2) (g 2 e) ![v 0, v 1] ![g 0 e, g 1 e] 0 +
        v 1 * calcGradCa p (v 2) (g 2 e) ![v 0, v 1] ![g 0 e, g 1 e] 1) = _
      rw [hf']
      field_simp

/-! ## Examples -/

namespace ExApps

/-- Two nodes, two points. -/
def seg : Fin 2 → QPt ℚ 2 1 := fun q => ⟨1 / 2, fun i => if i = q then 1 else 0, fun i _ => if i = 0 then -1 else 1⟩

theorem seg_unity : Unity seg := by
  intro q
  match q with
  | 0 => simp [seg]
  | 1 => simp [seg]

theorem seg_inner (u w : Fin 2 → ℚ) : inner seg u w = 1 / 2 * (u 0 * w 0) + 1 / 2 * (u 1 * w 1) := by
  simp [inner, value, seg]

theorem seg_regular : Regular seg := by
  intro u h
  have h0 := h ![1, 0]
  have h1 := h ![0, 1]
  rw [seg_inner] at h0 h1
  simp at h0 h1
  funext i
  match i with
  | 0 => exact h0
  | 1 => exact h1

theorem seg_mass {m : Nat} (u : Fin m → Fin 2 → ℚ) : mass seg u = fun c i => 1 / 2 * u c i := by
  funext c i
  match i with
  | 0 => simp [mass, loop, integrate, value, seg]
  | 1 => simp [mass, loop, integrate, value, seg]

theorem seg_solve {m : Nat} (b : Fin m → Fin 2 → ℚ) : mass seg (fun c i => 2 * b c i) = b := by
  rw [seg_mass]
  funext c i
  ring

/-! C106 -/

noncomputable def segR : Fin 2 → QPt ℝ 2 1 := fun q => ⟨1 / 2, fun i => if i = q then 1 else 0, fun i _ => if i = 0 then -1 else 1⟩

example := C106_residual segR ⟨1, 1, 1⟩ ![![0, 1]] ![![0, 2]] 0 ![1, 0]
example := C106_tangent segR ⟨1, 1, 1⟩ ![![0, 1]] ![![0, 2]] ![![1, 3]] 0 1
example := C106_ch_residual segR ⟨1, 1, 1⟩ ![![0, 1], ![2, 3]] ![![0, 2], ![4, 6]] ![1, 0]
example := C106_ch_tangent segR ⟨1, 1, 1⟩ ![![0, 1], ![2, 3]] ![![0, 2], ![4, 6]] ![![1, 2], ![3, 4]] 1 0

/-- The residual with one component differs from the one of the scheme where the field is neither 0 nor 1 nor -1. -/
example : (ac1Residual (d := 1) ⟨(1 : ℚ), 1, 1⟩ ![0] ![1 / 2] ![![0]]).val 0 ≠ (acResidual (d := 1) ⟨(1 : ℚ), 1, 1⟩ ![0] ![1 / 2] ![![0]]).val 0 := by
  rw [Ne, C106_one_violated]
  norm_num [dfDphi]

example : ac1Vmult seg ⟨(1 : ℚ), 1, 1⟩ ![![0, 1]] ![![1, 1]] = .ub := C106_gradient_violated _ _ _ _

/-! C107 -/

def par : Par ℚ := ⟨1 / 10, 1, 1⟩

def chSeq : Nat → Fin 2 → Fin 2 → ℚ
  | 0 => ![![0, 1 / 4], ![0, 0]]
  | k + 1 => fun c i => 2 * loop seg (fun _ => chRhs par) (chSeq k) c i

theorem chSeq_step (k : Nat) : ChStep seg par (chSeq k) (chSeq (k + 1)) := seg_solve _

example : ∀ k, amount seg (chSeq k 0) = amount seg (chSeq 0 0) := C107_explicit seg seg_unity par chSeq chSeq_step

example : chSeq 1 0 = chSeq 0 0 :=
  C107_first_violated seg seg_regular par (chSeq 0) (chSeq 1) (by funext i; match i with | 0 => rfl | 1 => rfl) (chSeq_step 0)

/-- In the second step something moves. -/
example : chSeq 2 0 0 ≠ chSeq 1 0 0 := by decide +kernel

/-- A solver with the residual of the concentration zero that fails for large steps. -/
def moved (dt : ℚ) (old : Fin 2 → Fin 2 → ℚ) : Fin 2 → Fin 2 → ℚ :=
  ![![old 0 0 + 2 * dt * (old 1 1 - old 1 0), old 0 1 - 2 * dt * (old 1 1 - old 1 0)], old 1]

def mover (dt : ℚ) (old : Fin 2 → Fin 2 → ℚ) : Solved (Fin 2 → Fin 2 → ℚ) := if dt < 1 / 50 then .done 3 10 (moved dt old) else .failed old

def times : TimeCfg ℚ := ⟨100, 1, 1 / 10000, 6 / 5, 1 / 1000000000, 5, 60⟩

theorem mover_ok (dt : ℚ) (old : Fin 2 → Fin 2 → ℚ) (nn nl : Nat) (x : Fin 2 → Fin 2 → ℚ) (hdt : dt ≠ 0) (h : mover dt old = .done nn nl x) (i : Fin 2) :
    chEvaluate seg ⟨dt, 1, 1⟩ old x 0 i = 0 := by
  unfold mover at h
  split_ifs at h
  injection h with _ _ h
  subst h
  match i with
  | 0 => simp [chEvaluate, loop, integrate, chResidual, value, gradient, seg, moved]; field_simp; ring
  | 1 => simp [chEvaluate, loop, integrate, chResidual, value, gradient, seg, moved]; field_simp; ring

example (k : Nat) (s' : LoopSt ℚ (Fin 2 → Fin 2 → ℚ)) (h : timeLoop times mover k ⟨0, 1 / 100, ![![0, 1], ![2, 3]]⟩ = .ok s') :
    amount seg (s'.solution 0) = 1 / 2 := by
  rw [C107_run seg seg_unity 1 1 times (by norm_num [times]) (by norm_num [times]) (by norm_num [times]) (by norm_num [times]) mover
    (fun dt old nn nl x hdt h i => mover_ok dt old nn nl x (ne_of_gt hdt) h i) k ⟨0, 1 / 100, ![![0, 1], ![2, 3]]⟩ s' (by norm_num) h]
  simp [amount, value, seg]

/-- Two turns succeed, the fifth one fails and halves the step. -/
example : (timeLoop times mover 5 ⟨0, 1 / 100, ![![0, 1], ![2, 3]]⟩ >>= fun s => .ok s.dt) = .ok (10368 / 1000000) := by
  norm_num [timeLoop, turn, nextDt, times, mover, Res.ok_bind]

example : timeLoop times (fun (dt x : ℚ) => .done 3 10 (x + dt)) 1 ⟨0, 1 / 100, 0⟩ = .ok ⟨12 / 1000, 12 / 1000, 10 / 1000⟩ := by
  norm_num [timeLoop, turn, nextDt, times, Res.ok_bind]

/-! C108 -/

def kks : KksPar ℚ := ⟨1, 1, 1, 1, fun _ => 500, ![2 / 100, 98 / 100]⟩

example : denom kks ![1 / 4, 3 / 4] ≠ 0 := by norm_num [denom, kks]

def y0 : Fin 3 → Fin 2 → ℚ := ![![1 / 2, 1 / 4], ![1 / 2, 3 / 4], ![1 / 4, 1 / 3]]

theorem y0_sum (i : Fin 2) : y0 0 i + y0 1 i = 1 := by
  match i with
  | 0 => norm_num [y0]
  | 1 => norm_num [y0]

/-- A step of the explicit Euler method exists. -/
theorem y0_step : ∃ y1, RkStep (KksRhs seg kks) [[]] [1] (1 / 100) y0 y1 := by
  have h := C108_defined seg seg_regular seg_unity kks (by norm_num [kks]) rfl [] [] 0 (fun _ => y0) 0 y0_sum (by omega) [] [] (.done _) []
  choose s hs using h
  exact ⟨_, [fun c i => 2 * integrate seg s c i], .stage [] [] [] _ _ ⟨s, hs, seg_solve _⟩ (.done _), rfl⟩

example : ∃ y1, RkStep (KksRhs seg kks) [[]] [1] (1 / 100) y0 y1 ∧ (∀ i, y1 0 i + y1 1 i = 1) ∧ amount seg (y1 2) = amount seg (y0 2) := by
  obtain ⟨y1, h⟩ := y0_step
  have := C108_run seg kks [[]] [1] (1 / 100) (fun k => if k = 0 then y0 else y1) 1 (fun k hk => by
    have : k = 0 := by omega
    subst this
    exact h) 1 (le_refl _)
  exact ⟨y1, h, fun i => (this.1 seg_regular i).trans (y0_sum i), this.2 seg_unity⟩

/-- Without phases the evaluation is undefined. -/
example : kksPoint (d := 1) kks ![0, 0, 1 / 2] ![![0], ![0], ![0]] = none := by
  unfold kksPoint
  exact if_pos (Or.inl (by norm_num [nsz]))

end ExApps

end Verif.Props
