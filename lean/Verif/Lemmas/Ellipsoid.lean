import Verif.Model.Ellipsoid
import Verif.Spec.Ellipsoid
import Mathlib.LinearAlgebra.Matrix.NonsingularInverse
import Mathlib.LinearAlgebra.Matrix.DotProduct
import Mathlib.Algebra.BigOperators.Field
import Mathlib.Tactic.Module
import Mathlib.Tactic.Abel
import Mathlib.Algebra.Order.BigOperators.Ring.Finset
import Mathlib.Tactic.Linarith
import Mathlib.Tactic.Ring
import Mathlib.Tactic.FieldSimp
import Mathlib.Tactic.Positivity

namespace Verif.Ellipsoid

open Matrix Spec.Ellipsoid

variable {n : Nat}

/-! ### The quadratic form -/

theorem rotationGlobal_apply (axes : Fin n → Vec n) (i j : Fin n) : rotationGlobal axes false i j = axes j i := by
  rw [rotationGlobal, if_neg (by simp)]
  show ∑ d, axes d i * globalAxes d j = axes j i
  simp [globalAxes]

theorem rot_transpose_mulVec (axes : Fin n → Vec n) (x : Vec n) :
    (rotationGlobal axes false)ᵀ *ᵥ x = fun d => axes d ⬝ᵥ x := by
  funext d
  simp [mulVec, dotProduct, transpose_apply, rotationGlobal_apply]

theorem form_bil (c r : Vec n) (axes : Fin n → Vec n) (x y : Vec n) :
    ((quadraticForm c r axes).A *ᵥ x) ⬝ᵥ y = ∑ d, 1 / r d ^ 2 * ((axes d ⬝ᵥ x) * (axes d ⬝ᵥ y)) := by
  have h : (quadraticForm c r axes).A *ᵥ x
      = rotationGlobal axes false *ᵥ ((Matrix.diagonal fun d => 1 / r d ^ 2) *ᵥ ((rotationGlobal axes false)ᵀ *ᵥ x)) := by
    simp only [quadraticForm, Matrix.mulVec_mulVec, Matrix.mul_assoc]
  rw [h, dotProduct_comm, dotProduct_mulVec, ← mulVec_transpose, rot_transpose_mulVec, rot_transpose_mulVec]
  show ∑ d, (axes d ⬝ᵥ y) * (((Matrix.diagonal fun d => 1 / r d ^ 2) *ᵥ fun d => axes d ⬝ᵥ x) d) = _
  apply Finset.sum_congr rfl
  intro d _
  rw [Matrix.mulVec_diagonal]
  ring

theorem form_eval (c r : Vec n) (axes : Fin n → Vec n) (p : Vec n) :
    (quadraticForm c r axes).eval p = 1 / 2 * (∑ d, ((axes d ⬝ᵥ (p - c)) / r d) ^ 2 - 1) := by
  have hb : (quadraticForm c r axes).b = -((quadraticForm c r axes).A *ᵥ c) := rfl
  have ha : (quadraticForm c r axes).alpha = 1 / 2 * (((quadraticForm c r axes).A *ᵥ c) ⬝ᵥ c) - 1 / 2 := rfl
  rw [Form.eval, hb, ha, neg_dotProduct, form_bil, form_bil, form_bil]
  have : ∑ d, ((axes d ⬝ᵥ (p - c)) / r d) ^ 2 = ∑ d, 1 / r d ^ 2 * ((axes d ⬝ᵥ p) * (axes d ⬝ᵥ p))
      - 2 * ∑ d, 1 / r d ^ 2 * ((axes d ⬝ᵥ c) * (axes d ⬝ᵥ p)) + ∑ d, 1 / r d ^ 2 * ((axes d ⬝ᵥ c) * (axes d ⬝ᵥ c)) := by
    rw [Finset.mul_sum, ← Finset.sum_sub_distrib, ← Finset.sum_add_distrib]
    apply Finset.sum_congr rfl
    intro d _
    rw [dotProduct_sub, div_pow]
    ring
  rw [this]
  ring

theorem orthonormal_expand {axes : Fin n → Vec n} (h : Orthonormal axes) (v : Vec n) :
    v = ∑ d, (axes d ⬝ᵥ v) • axes d := by
  have hM : (Matrix.of axes) * (Matrix.of axes)ᵀ = 1 := by
    ext i j
    rw [Matrix.mul_apply, Matrix.one_apply]
    exact h i j
  have hM' : (Matrix.of axes)ᵀ * (Matrix.of axes) = 1 := mul_eq_one_comm.mp hM
  have h1 : (Matrix.of axes)ᵀ *ᵥ (Matrix.of axes *ᵥ v) = v := by
    rw [Matrix.mulVec_mulVec, hM', Matrix.one_mulVec]
  conv_lhs => rw [← h1]
  funext i
  rw [Finset.sum_apply]
  simp only [mulVec, dotProduct, transpose_apply, of_apply, Pi.smul_apply, smul_eq_mul]
  apply Finset.sum_congr rfl
  intro d _
  ring

theorem orthonormal_coeff {axes : Fin n → Vec n} (h : Orthonormal axes) (w : Vec n) (e : Fin n) :
    axes e ⬝ᵥ (∑ d, w d • axes d) = w e := by
  rw [dotProduct_sum]
  simp only [dotProduct_smul, smul_eq_mul]
  rw [Finset.sum_eq_single e]
  · rw [h e e]; simp
  · intro d _ hd
    rw [h e d, if_neg (Ne.symm hd), mul_zero]
  · simp

theorem region_iff {c r : Vec n} {axes : Fin n → Vec n} (h : Orthonormal axes) (hr : ∀ d, r d ≠ 0) (k : ℝ) (p : Vec n) :
    Region c r axes k p ↔ ∑ d, ((axes d ⬝ᵥ (p - c)) / r d) ^ 2 ≤ k := by
  constructor
  · rintro ⟨u, hu, rfl⟩
    have : ∀ d, (axes d ⬝ᵥ (c + ∑ d, (u d * r d) • axes d - c)) / r d = u d := by
      intro d
      rw [add_sub_cancel_left, orthonormal_coeff h (fun d => u d * r d)]
      rw [mul_div_assoc, div_self (hr d), mul_one]
    simp only [this]
    simpa [dotProduct, pow_two] using hu
  · intro hs
    refine ⟨fun d => (axes d ⬝ᵥ (p - c)) / r d, by simpa [dotProduct, pow_two] using hs, ?_⟩
    have : ∀ d, (axes d ⬝ᵥ (p - c)) / r d * r d = axes d ⬝ᵥ (p - c) := fun d => div_mul_cancel₀ _ (hr d)
    simp only [this]
    rw [← orthonormal_expand h, add_sub_cancel]

/-! ### Properties of forms used by the distance -/

structure Good (F : Form n) : Prop where
  symm : ∀ x y, (F.A *ᵥ x) ⬝ᵥ y = (F.A *ᵥ y) ⬝ᵥ x
  pos : ∀ x, x ≠ 0 → 0 < (F.A *ᵥ x) ⬝ᵥ x

theorem Good.nonneg {F : Form n} (g : Good F) (x : Vec n) : 0 ≤ (F.A *ᵥ x) ⬝ᵥ x := by
  by_cases h : x = 0
  · simp [h]
  · exact (g.pos x h).le

theorem good_form {c r : Vec n} {axes : Fin n → Vec n} (h : Orthonormal axes) (hr : ∀ d, r d ≠ 0) :
    Good (quadraticForm c r axes) := by
  constructor
  · intro x y
    rw [form_bil, form_bil]
    apply Finset.sum_congr rfl
    intro d _
    ring
  · intro x hx
    rw [form_bil]
    have hnn : ∀ d, 0 ≤ 1 / r d ^ 2 * ((axes d ⬝ᵥ x) * (axes d ⬝ᵥ x)) := fun d =>
      mul_nonneg (by positivity) (mul_self_nonneg _)
    rcases (Finset.sum_nonneg fun d (_ : d ∈ Finset.univ) => hnn d).lt_or_eq with h0 | h0
    · exact h0
    · exfalso
      apply hx
      have hz := (Finset.sum_eq_zero_iff_of_nonneg fun d _ => hnn d).mp h0.symm
      rw [orthonormal_expand h x]
      apply Finset.sum_eq_zero
      intro d hd
      have h1 := hz d hd
      have h2 : (1 / r d ^ 2) ≠ 0 := by have := hr d; positivity
      have h3 : axes d ⬝ᵥ x = 0 := by
        rcases mul_eq_zero.mp h1 with h | h
        · exact absurd h h2
        · exact mul_self_eq_zero.mp h
      rw [h3, zero_smul]

/-- The polynomial in `t` solved by the intersection. -/
theorem eval_line {F : Form n} (g : Good F) (c1 c2 : Vec n) (t : ℝ) :
    F.eval (c1 + t • (c2 - c1)) =
      1 / 2 * ((F.A *ᵥ c1) ⬝ᵥ c1 - 2 * ((F.A *ᵥ c1) ⬝ᵥ c2) + (F.A *ᵥ c2) ⬝ᵥ c2) * t ^ 2
      + ((F.A *ᵥ c2) ⬝ᵥ c1 - (F.A *ᵥ c1) ⬝ᵥ c1 + F.b ⬝ᵥ c2 - F.b ⬝ᵥ c1) * t
      + (1 / 2 * ((F.A *ᵥ c1) ⬝ᵥ c1) + F.b ⬝ᵥ c1 + F.alpha) := by
  rw [Form.eval]
  simp only [mulVec_add, mulVec_smul, mulVec_sub, add_dotProduct, dotProduct_add, smul_dotProduct, dotProduct_smul,
    sub_dotProduct, dotProduct_sub, smul_eq_mul]
  rw [g.symm c2 c1]
  ring

theorem line_leading {F : Form n} (g : Good F) (c1 c2 : Vec n) :
    1 / 2 * ((F.A *ᵥ c1) ⬝ᵥ c1 - 2 * ((F.A *ᵥ c1) ⬝ᵥ c2) + (F.A *ᵥ c2) ⬝ᵥ c2)
      = 1 / 2 * ((F.A *ᵥ (c2 - c1)) ⬝ᵥ (c2 - c1)) := by
  simp only [mulVec_sub, sub_dotProduct, dotProduct_sub]
  rw [g.symm c2 c1]
  ring

theorem solveQuadratic_spec {a b c : ℝ} (ha : 0 < a) (t0 : ℝ) (h0 : a * t0 ^ 2 + b * t0 + c < 0) :
    ∃ s1 s2, solveQuadratic a b c = some (s1, s2) ∧ s1 < t0 ∧ t0 < s2 ∧
      ∀ t, a * t ^ 2 + b * t + c = a * ((t - s1) * (t - s2)) := by
  have hD : 0 < b * b - 4 * a * c := by
    have : 0 ≤ (2 * a * t0 + b) ^ 2 := sq_nonneg _
    nlinarith [mul_pos ha (neg_pos.mpr h0)]
  refine ⟨_, _, by simp only [solveQuadratic]; rw [if_neg (by rintro (h | h); exacts [ha.ne' h, absurd h (not_lt.mpr hD.le)])], ?_⟩
  set s := Real.sqrt (b * b - 4 * a * c) with hs
  have hss : s * s = b * b - 4 * a * c := Real.mul_self_sqrt hD.le
  have hfac : ∀ t, a * t ^ 2 + b * t + c = a * ((t - (-b - s) / (2 * a)) * (t - (-b + s) / (2 * a))) := by
    intro t
    have ha' := ha.ne'
    field_simp
    nlinarith
  have hlt : (-b - s) / (2 * a) < (-b + s) / (2 * a) := by
    have : 0 < s := Real.sqrt_pos.mpr hD
    apply div_lt_div_of_pos_right _ (by linarith)
    linarith
  have hprod : (t0 - (-b - s) / (2 * a)) * (t0 - (-b + s) / (2 * a)) < 0 := by
    rw [hfac t0] at h0
    by_contra hc
    have := mul_nonneg ha.le (not_lt.mp hc)
    linarith
  refine ⟨?_, ?_, hfac⟩
  · by_contra hc
    have h1 : t0 ≤ (-b - s) / (2 * a) := not_lt.mp hc
    have := mul_nonneg (sub_nonneg.mpr h1) (sub_nonneg.mpr (h1.trans hlt.le))
    nlinarith
  · by_contra hc
    have h1 : (-b + s) / (2 * a) ≤ t0 := not_lt.mp hc
    have := mul_nonneg (sub_nonneg.mpr h1) (sub_nonneg.mpr (hlt.le.trans h1))
    nlinarith

/-- If one of the points is inside the intersection never fails; without overlap the point is on the surface, with overlap both
points are inside. -/
theorem intersection_spec {F : Form n} (g : Good F) {c1 c2 : Vec n} (h : F.eval c1 < 0 ∨ F.eval c2 < 0) :
    (intersection (some F) c1 c2 = .ok (0, true) ∧ F.eval c1 < 0 ∧ F.eval c2 < 0) ∨
    ∃ t, intersection (some F) c1 c2 = .ok (t, false) ∧ 0 ≤ t ∧ t ≤ 1 ∧ F.eval (c1 + t • (c2 - c1)) = 0 ∧
      ∀ u, 0 ≤ u → u ≤ 1 → F.eval (c1 + u • (c2 - c1)) = 0 → u = t := by
  by_cases hv : c2 - c1 = 0
  · left
    have hc : c2 = c1 := sub_eq_zero.mp hv
    subst hc
    refine ⟨?_, by rcases h with h | h <;> exact h, by rcases h with h | h <;> exact h⟩
    simp only [intersection, solveQuadratic]
    rw [line_leading g, hv]
    simp
  · have ha : 0 < 1 / 2 * ((F.A *ᵥ c1) ⬝ᵥ c1 - 2 * ((F.A *ᵥ c1) ⬝ᵥ c2) + (F.A *ᵥ c2) ⬝ᵥ c2) := by
      rw [line_leading g]
      have := g.pos _ hv
      linarith
    have e0 : F.eval (c1 + (0 : ℝ) • (c2 - c1)) = F.eval c1 := by simp
    have e1 : F.eval (c1 + (1 : ℝ) • (c2 - c1)) = F.eval c2 := by simp
    simp only [intersection]
    rcases h with h | h
    · rw [← e0, eval_line g] at h
      obtain ⟨s1, s2, hsol, h1, h2, hfac⟩ := solveQuadratic_spec ha 0 h
      rw [hsol]
      have r1 : inRange s1 = false := by simp [inRange]; intro h; linarith
      by_cases hs : s2 ≤ 1
      · right
        have r2 : inRange s2 = true := by simp [inRange]; exact ⟨h2.le, hs⟩
        refine ⟨s2, by simp [r1, r2], h2.le, hs, ?_, ?_⟩
        · rw [eval_line g, hfac]; ring
        · intro u hu0 hu1 hu
          rw [eval_line g, hfac] at hu
          rcases mul_eq_zero.mp hu with h | h
          · exact absurd h ha.ne'
          · rcases mul_eq_zero.mp h with h | h <;> linarith
      · left
        have r2 : inRange s2 = false := by simp [inRange]; intro _; linarith
        refine ⟨by simp [r1, r2], ?_, ?_⟩
        · rwa [← e0, eval_line g]
        · rw [← e1, eval_line g, hfac]
          have : (1 - s1) * (1 - s2) < 0 := mul_neg_of_pos_of_neg (by linarith) (by linarith)
          exact mul_neg_of_pos_of_neg ha this
    · rw [← e1, eval_line g] at h
      obtain ⟨s1, s2, hsol, h1, h2, hfac⟩ := solveQuadratic_spec ha 1 h
      rw [hsol]
      have r2 : inRange s2 = false := by simp [inRange]; intro _; linarith
      by_cases hs : 0 ≤ s1
      · right
        have r1 : inRange s1 = true := by simp [inRange]; exact ⟨hs, h1.le⟩
        refine ⟨s1, by simp [r1, r2], hs, h1.le, ?_, ?_⟩
        · rw [eval_line g, hfac]; ring
        · intro u hu0 hu1 hu
          rw [eval_line g, hfac] at hu
          rcases mul_eq_zero.mp hu with h | h
          · exact absurd h ha.ne'
          · rcases mul_eq_zero.mp h with h | h <;> linarith
      · left
        have r1 : inRange s1 = false := by simp [inRange]; intro h; linarith
        refine ⟨by simp [r1, r2], ?_, ?_⟩
        · rw [← e0, eval_line g, hfac]
          have : (0 - s1) * (0 - s2) < 0 := mul_neg_of_pos_of_neg (by linarith) (by linarith)
          exact mul_neg_of_pos_of_neg ha this
        · rwa [← e1, eval_line g]

/-! ### The step to the new reference points -/

theorem norm_bound (F : Form n) (x : Vec n) : (F.A *ᵥ x) ⬝ᵥ x ≤ F.norm * (x ⬝ᵥ x) := by
  have hxx : 0 ≤ x ⬝ᵥ x := by simp only [dotProduct]; exact Finset.sum_nonneg fun i _ => mul_self_nonneg _
  have hS : 0 ≤ ∑ i, ∑ j, F.A i j ^ 2 := Finset.sum_nonneg fun i _ => Finset.sum_nonneg fun j _ => sq_nonneg _
  have h1 : ((F.A *ᵥ x) ⬝ᵥ x) ^ 2 ≤ ((F.A *ᵥ x) ⬝ᵥ (F.A *ᵥ x)) * (x ⬝ᵥ x) := by
    have := Finset.sum_mul_sq_le_sq_mul_sq Finset.univ (F.A *ᵥ x) x
    simpa [dotProduct, pow_two] using this
  have h2 : (F.A *ᵥ x) ⬝ᵥ (F.A *ᵥ x) ≤ (∑ i, ∑ j, F.A i j ^ 2) * (x ⬝ᵥ x) := by
    show ∑ i, (F.A *ᵥ x) i * (F.A *ᵥ x) i ≤ _
    rw [Finset.sum_mul]
    apply Finset.sum_le_sum
    intro i _
    have := Finset.sum_mul_sq_le_sq_mul_sq Finset.univ (fun j => F.A i j) x
    simpa [mulVec, dotProduct, pow_two] using this
  have h3 : ((F.A *ᵥ x) ⬝ᵥ x) ^ 2 ≤ (F.norm * (x ⬝ᵥ x)) ^ 2 := by
    rw [mul_pow, Form.norm, Real.sq_sqrt hS]
    nlinarith [mul_le_mul_of_nonneg_right h2 hxx]
  exact (abs_le_of_sq_le_sq' h3 (mul_nonneg (Real.sqrt_nonneg _) hxx)).2

theorem eval_step {F : Form n} (g : Good F) (x v : Vec n) (s : ℝ) :
    F.eval (x - s • v) = F.eval x - s * (F.grad x ⬝ᵥ v) + s ^ 2 / 2 * ((F.A *ᵥ v) ⬝ᵥ v) := by
  simp only [Form.eval, Form.grad, mulVec_smul, mulVec_sub, smul_dotProduct, dotProduct_smul, add_dotProduct,
    sub_dotProduct, dotProduct_sub, smul_eq_mul]
  rw [g.symm v x]
  ring

theorem self_pos {v : Vec n} (h : v ≠ 0) : 0 < v ⬝ᵥ v := by
  have h0 : 0 ≤ v ⬝ᵥ v := by simp only [dotProduct]; exact Finset.sum_nonneg fun i _ => mul_self_nonneg _
  rcases h0.lt_or_eq with h1 | h1
  · exact h1
  · exact absurd (dotProduct_self_eq_zero.mp h1.symm) h

theorem next_inside {F : Form n} (g : Good F) {x y : Vec n} (hx : F.eval x = 0) (hy : F.eval y < 0) :
    F.eval (F.next x) < 0 := by
  have hg : F.grad x ≠ 0 := by
    intro h0
    have h := eval_step g x (x - y) 1
    rw [one_smul, sub_sub_cancel, h0, zero_dotProduct, hx] at h
    have := g.nonneg (x - y)
    linarith
  have hA := g.pos _ hg
  have hgg := self_pos hg
  have hb := norm_bound F (F.grad x)
  have hN : 0 < F.norm := by
    by_contra h
    have := mul_nonpos_of_nonpos_of_nonneg (not_lt.mp h) hgg.le
    linarith
  rw [Form.next, eval_step g, hx]
  have h1 : (1 / F.norm) ^ 2 / 2 * ((F.A *ᵥ F.grad x) ⬝ᵥ F.grad x) ≤ 1 / F.norm / 2 * (F.grad x ⬝ᵥ F.grad x) := by
    calc (1 / F.norm) ^ 2 / 2 * ((F.A *ᵥ F.grad x) ⬝ᵥ F.grad x)
        ≤ (1 / F.norm) ^ 2 / 2 * (F.norm * (F.grad x ⬝ᵥ F.grad x)) :=
          mul_le_mul_of_nonneg_left hb (by positivity)
      _ = 1 / F.norm / 2 * (F.grad x ⬝ᵥ F.grad x) := by field_simp
  have h2 : 0 < 1 / F.norm * (F.grad x ⬝ᵥ F.grad x) := by positivity
  linarith

/-! ### Convexity -/

theorem segment_le {F : Form n} (g : Good F) {c1 c2 : Vec n} {t u : ℝ} (h1 : F.eval c1 ≤ 0)
    (ht : F.eval (c1 + t • (c2 - c1)) ≤ 0) (hu : 0 ≤ u) (hut : u ≤ t) : F.eval (c1 + u • (c2 - c1)) ≤ 0 := by
  rcases (hu.trans hut).lt_or_eq with h0 | h0
  · have e0 : F.eval (c1 + (0 : ℝ) • (c2 - c1)) = F.eval c1 := by simp
    have ha : 0 ≤ 1 / 2 * ((F.A *ᵥ c1) ⬝ᵥ c1 - 2 * ((F.A *ᵥ c1) ⬝ᵥ c2) + (F.A *ᵥ c2) ⬝ᵥ c2) := by
      rw [line_leading g]
      have := g.nonneg (c2 - c1)
      linarith
    rw [← e0] at h1
    rw [eval_line g] at h1 ht ⊢
    generalize 1 / 2 * ((F.A *ᵥ c1) ⬝ᵥ c1 - 2 * ((F.A *ᵥ c1) ⬝ᵥ c2) + (F.A *ᵥ c2) ⬝ᵥ c2) = a at *
    generalize (F.A *ᵥ c2) ⬝ᵥ c1 - (F.A *ᵥ c1) ⬝ᵥ c1 + F.b ⬝ᵥ c2 - F.b ⬝ᵥ c1 = b at *
    generalize 1 / 2 * ((F.A *ᵥ c1) ⬝ᵥ c1) + F.b ⬝ᵥ c1 + F.alpha = c at *
    have k1 := mul_nonpos_of_nonneg_of_nonpos hu ht
    have k2 := mul_nonpos_of_nonneg_of_nonpos (sub_nonneg.mpr hut) h1
    have k3 := mul_nonneg (mul_nonneg ha (mul_nonneg h0.le hu)) (sub_nonneg.mpr hut)
    have k4 : t * (a * u ^ 2 + b * u + c) ≤ 0 := by nlinarith
    by_contra hc
    have := mul_pos h0 (not_le.mp hc)
    linarith
  · have : u = t := le_antisymm hut (h0 ▸ hu)
    rwa [this]

theorem segment_lt {F : Form n} (g : Good F) {c1 c2 : Vec n} {u : ℝ} (h1 : F.eval c1 < 0)
    (h2 : F.eval c2 < 0) (hu : 0 ≤ u) (hu1 : u ≤ 1) : F.eval (c1 + u • (c2 - c1)) < 0 := by
  have e0 : F.eval (c1 + (0 : ℝ) • (c2 - c1)) = F.eval c1 := by simp
  have e1 : F.eval (c1 + (1 : ℝ) • (c2 - c1)) = F.eval c2 := by simp
  have ha : 0 ≤ 1 / 2 * ((F.A *ᵥ c1) ⬝ᵥ c1 - 2 * ((F.A *ᵥ c1) ⬝ᵥ c2) + (F.A *ᵥ c2) ⬝ᵥ c2) := by
    rw [line_leading g]
    have := g.nonneg (c2 - c1)
    linarith
  rw [← e0] at h1
  rw [← e1] at h2
  rw [eval_line g] at h1 h2 ⊢
  generalize 1 / 2 * ((F.A *ᵥ c1) ⬝ᵥ c1 - 2 * ((F.A *ᵥ c1) ⬝ᵥ c2) + (F.A *ᵥ c2) ⬝ᵥ c2) = a at *
  generalize (F.A *ᵥ c2) ⬝ᵥ c1 - (F.A *ᵥ c1) ⬝ᵥ c1 + F.b ⬝ᵥ c2 - F.b ⬝ᵥ c1 = b at *
  generalize 1 / 2 * ((F.A *ᵥ c1) ⬝ᵥ c1) + F.b ⬝ᵥ c1 + F.alpha = c at *
  have k3 := mul_nonneg (mul_nonneg ha hu) (sub_nonneg.mpr hu1)
  rcases hu.lt_or_eq with h0 | h0
  · have k1 := mul_neg_of_pos_of_neg h0 h2
    have k2 := mul_nonpos_of_nonneg_of_nonpos (sub_nonneg.mpr hu1) h1.le
    nlinarith
  · subst h0
    linarith

/-! ### The iteration -/

theorem length_zero : length (0 : Vec n) = 0 := by simp [length]

theorem length_neg (v w : Vec n) : length (v - w) = length (w - v) := by
  have : (v - w) ⬝ᵥ (v - w) = (w - v) ⬝ᵥ (w - v) := by
    rw [← neg_sub w v, neg_dotProduct, dotProduct_neg, neg_neg]
  rw [length, length, this]

theorem iterate_spec (o : Options) (epsD : ℝ) {F1 F2 : Form n} (g1 : Good F1) (g2 : Good F2) :
    ∀ (k iter : Nat) (c1 c2 : Vec n) (dist : ℝ), F1.eval c1 < 0 → F2.eval c2 < 0 →
      (∃ p q, F1.eval p ≤ 0 ∧ F2.eval q ≤ 0 ∧ dist = length (p - q)) →
      ∃ d it conv, iterate o epsD F1 F2 k iter c1 c2 dist = .ok (d, it, conv) ∧ it ≤ iter + k ∧
        ∃ p q, F1.eval p ≤ 0 ∧ F2.eval q ≤ 0 ∧ d = length (p - q) := by
  intro k
  induction k with
  | zero => intro iter c1 c2 dist _ _ hd; exact ⟨dist, iter, false, rfl, le_refl _, hd⟩
  | succ k ih =>
    intro iter c1 c2 dist h1 h2 _
    have hz : ∀ p, F1.eval p ≤ 0 → F2.eval p ≤ 0 →
        ∃ p q, F1.eval p ≤ 0 ∧ F2.eval q ≤ 0 ∧ (0 : ℝ) = length (p - q) :=
      fun p a b => ⟨p, p, a, b, by rw [sub_self, length_zero]⟩
    rw [iterate]
    rcases intersection_spec g1 (c2 := c2) (Or.inl h1) with ⟨e1, _, h12⟩ | ⟨t1, e1, t10, t11, hx1, _⟩
    · rw [e1, Res.ok_bind]
      exact ⟨0, iter, true, rfl, by omega, hz c2 h12.le h2.le⟩
    · rw [e1, Res.ok_bind]
      rcases intersection_spec g2 (c1 := c1) (Or.inr h2) with ⟨e2, h21, _⟩ | ⟨t2, e2, t20, t21, hx2, _⟩
      · simp only [Bool.false_eq_true, if_false]
        rw [e2, Res.ok_bind]
        exact ⟨0, iter, true, by simp, by omega, hz c1 h1.le h21.le⟩
      · simp only [Bool.false_eq_true, if_false]
        rw [e2, Res.ok_bind]
        by_cases hlt : t2 < t1
        · refine ⟨0, iter, true, by simp [hlt], by omega, hz (c1 + t2 • (c2 - c1)) ?_ hx2.le⟩
          exact segment_le g1 h1.le hx1.le t20 hlt.le
        · have hb : ∃ p q, F1.eval p ≤ 0 ∧ F2.eval q ≤ 0 ∧
              length (c1 + t1 • (c2 - c1) - (c1 + t2 • (c2 - c1))) = length (p - q) :=
            ⟨_, _, hx1.le, hx2.le, rfl⟩
          simp only [hlt, decide_false, Bool.or_false, Bool.false_eq_true, if_false]
          split
          · exact ⟨_, _, _, rfl, by omega, hb⟩
          · obtain ⟨d, it, conv, e, hit, hw⟩ := ih (iter + 1) _ _ _ (next_inside g1 hx1 h1) (next_inside g2 hx2 h2) hb
            exact ⟨d, it, conv, e, by omega, hw⟩

theorem intersection_swap {F : Form n} (g : Good F) {c1 c2 : Vec n} (h : F.eval c1 < 0 ∨ F.eval c2 < 0) :
    (intersection (some F) c1 c2 = .ok (0, true) ∧ intersection (some F) c2 c1 = .ok (0, true)) ∨
    ∃ t, intersection (some F) c1 c2 = .ok (t, false) ∧ intersection (some F) c2 c1 = .ok (1 - t, false) ∧
      F.eval (c1 + t • (c2 - c1)) = 0 := by
  have hp : ∀ t : ℝ, c2 + t • (c1 - c2) = c1 + (1 - t) • (c2 - c1) := by intro t; module
  rcases intersection_spec g h with ⟨e1, h1, h2⟩ | ⟨t, e1, t0, t1, hx, hun⟩
  · rcases intersection_spec g (c1 := c2) (c2 := c1) h.symm with ⟨e2, _, _⟩ | ⟨s, e2, s0, s1, hy, _⟩
    · exact Or.inl ⟨e1, e2⟩
    · have := segment_lt g h2 h1 s0 s1
      rw [hy] at this
      exact absurd this (lt_irrefl _)
  · rcases intersection_spec g (c1 := c2) (c2 := c1) h.symm with ⟨e2, h2, h1⟩ | ⟨s, e2, s0, s1, hy, _⟩
    · have := segment_lt g h1 h2 t0 t1
      rw [hx] at this
      exact absurd this (lt_irrefl _)
    · right
      rw [hp] at hy
      have := hun (1 - s) (by linarith) (by linarith) hy
      exact ⟨t, e1, by rw [e2, ← this, sub_sub_cancel], hx⟩

theorem converged_swap (o : Options) (epsD : ℝ) (F1 F2 : Form n) (d d' : ℝ) (x1 x2 : Vec n) :
    converged o epsD F1 F2 d d' x1 x2 = converged o epsD F2 F1 d d' x2 x1 := by
  simp only [converged]
  rw [Bool.and_comm (crit (x2 - x1) _ _)]

theorem iterate_swap (o : Options) (epsD : ℝ) {F1 F2 : Form n} (g1 : Good F1) (g2 : Good F2) :
    ∀ (k iter : Nat) (c1 c2 : Vec n) (dist : ℝ), F1.eval c1 < 0 → F2.eval c2 < 0 →
      iterate o epsD F1 F2 k iter c1 c2 dist = iterate o epsD F2 F1 k iter c2 c1 dist := by
  intro k
  induction k with
  | zero => intros; rfl
  | succ k ih =>
    intro iter c1 c2 dist h1 h2
    have hp : ∀ t : ℝ, c2 + (1 - t) • (c1 - c2) = c1 + t • (c2 - c1) := by intro t; module
    rw [iterate, iterate]
    rcases intersection_swap g1 (c2 := c2) (Or.inl h1) with ⟨a, a'⟩ | ⟨t1, a, a', hx1⟩ <;>
      rcases intersection_swap g2 (c1 := c1) (Or.inr h2) with ⟨b, b'⟩ | ⟨t2, b, b', hx2⟩ <;>
      simp only [a, a', b, b', Res.ok_bind, Bool.true_or, Bool.false_or, if_true, Bool.false_eq_true, if_false]
    have hd : (decide (1 - t1 < 1 - t2)) = decide (t2 < t1) := by
      simp
    rw [hd, hp, hp]
    split
    · rfl
    · rw [length_neg (c1 + t2 • (c2 - c1)), ← converged_swap]
      split
      · rfl
      · exact ih _ _ _ _ (next_inside g1 hx1 h1) (next_inside g2 hx2 h2)

/-! ### Scaling -/

theorem mkEll_form {c r : Vec n} {axes : Fin n → Vec n} (hr : ∀ d, r d ≠ 0) :
    (mkEll c (some r) axes).form = some (quadraticForm c r axes) := by
  simp only [mkEll, Option.bind_some]
  rw [if_neg (by rintro ⟨d, hd⟩; exact hr d hd)]

theorem eval_scaled (c r : Vec n) (axes : Fin n → Vec n) (s : ℝ) (p : Vec n) :
    ∑ d, ((axes d ⬝ᵥ (p - c)) / (r d * s)) ^ 2 = (∑ d, ((axes d ⬝ᵥ (p - c)) / r d) ^ 2) / s ^ 2 := by
  rw [Finset.sum_div]
  apply Finset.sum_congr rfl
  intro d _
  rw [← div_div, div_pow]

/-- Value of the form relative to the centre. -/
noncomputable def quad (c r : Vec n) (axes : Fin n → Vec n) (p : Vec n) : ℝ := ∑ d, ((axes d ⬝ᵥ (p - c)) / r d) ^ 2

theorem quad_nonneg (c r : Vec n) (axes : Fin n → Vec n) (p : Vec n) : 0 ≤ quad c r axes p :=
  Finset.sum_nonneg fun _ _ => sq_nonneg _

theorem form_eval_quad (c r : Vec n) (axes : Fin n → Vec n) (p : Vec n) :
    (quadraticForm c r axes).eval p = 1 / 2 * (quad c r axes p - 1) := form_eval c r axes p

theorem quad_line (c r : Vec n) (axes : Fin n → Vec n) (p : Vec n) (t : ℝ) :
    quad c r axes (c + t • (p - c)) = t ^ 2 * quad c r axes p := by
  rw [quad, quad, Finset.mul_sum]
  apply Finset.sum_congr rfl
  intro d _
  rw [add_sub_cancel_left, dotProduct_smul, smul_eq_mul, mul_div_assoc, mul_pow]

theorem quad_center (c r : Vec n) (axes : Fin n → Vec n) : quad c r axes c = 0 := by
  simp [quad]

/-- Intersection of the ellipsoid with the line from its centre. -/
theorem center_intersection {c r : Vec n} {axes : Fin n → Vec n} (h : Orthonormal axes) (hr : ∀ d, r d ≠ 0) (p : Vec n) :
    (quad c r axes p < 1 ∧ intersection (some (quadraticForm c r axes)) c p = .ok (0, true)) ∨
    ∃ t, intersection (some (quadraticForm c r axes)) c p = .ok (t, false) ∧ 0 < t ∧ t ≤ 1 ∧
      t ^ 2 * quad c r axes p = 1 := by
  have hc : (quadraticForm c r axes).eval c < 0 := by rw [form_eval_quad, quad_center]; norm_num
  rcases intersection_spec (good_form h hr) (c2 := p) (Or.inl hc) with ⟨e, _, h2⟩ | ⟨t, e, t0, t1, hx, _⟩
  · left
    rw [form_eval_quad] at h2
    exact ⟨by linarith, e⟩
  · right
    rw [form_eval_quad, quad_line] at hx
    have hq : t ^ 2 * quad c r axes p = 1 := by linarith
    refine ⟨t, e, ?_, t1, hq⟩
    rcases t0.lt_or_eq with h | h
    · exact h
    · rw [← h] at hq; norm_num at hq

theorem scaleCell_spec {c r : Vec n} {axes : Fin n → Vec n} (h : Orthonormal axes) (hr : ∀ d, r d ≠ 0) (acc : ℝ)
    (cell : Cell n) :
    ∃ s, scaleCell (mkEll c (some r) axes) acc cell = .ok s ∧ acc ≤ s ∧
      (∀ p, extent c cell = some p → quad c r axes p ≤ 1 + 2 / 10 ^ 9 ∨ quad c r axes p ≤ s ^ 2) ∧
      (s = acc ∨ ∃ p, extent c cell = some p ∧ quad c r axes p = s ^ 2) := by
  have hcen : (mkEll c (some r) axes).center = c := rfl
  rw [scaleCell, hcen]
  cases he : extent c cell with
  | none => exact ⟨acc, rfl, le_refl _, by simp, Or.inl rfl⟩
  | some p =>
    simp only [pointInside, mkEll_form hr]
    by_cases hin : (quadraticForm c r axes).eval p ≤ 1 / 10 ^ 9
    · refine ⟨acc, by simp only [hin, decide_true, if_true], le_refl _, ?_, Or.inl rfl⟩
      rintro _ ⟨⟩
      left
      rw [form_eval_quad] at hin
      linarith
    · rw [if_neg (by simpa using hin)]
      rw [form_eval_quad] at hin
      have hq : 1 < quad c r axes p := by
        have : (0 : ℝ) < 1 / 10 ^ 9 := by positivity
        linarith [not_le.mp hin]
      rcases center_intersection h hr p with ⟨hlt, _⟩ | ⟨t, e, t0, t1, ht⟩
      · linarith
      · rw [e, Res.ok_bind]
        have ht1 : t < 1 := by
          rcases t1.lt_or_eq with h | h
          · exact h
          · rw [h] at ht; linarith
        have hs : quad c r axes p = (1 / t) ^ 2 := by
          rw [one_div, inv_pow]
          exact eq_inv_of_mul_eq_one_right ht
        have hpos : 0 < 1 / t := by positivity
        refine ⟨max (1 / t) acc, by simp only [t0, ht1, and_self, if_true], le_max_right _ _, ?_, ?_⟩
        · rintro _ ⟨⟩
          right
          rw [hs]
          exact pow_le_pow_left₀ hpos.le (le_max_left _ _) 2
        · rcases le_total (1 / t) acc with hle | hle
          · left; exact max_eq_right hle
          · right; exact ⟨p, rfl, by rw [max_eq_left hle, hs]⟩

theorem scaleFold_spec {c r : Vec n} {axes : Fin n → Vec n} (h : Orthonormal axes) (hr : ∀ d, r d ≠ 0) :
    ∀ (cells : List (Cell n)) (acc : ℝ), 1 ≤ acc →
    ∃ s, cells.foldlM (scaleCell (mkEll c (some r) axes)) acc = .ok s ∧ acc ≤ s ∧
      (∀ cell ∈ cells, ∀ p, extent c cell = some p → quad c r axes p ≤ 1 + 2 / 10 ^ 9 ∨ quad c r axes p ≤ s ^ 2) ∧
      (s = acc ∨ ∃ cell ∈ cells, ∃ p, extent c cell = some p ∧ quad c r axes p = s ^ 2) := by
  intro cells
  induction cells with
  | nil => intro acc _; exact ⟨acc, rfl, le_refl _, by simp, Or.inl rfl⟩
  | cons cell cells ih =>
    intro acc hacc
    obtain ⟨s1, e1, h1, a1, b1⟩ := scaleCell_spec h hr acc cell (c := c)
    obtain ⟨s, e, h2, a2, b2⟩ := ih s1 (hacc.trans h1)
    refine ⟨s, by rw [List.foldlM_cons, e1, Res.ok_bind, e], h1.trans h2, ?_, ?_⟩
    · intro x hx p hp
      rcases List.mem_cons.mp hx with rfl | hx
      · rcases a1 p hp with h | h
        · exact Or.inl h
        · exact Or.inr (h.trans (pow_le_pow_left₀ (by linarith) h2 2))
      · exact a2 x hx p hp
    · rcases b2 with rfl | ⟨x, hx, p, hp, hq⟩
      · rcases b1 with rfl | ⟨p, hp, hq⟩
        · exact Or.inl rfl
        · exact Or.inr ⟨cell, by simp, p, hp, hq⟩
      · exact Or.inr ⟨x, by simp [hx], p, hp, hq⟩

theorem rankScales_spec {c r : Vec n} {axes : Fin n → Vec n} (h : Orthonormal axes) (hr : ∀ d, r d ≠ 0) :
    ∀ (ranks : List (List (Cell n))), ∃ l,
      (ranks.mapM fun cells => cells.foldlM (scaleCell (mkEll c (some r) axes)) 1) = .ok l ∧
      (∀ cells ∈ ranks, ∀ cell ∈ cells, ∀ p, extent c cell = some p →
        quad c r axes p ≤ 1 + 2 / 10 ^ 9 ∨ ∃ s ∈ l, quad c r axes p ≤ s ^ 2) ∧
      ∀ s ∈ l, 1 ≤ s ∧ (s = 1 ∨ ∃ cells ∈ ranks, ∃ cell ∈ cells, ∃ p, extent c cell = some p ∧ quad c r axes p = s ^ 2) := by
  intro ranks
  induction ranks with
  | nil => exact ⟨[], rfl, by simp, by simp⟩
  | cons cells ranks ih =>
    obtain ⟨l, e, a, b⟩ := ih
    obtain ⟨s, e1, h1, a1, b1⟩ := scaleFold_spec h hr cells 1 (le_refl _) (c := c)
    refine ⟨s :: l, by rw [List.mapM_cons, e1, Res.ok_bind, e, Res.ok_bind]; rfl, ?_, ?_⟩
    · intro x hx cell hc p hp
      rcases List.mem_cons.mp hx with rfl | hx
      · rcases a1 cell hc p hp with h | h
        · exact Or.inl h
        · exact Or.inr ⟨s, by simp, h⟩
      · rcases a x hx cell hc p hp with h | ⟨s', hs', h⟩
        · exact Or.inl h
        · exact Or.inr ⟨s', by simp [hs'], h⟩
    · intro x hx
      rcases List.mem_cons.mp hx with rfl | hx
      · refine ⟨h1, ?_⟩
        rcases b1 with h | ⟨cell, hc, p, hp, hq⟩
        · exact Or.inl h
        · exact Or.inr ⟨cells, by simp, cell, hc, p, hp, hq⟩
      · obtain ⟨h1, h2⟩ := b x hx
        refine ⟨h1, ?_⟩
        rcases h2 with h | ⟨cs, hcs, cell, hc, p, hp, hq⟩
        · exact Or.inl h
        · exact Or.inr ⟨cs, by simp [hcs], cell, hc, p, hp, hq⟩

theorem foldl_max_spec : ∀ (l : List ℝ) (a : ℝ), a ≤ l.foldl max a ∧ (∀ x ∈ l, x ≤ l.foldl max a) ∧
    (l.foldl max a = a ∨ l.foldl max a ∈ l) := by
  intro l
  induction l with
  | nil => intro a; simp
  | cons x l ih =>
    intro a
    obtain ⟨h1, h2, h3⟩ := ih (max a x)
    rw [List.foldl_cons]
    refine ⟨(le_max_left _ _).trans h1, ?_, ?_⟩
    · intro y hy
      rcases List.mem_cons.mp hy with rfl | hy
      · exact (le_max_right _ _).trans h1
      · exact h2 y hy
    · rcases h3 with h | h
      · rcases le_total a x with hle | hle
        · right; rw [h, max_eq_right hle]; simp
        · left; rw [h, max_eq_left hle]
      · right; simp [h]

theorem particleScale_spec {c r : Vec n} {axes : Fin n → Vec n} (h : Orthonormal axes) (hr : ∀ d, r d ≠ 0)
    (ranks : List (List (Cell n))) :
    ∃ s, particleScale (mkEll c (some r) axes) ranks = .ok s ∧ 1 ≤ s ∧
      (∀ cells ∈ ranks, ∀ cell ∈ cells, ∀ p, extent c cell = some p →
        quad c r axes p ≤ 1 + 2 / 10 ^ 9 ∨ quad c r axes p ≤ s ^ 2) ∧
      (s = 1 ∨ ∃ cells ∈ ranks, ∃ cell ∈ cells, ∃ p, extent c cell = some p ∧ quad c r axes p = s ^ 2) := by
  obtain ⟨l, e, a, b⟩ := rankScales_spec h hr ranks (c := c)
  obtain ⟨h1, h2, h3⟩ := foldl_max_spec l 1
  refine ⟨l.foldl max 1, by rw [particleScale, e, Res.ok_bind], h1, ?_, ?_⟩
  · intro cells hcs cell hc p hp
    rcases a cells hcs cell hc p hp with h | ⟨s, hs, h⟩
    · exact Or.inl h
    · exact Or.inr (h.trans (pow_le_pow_left₀ (by linarith [(b s hs).1]) (h2 s hs) 2))
  · rcases h3 with h | h
    · exact Or.inl h
    · exact (b _ h).2

theorem quad_scaled (c r : Vec n) (axes : Fin n → Vec n) (s : ℝ) (p : Vec n) :
    quad c (fun d => r d * s) axes p = quad c r axes p / s ^ 2 := eval_scaled c r axes s p

theorem coverRemote_spec {c r : Vec n} {axes : Fin n → Vec n} (h : Orthonormal axes) (hr : ∀ d, r d ≠ 0)
    (remote : Option (Vec n)) :
    ∃ k, 1 ≤ k ∧ coverRemote (mkEll c (some r) axes) remote = .ok (mkEll c (some fun d => r d * k) axes) ∧
      (∀ v, remote = some v → quad c (fun d => r d * k) axes (c + v) ≤ 1) ∧
      (k = 1 ∨ ∃ v, remote = some v ∧ quad c (fun d => r d * k) axes (c + v) = 1) := by
  have hcen : (mkEll c (some r) axes).center = c := rfl
  have h1 : (fun d => r d * 1) = r := by funext d; rw [mul_one]
  cases remote with
  | none => exact ⟨1, le_refl _, by rw [h1]; rfl, by simp, Or.inl rfl⟩
  | some v =>
    simp only [coverRemote, hcen, mkEll_form hr]
    rcases center_intersection h hr (c + v) with ⟨hq, e⟩ | ⟨t, e, t0, t1, ht⟩
    · refine ⟨1, le_refl _, ?_, ?_, Or.inl rfl⟩
      · rw [e, Res.ok_bind, h1]
        simp
      · rintro _ ⟨⟩
        rw [h1]
        exact hq.le
    · by_cases ht1 : t < 1
      · have hq : quad c (fun d => r d * (1 / t)) axes (c + v) = 1 := by
          rw [quad_scaled, one_div, inv_pow, div_inv_eq_mul, mul_comm]
          exact ht
        refine ⟨1 / t, by rw [le_div_iff₀ t0, one_mul]; exact t1, ?_, ?_, Or.inr ⟨v, rfl, hq⟩⟩
        · rw [e, Res.ok_bind]
          simp only [t0, ht1, and_self, if_true]
          rfl
        · rintro _ ⟨⟩
          exact hq.le
      · have : t = 1 := le_antisymm t1 (not_lt.mp ht1)
        subst this
        refine ⟨1, le_refl _, ?_, ?_, Or.inl rfl⟩
        · rw [e, Res.ok_bind, h1]
          simp
        · rintro _ ⟨⟩
          rw [h1]
          linarith

theorem distance_mk {c1 r1 c2 r2 : Vec n} {a1 a2 : Fin n → Vec n} (hr1 : ∀ d, r1 d ≠ 0) (hr2 : ∀ d, r2 d ≠ 0)
    (o : Options) (ho : (o.testRelative || o.testCollinear) = true) (hc : o.tol < length (c2 - c1)) (maxIter : Nat) :
    distance (mkEll c1 (some r1) a1) (mkEll c2 (some r2) a2) o maxIter =
      iterate o (Real.sqrt (2 * o.tol / (rMax (mkEll c1 (some r1) a1) + rMax (mkEll c2 (some r2) a2))))
        (quadraticForm c1 r1 a1) (quadraticForm c2 r2 a2) maxIter 0 c1 c2 (length (c2 - c1)) := by
  rw [distance, if_neg (by simp [ho]), if_neg (by exact not_not.mpr hc)]
  simp only [mkEll_form hr1, mkEll_form hr2]
  rfl

/-! ### Spheres -/

theorem sphere_mulVec {axes : Fin n → Vec n} (h : Orthonormal axes) (c : Vec n) (r : ℝ) (v : Vec n) :
    (quadraticForm c (fun _ => r) axes).A *ᵥ v = (1 / r ^ 2) • v := by
  have key : ∀ y, ((quadraticForm c (fun _ => r) axes).A *ᵥ v) ⬝ᵥ y = ((1 / r ^ 2) • v) ⬝ᵥ y := by
    intro y
    rw [form_bil, ← Finset.mul_sum, smul_dotProduct, smul_eq_mul]
    congr 1
    conv_rhs => rw [orthonormal_expand h v]
    rw [sum_dotProduct]
    apply Finset.sum_congr rfl
    intro d _
    rw [smul_dotProduct, smul_eq_mul]
  funext i
  have := key (Pi.single i 1)
  simpa using this

theorem sphere_eval {axes : Fin n → Vec n} (h : Orthonormal axes) (c : Vec n) {r : ℝ} {e : Vec n}
    (he : e ⬝ᵥ e = 1) (x : ℝ) :
    (quadraticForm c (fun _ => r) axes).eval (c + x • e) = 1 / 2 * (x ^ 2 / r ^ 2 - 1) := by
  rw [form_eval_quad]
  congr 2
  have h1 : quad c (fun _ => r) axes (c + x • e) = ((quadraticForm c (fun _ => r) axes).A *ᵥ (x • e)) ⬝ᵥ (x • e) := by
    rw [form_bil, quad]
    apply Finset.sum_congr rfl
    intro d _
    rw [add_sub_cancel_left, div_pow]
    ring
  rw [h1, sphere_mulVec h, smul_dotProduct, smul_dotProduct, dotProduct_smul, he]
  simp only [smul_eq_mul]
  ring

theorem sphere_next {axes : Fin n → Vec n} (h : Orthonormal axes) (c : Vec n) {r : ℝ} (hr : 0 < r) {e : Vec n}
    (he : e ⬝ᵥ e = 1) :
    ∃ α, 0 ≤ α ∧ α < r ∧ (quadraticForm c (fun _ => r) axes).next (c + r • e) = c + α • e := by
  have hN : 1 / r ^ 2 ≤ (quadraticForm c (fun _ => r) axes).norm := by
    have := norm_bound (quadraticForm c (fun _ => r) axes) e
    rwa [sphere_mulVec h, smul_dotProduct, he, smul_eq_mul, mul_one, mul_one] at this
  have hN0 : 0 < (quadraticForm c (fun _ => r) axes).norm := lt_of_lt_of_le (by positivity) hN
  have hg : (quadraticForm c (fun _ => r) axes).grad (c + r • e) = (1 / r) • e := by
    have hb : (quadraticForm c (fun _ => r) axes).b = -((quadraticForm c (fun _ => r) axes).A *ᵥ c) := rfl
    rw [Form.grad, hb, sphere_mulVec h, sphere_mulVec h, smul_add, smul_smul]
    have : 1 / r ^ 2 * r = 1 / r := by field_simp
    rw [this]
    abel
  generalize hNe : (quadraticForm c (fun _ => r) axes).norm = N at hN hN0
  refine ⟨r - 1 / N * (1 / r), ?_, ?_, ?_⟩
  · have : 1 / N ≤ r ^ 2 := by
      rw [div_le_iff₀ hN0]
      rw [div_le_iff₀ (by positivity)] at hN
      linarith
    have h2 : 1 / N * (1 / r) ≤ r ^ 2 * (1 / r) := mul_le_mul_of_nonneg_right this (by positivity)
    have h3 : r ^ 2 * (1 / r) = r := by field_simp
    linarith
  · have : 0 < 1 / N * (1 / r) := by positivity
    linarith
  · rw [Form.next, hNe, hg]
    module

/-- The line through the centres meets a sphere in the expected point. -/
theorem sphere_hit {axes : Fin n → Vec n} (h : Orthonormal axes) (c : Vec n) {r : ℝ} (hr : 0 < r) {e : Vec n}
    (he : e ⬝ᵥ e = 1) {α β : ℝ} (hα0 : 0 ≤ α) (hα : α < r) (hβ : r ≤ β) :
    intersection (some (quadraticForm c (fun _ => r) axes)) (c + α • e) (c + β • e)
      = .ok ((r - α) / (β - α), false) := by
  have hlt : 0 < β - α := by linarith
  have i1 : (quadraticForm c (fun _ => r) axes).eval (c + α • e) < 0 := by
    rw [sphere_eval h c he]
    have : α ^ 2 / r ^ 2 < 1 := by
      rw [div_lt_one (by positivity)]
      nlinarith
    linarith
  rcases intersection_spec (good_form h (fun _ => hr.ne')) (c2 := c + β • e) (Or.inl i1) with ⟨_, _, h2⟩ | ⟨t, et, _, _, _, hun⟩
  · exfalso
    rw [sphere_eval h c he] at h2
    have : 1 ≤ β ^ 2 / r ^ 2 := by
      rw [le_div_iff₀ (by positivity)]
      nlinarith
    linarith
  · rw [et]
    have hp : c + α • e + ((r - α) / (β - α)) • (c + β • e - (c + α • e)) = c + r • e := by
      have h1 : c + β • e - (c + α • e) = (β - α) • e := by module
      rw [h1, smul_smul, div_mul_cancel₀ _ hlt.ne', add_assoc, ← add_smul]
      congr 2
      ring
    have := hun ((r - α) / (β - α)) (div_nonneg (by linarith) hlt.le) ((div_le_one hlt).mpr (by linarith)) (by
      rw [hp, sphere_eval h c he, div_self (by positivity)]
      norm_num)
    rw [this]

theorem sphere_hit' {axes : Fin n → Vec n} (h : Orthonormal axes) (c : Vec n) {r : ℝ} (hr : 0 < r) {e : Vec n}
    (he : e ⬝ᵥ e = 1) {L α β : ℝ} (hβ0 : 0 ≤ β) (hβ : β < r) (hα : r ≤ L - α) :
    intersection (some (quadraticForm (c + L • e) (fun _ => r) axes)) (c + α • e) (c + (L - β) • e)
      = .ok ((L - r - α) / (L - β - α), false) := by
  have i2 : (quadraticForm (c + L • e) (fun _ => r) axes).eval (c + (L - β) • e) < 0 := by
    have : c + (L - β) • e = c + L • e + (-β) • e := by module
    rw [this, sphere_eval h _ he]
    have : (-β) ^ 2 / r ^ 2 < 1 := by
      rw [div_lt_one (by positivity)]
      nlinarith
    linarith
  have he' : (-e) ⬝ᵥ (-e) = 1 := by rw [neg_dotProduct, dotProduct_neg, neg_neg, he]
  have hh := sphere_hit h (c + L • e) hr he' hβ0 hβ hα
  have q1 : c + L • e + β • -e = c + (L - β) • e := by module
  have q2 : c + L • e + (L - α) • -e = c + α • e := by module
  rw [q1, q2] at hh
  rcases intersection_swap (good_form h (fun _ => hr.ne')) (c1 := c + α • e) (Or.inr i2) with ⟨a, b⟩ | ⟨t, a, b, _⟩
  · rw [hh] at b
    injection b with b
    simp at b
  · rw [hh] at b
    injection b with b
    rw [Prod.mk.injEq] at b
    rw [a]
    have hlt : L - α - β ≠ 0 := by have : 0 < L - α - β := by linarith
                                   exact this.ne'
    have hlt' : L - β - α ≠ 0 := by rwa [sub_right_comm]
    have : t = (L - r - α) / (L - β - α) := by
      have h1 : t = 1 - (r - β) / (L - α - β) := by linarith [b.1]
      rw [h1, sub_right_comm L α β]
      field_simp
      ring
    rw [this]

theorem extent_eq {c : Vec n} {cell : Cell n} (h : cell.barycenter ≠ c) :
    extent c cell = some (outward c cell.barycenter (cell.diameter / 2)) := by
  have h0 : length (cell.barycenter - c) ≠ 0 := by
    have := self_pos (sub_ne_zero.mpr h)
    exact (Real.sqrt_pos.mpr this).ne'
  have hl : Real.sqrt (distSq cell.barycenter c) = length (cell.barycenter - c) := rfl
  rw [extent, if_neg h0, outward, hl, smul_smul, mul_one_div]
  congr 1
  module

theorem outward_quad {c b r : Vec n} {axes : Fin n → Vec n} {l : ℝ} (hl : 0 ≤ l) :
    quad c r axes b ≤ quad c r axes (outward c b l) := by
  have hs : 0 ≤ l / Real.sqrt (distSq b c) := div_nonneg hl (Real.sqrt_nonneg _)
  have : outward c b l = c + (1 + l / Real.sqrt (distSq b c)) • (b - c) := by
    rw [outward]
    module
  rw [this, quad_line]
  have := quad_nonneg c r axes b
  nlinarith [mul_nonneg hs this, mul_nonneg (mul_nonneg hs hs) this]

end Verif.Ellipsoid
