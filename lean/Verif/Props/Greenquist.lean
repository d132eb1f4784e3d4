/-
C65: the derivatives of the grand potential model of Greenquist et al. and its linearised operator.
-/
import Verif.Model.Greenquist
import Verif.Lemmas.GrainGrowth
import Mathlib.Algebra.BigOperators.Intervals
import Mathlib.Analysis.Calculus.Deriv.Pow
import Mathlib.Analysis.Calculus.Deriv.Mul
import Mathlib.Analysis.Calculus.Deriv.Add
import Mathlib.Analysis.Calculus.Deriv.Comp
import Mathlib.Analysis.Real.Sqrt
import Mathlib.Tactic.Ring
import Mathlib.Tactic.Linarith
import Mathlib.Tactic.LinearCombination
import Mathlib.Tactic.FieldSimp
import Mathlib.Tactic.Positivity
import Mathlib.Tactic.Module
import Mathlib.Algebra.Field.Rat
import Mathlib.Algebra.Order.Ring.Rat

set_option linter.unusedSectionVars false

namespace Verif.Props

open Verif.Greenquist Topology

/-! ### The interpolation function -/

private theorem glue {f g h : ℝ → ℝ} {a d : ℝ} (hg : HasDerivAt g d a) (hh : HasDerivAt h d a)
    (e1 : ∀ᶠ t in 𝓝 a, t ≤ a → f t = g t) (e2 : ∀ᶠ t in 𝓝 a, a ≤ t → f t = h t) : HasDerivAt f d a := by
  have fa : f a = g a := e1.self_of_nhds le_rfl
  have fa' : f a = h a := e2.self_of_nhds le_rfl
  have h1 : HasDerivWithinAt f d (Set.Iic a) a :=
    hg.hasDerivWithinAt.congr_of_eventuallyEq (eventually_nhdsWithin_of_eventually_nhds e1 |>.mp
      (eventually_nhdsWithin_of_forall fun t ht hi => hi ht)) fa
  have h2 : HasDerivWithinAt f d (Set.Ici a) a :=
    hh.hasDerivWithinAt.congr_of_eventuallyEq (eventually_nhdsWithin_of_eventually_nhds e2 |>.mp
      (eventually_nhdsWithin_of_forall fun t ht hi => hi ht)) fa'
  have h3 := h1.union h2
  rwa [Set.Iic_union_Ici, hasDerivWithinAt_univ] at h3

/-- A function that is `g` on [0,a], constant outside, has the derivative that is `g'` on [0,a] and zero outside, if
`g'` vanishes at both ends. -/
private theorem piecewise {f f' g g' : ℝ → ℝ} {a c0 c1 : ℝ} (ha : 0 < a) (hg : ∀ t, HasDerivAt g (g' t) t)
    (z0 : g' 0 = 0) (z1 : g' a = 0) (v0 : g 0 = c0) (v1 : g a = c1)
    (f0 : ∀ t, t < 0 → f t = c0) (fi : ∀ t, 0 ≤ t → t ≤ a → f t = g t) (f1 : ∀ t, a < t → f t = c1)
    (f0' : ∀ t, t < 0 → f' t = 0) (fi' : ∀ t, 0 ≤ t → t ≤ a → f' t = g' t) (f1' : ∀ t, a < t → f' t = 0) (x : ℝ) :
    HasDerivAt f (f' x) x := by
  rcases lt_trichotomy x 0 with hx | rfl | hx
  · rw [f0' x hx]
    refine (hasDerivAt_const x c0).congr_of_eventuallyEq ?_
    filter_upwards [gt_mem_nhds hx] with t ht using f0 t ht
  · rw [fi' 0 le_rfl ha.le, z0]
    refine glue (hasDerivAt_const 0 c0) (z0 ▸ hg 0) (Filter.Eventually.of_forall fun t ht => ?_) ?_
    · rcases eq_or_lt_of_le ht with rfl | ht
      · rw [fi 0 le_rfl ha.le, v0]
      · exact f0 t ht
    · filter_upwards [gt_mem_nhds ha] with t ht h0 using fi t h0 ht.le
  · rcases lt_trichotomy x a with hxa | rfl | hxa
    · rw [fi' x hx.le hxa.le]
      refine (hg x).congr_of_eventuallyEq ?_
      filter_upwards [lt_mem_nhds hx, gt_mem_nhds hxa] with t h0 h1 using fi t h0.le h1.le
    · rw [fi' x hx.le le_rfl, z1]
      refine glue (z1 ▸ hg x) (hasDerivAt_const x c1) ?_ (Filter.Eventually.of_forall fun t ht => ?_)
      · filter_upwards [lt_mem_nhds hx] with t h0 h1 using fi t h0.le h1
      · rcases eq_or_lt_of_le ht with rfl | ht
        · rw [fi _ hx.le le_rfl, v1]
        · exact f1 t ht
    · rw [f1' x hxa]
      refine (hasDerivAt_const x c1).congr_of_eventuallyEq ?_
      filter_upwards [lt_mem_nhds hxa] with t ht using f1 t ht

private theorem quint (a2 a3 a4 a5 a1 x : ℝ) :
    HasDerivAt (fun t : ℝ => a1 * t + a2 * t ^ 2 + a3 * t ^ 3 + a4 * t ^ 4 + a5 * t ^ 5)
      (a1 + 2 * a2 * x + 3 * a3 * x ^ 2 + 4 * a4 * x ^ 3 + 5 * a5 * x ^ 4) x := by
  have h1 := (hasDerivAt_id x).const_mul a1
  have h2 := (hasDerivAt_pow 2 x).const_mul a2
  have h3 := (hasDerivAt_pow 3 x).const_mul a3
  have h4 := (hasDerivAt_pow 4 x).const_mul a4
  have h5 := (hasDerivAt_pow 5 x).const_mul a5
  refine ((((h1.add h2).add h3).add h4).add h5).congr_deriv ?_
  norm_num
  ring

/-- **C65** (interpolation).  `dH` is the derivative of `H` and `d2H` that of `dH`, at every point including the ends
of the transition, and `H` runs from 0 to 1. -/
theorem C65_interpolation (a : ℝ) (ha : 0 < a) (x : ℝ) :
    HasDerivAt (H a) (dH a x) x ∧ HasDerivAt (dH a) (d2H a x) x ∧ 0 ≤ H a x ∧ H a x ≤ 1 ∧
      (x ≤ 0 → H a x = 0) ∧ (a ≤ x → H a x = 1) := by
  have ha' := ha.ne'
  have i0 : ∀ t : ℝ, 0 ≤ t → ¬ t < 0 := fun t h => not_lt.2 h
  refine ⟨?_, ?_, ?_⟩
  · refine piecewise (g := fun t => 0 * t + 0 * t ^ 2 + 10 / a ^ 3 * t ^ 3 + -15 / a ^ 4 * t ^ 4 + 6 / a ^ 5 * t ^ 5)
      (g' := fun x => 0 + 2 * 0 * x + 3 * (10 / a ^ 3) * x ^ 2 + 4 * (-15 / a ^ 4) * x ^ 3 + 5 * (6 / a ^ 5) * x ^ 4)
      (c0 := 0) (c1 := 1) ha (fun t => quint 0 _ _ _ 0 t) ?_ ?_ ?_ ?_ ?_ ?_ ?_ ?_ ?_ ?_ x
    · simp
    · field_simp; ring
    · simp
    · field_simp; ring
    · intro t ht; simp [H, ht, not_lt.2 (ht.le.trans ha.le)]
    · intro t h0 h1; simp only [H, if_neg (i0 t h0), if_neg (not_lt.2 h1)]; ring
    · intro t ht; simp [H, ht]
    · intro t ht; simp [dH, ht, not_lt.2 (ht.le.trans ha.le)]
    · intro t h0 h1; simp only [dH, if_neg (i0 t h0), if_neg (not_lt.2 h1)]; ring
    · intro t ht; simp [dH, ht]
  · refine piecewise (g := fun t => 0 * t + 30 / a ^ 3 * t ^ 2 + -60 / a ^ 4 * t ^ 3 + 30 / a ^ 5 * t ^ 4 + 0 * t ^ 5)
      (g' := fun x => 0 + 2 * (30 / a ^ 3) * x + 3 * (-60 / a ^ 4) * x ^ 2 + 4 * (30 / a ^ 5) * x ^ 3 + 5 * 0 * x ^ 4)
      (c0 := 0) (c1 := 0) ha (fun t => quint _ _ _ 0 0 t) ?_ ?_ ?_ ?_ ?_ ?_ ?_ ?_ ?_ ?_ x
    · simp
    · field_simp; ring
    · simp
    · field_simp; ring
    · intro t ht; simp [dH, ht, not_lt.2 (ht.le.trans ha.le)]
    · intro t h0 h1; simp only [dH, if_neg (i0 t h0), if_neg (not_lt.2 h1)]; ring
    · intro t ht; simp [dH, ht]
    · intro t ht; simp [d2H, ht, not_lt.2 (ht.le.trans ha.le)]
    · intro t h0 h1; simp only [d2H, if_neg (i0 t h0), if_neg (not_lt.2 h1)]; ring
    · intro t ht; simp [d2H, ht]
  · have hend : H a a = 1 := by
      simp only [H, if_neg (i0 a ha.le), if_neg (lt_irrefl a)]
      field_simp; norm_num
    have h0 : H a 0 = 0 := by simp [H, ha.le]
    have hlow : x ≤ 0 → H a x = 0 := by
      intro hx
      rcases eq_or_lt_of_le hx with rfl | hx
      · exact h0
      · simp [H, hx, not_lt.2 (hx.le.trans ha.le)]
    have hhigh : a ≤ x → H a x = 1 := by
      intro hx
      rcases eq_or_lt_of_le hx with rfl | hx
      · exact hend
      · simp [H, hx]
    rcases le_total x 0 with hx | hx
    · rw [hlow hx]; exact ⟨le_rfl, zero_le_one, fun _ => rfl, fun h => absurd (ha.trans_le (h.trans hx)) (lt_irrefl _)⟩
    rcases le_total a x with hx' | hx'
    · rw [hhigh hx']; exact ⟨zero_le_one, le_rfl, fun h => absurd (ha.trans_le (hx'.trans h)) (lt_irrefl _), fun _ => rfl⟩
    · obtain ⟨y, hy0, hy1, rfl⟩ : ∃ y, 0 ≤ y ∧ y ≤ 1 ∧ x = a * y :=
        ⟨x / a, by positivity, by rwa [div_le_one ha], by field_simp⟩
      have e : H a (a * y) = y ^ 3 * (6 * y ^ 2 - 15 * y + 10) := by
        simp only [H, if_neg (i0 _ hx), if_neg (not_lt.2 hx')]
        field_simp
      have e' : H a (a * y) = 1 - (1 - y) ^ 3 * (6 * y ^ 2 + 3 * y + 1) := by rw [e]; ring
      refine ⟨?_, ?_, hlow, hhigh⟩
      · rw [e]
        have : 0 ≤ 6 * y ^ 2 - 15 * y + 10 := by nlinarith [sq_nonneg (y - 1)]
        positivity
      · rw [e']
        have : 0 ≤ 1 - y := by linarith
        have : 0 ≤ (1 - y) ^ 3 * (6 * y ^ 2 + 3 * y + 1) := by positivity
        linarith

private theorem hH (a : ℝ) (ha : 0 < a) (x : ℝ) : HasDerivAt (H a) (dH a x) x := (C65_interpolation a ha x).1
private theorem hdH (a : ℝ) (ha : 0 < a) (x : ℝ) : HasDerivAt (dH a) (d2H a x) x := (C65_interpolation a ha x).2.1

/-- **C65** (functions of the phase).  Derivatives of the susceptibility and of the switched coefficients; the
susceptibility is minus the second derivative of the interpolated grand potential with respect to the chemical
potential. -/
theorem C65_phase_functions (p : Par ℝ) (s gb x : ℝ) (e : Eval ℝ) (he : e.p = p) :
    HasDerivAt (chi p) (dchi p x) x ∧ HasDerivAt (switching s gb) (dswitching s gb x) x ∧
      HasDerivAt (dswitching s gb) (d2switching s gb x) x ∧
      HasDerivAt hb (dhb x) x ∧ HasDerivAt dhb (d2hb x) x ∧ HasDerivAt hm (dhm x) x ∧ HasDerivAt dhm (d2hm x) x ∧
      hb x + hm x = 1 ∧ chi p x = -(hb x * e.d2omegaB + hm x * e.d2omegaM) := by
  have t : (0 : ℝ) < 3 / 10 := by norm_num
  have b := hH 1 one_pos x
  have m : HasDerivAt hm (dhm x) x := b.const_sub 1
  refine ⟨?_, ?_, ?_, b, hdH 1 one_pos x, m, (hdH 1 one_pos x).neg, ?_, ?_⟩
  · exact ((b.div_const p.kb).add (m.div_const p.km)).const_mul _
  · exact (((hH _ t x).const_mul s).add (((hH _ t x).const_sub 1).const_mul gb)).congr_deriv (by
      unfold dswitching; ring)
  · exact ((hdH _ t x).const_mul s).sub ((hdH _ t x).const_mul gb)
  · unfold hb hm; ring
  · subst he
    simp only [chi, Eval.d2omegaB, Eval.d2omegaM, div_eq_mul_inv, mul_inv]
    ring

/-! ### Potentials -/

private theorem s2_eq {K : Type} [Field K] [LinearOrder K] (p : Par K) (n : Nat) (phi mu : K) (eta : Nat → K) :
    (eval p n phi mu eta).s2 = phi ^ 2 + ∑ i ∈ Finset.range n, eta i ^ 2 := by
  simp only [eval, GrainGrowth.pw, Finset.sum_range_succ']
  rw [add_comm]; rfl

/-- Specification: the value of phase `i` replaced by `t`; phase 0 is `phi`, phase `j+1` the order parameter `j`. -/
def setPhase (phi : ℝ) (eta : Nat → ℝ) (i : Nat) (t : ℝ) : ℝ × (Nat → ℝ) :=
  match i with
  | 0 => (t, eta)
  | j + 1 => (phi, Function.update eta j t)

private theorem s2_set (p : Par ℝ) (n i : Nat) (hi : i ≤ n) (phi mu : ℝ) (eta : Nat → ℝ) (t : ℝ) :
    (eval p n (setPhase phi eta i t).1 mu (setPhase phi eta i t).2).s2 =
      (eval p n phi mu eta).s2 - phases phi eta i ^ 2 + t ^ 2 := by
  rw [s2_eq, s2_eq]
  cases i with
  | zero => simp only [setPhase, phases]; ring
  | succ j =>
    have hj : j ∈ Finset.range n := Finset.mem_range.2 (by omega)
    simp only [setPhase, phases]
    rw [← Finset.add_sum_erase _ _ hj, ← Finset.add_sum_erase _ (fun i => eta i ^ 2) hj, Function.update_self]
    rw [Finset.sum_congr rfl fun k hk => by rw [Function.update_of_ne (Finset.ne_of_mem_erase hk)]]
    ring

private theorem qd {f : ℝ → ℝ} {d x : ℝ} (a0 a1 a2 a3 a4 : ℝ)
    (hf : ∀ t, f t = a0 + a1 * t + a2 * t ^ 2 + a3 * t ^ 3 + a4 * t ^ 4)
    (hd : d = a1 + 2 * a2 * x + 3 * a3 * x ^ 2 + 4 * a4 * x ^ 3) : HasDerivAt f d x := by
  have e : f = fun t => a0 + (a1 * t + a2 * t ^ 2 + a3 * t ^ 3 + a4 * t ^ 4 + 0 * t ^ 5) := by
    funext t; rw [hf]; ring
  rw [e]
  exact ((quint a2 a3 a4 0 a1 x).const_add a0).congr_deriv (by rw [hd]; ring)

/-- **C65** (derivatives with respect to the chemical potential). -/
theorem C65_potentials_mu (p : Par ℝ) (n : Nat) (phi mu : ℝ) (eta : Nat → ℝ) (ph : ℝ) :
    HasDerivAt (fun t => (eval p n phi t eta).omegaB) (eval p n phi mu eta).domegaB mu ∧
    HasDerivAt (fun t => (eval p n phi t eta).domegaB) (eval p n phi mu eta).d2omegaB mu ∧
    HasDerivAt (fun t => (eval p n phi t eta).omegaM) (eval p n phi mu eta).domegaM mu ∧
    HasDerivAt (fun t => (eval p n phi t eta).domegaM) (eval p n phi mu eta).d2omegaM mu ∧
    HasDerivAt (fun t => (eval p n phi t eta).domegaMPhase ph) ((eval p n phi mu eta).d2omegaMMuPhase ph) mu := by
  have s : ∀ t, (eval p n phi t eta).cmEq = (eval p n phi mu eta).cmEq := fun t => rfl
  have s' : ∀ t, (eval p n phi t eta).dcmEq ph = (eval p n phi mu eta).dcmEq ph := fun t => rfl
  have m : ∀ t, (eval p n phi t eta).mu = t := fun t => rfl
  have q : ∀ t, (eval p n phi t eta).p = p := fun t => rfl
  refine ⟨qd 0 (-p.cbEq / p.Va) (-1 / (2 * p.Va * p.Va * p.kb)) 0 0 (fun t => ?_) ?_,
    qd (-p.cbEq / p.Va) (-1 / (p.Va * p.Va * p.kb)) 0 0 0 (fun t => ?_) ?_,
    qd 0 (-(eval p n phi mu eta).cmEq / p.Va) (-1 / (2 * p.Va * p.Va * p.km)) 0 0 (fun t => ?_) ?_,
    qd (-(eval p n phi mu eta).cmEq / p.Va) (-1 / (p.Va * p.Va * p.km)) 0 0 0 (fun t => ?_) ?_,
    qd 0 (-(eval p n phi mu eta).dcmEq ph / p.Va) 0 0 0 (fun t => ?_) ?_⟩
  all_goals simp only [Eval.omegaB, Eval.domegaB, Eval.d2omegaB, Eval.omegaM, Eval.domegaM, Eval.d2omegaM,
    Eval.domegaMPhase, Eval.d2omegaMMuPhase, m, q, s, s']
  all_goals ring

/-- **C65** (derivatives with respect to a phase).  Equilibrium concentration, grand potential and its derivative
with respect to the chemical potential. -/
theorem C65_potentials_phase (p : Par ℝ) (n i : Nat) (hi : i ≤ n) (phi mu : ℝ) (eta : Nat → ℝ) :
    let at_ := fun t => eval p n (setPhase phi eta i t).1 mu (setPhase phi eta i t).2
    let e := eval p n phi mu eta
    let x := phases phi eta i
    HasDerivAt (fun t => (at_ t).cmEq) (e.dcmEq x) x ∧
    HasDerivAt (fun t => (at_ t).omegaM) (e.domegaMPhase x) x ∧
    HasDerivAt (fun t => (at_ t).domegaM) (e.d2omegaMMuPhase x) x ∧
    HasDerivAt (fun t => (at_ t).dcmEq t) (e.d2cmEq x) x ∧
    HasDerivAt (fun t => (at_ t).domegaMPhase t) (e.d2omegaMPhase2 x) x ∧
    HasDerivAt (fun t => (at_ t).d2omegaMMuPhase t) (e.d3omegaMMuPhase2 x) x ∧
    HasDerivAt (fun t => (at_ t).dzeta t) (e.d2zeta x) x ∧
    ∀ y, HasDerivAt (fun t => (at_ t).dcmEq y) (e.d2cmEqMixed y x) x ∧
      HasDerivAt (fun t => (at_ t).domegaMPhase y) (e.d2omegaMMixed y x) x ∧
      HasDerivAt (fun t => (at_ t).d2omegaMMuPhase y) (e.d3omegaMMuMixed y x) x ∧
      HasDerivAt (fun t => (at_ t).dzeta y) (e.d2zetaMixed y x) x := by
  intro at_ e x
  have hs : ∀ t, (at_ t).s2 = e.s2 - x ^ 2 + t ^ 2 := fun t => s2_set p n i hi phi mu eta t
  have m : ∀ t, (at_ t).mu = mu := fun t => rfl
  have q : ∀ t, (at_ t).p = p := fun t => rfl
  have m' : e.mu = mu := rfl
  have q' : e.p = p := rfl
  generalize at_ = f at hs m q ⊢
  generalize e = e at hs m' q' ⊢
  generalize x = x at hs ⊢
  obtain ⟨D, hD⟩ : ∃ D, D = p.ceqGB - p.ceqB := ⟨_, rfl⟩
  obtain ⟨c, hc⟩ : ∃ c, c = 1 - e.s2 + x ^ 2 := ⟨_, rfl⟩
  have k : ∀ t, 1 - (f t).s2 = c - t ^ 2 := fun t => by rw [hs, hc]; ring
  have k' : 1 - e.s2 = c - x ^ 2 := by rw [hc]; ring
  have z : ∀ t, (f t).s2 = 1 - c + t ^ 2 := fun t => by rw [hs, hc]; ring
  have z' : e.s2 = 1 - c + x ^ 2 := by rw [hc]; ring
  have h1 : ∀ A B, (fun t => (f t).cmEq * A + B) = fun t => (p.ceqB + 4 * D * (c - t ^ 2) ^ 2) * A + B := by
    intro A B; funext t; simp only [Eval.cmEq, q, k, ← hD]
  refine ⟨qd (p.ceqB + 4 * D * c ^ 2) 0 (-8 * D * c) 0 (4 * D) (fun t => ?_) ?_,
    qd (-1 * mu * mu / (2 * p.Va * p.Va * p.km) - (p.ceqB + 4 * D * c ^ 2) * mu / p.Va) 0 (8 * D * c * mu / p.Va) 0
      (-(4 * D) * mu / p.Va) (fun t => ?_) ?_,
    qd (-1 * mu / (p.Va * p.Va * p.km) - (p.ceqB + 4 * D * c ^ 2) / p.Va) 0 (8 * D * c / p.Va) 0
      (-(4 * D) / p.Va) (fun t => ?_) ?_,
    qd 0 (-16 * D * c) 0 (16 * D) 0 (fun t => ?_) ?_,
    qd 0 (16 * D * c * mu / p.Va) 0 (-16 * D * mu / p.Va) 0 (fun t => ?_) ?_,
    qd 0 (16 * D * c / p.Va) 0 (-16 * D / p.Va) 0 (fun t => ?_) ?_,
    qd 0 (-1 + 2 * p.gamma * (1 - c)) 0 1 0 (fun t => ?_) ?_,
    fun y => ⟨qd (-16 * D * c * y) 0 (16 * D * y) 0 0 (fun t => ?_) ?_,
      qd (16 * D * c * y * mu / p.Va) 0 (-16 * D * y * mu / p.Va) 0 0 (fun t => ?_) ?_,
      qd (16 * D * c * y / p.Va) 0 (-16 * D * y / p.Va) 0 0 (fun t => ?_) ?_,
      qd (y ^ 3 - y + 2 * p.gamma * y * (1 - c - y ^ 2)) 0 (2 * p.gamma * y) 0 0 (fun t => ?_) ?_⟩⟩
  all_goals simp only [Eval.omegaM, Eval.domegaM, Eval.domegaMPhase, Eval.d2omegaMMuPhase, Eval.d2omegaMPhase2,
    Eval.d3omegaMMuPhase2, Eval.d2omegaMMixed, Eval.d3omegaMMuMixed, Eval.cmEq, Eval.dcmEq, Eval.d2cmEq,
    Eval.d2cmEqMixed, Eval.dzeta, Eval.d2zeta, Eval.d2zetaMixed, m, q, m', q', ← hD, z, z']
  all_goals ring

/-- **C65** (violated).  `dzeta_dphasei` is not the derivative of `zeta`: without grains and for `phi = 1/2`, the
derivative of `zeta` is 1/2, the implemented value -3/8. -/
theorem C65_zeta_violated (p : Par ℝ) (mu : ℝ) (eta : Nat → ℝ) :
    HasDerivAt (fun t => (eval p 0 t mu eta).zeta) (1 / 2) (1 / 2) ∧
      (eval p 0 (1 / 2) mu eta).dzeta (1 / 2) = -3 / 8 := by
  constructor
  · refine qd (1 / 4) 0 0 0 1 (fun t => ?_) (by norm_num)
    simp [Eval.zeta, eval, GrainGrowth.entries, FreeEnergy.powerSum, phases, List.range_succ, GrainGrowth.mixedOuter,
      GrainGrowth.mixedInner]
    ring
  · simp [Eval.dzeta, eval, GrainGrowth.entries, FreeEnergy.powerSum, phases, List.range_succ]
    norm_num

/-! ### The linearised operator -/

section lin

variable {V : Type} [NormedAddCommGroup V] [NormedSpace ℝ V]

/-- Specification: the state moved by `s` along an increment. -/
noncomputable def gmoved (x d : State ℝ V) (s : ℝ) : State ℝ V :=
  { phi := x.phi + s * d.phi, mu := x.mu + s * d.mu, eta := fun i => x.eta i + s * d.eta i,
    gphi := x.gphi + s • d.gphi, gmu := x.gmu + s • d.gmu, geta := fun i => x.geta i + s • d.geta i }

private noncomputable abbrev ev (p : Par ℝ) (n : Nat) (x : State ℝ V) : Eval ℝ := eval p n x.phi x.mu x.eta

private theorem gmoved_zero (x d : State ℝ V) : gmoved x d 0 = x := by
  cases x; simp [gmoved]

private theorem line (a b : ℝ) : HasDerivAt (fun s : ℝ => a + s * b) b 0 := by
  simpa using ((hasDerivAt_id (0 : ℝ)).mul_const b).const_add a

private theorem comp_line {f : ℝ → ℝ} {f' a : ℝ} (b : ℝ) (h : HasDerivAt f f' a) :
    HasDerivAt (fun s : ℝ => f (a + s * b)) (f' * b) 0 := by
  have h' : HasDerivAt f f' (a + 0 * b) := by simpa using h
  exact h'.comp 0 (line a b)

private theorem fin_deriv (n : Nat) (f : Nat → ℝ → ℝ) (f' : Nat → ℝ) (h : ∀ i, HasDerivAt (f i) (f' i) 0) :
    HasDerivAt (fun s => ∑ i ∈ Finset.range n, f i s) (∑ i ∈ Finset.range n, f' i) 0 := by
  induction n with
  | zero => simpa using hasDerivAt_const (0 : ℝ) (0 : ℝ)
  | succ n ih =>
    simp only [Finset.sum_range_succ]
    exact ih.add (h n)

private noncomputable def dotp (n : Nat) (x d : State ℝ V) : ℝ := ∑ i ∈ Finset.range n, x.eta i * d.eta i

private noncomputable def G (n : Nat) (x d : State ℝ V) : ℝ := x.phi * d.phi + dotp n x d

section path
variable (p : Par ℝ) (n : Nat) (x d : State ℝ V)

private theorem e_s2 : HasDerivAt (fun s => (ev p n (gmoved x d s)).s2) (2 * G n x d) 0 := by
  simp only [ev, s2_eq, gmoved]
  refine ((comp_line d.phi (hasDerivAt_pow 2 x.phi)).add (fin_deriv n _ _ fun i =>
    comp_line (d.eta i) (hasDerivAt_pow 2 (x.eta i)))).congr_deriv ?_
  simp only [G, dotp, mul_add, Finset.mul_sum]
  congr 1
  · norm_num; ring
  · exact Finset.sum_congr rfl fun i _ => by norm_num; ring

private theorem e_mu : HasDerivAt (fun s => (ev p n (gmoved x d s)).mu) d.mu 0 := line x.mu d.mu

private theorem e_cm : HasDerivAt (fun s => (ev p n (gmoved x d s)).cmEq) ((ev p n x).dcmEq 1 * G n x d) 0 := by
  have h := ((((e_s2 p n x d).const_sub 1).pow 2).const_mul (4 * (p.ceqGB - p.ceqB))).const_add p.ceqB
  refine h.congr_deriv ?_
  simp only [gmoved_zero, Eval.dcmEq, ev, eval]
  norm_num
  ring

private theorem e_dcm (y v : ℝ) : HasDerivAt (fun s => (ev p n (gmoved x d s)).dcmEq (y + s * v))
    ((ev p n x).dcmEq v + (ev p n x).d2cmEqMixed y (G n x d)) 0 := by
  have h := (((e_s2 p n x d).const_sub 1).const_mul (-16 * (p.ceqGB - p.ceqB))).mul (line y v)
  refine h.congr_deriv ?_
  simp only [gmoved_zero, Eval.dcmEq, Eval.d2cmEqMixed, ev, eval, zero_mul, add_zero]
  ring

private theorem e_omB : HasDerivAt (fun s => (ev p n (gmoved x d s)).omegaB) ((ev p n x).domegaB * d.mu) 0 := by
  have h := (((line x.mu d.mu).const_mul (-1)).mul (line x.mu d.mu)).div_const (2 * p.Va * p.Va * p.kb)
  have h' := ((line x.mu d.mu).const_mul p.cbEq).div_const p.Va
  refine (h.sub h').congr_deriv ?_
  simp only [Eval.domegaB, ev, eval, zero_mul, add_zero]
  ring

private theorem e_domB : HasDerivAt (fun s => (ev p n (gmoved x d s)).domegaB) ((ev p n x).d2omegaB * d.mu) 0 := by
  have h := ((line x.mu d.mu).const_mul (-1)).div_const (p.Va * p.Va * p.kb)
  refine (h.sub_const (p.cbEq / p.Va)).congr_deriv ?_
  simp only [Eval.d2omegaB, ev, eval]
  ring

private theorem e_omM : HasDerivAt (fun s => (ev p n (gmoved x d s)).omegaM)
    ((ev p n x).domegaM * d.mu + (ev p n x).domegaMPhase 1 * G n x d) 0 := by
  have h := (((line x.mu d.mu).const_mul (-1)).mul (line x.mu d.mu)).div_const (2 * p.Va * p.Va * p.km)
  have h' := ((e_cm p n x d).mul (line x.mu d.mu)).div_const p.Va
  refine (h.sub h').congr_deriv ?_
  simp only [gmoved_zero, Eval.domegaM, Eval.domegaMPhase, ev, eval, zero_mul, add_zero]
  ring

private theorem e_domM : HasDerivAt (fun s => (ev p n (gmoved x d s)).domegaM)
    ((ev p n x).d2omegaM * d.mu + (ev p n x).d2omegaMMuPhase 1 * G n x d) 0 := by
  have h := ((line x.mu d.mu).const_mul (-1)).div_const (p.Va * p.Va * p.km)
  have h' := (e_cm p n x d).div_const p.Va
  refine (h.sub h').congr_deriv ?_
  simp only [Eval.d2omegaM, Eval.d2omegaMMuPhase, ev, eval]
  ring

private theorem e_omPhase (y v : ℝ) : HasDerivAt (fun s => (ev p n (gmoved x d s)).domegaMPhase (y + s * v))
    ((ev p n x).domegaMPhase v + (ev p n x).d2omegaMMixed y (G n x d) + (ev p n x).d2omegaMMuPhase y * d.mu) 0 := by
  have h := (((e_dcm p n x d y v).const_mul (-1)).mul (line x.mu d.mu)).div_const p.Va
  refine h.congr_deriv ?_
  simp only [gmoved_zero, Eval.domegaMPhase, Eval.d2omegaMMixed, Eval.d2omegaMMuPhase, ev, eval, zero_mul, add_zero]
  ring

private theorem e_muPhase (y v : ℝ) : HasDerivAt (fun s => (ev p n (gmoved x d s)).d2omegaMMuPhase (y + s * v))
    ((ev p n x).d2omegaMMuPhase v + (ev p n x).d3omegaMMuMixed y (G n x d)) 0 := by
  have h := ((e_dcm p n x d y v).const_mul (-1)).div_const p.Va
  refine h.congr_deriv ?_
  simp only [Eval.d2omegaMMuPhase, Eval.d3omegaMMuMixed, ev, eval]
  ring

private theorem e_dzeta (y v : ℝ) : HasDerivAt (fun s => (ev p n (gmoved x d s)).dzeta (y + s * v))
    ((ev p n x).d2zeta y * v + 4 * p.gamma * y * (G n x d - y * v)) 0 := by
  have l := line y v
  have h := ((l.pow 3).sub l).add ((l.const_mul (2 * p.gamma)).mul ((e_s2 p n x d).sub (l.pow 2)))
  refine h.congr_deriv ?_
  simp only [gmoved_zero, Eval.d2zeta, ev, eval, zero_mul, add_zero, Pi.pow_apply, Pi.sub_apply]
  norm_num
  ring

private theorem e_zeta : ∃ Z, HasDerivAt (fun s => (ev p n (gmoved x d s)).zeta) Z 0 := by
  have hz : ∀ s, (ev p n (gmoved x d s)).zeta =
      (∑ i ∈ Finset.range (n + 1), (phases (x.phi + s * d.phi) (fun j => x.eta j + s * d.eta j) i) ^ 4) +
      p.gamma * ((∑ i ∈ Finset.range (n + 1), ∑ j ∈ Finset.range (n + 1),
        if i < j then (phases (x.phi + s * d.phi) (fun j => x.eta j + s * d.eta j) i) ^ 2 *
          (phases (x.phi + s * d.phi) (fun j => x.eta j + s * d.eta j) j) ^ 2 else 0) * 2) + 1 / 4 := by
    intro s
    simp only [Eval.zeta, ev, eval, GrainGrowth.pw, 
      GrainGrowth.outer_eq (K := ℝ) (n + 1) _ (n + 1) 0 0 (Nat.zero_add _), zero_add, gmoved]
  have hph : ∀ i, ∃ v, HasDerivAt (fun s => phases (x.phi + s * d.phi) (fun j => x.eta j + s * d.eta j) i) v 0 := by
    intro i
    cases i with
    | zero => exact ⟨_, line x.phi d.phi⟩
    | succ j => exact ⟨_, line (x.eta j) (d.eta j)⟩
  choose v hv using hph
  have hm : ∀ i j, ∃ w, HasDerivAt (fun s =>
      if i < j then (phases (x.phi + s * d.phi) (fun j => x.eta j + s * d.eta j) i) ^ 2 *
          (phases (x.phi + s * d.phi) (fun j => x.eta j + s * d.eta j) j) ^ 2 else 0) w 0 := by
    intro i j
    by_cases h : i < j
    · simp only [if_pos h]
      exact ⟨_, ((hv i).pow 2).mul ((hv j).pow 2)⟩
    · simp only [if_neg h]
      exact ⟨_, hasDerivAt_const _ _⟩
  choose w hw using hm
  have h := (((fin_deriv (n + 1) _ _ fun i => (hv i).pow 4).add
    (((fin_deriv (n + 1) _ _ fun i => fin_deriv (n + 1) _ _ fun j => hw i j).mul_const 2).const_mul p.gamma)).add_const
      (1 / 4))
  exact ⟨_, h.congr_of_eventuallyEq (Filter.Eventually.of_forall hz)⟩

private theorem e_eps : HasDerivAt (fun s => (ev p n (gmoved x d s)).eps) ((ev p n x).deps * d.phi) 0 :=
  comp_line d.phi (C65_phase_functions p p.epsS p.epsGb x.phi (ev p n x) rfl).2.1

private theorem e_deps : HasDerivAt (fun s => (ev p n (gmoved x d s)).deps) ((ev p n x).d2eps * d.phi) 0 :=
  comp_line d.phi (C65_phase_functions p p.epsS p.epsGb x.phi (ev p n x) rfl).2.2.1

private theorem e_kappa : HasDerivAt (fun s => (ev p n (gmoved x d s)).kappa) ((ev p n x).dkappa * d.phi) 0 :=
  comp_line d.phi (C65_phase_functions p p.kapS p.kapGb x.phi (ev p n x) rfl).2.1

private theorem e_chi : HasDerivAt (fun s => chi p (gmoved x d s).phi) (dchi p x.phi * d.phi) 0 :=
  comp_line d.phi (C65_phase_functions p 0 0 x.phi (eval p 0 0 0 fun _ => 0) rfl).1

private theorem e_dhb : HasDerivAt (fun s => dhb (gmoved x d s).phi) (d2hb x.phi * d.phi) 0 :=
  comp_line d.phi (hdH 1 one_pos x.phi)

private theorem e_hm : HasDerivAt (fun s => hm (gmoved x d s).phi) (dhm x.phi * d.phi) 0 :=
  comp_line d.phi ((hH 1 one_pos x.phi).const_sub 1)

private theorem e_dhm : HasDerivAt (fun s => dhm (gmoved x d s).phi) (d2hm x.phi * d.phi) 0 :=
  comp_line d.phi (hdH 1 one_pos x.phi).neg

end path

private theorem loop_eq (n : Nat) (f : Nat → ℝ) (a : ℝ) : loopAdd n f a = a + ∑ i ∈ Finset.range n, f i := by
  unfold loopAdd
  induction n with
  | zero => simp
  | succ n ih => rw [List.range_succ, List.foldl_append, ih, Finset.sum_range_succ]; simp [add_assoc]

private theorem td_eq (acc val w : ℝ) (old : List (ℝ × ℝ)) :
    GrainGrowth.timeDerivative acc val w old = acc + val * w + (old.map fun wo => wo.2 * wo.1).sum := by
  unfold GrainGrowth.timeDerivative
  generalize acc + val * w = b
  induction old generalizing b with
  | nil => simp
  | cons o l ih => simp only [List.foldl_cons, ih, List.map_cons, List.sum_cons]; ring

private theorem e_td (a b w : ℝ) (old : List (ℝ × ℝ)) :
    HasDerivAt (fun s => GrainGrowth.timeDerivative 0 (a + s * b) w old) (b * w) 0 := by
  simp only [td_eq]
  exact (((line a b).mul_const w).const_add 0).add_const _

/-- **C65** (undefined).  The linearised operator reads uninitialised variables for every input. -/
theorem C65_vmult_undefined (p : Par ℝ) (n : Nat) (old : Old ℝ) (x d : State ℝ V) : vmult p n old x d = .ub := rfl

/-- **C65** (linearisation of the row of `phi`, partial).  If the uninitialised variables are zero, the submitted
gradient is exact, and the value differs from the derivative of the residual by the error in the derivative of
`zeta`, times the slope of the switched coefficient; it is exact outside the transition of that coefficient. -/
theorem C65_phi_partial (p : Par ℝ) (mode n : Nat) (hm : mode ≠ 0) (old : Old ℝ) (x d : State ℝ V) :
    ∃ J Z, vmultFrom (some 0) p n old x d = .ok J ∧
      HasDerivAt (fun s => (eval p n (gmoved x d s).phi (gmoved x d s).mu (gmoved x d s).eta).zeta) Z 0 ∧
      HasDerivAt (fun s => (Greenquist.residual p mode n old (gmoved x d s)).phi)
        (J.phi + p.Lphi * (eval p n x.phi x.mu x.eta).deps *
          (Z - ((eval p n x.phi x.mu x.eta).dzeta x.phi * d.phi +
            ∑ i ∈ Finset.range n, (eval p n x.phi x.mu x.eta).dzeta (x.eta i) * d.eta i))) 0 ∧
      HasDerivAt (fun s => (Greenquist.residual p mode n old (gmoved x d s)).gphi) J.gphi 0 := by
  obtain ⟨Z, hZ⟩ := e_zeta p n x d
  refine ⟨_, Z, rfl, hZ, ?_, ?_⟩
  · have h := (e_td x.phi d.phi p.weight old.phi).add
      (((((((e_dhb x d).mul (e_omB p n x d)).add ((e_dhm x d).mul (e_omM p n x d))).add
        ((e_hm x d).mul (e_omPhase p n x d x.phi d.phi))).add ((e_deps p n x d).mul hZ)).add
        ((e_eps p n x d).mul (e_dzeta p n x d x.phi d.phi))).const_mul p.Lphi)
    simp only [Greenquist.residual, ne_eq, hm, not_false_eq_true, if_true]
    refine h.congr_deriv ?_
    simp only [gmoved_zero, loop_eq, zero_mul, add_zero]
    have hsum : ∀ A B C E : ℝ, (∑ i ∈ Finset.range n, p.Lphi * (A * (ev p n x).domegaMPhase (x.eta i) +
        B * (ev p n x).d2omegaMMixed x.phi (x.eta i) + C * (ev p n x).dzeta (x.eta i) +
        E * (ev p n x).d2zetaMixed x.phi (x.eta i)) * d.eta i) =
        p.Lphi * (A * (ev p n x).domegaMPhase 1 + B * (ev p n x).d2omegaMMixed x.phi 1 +
          E * (ev p n x).d2zetaMixed x.phi 1) * dotp n x d +
        p.Lphi * C * ∑ i ∈ Finset.range n, (ev p n x).dzeta (x.eta i) * d.eta i := by
      intro A B C E
      rw [dotp, Finset.mul_sum, Finset.mul_sum, ← Finset.sum_add_distrib]
      refine Finset.sum_congr rfl fun i _ => ?_
      simp only [Eval.domegaMPhase, Eval.d2omegaMMixed, Eval.d2zetaMixed, Eval.dcmEq, Eval.d2cmEqMixed]
      ring
    rw [hsum]
    simp only [G, Eval.domegaMPhase, Eval.d2omegaMMixed, Eval.d2zetaMixed, Eval.dcmEq, Eval.d2cmEqMixed, Eval.d2cmEq,
      Eval.d2omegaMPhase2, Eval.d2omegaMMuPhase]
    simp only [ev, eval]
    ring
  · simp only [Greenquist.residual]
    have h := ((e_kappa p n x d).const_mul p.Lphi).smul
      (((hasDerivAt_id (0 : ℝ)).smul_const d.gphi).const_add x.gphi)
    refine h.congr_deriv ?_
    simp [gmoved_zero, add_comm, mul_assoc]

/-- **C65** (linearisation of the rows of the order parameters, partial).  The value is exact; the gradient misses the
derivative of the gradient coefficient with respect to `phi`. -/
theorem C65_eta_partial (p : Par ℝ) (mode n : Nat) (hm : mode ≠ 0) (old : Old ℝ) (x d : State ℝ V) (i : Nat)
    (hi : i < n) :
    ∃ J, vmultFrom (some 0) p n old x d = .ok J ∧
      HasDerivAt (fun s => (Greenquist.residual p mode n old (gmoved x d s)).eta i) (J.eta i) 0 ∧
      HasDerivAt (fun s => (Greenquist.residual p mode n old (gmoved x d s)).geta i)
        (J.geta i + (p.L * (eval p n x.phi x.mu x.eta).dkappa * d.phi) • x.geta i) 0 := by
  refine ⟨_, rfl, ?_, ?_⟩
  · have h := (e_td (x.eta i) (d.eta i) p.weight (old.eta i)).add
      ((((e_hm x d).mul (e_omPhase p n x d (x.eta i) (d.eta i))).add
        ((e_eps p n x d).mul (e_dzeta p n x d (x.eta i) (d.eta i)))).const_mul p.L)
    simp only [Greenquist.residual, ne_eq, hm, not_false_eq_true, if_true]
    refine h.congr_deriv ?_
    simp only [gmoved_zero, loop_eq, zero_mul, add_zero]
    have hsum : ∀ B E : ℝ, (∑ j ∈ Finset.range n, if ¬ j = i then p.L *
        (B * (ev p n x).d2omegaMMixed (x.eta i) (x.eta j) + E * (ev p n x).d2zetaMixed (x.eta i) (x.eta j)) * d.eta j
          else 0) =
        p.L * (B * (ev p n x).d2omegaMMixed (x.eta i) 1 + E * (ev p n x).d2zetaMixed (x.eta i) 1) *
          (dotp n x d - x.eta i * d.eta i) := by
      intro B E
      have hi' : i ∈ Finset.range n := Finset.mem_range.2 hi
      rw [dotp, ← Finset.add_sum_erase _ _ hi', ← Finset.add_sum_erase _ (fun j => x.eta j * d.eta j) hi',
        add_sub_cancel_left, Finset.mul_sum, if_neg (by simp), zero_add]
      refine Finset.sum_congr rfl fun j hj => ?_
      rw [if_pos (Finset.ne_of_mem_erase hj)]
      simp only [Eval.d2omegaMMixed, Eval.d2zetaMixed, Eval.d2cmEqMixed]
      ring
    rw [hsum]
    simp only [G, Eval.domegaMPhase, Eval.d2omegaMMixed, Eval.d2zetaMixed, Eval.dcmEq, Eval.d2cmEqMixed, Eval.d2cmEq,
      Eval.d2omegaMPhase2, Eval.d2omegaMMuPhase]
    simp only [ev, eval]
    ring
  · simp only [Greenquist.residual]
    have h := ((e_kappa p n x d).const_mul p.L).smul
      (((hasDerivAt_id (0 : ℝ)).smul_const (d.geta i)).const_add (x.geta i))
    refine h.congr_deriv ?_
    simp [gmoved_zero, mul_assoc]

private theorem pairs (n : Nat) (y : Nat → ℝ) : Mobility.pairLoop 0 [] (GrainGrowth.entries n y) * 2 =
    (∑ i ∈ Finset.range n, y i) ^ 2 - ∑ i ∈ Finset.range n, y i ^ 2 := by
  have inner : ∀ (e a : ℝ) (l : List ℝ), l.foldl (fun a f => a + e * f) a = a + e * l.sum := by
    intro e a l
    induction l generalizing a with
    | nil => simp
    | cons x l ih => simp [ih]; ring
  have key : ∀ (l pre : List ℝ) (a : ℝ), Mobility.pairLoop a pre l * 2 =
      2 * a + ((pre.sum + l.sum) ^ 2 - pre.sum ^ 2 - (l.map (· ^ 2)).sum) := by
    intro l
    induction l with
    | nil => intro pre a; simp [Mobility.pairLoop]; ring
    | cons x l ih =>
      intro pre a
      rw [Mobility.pairLoop, ih, inner]
      simp
      ring
  rw [key]
  have h1 : (GrainGrowth.entries n y).sum = ∑ i ∈ Finset.range n, y i := GrainGrowth.list_sum_range n y
  have h2 : ((GrainGrowth.entries n y).map (· ^ 2)).sum = ∑ i ∈ Finset.range n, y i ^ 2 := by
    rw [GrainGrowth.entries, List.map_map]
    exact GrainGrowth.list_sum_range n _
  rw [h1, h2]
  simp

private theorem dM_eq (m : Mobility.Coeff ℝ) (n i : Nat) (hi : i < n) (y : Nat → ℝ) :
    Mobility.dMdetai m (GrainGrowth.entries n y) i = 2 * m.Mgb * ((∑ j ∈ Finset.range n, y j) - y i) := by
  have key : ∀ k a, ((GrainGrowth.entries k y).mapIdx fun j e => (j, e)).foldl
      (fun a je => if je.1 ≠ i then a + je.2 else a) a =
      a + ∑ j ∈ Finset.range k, if j = i then 0 else y j := by
    intro k
    induction k with
    | zero => intro a; simp [GrainGrowth.entries]
    | succ k ih =>
      intro a
      have hl : (GrainGrowth.entries (k + 1) y) = GrainGrowth.entries k y ++ [y k] := by
        simp [GrainGrowth.entries, List.range_succ]
      rw [hl, List.mapIdx_append, List.foldl_append, ih, Finset.sum_range_succ]
      have hlen : (GrainGrowth.entries k y).length = k := by simp [GrainGrowth.entries]
      by_cases h : k = i
      · subst h
        simp [hlen]
      · simp [hlen, h, add_assoc]
  unfold Mobility.dMdetai
  rw [key]
  have hi' : i ∈ Finset.range n := Finset.mem_range.2 hi
  rw [← Finset.add_sum_erase _ _ hi', ← Finset.add_sum_erase _ y hi', if_pos rfl]
  rw [Finset.sum_congr rfl fun j hj => by rw [if_neg (Finset.ne_of_mem_erase hj)]]
  ring

/-- **C65** (linearisation of the row of `mu`, partial).  The gradient is exact, for all numbers of order parameters;
the value contains the second derivative of the potential of the pore where that of the matrix is required. -/
theorem C65_mu_partial (p : Par ℝ) (mode n : Nat) (hm : mode ≠ 0) (old : Old ℝ) (x d : State ℝ V) :
    ∃ J, vmultFrom (some 0) p n old x d = .ok J ∧
      HasDerivAt (fun s => (Greenquist.residual p mode n old (gmoved x d s)).mu)
        (J.mu - (x.phi * p.weight + (old.phi.map fun wo => wo.2 * wo.1).sum) * dhm x.phi *
          ((eval p n x.phi x.mu x.eta).d2omegaM - (eval p n x.phi x.mu x.eta).d2omegaB) * d.mu) 0 ∧
      HasDerivAt (fun s => (Greenquist.residual p mode n old (gmoved x d s)).gmu) J.gmu 0 := by
  refine ⟨_, rfl, ?_, ?_⟩
  · have h := ((e_td x.mu d.mu p.weight old.mu).mul (e_chi p x d)).add
      (((e_td x.phi d.phi p.weight old.phi).mul
        ((((e_dhb x d).mul (e_domB p n x d)).add ((e_dhm x d).mul (e_domM p n x d))).add
          ((e_hm x d).mul (e_muPhase p n x d x.phi d.phi)))).mul_const (-1))
    simp only [Greenquist.residual, ne_eq, hm, not_false_eq_true, if_true]
    refine h.congr_deriv ?_
    simp only [gmoved_zero, loop_eq, zero_mul, add_zero, td_eq, zero_add]
    have hsum : ∀ A B E : ℝ, (∑ i ∈ Finset.range n, -((A * (ev p n x).d2omegaMMuPhase (x.eta i) +
        B * (ev p n x).d3omegaMMuMixed x.phi (x.eta i)) * d.eta i * E)) =
        -((A * (ev p n x).d2omegaMMuPhase 1 + B * (ev p n x).d3omegaMMuMixed x.phi 1) * E) * dotp n x d := by
      intro A B E
      rw [dotp, Finset.mul_sum]
      refine Finset.sum_congr rfl fun i _ => ?_
      simp only [Eval.d2omegaMMuPhase, Eval.d3omegaMMuMixed, Eval.dcmEq, Eval.d2cmEqMixed]
      ring
    rw [hsum]
    simp only [Pi.add_apply, Pi.mul_apply, gmoved_zero, zero_mul, add_zero]
    simp only [G, Eval.d2omegaMMuPhase, Eval.d3omegaMMuMixed, Eval.d3omegaMMuPhase2, Eval.dcmEq, Eval.d2cmEqMixed,
      Eval.d2cmEq, d2hm, d2hb, dhm, dhb]
    simp only [ev, eval]
    ring
  · have hM : HasDerivAt (fun s => mobility p.mob n (gmoved x d s).phi (gmoved x d s).eta)
        (dMsurf p.mob x.phi * d.phi + 2 * p.mob.Mgb * ((∑ i ∈ Finset.range n, x.eta i) *
          (∑ i ∈ Finset.range n, d.eta i) - dotp n x d)) 0 := by
      simp only [mobility, pairs, gmoved]
      have l := line x.phi d.phi
      have h1 := (((l.const_mul (p.mob.Msurf * 4)).mul l).mul (l.const_sub 1)).mul (l.const_sub 1)
      have h2 := (((fin_deriv n _ _ fun i => line (x.eta i) (d.eta i)).pow 2).sub
        (fin_deriv n _ _ fun i => (line (x.eta i) (d.eta i)).pow 2)).const_mul p.mob.Mgb
      refine ((h1.const_add (p.mob.Mvol * Mobility.phi 1)).add h2).congr_deriv ?_
      have h3 : (∑ i ∈ Finset.range n, ((2 : ℕ) : ℝ) * (x.eta i + 0 * d.eta i) ^ (2 - 1) * d.eta i) = 2 * dotp n x d := by
        rw [dotp, Finset.mul_sum]
        exact Finset.sum_congr rfl fun i _ => by norm_num; ring
      rw [h3]
      simp only [zero_mul, add_zero, dMsurf, Pi.mul_apply]
      norm_num
      ring
    have h := ((e_chi p x d).mul hM).smul (((hasDerivAt_id (0 : ℝ)).smul_const d.gmu).const_add x.gmu)
    simp only [Greenquist.residual]
    refine h.congr_deriv ?_
    have hs : (∑ i ∈ Finset.range n, chi p x.phi * Mobility.dMdetai p.mob (GrainGrowth.entries n x.eta) i * d.eta i) =
        chi p x.phi * (2 * p.mob.Mgb) * ((∑ i ∈ Finset.range n, x.eta i) * (∑ i ∈ Finset.range n, d.eta i) -
          dotp n x d) := by
      rw [dotp, Finset.mul_sum, ← Finset.sum_sub_distrib, Finset.mul_sum]
      refine Finset.sum_congr rfl fun i hi => ?_
      rw [dM_eq _ _ _ (Finset.mem_range.1 hi)]
      ring
    simp only [gmoved_zero, loop_eq, zero_add, hs, Pi.mul_apply, one_smul, zero_smul, add_zero, id_eq]
    module

/-- **C65** (violated).  Even if the uninitialised variables were zero, the linearised operator is not the derivative
of the residual: a change of the chemical potential in a moving transition is not accounted for. -/
theorem C65_mu_violated (p : Par ℝ) (n : Nat) (old : Old ℝ) (x d : State ℝ V) (hphi : x.phi = 1 / 2)
    (hdot : x.phi * p.weight + (old.phi.map fun wo => wo.2 * wo.1).sum ≠ 0)
    (hk : (eval p n x.phi x.mu x.eta).d2omegaM ≠ (eval p n x.phi x.mu x.eta).d2omegaB) (hd : d.mu ≠ 0) :
    ∃ J, vmultFrom (some 0) p n old x d = .ok J ∧
      ¬ HasDerivAt (fun s => (Greenquist.residual p 2 n old (gmoved x d s)).mu) J.mu 0 := by
  obtain ⟨J, hJ, h, _⟩ := C65_mu_partial p 2 n (by decide) old x d
  refine ⟨J, hJ, fun h' => ?_⟩
  have := h.unique h'
  have hz : (x.phi * p.weight + (old.phi.map fun wo => wo.2 * wo.1).sum) * dhm x.phi *
      ((eval p n x.phi x.mu x.eta).d2omegaM - (eval p n x.phi x.mu x.eta).d2omegaB) * d.mu = 0 := by linarith
  have hdh : dhm x.phi ≠ 0 := by rw [hphi]; norm_num [dhm, dH]
  have := sub_ne_zero.2 hk
  simp_all

/-- **C65** (violated).  The same for the gradient of the order parameters in the transition of the gradient
coefficient. -/
theorem C65_eta_violated (p : Par ℝ) (n i : Nat) (hi : i < n) (old : Old ℝ) (x d : State ℝ V) (hphi : x.phi = 1 / 10)
    (hk : p.kapS ≠ p.kapGb) (hL : p.L ≠ 0) (hd : d.phi ≠ 0) (hg : x.geta i ≠ 0) :
    ∃ J, vmultFrom (some 0) p n old x d = .ok J ∧
      ¬ HasDerivAt (fun s => (Greenquist.residual p 2 n old (gmoved x d s)).geta i) (J.geta i) 0 := by
  obtain ⟨J, hJ, _, h⟩ := C65_eta_partial p 2 n (by decide) old x d i hi
  refine ⟨J, hJ, fun h' => ?_⟩
  have := h.unique h'
  rw [add_eq_left, smul_eq_zero] at this
  rcases this with this | this
  · have e : (eval p n x.phi x.mu x.eta).dkappa = (p.kapS - p.kapGb) * dH (3 / 10) (1 / 10) := by
      simp only [Eval.dkappa, dswitching, eval, hphi]; ring
    rw [e] at this
    have hdh : dH (3 / 10 : ℝ) (1 / 10) ≠ 0 := by norm_num [dH]
    have := sub_ne_zero.2 hk
    simp_all
  · exact hg this

end lin

namespace Ex65

/-- The interpolation function in the middle of the transition. -/
example : H (1 : ℚ) (1 / 2) = 1 / 2 ∧ dH (1 : ℚ) (1 / 2) = 15 / 8 ∧ d2H (1 : ℚ) (1 / 2) = 0 ∧ H (3 / 10 : ℚ) 1 = 1 := by
  norm_num [H, dH, d2H]

private def par : Par ℚ :=
  { Va := 1, kb := 10, km := 1, ceqB := 0, ceqGB := 1, cbEq := 1, gamma := 3 / 2, Lphi := 1, L := 1, epsS := 2,
    epsGb := 1, kapS := 2, kapGb := 1, mob := ⟨1, 1, 1, 1, 1⟩, weight := 2 }

private def st : State ℚ ℚ := { phi := 1 / 2, mu := 1, eta := fun i => [1, 1 / 2].getD i 0, gphi := 1, gmu := 1, geta := fun _ => 1 }
private def dr : State ℚ ℚ := { phi := 0, mu := 1, eta := fun _ => 0, gphi := 0, gmu := 0, geta := fun _ => 0 }
private def oldV : Old ℚ := { phi := [(-2, 0)], mu := [(-2, 0)], eta := fun _ => [(-2, 0)] }

/-- The second derivatives of the two potentials differ, and the phase changes in time. -/
example : (eval par 2 st.phi st.mu st.eta).d2omegaM = -1 ∧ (eval par 2 st.phi st.mu st.eta).d2omegaB = -1 / 10 ∧
    st.phi * par.weight + (oldV.phi.map fun wo => wo.2 * wo.1).sum = 1 := by
  norm_num [Eval.d2omegaM, Eval.d2omegaB, eval, par, st, oldV]

end Ex65

end Verif.Props
