/-
C66: the inelastic strain rates and their derivatives; C67: the check of the Courant condition.
-/
import Verif.Model.Inelastic
import Verif.Lemmas.Cutoff
import Mathlib.Data.List.Induction
import Mathlib.Analysis.Calculus.Deriv.Pow
import Mathlib.Analysis.Calculus.Deriv.Mul
import Mathlib.Analysis.Calculus.Deriv.Add
import Mathlib.Analysis.Real.Sqrt
import Mathlib.Tactic.Ring
import Mathlib.Tactic.Linarith
import Mathlib.Tactic.FieldSimp
import Mathlib.Algebra.Field.Rat
import Mathlib.Algebra.Order.Ring.Rat

set_option linter.unusedSectionVars false

namespace Verif.Props

open Verif.Inelastic Topology

variable {d : Nat}

/-- Specification: the sum of the products over all pairs of different order parameters. -/
noncomputable def pairProducts (l : List ℝ) : ℝ := (l.sum ^ 2 - (l.map (· ^ 2)).sum) / 2

private theorem foldm (e a : ℝ) (l : List ℝ) : l.foldl (fun a f => a + e * f) a = a + e * l.sum := by
  induction l generalizing a with
  | nil => simp
  | cons x l ih => simp [ih]; ring

private theorem pairSum_eq (a : ℝ) (l : List ℝ) : pairSum a l = a + pairProducts l := by
  induction l generalizing a with
  | nil => simp [pairSum, pairProducts]
  | cons x l ih =>
    rw [pairSum, ih, foldm]
    simp only [pairProducts, List.sum_cons, List.map_cons]
    ring

private theorem sumNe (l : List ℝ) (i : Nat) (m a : ℝ) :
    (l.mapIdx fun j e => (j, e)).foldl (fun a je => if je.1 ≠ i then a + m * je.2 else a) a =
      a + m * (l.sum - l.getD i 0) := by
  induction l using List.reverseRecOn with
  | nil => simp
  | append_singleton l x ih =>
    rw [List.mapIdx_append, List.foldl_append, ih]
    by_cases h : l.length = i
    · subst h
      simp [List.getD_eq_getElem?_getD]
    · by_cases h2 : i < l.length
      · simp [h, List.getD_eq_getElem?_getD, List.getElem?_append, h2]
        ring
      · have h3 : l.length < i := by omega
        have h4 : ¬ (i - l.length = 0) := by omega
        simp [h, List.getD_eq_getElem?_getD, List.getElem?_append, h2, h4]
        ring

private theorem dg_eq (l : List ℝ) (i : Nat) : dg l i = 4 * (l.sum - l.getD i 0) := by
  have h := sumNe l i 1 0
  simp only [one_mul, zero_add] at h
  rw [dg, h]
  ring

private theorem rawIndicator (l : List ℝ) :
    (l.mapIdx fun j e => (j, e)).foldl (fun a p => (l.mapIdx fun j e => (j, e)).foldl
      (fun a q => if p.1 ≠ q.1 then a + p.2 * q.2 else a) a) 0 = 2 * pairProducts l := by
  have hin : ∀ (p : Nat × ℝ) a, (l.mapIdx fun j e => (j, e)).foldl
      (fun a q => if p.1 ≠ q.1 then a + p.2 * q.2 else a) a = a + p.2 * (l.sum - l.getD p.1 0) := by
    intro p a
    rw [← sumNe]
    simp only [ne_comm]
  simp only [hin]
  have key : ∀ (k : List ℝ) (pre : List ℝ), pre ++ k = l →
      ∀ a, (k.mapIdx fun j e => (pre.length + j, e)).foldl (fun a p => a + p.2 * (l.sum - l.getD p.1 0)) a =
        a + (l.sum * k.sum - (k.map (· ^ 2)).sum) := by
    intro k
    induction k with
    | nil => intro pre _ a; simp
    | cons x k ih =>
      intro pre hp a
      have h1 := ih (pre ++ [x]) (by simpa using hp)
      have h2 : l.getD pre.length 0 = x := by
        rw [← hp]; simp [List.getD_eq_getElem?_getD]
      rw [List.mapIdx_cons, List.foldl_cons]
      simp only [List.length_append, List.length_singleton] at h1
      have h3 : (fun (i : Nat) (e : ℝ) => (pre.length + (i + 1), e)) = fun j e => (pre.length + 1 + j, e) := by
        funext i e; rw [Nat.add_assoc, Nat.add_comm 1]
      rw [h3, h1]
      simp only [Nat.add_zero, h2, List.sum_cons, List.map_cons]
      ring
  have := key l [] rfl 0
  simp only [List.length_nil, zero_add] at this
  rw [this, pairProducts]
  ring

private theorem indicator_eq (l : List ℝ) :
    indicator l = if 2 * pairProducts l < 1 / 10 then 0 else 2 * pairProducts l := by
  have h := rawIndicator l
  unfold indicator
  dsimp only
  rw [h]

private theorem g_eq (l : List ℝ) : g l = min 1 (max 0 (4 * pairProducts l)) := by
  unfold g
  dsimp only
  rw [pairSum_eq, zero_add, mul_comm (pairProducts l)]
  by_cases h1 : 4 * pairProducts l < 0
  · rw [if_pos h1, max_eq_left h1.le, if_neg (by norm_num), min_eq_right zero_le_one]
  · rw [if_neg h1, max_eq_right (not_lt.1 h1)]
    by_cases h2 : 1 < 4 * pairProducts l
    · rw [if_pos h2, min_eq_left h2.le]
    · rw [if_neg h2, min_eq_right (not_lt.1 h2)]

private theorem v_eq (c : ℝ) : v c = min 1 (c ^ 2) := by
  unfold v
  rw [pow_two]
  by_cases h : 1 < c * c
  · simp only [if_pos h, min_eq_left h.le]
  · simp only [if_neg h, min_eq_right (not_lt.1 h)]

/-- **C66** (shape).  After the start time the strain rate is a symmetric tensor: a multiple of the dyadic product of
the grain boundary normal with itself and an isotropic part, blended by a factor in [0,1] and scaled by a factor
in [0,1]; before the start time it vanishes. -/
theorem C66_shape (p : Par ℝ) (c : ℝ) (grains : List (Grain ℝ d)) (divGb divVol : ℝ) :
    (p.time < p.start → flux Real.sqrt p c grains divGb divVol = 0) ∧
    ∃ (w s : ℝ) (n : Fin d → ℝ), 0 ≤ w ∧ w ≤ 1 ∧ 0 ≤ s ∧ s ≤ 1 ∧
      (¬ p.time < p.start → ∀ a b, flux Real.sqrt p c grains divGb divVol a b =
        s * (p.rho * divGb * w * (n a * n b) - (if a = b then divVol / 3 * (1 - w) else 0))) ∧
      ∀ a b, flux Real.sqrt p c grains divGb divVol a b = flux Real.sqrt p c grains divGb divVol b a := by
  have hf : ¬ p.time < p.start → ∀ a b, flux Real.sqrt p c grains divGb divVol a b =
      v c * (p.rho * divGb * g (grains.map (·.1)) * (normal Real.sqrt grains a * normal Real.sqrt grains b) -
        (if a = b then divVol / 3 * (1 - g (grains.map (·.1))) else 0)) := by
    intro h a b
    simp only [flux, if_neg h, chi, outer, diagonal, Pi.smul_apply, Pi.add_apply, smul_eq_mul]
    by_cases hab : a = b <;> simp [hab]
    · left; ring
  refine ⟨fun h => by simp [flux, h], g (grains.map (·.1)), v c, normal Real.sqrt grains, ?_, ?_, ?_, ?_, hf, ?_⟩
  · rw [g_eq]; exact le_min zero_le_one (le_max_left _ _)
  · rw [g_eq]; exact min_le_left _ _
  · rw [v_eq]; exact le_min zero_le_one (sq_nonneg c)
  · rw [v_eq]; exact min_le_left _ _
  · intro a b
    by_cases h : p.time < p.start
    · simp [flux, h]
    · rw [hf h, hf h]
      by_cases hab : a = b
      · subst hab; rfl
      · rw [if_neg hab, if_neg (Ne.symm hab), mul_comm (normal Real.sqrt grains a)]

/-- **C66** (divergences).  The strain rate is linear in the two divergences with the implemented derivatives as
coefficients. -/
theorem C66_divergences (p : Par ℝ) (c : ℝ) (grains : List (Grain ℝ d)) (divGb divVol : ℝ) :
    flux Real.sqrt p c grains divGb divVol =
      divGb • fluxDdivGb Real.sqrt p c grains + divVol • fluxDdivVol p c (grains.map (·.1)) := by
  unfold flux fluxDdivGb fluxDdivVol
  by_cases h : p.time < p.start
  · simp [h]
  · simp only [if_neg h, chi]
    funext a b
    by_cases hab : a = b <;>
      simp only [outer, diagonal, Pi.smul_apply, Pi.add_apply, smul_eq_mul, hab, if_true, if_false] <;> ring

/-- **C66** (concentration, partial).  The derivative is exact where the factor is not cut. -/
theorem C66_concentration_partial (p : Par ℝ) (c : ℝ) (hc : c ^ 2 < 1) (grains : List (Grain ℝ d)) (divGb divVol : ℝ)
    (a b : Fin d) :
    HasDerivAt (fun t => flux Real.sqrt p t grains divGb divVol a b) (fluxDc Real.sqrt p c grains divGb divVol a b) c := by
  unfold flux fluxDc
  by_cases h : p.time < p.start
  · simpa [h] using hasDerivAt_const c (0 : ℝ)
  · simp only [if_neg h, Pi.smul_apply, smul_eq_mul]
    refine HasDerivAt.mul_const ?_ _
    have h2 := hasDerivAt_pow 2 c
    refine (h2.congr_deriv (by norm_num [dv])).congr_of_eventuallyEq ?_
    have := h2.continuousAt.eventually (gt_mem_nhds hc)
    filter_upwards [this] with t ht
    rw [v_eq, min_eq_right ht.le]

/-- **C66** (violated).  Where it is cut, the strain rate does not depend on the concentration, but the implemented
derivative is twice the concentration times the strain rate. -/
theorem C66_concentration_violated (p : Par ℝ) (c : ℝ) (hc : 1 < c ^ 2) (h : ¬ p.time < p.start)
    (grains : List (Grain ℝ d)) (divGb divVol : ℝ) (a b : Fin d) :
    HasDerivAt (fun t => flux Real.sqrt p t grains divGb divVol a b) 0 c ∧
      fluxDc Real.sqrt p c grains divGb divVol a b = 2 * c * flux Real.sqrt p c grains divGb divVol a b := by
  have hv : ∀ t : ℝ, 1 < t ^ 2 → v t = 1 := fun t ht => by rw [v_eq, min_eq_left ht.le]
  constructor
  · refine (hasDerivAt_const c (chi Real.sqrt p grains divGb divVol a b)).congr_of_eventuallyEq ?_
    have := (hasDerivAt_pow 2 c).continuousAt.eventually (lt_mem_nhds hc)
    filter_upwards [this] with t ht
    simp [flux, h, hv t ht]
  · simp [flux, fluxDc, h, hv c hc, dv]

/-- Specification: the value of order parameter `i` replaced by `t`. -/
def setEta (grains : List (Grain ℝ d)) (i : Nat) (t : ℝ) : List (Grain ℝ d) :=
  grains.modify i fun x => (t, x.2)

private theorem pair_set (l : List ℝ) (i : Nat) (h : i < l.length) (t : ℝ) :
    pairProducts (l.set i t) = pairProducts l + (t - l.getD i 0) * (l.sum - l.getD i 0) := by
  have hs : ∀ (f : ℝ → ℝ), ((l.set i t).map f).sum = (l.map f).sum - f (l.getD i 0) + f t := by
    intro f
    induction l generalizing i with
    | nil => simp at h
    | cons x l ih =>
      cases i with
      | zero => simp; ring
      | succ i =>
        simp only [List.length_cons, Nat.add_lt_add_iff_right] at h
        simp only [List.set_cons_succ, List.map_cons, List.sum_cons, ih i h, List.getD_cons_succ]
        ring
  have h1 := hs id
  simp only [List.map_id, id] at h1
  rw [pairProducts, pairProducts, h1, hs]
  ring

private theorem set_fst (grains : List (Grain ℝ d)) (i : Nat) (t : ℝ) :
    (setEta grains i t).map (·.1) = (grains.map (·.1)).set i t := by
  unfold setEta
  induction grains generalizing i with
  | nil => simp
  | cons x l ih =>
    cases i with
    | zero => simp
    | succ i => simp [ih]

private theorem set_snd (grains : List (Grain ℝ d)) (i : Nat) (t : ℝ) :
    (setEta grains i t).map (·.2) = grains.map (·.2) := by
  unfold setEta
  induction grains generalizing i with
  | nil => simp
  | cons x l ih =>
    cases i with
    | zero => simp
    | succ i => simp [ih]

/-- **C66** (order parameters, partial).  Where the normal vanishes and the blending factor is not cut, the derivative
with respect to an order parameter is exact. -/
theorem C66_eta_partial (p : Par ℝ) (c : ℝ) (grains : List (Grain ℝ d)) (divGb divVol : ℝ) (i : Nat)
    (hi : i < grains.length) (h0 : 0 < pairProducts (grains.map (·.1)))
    (h1 : 2 * pairProducts (grains.map (·.1)) < 1 / 10) (a b : Fin d) :
    HasDerivAt (fun t => flux Real.sqrt p c (setEta grains i t) divGb divVol a b)
      (fluxDetai Real.sqrt p c grains divGb divVol i a b) ((grains.map (·.1)).getD i 0) := by
  have hi' : i < (grains.map (·.1)).length := by simpa using hi
  unfold fluxDetai
  by_cases h : p.time < p.start
  · simpa [flux, h] using hasDerivAt_const _ (0 : ℝ)
  · simp only [if_neg h]
    generalize hl : grains.map (·.1) = l at *
    have hp : HasDerivAt (fun t => pairProducts (l.set i t)) (l.sum - l.getD i 0) (l.getD i 0) := by
      simp only [pair_set l i hi']
      simpa using (((hasDerivAt_id (l.getD i 0)).sub_const (l.getD i 0)).mul_const (l.sum - l.getD i 0)).const_add
        (pairProducts l)
    have hpv : pairProducts (l.set i (l.getD i 0)) = pairProducts l := by rw [pair_set l i hi']; ring
    have e1 := hp.continuousAt.eventually (lt_mem_nhds (a := 0) (by dsimp only; rw [hpv]; exact h0))
    have e2 := hp.continuousAt.eventually (gt_mem_nhds (a := 1 / 20) (by dsimp only; rw [hpv]; linarith))
    have hn : normal Real.sqrt grains = 0 := by
      unfold normal
      rw [hl, indicator_eq, if_pos h1, zero_smul]
    have hfin : HasDerivAt (fun t => v c * (if a = b then -divVol / 3 * (1 - 4 * pairProducts (l.set i t)) else 0))
        (v c * (if a = b then dg l i * divVol / 3 else 0)) (l.getD i 0) := by
      refine HasDerivAt.const_mul _ ?_
      by_cases hab : a = b
      · simp only [if_pos hab]
        refine (((hp.const_mul 4).const_sub 1).const_mul (-divVol / 3)).congr_deriv ?_
        rw [dg_eq]; ring
      · simpa [hab] using hasDerivAt_const _ (0 : ℝ)
    have hval : (v c • ((p.rho * divGb * g l * 1) •
        (outer (normalDetai grains i) (normal Real.sqrt grains) + outer (normal Real.sqrt grains) (normalDetai grains i)) +
        (p.rho * divGb * dg l i * 1) • outer (normal Real.sqrt grains) (normal Real.sqrt grains) +
        diagonal (dg l i * divVol / 3 * 1)) : Fin d → Fin d → ℝ) a b = v c * (if a = b then dg l i * divVol / 3 else 0) := by
      by_cases hab : a = b <;> simp [hn, outer, diagonal, normalDetai, hab]
    rw [hval]
    refine hfin.congr_of_eventuallyEq ?_
    filter_upwards [e1, e2] with t h0' h1'
    have hi2 : indicator (l.set i t) = 0 := by rw [indicator_eq, if_pos (by linarith)]
    have hg2 : g (l.set i t) = 4 * pairProducts (l.set i t) := by
      rw [g_eq, max_eq_right (by linarith), min_eq_right (by linarith)]
    have hs := set_fst grains i t
    rw [hl] at hs
    simp only [flux, if_neg h, chi, normal, hs, hi2, hg2, zero_smul]
    by_cases hab : a = b <;> simp [outer, diagonal, hab]

/-- **C66** (order parameters, violated).  Where the normal does not vanish, the implemented derivative misses the
derivative of its length: the exact derivative is larger by an explicit term. -/
theorem C66_eta_defect (p : Par ℝ) (c : ℝ) (grains : List (Grain ℝ d)) (divGb divVol : ℝ) (i : Nat)
    (hi : i < grains.length) (h0 : 1 / 10 < 2 * pairProducts (grains.map (·.1)))
    (h1 : 4 * pairProducts (grains.map (·.1)) < 1) (h : ¬ p.time < p.start) (a b : Fin d) :
    HasDerivAt (fun t => flux Real.sqrt p c (setEta grains i t) divGb divVol a b)
      (fluxDetai Real.sqrt p c grains divGb divVol i a b +
        v c * (p.rho * divGb * (4 * pairProducts (grains.map (·.1)))) * 2 * (2 * pairProducts (grains.map (·.1))) *
          (2 * ((grains.map (·.1)).sum - (grains.map (·.1)).getD i 0)) *
          normalSum Real.sqrt 0 (grains.map (·.2)) a * normalSum Real.sqrt 0 (grains.map (·.2)) b)
      ((grains.map (·.1)).getD i 0) := by
  have hi' : i < (grains.map (·.1)).length := by simpa using hi
  unfold fluxDetai
  simp only [if_neg h]
  generalize hl : grains.map (·.1) = l at *
  generalize hN : normalSum Real.sqrt 0 (grains.map (·.2)) = N
  have hp : HasDerivAt (fun t => pairProducts (l.set i t)) (l.sum - l.getD i 0) (l.getD i 0) := by
    simp only [pair_set l i hi']
    simpa using (((hasDerivAt_id (l.getD i 0)).sub_const (l.getD i 0)).mul_const (l.sum - l.getD i 0)).const_add
      (pairProducts l)
  have hpv : pairProducts (l.set i (l.getD i 0)) = pairProducts l := by rw [pair_set l i hi']; ring
  have e1 := hp.continuousAt.eventually (lt_mem_nhds (a := 1 / 20) (by dsimp only; rw [hpv]; linarith))
  have e2 := hp.continuousAt.eventually (gt_mem_nhds (a := 1 / 4) (by dsimp only; rw [hpv]; linarith))
  have hn : normal Real.sqrt grains = (2 * pairProducts l) • N := by
    unfold normal
    rw [hl, indicator_eq, if_neg (by linarith), hN]
  have hfin : HasDerivAt (fun t => v c * (p.rho * divGb * (4 * pairProducts (l.set i t)) *
        ((2 * pairProducts (l.set i t)) * N a * ((2 * pairProducts (l.set i t)) * N b)) +
        (if a = b then -divVol / 3 * (1 - 4 * pairProducts (l.set i t)) else 0)))
      (v c * (p.rho * divGb * (4 * (l.sum - l.getD i 0)) * ((2 * pairProducts l) * N a * ((2 * pairProducts l) * N b)) +
        (if a = b then dg l i * divVol / 3 else 0)) +
        v c * (p.rho * divGb * (4 * pairProducts l)) * 2 * (2 * pairProducts l) * (2 * (l.sum - l.getD i 0)) * N a * N b)
      (l.getD i 0) := by
    have h3 := (((hp.const_mul 4).const_mul (p.rho * divGb)).mul (((hp.const_mul 2).mul_const (N a)).mul
      ((hp.const_mul 2).mul_const (N b))))
    by_cases hab : a = b
    · simp only [if_pos hab]
      refine ((h3.add (((hp.const_mul 4).const_sub 1).const_mul (-divVol / 3))).const_mul (v c)).congr_deriv ?_
      simp only [Pi.mul_apply, hpv, dg_eq]
      ring
    · simp only [if_neg hab, add_zero]
      refine (h3.const_mul (v c)).congr_deriv ?_
      simp only [Pi.mul_apply, hpv]
      ring
  have hval : (v c • ((p.rho * divGb * g l * 1) •
      (outer (normalDetai grains i) (normal Real.sqrt grains) + outer (normal Real.sqrt grains) (normalDetai grains i)) +
      (p.rho * divGb * dg l i * 1) • outer (normal Real.sqrt grains) (normal Real.sqrt grains) +
      diagonal (dg l i * divVol / 3 * 1)) : Fin d → Fin d → ℝ) a b =
      v c * (p.rho * divGb * (4 * (l.sum - l.getD i 0)) * ((2 * pairProducts l) * N a * ((2 * pairProducts l) * N b)) +
        (if a = b then dg l i * divVol / 3 else 0)) := by
    by_cases hab : a = b <;> simp [hn, outer, diagonal, normalDetai, hab, dg_eq]
  rw [hval]
  refine hfin.congr_of_eventuallyEq ?_
  filter_upwards [e1, e2] with t h0' h1'
  have hi2 : indicator (l.set i t) = 2 * pairProducts (l.set i t) := by rw [indicator_eq, if_neg (by linarith)]
  have hg2 : g (l.set i t) = 4 * pairProducts (l.set i t) := by
    rw [g_eq, max_eq_right (by linarith), min_eq_right (by linarith)]
  have hs := set_fst grains i t
  rw [hl] at hs
  simp only [flux, if_neg h, chi, normal, hs, set_snd, hi2, hg2, hN]
  by_cases hab : a = b <;> simp [outer, diagonal, hab]

/-- **C66** (numbering).  With two order parameters the strain rate does not depend on which of them comes first. -/
theorem C66_numbering_partial (p : Par ℝ) (c : ℝ) (x y : Grain ℝ d) (divGb divVol : ℝ) :
    flux Real.sqrt p c [x, y] divGb divVol = flux Real.sqrt p c [y, x] divGb divVol := by
  have hpp : pairProducts [x.1, y.1] = pairProducts [y.1, x.1] := by simp [pairProducts]; ring
  have hu : Mobility.unitVector Real.sqrt Mobility.tol1 (x.2 - y.2) =
      -Mobility.unitVector Real.sqrt Mobility.tol1 (y.2 - x.2) := by
    have hd : Mobility.dot (x.2 - y.2) (x.2 - y.2) = Mobility.dot (y.2 - x.2) (y.2 - x.2) := by
      have : x.2 - y.2 = -(y.2 - x.2) := by simp
      unfold Mobility.dot
      rw [this, neg_dotProduct_neg]
    funext j
    simp only [Mobility.unitVector, hd, Pi.neg_apply, Pi.sub_apply]
    ring
  have hnn : normal Real.sqrt [x, y] = -normal Real.sqrt [y, x] := by
    unfold normal
    simp only [List.map_cons, List.map_nil, indicator_eq, hpp, normalSum, List.foldl_cons, List.foldl_nil, zero_add, hu,
      smul_neg]
  unfold flux chi
  simp only [List.map_cons, List.map_nil, g_eq, hpp]
  have : outer (normal Real.sqrt [x, y]) (normal Real.sqrt [x, y]) =
      outer (normal Real.sqrt [y, x]) (normal Real.sqrt [y, x]) := by
    rw [hnn]; funext a b; simp [outer]
  rw [this]

/-- **C66** (numbering, violated).  With three order parameters it does: renumbering the same grains changes the
normal by a factor of three. -/
theorem C66_numbering_violated :
    let x : Grain ℝ 1 := (1, fun _ => 0)
    let y : Grain ℝ 1 := (1, fun _ => 1)
    let z : Grain ℝ 1 := (1, fun _ => 2)
    flux Real.sqrt ⟨1, 0, 0⟩ 1 [x, y, z] 1 0 0 0 = 324 ∧ flux Real.sqrt ⟨1, 0, 0⟩ 1 [y, x, z] 1 0 0 0 = 36 := by
  have s4 : Real.sqrt 4 = 2 := by
    rw [show (4 : ℝ) = 2 ^ 2 by norm_num]; exact Real.sqrt_sq (by norm_num)
  have hp : pairProducts [1, 1, 1] = 3 := by norm_num [pairProducts]
  have hu : ∀ w : Fin 1 → ℝ, w 0 * w 0 = 1 ∨ w 0 * w 0 = 4 →
      Mobility.unitVector Real.sqrt Mobility.tol1 w = fun _ => w 0 / Real.sqrt (w 0 * w 0) := by
    intro w hw
    funext j
    have hj : j = 0 := Subsingleton.elim _ _
    subst hj
    simp only [Mobility.unitVector, Mobility.dot, dotProduct, Fin.sum_univ_one, Mobility.tol1]
    rcases hw with h | h
    · rw [h, Real.sqrt_one, if_neg (by norm_num), if_pos (by norm_num), mul_one]
    · rw [h, s4, if_neg (by norm_num), if_pos (by norm_num), mul_one]
  intro x y z
  have hxy : Mobility.unitVector Real.sqrt Mobility.tol1 (x.2 - y.2) = fun _ => -1 := by
    rw [hu _ (by left; norm_num [x, y])]; norm_num [x, y]
  have hyx : Mobility.unitVector Real.sqrt Mobility.tol1 (y.2 - x.2) = fun _ => 1 := by
    rw [hu _ (by left; norm_num [x, y])]; norm_num [x, y]
  have hyz : Mobility.unitVector Real.sqrt Mobility.tol1 (y.2 - z.2) = fun _ => -1 := by
    rw [hu _ (by left; norm_num [z, y])]; norm_num [z, y]
  have hxz : Mobility.unitVector Real.sqrt Mobility.tol1 (x.2 - z.2) = fun _ => -1 := by
    rw [hu _ (by right; norm_num [x, z])]; norm_num [x, z, s4]
  have hv1 : v (1 : ℝ) = 1 := by norm_num [v]
  have hg1 : g [1, 1, 1] = (1 : ℝ) := by rw [g_eq, hp]; norm_num
  have hi1 : indicator [1, 1, 1] = (6 : ℝ) := by rw [indicator_eq, hp]; norm_num
  constructor
  · simp only [flux, chi, normal, List.map_cons, List.map_nil, normalSum, List.foldl_cons, List.foldl_nil, hxy, hyz, hxz]
    simp only [x, y, z, hg1, hi1, hv1]
    norm_num [outer, diagonal]
  · simp only [flux, chi, normal, List.map_cons, List.map_nil, normalSum, List.foldl_cons, List.foldl_nil, hyx, hyz, hxz]
    simp only [x, y, z, hg1, hi1, hv1]
    norm_num [outer, diagonal]

namespace Ex66

/-- Two grains in the range of the exact derivative and in that of the defect. -/
example : 0 < pairProducts [1 / 10, 1 / 10] ∧ 2 * pairProducts [1 / 10, 1 / 10] < 1 / 10 ∧
    1 / 10 < 2 * pairProducts [1 / 2, 1 / 4] ∧ 4 * pairProducts [1 / 2, 1 / 4] < 1 := by
  norm_num [pairProducts]

/-- The blending factor and its derivative for three grains (rational numbers, exact evaluation). -/
example : g [(1 / 4 : ℚ), 1 / 4, 1 / 8] = 1 / 2 ∧ dg [(1 / 4 : ℚ), 1 / 4, 1 / 8] 2 = 2 ∧
    indicator [(1 / 4 : ℚ), 1 / 4, 1 / 8] = 1 / 4 := by decide +kernel

end Ex66

/-! ## C67 -/

/-- Specification: the condition holds for all cells, order parameters with a velocity and quadrature points of a
batch. -/
def courant {K : Type} [Field K] [LinearOrder K] (dt : K) (diam : List K) (b : Batch K) : Prop :=
  ∀ s, some s ∈ b.grains → ∀ q ∈ s, ∀ (j : Nat) (w : Option K) (dj : K), q[j]? = some w → diam[j]? = some dj →
    ∃ x, w = some x ∧ x * dt < dj

private theorem lanes_iff {K : Type} [Field K] [LinearOrder K] (dt : K) (diam : List K) (q : List (Option K)) :
    lanesOk dt diam q = true ↔
      ∀ (j : Nat) (w : Option K) (dj : K), q[j]? = some w → diam[j]? = some dj → ∃ x, w = some x ∧ x * dt < dj := by
  unfold lanesOk
  rw [List.all_eq_true]
  constructor
  · intro h j w dj hq hd
    have hz : (q.zip diam)[j]? = some (w, dj) := by
      rw [List.getElem?_zip_eq_some]; exact ⟨hq, hd⟩
    have := h _ (List.mem_of_getElem? hz)
    cases w with
    | none => simp at this
    | some x => exact ⟨x, rfl, by simpa using this⟩
  · rintro h ⟨w, dj⟩ hm
    obtain ⟨j, hj⟩ := List.getElem?_of_mem hm
    rw [List.getElem?_zip_eq_some] at hj
    obtain ⟨x, rfl, hx⟩ := h j w dj hj.1 hj.2
    simpa using hx

private theorem points_iff {K : Type} [Field K] [LinearOrder K] (dt : K) (diam : List K) (s : Speeds K) :
    pointsOk dt diam s = true ↔ ∀ q ∈ s, lanesOk dt diam q = true := by
  induction s with
  | nil => simp [pointsOk]
  | cons q r ih => by_cases h : lanesOk dt diam q <;> simp [pointsOk, h, ih]

private theorem grains_iff {K : Type} [Field K] [LinearOrder K] (dt : K) (diam : List K) (l : List (Option (Speeds K))) :
    grainsOk dt diam l = true ↔ ∀ s, some s ∈ l → pointsOk dt diam s = true := by
  induction l with
  | nil => simp [grainsOk]
  | cons o r ih =>
    cases o with
    | none => simp [grainsOk, ih]
    | some s => by_cases h : pointsOk dt diam s <;> simp [grainsOk, h, ih]

private theorem batches_iff {K : Type} [Field K] [LinearOrder K] (dt : K) (l : List (List K × Batch K)) :
    batchesOk dt l = true ↔ ∀ x ∈ l, courant dt x.1 x.2 := by
  induction l with
  | nil => simp [batchesOk]
  | cons x r ih =>
    rcases x with ⟨diam, b⟩
    have hb : grainsOk dt diam b.grains = true ↔ courant dt diam b := by
      rw [grains_iff]
      unfold courant
      refine forall_congr' fun s => imp_congr_right fun _ => ?_
      rw [points_iff]
      exact forall_congr' fun q => imp_congr_right fun _ => lanes_iff dt diam q
    by_cases h : grainsOk dt diam b.grains = true
    · simp only [batchesOk, if_pos h, ih, List.forall_mem_cons]
      exact ⟨fun h' => ⟨hb.1 h, h'⟩, fun h' => h'.2⟩
    · simp only [batchesOk, if_neg h, List.forall_mem_cons]
      exact ⟨fun h' => absurd h' (by simp), fun h' => absurd (hb.2 h'.1) h⟩

/-- **C67**.  If the diameters have been computed for the current mesh on all ranks, the check passes exactly if the
distance travelled in the time step is smaller than the diameter for every cell of every rank, every order parameter
with a velocity and every quadrature point; a velocity that is not a number fails. -/
theorem C67_check {K : Type} [Field K] [LinearOrder K] (dt : K) (ranks : List (List (List K) × List (Batch K)))
    (h : ∀ r ∈ ranks, r.1.length = r.2.length) :
    ∃ b, checkCourant dt ranks = .ok b ∧ (b = true ↔ ∀ r ∈ ranks, ∀ x ∈ r.1.zip r.2, courant dt x.1 x.2) := by
  unfold checkCourant
  have hm := Res.mapM_eq ranks (fun r => do
    Res.assertThrow (r.1.length == r.2.length)
    pure (if batchesOk dt (r.1.zip r.2) then 1 else 0))
    (fun r => if batchesOk dt (r.1.zip r.2) then 1 else 0) (by
      intro r hr
      simp [Res.assertThrow, h r hr])
  rw [hm]
  refine ⟨_, rfl, ?_⟩
  rw [decide_eq_true_iff]
  have key : ∀ (l : List (List (List K) × List (Batch K))) (a : Nat),
      (l.map fun r => if batchesOk dt (r.1.zip r.2) then 1 else 0).foldl min a ≠ 0 ↔
        a ≠ 0 ∧ ∀ r ∈ l, batchesOk dt (r.1.zip r.2) = true := by
    intro l
    induction l with
    | nil => simp
    | cons r l ih =>
      intro a
      simp only [List.map_cons, List.foldl_cons, ih, List.forall_mem_cons]
      by_cases hr : batchesOk dt (r.1.zip r.2) = true
      · simp only [hr, if_true]
        constructor
        · rintro ⟨h1, h2⟩; exact ⟨by omega, trivial, h2⟩
        · rintro ⟨h1, -, h2⟩; exact ⟨by omega, h2⟩
      · simp [hr]
  rw [key]
  simp only [ne_eq, one_ne_zero, not_false_eq_true, true_and]
  exact forall_congr' fun r => imp_congr_right fun _ => batches_iff dt _

/-- **C67** (stale data).  If the mesh of some rank has changed since the diameters were computed, the check is
refused. -/
theorem C67_stale {K : Type} [Field K] [LinearOrder K] (dt : K) (ranks : List (List (List K) × List (Batch K)))
    (h : ∃ r ∈ ranks, r.1.length ≠ r.2.length) : checkCourant dt ranks = .exc .assertThrow := by
  unfold checkCourant
  obtain ⟨r, hr, hne⟩ := h
  have : (ranks.mapM fun r => do
      Res.assertThrow (r.1.length == r.2.length)
      pure (if batchesOk dt (r.1.zip r.2) then 1 else 0)) = (.exc .assertThrow : Res (List Nat)) := by
    induction ranks with
    | nil => simp at hr
    | cons x l ih =>
      rw [List.mapM_cons]
      by_cases hx : x.1.length = x.2.length
      · have hr' : r ∈ l := by
          rcases List.mem_cons.1 hr with rfl | h
          · exact absurd hx hne
          · exact h
        simp only [Res.assertThrow, hx, BEq.rfl, if_true, Res.ok_bind]
        rw [pure_bind]
        have := ih hr'
        simp only [Res.assertThrow] at this
        rw [this]
        rfl
      · simp only [Res.assertThrow, beq_iff_eq, hx, if_false]
        rfl
  rw [this]
  rfl

/-- **C67** (unused lanes).  With the diameters of `precompute_cell_diameters`, only the cells of the batch matter as
long as no speed times time step reaches the largest number. -/
theorem C67_precompute {K : Type} [Field K] [LinearOrder K] (dt maxK : K) (lanes : Nat) (b : Batch K)
    (hl : b.diameters.length ≤ lanes)
    (hmax : ∀ s, some s ∈ b.grains → ∀ q ∈ s, ∀ j, b.diameters.length ≤ j → ∀ w, q[j]? = some w →
      ∃ x, w = some x ∧ x * dt < maxK) :
    (precompute maxK lanes b).length = lanes ∧ (courant dt (precompute maxK lanes b) b ↔ courant dt b.diameters b) := by
  constructor
  · simp [precompute]; omega
  · constructor
    · unfold courant
      intro h s hs q hq j w dj hw hd
      refine h s hs q hq j w dj hw ?_
      obtain ⟨hj, _⟩ := List.getElem?_eq_some_iff.1 hd
      rw [precompute, List.getElem?_append_left hj, hd]
    · unfold courant
      intro h s hs q hq j w dj hw hd
      by_cases hj : j < b.diameters.length
      · rw [precompute, List.getElem?_append_left hj] at hd
        exact h s hs q hq j w dj hw hd
      · obtain ⟨x, hx, hlt⟩ := hmax s hs q hq j (by omega) w hw
        refine ⟨x, hx, ?_⟩
        rw [precompute, List.getElem?_append_right (by omega), List.getElem?_replicate] at hd
        split at hd
        · cases hd; exact hlt
        · simp at hd

namespace Ex67

/-- Two ranks; one lane of the second rank is too fast. -/
example : checkCourant (1 : ℚ) [([[2, 2]], [⟨[2, 2], [none, some [[some 1, some 1]]]⟩]),
    ([[2, 100]], [⟨[2], [some [[some 1, some 0], [some 3, some 0]]]⟩])] = .ok false := by decide +kernel

example : checkCourant (1 / 2 : ℚ) [([[2, 2]], [⟨[2, 2], [none, some [[some 1, some 1]]]⟩]),
    ([[2, 100]], [⟨[2], [some [[some 1, some 0], [some 3, some 0]]]⟩])] = .ok true := by decide +kernel

/-- Not a number. -/
example : checkCourant (1 / 2 : ℚ) [([[2]], [⟨[2], [some [[none]]]⟩])] = .ok false := by decide +kernel

end Ex67

end Verif.Props
