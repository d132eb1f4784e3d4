/-
C39: sign and linearisation of the atomic mobility.
-/
import Verif.Model.Mobility
import Mathlib.Analysis.Calculus.Deriv.Pow
import Mathlib.Analysis.Calculus.Deriv.Mul
import Mathlib.Analysis.Calculus.Deriv.Add
import Mathlib.Analysis.Calculus.Deriv.Comp
import Mathlib.Analysis.Real.Sqrt
import Mathlib.Algebra.Order.BigOperators.Ring.Finset
import Mathlib.Tactic.Ring
import Mathlib.Tactic.Linarith
import Mathlib.Tactic.Positivity
import Mathlib.Algebra.Field.Rat
import Mathlib.Algebra.Order.Ring.Rat

namespace Verif.Props

open Verif.Mobility

/-! ## Scalar mobility -/

private theorem inner_fold (e a : ℝ) (l : List ℝ) :
    l.foldl (fun a f => a + e * f) a = a + e * l.sum := by
  induction l generalizing a with
  | nil => simp
  | cons x l ih => simp [ih]; ring

private theorem pairLoop_eq (a : ℝ) (pre l : List ℝ) :
    2 * pairLoop a pre l = 2 * a + ((pre.sum + l.sum) ^ 2 - pre.sum ^ 2 - (l.map (· ^ 2)).sum) := by
  induction l generalizing a pre with
  | nil => simp [pairLoop]
  | cons x l ih =>
    rw [pairLoop, ih, inner_fold]
    simp
    ring

/-- Twice the sum over the pairs is the square of the sum minus the sum of squares. -/
private theorem pair_eq (l : List ℝ) : 2 * pairLoop 0 [] l = l.sum ^ 2 - (l.map (· ^ 2)).sum := by
  rw [pairLoop_eq]; simp

private theorem pairLoop_nonneg (a : ℝ) (ha : 0 ≤ a) (pre l : List ℝ) (hp : ∀ x ∈ pre, 0 ≤ x)
    (hl : ∀ x ∈ l, 0 ≤ x) : 0 ≤ pairLoop a pre l := by
  induction l generalizing a pre with
  | nil => exact ha
  | cons x l ih =>
    have hx := hl x (List.mem_cons_self ..)
    rw [pairLoop]
    refine ih _ ?_ _ ?_ fun y hy => hl y (List.mem_cons_of_mem _ hy)
    · rw [inner_fold]
      have := mul_nonneg hx (List.sum_nonneg hp)
      linarith
    · intro y hy
      rcases List.mem_append.1 hy with h | h
      · exact hp y h
      · simp only [List.mem_singleton] at h; rw [h]; exact hx

private theorem phi_range (c : ℝ) : 0 ≤ phi c ∧ phi c ≤ 1 := by
  simp [phi]

/-- **C39** (sign).  The mobility is non-negative for every concentration. -/
theorem C39_nonneg (m : Coeff ℝ) (c : ℝ) (etas : List ℝ) (h1 : 0 ≤ m.Mvol) (h2 : 0 ≤ m.Mvap)
    (h3 : 0 ≤ m.Msurf) (h4 : 0 ≤ m.Mgb) (he : ∀ x ∈ etas, 0 ≤ x) : 0 ≤ scalarM m c etas := by
  have hp := phi_range c
  have hl := pairLoop_nonneg 0 le_rfl [] etas (by simp) he
  have t1 := mul_nonneg h1 hp.1
  have t2 := mul_nonneg h2 (sub_nonneg.2 hp.2)
  have t3 : 0 ≤ m.Msurf * 4 * c * c * (1 - c) * (1 - c) := by
    have : m.Msurf * 4 * c * c * (1 - c) * (1 - c) = m.Msurf * 4 * (c * (1 - c)) ^ 2 := by ring
    rw [this]; positivity
  have t4 : 0 ≤ (2 * m.Mgb) * pairLoop 0 [] etas := by positivity
  unfold scalarM
  linarith

private noncomputable def poly (c : ℝ) : ℝ := c * c * c * (10 - 15 * c + 6 * c * c)

private theorem poly_deriv (c : ℝ) : HasDerivAt poly (30 * c ^ 2 * (1 - c) ^ 2) c := by
  have e : poly = fun t => 10 * t ^ 3 + -15 * t ^ 4 + 6 * t ^ 5 := by funext t; unfold poly; ring
  rw [e]
  have h := (((hasDerivAt_pow 3 c).const_mul 10).add ((hasDerivAt_pow 4 c).const_mul (-15))).add
    ((hasDerivAt_pow 5 c).const_mul 6)
  refine h.congr_deriv ?_
  norm_num
  ring

private theorem phi_eq (c : ℝ) : phi c = min 1 (max 0 (poly c)) := rfl

private theorem clamp_lip (a b : ℝ) : |min 1 (max 0 a) - min 1 (max 0 b)| ≤ |a - b| := by
  have h1 := abs_min_sub_min_le_max (1 : ℝ) (max 0 a) 1 (max 0 b)
  have h2 := abs_max_sub_max_le_max (0 : ℝ) a 0 b
  simp only [sub_self, abs_zero] at h1 h2
  rw [max_eq_right (abs_nonneg (max 0 a - max 0 b))] at h1
  rw [max_eq_right (abs_nonneg (a - b))] at h2
  exact h1.trans h2

/-- Cutting to [0,1] keeps the derivative where the function is inside the interval or stationary. -/
private theorem clamp_stationary {f : ℝ → ℝ} {x : ℝ} (h : HasDerivAt f 0 x) :
    HasDerivAt (fun t => min 1 (max 0 (f t))) 0 x := by
  rw [hasDerivAt_iff_isLittleO] at h ⊢
  simp only [smul_zero, sub_zero] at h ⊢
  refine Asymptotics.IsBigO.trans_isLittleO ?_ h
  exact Asymptotics.IsBigO.of_bound 1 (Filter.Eventually.of_forall fun t => by
    simp only [Real.norm_eq_abs, one_mul]
    exact clamp_lip _ _)

private theorem clamp_inside {f : ℝ → ℝ} {x d : ℝ} (h : HasDerivAt f d x) (h0 : 0 < f x) (h1 : f x < 1) :
    HasDerivAt (fun t => min 1 (max 0 (f t))) d x := by
  refine h.congr_of_eventuallyEq ?_
  have e0 := h.continuousAt.eventually (lt_mem_nhds h0)
  have e1 := h.continuousAt.eventually (gt_mem_nhds h1)
  filter_upwards [e0, e1] with t h0 h1
  rw [max_eq_right h0.le, min_eq_right h1.le]

/-- The derivative of the cut interpolation function, including the end points. -/
private theorem phi_deriv {c : ℝ} (h0 : 0 ≤ c) (h1 : c ≤ 1) : HasDerivAt phi (30 * c ^ 2 * (1 - c) ^ 2) c := by
  have e : (phi : ℝ → ℝ) = fun t => min 1 (max 0 (poly t)) := funext phi_eq
  have hd := poly_deriv c
  rw [e]
  rcases eq_or_lt_of_le h0 with rfl | h0
  · simp only [ne_eq, OfNat.ofNat_ne_zero, not_false_eq_true, zero_pow, mul_zero, zero_mul] at hd ⊢
    exact clamp_stationary hd
  rcases eq_or_lt_of_le h1 with rfl | h1
  · simp only [sub_self, ne_eq, OfNat.ofNat_ne_zero, not_false_eq_true, zero_pow, mul_zero] at hd ⊢
    exact clamp_stationary hd
  · refine clamp_inside hd ?_ ?_
    · have : 0 < 10 - 15 * c + 6 * c * c := by nlinarith [sq_nonneg (c - 1)]
      unfold poly
      positivity
    · have e : poly c = 1 - (1 - c) ^ 3 * (1 + 3 * c + 6 * c ^ 2) := by unfold poly; ring
      have p : 0 < 1 - c := by linarith
      rw [e]
      have : 0 < (1 - c) ^ 3 * (1 + 3 * c + 6 * c ^ 2) := by positivity
      linarith

private theorem quad {f : ℝ → ℝ} {d : ℝ} (a0 a1 a2 : ℝ) (x : ℝ) (hf : ∀ t, f t = a0 + a1 * t + a2 * t ^ 2)
    (hd : d = a1 + 2 * a2 * x) : HasDerivAt f d x := by
  have e : f = fun t => a0 + a1 * t + a2 * t ^ 2 := funext hf
  rw [e]
  have h := (((hasDerivAt_id x).const_mul a1).const_add a0).add ((hasDerivAt_pow 2 x).const_mul a2)
  refine h.congr_deriv ?_
  rw [hd]; norm_num; ring

private theorem factorLoop_eq (s a : ℝ) (l : List (ℝ × ℝ)) :
    factorLoop s a l = a + (s * (l.map (·.2)).sum - (l.map fun p => p.1 * p.2).sum) := by
  induction l generalizing a with
  | nil => simp [factorLoop]
  | cons p l ih =>
    rcases p with ⟨e, d⟩
    rw [factorLoop, ih]
    simp
    ring

theorem foldl_fst (a : ℝ) (l : List (ℝ × ℝ)) : l.foldl (fun a e => a + e.1) a = a + (l.map (·.1)).sum := by
  induction l generalizing a with
  | nil => simp
  | cons p l ih => simp [ih]; ring

/-- The order parameters moved by `s` along their increments. -/
noncomputable def shift (etas : List (ℝ × ℝ)) (s : ℝ) : List ℝ := etas.map fun p => p.1 + s * p.2

private theorem shift_sum (l : List (ℝ × ℝ)) (s : ℝ) :
    (shift l s).sum = (l.map (·.1)).sum + s * (l.map (·.2)).sum := by
  induction l with
  | nil => simp [shift]
  | cons p l ih =>
    simp only [shift, List.map_cons, List.sum_cons] at ih ⊢
    rw [ih]; ring

private theorem shift_sq (l : List (ℝ × ℝ)) (s : ℝ) :
    ((shift l s).map (· ^ 2)).sum = (l.map fun p => p.1 ^ 2).sum + 2 * s * (l.map fun p => p.1 * p.2).sum +
      s ^ 2 * (l.map fun p => p.2 ^ 2).sum := by
  induction l with
  | nil => simp [shift]
  | cons p l ih =>
    simp only [shift, List.map_cons, List.sum_cons] at ih ⊢
    rw [ih]; ring

theorem shift_zero (l : List (ℝ × ℝ)) : shift l 0 = l.map (·.1) := by
  simp [shift]

/-- The derivative of the sum over pairs. -/
private theorem pair_deriv (l : List (ℝ × ℝ)) :
    HasDerivAt (fun s => pairLoop 0 [] (shift l s)) (factorLoop ((l.map (·.1)).sum) 0 l) 0 := by
  refine quad (((l.map (·.1)).sum ^ 2 - (l.map fun p => p.1 ^ 2).sum) / 2)
    ((l.map (·.1)).sum * (l.map (·.2)).sum - (l.map fun p => p.1 * p.2).sum)
    (((l.map (·.2)).sum ^ 2 - (l.map fun p => p.2 ^ 2).sum) / 2) 0 (fun s => ?_) ?_
  · have h := pair_eq (shift l s)
    rw [shift_sum, shift_sq] at h
    linarith
  · rw [factorLoop_eq]; ring

/-- The derivative of the mobility along increments of concentration and order parameters. -/
private theorem scalarM_deriv (m : Coeff ℝ) {c : ℝ} (h0 : 0 ≤ c) (h1 : c ≤ 1) (l : List (ℝ × ℝ)) (dc : ℝ) :
    HasDerivAt (fun s => scalarM m (c + s * dc) (shift l s))
      (dMdc m c * dc + (2 * m.Mgb) * factorLoop ((l.map (·.1)).sum) 0 l) 0 := by
  have hc : HasDerivAt (fun s : ℝ => c + s * dc) dc 0 := by
    simpa using ((hasDerivAt_id (0 : ℝ)).mul_const dc).const_add c
  have hphi : HasDerivAt (fun s => phi (c + s * dc)) (30 * c ^ 2 * (1 - c) ^ 2 * dc) 0 := by
    have := phi_deriv h0 h1
    exact HasDerivAt.comp (h₂ := phi) (h := fun s : ℝ => c + s * dc) (0 : ℝ) (by simpa using this) hc
  have hsurf : HasDerivAt (fun s : ℝ => m.Msurf * 4 * (c + s * dc) * (c + s * dc) * (1 - (c + s * dc)) *
      (1 - (c + s * dc))) (m.Msurf * 8 * c * (1 - 3 * c + 2 * c * c) * dc) 0 := by
    have h := ((((hc.const_mul (m.Msurf * 4)).mul hc).mul (hc.const_sub 1)).mul (hc.const_sub 1))
    refine h.congr_deriv ?_
    simp
    ring
  have h := (((hphi.const_mul m.Mvol).add ((hphi.const_sub 1).const_mul m.Mvap)).add hsurf).add
    ((pair_deriv l).const_mul (2 * m.Mgb))
  refine h.congr_deriv ?_
  unfold dMdc
  ring

/-- **C39** (linearisation, scalar mobility).  Wherever the concentration lies in [0,1], including the end
points, `apply_M_derivative` is the derivative of `apply_M` along the increments of concentration, order
parameters and gradient of the chemical potential. -/
theorem C39_scalar {V : Type} [NormedAddCommGroup V] [NormedSpace ℝ V] (m : Coeff ℝ) {c : ℝ} (h0 : 0 ≤ c)
    (h1 : c ≤ 1) (etas : List (ℝ × ℝ)) (dc : ℝ) (mu dmu : V) :
    HasDerivAt (fun s : ℝ => applyM m (c + s * dc) (shift etas s) (mu + s • dmu))
      (applyMDerivative m c etas mu dc dmu) 0 := by
  have hM := scalarM_deriv m h0 h1 etas dc
  have hmu : HasDerivAt (fun s : ℝ => mu + s • dmu) dmu 0 := by
    simpa using ((hasDerivAt_id (0 : ℝ)).smul_const dmu).const_add mu
  have h := hM.smul hmu
  refine h.congr_deriv ?_
  simp only [applyMDerivative, foldl_fst, zero_add, zero_mul, add_zero, zero_smul, shift_zero]

private theorem detai_fold (i k : Nat) (a : ℝ) (l : List ℝ) :
    (l.mapIdx fun j e => (j + k, e)).foldl (fun a je => if je.1 ≠ i then a + je.2 else a) a =
      a + (l.sum - (if k ≤ i then (l[i - k]?).getD 0 else 0)) := by
  induction l generalizing a k with
  | nil => simp
  | cons x l ih =>
    have e : (l.mapIdx fun j e => (j + 1 + k, e)) = l.mapIdx fun j e => (j + (k + 1), e) := by
      congr 1; funext j e; rw [Nat.add_assoc, Nat.add_comm 1 k]
    rw [List.mapIdx_cons, List.foldl_cons, e, ih]
    by_cases hk : k = i
    · subst hk
      simp
    · have hk' : 0 + k ≠ i := by simpa using hk
      simp only [ne_eq, hk', not_false_eq_true, if_true, List.sum_cons]
      by_cases hle : k ≤ i
      · have h2 : k + 1 ≤ i := by omega
        have h3 : i - k = (i - (k + 1)) + 1 := by omega
        rw [if_pos hle, if_pos h2, h3, List.getElem?_cons_succ]
        ring
      · have h2 : ¬ k + 1 ≤ i := by omega
        rw [if_neg hle, if_neg h2]
        ring

/-- **C39** (partial derivatives used for output): `dM_detai` is the derivative with respect to one order
parameter. -/
theorem C39_detai (m : Coeff ℝ) (c : ℝ) (etas : List ℝ) (i : Nat) (hi : i < etas.length) :
    HasDerivAt (fun t => scalarM m c (etas.set i t)) (dMdetai m etas i) etas[i] := by
  have key : ∀ g : ℝ → ℝ, ∀ t, ((etas.set i t).map g).sum = (etas.map g).sum - g etas[i] + g t := by
    intro g t
    induction etas generalizing i with
    | nil => simp at hi
    | cons x l ih =>
      cases i with
      | zero => simp; ring
      | succ i =>
        simp only [List.length_cons, Nat.add_lt_add_iff_right] at hi
        simp only [List.set_cons_succ, List.map_cons, List.sum_cons, List.getElem_cons_succ, ih i hi]
        ring
  have hs : ∀ t, (etas.set i t).sum = etas.sum - etas[i] + t := fun t => by simpa using key id t
  have hq := fun t => key (· ^ 2) t
  have hd : dMdetai m etas i = 2 * m.Mgb * (etas.sum - etas[i]) := by
    have := detai_fold i 0 0 etas
    simp only [Nat.add_zero, zero_add, Nat.zero_le, if_true, Nat.sub_zero, List.getElem?_eq_getElem hi,
      Option.getD_some] at this
    rw [dMdetai, this]
  generalize hx : etas[i] = x at *
  refine quad (m.Mvol * phi c + m.Mvap * (1 - phi c) + m.Msurf * 4 * c * c * (1 - c) * (1 - c) +
      m.Mgb * ((etas.sum - x) ^ 2 - ((etas.map (· ^ 2)).sum - x ^ 2))) (2 * m.Mgb * (etas.sum - x)) 0 x
    (fun t => ?_) ?_
  · have h := pair_eq (etas.set i t)
    rw [hs, hq] at h
    have e : scalarM m c (etas.set i t) = m.Mvol * phi c + m.Mvap * (1 - phi c) +
        m.Msurf * 4 * c * c * (1 - c) * (1 - c) + m.Mgb * (2 * pairLoop 0 [] (etas.set i t)) := by
      unfold scalarM; ring
    rw [e, h]
    ring
  · rw [hd]; ring

namespace Ex39

/-- Volume diffusion only. -/
def vol : Coeff ℝ := { Mvol := 1, Mvap := 0, Msurf := 0, Mgb := 0, L := 0 }

/-- Outside of [0,1] the linearisation is wrong: the mobility is constant, the linearisation is not. -/
theorem C39_outside : ¬ HasDerivAt (fun s : ℝ => applyM vol (2 + s * 1) (shift [] s) ((1 : ℝ) + s • 0))
    (applyMDerivative vol 2 [] (1 : ℝ) 1 0) 0 := by
  intro h
  have hc : (fun s : ℝ => applyM vol (2 + s * 1) (shift [] s) ((1 : ℝ) + s • 0)) =ᶠ[nhds 0] fun _ => 1 := by
    have : ∀ᶠ s : ℝ in nhds 0, s ∈ Set.Ioo (-1 : ℝ) 1 := Ioo_mem_nhds (by norm_num) (by norm_num)
    filter_upwards [this] with s hs
    have e : poly (2 + s) = 1 + (1 + s) ^ 3 * (1 + 3 * (2 + s) + 6 * (2 + s) ^ 2) := by unfold poly; ring
    have p : 0 < 1 + s := by linarith [hs.1]
    have q : 0 < 2 + s := by linarith
    have hp : 1 ≤ poly (2 + s) := by
      rw [e]
      have : 0 < (1 + s) ^ 3 * (1 + 3 * (2 + s) + 6 * (2 + s) ^ 2) := by positivity
      linarith
    simp only [applyM, scalarM, vol, mul_one, phi_eq]
    rw [max_eq_right (by linarith), min_eq_left hp]
    simp
  have h2 := (hasDerivAt_const (0 : ℝ) (1 : ℝ)).congr_of_eventuallyEq hc
  have := h.unique h2
  simp [applyMDerivative, factorLoop, dMdc, vol] at this
  norm_num at this

/-- A case with all contributions. -/
example : scalarM ({ Mvol := 1, Mvap := 2, Msurf := 3, Mgb := 5, L := 0 } : Coeff ℚ) (1/2) [1/2, 1/2, 1/4] =
    1/2 + 1 + 3/4 + 5 := by
  norm_num [scalarM, phi, pairLoop]

end Ex39

/-! ## Tensorial mobility -/

private theorem dot_def {d : Nat} (a b : Fin d → ℝ) : dot a b = ∑ i, a i * b i := rfl

private theorem dot_self {d : Nat} (a : Fin d → ℝ) : 0 ≤ dot a a := by
  rw [dot_def]; exact Finset.sum_nonneg fun i _ => mul_self_nonneg _

private theorem dot_cs {d : Nat} (a b : Fin d → ℝ) : dot a b ^ 2 ≤ dot a a * dot b b := by
  have := Finset.sum_mul_sq_le_sq_mul_sq Finset.univ a b
  simp only [dot_def, ← sq]
  exact this

private theorem dot_add {d : Nat} (a b c : Fin d → ℝ) : dot a (b + c) = dot a b + dot a c := by
  simp [dot, dotProduct_add]
private theorem dot_sub {d : Nat} (a b c : Fin d → ℝ) : dot a (b - c) = dot a b - dot a c := by
  simp [dot, dotProduct_sub]
private theorem dot_smul {d : Nat} (a b : Fin d → ℝ) (r : ℝ) : dot a (r • b) = r * dot a b := by
  simp [dot, dotProduct_smul]
private theorem dot_comm {d : Nat} (a b : Fin d → ℝ) : dot a b = dot b a := dotProduct_comm _ _

private theorem unit_le {d : Nat} (v : Fin d → ℝ) : dot (unitVector Real.sqrt tol1 v) (unitVector Real.sqrt tol1 v) ≤ 1 := by
  have hv := dot_self v
  have ht : (0 : ℝ) < tol1 := by unfold tol1; positivity
  unfold unitVector
  by_cases h : tol1 < Real.sqrt (dot v v)
  · have h' : ¬ Real.sqrt (dot v v) < tol1 := by linarith
    have hp : 0 < Real.sqrt (dot v v) := by linarith
    have e : (fun i => v i / Real.sqrt (dot v v) * 1) = (1 / Real.sqrt (dot v v)) • v := by
      funext i; simp [div_eq_inv_mul]
    simp only [if_pos h, if_neg h', e]
    rw [dot_smul, dot_comm (_ • v) v, dot_smul, ← mul_assoc]
    have : (1 / Real.sqrt (dot v v)) * (1 / Real.sqrt (dot v v)) = 1 / dot v v := by
      rw [div_mul_div_comm, Real.mul_self_sqrt hv, one_mul]
    rw [this]
    exact le_of_eq (one_div_mul_cancel (Real.sqrt_ne_zero'.1 hp.ne').ne')
  · simp only [if_neg h, mul_zero]
    simp [dot_def]

private theorem filter_bound {d : Nat} (v mu : Fin d → ℝ) : 0 ≤ dot mu mu - unitFilter2 tol2 v * dot v mu * dot mu v := by
  have ht : (0 : ℝ) < tol2 := by unfold tol2; positivity
  have hm := dot_self mu
  unfold unitFilter2
  by_cases h : tol2 < dot v v
  · have h' : ¬ dot v v < tol2 := by linarith
    have hp : 0 < dot v v := by linarith
    simp only [if_pos h, if_neg h']
    have := dot_cs v mu
    rw [dot_comm mu v]
    have e : 1 / dot v v * dot v mu * dot v mu = dot v mu ^ 2 / dot v v := by ring
    rw [e, sub_nonneg, div_le_iff₀ hp]
    linarith
  · simp [if_neg h, hm]

private theorem gb_nonneg {d : Nat} (mu acc : Fin d → ℝ) (ha : 0 ≤ dot mu acc) (pre l : List (ℝ × (Fin d → ℝ)))
    (hp : ∀ g ∈ pre, 0 ≤ g.1) (hl : ∀ g ∈ l, 0 ≤ g.1) : 0 ≤ dot mu (gbLoop mu acc pre l) := by
  induction l generalizing acc pre with
  | nil => exact ha
  | cons g l ih =>
    have hg := hl g (List.mem_cons_self ..)
    rw [gbLoop]
    refine ih _ ?_ _ ?_ fun y hy => hl y (List.mem_cons_of_mem _ hy)
    · clear ih
      induction pre generalizing acc with
      | nil => exact ha
      | cons f pre ih =>
        rw [List.foldl_cons]
        refine ih _ ?_ fun y hy => hp y (List.mem_cons_of_mem _ hy)
        have hf := hp f (List.mem_cons_self ..)
        rw [dot_add, dot_smul, dot_sub, dot_smul]
        have := mul_nonneg (mul_nonneg hg hf) (filter_bound (g.2 - f.2) mu)
        linarith
    · intro y hy
      rcases List.mem_append.1 hy with h | h
      · exact hp y h
      · simp only [List.mem_singleton] at h; rw [h]; exact hg

/-- **C39** (sign, tensorial mobility).  The tensorial mobility is positive semi-definite. -/
theorem C39_tensorial_nonneg {d : Nat} (m : Coeff ℝ) (c : ℝ) (gradC : Fin d → ℝ)
    (grains : List (ℝ × (Fin d → ℝ))) (mu : Fin d → ℝ) (h1 : 0 ≤ m.Mvol) (h2 : 0 ≤ m.Mvap)
    (h3 : 0 ≤ m.Msurf) (h4 : 0 ≤ m.Mgb) (he : ∀ g ∈ grains, 0 ≤ g.1) :
    0 ≤ dot mu (tensorialM Real.sqrt m c gradC grains mu) := by
  have hp := phi_range c
  have t1 := mul_nonneg h1 hp.1
  have t2 := mul_nonneg h2 (sub_nonneg.2 hp.2)
  have hm := dot_self mu
  have hf : 0 ≤ m.Msurf * 4 * (c * c) * ((1 - c) * (1 - c)) :=
    mul_nonneg (mul_nonneg (by positivity) (mul_self_nonneg _)) (mul_self_nonneg _)
  have hn : dot (unitVector Real.sqrt tol1 gradC) mu ^ 2 ≤ dot mu mu := by
    have := dot_cs (unitVector Real.sqrt tol1 gradC) mu
    have := mul_le_mul_of_nonneg_right (unit_le gradC) hm
    linarith
  have hout : 0 ≤ dot mu (((m.Mvol * phi c + m.Mvap * (1 - phi c)) +
      m.Msurf * 4 * (c * c) * ((1 - c) * (1 - c)) * projectorScale) • mu -
      (m.Msurf * 4 * (c * c) * ((1 - c) * (1 - c)) * dot (unitVector Real.sqrt tol1 gradC) mu) •
        unitVector Real.sqrt tol1 gradC) := by
    rw [dot_sub, dot_smul, dot_smul, dot_comm mu (unitVector Real.sqrt tol1 gradC)]
    generalize m.Msurf * 4 * (c * c) * ((1 - c) * (1 - c)) = f at *
    generalize dot (unitVector Real.sqrt tol1 gradC) mu = x at *
    generalize dot mu mu = q at *
    have s1 := mul_nonneg (add_nonneg t1 t2) hm
    have s2 := mul_nonneg hf (sub_nonneg.2 hn)
    have s3 := mul_nonneg hf hm
    unfold projectorScale
    nlinarith
  unfold tensorialM
  dsimp only
  split
  · exact hout
  · rw [dot_add, dot_smul]
    have := gb_nonneg mu 0 (by simp [dot]) [] grains (by simp) he
    have : 0 ≤ 2 * m.Mgb * dot mu (gbLoop mu 0 [] grains) := by positivity
    linarith

private theorem gbDeriv_mu {d : Nat} (mu dmu acc : Fin d → ℝ) (pre l : List (ℝ × (Fin d → ℝ))) :
    gbDerivLoop mu dmu acc (pre.map fun g => (g.1, g.2, 0)) (l.map fun g => (g.1, g.2, 0)) =
      gbLoop dmu acc pre l := by
  induction l generalizing acc pre with
  | nil => rfl
  | cons g l ih =>
    simp only [List.map_cons, gbDerivLoop, gbLoop]
    have e : (pre.map fun g => (g.1, g.2, (0 : ℝ))) ++ [(g.1, g.2, 0)] =
        (pre ++ [g]).map fun g => (g.1, g.2, (0 : ℝ)) := by simp
    rw [e, ih, List.foldl_map]
    congr 1
    congr 1
    funext a f
    simp

/-- **C39** (tensorial mobility, gradient of the chemical potential).  `apply_M` is linear in the gradient of the
chemical potential, its linearisation misses a thousandth of the surface mobility. -/
theorem C39_tensorial_mu {d : Nat} (m : Coeff ℝ) (c : ℝ) (gradC : Fin d → ℝ) (grains : List (ℝ × (Fin d → ℝ)))
    (mu dmu : Fin d → ℝ) :
    tensorialMDerivative Real.sqrt m c gradC (grains.map fun g => (g.1, g.2, 0)) mu 0 0 dmu =
      tensorialM Real.sqrt m c gradC grains dmu -
        (m.Msurf * 4 * (c * c) * ((1 - c) * (1 - c)) / 1000) • dmu := by
  have hg := gbDeriv_mu mu dmu 0 [] grains
  rw [List.map_nil] at hg
  have h0 : dot (unitVector Real.sqrt tol1 gradC) 0 = 0 := by simp [dot]
  have h1 : dot mu 0 = 0 := by simp [dot]
  unfold tensorialMDerivative tensorialM
  dsimp only
  rw [hg]
  simp only [h0, zero_smul, sub_zero, h1, smul_zero, add_zero, List.length_map]
  generalize m.Msurf * 4 * (c * c) * ((1 - c) * (1 - c)) = f
  generalize m.Mvol * phi c + m.Mvap * (1 - phi c) = v
  have e : f * projectorScale = f + f / 1000 := by unfold projectorScale; ring
  rw [e]
  split
  · funext i; simp; ring
  · funext i; simp; ring

namespace Ex39

/-- The linearisation of the tensorial mobility is wrong even for volume diffusion in one dimension: it is four
times too large. -/
theorem C39_tensorial_violated :
    tensorialMDerivative Real.sqrt vol (1/2) (0 : Fin 1 → ℝ) [] (fun _ => 1) 1 0 0 0 = 4 * (30 / 16) ∧
    HasDerivAt (fun s : ℝ => tensorialM Real.sqrt vol (1/2 + s * 1) (0 : Fin 1 → ℝ) [] (fun _ => 1) 0) (30 / 16) 0 := by
  constructor
  · simp [tensorialMDerivative, vol, dot]
    norm_num
  · have h := scalarM_deriv vol (c := 1/2) (by norm_num) (by norm_num) [] 1
    have e : (fun s : ℝ => tensorialM Real.sqrt vol (1/2 + s * 1) (0 : Fin 1 → ℝ) [] (fun _ => 1) 0) =
        fun s => scalarM vol (1/2 + s * 1) (shift [] s) := by
      funext s
      simp [tensorialM, scalarM, vol, shift, pairLoop]
    rw [e]
    refine h.congr_deriv ?_
    simp [dMdc, vol]
    norm_num

end Ex39

end Verif.Props
