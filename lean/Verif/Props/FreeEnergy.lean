/-
C38: the derivatives of the bulk free energy are exact; C45: energy coefficients; C51: sign and
minima of the bulk free energy.
-/
import Verif.Lemmas.FreeEnergy
import Mathlib.Analysis.Calculus.Deriv.Pow
import Mathlib.Analysis.Calculus.Deriv.Mul
import Mathlib.Analysis.Calculus.Deriv.Add
import Mathlib.Analysis.Real.Sqrt
import Mathlib.Tactic.Ring
import Mathlib.Tactic.Linarith
import Mathlib.Tactic.FieldSimp
import Mathlib.Algebra.Field.Rat
import Mathlib.Algebra.Order.Ring.Rat

namespace Verif.Props

open Verif.FreeEnergy

/-- Specification: the sum of the `p`-th powers. -/
noncomputable def psum (p : Nat) (etas : List ℝ) : ℝ := (etas.map (· ^ p)).sum

/-- Specification: the bulk free energy density. -/
noncomputable def bulk (A B c : ℝ) (etas : List ℝ) : ℝ :=
  A * c ^ 2 * (1 - c) ^ 2 +
    B * (c ^ 2 + 6 * (1 - c) * psum 2 etas - 4 * (2 - c) * psum 3 etas + 3 * psum 2 etas ^ 2)

private theorem sum_set (g : ℝ → ℝ) (l : List ℝ) (i : Nat) (h : i < l.length) (t : ℝ) :
    ((l.set i t).map g).sum = (l.map g).sum - g l[i] + g t := by
  induction l generalizing i with
  | nil => simp at h
  | cons x l ih =>
    cases i with
    | zero => simp; ring
    | succ i =>
      simp only [List.length_cons, Nat.add_lt_add_iff_right] at h
      simp only [List.set_cons_succ, List.map_cons, List.sum_cons, List.getElem_cons_succ, ih i h]
      ring

private theorem psum_set (p : Nat) (l : List ℝ) (i : Nat) (h : i < l.length) (t : ℝ) :
    psum p (l.set i t) = psum p l - l[i] ^ p + t ^ p := sum_set (· ^ p) l i h t

private theorem quartic {f : ℝ → ℝ} {d x : ℝ} (a0 a1 a2 a3 a4 : ℝ)
    (hf : ∀ t, f t = a0 + a1 * t + a2 * t ^ 2 + a3 * t ^ 3 + a4 * t ^ 4)
    (hd : d = a1 + 2 * a2 * x + 3 * a3 * x ^ 2 + 4 * a4 * x ^ 3) : HasDerivAt f d x := by
  have e : f = fun t => a0 + a1 * t + a2 * t ^ 2 + a3 * t ^ 3 + a4 * t ^ 4 := funext hf
  rw [e]
  have h1 := (hasDerivAt_id x).const_mul a1
  have h2 := (hasDerivAt_pow 2 x).const_mul a2
  have h3 := (hasDerivAt_pow 3 x).const_mul a3
  have h4 := (hasDerivAt_pow 4 x).const_mul a4
  have h := (((h1.const_add a0).add h2).add h3).add h4
  refine h.congr_deriv ?_
  rw [hd]
  norm_num
  ring

/-- Reads the evaluator of a state and applies one of its members. -/
noncomputable def at_ (with3 : Bool) (A B c mu : ℝ) (etas : List ℝ) {α : Type} (g : Eval ℝ → Res α) : Res α :=
  eval with3 A B (c :: mu :: etas) etas.length >>= g

private theorem at_eq (with3 : Bool) (A B c mu : ℝ) (etas : List ℝ) {α : Type} (g : Eval ℝ → Res α) :
    at_ with3 A B c mu etas g =
      g { A := A, B := B, c := c, p2 := psum 2 etas, p3 := if with3 then some (psum 3 etas) else none } := by
  have h := eval_ok with3 A B c mu etas []
  rw [List.append_nil] at h
  simp only [at_, h, Res.ok_bind, psum]

/-! ## C38 -/

/-- **C38** (value).  `f()` is the bulk free energy density. -/
theorem C38_value (A B c mu : ℝ) (etas : List ℝ) :
    at_ true A B c mu etas Eval.f = .ok (bulk A B c etas) := by
  rw [at_eq]
  simp only [Eval.f, if_true, bulk]
  congr 1
  ring

/-- **C38** (uninitialised data).  The value and the derivative with respect to the concentration must not be
requested from an evaluator that has been set up for second derivatives only. -/
theorem C38_uninitialised (A B c mu : ℝ) (etas : List ℝ) :
    at_ false A B c mu etas Eval.f = .ub ∧ at_ false A B c mu etas Eval.df_dc = .ub := by
  simp [at_eq, Eval.f, Eval.df_dc]

/-- **C38** (first derivatives). -/
theorem C38_first (A B c mu : ℝ) (etas : List ℝ) :
    (∃ d, at_ true A B c mu etas Eval.df_dc = .ok d ∧
      HasDerivAt (fun t => bulk A B t etas) d c) ∧
    ∀ with3 i (h : i < etas.length), ∃ d,
      at_ with3 A B c mu etas (fun e => .ok (e.df_detai etas[i])) = .ok d ∧
      HasDerivAt (fun t => bulk A B c (etas.set i t)) d etas[i] := by
  constructor
  · refine ⟨_, by rw [at_eq]; simp only [Eval.df_dc, if_true]; rfl, ?_⟩
    refine quartic (B * (6 * psum 2 etas - 8 * psum 3 etas + 3 * psum 2 etas ^ 2))
      (B * (-6 * psum 2 etas + 4 * psum 3 etas)) (A + B) (-2 * A) A (fun t => ?_) ?_
    · simp only [bulk]; ring
    · ring
  · intro with3 i h
    refine ⟨_, by rw [at_eq], ?_⟩
    generalize hx : etas[i] = x
    refine quartic (A * c ^ 2 * (1 - c) ^ 2 + B * (c ^ 2 + 6 * (1 - c) * (psum 2 etas - x ^ 2)
        - 4 * (2 - c) * (psum 3 etas - x ^ 3) + 3 * (psum 2 etas - x ^ 2) ^ 2)) 0
      (B * (6 * (1 - c) + 6 * (psum 2 etas - x ^ 2))) (-(4 * B * (2 - c))) (3 * B) (fun t => ?_) ?_
    · simp only [bulk, psum_set _ _ _ h, hx]; ring
    · simp only [Eval.df_detai]; ring

/-- **C38** (second derivatives).  They are the derivatives of the implemented first derivatives, in either
order for the mixed ones. -/
theorem C38_second (A B c mu : ℝ) (etas : List ℝ) (with3 : Bool) (fc : ℝ → List ℝ → ℝ) (fe : Nat → ℝ → List ℝ → ℝ)
    (hfc : ∀ s l, at_ true A B s mu l Eval.df_dc = .ok (fc s l))
    (hfe : ∀ i s l (h : i < l.length), at_ true A B s mu l (fun e => .ok (e.df_detai l[i])) = .ok (fe i s l)) :
    (∃ d, at_ with3 A B c mu etas (fun e => .ok e.d2f_dc2) = .ok d ∧ HasDerivAt (fun t => fc t etas) d c) ∧
    (∀ i (h : i < etas.length), ∃ d,
      at_ with3 A B c mu etas (fun e => .ok (e.d2f_dcdetai etas[i])) = .ok d ∧
      HasDerivAt (fun t => fc c (etas.set i t)) d etas[i] ∧
      HasDerivAt (fun t => fe i t etas) d c) ∧
    (∀ i (h : i < etas.length), ∃ d,
      at_ with3 A B c mu etas (fun e => .ok (e.d2f_detai2 etas[i])) = .ok d ∧
      HasDerivAt (fun t => fe i c (etas.set i t)) d etas[i]) ∧
    (∀ i j (hi : i < etas.length) (hj : j < etas.length), i ≠ j → ∃ d,
      at_ with3 A B c mu etas (fun e => .ok (e.d2f_detaidetaj etas[i] etas[j])) = .ok d ∧
      HasDerivAt (fun t => fe i c (etas.set j t)) d etas[j]) := by
  have hfc' : ∀ s l, fc s l = A * (s * s) * (2 * s - 2) + 2 * A * s * ((-s + 1) * (-s + 1)) +
      B * (2 * s - 6 * psum 2 l + 4 * psum 3 l) := by
    intro s l
    have := hfc s l
    rw [at_eq] at this
    simp only [Eval.df_dc, if_true, Res.ok.injEq] at this
    exact this.symm
  have hfe' : ∀ i s l (h : i < l.length), fe i s l =
      l[i] * (B * 12) * (l[i] * (1 * s - 2) + (-s + 1) + psum 2 l) := by
    intro i s l h
    have := hfe i s l h
    rw [at_eq] at this
    simp only [Eval.df_detai, Res.ok.injEq] at this
    exact this.symm
  refine ⟨⟨_, by rw [at_eq], ?_⟩, fun i h => ⟨_, by rw [at_eq], ?_, ?_⟩, fun i h => ⟨_, by rw [at_eq], ?_⟩,
    fun i j hi hj hij => ⟨_, by rw [at_eq], ?_⟩⟩
  · refine quartic (B * (-6 * psum 2 etas + 4 * psum 3 etas)) (2 * (A + B)) (-6 * A) (4 * A) 0 (fun t => ?_) ?_
    · rw [hfc']; ring
    · simp only [Eval.d2f_dc2]; ring
  · generalize hx : etas[i] = x
    refine quartic (A * (c * c) * (2 * c - 2) + 2 * A * c * ((-c + 1) * (-c + 1)) +
      B * (2 * c - 6 * (psum 2 etas - x ^ 2) + 4 * (psum 3 etas - x ^ 3))) 0 (-6 * B) (4 * B) 0 (fun t => ?_) ?_
    · rw [hfc', psum_set _ _ _ h, psum_set _ _ _ h, hx]; ring
    · simp only [Eval.d2f_dcdetai]; ring
  · generalize hx : etas[i] = x
    refine quartic (x * (B * 12) * (x * -2 + 1 + psum 2 etas)) (x * (B * 12) * (x - 1)) 0 0 0 (fun t => ?_) ?_
    · rw [hfe' _ _ _ h, hx]; ring
    · simp only [Eval.d2f_dcdetai]; ring
  · generalize hx : etas[i] = x
    refine quartic 0 (B * 12 * ((1 - c) + (psum 2 etas - x ^ 2))) (B * 12 * (c - 2)) (B * 12) 0 (fun t => ?_) ?_
    · have h' : i < (etas.set i t).length := by simpa using h
      rw [hfe' _ _ _ h', psum_set _ _ _ h, hx]
      simp only [List.getElem_set_self]
      ring
    · simp only [Eval.d2f_detai2]; ring
  · generalize hx : etas[j] = x
    generalize hy : etas[i] = y
    refine quartic (y * (B * 12) * (y * (c - 2) + (-c + 1) + (psum 2 etas - x ^ 2))) 0 (y * (B * 12)) 0 0
      (fun t => ?_) ?_
    · have h' : i < (etas.set j t).length := by simpa using hi
      rw [hfe' _ _ _ h', psum_set _ _ _ hj, hx]
      have e : (etas.set j t)[i] = y := by rw [List.getElem_set_ne (Ne.symm hij), hy]
      rw [e]
      ring
    · simp only [Eval.d2f_detaidetaj]; ring

private theorem sum_ite_ne (l : List ℝ) (i : Nat) (h : i < l.length) :
    (l.mapIdx fun j x => if j = i then 0 else x).sum = l.sum - l[i] := by
  induction l generalizing i with
  | nil => simp at h
  | cons x l ih =>
    cases i with
    | zero =>
      have e : (l.mapIdx fun _ x => x) = l := by
        apply List.ext_getElem <;> simp
      simp [e]
    | succ i =>
      simp at h
      have := ih i h
      simp only [List.mapIdx_cons, List.sum_cons, List.getElem_cons_succ]
      simp only [Nat.add_right_cancel_iff]
      rw [this]
      simp
      ring

/-- **C38** (fast product).  Result `i` receives `L` times the sum over all other order parameters `j` of the
mixed second derivative times the value `j`. -/
theorem C38_apply (A B c mu L : ℝ) (with3 : Bool) (l : List (ℝ × ℝ × ℝ)) (d : Nat → Nat → ℝ)
    (hd : ∀ i j (hi : i < l.length) (hj : j < l.length),
      at_ with3 A B c mu (l.map (·.1)) (fun e => .ok (e.d2f_detaidetaj l[i].1 l[j].1)) = .ok (d i j)) :
    (applyD2f B L l).length = l.length ∧
    ∀ i (h : i < l.length), (applyD2f B L l)[i]? =
      some (l[i].2.2 + L * (l.mapIdx fun j t => if j = i then 0 else d i j * t.2.1).sum) := by
  have hd' : ∀ i j (hi : i < l.length) (hj : j < l.length), d i j = 24 * B * l[i].1 * l[j].1 := by
    intro i j hi hj
    have := hd i j hi hj
    rw [at_eq] at this
    simp only [Eval.d2f_detaidetaj, Res.ok.injEq] at this
    exact this.symm
  have key : ∀ i (h : i < l.length),
      (l.mapIdx fun j t => if j = i then 0 else d i j * t.2.1).sum =
        24 * B * l[i].1 * ((l.map fun t => t.1 * t.2.1).sum - l[i].1 * l[i].2.1) := by
    intro i h
    have e : (l.mapIdx fun j t => if j = i then 0 else d i j * t.2.1) =
        ((l.map fun t => t.1 * t.2.1).mapIdx fun j x => if j = i then 0 else x).map (24 * B * l[i].1 * ·) := by
      apply List.ext_getElem
      · simp
      · intro j h1 h2
        simp only [List.length_mapIdx] at h1
        simp only [List.getElem_mapIdx, List.getElem_map]
        split
        · simp
        · rw [hd' i j h h1]; ring
    rw [e, List.sum_map_mul_left, List.map_id', sum_ite_ne _ _ (by simpa using h)]
    simp
  rcases l with _ | ⟨⟨e0, v0, r0⟩, l⟩
  · simp [applyD2f]
  by_cases h1 : l = []
  · subst h1
    simp [applyD2f]
  · have h2 : ¬ ((e0, v0, r0) :: l).length ≤ 1 := by
      cases l with
      | nil => exact absurd rfl h1
      | cons _ _ => simp
    constructor
    · simp only [applyD2f, if_neg h2, List.length_map]
    · intro i h
      have hdot : dotFrom (e0 * v0) (l.map fun t => (t.1, t.2.1)) =
          ((((e0, v0, r0) :: l).map fun t => t.1 * t.2.1)).sum := by
        rw [dotFrom_eq]; simp [Function.comp_def]
      simp only [applyD2f, if_neg h2, hdot]
      rw [key i h]
      simp only [List.getElem?_map, List.getElem?_eq_getElem h, Option.map_some]
      congr 1
      ring

/-- **C38** (specialisations of the power sums for two order parameters). -/
theorem C38_two {K : Type} [Field K] (a b : K) :
    powerSum 2 [a, b] = powerSum22 a b ∧ powerSum 3 [a, b] = powerSum23 a b := by
  simp [powerSum_eq, powerSum22, powerSum23]
  constructor <;> ring

namespace Ex38

/-- Three order parameters, mixed product with all contributions different. -/
example : applyD2f (1 : ℚ) 2 [(1, 1, 10), (2, 3, 20), (3, 5, 30)] = [1018, 1556, 1038] := by decide +kernel

example : (eval true (16 : ℚ) 1 [1/2, 7, 1/2, 1/4] 2 >>= Eval.f) = .ok (419/256) := by
  norm_num [eval, readEtas, powerSum, Eval.f]

/-- A state that is too short. -/
example : eval true (16 : ℚ) 1 [1/2, 7, 1/2] 2 = .ub := by decide +kernel

end Ex38

/-! ## C45 -/

/-- **C45**.  In scaled units, the energies following from the equilibrium profiles of the model are the given
ones. -/
theorem C45_energies {surface gb width length energy : ℝ} (hs : 0 ≤ surface) (hg : 0 ≤ gb) (hw : 0 < width)
    (he : 0 < energy) :
    let p := computeEnergyParams surface gb width length energy
    Real.sqrt 2 / 6 * Real.sqrt (p.kappaC + p.kappaP) * Real.sqrt (p.A + 7 * p.B) =
        surface * length ^ 2 / energy ∧
      2 / Real.sqrt 3 * Real.sqrt (p.B * p.kappaP) = gb * length ^ 2 / energy := by
  intro p
  have hS : 0 ≤ surface * length ^ 2 / energy := by positivity
  have hG : 0 ≤ gb * length ^ 2 / energy := by positivity
  constructor
  · have e1 : p.kappaC + p.kappaP = 3 / 2 * (surface * length ^ 2 / energy) * width := by
      simp only [p, computeEnergyParams]; ring
    have e2 : p.A + 7 * p.B = 12 * (surface * length ^ 2 / energy) / width := by
      simp only [p, computeEnergyParams]; ring
    rw [e1, e2, mul_assoc, ← Real.sqrt_mul (by positivity), div_mul_eq_mul_div, ← Real.sqrt_mul (by norm_num)]
    generalize surface * length ^ 2 / energy = S at *
    have e3 : (2 : ℝ) * (3 / 2 * S * width * (12 * S / width)) = (6 * S) ^ 2 := by field_simp; ring
    rw [e3, Real.sqrt_sq (by positivity)]
    ring
  · have e1 : p.B * p.kappaP = 3 * ((gb * length ^ 2 / energy) / 2) ^ 2 := by
      simp only [p, computeEnergyParams]; field_simp; ring
    rw [e1]
    generalize gb * length ^ 2 / energy = G at *
    rw [Real.sqrt_mul (by norm_num), Real.sqrt_sq (by positivity)]
    have h3 : Real.sqrt 3 ≠ 0 := by positivity
    field_simp

/-- **C45** (admissible energies).  Both gradient and both bulk coefficients are positive exactly if the surface
energy exceeds 7/12 of the grain boundary energy. -/
theorem C45_positive {surface gb width length energy : ℝ} (hg : 0 < gb) (hw : 0 < width)
    (hl : 0 < length) (he : 0 < energy) :
    let p := computeEnergyParams surface gb width length energy
    (0 < p.A ∧ 0 < p.B ∧ 0 < p.kappaC ∧ 0 < p.kappaP) ↔ 7 * gb < 12 * surface := by
  intro p
  have k : 0 < length ^ 2 / energy := by positivity
  have eA : p.A = (12 * surface - 7 * gb) * (length ^ 2 / energy) / width := by
    simp only [p, computeEnergyParams]; ring
  have eB : 0 < p.B := by
    have : p.B = gb * (length ^ 2 / energy) / width := by simp only [p, computeEnergyParams]; ring
    rw [this]; positivity
  have eP : 0 < p.kappaP := by
    have : p.kappaP = 3 / 4 * gb * (length ^ 2 / energy) * width := by simp only [p, computeEnergyParams]; ring
    rw [this]; positivity
  have eC : p.kappaC = 3 / 4 * (2 * surface - gb) * (length ^ 2 / energy) * width := by
    simp only [p, computeEnergyParams]; ring
  constructor
  · rintro ⟨hA, -⟩
    rw [eA] at hA
    by_contra h
    have h1 : (12 * surface - 7 * gb) * (length ^ 2 / energy) ≤ 0 :=
      mul_nonpos_of_nonpos_of_nonneg (by linarith) k.le
    have h2 := div_nonpos_of_nonpos_of_nonneg h1 hw.le
    linarith
  · intro h
    refine ⟨?_, eB, ?_, eP⟩
    · rw [eA]
      have : 0 < 12 * surface - 7 * gb := by linarith
      positivity
    · rw [eC]
      have : 0 < 2 * surface - gb := by linarith
      positivity

namespace Ex45

/-- Typical data: surface energy 9.9, grain boundary energy 3.8, width 2, unit scales. -/
example : computeEnergyParams (99/10 : ℚ) (38/10) 2 1 1 =
    { A := 461/10, B := 19/10, kappaC := 24, kappaP := 57/10 } := by
  norm_num [computeEnergyParams]

/-- Beyond the bound the bulk coefficient is negative although the gradient coefficients are positive. -/
example : (computeEnergyParams (55 : ℚ) 100 1 1 1).A < 0 ∧ 0 < (computeEnergyParams (55 : ℚ) 100 1 1 1).kappaC := by
  norm_num [computeEnergyParams]

end Ex45

/-! ## C51 -/

/-- Specification: a pure phase is either the void or the solid with a single grain. -/
def Pure (c : ℝ) (etas : List ℝ) : Prop :=
  (c = 0 ∧ ∀ e ∈ etas, e = 0) ∨
    (c = 1 ∧ ∃ l r, etas = l ++ 1 :: r ∧ (∀ e ∈ l, e = 0) ∧ ∀ e ∈ r, e = 0)

private theorem psum2_nonneg (l : List ℝ) : 0 ≤ psum 2 l := by
  apply List.sum_nonneg
  simp only [List.mem_map]
  rintro x ⟨a, -, rfl⟩
  positivity

private theorem psum_cons (p : Nat) (a : ℝ) (l : List ℝ) : psum p (a :: l) = a ^ p + psum p l := by
  simp [psum]

/-- Every order parameter is bounded by the root of the sum of squares. -/
private theorem le_of_mem {l : List ℝ} {a : ℝ} (h : a ∈ l) : a ^ 2 ≤ psum 2 l := by
  induction l with
  | nil => simp at h
  | cons b l ih =>
    rw [psum_cons]
    rcases List.mem_cons.1 h with rfl | h
    · have := psum2_nonneg l; linarith
    · have := ih h; have := sq_nonneg b; linarith

/-- If all `a ∈ l` are at most `x`, the difference `x·Σa² − Σa³` is a sum of non-negative terms. -/
private theorem psum3_le {x : ℝ} (l : List ℝ) (h : ∀ a ∈ l, a ≤ x) :
    psum 3 l ≤ x * psum 2 l ∧ (psum 3 l = x * psum 2 l → ∀ a ∈ l, a = 0 ∨ a = x) := by
  induction l with
  | nil => simp [psum]
  | cons b l ih =>
    have ih := ih fun a ha => h a (List.mem_cons_of_mem _ ha)
    have hb := h b (List.mem_cons_self ..)
    rw [psum_cons, psum_cons]
    have e : b ^ 3 ≤ x * b ^ 2 := by
      have := mul_nonneg (sub_nonneg.2 hb) (sq_nonneg b)
      nlinarith
    refine ⟨by rw [mul_add]; linarith [ih.1], fun heq a ha => ?_⟩
    have h1 : b ^ 3 = x * b ^ 2 := by rw [mul_add] at heq; linarith [ih.1]
    have h2 : psum 3 l = x * psum 2 l := by rw [mul_add] at heq; linarith [ih.1]
    rcases List.mem_cons.1 ha with rfl | ha
    · have : a ^ 2 * (a - x) = 0 := by linear_combination h1
      rcases mul_eq_zero.1 this with h | h
      · exact .inl (by simpa using h)
      · exact .inr (by linarith)
    · exact ih.2 h2 a ha

/-- The energy of a single order parameter `x`. -/
private theorem single {c x : ℝ} (hc : 0 ≤ c) (hx : 0 ≤ x) :
    0 ≤ c ^ 2 + 6 * (1 - c) * x ^ 2 - 4 * (2 - c) * x ^ 3 + 3 * x ^ 4 ∧
    (c ^ 2 + 6 * (1 - c) * x ^ 2 - 4 * (2 - c) * x ^ 3 + 3 * x ^ 4 = 0 → (x = 0 ∧ c = 0) ∨ (x = 1 ∧ c = 1)) := by
  by_cases h : x ≤ 3 / 2
  · have e : c ^ 2 + 6 * (1 - c) * x ^ 2 - 4 * (2 - c) * x ^ 3 + 3 * x ^ 4 =
        (c - (3 * x ^ 2 - 2 * x ^ 3)) ^ 2 + (x * (1 - x)) ^ 2 * (6 + 4 * x - 4 * x ^ 2) := by ring
    have p : 0 < 6 + 4 * x - 4 * x ^ 2 := by nlinarith
    rw [e]
    have n1 := sq_nonneg (c - (3 * x ^ 2 - 2 * x ^ 3))
    have n2 := sq_nonneg (x * (1 - x))
    have n3 := mul_nonneg n2 p.le
    refine ⟨by linarith, fun h0 => ?_⟩
    have z1 : c - (3 * x ^ 2 - 2 * x ^ 3) = 0 := by
      have : (c - (3 * x ^ 2 - 2 * x ^ 3)) ^ 2 = 0 := by linarith
      simpa using this
    have z2 : (x * (1 - x)) ^ 2 * (6 + 4 * x - 4 * x ^ 2) = 0 := by linarith
    rcases mul_eq_zero.1 z2 with z | z
    · have : x * (1 - x) = 0 := by simpa using z
      rcases mul_eq_zero.1 this with hx0 | hx1
      · left; subst hx0; exact ⟨rfl, by linarith⟩
      · right
        have : x = 1 := by linarith
        subst this
        exact ⟨rfl, by linarith⟩
    · exact absurd z p.ne'
  · have hx' : 3 / 2 < x := by linarith
    have e : c ^ 2 + 6 * (1 - c) * x ^ 2 - 4 * (2 - c) * x ^ 3 + 3 * x ^ 4 =
        c ^ 2 + c * (2 * x ^ 2 * (2 * x - 3)) + x ^ 2 * (3 * (x - 4 / 3) ^ 2 + 2 / 3) := by ring
    have p1 : 0 ≤ c * (2 * x ^ 2 * (2 * x - 3)) :=
      mul_nonneg hc (mul_nonneg (by positivity) (by linarith))
    have p2 : 0 < x ^ 2 * (3 * (x - 4 / 3) ^ 2 + 2 / 3) := by positivity
    rw [e]
    have := sq_nonneg c
    exact ⟨by linarith, fun h0 => by linarith⟩

private theorem zeros_of {l : List ℝ} (h : psum 2 l = 0) : ∀ e ∈ l, e = 0 := by
  intro e he
  have := le_of_mem he
  rw [h] at this
  have := le_antisymm this (sq_nonneg e)
  simpa using this

private theorem one_of {l : List ℝ} (h : psum 2 l = 1) (h01 : ∀ e ∈ l, e = 0 ∨ e = 1) :
    ∃ a b, l = a ++ 1 :: b ∧ (∀ e ∈ a, e = 0) ∧ ∀ e ∈ b, e = 0 := by
  induction l with
  | nil => simp [psum] at h
  | cons x l ih =>
    rw [psum_cons] at h
    rcases h01 x (List.mem_cons_self ..) with rfl | rfl
    · obtain ⟨a, b, hl, ha, hb⟩ := ih (by linarith) fun e he => h01 e (List.mem_cons_of_mem _ he)
      exact ⟨0 :: a, b, by rw [hl]; rfl, by simpa using ha, hb⟩
    · exact ⟨[], l, rfl, by simp, zeros_of (by linarith)⟩

private theorem psum_zeros (p : Nat) (hp : p ≠ 0) {l : List ℝ} (h : ∀ e ∈ l, e = 0) : psum p l = 0 := by
  induction l with
  | nil => simp [psum]
  | cons x l ih =>
    rw [psum_cons, ih fun e he => h e (List.mem_cons_of_mem _ he), h x (List.mem_cons_self ..)]
    simp [hp]

private theorem psum_append (p : Nat) (a b : List ℝ) : psum p (a ++ b) = psum p a + psum p b := by
  simp [psum]

/-- **C51**.  For non-negative coefficients the bulk free energy is non-negative for all concentrations in
[0,2] and all order parameters, whatever their number and sign; with a positive coefficient of the order
parameters it vanishes exactly in the pure phases. -/
theorem C51_minima {A B c : ℝ} (mu : ℝ) (etas : List ℝ) (hA : 0 ≤ A) (hB : 0 ≤ B) (hc : 0 ≤ c) (hc2 : c ≤ 2) :
    ∃ v, at_ true A B c mu etas Eval.f = .ok v ∧ 0 ≤ v ∧ (0 < B → c ≠ 2 → (v = 0 ↔ Pure c etas)) := by
  refine ⟨_, C38_value A B c mu etas, ?_⟩
  have hs := psum2_nonneg etas
  obtain ⟨x, hx, hxs⟩ : ∃ x : ℝ, 0 ≤ x ∧ psum 2 etas = x ^ 2 :=
    ⟨Real.sqrt (psum 2 etas), Real.sqrt_nonneg _, (Real.sq_sqrt hs).symm⟩
  have hle : ∀ a ∈ etas, a ≤ x := fun a ha => by
    have := le_of_mem ha
    rw [hxs] at this
    exact le_of_sq_le_sq this hx
  have h3 := psum3_le etas hle
  rw [hxs] at h3
  have e3 : x * x ^ 2 = x ^ 3 := by ring
  rw [e3] at h3
  have hs := single hc hx
  have hA' : 0 ≤ A * c ^ 2 * (1 - c) ^ 2 := by positivity
  have hw : 0 ≤ 4 * (2 - c) * (x ^ 3 - psum 3 etas) := mul_nonneg (by linarith) (by linarith [h3.1])
  have hsplit : bulk A B c etas = A * c ^ 2 * (1 - c) ^ 2 +
      (B * (c ^ 2 + 6 * (1 - c) * x ^ 2 - 4 * (2 - c) * x ^ 3 + 3 * x ^ 4) +
       B * (4 * (2 - c) * (x ^ 3 - psum 3 etas))) := by
    simp only [bulk, hxs]; ring
  have t1 := mul_nonneg hB hs.1
  have t2 := mul_nonneg hB hw
  refine ⟨by rw [hsplit]; linarith, fun hB0 hne => ⟨fun h0 => ?_, fun hp => ?_⟩⟩
  · rw [hsplit] at h0
    have z1 : B * (c ^ 2 + 6 * (1 - c) * x ^ 2 - 4 * (2 - c) * x ^ 3 + 3 * x ^ 4) = 0 := by linarith
    have z2 : B * (4 * (2 - c) * (x ^ 3 - psum 3 etas)) = 0 := by linarith
    have z1 := (mul_eq_zero.1 z1).resolve_left hB0.ne'
    have z2 := (mul_eq_zero.1 z2).resolve_left hB0.ne'
    have hc4 : 4 * (2 - c) ≠ 0 := by
      have : c < 2 := lt_of_le_of_ne hc2 hne
      linarith
    have z2 := (mul_eq_zero.1 z2).resolve_left hc4
    rcases hs.2 z1 with ⟨rfl, rfl⟩ | ⟨rfl, rfl⟩
    · exact .inl ⟨rfl, zeros_of (by rw [hxs]; simp)⟩
    · exact .inr ⟨rfl, one_of (by rw [hxs]; simp) (h3.2 (by linarith))⟩
  · rcases hp with ⟨rfl, h⟩ | ⟨rfl, l, r, rfl, hl, hr⟩
    · simp [bulk, psum_zeros 2 (by decide) h, psum_zeros 3 (by decide) h]
    · simp only [bulk, psum_append, psum_cons, psum_zeros 2 (by decide) hl, psum_zeros 3 (by decide) hl,
        psum_zeros 2 (by decide) hr, psum_zeros 3 (by decide) hr]
      ring

namespace Ex51

/-- Two grains meeting in the solid cost energy. -/
example : (eval true (1 : ℚ) 1 [1, 0, 1, 1] 2 >>= Eval.f) = .ok 5 := by
  norm_num [eval, readEtas, powerSum, Eval.f]

/-- Outside of the range of concentrations the energy becomes negative. -/
theorem C51_range : (eval true (0 : ℚ) 1 [-2, 0, 2] 1 >>= Eval.f) = .ok (-4) ∧
    (eval true (0 : ℚ) 1 [3, 0, -1] 1 >>= Eval.f) = .ok (-4) := by
  norm_num [eval, readEtas, powerSum, Eval.f]

end Ex51

end Verif.Props
