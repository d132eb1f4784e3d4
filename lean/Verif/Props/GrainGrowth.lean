/-
C64: energy, residual and linearisation of the grain growth model.
-/
import Verif.Model.GrainGrowth
import Verif.Lemmas.GrainGrowth
import Mathlib.Algebra.BigOperators.Intervals
import Mathlib.Analysis.Calculus.Deriv.Pow
import Mathlib.Analysis.Calculus.Deriv.Mul
import Mathlib.Analysis.Calculus.Deriv.Add
import Mathlib.Analysis.Real.Sqrt
import Mathlib.Tactic.Ring
import Mathlib.Tactic.Linarith
import Mathlib.Tactic.LinearCombination
import Mathlib.Algebra.Field.Rat
import Mathlib.Algebra.Order.Ring.Rat

namespace Verif.Props

open Verif.GrainGrowth

/-- Specification: the bulk energy density of the grain growth model. -/
noncomputable def growthEnergy (A B : ℝ) (n : Nat) (x : Nat → ℝ) : ℝ :=
  -A / 2 * (∑ i ∈ Finset.range n, x i ^ 2) + B / 4 * (∑ i ∈ Finset.range n, x i ^ 4) +
    (∑ i ∈ Finset.range n, ∑ j ∈ Finset.range n, if i < j then x i ^ 2 * x j ^ 2 else 0) + 1 / 4

private theorem eval_f (A B : ℝ) (n : Nat) (x : Nat → ℝ) :
    (eval true A B n x).f = .ok (growthEnergy A B n x) := by
  simp only [eval, Eval.f, if_true, pw, outer_eq n x n 0 0 (by omega), zero_add, growthEnergy]

/-- **C64** (value).  `f()` is the bulk energy density; it must not be requested from an evaluator set up for
second derivatives only. -/
theorem C64_value (A B : ℝ) (n : Nat) (x : Nat → ℝ) :
    (eval true A B n x).f = .ok (growthEnergy A B n x) ∧ (eval false A B n x).f = .ub :=
  ⟨eval_f A B n x, rfl⟩

private theorem pair_sum (n : Nat) (x : Nat → ℝ) :
    (∑ i ∈ Finset.range n, ∑ j ∈ Finset.range n, if i < j then x i ^ 2 * x j ^ 2 else 0) =
      ((∑ i ∈ Finset.range n, x i ^ 2) ^ 2 - ∑ i ∈ Finset.range n, x i ^ 4) / 2 := by
  induction n with
  | zero => simp
  | succ n ih =>
    have h1 : ∀ i ∈ Finset.range n, (∑ j ∈ Finset.range (n + 1), if i < j then x i ^ 2 * x j ^ 2 else 0) =
        (∑ j ∈ Finset.range n, if i < j then x i ^ 2 * x j ^ 2 else 0) + x i ^ 2 * x n ^ 2 := by
      intro i hi
      rw [Finset.sum_range_succ, if_pos (Finset.mem_range.1 hi)]
    have h2 : (∑ j ∈ Finset.range (n + 1), if n < j then x n ^ 2 * x j ^ 2 else 0) = 0 :=
      Finset.sum_eq_zero fun j hj => by rw [if_neg]; have := Finset.mem_range.1 hj; omega
    rw [Finset.sum_range_succ, Finset.sum_congr rfl h1, Finset.sum_add_distrib, ih, h2, ← Finset.sum_mul,
      Finset.sum_range_succ, Finset.sum_range_succ]
    ring

private theorem energy_eq (A B : ℝ) (n : Nat) (x : Nat → ℝ) :
    growthEnergy A B n x = -A / 2 * (∑ i ∈ Finset.range n, x i ^ 2) + (B / 4 - 1 / 2) * (∑ i ∈ Finset.range n, x i ^ 4) +
      (∑ i ∈ Finset.range n, x i ^ 2) ^ 2 / 2 + 1 / 4 := by
  rw [growthEnergy, pair_sum]; ring

private theorem sum_update (n i : Nat) (h : i < n) (x : Nat → ℝ) (t : ℝ) (g : ℝ → ℝ) :
    ∑ j ∈ Finset.range n, g (Function.update x i t j) = (∑ j ∈ Finset.range n, g (x j)) - g (x i) + g t := by
  have hi : i ∈ Finset.range n := Finset.mem_range.2 h
  rw [← Finset.add_sum_erase _ _ hi, ← Finset.add_sum_erase _ (fun j => g (x j)) hi, Function.update_self]
  rw [Finset.sum_congr rfl fun j hj => by rw [Function.update_of_ne (Finset.ne_of_mem_erase hj)]]
  ring

private theorem quart {f : ℝ → ℝ} {d x : ℝ} (a0 a1 a2 a3 a4 : ℝ)
    (hf : ∀ t, f t = a0 + a1 * t + a2 * t ^ 2 + a3 * t ^ 3 + a4 * t ^ 4)
    (hd : d = a1 + 2 * a2 * x + 3 * a3 * x ^ 2 + 4 * a4 * x ^ 3) : HasDerivAt f d x := by
  have e : f = fun t => a0 + a1 * t + a2 * t ^ 2 + a3 * t ^ 3 + a4 * t ^ 4 := funext hf
  rw [e]
  have h1 := (hasDerivAt_id x).const_mul a1
  have h2 := (hasDerivAt_pow 2 x).const_mul a2
  have h3 := (hasDerivAt_pow 3 x).const_mul a3
  have h4 := (hasDerivAt_pow 4 x).const_mul a4
  refine ((((h1.const_add a0).add h2).add h3).add h4).congr_deriv ?_
  rw [hd]
  norm_num
  ring

/-- **C64** (first derivatives).  `df_detai` is the partial derivative of the energy density. -/
theorem C64_first (A B : ℝ) (n i : Nat) (h : i < n) (x : Nat → ℝ) (w : Bool) :
    HasDerivAt (fun t => growthEnergy A B n (Function.update x i t)) ((eval w A B n x).df_detai (x i)) (x i) := by
  generalize hs : (∑ j ∈ Finset.range n, x j ^ 2) = S
  generalize hq : (∑ j ∈ Finset.range n, x j ^ 4) = Q
  refine quart (-A / 2 * (S - x i ^ 2) + (B / 4 - 1 / 2) * (Q - x i ^ 4) + (S - x i ^ 2) ^ 2 / 2 + 1 / 4) 0
    (-A / 2 + (S - x i ^ 2)) 0 (B / 4) (fun t => ?_) ?_
  · rw [energy_eq, sum_update n i h x t (· ^ 2), sum_update n i h x t (· ^ 4), hs, hq]
    ring
  · simp only [Eval.df_detai, eval, pw, hs]
    ring

/-- **C64** (second derivatives).  They are the partial derivatives of the implemented first derivatives. -/
theorem C64_second (A B : ℝ) (n i j : Nat) (hi : i < n) (hj : j < n) (x : Nat → ℝ) (w : Bool) :
    HasDerivAt (fun t => (eval w A B n (Function.update x j t)).df_detai (Function.update x j t i))
      (if i = j then (eval w A B n x).d2f_detai2 (x i) else (eval w A B n x).d2f_detaidetaj (x i) (x j)) (x j) := by
  generalize hs : (∑ j ∈ Finset.range n, x j ^ 2) = S
  by_cases hij : i = j
  · subst hij
    rw [if_pos rfl]
    refine quart 0 (-A + 2 * (S - x i ^ 2)) 0 B 0 (fun t => ?_) ?_
    · simp only [Eval.df_detai, eval, pw, Function.update_self, sum_update n i hi x t (· ^ 2), hs]
      ring
    · simp only [Eval.d2f_detai2, eval, pw, hs]
      ring
  · rw [if_neg hij]
    refine quart (-A * x i + B * x i ^ 3 + 2 * x i * (S - x j ^ 2 - x i ^ 2)) 0 (2 * x i) 0 0 (fun t => ?_) ?_
    · simp only [Eval.df_detai, eval, pw, Function.update_of_ne hij, sum_update n j hj x t (· ^ 2), hs]
      ring
    · simp only [Eval.d2f_detaidetaj]
      ring

/-! ### The linearised operator -/

private theorem mixedRows_eq {K : Type} [Field K] (p : Par K) (e : Eval K) (etas value : Nat → K) (ig : Nat)
    (r : Nat → K) (k : Nat) (hk : k ≤ ig) (i : Nat) :
    mixedRows p e etas value ig r k i = r i +
      (if i = ig then ∑ j ∈ Finset.range k, p.L * (4 * etas ig * etas j) * value j
       else if i < k then p.L * (4 * etas ig * etas i) * value ig else 0) := by
  induction k generalizing i with
  | zero => simp [mixedRows]
  | succ k ih =>
    have hk' : k ≤ ig := by omega
    have hne : k ≠ ig := by omega
    simp only [mixedRows, addAt, Eval.d2f_detaidetaj]
    by_cases h1 : i = ig
    · subst h1
      rw [Function.update_of_ne hne.symm, Function.update_self, ih hk', if_pos rfl, if_pos rfl,
        Finset.sum_range_succ]
      ring
    · by_cases h2 : i = k
      · subst h2
        rw [Function.update_self, Function.update_of_ne hne, ih hk', if_neg h1, if_neg h1, if_neg (by omega),
          if_pos (by omega)]
        ring
      · rw [Function.update_of_ne h2, Function.update_of_ne h1, ih hk', if_neg h1, if_neg h1]
        by_cases h3 : i < k
        · rw [if_pos h3, if_pos (by omega)]
        · rw [if_neg h3, if_neg (by omega)]

private theorem vmultRows_eq {K : Type} [Field K] (p : Par K) (e : Eval K) (etas value : Nat → K) (k i : Nat) :
    vmultRows p e etas value k i =
      if i < k then value i * p.weight + p.L * e.d2f_detai2 (etas i) * value i +
        ((∑ j ∈ Finset.range k, p.L * (4 * etas i * etas j) * value j) - p.L * (4 * etas i * etas i) * value i)
      else 0 := by
  induction k generalizing i with
  | zero => simp [vmultRows]
  | succ k ih =>
    simp only [vmultRows]
    rw [mixedRows_eq _ _ _ _ _ _ _ le_rfl]
    by_cases h1 : i = k
    · subst h1
      rw [if_pos rfl, if_pos (by omega), addAt, Function.update_self, ih, if_neg (by omega), Finset.sum_range_succ]
      ring
    · rw [if_neg h1, addAt, Function.update_of_ne h1, ih]
      by_cases h2 : i < k
      · rw [if_pos h2, if_pos h2, if_pos (by omega), Finset.sum_range_succ]
        ring
      · rw [if_neg h2, if_neg h2, if_neg (by omega), zero_add]

private theorem time_eq (acc val w : ℝ) (old : List (ℝ × ℝ)) :
    timeDerivative acc val w old = acc + val * w + (old.map fun wo => wo.2 * wo.1).sum := by
  unfold timeDerivative
  generalize acc + val * w = b
  induction old generalizing b with
  | nil => simp
  | cons o l ih => simp only [List.foldl_cons, ih, List.map_cons, List.sum_cons]; ring

variable {V : Type} [NormedAddCommGroup V] [NormedSpace ℝ V]

/-- **C64** (linearisation).  For all numbers of order parameters, all states and all increments, the linearised
operator is the derivative of the residual (with time derivative) along the increment, in the values and gradients of
all rows. -/
theorem C64_linearisation (p : Par ℝ) (mode n : Nat) (hm : mode ≠ 0) (old : Nat → List (ℝ × ℝ))
    (x d : Nat → ℝ) (gx gd : Nat → V) (i : Nat) (hi : i < n) :
    HasDerivAt (fun s => (GrainGrowth.residual p mode n old (fun j => x j + s * d j) (fun j => gx j + s • gd j)).1 i)
      ((GrainGrowth.vmult p n x d gd).1 i) 0 ∧
    HasDerivAt (fun s => (GrainGrowth.residual p mode n old (fun j => x j + s * d j) (fun j => gx j + s • gd j)).2 i)
      ((GrainGrowth.vmult p n x d gd).2 i) 0 := by
  constructor
  · have hp : ∀ s, (∑ j ∈ Finset.range n, (x j + s * d j) ^ 2) =
        (∑ j ∈ Finset.range n, x j ^ 2) + 2 * s * (∑ j ∈ Finset.range n, x j * d j) +
          s ^ 2 * (∑ j ∈ Finset.range n, d j ^ 2) := by
      intro s
      rw [Finset.mul_sum, Finset.mul_sum, ← Finset.sum_add_distrib, ← Finset.sum_add_distrib]
      exact Finset.sum_congr rfl fun j _ => by ring
    have hd : (∑ j ∈ Finset.range n, p.L * (4 * x i * x j) * d j) =
        p.L * 4 * x i * (∑ j ∈ Finset.range n, x j * d j) := by
      rw [Finset.mul_sum]
      exact Finset.sum_congr rfl fun j _ => by ring
    generalize hS : (∑ j ∈ Finset.range n, x j ^ 2) = S at hp
    generalize hD : (∑ j ∈ Finset.range n, x j * d j) = D at hp hd
    generalize (∑ j ∈ Finset.range n, d j ^ 2) = E at hp
    generalize hO : ((old i).map fun wo => wo.2 * wo.1).sum = O
    refine quart (p.L * (-p.A * x i + p.B * x i ^ 3 + 2 * x i * (S - x i ^ 2)) + x i * p.weight + O)
      (p.L * (-p.A * d i + 3 * p.B * x i ^ 2 * d i + 2 * d i * (S - x i ^ 2) + 2 * x i * (2 * D - 2 * x i * d i)) +
        d i * p.weight)
      (p.L * (3 * p.B * x i * d i ^ 2 + 2 * d i * (2 * D - 2 * x i * d i) + 2 * x i * (E - d i ^ 2)))
      (p.L * (p.B * d i ^ 3 + 2 * d i * (E - d i ^ 2))) 0 (fun s => ?_) ?_
    · simp only [GrainGrowth.residual, if_pos hm, time_eq, Eval.df_detai, eval, pw, hp, hO]
      ring
    · simp only [GrainGrowth.vmult, vmultRows_eq, if_pos hi, hd, Eval.d2f_detai2, eval, pw, hS]
      ring
  · simp only [GrainGrowth.residual, GrainGrowth.vmult]
    have h := (((hasDerivAt_id (0 : ℝ)).smul_const (gd i)).const_add (gx i)).const_smul (p.L * p.kappa)
    refine (h.congr_deriv ?_)
    simp

/-- **C64** (time derivative).  The residual without time derivative is the variation of the energy; with it the
weighted sum of current and old values is added, for mode 1 and mode 2 alike. -/
theorem C64_residual (p : Par ℝ) (mode n : Nat) (old : Nat → List (ℝ × ℝ)) (x : Nat → ℝ) (gx : Nat → V) (i : Nat)
    (hi : i < n) :
    ∃ d, HasDerivAt (fun t => growthEnergy p.A p.B n (Function.update x i t)) d (x i) ∧
      (GrainGrowth.residual p mode n old x gx).1 i =
        p.L * d + (if mode = 0 then 0 else x i * p.weight + ((old i).map fun wo => wo.2 * wo.1).sum) ∧
      (GrainGrowth.residual p mode n old x gx).2 i = (p.L * p.kappa) • gx i := by
  refine ⟨_, C64_first p.A p.B n i hi x false, ?_, rfl⟩
  by_cases hm : mode = 0
  · simp [GrainGrowth.residual, hm]
  · simp only [GrainGrowth.residual, ne_eq, hm, not_false_eq_true, if_true, time_eq, if_false]
    ring

/-! ### The action of the mixed derivatives -/

private theorem dot_eq {K : Type} [Field K] (etas value : Nat → K) (t : K) (k i : Nat) :
    dotLoop etas value (some t) k i = .ok (some (t + ∑ l ∈ Finset.range k, etas (i + l) * value (i + l))) := by
  induction k generalizing t i with
  | zero => simp [dotLoop]
  | succ k ih =>
    rw [dotLoop, ih, Finset.sum_range_succ']
    simp only [Nat.add_assoc, Nat.add_comm 1, Nat.add_zero]
    congr 2
    ring

/-- **C64** (violated).  `apply_d2f_detaidetaj` reads an uninitialised variable as soon as there are two order
parameters. -/
theorem C64_apply_undefined (L : ℝ) (n : Nat) (etas value result : Nat → ℝ) :
    applyD2f L n etas value result = if n ≤ 1 then .ok result else .ub := by
  unfold applyD2f applyD2fFrom
  by_cases h : n ≤ 1
  · rw [if_pos h, if_pos h]
  · obtain ⟨k, rfl⟩ : ∃ k, n = k + 2 := ⟨n - 2, by omega⟩
    rw [if_neg h, if_neg h]
    rfl

/-- **C64** (violated).  Even if the variable happened to be zero, the contribution of the first order parameter
would be missing from all other rows. -/
theorem C64_apply_first_missing (L : ℝ) (n : Nat) (hn : 1 < n) (etas value result : Nat → ℝ) :
    ∃ r, applyD2fFrom (some 0) L n etas value result = .ok r ∧ ∀ i < n,
      r i = result i + L * (∑ j ∈ Finset.range n, if j = i then 0 else 4 * etas i * etas j * value j) -
        L * 4 * etas i * etas 0 * value 0 := by
  obtain ⟨k, rfl⟩ : ∃ k, n = k + 1 := ⟨n - 1, by omega⟩
  refine ⟨_, by simp only [applyD2fFrom, if_neg (by omega : ¬ k + 1 ≤ 1), dot_eq, Res.ok_bind]; rfl, ?_⟩
  intro i hi
  have hsum : (∑ j ∈ Finset.range (k + 1), if j = i then 0 else 4 * etas i * etas j * value j) =
      4 * etas i * (∑ j ∈ Finset.range (k + 1), etas j * value j) - 4 * etas i * etas i * value i := by
    have hi' : i ∈ Finset.range (k + 1) := Finset.mem_range.2 hi
    rw [← Finset.add_sum_erase _ _ hi', ← Finset.add_sum_erase _ (fun j => etas j * value j) hi', if_pos rfl,
      mul_add, Finset.mul_sum]
    rw [Finset.sum_congr rfl fun j hj => by rw [if_neg (Finset.ne_of_mem_erase hj)]]
    simp only [mul_assoc]
    ring
  have h0 : (∑ l ∈ Finset.range (k + 1 - 1), etas (1 + l) * value (1 + l)) =
      (∑ j ∈ Finset.range (k + 1), etas j * value j) - etas 0 * value 0 := by
    rw [Finset.sum_range_succ']
    simp [Nat.add_comm 1]
  simp only [if_pos hi, hsum, h0]
  ring

/-! ### Output -/

/-- Specification: the quantity named by a label. -/
noncomputable def named (A B : ℝ) (n : Nat) (x : Nat → ℝ) : Label → ℝ
  | .bnds => ∑ i ∈ Finset.range n, x i ^ 2
  | .gb => ∑ i ∈ Finset.range n, ∑ j ∈ Finset.range i, x i * x j
  | .f => growthEnergy A B n x
  | .df i => deriv (fun t => growthEnergy A B n (Function.update x i t)) (x i)
  | .d2f i j => deriv (fun s => deriv (fun t => growthEnergy A B n (Function.update (Function.update x j s) i t))
      (Function.update x j s i)) (x j)

private theorem gbSum_eq (n : Nat) (x : Nat → ℝ) :
    gbSum n x = ∑ i ∈ Finset.range n, ∑ j ∈ Finset.range i, x i * x j := by
  have inner : ∀ (i m : Nat) (a : ℝ), (List.range m).foldl (fun a j => a + x i * x j) a =
      a + ∑ j ∈ Finset.range m, x i * x j := by
    intro i m a
    induction m with
    | zero => simp
    | succ m ih => rw [List.range_succ, List.foldl_append, ih, Finset.sum_range_succ]; simp [add_assoc]
  unfold gbSum
  induction n with
  | zero => simp
  | succ n ih =>
    rw [List.range_succ, List.foldl_append, ih, Finset.sum_range_succ]
    simp [inner]

/-- **C64** (output, partial).  As long as no derivatives are requested, the output holds exactly the requested
quantities under their labels. -/
theorem C64_output_partial (A B : ℝ) (n : Nat) (req : List OutField) (x : Nat → ℝ)
    (h1 : OutField.df ∉ req) (h2 : OutField.d2f ∉ req) :
    output A B n req x = .ok (
      ((if .bnds ∈ req then [Label.bnds] else []) ++ (if .gb ∈ req then [Label.gb] else []) ++
        (if .f ∈ req then [Label.f] else [])).map fun l => (l, named A B n x l)) := by
  have hv : ∀ m, values A B n m x = .ok ((if .bnds ∈ m then [∑ i ∈ Finset.range n, x i ^ 2] else []) ++
    (if .gb ∈ m then [∑ i ∈ Finset.range n, ∑ j ∈ Finset.range i, x i * x j] else []) ++
    (if .f ∈ m then [growthEnergy A B n x] else []) ++
    (if .df ∈ m then (List.range n).map fun i => (eval true A B n x).df_detai (x i) else []) ++
    (if .d2f ∈ m then
      (List.range n).flatMap fun i =>
        (List.range' (i + 1) (n - (i + 1))).map fun j => (eval true A B n x).d2f_detaidetaj (x i) (x j)
     else [])) := by
    intro m
    simp only [values, eval_f, Res.ok_bind, pw, gbSum_eq]
  unfold output
  by_cases a : OutField.bnds ∈ req <;> by_cases b : OutField.gb ∈ req <;>
    by_cases c : OutField.f ∈ req <;>
    simp [maskOf, possible, a, b, c, h1, h2, hv, names, named, Res.ok_bind]

/-- **C64** (output, violated).  Requesting the first derivatives of two order parameters writes the mixed second
derivative and a zero under the labels of the first derivatives. -/
theorem C64_output_violated (A B : ℝ) (x : Nat → ℝ) :
    output A B 2 [.df] x = .ok [(.df 0, 4 * x 0 * x 1), (.df 1, 0)] := by
  have : (eval true A B 2 x).f = .ok (growthEnergy A B 2 x) := eval_f A B 2 x
  simp [output, maskOf, possible, values, this, Res.ok_bind, names, Eval.d2f_detaidetaj, List.range_succ]

/-- **C64** (output, violated).  With first and second derivatives requested the mixed derivative appears under the name of the
first one, and a field named as second derivative with respect to the first order parameter is zero. -/
theorem C64_output_both_violated (A B : ℝ) (x : Nat → ℝ) :
    output A B 2 [.df, .d2f] x = .ok [(.df 0, 4 * x 0 * x 1), (.df 1, 0), (.d2f 0 0, 0)] := by
  have : (eval true A B 2 x).f = .ok (growthEnergy A B 2 x) := eval_f A B 2 x
  simp [output, maskOf, possible, values, this, Res.ok_bind, names, Eval.d2f_detaidetaj, List.range_succ]

/-- **C64** (output, violated).  With four or more order parameters it writes behind the end of a vector. -/
theorem C64_output_undefined (A B : ℝ) (n : Nat) (hn : 4 ≤ n) (x : Nat → ℝ) : output A B n [.df] x = .ub := by
  have hf : (eval true A B n x).f = .ok (growthEnergy A B n x) := eval_f A B n x
  obtain ⟨k, rfl⟩ : ∃ k, n = k + 4 := ⟨n - 4, by omega⟩
  have hlen : k + 4 < ((List.range (k + 4)).flatMap fun i =>
      (List.range' (i + 1) ((k + 4) - (i + 1))).map fun j => (eval true A B (k + 4) x).d2f_detaidetaj (x i) (x j)).length := by
    rw [List.length_flatMap, List.range_eq_range', List.range'_succ, List.range'_succ, List.range'_succ]
    simp only [List.map_cons, List.sum_cons, List.length_map, List.length_range']
    omega
  simp only [output, maskOf, possible, reduceCtorEq, if_false, if_true, values, hf, Res.ok_bind,
    Nat.add_zero, List.mem_cons, List.not_mem_nil, or_false, List.nil_append]
  split
  · rfl
  · exact absurd hlen (by assumption)

namespace Ex64

private abbrev st : Nat → ℚ := fun i => [1, 2, 3].getD i 0
private abbrev dir : Nat → ℚ := fun i => [1, -1, 2].getD i 0
private abbrev par : Par ℚ := ⟨2, 4, 3, 5, 7⟩

/-- Three order parameters; all rows of the linearised operator. -/
example : (List.range 3).map (GrainGrowth.vmult par 3 st dir (fun _ => (0 : ℚ))).1 = [163, -37, 674] := by
  norm_num [GrainGrowth.vmult, vmultRows, mixedRows, addAt, eval, Function.update, entries, FreeEnergy.powerSum,
    List.range_succ, Eval.d2f_detai2, Eval.d2f_detaidetaj]

/-- The residual of the first row with one old solution. -/
example : (GrainGrowth.residual par 2 3 (fun _ => [(-7, 1 / 2)]) st (fun _ => (0 : ℚ))).1 0 = 175 / 2 := by
  norm_num [GrainGrowth.residual, timeDerivative, eval, entries, FreeEnergy.powerSum, List.range_succ, Eval.df_detai]

end Ex64

end Verif.Props
