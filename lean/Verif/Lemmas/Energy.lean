/-
Lemmas on the energy.
-/
import Verif.Spec.Energy
import Verif.Lemmas.FreeEnergy
import Verif.Props.Mobility
import Mathlib.Algebra.BigOperators.Ring.Finset
import Mathlib.Algebra.BigOperators.Group.Finset.Sigma
import Mathlib.Algebra.BigOperators.Fin
import Mathlib.Algebra.Order.BigOperators.Ring.Finset
import Mathlib.Tactic.Ring
import Mathlib.Tactic.Linarith
import Mathlib.Tactic.Positivity
import Mathlib.Tactic.LinearCombination
import Mathlib.Tactic.FieldSimp

set_option linter.unusedSectionVars false

namespace Verif.Energy

open Finset Verif.SinteringKernel Verif.Energy.Spec
open Verif.Apps (QPt value gradient)

variable {n m d : Nat}

theorem history_eq {order : Nat} (ho : order ≠ 0) {weights : List ℝ} {olds : List (Fields ℝ n m)} (hw : order < weights.length) (hl : order ≤ olds.length) :
    history order weights olds = .ok ⟨fun i => ∑ j ∈ range order, weights.getD (j + 1) 0 * (olds.getD j ⟨0, 0, 0⟩).c i,
      fun i => ∑ j ∈ range order, weights.getD (j + 1) 0 * (olds.getD j ⟨0, 0, 0⟩).mu i,
      fun g i => ∑ j ∈ range order, weights.getD (j + 1) 0 * (olds.getD j ⟨0, 0, 0⟩).eta g i⟩ := by
  rw [history, if_neg ho]
  clear ho
  induction order with
  | zero => simp [Fields.zero]
  | succ k ih =>
    rw [List.range_succ, List.foldlM_append, ih (by omega) (by omega)]
    have h1 : weights[k + 1]? = some weights[k + 1] := List.getElem?_eq_getElem (by omega)
    have h2 : olds[k]? = some olds[k] := List.getElem?_eq_getElem (by omega)
    simp only [Res.ok_bind, List.foldlM_cons, List.foldlM_nil, historyStep, Res.index, h1, h2, Res.pure_def]
    congr 1
    simp only [sum_range_succ, List.getD_eq_getElem?_getD, h1, h2, Option.getD_some]
    by_cases hm : k = 0
    · subst hm
      simp [Fields.scale, mul_comm]
    · rw [if_neg hm]
      simp [Fields.scale, Fields.add, mul_comm]

theorem zip_map_self {α β : Type} (l : List α) (f : α → β) : l.zip (l.map f) = l.map fun a => (a, f a) := by
  induction l with
  | nil => rfl
  | cons a l ih => simp [ih]

theorem advect_none {W : Type} [AddCommGroup W] [Module ℝ W] (c : ℝ) (g : W) (l : List (Option W × ℝ × W)) (h : ∀ t ∈ l, t.1 = none) :
    advect c g l = (g, l.map fun t => t.2.2) := by
  induction l generalizing g with
  | nil => rfl
  | cons t l ih =>
    rcases t with ⟨_ | v, e, k⟩
    · simp [advect, ih g fun t ht => h t (by simp [ht])]
    · exact absurd (h (some v, e, k) (by simp)) (by simp)

/-- The derivative of the bulk energy with respect to the concentration. -/
noncomputable def fc (A B c : ℝ) (eta : Fin m → ℝ) : ℝ :=
  A * (c * c) * (2 * c - 2) + 2 * A * c * ((-c + 1) * (-c + 1)) + B * (2 * c - 6 * ∑ g, eta g ^ 2 + 4 * ∑ g, eta g ^ 3)

/-- The derivative of the bulk energy with respect to an order parameter. -/
noncomputable def fe (B c : ℝ) (eta : Fin m → ℝ) (g : Fin m) : ℝ :=
  eta g * (B * 12) * (eta g * (1 * c - 2) + (-c + 1) + ∑ g, eta g ^ 2)

/-- The scalar mobility at a point. -/
noncomputable def mobility (p : Par ℝ) (q : VPt ℝ n m d) (u : Fields ℝ n m) : ℝ :=
  Mobility.scalarM p.mob (valAt q.1 u.c) (List.ofFn fun g => valAt q.1 (u.eta g))

/-- The kernel without advection. -/
theorem kernel_eq (p : Par ℝ) (mode : Nat) (q : VPt ℝ n m d) (hq : ∀ g, q.2 g = none) (u buf : Fields ℝ n m) :
    ∃ o, residual p mode (point q u buf) = .ok o ∧
      o.valC = (if 1 ≤ mode then valAt q.1 u.c * p.weight else 0) + (if mode = 2 then valAt q.1 buf.c else 0) ∧
      o.gradC = (fun e => mobility p q u * gradient q.1 u.mu e) ∧
      o.valMu = p.weightAlg * valAt q.1 u.mu - fc p.A p.B (valAt q.1 u.c) (fun g => valAt q.1 (u.eta g)) ∧
      o.gradMu = (fun e => -p.kappaC * gradient q.1 u.c e) ∧
      ∀ g : Fin m, o.etas.getD g (0, 0) =
        (p.mob.L * fe p.B (valAt q.1 u.c) (fun g => valAt q.1 (u.eta g)) g + (if 1 ≤ mode then valAt q.1 (u.eta g) * p.weight else 0) +
          (if mode = 2 then valAt q.1 (buf.eta g) else 0), fun e => p.mob.L * p.kappaP * gradient q.1 (u.eta g) e) := by
  have h := FreeEnergy.eval_ok true p.A p.B (point q u buf).c (point q u buf).mu ((point q u buf).grains.map (·.eta)) []
  rw [List.append_nil] at h
  have he : (point q u buf).grains.map (·.eta) = List.ofFn fun g => valAt q.1 (u.eta g) := by
    simp [point, List.map_ofFn, Function.comp_def, valAt, value]
  have hs : ∀ k, ((List.ofFn fun g => valAt q.1 (u.eta g)).map (· ^ k)).sum = ∑ g, valAt q.1 (u.eta g) ^ k := by
    intro k
    rw [List.map_ofFn, List.sum_ofFn]
    rfl
  have hs2 : ((point q u buf).grains.map fun x => x.eta ^ 2).sum = ∑ g, valAt q.1 (u.eta g) ^ 2 := by
    rw [← hs, ← he, List.map_map]
    rfl
  refine ⟨_, by
    unfold SinteringKernel.residual
    simp only [h, Res.ok_bind, FreeEnergy.Eval.df_dc, if_true]
    rfl, ?_⟩
  rw [advect_none _ _ _ (by
    intro t ht
    rw [zip_map_self, List.map_map, List.mem_map] at ht
    obtain ⟨a, ha, rfl⟩ := ht
    simp only [point, List.mem_ofFn] at ha
    obtain ⟨g, rfl⟩ := ha
    exact hq g)]
  refine ⟨?_, ?_, ?_, ?_, ?_⟩
  · show (if mode = 2 then (if 1 ≤ mode then valAt q.1 u.c * p.weight else 0) + valAt q.1 buf.c else (if 1 ≤ mode then valAt q.1 u.c * p.weight else 0)) = _
    by_cases hm : mode = 2
    · rw [if_pos hm, if_pos hm]
    · rw [if_neg hm, if_neg hm, add_zero]
  · show Mobility.applyM p.mob _ _ _ = _
    rw [he]
    rfl
  · dsimp only
    rw [he, hs, hs]
    rfl
  · rfl
  · intro g
    have hg : (g : Nat) < (point q u buf).grains.length := by simp [point]
    simp only [zip_map_self, List.map_map, List.zip_map', Function.comp_def, List.getD_eq_getElem?_getD, List.getElem?_map]
    rw [List.getElem?_eq_getElem hg]
    have hgr : (point q u buf).grains[(g : Nat)] = ⟨valAt q.1 (u.eta g), gradient q.1 (u.eta g), q.2 g, valAt q.1 (buf.eta g)⟩ := by
      simp [point, valAt, value]
    simp only [Option.map_some, Option.getD_some, hgr, FreeEnergy.Eval.df_detai]
    refine Prod.ext ?_ ?_
    · dsimp only
      rw [hs2, show (point q u buf).c = valAt q.1 u.c from rfl]
      unfold fe
      by_cases h1 : 1 ≤ mode <;> by_cases h2 : mode = 2 <;> simp [h1, h2]
    · rfl

/-- The sum over all points. -/
noncomputable def weak (pts : List (VPt ℝ n m d)) (v : VPt ℝ n m d → ℝ) (g : VPt ℝ n m d → Fin d → ℝ) (phi : Fin n → ℝ) : ℝ :=
  (pts.map fun q => q.1.w * (v q * valAt q.1 phi + ∑ e, g q e * gradient q.1 phi e)).sum

/-- The entry of a test function. -/
noncomputable def asm (pts : List (VPt ℝ n m d)) (v : VPt ℝ n m d → ℝ) (g : VPt ℝ n m d → Fin d → ℝ) (i : Fin n) : ℝ :=
  (pts.map fun q => q.1.w * (v q * q.1.N i + ∑ e, g q e * q.1.G i e)).sum

theorem asm_mass (pts : List (VPt ℝ n m d)) (v : VPt ℝ n m d → ℝ) (g : VPt ℝ n m d → Fin d → ℝ) (x : Fin n → ℝ) (i : Fin n) :
    asm pts (fun q => v q + valAt q.1 x) g i = asm pts v g i + mass (pts.map (·.1)) x i := by
  unfold asm mass
  induction pts with
  | nil => simp
  | cons q l ih =>
    simp only [List.map_cons, List.sum_cons, ih]
    ring

theorem weak_test (pts : List (VPt ℝ n m d)) (v : VPt ℝ n m d → ℝ) (g : VPt ℝ n m d → Fin d → ℝ) (phi : Fin n → ℝ) :
    ∑ i, asm pts v g i * phi i = weak pts v g phi := by
  unfold weak asm
  induction pts with
  | nil => simp
  | cons q l ih =>
    simp only [List.map_cons, List.sum_cons, add_mul, sum_add_distrib, ih]
    congr 1
    have h1 : ∑ e, g q e * gradient q.1 phi e = ∑ i, (∑ e, g q e * q.1.G i e) * phi i := by
      unfold gradient
      simp only [mul_sum, sum_mul]
      rw [sum_comm]
      exact sum_congr rfl fun i _ => sum_congr rfl fun e _ => by ring
    have h2 : v q * valAt q.1 phi = ∑ i, v q * q.1.N i * phi i := by
      unfold valAt
      rw [mul_sum]
      exact sum_congr rfl fun i _ => by ring
    rw [h1, h2, ← sum_add_distrib, mul_sum]
    exact sum_congr rfl fun i _ => by ring

/-- The loop over all points. -/
theorem loop_eq (p : Par ℝ) (mode : Nat) (u buf : Fields ℝ n m) (pts : List (VPt ℝ n m d)) (hq : ∀ q ∈ pts, ∀ g, q.2 g = none) (acc : Fields ℝ n m) :
    ∃ r, pts.foldlM (fun acc q => (residual p mode (point q u buf)).bind fun o => .ok (submit q.1 o acc)) acc = .ok r ∧
      (∀ i, r.c i = acc.c i + asm pts (fun q => (if 1 ≤ mode then valAt q.1 u.c * p.weight else 0) + (if mode = 2 then valAt q.1 buf.c else 0))
        (fun q e => mobility p q u * gradient q.1 u.mu e) i) ∧
      (∀ i, r.mu i = acc.mu i + asm pts (fun q => p.weightAlg * valAt q.1 u.mu - fc p.A p.B (valAt q.1 u.c) (fun g => valAt q.1 (u.eta g)))
        (fun q e => -p.kappaC * gradient q.1 u.c e) i) ∧
      ∀ g i, r.eta g i = acc.eta g i + asm pts (fun q => p.mob.L * fe p.B (valAt q.1 u.c) (fun g => valAt q.1 (u.eta g)) g +
          (if 1 ≤ mode then valAt q.1 (u.eta g) * p.weight else 0) + (if mode = 2 then valAt q.1 (buf.eta g) else 0))
        (fun q e => p.mob.L * p.kappaP * gradient q.1 (u.eta g) e) i := by
  unfold asm
  induction pts generalizing acc with
  | nil => exact ⟨acc, rfl, by simp, by simp, by simp⟩
  | cons q l ih =>
    obtain ⟨o, h0, h1, h2, h3, h4, h5⟩ := kernel_eq p mode q (hq q (by simp)) u buf
    obtain ⟨r, k0, k1, k2, k3⟩ := ih (fun q h => hq q (by simp [h])) (submit q.1 o acc)
    refine ⟨r, ?_, ?_, ?_, ?_⟩
    · rw [List.foldlM_cons]
      simp only [h0]
      exact k0
    · intro i
      rw [k1, List.map_cons, List.sum_cons, ← add_assoc]
      simp only [submit, entry, h1, h2]
    · intro i
      rw [k2, List.map_cons, List.sum_cons, ← add_assoc]
      simp only [submit, entry, h3, h4]
    · intro g i
      rw [k3, List.map_cons, List.sum_cons, ← add_assoc]
      simp only [submit, entry, h5]

/-- The variation of the energy. -/
noncomputable def variation (A B kC kP : ℝ) (q : QPt ℝ n d) (u x : Fields ℝ n m) : ℝ :=
  fc A B (valAt q u.c) (fun g => valAt q (u.eta g)) * valAt q x.c + ∑ g, fe B (valAt q u.c) (fun g => valAt q (u.eta g)) g * valAt q (x.eta g) +
    kC * ∑ e, gradient q u.c e * gradient q x.c e + kP * ∑ g, ∑ e, gradient q (u.eta g) e * gradient q (x.eta g) e

theorem val_deriv (q : QPt ℝ n d) {U : ℝ → Fin n → ℝ} {x : Fin n → ℝ} {t : ℝ} (h : ∀ i, HasDerivAt (fun s => U s i) (x i) t) :
    HasDerivAt (fun s => valAt q (U s)) (valAt q x) t := by
  unfold valAt
  exact HasDerivAt.fun_sum fun i _ => (h i).const_mul (q.N i)

theorem grad_deriv (q : QPt ℝ n d) {U : ℝ → Fin n → ℝ} {x : Fin n → ℝ} {t : ℝ} (h : ∀ i, HasDerivAt (fun s => U s i) (x i) t) (e : Fin d) :
    HasDerivAt (fun s => gradient q (U s) e) (gradient q x e) t := by
  unfold gradient
  exact HasDerivAt.fun_sum fun i _ => (h i).const_mul (q.G i e)

theorem grad2_deriv (q : QPt ℝ n d) {U : ℝ → Fin n → ℝ} {x : Fin n → ℝ} {t : ℝ} (h : ∀ i, HasDerivAt (fun s => U s i) (x i) t) :
    HasDerivAt (fun s => grad2 q (U s)) (2 * ∑ e, gradient q (U t) e * gradient q x e) t := by
  have := HasDerivAt.fun_sum (u := (univ : Finset (Fin d))) fun e _ => (grad_deriv q h e).fun_pow 2
  refine this.congr_deriv ?_
  rw [mul_sum]
  exact sum_congr rfl fun e _ => by simp; ring

theorem bulk_deriv (A B : ℝ) {c : ℝ → ℝ} {e : Fin m → ℝ → ℝ} {c' : ℝ} {e' : Fin m → ℝ} {t : ℝ} (hc : HasDerivAt c c' t)
    (he : ∀ g, HasDerivAt (e g) (e' g) t) :
    HasDerivAt (fun s => bulk A B (c s) fun g => e g s) (fc A B (c t) (fun g => e g t) * c' + ∑ g, fe B (c t) (fun g => e g t) g * e' g) t := by
  have h2 := HasDerivAt.fun_sum (u := (univ : Finset (Fin m))) fun g _ => (he g).fun_pow 2
  have h3 := HasDerivAt.fun_sum (u := (univ : Finset (Fin m))) fun g _ => (he g).fun_pow 3
  have ha := ((hc.fun_pow 2).const_mul A).fun_mul ((hc.const_sub 1).fun_pow 2)
  have hb := (((hc.fun_pow 2).fun_add (((hc.const_sub 1).const_mul 6).fun_mul h2)).fun_sub (((hc.const_sub 2).const_mul 4).fun_mul h3)).fun_add
    ((h2.fun_pow 2).const_mul 3)
  refine (ha.fun_add (hb.const_mul B)).congr_deriv ?_
  have e1 : ∑ g, fe B (c t) (fun g => e g t) g * e' g = 12 * B * ((c t - 2) * ∑ g, e g t ^ 2 * e' g + ((1 - c t) + ∑ g, e g t ^ 2) * ∑ g, e g t * e' g) := by
    rw [mul_sum, mul_sum, ← sum_add_distrib, mul_sum]
    refine sum_congr rfl fun g _ => ?_
    unfold fe
    ring
  have e2 : (∑ g, ((2 : ℕ) : ℝ) * e g t ^ (2 - 1) * e' g) = 2 * ∑ g, e g t * e' g := by
    rw [mul_sum]; exact sum_congr rfl fun g _ => by simp; ring
  have e3 : (∑ g, ((3 : ℕ) : ℝ) * e g t ^ (3 - 1) * e' g) = 3 * ∑ g, e g t ^ 2 * e' g := by
    rw [mul_sum]; exact sum_congr rfl fun g _ => by simp; ring
  rw [e1, e2, e3]
  unfold fc
  push_cast
  simp only [pow_one]
  ring

theorem density_deriv (A B kC kP : ℝ) (q : QPt ℝ n d) {U : ℝ → Fields ℝ n m} {x : Fields ℝ n m} {t : ℝ} (h : Moves U x t) :
    HasDerivAt (fun s => density A B kC kP q (U s)) (variation A B kC kP q (U t) x) t := by
  have h1 := bulk_deriv A B (val_deriv q h.1) (fun g => val_deriv q (h.2 g))
  have h2 := (grad2_deriv q h.1).const_mul (kC / 2)
  have h3 := (HasDerivAt.fun_sum (u := (univ : Finset (Fin m))) fun g _ => grad2_deriv q (h.2 g)).const_mul (kP / 2)
  refine ((h1.fun_add h2).fun_add h3).congr_deriv ?_
  unfold variation
  rw [← mul_sum]
  ring

theorem energy_deriv (A B kC kP : ℝ) (pts : List (QPt ℝ n d)) {U : ℝ → Fields ℝ n m} {x : Fields ℝ n m} {t : ℝ} (h : Moves U x t) :
    HasDerivAt (fun s => energy A B kC kP pts (U s)) (pts.map fun q => q.w * variation A B kC kP q (U t) x).sum t := by
  induction pts with
  | nil => simpa [energy] using hasDerivAt_const t (0 : ℝ)
  | cons q l ih =>
    have := ((density_deriv A B kC kP q h).const_mul q.w).fun_add ih
    simpa [energy] using this

/-- Sums of lists. -/
theorem sum_lin {α : Type} (l : List α) (f g h k : α → ℝ) (a b c : ℝ) (e : ∀ q ∈ l, f q = a * g q + b * h q + c * k q) :
    (l.map f).sum = a * (l.map g).sum + b * (l.map h).sum + c * (l.map k).sum := by
  induction l with
  | nil => simp
  | cons q l ih =>
    simp only [List.map_cons, List.sum_cons]
    rw [e q (by simp), ih fun q hq => e q (by simp [hq])]
    ring

theorem list_sum_comm {α : Type} (l : List α) (f : α → Fin m → ℝ) : ∑ g, (l.map fun q => f q g).sum = (l.map fun q => ∑ g, f q g).sum := by
  induction l with
  | nil => simp
  | cons q l ih => simp only [List.map_cons, List.sum_cons, sum_add_distrib, ih]

/-- The rates fulfil the equations: then the energy does not grow. -/
theorem variation_le {p : Par ℝ} {pts : List (VPt ℝ n m d)} {u : Fields ℝ n m} (hr : Regular p pts u) (x : Fields ℝ n m)
    (h1 : weak pts (fun q => valAt q.1 x.c) (fun q e => mobility p q u * gradient q.1 u.mu e) u.mu = 0)
    (h2 : weak pts (fun q => p.weightAlg * valAt q.1 u.mu - fc p.A p.B (valAt q.1 u.c) fun g => valAt q.1 (u.eta g))
      (fun q e => -p.kappaC * gradient q.1 u.c e) x.c = 0)
    (h3 : ∀ g, weak pts (fun q => p.mob.L * fe p.B (valAt q.1 u.c) (fun g => valAt q.1 (u.eta g)) g + valAt q.1 (x.eta g))
      (fun q e => p.mob.L * p.kappaP * gradient q.1 (u.eta g) e) (x.eta g) = 0) :
    (pts.map fun q => q.1.w * variation p.A p.B p.kappaC p.kappaP q.1 u x).sum ≤ -(1 / p.mob.L) * motion (pts.map (·.1)) x := by
  have hL := hr.L.ne'
  have h3' : ∑ g, weak pts (fun q => p.mob.L * fe p.B (valAt q.1 u.c) (fun g => valAt q.1 (u.eta g)) g + valAt q.1 (x.eta g))
      (fun q e => p.mob.L * p.kappaP * gradient q.1 (u.eta g) e) (x.eta g) = 0 := sum_eq_zero fun g _ => h3 g
  unfold weak at h1 h2 h3'
  rw [list_sum_comm] at h3'
  have hm : motion (pts.map (·.1)) x = (pts.map fun q => q.1.w * ∑ g, valAt q.1 (x.eta g) ^ 2).sum := by
    unfold motion; rw [List.map_map]; rfl
  have hd : 0 ≤ (pts.map fun q => q.1.w * (mobility p q u * ∑ e, gradient q.1 u.mu e ^ 2)).sum := by
    refine List.sum_nonneg fun y hy => ?_
    obtain ⟨q, hq, rfl⟩ := List.mem_map.1 hy
    refine mul_nonneg (hr.w q hq) (mul_nonneg ?_ (sum_nonneg fun e _ => sq_nonneg _))
    refine Props.C39_nonneg p.mob _ _ hr.vol hr.vap hr.surf hr.gb fun y hy => ?_
    obtain ⟨g, rfl⟩ := List.mem_ofFn.1 hy
    exact hr.eta q hq g
  -- the product of rate and potential
  have k1 := sum_lin pts (fun q => q.1.w * (valAt q.1 x.c * valAt q.1 u.mu + ∑ e, mobility p q u * gradient q.1 u.mu e * gradient q.1 u.mu e))
    (fun q => q.1.w * (valAt q.1 x.c * valAt q.1 u.mu)) (fun q => q.1.w * (mobility p q u * ∑ e, gradient q.1 u.mu e ^ 2)) (fun _ => 0) 1 1 0
    (fun q _ => by
      have : ∑ e, mobility p q u * gradient q.1 u.mu e * gradient q.1 u.mu e = mobility p q u * ∑ e, gradient q.1 u.mu e ^ 2 := by
        rw [mul_sum]; exact sum_congr rfl fun e _ => by ring
      rw [this]; ring)
  have k2 := sum_lin pts (fun q => q.1.w * ((p.weightAlg * valAt q.1 u.mu - fc p.A p.B (valAt q.1 u.c) fun g => valAt q.1 (u.eta g)) * valAt q.1 x.c +
      ∑ e, -p.kappaC * gradient q.1 u.c e * gradient q.1 x.c e))
    (fun q => q.1.w * (valAt q.1 x.c * valAt q.1 u.mu))
    (fun q => q.1.w * (fc p.A p.B (valAt q.1 u.c) (fun g => valAt q.1 (u.eta g)) * valAt q.1 x.c + p.kappaC * ∑ e, gradient q.1 u.c e * gradient q.1 x.c e))
    (fun _ => 0) p.weightAlg (-1) 0
    (fun q _ => by
      have : ∑ e, -p.kappaC * gradient q.1 u.c e * gradient q.1 x.c e = -p.kappaC * ∑ e, gradient q.1 u.c e * gradient q.1 x.c e := by
        rw [mul_sum]; exact sum_congr rfl fun e _ => by ring
      rw [this]; ring)
  have k3 := sum_lin pts (fun q => ∑ g, q.1.w * ((p.mob.L * fe p.B (valAt q.1 u.c) (fun g => valAt q.1 (u.eta g)) g + valAt q.1 (x.eta g)) * valAt q.1 (x.eta g) +
      ∑ e, p.mob.L * p.kappaP * gradient q.1 (u.eta g) e * gradient q.1 (x.eta g) e))
    (fun q => q.1.w * (∑ g, fe p.B (valAt q.1 u.c) (fun g => valAt q.1 (u.eta g)) g * valAt q.1 (x.eta g) +
      p.kappaP * ∑ g, ∑ e, gradient q.1 (u.eta g) e * gradient q.1 (x.eta g) e))
    (fun q => q.1.w * ∑ g, valAt q.1 (x.eta g) ^ 2) (fun _ => 0) p.mob.L 1 0
    (fun q _ => by
      rw [← mul_sum]
      have : ∑ g, ((p.mob.L * fe p.B (valAt q.1 u.c) (fun g => valAt q.1 (u.eta g)) g + valAt q.1 (x.eta g)) * valAt q.1 (x.eta g) +
          ∑ e, p.mob.L * p.kappaP * gradient q.1 (u.eta g) e * gradient q.1 (x.eta g) e) =
          p.mob.L * ∑ g, fe p.B (valAt q.1 u.c) (fun g => valAt q.1 (u.eta g)) g * valAt q.1 (x.eta g) + ∑ g, valAt q.1 (x.eta g) ^ 2 +
            p.mob.L * p.kappaP * ∑ g, ∑ e, gradient q.1 (u.eta g) e * gradient q.1 (x.eta g) e := by
        rw [mul_sum, mul_sum, ← sum_add_distrib, ← sum_add_distrib]
        refine sum_congr rfl fun g _ => ?_
        rw [mul_sum]
        have : ∑ e, p.mob.L * p.kappaP * gradient q.1 (u.eta g) e * gradient q.1 (x.eta g) e =
            ∑ e, p.mob.L * p.kappaP * (gradient q.1 (u.eta g) e * gradient q.1 (x.eta g) e) := sum_congr rfl fun e _ => by ring
        rw [this]; ring
      rw [this]; ring)
  have k4 := sum_lin pts (fun q => q.1.w * variation p.A p.B p.kappaC p.kappaP q.1 u x)
    (fun q => q.1.w * (fc p.A p.B (valAt q.1 u.c) (fun g => valAt q.1 (u.eta g)) * valAt q.1 x.c + p.kappaC * ∑ e, gradient q.1 u.c e * gradient q.1 x.c e))
    (fun q => q.1.w * (∑ g, fe p.B (valAt q.1 u.c) (fun g => valAt q.1 (u.eta g)) g * valAt q.1 (x.eta g) +
      p.kappaP * ∑ g, ∑ e, gradient q.1 (u.eta g) e * gradient q.1 (x.eta g) e)) (fun _ => 0) 1 1 0
    (fun q _ => by unfold variation; ring)
  rw [h1] at k1
  rw [h2] at k2
  rw [h3'] at k3
  rw [k4, hm]
  have ha := mul_nonneg hr.alg hd
  generalize (pts.map fun q => q.1.w * (valAt q.1 x.c * valAt q.1 u.mu)).sum = a at *
  generalize (pts.map fun q => q.1.w * (mobility p q u * ∑ e, gradient q.1 u.mu e ^ 2)).sum = b at *
  generalize (pts.map fun q => q.1.w * ∑ g, valAt q.1 (x.eta g) ^ 2).sum = f at *
  generalize (pts.map fun q => q.1.w * (fc p.A p.B (valAt q.1 u.c) (fun g => valAt q.1 (u.eta g)) * valAt q.1 x.c + p.kappaC * ∑ e, gradient q.1 u.c e * gradient q.1 x.c e)).sum = s at *
  generalize (pts.map fun q => q.1.w * (∑ g, fe p.B (valAt q.1 u.c) (fun g => valAt q.1 (u.eta g)) g * valAt q.1 (x.eta g) +
      p.kappaP * ∑ g, ∑ e, gradient q.1 (u.eta g) e * gradient q.1 (x.eta g) e)).sum = r at *
  have e1 : a = -b := by linarith
  have e2 : s = p.weightAlg * a := by linarith
  have e3 : r = -(1 / p.mob.L) * f := by
    have : p.mob.L * r = -f := by linarith
    field_simp
    linarith
  rw [e2, e1, e3]
  have : p.weightAlg * -b = -(p.weightAlg * b) := by ring
  rw [this]
  linarith

end Verif.Energy
