/-
C52: the linearised sintering operator is the derivative of the residual.
-/
import Verif.Model.SinteringKernel
import Verif.Lemmas.FreeEnergy
import Verif.Props.Mobility

namespace Verif.Props

open Verif.FreeEnergy Verif.Mobility Verif.SinteringKernel

variable {V : Type} [NormedAddCommGroup V] [NormedSpace ℝ V]

/-- Specification: the point moved by `s` along an increment; old solutions and velocities are fixed. -/
noncomputable def moved (x : SinteringKernel.Point ℝ V) (d : Incr ℝ V) (s : ℝ) : SinteringKernel.Point ℝ V :=
  { c := x.c + s * d.c
    mu := x.mu + s * d.mu
    gradC := x.gradC + s • d.gradC
    gradMu := x.gradMu + s • d.gradMu
    grains := (x.grains.zip d.etas).map fun t =>
      { eta := t.1.eta + s * t.2.1, grad := t.1.grad + s • t.2.2, vel := t.1.vel, buf := t.1.buf }
    bufC := x.bufC }

private theorem zip_map_self {α β : Type} (l : List α) (f : α → β) : l.zip (l.map f) = l.map fun a => (a, f a) := by
  induction l with
  | nil => rfl
  | cons a l ih => simp [ih]

private theorem advect_eq {W : Type} [AddCommGroup W] [Module ℝ W] (c : ℝ) (g : W) (l : List (Option W × ℝ × W)) :
    advect c g l = (g - c • (l.map fun t => t.1.getD 0).sum, l.map fun t => t.2.2 - t.2.1 • t.1.getD 0) := by
  induction l generalizing g with
  | nil => simp [advect]
  | cons t l ih =>
    rcases t with ⟨_ | v, e, h⟩
    · simp [advect, ih]
    · simp [advect, ih, smul_add, sub_sub]

private theorem mixedLoop_eq (fe : Eval ℝ) (a : ℝ) (l : List (ℝ × ℝ)) :
    mixedLoop fe a l = a - (l.map fun t => fe.d2f_dcdetai t.1 * t.2).sum := by
  induction l generalizing a with
  | nil => simp [mixedLoop]
  | cons t l ih =>
    rcases t with ⟨e, v⟩
    simp [mixedLoop, ih]
    ring

/-- Closed form of the evaluator at a list of order parameters. -/
private noncomputable def fe (A B c : ℝ) (with3 : Bool) (etas : List ℝ) : Eval ℝ :=
  { A := A, B := B, c := c, p2 := (etas.map (· ^ 2)).sum,
    p3 := if with3 then some ((etas.map (· ^ 3)).sum) else none }

private theorem eval_eq (with3 : Bool) (A B c mu : ℝ) (etas : List ℝ) :
    FreeEnergy.eval with3 A B (c :: mu :: etas) etas.length = .ok (fe A B c with3 etas) := by
  have := eval_ok with3 A B c mu etas []
  simpa [fe] using this

private noncomputable def dfdc (A B c p2 p3 : ℝ) : ℝ :=
  A * (c * c) * (2 * c - 2) + 2 * A * c * ((-c + 1) * (-c + 1)) + B * (2 * c - 6 * p2 + 4 * p3)

private theorem residual_eq (p : Par ℝ) (mode : Nat) (x : SinteringKernel.Point ℝ V) :
    SinteringKernel.residual p mode x = .ok
      { valC := (if mode = 2 then (if 1 ≤ mode then x.c * p.weight else 0) + x.bufC
                 else if 1 ≤ mode then x.c * p.weight else 0)
        gradC := applyM p.mob x.c (x.grains.map (·.eta)) x.gradMu -
          x.c • (x.grains.map fun g => g.vel.getD 0).sum
        valMu := p.weightAlg * x.mu - dfdc p.A p.B x.c ((x.grains.map fun g => g.eta ^ 2).sum)
          ((x.grains.map fun g => g.eta ^ 3).sum)
        gradMu := (-p.kappaC) • x.gradC
        etas := x.grains.map fun g =>
          ((let v := p.mob.L * (g.eta * (p.B * 12) * (g.eta * (1 * x.c - 2) + (-x.c + 1) +
              (x.grains.map fun g => g.eta ^ 2).sum))
            let v := if 1 ≤ mode then v + g.eta * p.weight else v
            if mode = 2 then v + g.buf else v),
           (p.mob.L * p.kappaP) • g.grad - g.eta • g.vel.getD 0) } := by
  unfold SinteringKernel.residual
  simp only [eval_eq, Res.ok_bind, fe, Eval.df_dc, if_true, Eval.df_detai, zip_map_self, List.map_map,
    Function.comp_def, advect_eq, List.zip_map', dfdc]

private theorem vmult_eq (p : Par ℝ) (x : SinteringKernel.Point ℝ V) (d : Incr ℝ V) :
    vmult p x d = .ok
      { valC := d.c * p.weight
        gradC := applyMDerivative p.mob x.c ((x.grains.zip d.etas).map fun t => (t.1.eta, t.2.1)) x.gradMu d.c d.gradMu -
          d.c • ((x.grains.zip d.etas).map fun t => t.1.vel.getD 0).sum
        valMu := p.weightAlg * d.mu - (fe p.A p.B x.c false (x.grains.map (·.eta))).d2f_dc2 * d.c -
          ((x.grains.zip d.etas).map fun t => p.B * 12 * t.1.eta * (t.1.eta - 1) * t.2.1).sum
        gradMu := (-p.kappaC) • d.gradC
        etas := (x.grains.zip d.etas).map fun t =>
          (t.2.1 * p.weight + p.mob.L * (p.B * 12 * t.1.eta * (t.1.eta - 1) * d.c +
              (fe p.A p.B x.c false (x.grains.map (·.eta))).d2f_detai2 t.1.eta * t.2.1) +
            (p.mob.L * 24 * p.B) * t.1.eta *
              (((x.grains.zip d.etas).map fun t => t.1.eta * t.2.1).sum - t.1.eta * t.2.1),
           (p.mob.L * p.kappaP) • t.2.2 - t.2.1 • t.1.vel.getD 0) } := by
  unfold vmult
  simp only [eval_eq, Res.ok_bind, zip_map_self, List.map_map, Function.comp_def, advect_eq, List.zip_map',
    mixedLoop_eq, applyD2f_eq, Eval.d2f_dcdetai]
  rfl

private theorem list_deriv {α : Type} (l : List α) (f : α → ℝ → ℝ) (f' : α → ℝ)
    (h : ∀ a ∈ l, HasDerivAt (f a) (f' a) 0) :
    HasDerivAt (fun s => (l.map fun a => f a s).sum) ((l.map f').sum) 0 := by
  induction l with
  | nil => simpa using hasDerivAt_const (0 : ℝ) (0 : ℝ)
  | cons a l ih =>
    simp only [List.map_cons, List.sum_cons]
    exact (h a (List.mem_cons_self ..)).add (ih fun b hb => h b (List.mem_cons_of_mem _ hb))

private theorem lin (a b : ℝ) : HasDerivAt (fun s : ℝ => a + s * b) b 0 := by
  simpa using ((hasDerivAt_id (0 : ℝ)).mul_const b).const_add a

private theorem linV (a b : V) : HasDerivAt (fun s : ℝ => a + s • b) b 0 := by
  simpa using ((hasDerivAt_id (0 : ℝ)).smul_const b).const_add a

private theorem map_fst_zip {α β : Type} (a : List α) (b : List β) (h : b.length = a.length) :
    a = (a.zip b).map (·.1) := by
  rw [List.map_fst_zip]; omega

/-- **C52**.  At every quadrature point, for all states with concentration in [0,1], all increments and all
numbers of order parameters, the result of the linearised operator is the derivative of the residual (with time
derivative) along the increment, for the values and gradients of all rows. -/
theorem C52_linearisation (p : Par ℝ) (mode : Nat) (hm : 1 ≤ mode) (x : SinteringKernel.Point ℝ V) (d : Incr ℝ V)
    (h0 : 0 ≤ x.c) (h1 : x.c ≤ 1) (hlen : d.etas.length = x.grains.length) :
    ∃ (R : ℝ → Out ℝ V) (J : Out ℝ V), (∀ s, SinteringKernel.residual p mode (moved x d s) = .ok (R s)) ∧ vmult p x d = .ok J ∧
      HasDerivAt (fun s => (R s).valC) J.valC 0 ∧
      HasDerivAt (fun s => (R s).gradC) J.gradC 0 ∧
      HasDerivAt (fun s => (R s).valMu) J.valMu 0 ∧
      HasDerivAt (fun s => (R s).gradMu) J.gradMu 0 ∧
      J.etas.length = x.grains.length ∧
      ∀ (i : Nat) (hi : i < x.grains.length), ∃ (f : ℝ → ℝ) (g : ℝ → V) (f' : ℝ) (g' : V),
        (∀ s, (R s).etas[i]? = some (f s, g s)) ∧ J.etas[i]? = some (f', g') ∧
        HasDerivAt f f' 0 ∧ HasDerivAt g g' 0 := by
  have hx : x.grains = (x.grains.zip d.etas).map (·.1) := map_fst_zip _ _ hlen
  have hll : (x.grains.zip d.etas).length = x.grains.length := by simp [hlen]
  have hp2 : (fe p.A p.B x.c false (x.grains.map (·.eta))).p2 =
      ((x.grains.zip d.etas).map fun t => t.1.eta ^ 2).sum := by
    simp only [fe, List.map_map, Function.comp_def]
    conv_lhs => rw [hx]
    simp only [List.map_map, Function.comp_def]
  have hfeA : (fe p.A p.B x.c false (x.grains.map (·.eta))).A = p.A := rfl
  have hfeB : (fe p.A p.B x.c false (x.grains.map (·.eta))).B = p.B := rfl
  have hfec : (fe p.A p.B x.c false (x.grains.map (·.eta))).c = x.c := rfl
  refine ⟨_, _, fun s => residual_eq p mode _, vmult_eq p x d, ?_⟩
  simp only [moved, List.map_map, Function.comp_def]
  generalize x.grains.zip d.etas = l at *
  -- sums of squares and cubes along the increment
  have D2 : HasDerivAt (fun s : ℝ => (l.map fun t => (t.1.eta + s * t.2.1) ^ 2).sum)
      ((l.map fun t => 2 * (t.1.eta * t.2.1)).sum) 0 := by
    refine list_deriv l (fun t s => (t.1.eta + s * t.2.1) ^ 2) _ fun t _ => ?_
    refine ((lin t.1.eta t.2.1).pow 2).congr_deriv ?_
    simp; ring
  have D3 : HasDerivAt (fun s : ℝ => (l.map fun t => (t.1.eta + s * t.2.1) ^ 3).sum)
      ((l.map fun t => 3 * (t.1.eta ^ 2 * t.2.1)).sum) 0 := by
    refine list_deriv l (fun t s => (t.1.eta + s * t.2.1) ^ 3) _ fun t _ => ?_
    refine ((lin t.1.eta t.2.1).pow 3).congr_deriv ?_
    simp; ring
  have e2 : (l.map fun t => 2 * (t.1.eta * t.2.1)).sum = 2 * (l.map fun t => t.1.eta * t.2.1).sum := by
    rw [List.sum_map_mul_left]
  have hc := lin x.c d.c
  refine ⟨?_, ?_, ?_, ?_, ?_, ?_⟩
  · -- concentration, value
    simp only [if_pos hm]
    by_cases h2 : mode = 2
    · simp only [if_pos h2]
      exact (hc.mul_const p.weight).add_const _
    · simp only [if_neg h2]
      exact hc.mul_const p.weight
  · -- concentration, gradient
    have h := C39_scalar p.mob h0 h1 (l.map fun t => (t.1.eta, t.2.1)) d.c x.gradMu d.gradMu
    simp only [shift, List.map_map, Function.comp_def] at h
    exact h.sub (hc.smul_const _)
  · -- chemical potential, value
    have hd : HasDerivAt (fun s : ℝ => dfdc p.A p.B (x.c + s * d.c)
        ((l.map fun t => (t.1.eta + s * t.2.1) ^ 2).sum) ((l.map fun t => (t.1.eta + s * t.2.1) ^ 3).sum))
        ((2 * p.A * (x.c * x.c) + 4 * p.A * x.c * (2 * x.c - 2) + 2 * p.A * ((-x.c + 1) * (-x.c + 1)) +
          2 * p.B) * d.c + p.B * (-6 * (2 * (l.map fun t => t.1.eta * t.2.1).sum) +
            4 * (l.map fun t => 3 * (t.1.eta ^ 2 * t.2.1)).sum)) 0 := by
      have t1 := ((hc.mul hc).const_mul p.A).mul ((hc.const_mul 2).sub_const 2)
      have t2 := (hc.const_mul (2 * p.A)).mul ((hc.neg.add_const 1).mul (hc.neg.add_const 1))
      have t3 := (((hc.const_mul 2).sub (D2.const_mul 6)).add (D3.const_mul 4)).const_mul p.B
      refine ((t1.add t2).add t3).congr_deriv ?_
      rw [e2]
      simp
      ring
    refine (((lin x.mu d.mu).const_mul p.weightAlg).sub hd).congr_deriv ?_
    have e3 : (l.map fun t => p.B * 12 * t.1.eta * (t.1.eta - 1) * t.2.1).sum =
        p.B * (-6 * (2 * (l.map fun t => t.1.eta * t.2.1).sum) +
            4 * (l.map fun t => 3 * (t.1.eta ^ 2 * t.2.1)).sum) := by
      clear hd D2 D3 e2 hp2 hx hll
      induction l with
      | nil => simp
      | cons t l ih => simp only [List.map_cons, List.sum_cons, ih]; ring
    rw [e3, Eval.d2f_dc2, hfeA, hfeB, hfec]
    ring
  · -- chemical potential, gradient
    exact (linV x.gradC d.gradC).const_smul _
  · simpa using hll
  · intro i hi
    have hi' : i < l.length := by omega
    refine ⟨fun s => _, fun s => _, _, _, fun s => by
      simp only [List.getElem?_map, List.getElem?_eq_getElem hi', Option.map_some]; rfl,
      by simp only [List.getElem?_map, List.getElem?_eq_getElem hi', Option.map_some]; rfl, ?_, ?_⟩
    · generalize l[i] = t
      have he := lin t.1.eta t.2.1
      have hE : HasDerivAt (fun s : ℝ => p.mob.L * ((t.1.eta + s * t.2.1) * (p.B * 12) *
          ((t.1.eta + s * t.2.1) * (1 * (x.c + s * d.c) - 2) + (-(x.c + s * d.c) + 1) +
            (l.map fun t => (t.1.eta + s * t.2.1) ^ 2).sum)))
          (p.mob.L * (p.B * 12 * t.1.eta * (t.1.eta - 1) * d.c +
              (fe p.A p.B x.c false (x.grains.map (·.eta))).d2f_detai2 t.1.eta * t.2.1) +
            (p.mob.L * 24 * p.B) * t.1.eta * ((l.map fun t => t.1.eta * t.2.1).sum - t.1.eta * t.2.1)) 0 := by
        have b := ((he.mul ((hc.const_mul 1).sub_const 2)).add (hc.neg.add_const 1)).add D2
        refine (((he.mul_const (p.B * 12)).mul b).const_mul p.mob.L).congr_deriv ?_
        rw [Eval.d2f_detai2, hfeB, hfec, hp2, e2]
        simp
        ring
      have hw : HasDerivAt (fun s : ℝ => (t.1.eta + s * t.2.1) * p.weight) (t.2.1 * p.weight) 0 := he.mul_const _
      have h := hE.add hw
      simp only [if_pos hm]
      by_cases h2 : mode = 2
      · simp only [if_pos h2]
        refine (h.add_const t.1.buf).congr_deriv ?_
        ring
      · simp only [if_neg h2]
        refine h.congr_deriv ?_
        ring
    · generalize l[i] = t
      exact ((linV t.1.grad t.2.2).const_smul _).sub ((lin t.1.eta t.2.1).smul_const _)

namespace Ex52

/-- Two touching grains in one dimension, the second one moving. -/
noncomputable def p : Par ℝ :=
  { A := 16, B := 1, mob := { Mvol := 1, Mvap := 2, Msurf := 3, Mgb := 4, L := 5 }, kappaC := 1, kappaP := 2,
    weight := 10, weightAlg := 1 }

noncomputable def x : SinteringKernel.Point ℝ ℝ :=
  { c := 1 / 2, mu := 1, gradC := 1, gradMu := 2,
    grains := [{ eta := 1 / 2, grad := 1, vel := none, buf := 1 },
      { eta := 1 / 4, grad := -1, vel := some 3, buf := 0 }],
    bufC := 1 }

noncomputable def d : Incr ℝ ℝ := { c := 1, mu := 1, gradC := 1, gradMu := 1, etas := [(1, 0), (0, 1)] }

example : ∃ (R : ℝ → Out ℝ ℝ) (J : Out ℝ ℝ), (∀ s, SinteringKernel.residual p 2 (moved x d s) = .ok (R s)) ∧
    vmult p x d = .ok J ∧ HasDerivAt (fun s => (R s).valMu) J.valMu 0 := by
  obtain ⟨R, J, a, b, _, _, c, _⟩ := C52_linearisation p 2 (by omega) x d (by norm_num [x]) (by norm_num [x]) rfl
  exact ⟨R, J, a, b, c⟩

end Ex52

end Verif.Props
