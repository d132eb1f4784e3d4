/-
C153: the energy of the microstructure.
-/
import Verif.Lemmas.Energy
import Verif.Model.DomainIntegrals
import Mathlib.Analysis.Convex.Deriv
import Mathlib.Analysis.Convex.Mul
import Mathlib.Analysis.Calculus.Deriv.MeanValue
import Mathlib.Tactic.NormNum

set_option linter.unusedSectionVars false

namespace Verif.Props

open Finset Verif.Energy Verif.Energy.Spec
open Verif.Apps (QPt value gradient)

variable {n m d : Nat}

/-- The residual without time derivative: rates with the mass matrix. -/
private theorem rates_zero {p : SinteringKernel.Par ℝ} {order : Nat} {w : ℝ} {ws : List ℝ} {pts : List (VPt ℝ n m d)} {u r x : Fields ℝ n m}
    {olds : List (Fields ℝ n m)} (hr : Regular p pts u) (h : residualAll p 0 order (w :: ws) pts u olds = .ok r)
    (hm : ∀ i, r.mu i = 0) (hc : ∀ i, mass (pts.map (·.1)) x.c i = -r.c i) (he : ∀ g i, mass (pts.map (·.1)) (x.eta g) i = -r.eta g i) :
    (pts.map fun q => q.1.w * variation p.A p.B p.kappaC p.kappaP q.1 u x).sum ≤ -(1 / p.mob.L) * motion (pts.map (·.1)) x := by
  obtain ⟨r', h0, h1, h2, h3⟩ := loop_eq { p with weight := w } 0 u Fields.zero pts hr.still Fields.zero
  have hrr : r' = r := by
    unfold residualAll at h
    simp only [Res.index, List.getElem?_cons_zero, Res.ok_bind, if_neg (show ¬ (0 : Nat) = 2 by omega)] at h
    exact Res.ok.inj (h0.symm.trans h)
  subst hrr
  refine variation_le hr x ?_ ?_ ?_
  · rw [← weak_test]
    refine sum_eq_zero fun i _ => ?_
    have k := asm_mass pts (fun _ => 0) (fun q e => mobility p q u * gradient q.1 u.mu e) x.c i
    have e := h1 i
    simp only [Fields.zero, zero_add, if_neg (show ¬ (0 : Nat) = 2 by omega), if_neg (show ¬ 1 ≤ (0 : Nat) by omega), add_zero] at e k
    rw [k, hc i]
    exact mul_eq_zero_of_left (by rw [e]; exact add_neg_cancel _) _
  · rw [← weak_test]
    refine sum_eq_zero fun i _ => mul_eq_zero_of_left ?_ _
    have e := h2 i
    rw [hm i] at e
    simp only [Fields.zero, zero_add] at e
    exact e.symm
  · intro g
    rw [← weak_test]
    refine sum_eq_zero fun i _ => mul_eq_zero_of_left ?_ _
    rw [asm_mass pts (fun q => p.mob.L * fe p.B (valAt q.1 u.c) (fun g => valAt q.1 (u.eta g)) g) (fun q e => p.mob.L * p.kappaP * gradient q.1 (u.eta g) e)
      (x.eta g) i, he g i]
    have e := h3 g i
    simp only [Fields.zero, zero_add, if_neg (show ¬ (0 : Nat) = 2 by omega), if_neg (show ¬ 1 ≤ (0 : Nat) by omega), add_zero] at e
    rw [e]
    exact add_neg_cancel _

/-- While the equations of the sintering operator without advection hold (rates by the mass matrix, chemical potential by its equation), the energy
does not grow; it decreases at least as fast as the order parameters move. -/
theorem C153_decay {p : SinteringKernel.Par ℝ} {order : Nat} {w : ℝ} {ws : List ℝ} {pts : List (VPt ℝ n m d)} {U : ℝ → Fields ℝ n m} {r x : Fields ℝ n m}
    {olds : List (Fields ℝ n m)} {t : ℝ} (hU : Moves U x t) (hr : Regular p pts (U t)) (h : residualAll p 0 order (w :: ws) pts (U t) olds = .ok r)
    (hm : ∀ i, r.mu i = 0) (hc : ∀ i, mass (pts.map (·.1)) x.c i = -r.c i) (he : ∀ g i, mass (pts.map (·.1)) (x.eta g) i = -r.eta g i) :
    ∃ v, HasDerivAt (fun s => energy p.A p.B p.kappaC p.kappaP (pts.map (·.1)) (U s)) v t ∧
      v ≤ -(1 / p.mob.L) * motion (pts.map (·.1)) x ∧ v ≤ 0 := by
  have h1 := energy_deriv p.A p.B p.kappaC p.kappaP (pts.map (·.1)) hU
  rw [List.map_map] at h1
  have h2 := rates_zero hr h hm hc he
  refine ⟨_, h1, h2, h2.trans ?_⟩
  have : 0 ≤ motion (pts.map (·.1)) x := List.sum_nonneg fun y hy => by
    obtain ⟨q, hq, rfl⟩ := List.mem_map.1 hy
    obtain ⟨q', hq', rfl⟩ := List.mem_map.1 hq
    exact mul_nonneg (hr.w q' hq') (sum_nonneg fun g _ => sq_nonneg _)
  have := mul_nonneg (one_div_pos.2 hr.L).le this
  linarith

/-- Along a whole solution the energy never grows. -/
theorem C153_antitone {p : SinteringKernel.Par ℝ} {order : Nat} {w : ℝ} {ws : List ℝ} {pts : List (VPt ℝ n m d)} {U X R : ℝ → Fields ℝ n m}
    {olds : List (Fields ℝ n m)} {a b : ℝ} (hab : a ≤ b) (hU : ∀ t ∈ Set.Icc a b, Moves U (X t) t) (hr : ∀ t ∈ Set.Icc a b, Regular p pts (U t))
    (h : ∀ t ∈ Set.Icc a b, residualAll p 0 order (w :: ws) pts (U t) olds = .ok (R t)) (hm : ∀ t ∈ Set.Icc a b, ∀ i, (R t).mu i = 0)
    (hc : ∀ t ∈ Set.Icc a b, ∀ i, mass (pts.map (·.1)) (X t).c i = -(R t).c i)
    (he : ∀ t ∈ Set.Icc a b, ∀ g i, mass (pts.map (·.1)) ((X t).eta g) i = -(R t).eta g i) :
    energy p.A p.B p.kappaC p.kappaP (pts.map (·.1)) (U b) ≤ energy p.A p.B p.kappaC p.kappaP (pts.map (·.1)) (U a) := by
  have key := fun t ht => C153_decay (hU t ht) (hr t ht) (h t ht) (hm t ht) (hc t ht) (he t ht)
  refine antitoneOn_of_deriv_nonpos (f := fun s => energy p.A p.B p.kappaC p.kappaP (pts.map (·.1)) (U s)) (convex_Icc a b) (fun t ht => ?_) (fun t ht => ?_) (fun t ht => ?_) (Set.left_mem_Icc.2 hab) (Set.right_mem_Icc.2 hab) hab
  · obtain ⟨v, hv, _⟩ := key t ht
    exact hv.continuousAt.continuousWithinAt
  · obtain ⟨v, hv, _⟩ := key t (interior_subset ht)
    exact hv.differentiableAt.differentiableWithinAt
  · obtain ⟨v, hv, _, h0⟩ := key t (interior_subset ht)
    rw [hv.deriv]
    exact h0

/-- The residual of a step: the rates are discrete. -/
private theorem rates_two {p : SinteringKernel.Par ℝ} {order : Nat} (ho : order ≠ 0) {weights : List ℝ} (hw : order < weights.length)
    {pts : List (VPt ℝ n m d)} {u r : Fields ℝ n m} {olds : List (Fields ℝ n m)} (hl : order ≤ olds.length) (hr : Regular p pts u)
    (h : residualAll p 2 order weights pts u olds = .ok r) (hc : ∀ i, r.c i = 0) (hm : ∀ i, r.mu i = 0) (he : ∀ g i, r.eta g i = 0) :
    (pts.map fun q => q.1.w * variation p.A p.B p.kappaC p.kappaP q.1 u (rate order weights u olds)).sum ≤
      -(1 / p.mob.L) * motion (pts.map (·.1)) (rate order weights u olds) := by
  have hw0 : weights[0]? = some weights[0] := List.getElem?_eq_getElem (by omega)
  have hd0 : weights.getD 0 0 = weights[0] := by rw [List.getD_eq_getElem?_getD, hw0]; rfl
  unfold residualAll at h
  simp only [Res.index, hw0, Res.ok_bind, if_true] at h
  rw [history_eq ho hw hl] at h
  obtain ⟨r', h0, h1, h2, h3⟩ := loop_eq { p with weight := weights[0] } 2 u
    ⟨fun i => ∑ j ∈ range order, weights.getD (j + 1) 0 * (olds.getD j ⟨0, 0, 0⟩).c i,
      fun i => ∑ j ∈ range order, weights.getD (j + 1) 0 * (olds.getD j ⟨0, 0, 0⟩).mu i,
      fun g i => ∑ j ∈ range order, weights.getD (j + 1) 0 * (olds.getD j ⟨0, 0, 0⟩).eta g i⟩ pts hr.still Fields.zero
  have hrr : r' = r := Res.ok.inj (h0.symm.trans h)
  subst hrr
  have hv : ∀ (q : QPt ℝ n d) (y z : Fin n → ℝ), valAt q y * weights[0] + valAt q z = valAt q fun i => weights.getD 0 0 * y i + z i := by
    intro q y z
    unfold valAt
    rw [sum_mul, ← sum_add_distrib, hd0]
    exact sum_congr rfl fun i _ => by ring
  refine variation_le hr _ ?_ ?_ ?_
  · rw [← weak_test]
    refine sum_eq_zero fun i _ => mul_eq_zero_of_left ?_ _
    have e := h1 i
    rw [hc i] at e
    simp only [Fields.zero, zero_add, if_true, if_pos (show 1 ≤ (2 : Nat) by omega), hv] at e
    exact e.symm
  · rw [← weak_test]
    refine sum_eq_zero fun i _ => mul_eq_zero_of_left ?_ _
    have e := h2 i
    rw [hm i] at e
    simp only [Fields.zero, zero_add] at e
    exact e.symm
  · intro g
    rw [← weak_test]
    refine sum_eq_zero fun i _ => mul_eq_zero_of_left ?_ _
    have e := h3 g i
    rw [he g i] at e
    simp only [Fields.zero, zero_add, if_true, if_pos (show 1 ≤ (2 : Nat) by omega), add_assoc, hv] at e
    exact e.symm

theorem line_moves (u x : Fields ℝ n m) (t : ℝ) : Moves (line u x) x t := by
  have : ∀ a b : ℝ, HasDerivAt (fun s : ℝ => a + s * b) b t := fun a b => by
    simpa using ((hasDerivAt_id t).mul_const b).const_add a
  exact ⟨fun i => this _ _, fun g i => this _ _⟩

theorem line_zero (u x : Fields ℝ n m) : line u x 0 = u := by simp [line]

/-- The solution of an implicit step of any order: at the new solution the energy does not grow in the direction of the discrete rate. -/
theorem C153_rate {p : SinteringKernel.Par ℝ} {order : Nat} (ho : order ≠ 0) {weights : List ℝ} (hw : order < weights.length)
    {pts : List (VPt ℝ n m d)} {u r : Fields ℝ n m} {olds : List (Fields ℝ n m)} (hl : order ≤ olds.length) (hr : Regular p pts u)
    (h : residualAll p 2 order weights pts u olds = .ok r) (hc : ∀ i, r.c i = 0) (hm : ∀ i, r.mu i = 0) (he : ∀ g i, r.eta g i = 0) :
    ∃ v, HasDerivAt (fun s => energy p.A p.B p.kappaC p.kappaP (pts.map (·.1)) (line u (rate order weights u olds) s)) v 0 ∧
      v ≤ -(1 / p.mob.L) * motion (pts.map (·.1)) (rate order weights u olds) := by
  have h1 := energy_deriv p.A p.B p.kappaC p.kappaP (pts.map (·.1)) (line_moves u (rate order weights u olds) 0)
  rw [List.map_map, line_zero] at h1
  exact ⟨_, h1, rates_two ho hw hl hr h hc hm he⟩

private theorem density_above {A B kC kP : ℝ} (hC : 0 ≤ kC) (hP : 0 ≤ kP) (q : QPt ℝ n d) (u0 u1 x : Fields ℝ n m) {dt : ℝ} (hdt : 0 < dt)
    (hx : ∀ i, x.c i = (u1.c i - u0.c i) / dt) (hx' : ∀ g i, x.eta g i = (u1.eta g i - u0.eta g i) / dt)
    (hv : ConvexOn ℝ (Set.Icc 0 1) fun s => bulk A B (valAt q u0.c + s * (valAt q u1.c - valAt q u0.c))
      fun g : Fin m => valAt q (u0.eta g) + s * (valAt q (u1.eta g) - valAt q (u0.eta g))) :
    density A B kC kP q u1 - density A B kC kP q u0 ≤ dt * variation A B kC kP q u1 x := by
  have vx : ∀ (a b y : Fin n → ℝ), (∀ i, y i = (b i - a i) / dt) → dt * valAt q y = valAt q b - valAt q a := by
    intro a b y hy
    unfold valAt
    rw [mul_sum, ← sum_sub_distrib]
    exact sum_congr rfl fun i _ => by rw [hy i]; field_simp
  have gx : ∀ (a b y : Fin n → ℝ), (∀ i, y i = (b i - a i) / dt) → ∀ e, dt * gradient q y e = gradient q b e - gradient q a e := by
    intro a b y hy e
    unfold gradient
    rw [mul_sum, ← sum_sub_distrib]
    exact sum_congr rfl fun i _ => by rw [hy i]; field_simp
  have lin : ∀ a b : ℝ, HasDerivAt (fun s : ℝ => a + s * b) b 1 := fun a b => by
    simpa using ((hasDerivAt_id (1 : ℝ)).mul_const b).const_add a
  have hb := bulk_deriv A B (lin (valAt q u0.c) (valAt q u1.c - valAt q u0.c)) (fun g : Fin m => lin (valAt q (u0.eta g)) (valAt q (u1.eta g) - valAt q (u0.eta g)))
  have hs := hv.slope_le_of_hasDerivAt (by simp) (by simp) zero_lt_one hb
  simp only [slope_def_field, one_mul, zero_mul, add_zero, sub_zero, div_one, add_sub_cancel] at hs
  have gr : ∀ (a b y : Fin n → ℝ), (∀ i, y i = (b i - a i) / dt) → grad2 q b - grad2 q a ≤ 2 * (dt * ∑ e, gradient q b e * gradient q y e) := by
    intro a b y hy
    unfold grad2
    rw [← sum_sub_distrib, mul_sum, mul_sum]
    refine sum_le_sum fun e _ => ?_
    have h1 := gx a b y hy e
    have h2 : dt * (gradient q b e * gradient q y e) = gradient q b e * (gradient q b e - gradient q a e) := by rw [← h1]; ring
    rw [h2]
    show gradient q b e ^ 2 - gradient q a e ^ 2 ≤ _
    nlinarith [sq_nonneg (gradient q b e - gradient q a e)]
  have g1 := mul_le_mul_of_nonneg_left (gr _ _ _ hx) (by positivity : 0 ≤ kC / 2)
  have g2 : kP / 2 * (∑ g, grad2 q (u1.eta g) - ∑ g, grad2 q (u0.eta g)) ≤ kP / 2 * (2 * (dt * ∑ g, ∑ e, gradient q (u1.eta g) e * gradient q (x.eta g) e)) := by
    refine mul_le_mul_of_nonneg_left ?_ (by positivity)
    rw [← sum_sub_distrib, mul_sum, mul_sum]
    exact sum_le_sum fun g _ => gr _ _ _ (hx' g)
  have hs' : bulk A B (valAt q u1.c) (fun g => valAt q (u1.eta g)) - bulk A B (valAt q u0.c) (fun g => valAt q (u0.eta g)) ≤
      dt * (fc A B (valAt q u1.c) (fun g => valAt q (u1.eta g)) * valAt q x.c + ∑ g, fe B (valAt q u1.c) (fun g => valAt q (u1.eta g)) g * valAt q (x.eta g)) := by
    refine hs.trans (le_of_eq ?_)
    rw [mul_add, mul_sum, ← vx _ _ _ hx]
    congr 1
    · ring
    · exact sum_congr rfl fun g _ => by rw [← vx _ _ _ (hx' g)]; ring
  unfold density variation
  linarith

/-- A step of the implicit Euler method does not raise the energy, however long it is, if the bulk energy is convex between the two solutions. -/
theorem C153_step_partial {p : SinteringKernel.Par ℝ} {dt : ℝ} (hdt : 0 < dt) {pts : List (VPt ℝ n m d)} {u u0 r : Fields ℝ n m} {olds : List (Fields ℝ n m)}
    (hr : Regular p pts u) (hC : 0 ≤ p.kappaC) (hP : 0 ≤ p.kappaP) (h : residualAll p 2 1 [1 / dt, -1 / dt] pts u (u0 :: olds) = .ok r)
    (hc : ∀ i, r.c i = 0) (hm : ∀ i, r.mu i = 0) (he : ∀ g i, r.eta g i = 0)
    (hv : ∀ q ∈ pts, ConvexOn ℝ (Set.Icc 0 1) fun s => bulk p.A p.B (valAt q.1 u0.c + s * (valAt q.1 u.c - valAt q.1 u0.c))
      fun g : Fin m => valAt q.1 (u0.eta g) + s * (valAt q.1 (u.eta g) - valAt q.1 (u0.eta g))) :
    energy p.A p.B p.kappaC p.kappaP (pts.map (·.1)) u ≤ energy p.A p.B p.kappaC p.kappaP (pts.map (·.1)) u0 := by
  have h2 := rates_two one_ne_zero (by simp) (by simp) hr h hc hm he
  have h3 : -(1 / p.mob.L) * motion (pts.map (·.1)) (rate 1 [1 / dt, -1 / dt] u (u0 :: olds)) ≤ 0 := by
    have : 0 ≤ motion (pts.map (·.1)) (rate 1 [1 / dt, -1 / dt] u (u0 :: olds)) := List.sum_nonneg fun y hy => by
      obtain ⟨q, hq, rfl⟩ := List.mem_map.1 hy
      obtain ⟨q', hq', rfl⟩ := List.mem_map.1 hq
      exact mul_nonneg (hr.w q' hq') (sum_nonneg fun g _ => sq_nonneg _)
    have := mul_nonneg (one_div_pos.2 hr.L).le this
    linarith
  have h4 := h2.trans h3
  have key : energy p.A p.B p.kappaC p.kappaP (pts.map (·.1)) u - energy p.A p.B p.kappaC p.kappaP (pts.map (·.1)) u0 ≤
      dt * (pts.map fun q => q.1.w * variation p.A p.B p.kappaC p.kappaP q.1 u (rate 1 [1 / dt, -1 / dt] u (u0 :: olds))).sum := by
    clear h2 h3 h4 h
    have hw := hr.w
    clear hr
    induction pts with
    | nil => simp [energy]
    | cons q l ih =>
      have i1 := ih (fun q hq => hv q (by simp [hq])) (fun q hq => hw q (by simp [hq]))
      have i2 := density_above hC hP q.1 u0 u (rate 1 [1 / dt, -1 / dt] u (u0 :: olds)) hdt (by intro i; simp [rate]; ring) (by intro g i; simp [rate]; ring)
        (hv q (by simp))
      have i3 := mul_le_mul_of_nonneg_left i2 (hw q (by simp))
      simp only [energy, List.map_cons, List.sum_cons, mul_add] at i1 ⊢
      linarith
  have := mul_nonpos_of_nonneg_of_nonpos hdt.le h4
  linarith

private theorem foldl_add (f : Nat → ℝ) (k : Nat) : (List.range k).foldl (fun s i => s + f i) 0 = ∑ i ∈ range k, f i := by
  induction k with
  | zero => simp
  | succ k ih => rw [List.range_succ, List.foldl_append, ih, sum_range_succ]; rfl

/-- The energy in the table of results is this energy: at every point the integrand of the column is its density. -/
theorem C153_reported (E : DomainIntegrals.Env ℝ) (hn : E.nGrains = m) (A B : ℝ)
    (hb : ∀ v : Nat → ℝ, (FreeEnergy.eval true A B (v 0 :: v 1 :: List.ofFn fun g : Fin m => v (2 + g)) m >>= FreeEnergy.Eval.f) = .ok (E.bulk v))
    (q : QPt ℝ n d) (u : Fields ℝ n m) (v g2 : Nat → ℝ) (h0 : v 0 = valAt q u.c) (hv : ∀ g : Fin m, v (2 + g) = valAt q (u.eta g))
    (hg0 : g2 0 = grad2 q u.c) (hg : ∀ g : Fin m, g2 (2 + g) = grad2 q (u.eta g)) :
    ∃ e, DomainIntegrals.sinteringEval E "free_energy" = some e ∧ e v g2 = density A B E.kappaC E.kappaP q u := by
  refine ⟨_, by unfold DomainIntegrals.sinteringEval; simp only [String.reduceEq, if_false, if_true]; rfl, ?_⟩
  have e1 := hb v
  have h := FreeEnergy.eval_ok true A B (v 0) (v 1) (List.ofFn fun g : Fin m => v (2 + g)) []
  rw [List.append_nil, List.length_ofFn] at h
  simp only [h, Res.ok_bind, FreeEnergy.Eval.f, if_true] at e1
  have e2 := Res.ok.inj e1
  rw [← e2]
  have hs : ∀ k, ((List.ofFn fun g : Fin m => v (2 + g)).map (· ^ k)).sum = ∑ g, valAt q (u.eta g) ^ k := by
    intro k
    rw [List.map_ofFn, List.sum_ofFn]
    exact sum_congr rfl fun g _ => by simp [hv]
  rw [hs, hs, DomainIntegrals.gradLoop, foldl_add, hn, sum_range, hg0, h0]
  simp only [hg]
  unfold density bulk
  ring

namespace Ex153

/-- Two nodes, quadrature in the nodes. -/
noncomputable def bar : List (VPt ℝ 2 1 1) :=
  [(⟨1 / 2, ![1, 0], fun i _ => ![-1, 1] i⟩, fun _ => none), (⟨1 / 2, ![0, 1], fun i _ => ![-1, 1] i⟩, fun _ => none)]

noncomputable def par : SinteringKernel.Par ℝ := ⟨1, 1, ⟨1, 1, 0, 0, 1⟩, 1, 1, 0, 1⟩

/-- Void on the left, grain on the right. -/
noncomputable def front : Fields ℝ 2 1 := ⟨![0, 1], ![-2, 2], fun _ => ![0, 1]⟩

theorem mobility_one (q : VPt ℝ 2 1 1) (u : Fields ℝ 2 1) : mobility par q u = 1 := by
  unfold mobility Mobility.scalarM par
  ring

theorem regular_front : Regular par bar front := by
  refine ⟨by norm_num [par], by norm_num [par], by norm_num [par], by norm_num [par], by norm_num [par], by norm_num [par], ?_, ?_, ?_⟩
  · intro q hq
    rcases (by simpa [bar] using hq : q = _ ∨ q = _) with rfl | rfl <;> norm_num
  · intro q hq g
    rcases (by simpa [bar] using hq : q = _ ∨ q = _) with rfl | rfl <;> rfl
  · intro q hq g
    rcases (by simpa [bar] using hq : q = _ ∨ q = _) with rfl | rfl <;> norm_num [valAt, front, Fin.sum_univ_two]

/-- A diffuse front: the hypotheses of `C153_decay` are met with rates that are not zero. -/
example : ∃ r, residualAll par 0 1 [1] bar front [] = .ok r ∧ (∀ i, r.mu i = 0) ∧
    (∀ i, mass (bar.map (·.1)) ![8, -8] i = -r.c i) ∧ ∀ g i, mass (bar.map (·.1)) ((fun _ => ![2, -2] : Fin 1 → Fin 2 → ℝ) g) i = -r.eta g i := by
  obtain ⟨r, h0, h1, h2, h3⟩ := loop_eq { par with weight := 1 } 0 front Fields.zero bar regular_front.still Fields.zero
  refine ⟨r, ?_, ?_, ?_, ?_⟩
  · unfold residualAll
    simp only [Res.index, List.getElem?_cons_zero, Res.ok_bind, if_neg (show ¬ (0 : Nat) = 2 by omega)]
    exact h0
  · intro i
    rw [h2 i]
    fin_cases i <;> norm_num [asm, bar, Fields.zero, par, front, fc, valAt, gradient, Fin.sum_univ_two]
  · intro i
    rw [h1 i]
    have hm : ∀ q : VPt ℝ 2 1 1, mobility { par with weight := 1 } q front = 1 := fun q => mobility_one q front
    simp only [hm]
    fin_cases i <;> norm_num [asm, bar, Fields.zero, front, mass, valAt, gradient, Fin.sum_univ_two]
  · intro g i
    rw [h3 g i]
    fin_cases g
    fin_cases i <;> norm_num [asm, bar, Fields.zero, par, front, fe, mass, valAt, gradient, Fin.sum_univ_two]

/-- One node. -/
noncomputable def node : List (VPt ℝ 1 1 1) := [(⟨1, ![1], fun _ _ => 0⟩, fun _ => none)]

/-- A homogeneous mixture. -/
noncomputable def mix (c mu eta : ℝ) : Fields ℝ 1 1 := ⟨fun _ => c, fun _ => mu, fun _ _ => eta⟩

theorem regular_mix (c mu eta : ℝ) (h : 0 ≤ eta) : Regular par node (mix c mu eta) := by
  refine ⟨by norm_num [par], by norm_num [par], by norm_num [par], by norm_num [par], by norm_num [par], by norm_num [par], ?_, ?_, ?_⟩
  · intro q hq
    obtain rfl : q = _ := by simpa [node] using hq
    norm_num
  · intro q hq g
    obtain rfl : q = _ := by simpa [node] using hq
    rfl
  · intro q hq g
    obtain rfl : q = _ := by simpa [node] using hq
    simpa [valAt, mix] using h

/-- The equations of an Euler step of a homogeneous mixture. -/
theorem solved {dt c mu e0 e1 : ℝ} (h : 0 ≤ e1) (hmu : mu = fc 1 1 c fun _ : Fin 1 => e1) (he : fe 1 c (fun _ : Fin 1 => e1) 0 + e1 * (1 / dt) - e0 * (1 / dt) = 0) :
    ∃ r, residualAll par 2 1 [1 / dt, -1 / dt] node (mix c mu e1) [mix c 0 e0] = .ok r ∧ (∀ i, r.c i = 0) ∧ (∀ i, r.mu i = 0) ∧ ∀ g i, r.eta g i = 0 := by
  obtain ⟨r, h0, h1, h2, h3⟩ := loop_eq { par with weight := 1 / dt } 2 (mix c mu e1)
    ⟨fun i => ∑ j ∈ range 1, [1 / dt, -1 / dt].getD (j + 1) 0 * ([mix c 0 e0].getD j ⟨0, 0, 0⟩).c i,
      fun i => ∑ j ∈ range 1, [1 / dt, -1 / dt].getD (j + 1) 0 * ([mix c 0 e0].getD j ⟨0, 0, 0⟩).mu i,
      fun g i => ∑ j ∈ range 1, [1 / dt, -1 / dt].getD (j + 1) 0 * ([mix c 0 e0].getD j ⟨0, 0, 0⟩).eta g i⟩ node (regular_mix c mu e1 h).still Fields.zero
  refine ⟨r, ?_, ?_, ?_, ?_⟩
  · unfold residualAll
    simp only [Res.index, List.getElem?_cons_zero, Res.ok_bind, if_true]
    rw [history_eq one_ne_zero (by simp) (by simp)]
    exact h0
  · intro i
    rw [h1 i]
    simp [asm, node, Fields.zero, mix, valAt, gradient]
    ring
  · intro i
    rw [h2 i, hmu]
    simp [asm, node, Fields.zero, mix, valAt, gradient, par]
  · intro g i
    rw [h3 g i]
    fin_cases g
    simp [asm, node, Fields.zero, mix, valAt, gradient, par]
    simp at he
    linear_combination he

/-- A long step over the barrier between two minima of the bulk energy: the equations of the step are solved and the energy is larger than before. -/
theorem C153_step_violated : ∃ r, residualAll par 2 1 [1 / (4 / 3), -1 / (4 / 3)] node (mix (1 / 2) (-11 / 16) (3 / 4)) [mix (1 / 2) 0 0] = .ok r ∧
    (∀ i, r.c i = 0) ∧ (∀ i, r.mu i = 0) ∧ (∀ g i, r.eta g i = 0) ∧
    energy par.A par.B par.kappaC par.kappaP (node.map (·.1)) (mix (1 / 2) 0 0) < energy par.A par.B par.kappaC par.kappaP (node.map (·.1)) (mix (1 / 2) (-11 / 16) (3 / 4)) := by
  obtain ⟨r, h0, h1, h2, h3⟩ := solved (dt := 4 / 3) (c := 1 / 2) (mu := -11 / 16) (e0 := 0) (e1 := 3 / 4) (by norm_num) (by norm_num [fc]) (by norm_num [fe])
  refine ⟨r, h0, h1, h2, h3, ?_⟩
  norm_num [energy, density, bulk, grad2, valAt, node, mix, par]

/-- A step within the convex part: the hypotheses of `C153_step_partial` are met. -/
example : energy par.A par.B par.kappaC par.kappaP (node.map (·.1)) (mix 1 (5 / 16) (3 / 4)) ≤ energy par.A par.B par.kappaC par.kappaP (node.map (·.1)) (mix 1 0 (2 / 3)) := by
  obtain ⟨r, h0, h1, h2, h3⟩ := solved (dt := 4 / 81) (c := 1) (mu := 5 / 16) (e0 := 2 / 3) (e1 := 3 / 4) (by norm_num) (by norm_num [fc]) (by norm_num [fe])
  refine C153_step_partial (dt := 4 / 81) (by norm_num) (regular_mix _ _ _ (by norm_num)) (by norm_num [par]) (by norm_num [par]) h0 h1 h2 h3 ?_
  intro q hq
  obtain rfl : q = _ := by simpa [node] using hq
  have hf : (fun s : ℝ => bulk par.A par.B (valAt (⟨1, ![1], fun _ _ => 0⟩ : QPt ℝ 1 1) (mix 1 0 (2 / 3)).c +
        s * (valAt (⟨1, ![1], fun _ _ => 0⟩ : QPt ℝ 1 1) (mix 1 (5 / 16) (3 / 4)).c - valAt (⟨1, ![1], fun _ _ => 0⟩ : QPt ℝ 1 1) (mix 1 0 (2 / 3)).c))
      fun g : Fin 1 => valAt (⟨1, ![1], fun _ _ => 0⟩ : QPt ℝ 1 1) ((mix 1 0 (2 / 3)).eta g) +
        s * (valAt (⟨1, ![1], fun _ _ => 0⟩ : QPt ℝ 1 1) ((mix 1 (5 / 16) (3 / 4)).eta g) - valAt (⟨1, ![1], fun _ _ => 0⟩ : QPt ℝ 1 1) ((mix 1 0 (2 / 3)).eta g))) =
      fun s : ℝ => (3 / 12 ^ 4 : ℝ) • s ^ 4 + (4 / 12 ^ 3 : ℝ) • s ^ 3 + ((-4 / 27 : ℝ) * s + 11 / 27) := by
    funext s
    simp [bulk, valAt, mix, par]
    ring
  rw [hf]
  have hsub : Set.Icc (0 : ℝ) 1 ⊆ Set.Ici 0 := fun x hx => hx.1
  have hc := convex_Icc (𝕜 := ℝ) (0 : ℝ) 1
  have c4 := ((convexOn_pow (𝕜 := ℝ) 4).subset hsub hc).smul (show (0 : ℝ) ≤ 3 / 12 ^ 4 by norm_num)
  have c3 := ((convexOn_pow (𝕜 := ℝ) 3).subset hsub hc).smul (show (0 : ℝ) ≤ 4 / 12 ^ 3 by norm_num)
  refine (c4.add c3).add ?_
  exact ⟨hc, fun x _ y _ a b _ _ hab => le_of_eq (α := ℝ) (by simp only [smul_eq_mul]; linear_combination (-(11 / 27) : ℝ) * hab)⟩

end Ex153
end Verif.Props
