/-
Lemmas on turned frames.
-/
import Verif.Spec.Frame
import Verif.Lemmas.Locality
import Verif.Lemmas.MobilityParts

set_option linter.unusedSectionVars false

namespace Verif.Frame

open Finset Verif.SinteringKernel Verif.Energy Verif.Relabel Verif.Frame.Spec Verif.Mobility Verif.Mobility.Parts
open Verif.Apps (QPt value gradient)

variable {K : Type} [Field K] [LinearOrder K] {n m d : Nat} {Q : (Fin d → K) →ₗ[K] (Fin d → K)}

theorem turn_dot (h : Turn Q) (a b : Fin d → K) : dot (Q a) (Q b) = dot a b := h.dot a b

theorem gradient_eq (q : QPt K n d) (u : Fin n → K) : gradient q u = ∑ i, u i • q.G i := by
  funext e
  rw [Finset.sum_apply]
  exact sum_congr rfl fun i _ => mul_comm _ _

theorem turned_value (q : VPt K n m d) (u : Fin n → K) : value (turned Q q).1 u = value q.1 u ∧ gradient (turned Q q).1 u = Q (gradient q.1 u) := by
  refine ⟨rfl, ?_⟩
  rw [gradient_eq, gradient_eq, map_sum]
  simp only [map_smul]
  rfl

theorem entry_turned (h : Turn Q) (q : VPt K n m d) (v : K) (g : Fin d → K) (a : Fin n → K) : entry (turned Q q).1 v (Q g) a = entry q.1 v g a := by
  funext i
  unfold entry turned
  dsimp only
  rw [h.dot]

/-- What is submitted in the other frame. -/
structure Out' (Q : (Fin d → K) →ₗ[K] (Fin d → K)) (m : Nat) (o o' : Out K (Fin d → K)) : Prop where
  valC : o'.valC = o.valC
  gradC : o'.gradC = Q o.gradC
  valMu : o'.valMu = o.valMu
  gradMu : o'.gradMu = Q o.gradMu
  etas : ∀ g : Fin m, (o'.etas.getD g (0, 0)).1 = (o.etas.getD g (0, 0)).1 ∧ (o'.etas.getD g (0, 0)).2 = Q (o.etas.getD g (0, 0)).2

theorem submit_turned (h : Turn Q) (q : VPt K n m d) {o o' : Out K (Fin d → K)} (ho : Out' Q m o o') (acc : Fields K n m) : submit (turned Q q).1 o' acc = submit q.1 o acc := by
  unfold submit
  rw [ho.valC, ho.gradC, ho.valMu, ho.gradMu, entry_turned h, entry_turned h]
  congr 1
  funext g
  rw [(ho.etas g).1, (ho.etas g).2, entry_turned h]

/-- Data of an order parameter in the other frame. -/
def turnG (Q : (Fin d → K) →ₗ[K] (Fin d → K)) (g : Grain K (Fin d → K)) : Grain K (Fin d → K) := ⟨g.eta, Q g.grad, g.vel.map Q, g.buf⟩

theorem point_turned (q : VPt K n m d) (u buf : Fields K n m) :
    point (turned Q q) u buf = { c := (point q u buf).c, mu := (point q u buf).mu, gradC := Q (point q u buf).gradC, gradMu := Q (point q u buf).gradMu, grains := (point q u buf).grains.map (turnG Q), bufC := (point q u buf).bufC } := by
  unfold point
  simp only [(turned_value q _).1, (turned_value q _).2, List.map_ofFn]
  rfl

theorem getD_turn (v : Option (Fin d → K)) : (v.map Q).getD 0 = Q (v.getD 0) := by
  cases v with
  | none => exact (map_zero Q).symm
  | some v => rfl

theorem sum_turn {α : Type} (l : List α) (f : α → (Fin d → K)) : (l.map fun a => Q (f a)).sum = Q (l.map f).sum := by
  induction l with
  | nil => exact (map_zero Q).symm
  | cons a l ih => rw [List.map_cons, List.sum_cons, ih, List.map_cons, List.sum_cons, map_add]

theorem row_turn (p : Par K) (mode : Nat) (c p2 : K) (g : Grain K (Fin d → K)) : row p mode c p2 (turnG Q g) = ((row p mode c p2 g).1, Q (row p mode c p2 g).2) := by
  unfold row turnG
  dsimp only
  rw [getD_turn, map_sub, map_smul, map_smul]

theorem getD_map {α β : Type} (l : List α) (f : α → β) (i : Nat) (a : α) : (l.map f).getD i (f a) = f (l.getD i a) := by
  rw [List.getD_eq_getElem?_getD, List.getElem?_map, List.getD_eq_getElem?_getD]
  cases l[i]? <;> rfl

theorem residual_turned (p : Par K) (mode : Nat) (q : VPt K n m d) (u buf : Fields K n m) :
    ∃ o o', SinteringKernel.residual p mode (point q u buf) = .ok o ∧ SinteringKernel.residual p mode (point (turned Q q) u buf) = .ok o' ∧ Out' Q m o o' := by
  refine ⟨_, _, rl_residual_eq p mode _, rl_residual_eq p mode _, ?_⟩
  rw [point_turned]
  generalize point q u buf = x
  refine ⟨rfl, ?_, ?_, ?_, fun g => ?_⟩
  · simp only [List.map_map, Function.comp_def, turnG, getD_turn]
    rw [sum_turn, map_sub, map_smul, map_smul]
  · simp only [List.map_map, Function.comp_def, turnG]
  · exact (map_smul Q _ _).symm
  · have e : ∀ c p2, (x.grains.map (turnG Q)).map (row p mode c p2) = (x.grains.map (row p mode c p2)).map fun t => (t.1, Q t.2) := by
      intro c p2
      rw [List.map_map, List.map_map]
      exact List.map_congr_left fun g _ => row_turn p mode c p2 g
    have e2 : ((x.grains.map (turnG Q)).map fun g => g.eta ^ 2) = x.grains.map fun g => g.eta ^ 2 := by rw [List.map_map]; rfl
    dsimp only
    rw [e, e2]
    have := getD_map (x.grains.map (row p mode x.c (x.grains.map fun g => g.eta ^ 2).sum)) (fun t => (t.1, Q t.2)) g (0, 0)
    dsimp only at this
    rw [map_zero] at this
    rw [this]
    exact ⟨rfl, rfl⟩

theorem incr_turned (q : VPt K n m d) (x : Fields K n m) :
    incr (turned Q q) x = { c := (incr q x).c, mu := (incr q x).mu, gradC := Q (incr q x).gradC, gradMu := Q (incr q x).gradMu, etas := (incr q x).etas.map fun t => (t.1, Q t.2) } := by
  unfold incr
  simp only [(turned_value q _).1, (turned_value q _).2, List.map_ofFn]
  rfl

theorem vmult_turned (p : Par K) (q : VPt K n m d) (u x : Fields K n m) :
    ∃ o o', vmult p (point q u Fields.zero) (incr q x) = .ok o ∧ vmult p (point (turned Q q) u Fields.zero) (incr (turned Q q) x) = .ok o' ∧ Out' Q m o o' := by
  refine ⟨_, _, rl_vmult_eq p _ _, rl_vmult_eq p _ _, ?_⟩
  rw [point_turned, incr_turned]
  generalize point q u Fields.zero = y
  generalize incr q x = z
  dsimp only
  have ez : (y.grains.map (turnG Q)).zip (z.etas.map fun t => (t.1, Q t.2)) = (y.grains.zip z.etas).map fun t => (turnG Q t.1, t.2.1, Q t.2.2) := by
    rw [List.zip_map]
    rfl
  have e2 : ((y.grains.map (turnG Q)).map fun g => g.eta ^ 2) = y.grains.map fun g => g.eta ^ 2 := by rw [List.map_map]; rfl
  rw [ez, e2]
  simp only [List.map_map, Function.comp_def]
  refine ⟨rfl, ?_, ?_, ?_, fun g => ?_⟩
  · simp only [turnG, getD_turn]
    rw [sum_turn, map_sub, map_add, map_smul, map_smul, map_smul]
  · simp only [turnG]
  · exact (map_smul Q _ _).symm
  · have e : ∀ c dc p2 sd t, trow p c dc p2 sd (turnG Q t.1, t.2.1, Q t.2.2) = ((trow p c dc p2 sd t).1, Q (trow p c dc p2 sd t).2) := by
      intro c dc p2 sd t
      unfold trow turnG
      dsimp only
      rw [getD_turn, map_sub, map_smul, map_smul]
    simp only [e]
    have := getD_map ((y.grains.zip z.etas).map (trow p y.c z.c (y.grains.map fun g => g.eta ^ 2).sum ((y.grains.zip z.etas).map fun t => t.1.eta * t.2.1).sum))
      (fun t => (t.1, Q t.2)) g (0, 0)
    dsimp only at this
    rw [map_zero, List.map_map] at this
    simp only [Function.comp_def] at this
    rw [show (y.grains.zip z.etas).map (fun t => (turnG Q t.1).eta * t.2.1) = (y.grains.zip z.etas).map fun t => t.1.eta * t.2.1 from rfl, this]
    exact ⟨rfl, rfl⟩

theorem unit_turn (h : Turn Q) (root : Root K) (tol : K) (v : Fin d → K) : unitVector root tol (Q v) = Q (unitVector root tol v) := by
  have e : ∀ v : Fin d → K, unitVector root tol v = ((if root (dot v v) < tol then 1 else root (dot v v))⁻¹ * (if tol < root (dot v v) then 1 else 0)) • v := by
    intro v
    funext i
    unfold unitVector
    simp only [Pi.smul_apply, smul_eq_mul]
    rw [div_eq_mul_inv]
    ring
  rw [e, e, turn_dot h, map_smul]

theorem filter_turn (h : Turn Q) (tol : K) (v : Fin d → K) : unitFilter2 tol (Q v) = unitFilter2 tol v := by
  unfold unitFilter2
  rw [turn_dot h]

/-- An order parameter with its gradient in the other frame. -/
def turnP (Q : (Fin d → K) →ₗ[K] (Fin d → K)) (g : K × (Fin d → K)) : K × (Fin d → K) := (g.1, Q g.2)

theorem gbLoop_turn (h : Turn Q) (mu : Fin d → K) (l pre : List (K × (Fin d → K))) (acc : Fin d → K) :
    gbLoop (Q mu) (Q acc) (pre.map (turnP Q)) (l.map (turnP Q)) = Q (gbLoop mu acc pre l) := by
  induction l generalizing pre acc with
  | nil => rfl
  | cons g l ih =>
    rw [List.map_cons, gbLoop, gbLoop]
    dsimp only
    have e : ∀ acc, (pre.map (turnP Q)).foldl (fun a f => a + ((turnP Q g).1 * f.1) • (Q mu - (unitFilter2 tol2 ((turnP Q g).2 - f.2) * dot ((turnP Q g).2 - f.2) (Q mu)) • ((turnP Q g).2 - f.2))) (Q acc) =
        Q (pre.foldl (fun a f => a + (g.1 * f.1) • (mu - (unitFilter2 tol2 (g.2 - f.2) * dot (g.2 - f.2) mu) • (g.2 - f.2))) acc) := by
      intro acc
      induction pre generalizing acc with
      | nil => rfl
      | cons f pre ihp =>
        rw [List.map_cons, List.foldl_cons, List.foldl_cons, ← ihp]
        congr 1
        simp only [turnP]
        rw [← map_sub, filter_turn h, turn_dot h]
        simp only [map_add, map_sub, map_smul]
    rw [e, show pre.map (turnP Q) ++ [turnP Q g] = (pre ++ [g]).map (turnP Q) by simp, ih]

/-- An order parameter with gradient and increment in the other frame. -/
def turnT (Q : (Fin d → K) →ₗ[K] (Fin d → K)) (g : K × (Fin d → K) × K) : K × (Fin d → K) × K := (g.1, Q g.2.1, g.2.2)

theorem gbDerivLoop_turn (h : Turn Q) (mu dmu : Fin d → K) (l pre : List (K × (Fin d → K) × K)) (acc : Fin d → K) :
    gbDerivLoop (Q mu) (Q dmu) (Q acc) (pre.map (turnT Q)) (l.map (turnT Q)) = Q (gbDerivLoop mu dmu acc pre l) := by
  induction l generalizing pre acc with
  | nil => rfl
  | cons g l ih =>
    rw [List.map_cons, gbDerivLoop, gbDerivLoop]
    dsimp only
    have e : ∀ acc, (pre.map (turnT Q)).foldl (fun a f => a + ((turnT Q g).1 * f.1) • (Q dmu - (unitFilter2 tol2 ((turnT Q g).2.1 - f.2.1) * dot ((turnT Q g).2.1 - f.2.1) (Q dmu)) • ((turnT Q g).2.1 - f.2.1)) +
          (f.1 * (turnT Q g).2.2 + (turnT Q g).1 * f.2.2) • (Q mu - dot ((turnT Q g).2.1 - f.2.1) (Q mu) • unitFilter2 tol2 ((turnT Q g).2.1 - f.2.1) • ((turnT Q g).2.1 - f.2.1))) (Q acc) =
        Q (pre.foldl (fun a f => a + (g.1 * f.1) • (dmu - (unitFilter2 tol2 (g.2.1 - f.2.1) * dot (g.2.1 - f.2.1) dmu) • (g.2.1 - f.2.1)) +
          (f.1 * g.2.2 + g.1 * f.2.2) • (mu - dot (g.2.1 - f.2.1) mu • unitFilter2 tol2 (g.2.1 - f.2.1) • (g.2.1 - f.2.1))) acc) := by
      intro acc
      induction pre generalizing acc with
      | nil => rfl
      | cons f pre ihp =>
        rw [List.map_cons, List.foldl_cons, List.foldl_cons, ← ihp]
        congr 1
        simp only [turnT]
        rw [← map_sub, filter_turn h, turn_dot h, turn_dot h]
        simp only [map_add, map_sub, map_smul]
    rw [e, show pre.map (turnT Q) ++ [turnT Q g] = (pre ++ [g]).map (turnT Q) by simp, ih]

theorem tensorialM_turn (h : Turn Q) (root : Root K) (c : Coeff K) (x : K) (gradC : Fin d → K) (grains : List (K × (Fin d → K))) (mu : Fin d → K) :
    tensorialM root c x (Q gradC) (grains.map (turnP Q)) (Q mu) = Q (tensorialM root c x gradC grains mu) := by
  have e := gbLoop_turn h mu grains [] 0
  rw [map_zero, List.map_nil] at e
  unfold tensorialM
  dsimp only
  rw [List.length_map, unit_turn h, turn_dot h, e]
  split
  · simp only [map_sub, map_smul]
  · simp only [map_add, map_sub, map_smul]

theorem tensorialMDerivative_turn (h : Turn Q) (root : Root K) (c : Coeff K) (x : K) (gradC : Fin d → K) (grains : List (K × (Fin d → K) × K)) (mu : Fin d → K) (dc : K) (dgradC dmu : Fin d → K) :
    tensorialMDerivative root c x (Q gradC) (grains.map (turnT Q)) (Q mu) dc (Q dgradC) (Q dmu) = Q (tensorialMDerivative root c x gradC grains mu dc dgradC dmu) := by
  have e := gbDerivLoop_turn h mu dmu grains [] 0
  rw [map_zero, List.map_nil] at e
  have t : Q dgradC - dot (unitVector root tol1 gradC) dgradC • Q (unitVector root tol1 gradC) = Q (dgradC - dot (unitVector root tol1 gradC) dgradC • unitVector root tol1 gradC) := by
    rw [map_sub, map_smul]
  unfold tensorialMDerivative
  dsimp only
  rw [List.length_map, unit_turn h, turn_dot h, turn_dot h, turn_dot h, turn_dot h, e, t, turn_dot h]
  split
  · simp only [map_add, map_sub, map_smul]
  · simp only [map_add, map_sub, map_smul]

theorem gbRow_turn (h : Turn Q) (root : Root K) (c : Coeff K) (i : Nat) (g : K × (Fin d → K)) (l : List ((K × (Fin d → K)) × Nat)) (A A' : Mat K d) (v : Fin d → K)
    (hA : app A' (Q v) = Q (app A v)) : app (gbRow root c i (turnP Q g) A' (l.map fun f => (turnP Q f.1, f.2))) (Q v) = Q (app (gbRow root c i g A l) v) := by
  induction l generalizing A A' with
  | nil => exact hA
  | cons f l ih =>
    rw [List.map_cons, gbRow, gbRow]
    refine ih _ _ ?_
    dsimp only
    by_cases hi : i ≠ f.2
    · rw [if_pos hi, if_pos hi, app_add, app_add, hA, app_projector, app_projector]
      simp only [turnP]
      rw [← map_sub, unit_turn h, turn_dot h]
      simp only [map_add, map_sub, map_smul]
    · rw [if_neg hi, if_neg hi, hA]

theorem gbT_turn (h : Turn Q) (root : Root K) (c : Coeff K) (grains : List (K × (Fin d → K))) (v : Fin d → K) :
    app (gbT root c (grains.map (turnP Q))) (Q v) = Q (app (gbT root c grains) v) := by
  have ez : (grains.map (turnP Q)).zipIdx = grains.zipIdx.map fun f => (turnP Q f.1, f.2) := by
    rw [List.zipIdx_map]
    rfl
  unfold gbT
  rw [ez]
  generalize hl : grains.zipIdx = L
  have key : ∀ (l : List ((K × (Fin d → K)) × Nat)) (A A' : Mat K d), app A' (Q v) = Q (app A v) →
      app ((l.map fun f => (turnP Q f.1, f.2)).foldl (fun acc g => gbRow root c g.2 g.1 acc (L.map fun f => (turnP Q f.1, f.2))) A') (Q v) =
        Q (app (l.foldl (fun acc g => gbRow root c g.2 g.1 acc L) A) v) := by
    intro l
    induction l with
    | nil => exact fun A A' hA => hA
    | cons g l ih =>
      intro A A' hA
      rw [List.map_cons, List.foldl_cons, List.foldl_cons]
      exact ih _ _ (gbRow_turn h root c g.2 g.1 L A A' v hA)
  exact key L 0 0 (by rw [app_zero, app_zero, map_zero])

end Verif.Frame
