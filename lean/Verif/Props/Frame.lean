/-
C157: the equations do not depend on the orientation of the frame.
-/
import Verif.Lemmas.Frame
import Verif.Lemmas.FrameMotion
import Verif.Props.Relabel
import Mathlib.LinearAlgebra.Matrix.ToLin
import Mathlib.LinearAlgebra.Matrix.Notation

set_option linter.unusedSectionVars false

namespace Verif.Props

open Finset Verif.Energy Verif.Relabel Verif.Frame Verif.Frame.Spec Verif.Mobility Verif.Mobility.Parts
open Verif.Apps (QPt value gradient)

variable {K : Type} [Field K] [LinearOrder K] {n m d : Nat} {Q : (Fin d → K) →ₗ[K] (Fin d → K)}

/-- Turning or mirroring mesh and velocities leaves the residual of all blocks as it is. -/
theorem C157_residual (h : Turn Q) (p : SinteringKernel.Par K) (mode order : Nat) (weights : List K) (pts : List (VPt K n m d)) (u : Fields K n m) (olds : List (Fields K n m)) :
    residualAll p mode order weights (pts.map (turned Q)) u olds = residualAll p mode order weights pts u olds := by
  rw [residualAll_eq, residualAll_eq]
  congr 1
  funext w
  congr 1
  funext b
  rw [List.foldlM_map]
  congr 1
  funext acc q
  obtain ⟨o, o', h1, h2, h3⟩ := residual_turned (Q := Q) { p with weight := w } mode q u b
  rw [h1, h2, Res.ok_bind, Res.ok_bind, submit_turned h q h3]

/-- And the tangent. -/
theorem C157_tangent (h : Turn Q) (p : SinteringKernel.Par K) (weights : List K) (pts : List (VPt K n m d)) (u x : Fields K n m) :
    tangentAll p weights (pts.map (turned Q)) u x = tangentAll p weights pts u x := by
  unfold tangentAll
  congr 1
  funext w
  rw [List.foldlM_map]
  congr 1
  funext acc q
  obtain ⟨o, o', h1, h2, h3⟩ := vmult_turned (Q := Q) { p with weight := w } q u x
  rw [h1, h2, Res.ok_bind, Res.ok_bind, submit_turned h q h3]

/-- The tensorial mobility is isotropic: with all gradients turned the flux is turned, whatever function stands for the root; likewise its linearisation. -/
theorem C157_tensorial (h : Turn Q) (root : Root K) (c : Coeff K) (x : K) (gradC : Fin d → K) (grains : List (K × (Fin d → K))) (mu : Fin d → K) :
    tensorialM root c x (Q gradC) (grains.map fun g => (g.1, Q g.2)) (Q mu) = Q (tensorialM root c x gradC grains mu) :=
  tensorialM_turn h root c x gradC grains mu

theorem C157_tensorial_tangent (h : Turn Q) (root : Root K) (c : Coeff K) (x : K) (gradC : Fin d → K) (grains : List (K × (Fin d → K) × K)) (mu : Fin d → K) (dc : K) (dgradC dmu : Fin d → K) :
    tensorialMDerivative root c x (Q gradC) (grains.map fun g => (g.1, Q g.2.1, g.2.2)) (Q mu) dc (Q dgradC) (Q dmu) = Q (tensorialMDerivative root c x gradC grains mu dc dgradC dmu) :=
  tensorialMDerivative_turn h root c x gradC grains mu dc dgradC dmu

/-- The reported fluxes of all mechanisms are turned, for both mobilities. -/
theorem C157_fluxes (h : Turn Q) (root : Root K) (c : Coeff K) (x : Pt K d) (k : Mech) :
    fluxS c { c := x.c, gradC := Q x.gradC, gradMu := Q x.gradMu, grains := x.grains.map fun g => (g.1, Q g.2) } k = Q (fluxS c x k) ∧
    fluxT root c { c := x.c, gradC := Q x.gradC, gradMu := Q x.gradMu, grains := x.grains.map fun g => (g.1, Q g.2) } k = Q (fluxT root c x k) := by
  constructor
  · cases k <;> simp [fluxS, List.map_map, Function.comp_def]
  · cases k with
    | vol => simp only [fluxT, app_neg, volT, app_diagonal, map_neg, map_smul]
    | vap => simp only [fluxT, app_neg, vapT, app_diagonal, map_neg, map_smul]
    | surf =>
      simp only [fluxT, app_neg, surfT, app_projector, map_neg]
      rw [unit_turn h, turn_dot h]
      simp only [map_sub, map_smul]
    | gb =>
      simp only [fluxT, app_neg, map_neg]
      exact congrArg _ (gbT_turn h root c x.grains x.gradMu)

section motion

open Verif.Advection

/-- The force on a grain at a point follows every linear change of the gradients. -/
theorem C157_force {V W : Type} [AddCommGroup V] [Module K V] [AddCommGroup W] [Module K W] (Q : V →ₗ[K] W) (k cgb ceq : K) (smooth : Option (K → K)) (c : K) (gs : List (Option (K × V))) (ig : Nat) :
    forceOn k cgb ceq smooth c (gs.map fun o => o.map fun g => (g.1, Q g.2)) ig = Q (forceOn k cgb ceq smooth c gs ig) :=
  forceOn_map Q k cgb ceq smooth c gs ig

/-- The velocity of the rotation caused by forces at points is turned or mirrored with them, in the plane and in space; torques
themselves change their sign in a mirrored frame. -/
theorem C157_rotation (mr vol : K) :
    (∀ Q : (K × K) →ₗ[K] (K × K), (∀ a b, inner2 (Q a) (Q b) = inner2 a b) → ∀ l r,
      rotation2 mr vol (torque2 (l.map fun p => (Q p.1, Q p.2))) (Q r) = Q (rotation2 mr vol (torque2 l) r)) ∧
    (∀ Q : (K × K × K) →ₗ[K] (K × K × K), (∀ a b, inner3 (Q a) (Q b) = inner3 a b) → ∀ l r,
      rotation3 mr vol (torque3 (l.map fun p => (Q p.1, Q p.2))) (Q r) = Q (rotation3 mr vol (torque3 l) r)) := by
  constructor
  · intro Q h l r
    rw [rotation2_eq, rotation2_eq, map_smul, ← Frame.sum_map, List.map_map]
    congr 2
    refine List.map_congr_left fun p _ => ?_
    simp only [Function.comp, h, map_sub, map_smul]
  · intro Q h l r
    rw [rotation3_eq, rotation3_eq, map_smul, ← Frame.sum_map, List.map_map]
    congr 2
    refine List.map_congr_left fun p _ => ?_
    simp only [Function.comp, h, map_sub, map_smul]

end motion

namespace Ex157

/-- A mirror: it changes the sign of the torque and keeps inner products; the velocity is mirrored. -/
def mirror : (Rat × Rat) →ₗ[Rat] (Rat × Rat) where
  toFun v := (-v.1, v.2)
  map_add' a b := by ext <;> simp; ring
  map_smul' r a := by ext <;> simp

example : ∀ a b, inner2 (mirror a) (mirror b) = inner2 a b := fun a b => by simp [inner2, mirror]
example : Advection.torque2 [(mirror (1, 2), mirror (3, 1))] = -Advection.torque2 [(((1, 2), (3, 1)) : (Rat × Rat) × (Rat × Rat))] ∧
    Advection.torque2 [(((1, 2), (3, 1)) : (Rat × Rat) × (Rat × Rat))] = 5 := by decide +kernel
example : Advection.rotation2 2 4 (Advection.torque2 [(((1, 2), (3, 1)) : (Rat × Rat) × (Rat × Rat))]) (1, 1) = (-5/2, 5/2) ∧
    Advection.rotation2 2 4 (Advection.torque2 [(mirror (1, 2), mirror (3, 1))]) (mirror (1, 1)) = (5/2, 5/2) := by decide +kernel

/-- A turn by the angle of a right triangle with sides 3, 4, 5. -/
def turn : (Fin 2 → Rat) →ₗ[Rat] (Fin 2 → Rat) where
  toFun v := ![3/5 * v 0 - 4/5 * v 1, 4/5 * v 0 + 3/5 * v 1]
  map_add' a b := by
    funext i
    match i with
    | 0 => simp; ring
    | 1 => simp; ring
  map_smul' r a := by
    funext i
    match i with
    | 0 => simp; ring
    | 1 => simp; ring

theorem turn_ok : Turn turn := ⟨fun a b => by simp [turn, Fin.sum_univ_two]; ring⟩

def coeff : Coeff Rat := ⟨1, 2, 3, 5, 7⟩

/-- The flux has another direction, it is the turned one. -/
example : tensorialM (fun x => x) coeff (1/2) (turn ![1, 0]) ([(1/2, ![1, 0]), (1/3, ![0, 1])].map fun g => (g.1, turn g.2)) (turn ![1, 1]) =
      turn (tensorialM (fun x => x) coeff (1/2) ![1, 0] [(1/2, ![1, 0]), (1/3, ![0, 1])] ![1, 1]) ∧
    turn (tensorialM (fun x => x) coeff (1/2) ![1, 0] [(1/2, ![1, 0]), (1/3, ![0, 1])] ![1, 1]) ≠ tensorialM (fun x => x) coeff (1/2) ![1, 0] [(1/2, ![1, 0]), (1/3, ![0, 1])] ![1, 1] :=
  ⟨C157_tensorial turn_ok _ _ _ _ _ _, by decide +kernel⟩

/-- A triangle with one point, two order parameters, one of them moves. -/
def tri : List (VPt Rat 3 2 2) := [(⟨1/2, ![1/3, 1/3, 1/3], ![![-1, -1], ![1, 0], ![0, 1]]⟩, ![none, some ![1, 2]])]
def par : SinteringKernel.Par Rat := ⟨16, 1, ⟨1, 2, 3, 4, 5⟩, 1, 1, 1, 1⟩
def u : Fields Rat 3 2 := ⟨![1, 1/2, 0], ![0, 1, 3], ![![1, 0, 0], ![0, 1/2, 1/3]]⟩

example : ((tri.map (turned turn)).map fun q => (q.1.G 1, q.2 1)) = [(![3/5, 4/5], some ![-1, 2])] := by decide +kernel
example : residualAll par 2 1 [1, -1] (tri.map (turned turn)) u [u] = residualAll par 2 1 [1, -1] tri u [u] := C157_residual turn_ok _ _ _ _ _ _ _
example : (match residualAll par 2 1 [1, -1] tri u [u] with | .ok r => decide (r.c 0 = 0) || decide (r.mu 0 = 0) || decide (r.eta 1 1 = 0) | _ => true) = false := by decide +kernel

/-- A shear is not admitted, and with it the residual differs. -/
def shear : (Fin 2 → Rat) →ₗ[Rat] (Fin 2 → Rat) where
  toFun v := ![v 0 + v 1, v 1]
  map_add' a b := by
    funext i
    match i with
    | 0 => simp; ring
    | 1 => simp
  map_smul' r a := by
    funext i
    match i with
    | 0 => simp; ring
    | 1 => simp
example : (match residualAll par 2 1 [1, -1] (tri.map (turned shear)) u [u], residualAll par 2 1 [1, -1] tri u [u] with
    | .ok r, .ok s => decide (r.c 0 = s.c 0) | _, _ => true) = false := by decide +kernel

end Ex157

end Verif.Props
