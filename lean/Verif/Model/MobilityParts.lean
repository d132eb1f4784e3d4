/-
Mobility by mechanism, matrices of its derivatives and the fluxes of the output:
  applications/sintering/include/pf-applications/sintering/mobility.h:311-435, 536-560, 579-755, 918-948
  applications/sintering/include/pf-applications/sintering/operator_postproc.h:140-198
  applications/sintering/include/pf-applications/sintering/operator_sintering_base.h:268-287
  applications/sintering/include/pf-applications/sintering/driver.h:2465-2482
  include/pf-applications/base/tensor.h:125-188

Simplifications: one lane, `double` is an ordered field, the values and gradients of the shape functions are
given at the quadrature points. The mass matrix is given as a linear map, the solver as its inverse (or a failure).
-/
import Verif.Model.Mobility
import Verif.Model.TimeLoop

namespace Verif.Mobility.Parts

open Verif.Mobility

section scalar

variable {K : Type} [Field K] [LinearOrder K]

/-- mobility.h:315-320, 332-337, 583-588, 602-607: interpolation function cut with two masks. -/
def phiMask (c : K) : K :=
  let p := c * c * c * (10 - 15 * c + 6 * c * c)
  let p := if p < 0 then 0 else p
  if 1 < p then 1 else p

/-- mobility.h:312-323 (`MobilityScalar::M_vol`). -/
def volS (m : Coeff K) (c : K) : K := m.Mvol * phiMask c

/-- mobility.h:328-341 (`MobilityScalar::M_vap`). -/
def vapS (m : Coeff K) (c : K) : K := m.Mvap * (1 - phiMask c)

/-- mobility.h:345-353 (`MobilityScalar::M_surf`). -/
def surfS (m : Coeff K) (c : K) : K := m.Msurf * 4 * c * c * (1 - c) * (1 - c)

/-- mobility.h:357-373 (`MobilityScalar::M_gb`). -/
def gbS (m : Coeff K) (etas : List K) : K := m.Mgb * (pairLoop 0 [] etas * 2)

/-- mobility.h:537-546 (`MobilityScalar::dM_vol_dc`). -/
def dVolS (m : Coeff K) (c : K) : K := m.Mvol * (30 * c * c * (1 - c) * (1 - c))

/-- mobility.h:549-560 (`MobilityScalar::dM_surf_dc`): a multiple of the unit matrix. -/
def dSurfS (m : Coeff K) (c : K) : K := m.Msurf * (8 * c * (1 - 3 * c + 2 * c * c))

end scalar

section tensors

variable {K : Type} [Field K] [LinearOrder K] {d : Nat}

/-- `Tensor<2, dim>`. -/
abbrev Mat (K : Type) (d : Nat) := Fin d → Fin d → K

/-- tensor.h:125-135 (`diagonal_matrix`). -/
def diagonal (fac : K) : Mat K d := fun i j => if i = j then fac else 0

/-- `outer_product` of deal.II. -/
def outer (a b : Fin d → K) : Mat K d := fun i j => a i * b j

/-- tensor.h:176-188 (`projector_matrix`). -/
def projector (v : Fin d → K) (fac diag : K) : Mat K d := fun i j => (diagonal diag i j - outer v v i j) * fac

/-- product of a tensor of rank two with one of rank one. -/
def app (M : Mat K d) (v : Fin d → K) : Fin d → K := fun i => dot (M i) v

/-- product of two tensors of rank two. -/
def mul (A B : Mat K d) : Mat K d := fun i j => dot (A i) fun k => B k j

/-- mobility.h:580-594 (`MobilityTensorial::M_vol`). -/
def volT (m : Coeff K) (c : K) : Mat K d := diagonal (m.Mvol * phiMask c)

/-- mobility.h:599-614 (`MobilityTensorial::M_vap`). -/
def vapT (m : Coeff K) (c : K) : Mat K d := diagonal (m.Mvap * (1 - phiMask c))

/-- mobility.h:619-629 (`MobilityTensorial::M_surf`): the projector without its scale. -/
def surfT (root : Root K) (m : Coeff K) (c : K) (gradC : Fin d → K) : Mat K d :=
  projector (unitVector root tol1 gradC) (m.Msurf * 4 * (c * c) * (1 - c) * (1 - c)) 1

/-- mobility.h:644-660: the loop over `j` for one `i`; entries carry their index. -/
def gbRow (root : Root K) (m : Coeff K) (i : Nat) (g : K × (Fin d → K)) (acc : Mat K d) :
    List ((K × (Fin d → K)) × Nat) → Mat K d
  | [] => acc
  | f :: r =>
    gbRow root m i g
      (if i ≠ f.2 then
        acc + projector (unitVector root tol1 (g.2 - f.1.2)) (m.Mgb * g.1 * f.1.1) 1
       else acc) r

/-- mobility.h:634-664 (`MobilityTensorial::M_gb`): loop over all ordered pairs of different order parameters. -/
def gbT (root : Root K) (m : Coeff K) (grains : List (K × (Fin d → K))) : Mat K d :=
  grains.zipIdx.foldl (fun acc g => gbRow root m g.2 g.1 acc grains.zipIdx) 0

/-- mobility.h:680-694, 936-941: factor of the derivative of the surface part, cut where the mobility is small. -/
def dfsurf (m : Coeff K) (c : K) : K :=
  let c2 := 4 * c * c * (1 - c) * (1 - c)
  if m.Msurf * c2 < 1 / 10 ^ 6 then 0 else m.Msurf * 8 * c * (1 - c) * (1 - 2 * c)

/-- mobility.h:669-700 (`MobilityTensorial::dM_dc`). -/
def dcT (root : Root K) (m : Coeff K) (c : K) (gradC : Fin d → K) : Mat K d :=
  let c2 := 4 * c * c * (1 - c) * (1 - c)
  let dphidc := 30 * c2
  diagonal ((m.Mvol - m.Mvap) * dphidc) + projector (unitVector root tol1 gradC) (dfsurf m c) projectorScale

/-- mobility.h:705-725 (`MobilityTensorial::dM_dgrad_c`). -/
def dgradT (root : Root K) (m : Coeff K) (c : K) (gradC mu : Fin d → K) : Mat K d :=
  let fsurf := m.Msurf * 4 * (c * c) * ((1 - c) * (1 - c))
  let nrm := root (dot gradC gradC)
  let fsurf := if fsurf < 1 / 10 ^ 6 then 0 else fsurf
  let nrm := if nrm < 1 / 10 ^ 4 then 1 else nrm
  let nc := unitVector root tol1 gradC
  let M := projector nc (1 / nrm) 1
  let T : Mat K d := fun i j => (diagonal (dot nc mu) i j + outer nc mu i j) * -fsurf
  mul T M

/-- mobility.h:739-749: the loop over the other order parameters. -/
def detaiLoop (root : Root K) (i : Nat) (g : Fin d → K) (acc : Mat K d) :
    List ((K × (Fin d → K)) × Nat) → Mat K d
  | [] => acc
  | f :: r =>
    detaiLoop root i g
      (if f.2 ≠ i then acc + projector (unitVector root tol1 (g - f.1.2)) f.1.1 1 else acc) r

/-- mobility.h:728-754 (`MobilityTensorial::dM_detai`); an index past the end reads out of bounds. -/
def detaiT (root : Root K) (m : Coeff K) (grains : List (K × (Fin d → K))) (i : Nat) : Res (Mat K d) := do
  let g ← Res.index grains i
  .ok fun a b => detaiLoop root i g.2 0 grains.zipIdx a b * (2 * m.Mgb)

/-- mobility.h:920-929 (`MobilityTensorial::dM_vol_dc`). -/
def dVolT (m : Coeff K) (c : K) : Mat K d := diagonal (m.Mvol * (30 * c * c * (1 - c) * (1 - c)))

/-- mobility.h:932-951 (`MobilityTensorial::dM_surf_dc`). -/
def dSurfT (root : Root K) (m : Coeff K) (c : K) (gradC : Fin d → K) : Mat K d :=
  projector (unitVector root tol1 gradC) (dfsurf m c) projectorScale

end tensors

section fluxes

variable {K : Type} [Field K] [LinearOrder K] {d : Nat}

/-- what is known at a quadrature point: concentration, its gradient, gradient of the chemical potential, values and
gradients of the order parameters. -/
structure Pt (K : Type) (d : Nat) where
  c : K
  gradC : Fin d → K
  gradMu : Fin d → K
  grains : List (K × (Fin d → K))

/-- The four mechanisms in the order of the output (operator_postproc.h:121-124). -/
inductive Mech
  | vol | vap | surf | gb
  deriving DecidableEq, Repr

/-- operator_postproc.h:186-191, operator_sintering_base.h:270-274 with the scalar mobility. -/
def fluxS (m : Coeff K) (x : Pt K d) : Mech → (Fin d → K)
  | .vol => -(volS m x.c) • x.gradMu
  | .vap => -(vapS m x.c) • x.gradMu
  | .surf => -(surfS m x.c) • x.gradMu
  | .gb => -(gbS m (x.grains.map (·.1))) • x.gradMu

/-- operator_postproc.h:186-191, operator_sintering_base.h:270-274 with the tensorial mobility. -/
def fluxT (root : Root K) (m : Coeff K) (x : Pt K d) : Mech → (Fin d → K)
  | .vol => app (-(volT m x.c)) x.gradMu
  | .vap => app (-(vapT m x.c)) x.gradMu
  | .surf => app (-(surfT root m x.c x.gradC)) x.gradMu
  | .gb => app (-(gbT root m x.grains)) x.gradMu

/-- The mechanism behind component `i` of the postprocessing operator. -/
def mechs : List Mech := [.vol, .vap, .surf, .gb]

/-- a quadrature point: weight (with Jacobian), gradients of the shape functions, state. -/
structure QPoint (K : Type) (d n : Nat) where
  jxw : K
  dphi : Fin n → Fin d → K
  x : Pt K d

/-- operator_postproc.h:152-195: `integrate_scatter` of the gradients submitted; the loop over cells and points adds
to the right-hand side, which is zero in the beginning (`cell_loop` with zeroing, operator_postproc.h:60-68). -/
def rhs {n : Nat} (flux : Pt K d → Mech → (Fin d → K)) (qs : List (QPoint K d n)) (k : Mech) : Fin n → K :=
  qs.foldl (fun acc q => fun i => acc i + dot (q.dphi i) (flux q.x k) * q.jxw) fun _ => 0

/-- The flux part of the first row of the residual (operator_sintering_generic.h:280-285): integral of the mobility
times the gradient of the chemical potential. -/
def fluxRow {n : Nat} (M : Pt K d → (Fin d → K)) (qs : List (QPoint K d n)) : Fin n → K :=
  qs.foldl (fun acc q => fun i => acc i + dot (q.dphi i) (M q.x) * q.jxw) fun _ => 0

/-- driver.h:2474-2481: one system with the mass matrix for each block; a solver that does not converge throws. -/
def divergences {n : Nat} (solve : (Fin n → K) → Option (Fin n → K)) (r : Mech → Fin n → K) :
    List Mech → Option (List (Fin n → K))
  | [] => some []
  | k :: ks =>
    match solve (r k) with
    | some u => (divergences solve r ks).map (u :: ·)
    | none => none

end fluxes

section loop

variable {K : Type} [Field K] [LinearOrder K] {V : Type}

/-- driver.h:2204-2505 with the divergences of the fluxes (driver.h:2465-2482): they are computed inside of the `try` after
time, number of the step and step size were advanced (driver.h:2370-2409); `div` is false if one of the solvers does
not converge. The handler (driver.h:2493-2497) resets the solution only. -/
def passDiv (p : LoopParams K) (st : RunState K V) (a : Attempt V) (div : Bool) : Res (RunState K V) := do
  let h ← prepare a st.converged st.hist
  match a.outcome with
  | .success sol good =>
    if div then accept p st h sol good
    else
      let t := st.t + st.dt
      reject p ⟨t, nextDt p good t st.dt, st.n + 1, st.hist, st.data, true⟩ h sol
  | .failure garbage => reject p st h garbage

end loop

end Verif.Mobility.Parts
