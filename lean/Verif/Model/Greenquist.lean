/-
Grand potential model of Greenquist et al.:
  applications/sintering/include/pf-applications/sintering/operator_grand_potential_greenquist.h
with the scalar mobility
  applications/sintering/include/pf-applications/sintering/mobility.h

Simplifications: one lane and one quadrature point; `double` is an ordered field; the material constants
(lines 492-523) are parameters; gradients are elements of a module; the old solutions are given as lists of pairs
(weight, value).
-/
import Verif.Model.GrainGrowth
import Verif.Model.Mobility

namespace Verif.Greenquist

open Verif.FreeEnergy (powerSum)
open Verif.GrainGrowth (entries mixedOuter timeDerivative)
open Verif.Mobility (Coeff)

/-- operator_grand_potential_greenquist.h:492-523: constants of the model. -/
structure Par (K : Type) where
  Va : K
  kb : K
  km : K
  ceqB : K
  ceqGB : K
  cbEq : K
  gamma : K
  Lphi : K
  L : K
  epsS : K
  epsGb : K
  kapS : K
  kapGb : K
  mob : Coeff K
  weight : K

variable {K : Type} [Field K] [LinearOrder K]

/-- operator_grand_potential_greenquist.h:133-149 (`H`). -/
def H (phi0 phi : K) : K :=
  let h := 6 * phi ^ 5 / phi0 ^ 5 - 15 * phi ^ 4 / phi0 ^ 4 + 10 * phi ^ 3 / phi0 ^ 3
  let h := if phi < 0 then 0 else h
  if phi0 < phi then 1 else h

/-- operator_grand_potential_greenquist.h:151-167 (`dH`). -/
def dH (phi0 phi : K) : K :=
  let h := 30 * phi ^ 4 / phi0 ^ 5 - 60 * phi ^ 3 / phi0 ^ 4 + 30 * phi ^ 2 / phi0 ^ 3
  let h := if phi < 0 then 0 else h
  if phi0 < phi then 0 else h

/-- operator_grand_potential_greenquist.h:169-184 (`d2H`). -/
def d2H (phi0 phi : K) : K :=
  let h := 120 * phi ^ 3 / phi0 ^ 5 - 180 * phi ^ 2 / phi0 ^ 4 + 60 * phi / phi0 ^ 3
  let h := if phi < 0 then 0 else h
  if phi0 < phi then 0 else h

/-- operator_grand_potential_greenquist.h:186-190. -/
def hb (phi : K) : K := H 1 phi
/-- operator_grand_potential_greenquist.h:192-196. -/
def dhb (phi : K) : K := dH 1 phi
/-- operator_grand_potential_greenquist.h:198-202. -/
def d2hb (phi : K) : K := d2H 1 phi
/-- operator_grand_potential_greenquist.h:204-208. -/
def hm (phi : K) : K := 1 - H 1 phi
/-- operator_grand_potential_greenquist.h:210-214. -/
def dhm (phi : K) : K := -dH 1 phi
/-- operator_grand_potential_greenquist.h:216-220. -/
def d2hm (phi : K) : K := -d2H 1 phi

/-- operator_grand_potential_greenquist.h:222-226 (`chi`). -/
def chi (p : Par K) (phi : K) : K := 1 / (p.Va * p.Va) * (hb phi / p.kb + hm phi / p.km)

/-- operator_grand_potential_greenquist.h:228-232 (`dchi_dphi`). -/
def dchi (p : Par K) (phi : K) : K := 1 / (p.Va * p.Va) * (dhb phi / p.kb + dhm phi / p.km)

/-- operator_grand_potential_greenquist.h:234-239 (`switching`). -/
def switching (s gb phi : K) : K := s * H (3 / 10) phi + gb * (1 - H (3 / 10) phi)

/-- operator_grand_potential_greenquist.h:241-246 (`dswitching_dphi`). -/
def dswitching (s gb phi : K) : K := s * dH (3 / 10) phi - gb * dH (3 / 10) phi

/-- operator_grand_potential_greenquist.h:248-253 (`d2switching_dphi2`). -/
def d2switching (s gb phi : K) : K := s * d2H (3 / 10) phi - gb * d2H (3 / 10) phi

/-- operator_grand_potential_greenquist.h:55-131 (the constructors): order parameter of the phase, chemical
potential and the sums over the phases. -/
structure Eval (K : Type) where
  p : Par K
  phi : K
  mu : K
  s2 : K
  s4 : K
  mixed2 : K

/-- The array `phases`: entry 0 is the phase `phi`, the order parameters of the grains follow. -/
def phases (phi : K) (eta : Nat → K) : Nat → K
  | 0 => phi
  | i + 1 => eta i

/-- operator_grand_potential_greenquist.h:55-131. -/
def eval (p : Par K) (n : Nat) (phi mu : K) (eta : Nat → K) : Eval K :=
  let ph := phases phi eta
  { p := p, phi := phi, mu := mu, s2 := powerSum 2 (entries (n + 1) ph), s4 := powerSum 4 (entries (n + 1) ph),
    mixed2 := mixedOuter (n + 1) ph 0 (n + 1) 0 * 2 }

namespace Eval

/-- operator_grand_potential_greenquist.h:368-374 (`cm_eq`). -/
def cmEq (e : Eval K) : K := e.p.ceqB + 4 * (e.p.ceqGB - e.p.ceqB) * (1 - e.s2) ^ 2
/-- operator_grand_potential_greenquist.h:376-381. -/
def dcmEq (e : Eval K) (ph : K) : K := -16 * (e.p.ceqGB - e.p.ceqB) * (1 - e.s2) * ph
/-- operator_grand_potential_greenquist.h:383-389. -/
def d2cmEq (e : Eval K) (ph : K) : K := -16 * (e.p.ceqGB - e.p.ceqB) * (1 - e.s2 - 2 * ph * ph)
/-- operator_grand_potential_greenquist.h:391-396. -/
def d2cmEqMixed (e : Eval K) (phi phj : K) : K := 32 * (e.p.ceqGB - e.p.ceqB) * phi * phj

/-- operator_grand_potential_greenquist.h:292-296 (`omega_b`). -/
def omegaB (e : Eval K) : K := -1 * e.mu * e.mu / (2 * e.p.Va * e.p.Va * e.p.kb) - e.p.cbEq * e.mu / e.p.Va
/-- operator_grand_potential_greenquist.h:298-302. -/
def domegaB (e : Eval K) : K := -1 * e.mu / (e.p.Va * e.p.Va * e.p.kb) - e.p.cbEq / e.p.Va
/-- operator_grand_potential_greenquist.h:304-308. -/
def d2omegaB (e : Eval K) : K := -1 / (e.p.Va * e.p.Va * e.p.kb)
/-- operator_grand_potential_greenquist.h:311-315 (`omega_m`). -/
def omegaM (e : Eval K) : K := -1 * e.mu * e.mu / (2 * e.p.Va * e.p.Va * e.p.km) - e.cmEq * e.mu / e.p.Va
/-- operator_grand_potential_greenquist.h:317-321. -/
def domegaM (e : Eval K) : K := -1 * e.mu / (e.p.Va * e.p.Va * e.p.km) - e.cmEq / e.p.Va
/-- operator_grand_potential_greenquist.h:323-327. -/
def domegaMPhase (e : Eval K) (ph : K) : K := -1 * e.dcmEq ph * e.mu / e.p.Va
/-- operator_grand_potential_greenquist.h:329-333. -/
def d2omegaM (e : Eval K) : K := -1 / (e.p.Va * e.p.Va * e.p.km)
/-- operator_grand_potential_greenquist.h:335-339. -/
def d2omegaMMuPhase (e : Eval K) (ph : K) : K := -1 * e.dcmEq ph / e.p.Va
/-- operator_grand_potential_greenquist.h:341-345. -/
def d3omegaMMuPhase2 (e : Eval K) (ph : K) : K := -1 * e.d2cmEq ph / e.p.Va
/-- operator_grand_potential_greenquist.h:347-352. -/
def d3omegaMMuMixed (e : Eval K) (a b : K) : K := -1 * e.d2cmEqMixed a b / e.p.Va
/-- operator_grand_potential_greenquist.h:354-358. -/
def d2omegaMPhase2 (e : Eval K) (ph : K) : K := -1 * e.d2cmEq ph * e.mu / e.p.Va
/-- operator_grand_potential_greenquist.h:360-365. -/
def d2omegaMMixed (e : Eval K) (a b : K) : K := -1 * e.d2cmEqMixed a b * e.mu / e.p.Va

/-- operator_grand_potential_greenquist.h:398-403 (`zeta`). -/
def zeta (e : Eval K) : K := e.s4 + e.p.gamma * e.mixed2 + 1 / 4
/-- operator_grand_potential_greenquist.h:405-411 (`dzeta_dphasei`). -/
def dzeta (e : Eval K) (ph : K) : K := ph ^ 3 - ph + 2 * e.p.gamma * ph * (e.s2 - ph ^ 2)
/-- operator_grand_potential_greenquist.h:413-420. -/
def d2zeta (e : Eval K) (ph : K) : K := 3 * ph ^ 2 - 1 + 2 * e.p.gamma * (e.s2 - ph ^ 2)
/-- operator_grand_potential_greenquist.h:422-427. -/
def d2zetaMixed (e : Eval K) (a b : K) : K := 4 * e.p.gamma * a * b

/-- operator_grand_potential_greenquist.h:255-271 (`epsilon` and derivatives). -/
def eps (e : Eval K) : K := switching e.p.epsS e.p.epsGb e.phi
def deps (e : Eval K) : K := dswitching e.p.epsS e.p.epsGb e.phi
def d2eps (e : Eval K) : K := d2switching e.p.epsS e.p.epsGb e.phi
/-- operator_grand_potential_greenquist.h:273-289 (`kappa` and derivatives). -/
def kappa (e : Eval K) : K := switching e.p.kapS e.p.kapGb e.phi
def dkappa (e : Eval K) : K := dswitching e.p.kapS e.p.kapGb e.phi

end Eval

/-- `acc` after the loop `for (i < n) acc += f(i)`. -/
def loopAdd (n : Nat) (f : Nat → K) (acc : K) : K := (List.range n).foldl (fun a i => a + f i) acc

/-- mobility.h:312-323 at 1, 346-352, 359-373: sum of the three contributions used by the model. -/
def mobility (m : Coeff K) (n : Nat) (phi : K) (eta : Nat → K) : K :=
  m.Mvol * Mobility.phi 1 + m.Msurf * 4 * phi * phi * (1 - phi) * (1 - phi) +
    m.Mgb * (Mobility.pairLoop 0 [] (entries n eta) * 2)

/-- mobility.h:549-560 (`dM_surf_dc`); `dM_dgrad_c` is zero for the scalar mobility. -/
def dMsurf (m : Coeff K) (c : K) : K := m.Msurf * (8 * c * (1 - 3 * c + 2 * c * c))

variable {V : Type} [AddCommGroup V] [Module K V]

/-- Values and gradients at a quadrature point (a state or an increment). -/
structure State (K V : Type) where
  phi : K
  mu : K
  eta : Nat → K
  gphi : V
  gmu : V
  geta : Nat → V

/-- Old solutions with their weights. -/
structure Old (K : Type) where
  phi : List (K × K)
  mu : List (K × K)
  eta : Nat → List (K × K)

/-- Submitted values and gradients. -/
abbrev Out (K V : Type) := State K V

/-- operator_grand_potential_greenquist.h:1272-1408 (`do_evaluate_nonlinear_residual`); only the truth value of the
template argument `mode` is used; `value_result` starts from zero. -/
def residual (p : Par K) (mode n : Nat) (old : Old K) (x : State K V) : Out K V :=
  let e := eval p n x.phi x.mu x.eta
  let td := fun (v : K) o => if mode ≠ 0 then timeDerivative 0 v p.weight o else 0
  let v0 := td x.phi old.phi
  let dphi := v0
  let v1 := td x.mu old.mu * chi p x.phi
  let v0 := v0 + p.Lphi * (dhb x.phi * e.omegaB + dhm x.phi * e.omegaM + hm x.phi * e.domegaMPhase x.phi +
    e.deps * e.zeta + e.eps * e.dzeta x.phi)
  let dphi := dphi * (dhb x.phi * e.domegaB + dhm x.phi * e.domegaM + hm x.phi * e.d2omegaMMuPhase x.phi)
  let dphi := dphi * -1
  { phi := v0
    mu := v1 + dphi
    eta := fun i => td (x.eta i) (old.eta i) + p.L * (hm x.phi * e.domegaMPhase (x.eta i) + e.eps * e.dzeta (x.eta i))
    gphi := (p.Lphi * e.kappa) • x.gphi
    gmu := (chi p x.phi * mobility p.mob n x.phi x.eta) • x.gmu
    geta := fun i => (p.L * e.kappa) • x.geta i }

/-- operator_grand_potential_greenquist.h:853-1100 (`do_vmult_kernel`), with `dphi_dt` and `dmu_dt` starting from
`init`; an uninitialised variable is `none`. -/
def vmultFrom (init : Option K) (p : Par K) (n : Nat) (old : Old K) (x d : State K V) : Res (Out K V) :=
  match init with
  | none => .ub
  | some z =>
    let e := eval p n x.phi x.mu x.eta
    let dphi := timeDerivative z x.phi p.weight old.phi
    let dmu := timeDerivative z x.mu p.weight old.mu
    -- phi row
    let v0 := d.phi * p.weight
    let v0 := v0 + p.Lphi *
      (d2hb x.phi * e.omegaB + d2hm x.phi * e.omegaM + dhm x.phi * e.domegaMPhase x.phi +
        dhm x.phi * e.domegaMPhase x.phi + hm x.phi * e.d2omegaMPhase2 x.phi + e.d2eps * e.zeta +
        e.deps * e.dzeta x.phi + e.deps * e.dzeta x.phi + e.eps * e.d2zeta x.phi) * d.phi
    let v0 := v0 + p.Lphi * (dhb x.phi * e.domegaB + dhm x.phi * e.domegaM + hm x.phi * e.d2omegaMMuPhase x.phi) * d.mu
    let g0 := (p.Lphi * e.dkappa * d.phi) • x.gphi + (p.Lphi * e.kappa) • d.gphi
    let v0 := loopAdd n (fun i => p.Lphi *
      (dhm x.phi * e.domegaMPhase (x.eta i) + hm x.phi * e.d2omegaMMixed x.phi (x.eta i) +
        e.deps * e.dzeta (x.eta i) + e.eps * e.d2zetaMixed x.phi (x.eta i)) * d.eta i) v0
    -- mu row
    let v1 := d.mu * p.weight * chi p x.phi + dmu * dchi p x.phi * d.phi
    let v1 := v1 - (dhb x.phi * e.domegaB + dhm x.phi * e.domegaM + hm x.phi * e.d2omegaMMuPhase x.phi) * d.phi * p.weight
    let v1 := v1 - (d2hb x.phi * e.domegaB + d2hm x.phi * e.domegaM + dhm x.phi * e.d2omegaMMuPhase x.phi +
      dhm x.phi * e.d2omegaMMuPhase x.phi + hm x.phi * e.d3omegaMMuPhase2 x.phi) * d.phi * dphi
    let v1 := v1 - (dhb x.phi * e.d2omegaB + dhm x.phi * e.d2omegaB) * d.mu * dphi
    let v1 := loopAdd n (fun i =>
      -((dhm x.phi * e.d2omegaMMuPhase (x.eta i) + hm x.phi * e.d3omegaMMuMixed x.phi (x.eta i)) * d.eta i * dphi)) v1
    let M := mobility p.mob n x.phi x.eta
    let g1 := (M * dchi p x.phi * d.phi) • x.gmu
    let g1 := g1 + (M * chi p x.phi) • d.gmu
    let g1 := g1 + (chi p x.phi * dMsurf p.mob x.phi * d.phi) • x.gmu
    let g1 := g1 + (loopAdd n (fun i => chi p x.phi * Mobility.dMdetai p.mob (entries n x.eta) i * d.eta i) 0) • x.gmu
    -- rows of the order parameters
    .ok {
      phi := v0
      mu := v1
      eta := fun i =>
        let v := d.eta i * p.weight
        let v := v + p.L * (dhm x.phi * e.domegaMPhase (x.eta i) + hm x.phi * e.d2omegaMMixed (x.eta i) x.phi +
          e.deps * e.dzeta (x.eta i) + e.eps * e.d2zetaMixed (x.eta i) x.phi) * d.phi
        let v := v + p.L * (hm x.phi * e.d2omegaMMuPhase (x.eta i)) * d.mu
        let v := v + p.L * (hm x.phi * e.d2omegaMPhase2 (x.eta i) + e.eps * e.d2zeta (x.eta i)) * d.eta i
        loopAdd n (fun j => if j ≠ i then p.L * (hm x.phi * e.d2omegaMMixed (x.eta i) (x.eta j) +
          e.eps * e.d2zetaMixed (x.eta i) (x.eta j)) * d.eta j else 0) v
      gphi := g0
      gmu := g1
      geta := fun i => (p.L * e.kappa) • d.geta i }

/-- operator_grand_potential_greenquist.h:853-1100 as written: `VectorizedArrayType dphi_dt, dmu_dt;` are not
initialised (line 912) and `compute_time_derivative` adds to them (time_integrators.h:84-90). -/
def vmult (p : Par K) (n : Nat) (old : Old K) (x d : State K V) : Res (Out K V) := vmultFrom none p n old x d

end Verif.Greenquist
