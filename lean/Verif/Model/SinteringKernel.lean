/-
Residual and linearisation of the sintering operator at one quadrature point:
  applications/sintering/include/pf-applications/sintering/operator_sintering_generic.h

Simplifications: one lane; scalar mobility; gradients are elements of a vector space; the advection
velocity of every order parameter is given (`none` where `has_velocity` is false).  The guards
`advection_data.empty()` (vmult) and `advection.enabled()` (residual) are not modelled: if they
are false `has_velocity` returns false for every order parameter (advection.h:188, 234).
-/
import Verif.Model.FreeEnergy
import Verif.Model.Mobility

namespace Verif.SinteringKernel

open Verif.FreeEnergy Verif.Mobility

/-- operator_sintering_generic.h:192-206, 310-320: parameters of the functors. -/
structure Par (K : Type) where
  A : K
  B : K
  mob : Coeff K
  kappaC : K
  kappaP : K
  weight : K
  weightAlg : K

/-- Data of one order parameter at the quadrature point: value, gradient, velocity and contribution of the old
solutions. -/
structure Grain (K V : Type) where
  eta : K
  grad : V
  vel : Option V
  buf : K

/-- Data at the quadrature point. -/
structure Point (K V : Type) where
  c : K
  mu : K
  gradC : V
  gradMu : V
  grains : List (Grain K V)
  bufC : K

/-- What is submitted for the integration: values and gradients, one pair per order parameter. -/
structure Out (K V : Type) where
  valC : K
  gradC : V
  valMu : K
  gradMu : V
  etas : List (K × V)

/-- An increment of the values and gradients; one pair per order parameter. -/
structure Incr (K V : Type) where
  c : K
  mu : K
  gradC : V
  gradMu : V
  etas : List (K × V)

variable {K : Type} [Field K] [LinearOrder K] {V : Type} [AddCommGroup V] [Module K V]

/-- operator_sintering_generic.h:168-177, 907-917: the advection terms.  For every order parameter the
velocity, the value and the gradient result so far. -/
def advect (c : K) (gradC : V) : List (Option V × K × V) → V × List V
  | [] => (gradC, [])
  | (some v, e, g) :: r =>
    let t := advect c (gradC - c • v) r
    (t.1, (g - e • v) :: t.2)
  | (none, _, g) :: r =>
    let t := advect c gradC r
    (t.1, g :: t.2)

/-- operator_sintering_generic.h:254-308 (residual functor) followed by 907-917 (advection).
`mode` is the template parameter `with_time_derivative`. -/
def residual (p : Par K) (mode : Nat) (x : Point K V) : Res (Out K V) := do
  let etas := x.grains.map (·.eta)
  let fe ← FreeEnergy.eval true p.A p.B (x.c :: x.mu :: etas) etas.length
  -- 1)
  let v0 := if 1 ≤ mode then x.c * p.weight else 0
  let v0 := if mode = 2 then v0 + x.bufC else v0
  let g0 := applyM p.mob x.c etas x.gradMu
  -- 2)
  let dfdc ← fe.df_dc
  let v1 := p.weightAlg * x.mu - dfdc
  let g1 := (-p.kappaC) • x.gradC
  -- 3)
  let rows := x.grains.map fun g =>
    let v := p.mob.L * fe.df_detai g.eta
    let v := if 1 ≤ mode then v + g.eta * p.weight else v
    let v := if mode = 2 then v + g.buf else v
    (v, (p.mob.L * p.kappaP) • g.grad)
  -- 4)
  let t := advect x.c g0 ((x.grains.zip rows).map fun gr => (gr.1.vel, gr.1.eta, gr.2.2))
  .ok { valC := v0, gradC := t.1, valMu := v1, gradMu := g1, etas := (rows.map (·.1)).zip t.2 }

/-- operator_sintering_generic.h:142-144: subtracting the mixed derivatives in the second row. -/
def mixedLoop (fe : Eval K) (acc : K) : List (K × K) → K
  | [] => acc
  | (e, v) :: r => mixedLoop fe (acc - fe.d2f_dcdetai e * v) r

/-- operator_sintering_generic.h:101-190 (vmult functor). -/
def vmult (p : Par K) (x : Point K V) (d : Incr K V) : Res (Out K V) := do
  let etas := x.grains.map (·.eta)
  let fe ← FreeEnergy.eval false p.A p.B (x.c :: x.mu :: etas) etas.length
  let gd := x.grains.zip d.etas
  let L := p.mob.L
  -- 1)
  let v0 := d.c * p.weight
  let g0 := applyMDerivative p.mob x.c (gd.map fun t => (t.1.eta, t.2.1)) x.gradMu d.c d.gradMu
  -- 2)
  let v1 := mixedLoop fe (p.weightAlg * d.mu - fe.d2f_dc2 * d.c) (gd.map fun t => (t.1.eta, t.2.1))
  let g1 := (-p.kappaC) • d.gradC
  -- 3)
  let vals := gd.map fun t =>
    t.2.1 * p.weight + L * (fe.d2f_dcdetai t.1.eta * d.c + fe.d2f_detai2 t.1.eta * t.2.1)
  let grads := gd.map fun t => (L * p.kappaP) • t.2.2
  let vals := applyD2f p.B L ((gd.zip vals).map fun t => (t.1.1.eta, t.1.2.1, t.2))
  -- 4)
  let t := advect d.c g0 ((gd.zip grads).map fun t => (t.1.1.vel, t.1.2.1, t.2))
  .ok { valC := v0, gradC := t.1, valMu := v1, gradMu := g1, etas := vals.zip t.2 }

end Verif.SinteringKernel
