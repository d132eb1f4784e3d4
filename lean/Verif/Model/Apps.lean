/-
The small applications:
  applications/allen_cahn/allen_cahn.cc, allen_cahn_impl.cc, allen_cahn_impl_two_components.cc, allen_cahn_two_components_1.cc
  applications/cahn_hilliard/cahn_hilliard.cc, cahn_hilliard_impl.cc
  applications/grand_potential/kks.cc

Simplifications: numbers of a field; cells, lanes and ranks are one family of quadrature points with the values and gradients of all
shape functions there (there are no constraints in these applications). Linear systems are solved exactly. Mesh, initial values, output
and timing are left out.
-/
import Verif.Model.Res
import Mathlib.Algebra.BigOperators.Group.Finset.Basic
import Mathlib.Algebra.BigOperators.Fin
import Mathlib.Data.Fin.VecNotation
import Mathlib.Algebra.Field.Defs
import Mathlib.Order.Defs.LinearOrder

namespace Verif.Apps

open Finset

variable {K : Type} [Field K] {n d nq m : Nat}

/-! ### Discretisation -/

/-- A quadrature point: weight times determinant, values and gradients of the shape functions. -/
structure QPt (K : Type) (n d : Nat) where
  w : K
  N : Fin n → K
  G : Fin n → Fin d → K

/-- What is submitted at a quadrature point for `m` components. -/
structure Sub (K : Type) (m d : Nat) where
  val : Fin m → K
  grd : Fin m → Fin d → K

/-- `FEEvaluation::get_value` -/
def value (p : QPt K n d) (u : Fin n → K) : K := ∑ i, p.N i * u i

/-- `FEEvaluation::get_gradient` -/
def gradient (p : QPt K n d) (u : Fin n → K) (e : Fin d) : K := ∑ i, p.G i e * u i

/-- `FEEvaluation::integrate_scatter` over all cells. -/
def integrate (D : Fin nq → QPt K n d) (s : Fin nq → Sub K m d) (c : Fin m) (i : Fin n) : K :=
  ∑ q, (D q).w * ((s q).val c * (D q).N i + ∑ e, (s q).grd c e * (D q).G i e)

/-- A cell loop with a kernel of values and gradients. -/
def loop (D : Fin nq → QPt K n d) (k : Fin nq → (Fin m → K) → (Fin m → Fin d → K) → Sub K m d) (u : Fin m → Fin n → K) : Fin m → Fin n → K :=
  integrate D fun q => k q (fun c => value (D q) (u c)) (fun c e => gradient (D q) (u c) e)

/-- `MassMatrix::vmult` of all applications. -/
def mass (D : Fin nq → QPt K n d) (u : Fin m → Fin n → K) : Fin m → Fin n → K := loop D (fun _ v _ => ⟨v, fun _ _ => 0⟩) u

/-! ### Allen-Cahn -/

/-- allen_cahn_impl.cc:232-234, allen_cahn.cc:181-183 -/
def dfDphi (phi : K) : K := phi * phi * phi * 2 - phi * 2

/-- allen_cahn_impl.cc:177-179 -/
def d2fDphi2 (phi : K) : K := phi * phi * 6 - 2

/-- Parameters `dt`, `M`, `kappa`. -/
structure Par (K : Type) where
  dt : K
  M : K
  kappa : K

/-- allen_cahn.cc:223-229, allen_cahn_two_components_1.cc:228-243, allen_cahn_two_components_2.cc:256-271: the right-hand side. -/
def acRhs (p : Par K) (v : Fin m → K) (g : Fin m → Fin d → K) : Sub K m d :=
  ⟨fun c => v c - p.dt * p.M * dfDphi (v c), fun c e => -p.dt * p.M * p.kappa * g c e⟩

/-- allen_cahn_impl_two_components.cc:247-264: the residual; `o` are the values of the old solution. -/
def acResidual (p : Par K) (o v : Fin m → K) (g : Fin m → Fin d → K) : Sub K m d :=
  ⟨fun c => v c - o c + p.dt * p.M * dfDphi (v c), fun c e => p.dt * p.M * p.kappa * g c e⟩

/-- allen_cahn_impl_two_components.cc:179-196: the tangent; `l` is the entry of `nonlinear_values`. -/
def acTangent (p : Par K) (l v : Fin m → K) (g : Fin m → Fin d → K) : Sub K m d :=
  ⟨fun c => (1 + p.dt * p.M * d2fDphi2 (l c)) * v c, fun c e => p.dt * p.M * p.kappa * g c e⟩

/-- allen_cahn_impl_two_components.cc:205-275 `evaluate_nonlinear_residual`. -/
def acEvaluate (D : Fin nq → QPt K n d) (p : Par K) (old u : Fin m → Fin n → K) : Fin m → Fin n → K :=
  loop D (fun q v g => acResidual p (fun c => value (D q) (old c)) v g) u

/-- allen_cahn_impl_two_components.cc:294-320 `evaluate_newton_step`: `nonlinear_values`. -/
def nonlinearValues (D : Fin nq → QPt K n d) (u : Fin m → Fin n → K) (q : Fin nq) (c : Fin m) : K := value (D q) (u c)

/-- allen_cahn_impl_two_components.cc:153-203 `vmult`. -/
def acVmult (D : Fin nq → QPt K n d) (p : Par K) (lin : Fin nq → Fin m → K) (x : Fin m → Fin n → K) : Fin m → Fin n → K :=
  loop D (fun q v g => acTangent p (lin q) v g) x

/-- allen_cahn_impl.cc:249-263: the residual with one component. -/
def ac1Residual (p : Par K) (o v : Fin 1 → K) (g : Fin 1 → Fin d → K) : Sub K 1 d :=
  ⟨fun c => (1 + p.dt * p.M * dfDphi (v c)) * v c - o c, fun c e => p.dt * p.M * p.kappa * g c e⟩

/-- allen_cahn_impl.cc:212-272 `evaluate_nonlinear_residual`. -/
def ac1Evaluate (D : Fin nq → QPt K n d) (p : Par K) (old u : Fin 1 → Fin n → K) : Fin 1 → Fin n → K :=
  loop D (fun q v g => ac1Residual p (fun c => value (D q) (old c)) v g) u

/-- allen_cahn_impl.cc:188: `gather_evaluate`; gradients are there only if asked for. -/
def gather (flags : Bool × Bool) (pt : QPt K n d) (u : Fin n → K) : Option K × Option (Fin d → K) :=
  (if flags.1 then some (value pt u) else none, if flags.2 then some (gradient pt u) else none)

/-- allen_cahn_impl.cc:193-201: the product at a quadrature point; a gradient that was not evaluated is undefined. -/
def ac1Point (p : Par K) (lin : Option K) (v : Option K × Option (Fin d → K)) : Res (Sub K 1 d) :=
  match lin, v.1, v.2 with
  | some l, some v, some g => .ok ⟨fun _ => (1 + p.dt * p.M * d2fDphi2 l) * v, fun _ e => p.dt * p.M * p.kappa * g e⟩
  | _, _, _ => .ub

/-- allen_cahn_impl.cc:157-204 `vmult`: values only are evaluated, and the linearisation is read from the source (191); what
`set_solution_linearization` stores (282-286) is not used. -/
def ac1Vmult (D : Fin nq → QPt K n d) (p : Par K) (_stored x : Fin 1 → Fin n → K) : Res (Fin 1 → Fin n → K) := do
  let subs ← (List.finRange nq).mapM fun q => ac1Point p (gather (true, false) (D q) (x 0)).1 (gather (true, false) (D q) (x 0))
  .ok (integrate D fun q => subs.getD q ⟨fun _ => 0, fun _ _ => 0⟩)

/-! ### Cahn-Hilliard -/

/-- cahn_hilliard_impl.cc:270-272, cahn_hilliard.cc:222-224 -/
def dfDc (c : K) : K := 4 * c * (c - 1) * (c - 1 / 2)

/-- cahn_hilliard_impl.cc:210-213 -/
def d2fDc2 (c : K) : K := 4 * c * (c - 1) + 4 * c * (c - 1 / 2) + 4 * (c - 1) * (c - 1 / 2)

/-- cahn_hilliard_impl.cc:291-308: the residual; components `c` and `mu`. -/
def chResidual (p : Par K) (o v : Fin 2 → K) (g : Fin 2 → Fin d → K) : Sub K 2 d :=
  ⟨![(v 0 - o 0) / p.dt, -v 1 + dfDc (v 0)], ![fun e => p.M * g 1 e, fun e => p.kappa * g 0 e]⟩

/-- cahn_hilliard_impl.cc:224-239: the tangent. -/
def chTangent (p : Par K) (l v : Fin 2 → K) (g : Fin 2 → Fin d → K) : Sub K 2 d :=
  ⟨![v 0 / p.dt, -v 1 + d2fDc2 (l 0) * v 0], ![fun e => p.M * g 1 e, fun e => p.kappa * g 0 e]⟩

/-- cahn_hilliard_impl.cc:250-318 `evaluate_nonlinear_residual`. -/
def chEvaluate (D : Fin nq → QPt K n d) (p : Par K) (old u : Fin 2 → Fin n → K) : Fin 2 → Fin n → K :=
  loop D (fun q v g => chResidual p (fun c => value (D q) (old c)) v g) u

/-- cahn_hilliard_impl.cc:198-248 `vmult`. -/
def chVmult (D : Fin nq → QPt K n d) (p : Par K) (lin : Fin nq → Fin 2 → K) (x : Fin 2 → Fin n → K) : Fin 2 → Fin n → K :=
  loop D (fun q v g => chTangent p (lin q) v g) x

/-- cahn_hilliard.cc:264-280: the right-hand side of the explicit scheme. -/
def chRhs (p : Par K) (v : Fin 2 → K) (g : Fin 2 → Fin d → K) : Sub K 2 d :=
  ⟨![v 0, dfDc (v 0)], ![fun e => -p.dt * p.M * g 1 e, fun e => p.kappa * g 0 e]⟩

/-- cahn_hilliard.cc:250-302: one step of the explicit scheme, exact inversion of the mass matrix. -/
def ChStep (D : Fin nq → QPt K n d) (p : Par K) (u u' : Fin 2 → Fin n → K) : Prop := mass D u' = loop D (fun _ => chRhs p) u

section
variable [LinearOrder K]

/-- cahn_hilliard_impl.cc:489-499: constants of the time loop. -/
structure TimeCfg (K : Type) where
  tEnd : K
  dtMax : K
  dtMin : K
  growth : K
  tol : K
  newton : Nat
  linear : Nat

/-- What `newton_solver.solve` gives: iterations and the solution, or an exception (with what it left in the vector). -/
inductive Solved (V : Type) where
  | done (newton linear : Nat) (x : V)
  | failed (x : V)

/-- Variables of the time loop. -/
structure LoopSt (K V : Type) where
  t : K
  dt : K
  solution : V

/-- cahn_hilliard_impl.cc:615-634: the size of the next step after a success. -/
def nextDt (c : TimeCfg K) (t dt : K) (newton linear : Nat) : K :=
  if c.tol < (if t - c.tEnd < 0 then -(t - c.tEnd) else t - c.tEnd) then
    let dt := if newton < c.newton ∧ linear < c.linear then (if c.dtMax < dt * c.growth then c.dtMax else dt * c.growth) else dt
    if c.tEnd < t + dt then c.tEnd - t else dt
  else dt

/-- cahn_hilliard_impl.cc:596-649: one turn of the loop; `solve dt old` is the solver with the step `dt` from the solution `old`. -/
def turn {V : Type} (c : TimeCfg K) (solve : K → V → Solved V) (s : LoopSt K V) : Res (LoopSt K V) :=
  match solve s.dt s.solution with
  | .done nn nl x =>
    let dt := nextDt c s.t s.dt nn nl
    .ok ⟨s.t + dt, dt, x⟩
  | .failed _ =>
    let dt := s.dt * (1 / 2)
    if c.dtMin < dt then .ok ⟨s.t, dt, s.solution⟩ else .exc .assertThrow

/-- cahn_hilliard_impl.cc:593: the loop, at most `k` turns. -/
def timeLoop {V : Type} (c : TimeCfg K) (solve : K → V → Solved V) : Nat → LoopSt K V → Res (LoopSt K V)
  | 0, s => .ok s
  | k + 1, s => if s.t ≤ c.tEnd then turn c solve s >>= timeLoop c solve k else .ok s

end

/-! ### Model of Kim, Kim and Suzuki -/

/-- kks.cc:273-289: constants. -/
structure KksPar (K : Type) where
  A : K
  B : K
  L : K
  D : K
  k : Fin 2 → K
  c0 : Fin 2 → K

/-- kks.cc:289: `linf` -/
def linf : Fin 2 → K := ![1, -1]

/-- kks.cc:404: `a == 0` -/
def other (a : Fin 2) : Fin 2 := if a = 0 then 1 else 0

/-- kks.cc:411: the denominator. -/
def denom (p : KksPar K) (phi : Fin 2 → K) : K := p.k 0 * phi 1 + p.k 1 * phi 0

/-- kks.cc:407-409, 426-429: the numerator. -/
def nom (p : KksPar K) (c : K) (phi : Fin 2 → K) (a : Fin 2) : K :=
  c * p.k (other a) + linf a * (p.c0 0 * p.k 0 - p.c0 1 * p.k 1) * phi (other a)

/-- kks.cc:401-414 `calc_ca` -/
def calcCa (p : KksPar K) (c : K) (phi : Fin 2 → K) (a : Fin 2) : K := nom p c phi a / denom p phi

/-- kks.cc:416-434 `calc_grad_ca`, one component of the gradient. -/
def calcGradCa (p : KksPar K) (c : K) (cg : K) (phi pg : Fin 2 → K) (a : Fin 2) : K :=
  (nom p cg pg a * denom p phi - nom p c phi a * denom p pg) / (denom p phi * denom p phi)

/-- kks.cc:436-439 `calc_ga` -/
def calcGa (ca ki ci : K) : K := 1 / 2 * ki * (ca - ci) ^ 2

/-- kks.cc:441-443 `calc_mu` -/
def calcMu (ca ki ci : K) : K := ki * (ca - ci)

section
variable [LinearOrder K]

/-- kks.cc:539-543: the number of active phases. -/
def nsz (phi : Fin 2 → K) : K := (if 0 < phi 0 then 1 else 0) + (if 0 < phi 1 then 1 else 0)

/-- kks.cc:545-548: `vvars0`, `vvars1` -/
def vvars (p : KksPar K) (c : K) (phi : Fin 2 → K) (a : Fin 2) : K :=
  2 * p.B * phi a * phi (other a) ^ 2 + calcGa (calcCa p c phi a) (p.k a) (p.c0 a) -
    calcMu (calcCa p c phi a) (p.k a) (p.c0 a) * calcCa p c phi a

/-- kks.cc:505-567: at a quadrature point; `none`: a division by zero, the result is not a number. -/
def kksPoint (p : KksPar K) (v : Fin 3 → K) (g : Fin 3 → Fin d → K) : Option (Sub K 3 d) :=
  let phi : Fin 2 → K := ![v 0, v 1]
  if nsz phi = 0 ∨ denom p phi = 0 then none
  else
    let ga (a : Fin 2) (e : Fin d) : K := calcGradCa p (v 2) (g 2 e) phi ![g 0 e, g 1 e] a
    some
      ⟨![-p.L / nsz phi * (vvars p (v 2) phi 0 - vvars p (v 2) phi 1), -p.L / nsz phi * (vvars p (v 2) phi 1 - vvars p (v 2) phi 0), 0],
       ![fun e => p.L / nsz phi * p.A * (g 1 e - g 0 e), fun e => p.L / nsz phi * p.A * (g 0 e - g 1 e),
         fun e => -p.D * (v 0 * ga 0 e + v 1 * ga 1 e)]⟩

/-- kks.cc:490-590 `evaluate_rhs`: `x` is the result for `y`. -/
def KksRhs (D : Fin nq → QPt K n d) (p : KksPar K) (y x : Fin 3 → Fin n → K) : Prop :=
  ∃ s : Fin nq → Sub K 3 d,
    (∀ q, kksPoint p (fun c => value (D q) (y c)) (fun c e => gradient (D q) (y c) e) = some (s q)) ∧ mass D x = integrate D s

/-- The points at which an explicit Runge-Kutta method evaluates, and its result (`TimeStepping::ExplicitRungeKutta` of deal.II):
`a` are the rows of the table, `b` its last row; `fs` the stages so far. -/
def rkPoint (dt : K) (y : Fin m → Fin n → K) (a : List K) (fs : List (Fin m → Fin n → K)) : Fin m → Fin n → K :=
  (a.zip fs).foldl (fun z e => fun c i => z c i + dt * e.1 * e.2 c i) y

/-- The stages of a Runge-Kutta method. -/
inductive RkStages (f : (Fin m → Fin n → K) → (Fin m → Fin n → K) → Prop) (dt : K) (y : Fin m → Fin n → K) :
    List (List K) → List (Fin m → Fin n → K) → List (Fin m → Fin n → K) → Prop where
  | done (fs : List (Fin m → Fin n → K)) : RkStages f dt y [] fs fs
  | stage (a : List K) (as : List (List K)) (fs fs' : List (Fin m → Fin n → K)) (x : Fin m → Fin n → K) (h : f (rkPoint dt y a fs) x)
      (hr : RkStages f dt y as (fs ++ [x]) fs') : RkStages f dt y (a :: as) fs fs'

/-- One step of a Runge-Kutta method. -/
def RkStep (f : (Fin m → Fin n → K) → (Fin m → Fin n → K) → Prop) (as : List (List K)) (b : List K) (dt : K) (y y' : Fin m → Fin n → K) :
    Prop := ∃ fs, RkStages f dt y as [] fs ∧ y' = rkPoint dt y b fs

end

end Verif.Apps
