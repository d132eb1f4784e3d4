/-
Material data of the run:
  applications/sintering/include/pf-applications/sintering/mobility.h (providers of the mobilities)
  applications/sintering/include/pf-applications/sintering/operator_sintering_data.h (time of the data)
  applications/sintering/include/pf-applications/sintering/driver.h (when they are updated).

Simplifications: `double` is ℝ; a division by zero gives no number (`none`) although the floating point value of the
grain boundary mobility would be zero or infinite. The loop is reduced to times, step sizes and the material in use;
solvers, mesh and grain tracker only decide how a pass ends. The log records where the equations are evaluated.
-/
import Verif.Model.Mobility
import Verif.Model.Numerics
import Verif.Model.Explicit
import Mathlib.Analysis.Complex.Exponential

namespace Verif.Material

noncomputable section

/-- `ArrheniusUnit` (mobility.h:74-78) -/
inductive Arrhenius
  | boltzmann
  | gas

/-- `kb`, `R` (mobility.h:165-166) and `arrhenius_factor` (mobility.h:114) -/
def factor : Arrhenius → ℝ
  | .boltzmann => 8617343 / 100000000000
  | .gas => 8314 / 1000

/-- prefactor and activation energy of one mechanism -/
structure Mechanism where
  D0 : ℝ
  Q : ℝ

/-- arguments of the constructor of `ProviderRealistic` (mobility.h:80-97), given by driver.h:896-912. `ts`, `ls`, `es`
are the scales of time, length and energy, `width` the width of the interface in units of `ls`. -/
structure Data where
  omega : ℝ
  vol : Mechanism
  vap : Mechanism
  surf : Mechanism
  gb : Mechanism
  gbMob : Mechanism
  width : ℝ
  ts : ℝ
  ls : ℝ
  es : ℝ

/-- `calc_diffusion_coefficient` (mobility.h:138-150) with `omega_dmls` (mobility.h:112) -/
def diffusion (d : Data) (k : ℝ) (m : Mechanism) (T : ℝ) : Option ℝ :=
  if d.ls = 0 ∨ k * T = 0 then none
  else
    let D0 := m.D0 * d.ts / (d.ls * d.ls)
    let D := D0 * Real.exp (-m.Q / (k * T))
    some (D * (d.omega / d.ls ^ 3) / (k * T) * d.es)

/-- `calc_gb_mobility_coefficient` (mobility.h:152-163) -/
def gbMobility (d : Data) (k : ℝ) (m : Mechanism) (T : ℝ) : Option ℝ :=
  if d.ls = 0 ∨ k * T = 0 ∨ d.width = 0 then none
  else
    let D0 := m.D0 * d.ts * d.es / d.ls ^ 4
    let D := D0 * Real.exp (-m.Q / (k * T))
    some (4 / 3 * D / d.width)

/-- the coefficients at one temperature (mobility.h:127-131) -/
def coefficients (d : Data) (k T : ℝ) : Option (Mobility.Coeff ℝ) := do
  let vol ← diffusion d k d.vol T
  let vap ← diffusion d k d.vap T
  let surf ← diffusion d k d.surf T
  let gb ← diffusion d k d.gb T
  let L ← gbMobility d k d.gbMob T
  some { Mvol := vol, Mvap := vap, Msurf := surf, Mgb := gb, L := L }

/-- `ProviderRealistic::calculate` (mobility.h:118-134); the temperature is the profile given by the points of a
`std::map`, not extrapolated (driver.h:892-894) -/
def calculate (d : Data) (u : Arrhenius) (table : List (ℝ × ℝ)) (time : ℝ) : Res (Option (Mobility.Coeff ℝ)) := do
  let T ← Numerics.value false table time
  .ok (T.bind (coefficients d (factor u)))

/-- `ProviderAbstract::calculate` (mobility.h:62-69) -/
def calculateAbstract (c : Mobility.Coeff ℝ) (_time : ℝ) : Res (Option (Mobility.Coeff ℝ)) := .ok (some c)

end

/-! ## Time loop -/

section
variable {K M : Type} [Field K] [LinearOrder K]

/-- what the equations are evaluated for -/
inductive Purpose
  | predict
  | solve
  | algebraic
  | fluxes
  deriving DecidableEq

/-- one evaluation of the equations: the time they are meant for and the material in use -/
structure Eval (K M : Type) where
  purpose : Purpose
  time : K
  mat : M
  deriving DecidableEq

/-- variables of the loop: `t`, `dt` and the mobility of `sintering_data` -/
structure LoopState (K M : Type) where
  t : K
  dt : K
  mat : M
  log : List (Eval K M)

/-- `is_implicit` or the stages of the explicit scheme and whether there are stationary equations -/
inductive Scheme (K : Type)
  | implicit
  | explicit (stages : List (K × K)) (stationary : Bool)

/-- `params.time_integration_data.predictor` (driver.h:2002-2043); `linear` evaluates nothing -/
inductive Predictor
  | none
  | linear
  | euler
  | midpoint

/-- options of the run; `provider` is `MobilityProvider::calculate` -/
structure Conf (K M : Type) where
  scheme : Scheme K
  predictor : Predictor
  fluxes : Bool
  provider : K → M

/-- end of a pass: not solved, solved, or solved and then the solver of the fluxes fails. The next step size of a
solved step is free, within the limits of the loop. -/
inductive Outcome (K : Type)
  | failed
  | solved (dt : K)
  | fluxesFailed (dt : K)

/-- mobility at the beginning of a run, also of a restarted one (mobility.h:218-222, operator_sintering_data.h:59) -/
def start (c : Conf K M) (t dt : K) : LoopState K M := { t := t, dt := dt, mat := c.provider 0, log := [] }

/-- `actual_time` (driver.h:1997-1998) -/
def actualTime (s : Scheme K) (t dt : K) : K :=
  match s with
  | .implicit => t + dt
  | .explicit _ _ => t

/-- evaluations of the predictor (driver.h:2002-2043) -/
def predictorEvals (p : Predictor) (t dt : K) (m : M) : List (Eval K M) :=
  if t > 0 then
    match p with
    | .euler => [⟨.predict, t, m⟩]
    | .midpoint => [⟨.predict, t, m⟩, ⟨.predict, t + dt / 2, m⟩]
    | _ => []
  else []

/-- times of the stages as set by `set_current_time` (time_marching.h:645-647, 734-735): the first one at the beginning
of the step -/
def stageTimes (stages : List (K × K)) (t dt : K) : List K :=
  (stages.foldl (fun (r : List K × K) s => (r.1 ++ [r.2], t + s.2 * dt)) (([], t) : List K × K)).1

/-- evaluations of the scheme: the residual of the implicit scheme belongs to the end of the step, those of an explicit
scheme to its stages (time_marching.h:662-736), the stationary equations to the end (time_marching.h:745-789) -/
def schemeEvals (s : Scheme K) (t dt : K) (m : M) : List (Eval K M) :=
  match s with
  | .implicit => [⟨.solve, t + dt, m⟩]
  | .explicit stages stationary =>
    (stageTimes stages t dt).map (fun τ => ⟨.solve, τ, m⟩) ++ (if stationary then [⟨.algebraic, t + dt, m⟩] else [])

/-- evaluations for the fluxes after a solved step (driver.h:2463-2482) at the new time -/
def fluxEvals (fluxes : Bool) (t : K) (m : M) : List (Eval K M) := if fluxes then [⟨.fluxes, t, m⟩] else []

/-- one pass of the loop: `set_time` (driver.h:1996-1999, operator_sintering_data.h:424-429), predictor, step
(driver.h:2232), commit of the time (driver.h:2372), next step size, fluxes; after a failure the step is halved
(driver.h:2166). The step size of a pass whose fluxes fail is halved as well, the time stays advanced. -/
def pass (c : Conf K M) (st : LoopState K M) (o : Outcome K) : LoopState K M :=
  let m := c.provider (actualTime c.scheme st.t st.dt)
  let log := st.log ++ predictorEvals c.predictor st.t st.dt m ++ schemeEvals c.scheme st.t st.dt m
  match o with
  | .failed => { t := st.t, dt := st.dt * (1 / 2), mat := m, log := log }
  | .solved dt => { t := st.t + st.dt, dt := dt, mat := m, log := log ++ fluxEvals c.fluxes (st.t + st.dt) m }
  | .fluxesFailed dt =>
    { t := st.t + st.dt, dt := dt * (1 / 2), mat := m, log := log ++ fluxEvals c.fluxes (st.t + st.dt) m }

/-- the loop -/
def run (c : Conf K M) (st : LoopState K M) (os : List (Outcome K)) : LoopState K M := os.foldl (pass c) st

/-- the residual an explicit scheme works with: the operators read the mobility set before the step
(driver.h:1999), no operator reads the time set for the stage (`get_current_time` is called only in
time_marching.h:647, 1056). `rhs m u` is the residual with material `m`. -/
def frozen {V : Type} {n : Nat} (provider : K → M) (t : K) (rhs : M → (Fin n → V) → Fin n → V) :
    K → (Fin n → V) → Fin n → V :=
  fun _ u => rhs (provider t) u

end

end Verif.Material
