import Mathlib.Algebra.Module.Defs
import Mathlib.Algebra.Order.Field.Basic
/-!
# Explicit time stepping

Models `TimeMarchingExplicit::make_step` (include/pf-applications/time_integration/time_marching.h:630-790)
and the explicit schemes (time_schemes.h:159-187). A solution is a family of `n` blocks. The inverse
of the mass matrix together with the handling of constraints (lines 681-707, 764-783) is a function
`minv` on blocks; linear solver failure is not modelled here. The loops over the blocks (lines
676-731, 757-788) read and write only the block of the current index, hence are written pointwise.
The statistics are not modelled.
-/

/-! The time of `time_data` is a separate variable that starts at zero (time_integrator_data.h:40, 49);
the driver never sets it to the start time of the simulation. -/
namespace Verif.Explicit
variable {K V : Type} {n : Nat}

/-- `ForwardEulerScheme::get_stages` (time_schemes.h:170-174) -/
def euler [Field K] : List (K × K) := [(1, 0)]
/-- `RungeKutta4Scheme::get_stages` (time_schemes.h:179-186) -/
def rk4 [Field K] : List (K × K) := [(1 / 6, 1 / 2), (1 / 3, 1 / 2), (1 / 3, 1), (1 / 6, 0)]

/-- the discretised problem: type of the equations (`true`: time dependent), residual as a function of
time and state, inverse mass matrix -/
structure Problem (K V : Type) (n : Nat) where
  timeDep : Fin n → Bool
  res : K → (Fin n → V) → Fin n → V
  minv : V → V

/-- variables of `make_step`: `current_solution`, `vec_work`, `increment` and the time of `time_data` -/
structure St (K V : Type) (n : Nat) where
  cur : Fin n → V
  work : Fin n → V
  inc : Fin n → V
  time : K

variable [Field K] [DecidableEq K] [AddCommGroup V] [Module K V]

/-- body of the loop over the blocks (lines 676-731) for one block: new `vec_work` and `increment` -/
def blockStep (timeDep : Bool) (sdt sw dt : K) (c w i m : V) : V × V :=
  if timeDep then
    let v := (-1 * sdt * dt) • m
    let i := i + v
    if sw ≠ 0 then
      let v := (1 / sdt * sw) • v
      (c + v, i)
    else (w, i)
  else ((-1 : K) • m, i)

/-- one stage (lines 662-736); with `direct` the working vector is `current_solution` itself
(line 656) -/
def stage (P : Problem K V n) (direct : Bool) (t dt : K) (s : K × K) (st : St K V n) : St K V n :=
  let k := P.res st.time st.work
  let r := fun b => blockStep (P.timeDep b) s.1 s.2 dt (st.cur b) (st.work b) (st.inc b) (P.minv (k b))
  { cur := if direct then fun b => (r b).1 else st.cur
    work := fun b => (r b).1
    inc := fun b => (r b).2
    time := t + s.2 * dt }

/-- algebraic part (lines 745-789): value of all blocks after it -/
def algebraic (P : Problem K V n) (time : K) (cur : Fin n → V) : Fin n → V :=
  let k := P.res time cur
  fun b => if P.timeDep b then cur b else (-1 : K) • P.minv (k b)

/-- `has_stationary_equations` (lines 575-586, 822); the member is not initialised, `init` is the value found
in memory -/
def hasStationary (init : Bool) (timeDep : Fin n → Bool) : Bool :=
  (List.finRange n).foldl (fun h c => h || !timeDep c) init

/-- `make_step` (lines 630-790): new solution and new time -/
def makeStep (P : Problem K V n) (init : Bool) (stages : List (K × K)) (t dt : K) (u : Fin n → V) :
    (Fin n → V) × K :=
  let st := stages.foldl (fun st s => stage P (decide (stages.length ≤ 1)) t dt s st)
    ⟨u, u, fun _ => 0, t⟩
  let cur := fun b => st.cur b + st.inc b
  let time := st.time + dt
  (if hasStationary init P.timeDep then algebraic P time cur else cur, time)

end Verif.Explicit
