/-
The solver of the small applications: include/pf-applications/lac/newton.h

Simplifications: numbers of an ordered field; a norm that is not a number is `none` and makes every comparison false. The operator and the
linear solver are parameters; the linear solver has a state (its preconditioner) and may throw.
-/
import Verif.Model.Res
import Mathlib.Algebra.Field.Defs
import Mathlib.Order.Defs.LinearOrder

namespace Verif.SimpleNewton

variable {K V σ : Type} [Field K] [LinearOrder K]

/-- newton.h:22-36 `NewtonSolverData` -/
structure Data (K : Type) where
  maxIter : Nat
  absTol : K
  relTol : K

/-- What the solver needs from the vectors, the operator and the linear solver. -/
structure Env (K V σ : Type) where
  /-- newton.h:84-88, 145-147: `evaluate_nonlinear_residual`, minus `rhs` if there is one -/
  res : V → V
  /-- `l2_norm` -/
  norm : V → Option K
  /-- `residual *= -1.0` -/
  neg : V → V
  /-- `tmp = dst; tmp.add(omega, increment)` -/
  add : V → K → V → V
  /-- newton.h:116-124: the increment and the number of iterations for a linearisation point and a right-hand side, with the state before
  and the flag for an update; `none`: it throws -/
  lin : σ → V → V → Bool → Option (σ × V × Nat)

/-- newton.h:66-73: arguments of `solve`. -/
structure Args where
  update : Bool
  every : Nat

/-- `dst`, `residual`, `norm_r`, `statistics` and the state of the linear solver. -/
structure St (K V σ : Type) where
  dst : V
  residual : V
  normR : Option K
  newton : Nat
  linear : Nat
  sol : σ

inductive Why where
  | damping
  | tolerance
  | linear
  deriving DecidableEq

/-- Outcome: returned, thrown with what is left behind, division by zero. -/
inductive Out (K V σ : Type) where
  | done (s : St K V σ)
  | thrown (w : Why) (s : St K V σ)
  | ub

/-- Comparisons with numbers that may be NaN. -/
def gt (a : Option K) (b : K) : Bool := match a with | some a => decide (b < a) | none => false
def ge (a : Option K) (b : K) : Bool := match a with | some a => decide (b ≤ a) | none => false
def lt (a : Option K) (b : K) : Bool := match a with | some a => decide (a < b) | none => false
def le (a : Option K) (b : K) : Bool := match a with | some a => decide (a ≤ b) | none => false

/-- `norm_r / norm_r_0` -/
def ratio (a b : Option K) : Option K :=
  match a, b with
  | some a, some b => if b = 0 then none else some (a / b)
  | _, _ => none

/-- newton.h:135-156: one try of the damping. -/
structure Try (K V : Type) where
  tmp : V
  residual : V
  normTmp : Option K
  omega : K
  tries : Nat

def tryStep (E : Env K V σ) (dst inc : V) (omega : K) (n : Nat) : Try K V :=
  let tmp := E.add dst omega inc
  let r := E.res tmp
  ⟨tmp, r, E.norm r, omega / 2, n + 1⟩

/-- newton.h:127-159: the damping; `tau` is 1/10, `max` is 100. -/
def damp (E : Env K V σ) (tau : K) (max : Nat) (normR : K) (dst inc : V) (omega : K) (n : Nat) : Try K V :=
  let t := tryStep E dst inc omega n
  if h : ge t.normTmp ((1 - tau * t.omega) * normR) ∧ n + 1 < max then damp E tau max normR dst inc t.omega (n + 1) else t
termination_by max - n
decreasing_by omega

/-- newton.h:99-101: the condition of the loop. -/
def continues (d : Data K) (norm0 : Option K) (s : St K V σ) : Bool :=
  gt s.normR d.absTol && gt (ratio s.normR norm0) d.relTol && decide (s.newton < d.maxIter)

/-- newton.h:102-171: the body of the loop; `normR` is the number `norm_r`. -/
def body (E : Env K V σ) (tau : K) (max : Nat) (a : Args) (normR : K) (s : St K V σ) : Out K V σ :=
  if a.update ∧ a.every = 0 then .ub
  else
    match E.lin s.sol s.dst (E.neg s.residual) (a.update && decide (s.newton % a.every = 0)) with
    | none => .thrown .linear { s with residual := E.neg s.residual }
    | some (sol, inc, its) =>
      let t := damp E tau max normR s.dst inc 1 0
      if lt t.normTmp ((1 - tau * t.omega) * normR) then
        .done ⟨t.tmp, t.residual, t.normTmp, s.newton + 1, s.linear + its, sol⟩
      else .thrown .damping { s with residual := t.residual, linear := s.linear + its, sol := sol }

/-- newton.h:99-172: the loop; `k` limits the number of turns. -/
def loop (E : Env K V σ) (tau : K) (max : Nat) (d : Data K) (a : Args) (norm0 : Option K) : Nat → St K V σ → Out K V σ
  | 0, s => .done s
  | k + 1, s =>
    if continues d norm0 s then
      match s.normR with
      | none => .done s
      | some r =>
        match body E tau max a r s with
        | .done s' => loop E tau max d a norm0 k s'
        | o => o
    else .done s

/-- newton.h:75-186 `solve` -/
def solve (E : Env K V σ) (tau : K) (max : Nat) (d : Data K) (a : Args) (sol : σ) (dst : V) : Out K V σ :=
  let r := E.res dst
  let norm0 := E.norm r
  match loop E tau max d a norm0 d.maxIter ⟨dst, r, norm0, 0, 0, sol⟩ with
  | .done s => if le s.normR d.absTol || le (ratio s.normR norm0) d.relTol then .done s else .thrown .tolerance s
  | o => o

end Verif.SimpleNewton
