/-
Specification of the damped Newton scheme: accepted steps and paths of them.
-/
import Verif.Model.SimpleNewton

namespace Verif.Spec.SimpleNewton

open Verif.SimpleNewton

variable {K V σ : Type} [Field K] [LinearOrder K]

/-- Norm of the residual at a point. -/
def resNorm (E : Env K V σ) (x : V) : Option K := E.norm (E.res x)

/-- The point after `j` halvings of the step. -/
def halved (E : Env K V σ) (x inc : V) (j : Nat) : V := E.add x (1 / 2 ^ j) inc

/-- The norm after `j` halvings is not small enough. -/
def TooLarge (E : Env K V σ) (tau : K) (x inc : V) (j : Nat) : Prop :=
  ∃ r r', resNorm E x = some r ∧ resNorm E (halved E x inc j) = some r' ∧ (1 - tau * (1 / 2 ^ (j + 1))) * r ≤ r'

/-- The step is accepted after `j` halvings, fewer do not suffice. -/
def Accepted (E : Env K V σ) (tau : K) (max : Nat) (x inc x' : V) (j : Nat) : Prop :=
  j < max ∧ x' = halved E x inc j ∧
  (∃ r r', resNorm E x = some r ∧ resNorm E x' = some r' ∧ r' < (1 - tau * (1 / 2 ^ (j + 1))) * r) ∧
  ∀ i < j, TooLarge E tau x inc i

/-- Neither tolerance is met. -/
def NotYet (E : Env K V σ) (d : Data K) (x0 x : V) : Prop :=
  ∃ r r0, resNorm E x = some r ∧ resNorm E x0 = some r0 ∧ r0 ≠ 0 ∧ d.absTol < r ∧ d.relTol < r / r0

/-- One of the tolerances is met. -/
def Met (E : Env K V σ) (d : Data K) (x0 x : V) : Prop :=
  ∃ r, resNorm E x = some r ∧ (r ≤ d.absTol ∨ ∃ r0, resNorm E x0 = some r0 ∧ r0 ≠ 0 ∧ r / r0 ≤ d.relTol)

/-- Is the preconditioner updated in step `n`? -/
def updates (a : Args) (n : Nat) : Bool := a.update && decide (a.every ∣ n)

/-- `n` accepted steps with `l` linear iterations. -/
inductive Path (E : Env K V σ) (tau : K) (max : Nat) (d : Data K) (a : Args) (s0 : σ) (x0 : V) : Nat → Nat → σ → V → Prop where
  | start : Path E tau max d a s0 x0 0 0 s0 x0
  | step (n l : Nat) (s : σ) (x : V) (s' : σ) (inc : V) (its : Nat) (x' : V) (j : Nat) (h : Path E tau max d a s0 x0 n l s x)
      (hn : NotYet E d x0 x) (hl : E.lin s x (E.neg (E.res x)) (updates a n) = some (s', inc, its)) (ha : Accepted E tau max x inc x' j) :
      Path E tau max d a s0 x0 (n + 1) (l + its) s' x'

/-- What an exception means: where it was thrown, and that the vector is the last point of accepted steps. -/
def Fails (E : Env K V σ) (tau : K) (max : Nat) (d : Data K) (a : Args) (s0 : σ) (x0 : V) (w : Why) (s : St K V σ) : Prop :=
  match w with
  | .tolerance => Path E tau max d a s0 x0 s.newton s.linear s.sol s.dst ∧
      (resNorm E x0 = none ∧ s.dst = x0 ∨ s.newton = d.maxIter ∧ NotYet E d x0 s.dst)
  | .linear => Path E tau max d a s0 x0 s.newton s.linear s.sol s.dst ∧ NotYet E d x0 s.dst ∧ s.newton < d.maxIter ∧
      E.lin s.sol s.dst (E.neg (E.res s.dst)) (updates a s.newton) = none
  | .damping => ∃ sol l inc its, Path E tau max d a s0 x0 s.newton l sol s.dst ∧ NotYet E d x0 s.dst ∧ s.newton < d.maxIter ∧
      E.lin sol s.dst (E.neg (E.res s.dst)) (updates a s.newton) = some (s.sol, inc, its) ∧ s.linear = l + its ∧
      ∃ j, (∀ i < j, TooLarge E tau s.dst inc i) ∧
        (j < max ∧ resNorm E (halved E s.dst inc j) = none ∨ j = max)

end Verif.Spec.SimpleNewton
