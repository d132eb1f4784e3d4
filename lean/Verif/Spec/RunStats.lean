/-
Specification of the statistics: what was really done, read off the list of attempts.
-/
import Verif.Model.RunStats

namespace Verif.Spec.RunStats

open Verif.RunStats

/-- Linear iterations of a piece of work, whether they converge or not. -/
def linearDone : Work → Nat
  | .linear n _ => n
  | _ => 0

/-- Evaluations of the residual. -/
def residualDone : Work → Nat
  | .residual => 1
  | _ => 0

/-- Everything in the work converged. -/
def AllConverged (l : List Work) : Prop := ∀ w ∈ l, ∀ n, w ≠ .linear n false

def total (f : Work → Nat) (l : List Work) : Nat := (l.map f).sum

variable {K : Type}

/-- Attempts whose step was accepted. -/
def good (as : List (Attempt K)) : List (Attempt K) := as.filter fun a => a.ending != .failed

/-- Attempts that end with an exception. -/
def bad (as : List (Attempt K)) : List (Attempt K) := as.filter fun a => a.ending != .accepted

end Verif.Spec.RunStats
