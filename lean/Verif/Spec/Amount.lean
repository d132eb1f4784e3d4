/-
Specification: amount of material, balance of the amount.
-/
import Verif.Model.Amount
import Verif.Spec.TimeLoop

namespace Verif.Amount.Spec

open Finset
open Verif.Apps (QPt)

variable {K : Type} [Field K] {n d : Nat}

/-- The integral of a function given by its values at the nodes. -/
def amount (pts : List (QPt K n d)) (c : Fin n → K) : K := (pts.map fun q => q.w * ∑ i, q.N i * c i).sum

/-- The shape functions sum up to one, their gradients to zero. -/
def Unity (pts : List (QPt K n d)) : Prop := ∀ q ∈ pts, ∑ i, q.N i = 1 ∧ ∀ e, ∑ i, q.G i e = 0

/-- The amount of material of a solution on its mesh. -/
def amt (x : Disc K) : K := amount x.pts x.u.c

/-- The amounts of the past, weighted. -/
def past (order : Nat) (weights ms : List K) : K := ∑ i ∈ range order, weights.getD (i + 1) 0 * ms.getD i 0

variable [LinearOrder K]

/-- The solution of a step: it lives on the mesh of the old solutions, and the entries of the residual of the concentration sum up to zero
(which they do if the residual is zero, and after a full Newton step). -/
def Solved (d : TimeData K) (olds : List (Disc K)) (x : Disc K) : Prop :=
  ∃ (p : SinteringKernel.Par K) (vel : Nat → List (Option (Fin x.d → K))) (us : List (Sol K x.n)) (r : Fin x.n → K),
    Unity x.pts ∧ olds = us.map (fun u => ⟨x.n, x.d, x.pts, u⟩) ∧
    residualC p 2 d.order d.weights x.pts vel x.u us = .ok r ∧ ∑ i, r i = 0

/-- The passes of a run: converged solutions solve the equations of the step, sanity check and refinement keep the amount. -/
inductive Run (p : LoopParams K) (s : Scheme) : RunState K (Disc K) → RunState K (Disc K) → List (Disc K) → List K → Prop
  | start {st : RunState K (Disc K)} {sols dts} (h : Started (some s) st sols dts) : Run p s st st sols dts
  | pass {st0 st st' : RunState K (Disc K)} {sols dts} (a : Attempt (Disc K)) (h : Run p s st0 st sols dts)
      (hc : loopCond p st.t = true) (hd : 0 < st.dt) (hp : pass p st a = .ok st')
      (hl : ∀ x, amt (a.limit x) = amt x) (hr : ∀ x, amt (a.remesh x) = amt x)
      (hs : ∀ g sol good, prepare a st.converged st.hist = .ok g → a.outcome = .success sol good → Solved st.data (oldSolutions g) sol) :
      Run p s st0 st' (specSols a st.converged sols) (specDts a st.dt dts)

/-- The past: steps of positive size as far as there were any, and solutions with the amount `m` at their ends. Further entries do not matter. -/
def Past (m : K) (sols : List (Disc K)) (dts : List K) : Prop :=
  ∃ pre z, dts = pre ++ List.replicate z 0 ∧ (∀ x ∈ pre, 0 < x) ∧ ∀ i ≤ pre.length, (sols.map amt).getD i 0 = m

end Verif.Amount.Spec
