/-
Specification for the questions put to the grain tracker.
-/
import Verif.Model.Cycle

namespace Verif.Cycle.Spec

variable {P K : Type}

/-- What is seen fits together: one row of cells per order parameter, which name existing particles, and contacts of existing
particles. -/
structure Fits (s : Seen P K) : Prop where
  rows : s.pids.length = s.ops.length
  parts : ∀ (b : Nat) (row : List (Option Nat)) (x : OpParticles P K), s.pids[b]? = some row → s.ops[b]? = some x →
    ∀ p, some p ∈ row → p < x.parts.length
  conns : ∀ x ∈ s.ops, ∀ c ∈ x.conns, c.1 < x.parts.length ∧ c.2 < x.parts.length

/-- The answers of the tracker are right: a grain named for the order parameter `b` is in the table, is kept in this order
parameter, and has the segment. -/
def Right (st : State P K) : Prop :=
  ∀ b cell g s, grainAt st b cell = .ok (some (some g, s)) →
    ∃ R, st.tr.grains.get? g = some R ∧ R.op = b ∧ s < R.segments.length

/-- The same for the order parameter the grain had before the last reassignment. -/
def RightBefore (st : State P K) : Prop :=
  ∀ b cell g s, grainAt st b cell = .ok (some (some g, s)) →
    ∃ R, st.tr.grains.get? g = some R ∧ R.oldOp = b ∧ s < R.segments.length

/-- The states of a run: the search sees as many order parameters as the solution has. -/
inductive Runs [Field K] [LinearOrder K] (c : Conf P K) : State P K → Prop
  | init (s s' : Seen P K) (st0 st : State P K) (h : Fits s) (h' : Fits s') (hn : s.ops.length = st0.n)
      (hs' : ∀ r, setup c false s st0.n = .ok r → s'.ops.length = r.1.active.length)
      (hr : runTracker c true s s' st0 = .ok st) : Runs c st
  | step (s s' : Seen P K) (st st1 : State P K) (hp : Runs c st) (h : Fits s) (h' : Fits s') (hn : s.ops.length = st.n)
      (hs' : ∀ r, trackAll c false s st = .ok r → s'.ops.length = r.1.active.length)
      (hr : runTracker c false s s' st = .ok st1) : Runs c st1

end Verif.Cycle.Spec
