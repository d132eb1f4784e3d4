import Verif.Model.TimeLoop
import Mathlib.Algebra.Module.Defs
import Mathlib.Algebra.Order.Floor.Defs
import Mathlib.Data.Rat.Floor
/-!
# Restart snapshots, schedules, predictor and grain tracking inside the time loop

Models parts of `applications/sintering/include/pf-applications/sintering/driver.h` (lines 295-440,
850-854, 1513-1700, 2001-2058, 2329-2346, 2517-2623) and `TimerPredicate` (src/base/timer.cc:82-165).
-/
namespace Verif
variable {K V : Type}

/-! ## Contents of a snapshot and restart -/

/-- contents of the files of a snapshot as far as the time loop is concerned: time and step counter
(`serialize`, driver.h:473-500), vectors (driver.h:2556-2574), time data (driver.h:2620-2622) -/
structure Snapshot (K V : Type) where
  full : Bool
  t : K
  n : Nat
  vecs : List V
  archive : TimeData.Archive K
  deriving DecidableEq, Repr

section
variable [Field K] [LinearOrder K]

/-- The snapshot written after an accepted step (driver.h:2370-2373, 2510, 2536-2623): the time data are
written before `update_dt` (line 2696). -/
def saveSnapshot (full : Bool) (st : RunState K V) (a : Attempt V) : Res (Option (Snapshot K V)) := do
  let h ← prepare a st.converged st.hist
  match a.outcome with
  | .success sol _ => do
    let h ← setR h 0 sol
    let h ← commitOld h
    pure (some ⟨full, st.t + st.dt, st.n + 1,
      if full then histFilter true false true h else h.take 1, st.data.save⟩)
  | .failure _ => pure none

/-- Restart (driver.h:310-440, 954-959, 1823-1830) with the scheme of the new run; vectors not stored keep
the value `blank` of a fresh vector, and so does the second entry. -/
def restartState (s : Option Scheme) (blank : V) (snap : Snapshot K V) : Res (RunState K V) := do
  let data ← TimeData.restore snap.full s snap.archive
  let dt ← data.currentDt
  let want := max ((s.map Scheme.order).getD 0) 1
  match (snap.vecs ++ List.replicate want blank).take want with
  | u :: rest => pure ⟨snap.t, dt, snap.n, u :: blank :: rest, data, true⟩
  | [] => .ub

end

/-! ## Rotation of the snapshots on disk -/

/-- state of the files with one number -/
inductive Slot
  | absent
  /-- overwritten in part -/
  | broken
  /-- all files of the snapshot with this number, counted over the whole simulation -/
  | complete (c : Nat)
  deriving DecidableEq, Repr

/-- files on disk and `restart_counter` -/
structure Disk where
  slot : Nat → Slot
  counter : Nat

/-- number in the file names (driver.h:2541-2549) -/
def slotOf (maxOutput c : Nat) : Nat := if maxOutput ≠ 0 then c % maxOutput else c

/-- the files of the next snapshot are opened for writing -/
def Disk.begin (m : Nat) (d : Disk) : Disk :=
  { d with slot := fun j => if j = slotOf m d.counter then .broken else d.slot j }

/-- the files of the next snapshot are complete -/
def Disk.finish (m : Nat) (d : Disk) : Disk :=
  ⟨fun j => if j = slotOf m d.counter then .complete d.counter else d.slot j, d.counter + 1⟩

/-- restart from the snapshot with number `c`: the counter was saved after its increment
(driver.h:497, 2541) -/
def Disk.restart (c : Nat) (d : Disk) : Disk := { d with counter := c + 1 }

/-! ## Schedules -/

/-- `TimerPredicate` of type `n_calls`: `now` (timer.cc:120-132) with the state `counter`; the conversion
of the interval to an unsigned number rounds towards zero -/
def nowCalls (interval : Rat) (counter : Nat) : Res (Bool × Nat) :=
  let counter := counter + 1
  if interval ≤ 0 then .ok (false, counter)
  else if ⌊interval⌋₊ = 0 then .ub
  else .ok (decide ((counter - 1) % ⌊interval⌋₊ = 0), counter)

/-- calls after `j` accepted steps, started with the step counter (driver.h:850-854): answer of the last
one and the counter -/
def callsAfter (interval : Rat) (start : Nat) : Nat → Res (Bool × Nat)
  | 0 => .ok (false, start)
  | j + 1 => do
    let (_, c) ← callsAfter interval start j
    nowCalls interval c

section
variable [Field K] [LinearOrder K]

/-- `TimerPredicate` of type `simulation_time`: `now` (timer.cc:133-141), `eps` is `1e-10`; answer and
new `last_simulation_time` -/
def nowSim (interval eps last t : K) : Bool × K :=
  if interval ≤ 0 then (false, last)
  else
    let last := if t - last - interval > -eps then t else last
    (decide (last = t), last)

/-- output after an accepted step (driver.h:2517-2533): whether output is written and the new
`time_last_output` -/
def outputStep (interval last t : K) (isLast : Bool) : Bool × K :=
  if interval > 0 ∧ (t ≥ interval + last ∨ isLast = true) then (true, t) else (false, last)

/-- snapshot after an accepted step (driver.h:2536) -/
def snapshotDue (isLast now : Bool) : Bool := isLast || now
end

/-! ## Predictor -/

section
variable [Field K] [LinearOrder K] [AddCommGroup V] [Module K V]

/-- `extrapolate` (solution_history.h:204-215) -/
def extrapolate (fac : K) (h : List V) : Res V := do
  let s0 ← Res.index h 0
  let s1 ← Res.index h 1
  let d := s0 + (-1 : K) • s1
  pure (fac • d + s0)

/-- The linear predictor (driver.h:2001-2058) without sanity check, in an optimised build: `none` if the
predictor is not used, otherwise the initial guess. The new vector is initialised with zero. -/
def linearPredictor (t : K) (d : TimeData K) (h : List V) : Res (Option V) :=
  if t > 0 then
    if d.order > 1 then do
      let dt0 ← Res.index d.dt 0
      let dt1 ← Res.index d.dt 1
      if dt0 > 0 ∧ dt1 > 0 then do
        let e ← extrapolate (dt0 / dt1) h
        pure (some e)
      else pure (some 0)
    else pure (some 0)   -- `Assert(false, ...)` has no effect
  else pure none
end

/-! ## Grain tracking before the step is committed -/

section
variable [Field K] [LinearOrder K]

/-- An accepted step with `check_inconsistency` (driver.h:2329-2346): the grain tracker renumbers all
vectors except the second (driver.h:1527, 1642-1692) before the history is committed. -/
def acceptTracked (p : LoopParams K) (st : RunState K V) (h : List V) (sol : V) (good : Bool)
    (remap : V → V) : Res (RunState K V) := do
  let h ← setR h 0 sol
  let h := histApply true false true remap h
  let sol ← getCurrent h
  accept p st h sol good

end
end Verif
