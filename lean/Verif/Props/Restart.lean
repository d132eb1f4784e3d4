import Verif.Model.Restart
import Verif.Lemmas.TimeLoop
import Verif.Props.Weights
import Verif.Props.TimeLoop
import Mathlib.Tactic.Module
import Mathlib.Algebra.Module.Rat
/-! # Restart, schedules, predictor, renumbering of the history: C29 - C33 -/
set_option linter.unusedSectionVars false
namespace Verif.Props
open Verif
variable {K V : Type} [Field K] [LinearOrder K]

/-! ## C29 -/

private theorem valid_of_inv {k : Scheme} {st : RunState K V} {sols : List V} {dts : List K}
    (h : LoopInv (some k) st sols dts) (hw : st.data.stationaryWeight = 1) :
    TimeData.Valid k st.data := by
  obtain ⟨h1, h2, h3, h4, h5⟩ := h.data
  refine ⟨h1, h2, ?_, h5 k rfl, hw⟩
  rw [h3, List.length_take, List.length_cons]
  have : depth (some k) = k.order := by cases k <;> rfl
  omega

/-- Restart with full history and the same scheme, compared with the uninterrupted run (`st'`): time,
step counter and all vectors agree except the second one, which is overwritten before use. But the
step size is that of the step just accepted, not the one chosen for the next step, and the step sizes
of the integrator are those used for the accepted step, not shifted by one. -/
theorem C29_restarted {p : LoopParams K} {k : Scheme} {st0 st : RunState K V} {sols : List V}
    {dts : List K} (hr : RunReach p (some k) st0 st sols dts) (hw : st.data.stationaryWeight = 1)
    (a : Attempt V) (sol : V) (good : Bool) (ho : a.outcome = .success sol good) (blank : V) :
    ∃ snap st' stR, saveSnapshot true st a = .ok (some snap) ∧ pass p st a = .ok st' ∧
      restartState (some k) blank snap = .ok stR ∧
      stR.t = st'.t ∧ stR.n = st'.n ∧ stR.converged = st'.converged ∧
      (∃ c r l, st'.hist = c :: r :: l ∧ stR.hist = c :: blank :: l) ∧
      stR.dt = st.dt ∧ stR.data = st.data ∧
      st'.dt = nextDt p good st'.t st.dt ∧ st.data.updateDt st'.dt = .ok st'.data := by
  have h := hr.inv
  obtain ⟨c, tl, k1, k2, k3⟩ := prepare_ok a h.hist
  have hd : 1 ≤ depth (some k) := by unfold depth; omega
  obtain ⟨m, hm⟩ : ∃ m, depth (some k) = m + 1 := ⟨depth (some k) - 1, by omega⟩
  have hm1 : depth (some k) - 1 = m := by omega
  rw [hm1] at k2 k3
  have hlen : (tl.take m).length = m := by rw [List.length_take]; omega
  have hcommit := commitOld_ok sol c (tl.take m)
  rw [hlen] at hcommit
  obtain ⟨d, hu, _⟩ := h.data.update (nextDt p good (st.t + st.dt) st.dt)
  have hset : ∀ (x y : V) (l : List V), setR (x :: y :: l) 0 sol = .ok (sol :: y :: l) := by
    intro x y l
    rw [setR, if_pos (by simp)]; rfl
  have hvl : ((c :: tl.take m).take m).length = m := by
    rw [List.length_take, List.length_cons, hlen]; omega
  have hrest : TimeData.restore true (some k) st.data.save = .ok st.data :=
    C23_implicit_partial k st.data (valid_of_inv h hw)
  have hcur : st.data.currentDt = .ok st.dt := by
    rw [TimeData.currentDt, h.data.steps, hm]; rfl
  refine ⟨⟨true, st.t + st.dt, st.n + 1, sol :: (c :: tl.take m).take m, st.data.save⟩,
    ⟨st.t + st.dt, nextDt p good (st.t + st.dt) st.dt, st.n + 1, sol :: c :: (c :: tl.take m).take m, d,
      true⟩,
    ⟨st.t + st.dt, st.dt, st.n + 1, sol :: blank :: (c :: tl.take m).take m, st.data, true⟩,
    ?_, ?_, ?_, rfl, rfl, rfl, ⟨sol, c, _, rfl, rfl⟩, rfl, rfl, rfl, hu⟩
  · unfold saveSnapshot
    rw [k3, ho]
    simp only [Res.ok_bind, hset, hcommit, histFilter_eq]
    rfl
  · unfold pass
    rw [k3, ho]
    simp only [Res.ok_bind, accept, hset, hcommit, hu]
    rfl
  · unfold restartState
    dsimp only
    rw [hrest]
    simp only [Res.ok_bind, hcur]
    have hw' : max (((some k).map Scheme.order).getD 0) 1 = m + 1 := hm
    rw [hw']
    have ht : (sol :: (c :: tl.take m).take m ++ List.replicate (m + 1) blank).take (m + 1) =
        sol :: (c :: tl.take m).take m := by
      rw [List.cons_append, List.take_succ_cons, List.take_append_of_le_length (by omega),
        List.take_of_length_le (by omega)]
    rw [ht]
    rfl

/-- The second entry of the history has no influence on a pass. -/
theorem C29_recent_irrelevant (p : LoopParams K) (t dt : K) (n : Nat) (c r r' : V) (l : List V)
    (d : TimeData K) (conv : Bool) (a : Attempt V) :
    pass p ⟨t, dt, n, c :: r :: l, d, conv⟩ a = pass p ⟨t, dt, n, c :: r' :: l, d, conv⟩ a := by
  have hp : prepare a conv (c :: r :: l) = prepare a conv (c :: r' :: l) := by
    unfold prepare
    cases conv with
    | true =>
      simp only [if_true]
      rw [(histApply_cons a.limit c r l).2, (histApply_cons a.limit c r' l).2,
        (histApply_cons a.remesh (a.limit c) r l).1, (histApply_cons a.remesh (a.limit c) r' l).1]
      simp [getCurrent, Res.index, setRecent, setR]
    | false => simp [getCurrent, Res.index, setRecent, setR]
  unfold pass
  dsimp only
  rw [hp]
  cases prepare a conv (c :: r' :: l) with
  | ok g => cases a.outcome <;> rfl
  | exc e => rfl
  | ub => rfl

/-- If the step size does not change with the accepted step and the last steps all had this size, the
restarted run continues exactly like the uninterrupted one. Missing for the full claim: steps of
different size, see `C29_violated`. -/
theorem C29_restart_partial {p : LoopParams K} {k : Scheme} {st0 st : RunState K V} {sols : List V}
    {dts : List K} (hr : RunReach p (some k) st0 st sols dts) (hw : st.data.stationaryWeight = 1)
    (a : Attempt V) (sol : V) (good : Bool) (ho : a.outcome = .success sol good) (blank : V)
    (hn : nextDt p good (st.t + st.dt) st.dt = st.dt) (hs : ∀ x ∈ st.data.dt, x = st.dt) :
    ∃ snap st' stR, saveSnapshot true st a = .ok (some snap) ∧ pass p st a = .ok st' ∧
      restartState (some k) blank snap = .ok stR ∧
      (∀ b, pass p stR b = pass p st' b) ∧
      (∀ oracle fuel i, loopCond p st'.t = true →
        timeLoop p oracle fuel i stR = timeLoop p oracle fuel i st') := by
  obtain ⟨snap, st', stR, h1, h2, h3, h4, h5, h6, ⟨c, r, l, h7, h8⟩, h9, h10, h11, h12⟩ :=
    C29_restarted hr hw a sol good ho blank
  have ht : st'.t = st.t + st.dt := by
    obtain ⟨st'', g1, g2, _⟩ := (pass_inv (p := p) hr.inv a).1 sol good ho
    rw [h2] at g1
    obtain rfl := Res.ok.inj g1
    exact g2
  rw [ht, hn] at h11
  have hdata : st'.data = st.data := by
    have hv := valid_of_inv hr.inv hw
    rw [h11] at h12
    generalize st.data = dd at *
    obtain ⟨sch, ord, dtl, w, sw⟩ := dd
    obtain ⟨v1, v2, v3, v4, v5⟩ := hv
    simp only at v1 v2 v3 v4 v5 hs
    subst v1; subst v2; subst v4
    match k, dtl, v3 with
    | .bdf1, [x], _ =>
      have e1 := hs x (by simp)
      subst e1
      exact (Res.ok.inj h12).symm
    | .bdf2, [x, y], _ =>
      have e1 := hs x (by simp)
      have e2 := hs y (by simp)
      rw [e1, e2] at h12 ⊢
      exact (Res.ok.inj h12).symm
    | .bdf3, [x, y, z], _ =>
      have e1 := hs x (by simp)
      have e2 := hs y (by simp)
      have e3 := hs z (by simp)
      rw [e1, e2, e3] at h12 ⊢
      exact (Res.ok.inj h12).symm
  have hpass : ∀ b, pass p stR b = pass p st' b := by
    intro b
    have e1 : stR = ⟨st'.t, st'.dt, st'.n, c :: blank :: l, st'.data, st'.converged⟩ := by
      obtain ⟨t1, t2, t3, t4, t5, t6⟩ := stR
      simp only at h4 h5 h6 h8 h9 h10
      rw [h4, h5, h6, h8, h9, h10, h11, hdata]
    have e2 : st' = ⟨st'.t, st'.dt, st'.n, c :: r :: l, st'.data, st'.converged⟩ := by
      obtain ⟨t1, t2, t3, t4, t5, t6⟩ := st'
      simp only at h7
      rw [h7]
    rw [e1]
    conv_rhs => rw [e2]
    exact C29_recent_irrelevant ..
  refine ⟨snap, st', stR, h1, h2, h3, hpass, ?_⟩
  intro oracle fuel i hc
  cases fuel with
  | zero => unfold timeLoop; rw [h4, if_pos hc, if_pos hc]
  | succ fuel => unfold timeLoop; rw [h4, if_pos hc, if_pos hc, hpass]

namespace Ex29
open Ex26

/-- first step accepted from `Ex26.st0` with growth: the uninterrupted run continues with step 4 -/
def snap : Snapshot Rat Nat := ⟨true, 2, 1, [1, 5], ⟨2, [2, 0]⟩⟩
example : saveSnapshot true st0 (ok 1) = .ok (some snap) := by decide +kernel

/-- The code violates the property. Growth: the restarted run repeats the old step size, and the second
step size used for BDF2 is that of the step before (here: none), so that even with a constant step size
the weights differ. -/
theorem C29_violated :
    (∃ st' stR, pass p st0 (ok 1) = .ok st' ∧ restartState (some .bdf2) 0 snap = .ok stR ∧
      st'.dt = 4 ∧ stR.dt = 2 ∧ st'.data.dt = [4, 2] ∧ stR.data.dt = [2, 0]) ∧
    (∃ st' stR, pass { p with growth := 1 } st0 (ok 1) = .ok st' ∧
      restartState (some .bdf2) 0 snap = .ok stR ∧
      st'.dt = stR.dt ∧ st'.data.weights = [3/4, -1, 1/4] ∧ stR.data.weights = [1/2, -1/2, 0]) :=
  ⟨⟨⟨2, 4, 1, [1, 5, 5], ⟨some .bdf2, 2, [4, 2], computeWeights .bdf2 [4, 2], 1⟩, true⟩,
    ⟨2, 2, 1, [1, 0, 5], ⟨some .bdf2, 2, [2, 0], [1/2, -1/2, 0], 1⟩, true⟩, by decide +kernel⟩,
   ⟨⟨2, 2, 1, [1, 5, 5], ⟨some .bdf2, 2, [2, 2], computeWeights .bdf2 [2, 2], 1⟩, true⟩,
    ⟨2, 2, 1, [1, 0, 5], ⟨some .bdf2, 2, [2, 0], [1/2, -1/2, 0], 1⟩, true⟩, by decide +kernel⟩⟩

/-- The step of a restarted run is not cut to the remaining time either: it runs past the final time. -/
theorem C29_overshoot : ∃ stR st' : RunState Rat Nat,
    restartState (some .bdf1) 0 ⟨true, 19/2, 7, [1], ⟨1, [1]⟩⟩ = .ok stR ∧
    pass p stR (ok 2) = .ok st' ∧ st'.t > p.timeEnd :=
  ⟨⟨19/2, 1, 7, [1, 0], ⟨some .bdf1, 1, [1], [1, -1], 1⟩, true⟩,
    ⟨21/2, -1/2, 8, [2, 1], ⟨some .bdf1, 1, [-1/2], [0, 0], 1⟩, true⟩, by decide +kernel⟩

/-- constant steps: the hypotheses of the partial theorem hold -/
def st1 : RunState Rat Nat := ⟨4, 2, 2, [7, 6, 6], ⟨some .bdf2, 2, [2, 2], [3/4, -1, 1/4], 1⟩, true⟩
example : Started (some .bdf2) st1 [7, 6] [2] :=
  ⟨⟨7, 6, [6], rfl, rfl, rfl⟩, rfl, rfl, rfl, rfl, by intro k h; cases h; decide +kernel, rfl⟩
example : nextDt p false (st1.t + st1.dt) st1.dt = st1.dt ∧ ∀ x ∈ st1.data.dt, x = st1.dt := by
  decide +kernel
end Ex29

/-! ## C30 -/

/-- histories of writing, crashing and restarting from any complete snapshot; the flag tells whether a
snapshot is being written -/
inductive DiskReach (m : Nat) : Bool → Disk → Prop
  | init : DiskReach m false ⟨fun _ => .absent, 0⟩
  | begin {d} : DiskReach m false d → DiskReach m true (d.begin m)
  | finish {d} : DiskReach m true d → DiskReach m false (d.finish m)
  | crash {w d j c} : DiskReach m w d → d.slot j = .complete c → DiskReach m false (d.restart c)
  | fresh {w d} : DiskReach m w d → d.counter = 0 → DiskReach m false d

private theorem slotOf_succ_ne {m : Nat} (h : m ≠ 1) (c : Nat) : slotOf m (c + 1) ≠ slotOf m c := by
  unfold slotOf
  split_ifs with h0
  · intro e
    have h2 : 2 ≤ m := by omega
    have := Nat.mod_lt c (by omega : 0 < m)
    rw [Nat.add_mod, Nat.mod_eq_of_lt (by omega : 1 < m)] at e
    by_cases hc : c % m + 1 < m
    · rw [Nat.mod_eq_of_lt hc] at e; omega
    · have : c % m + 1 = m := by omega
      rw [this, Nat.mod_self] at e; omega
  · omega

private theorem complete_slot {m : Nat} {w : Bool} {d : Disk} (h : DiskReach m w d) :
    ∀ j c, d.slot j = .complete c → j = slotOf m c := by
  induction h with
  | init => intro j c hj; cases hj
  | begin h ih =>
    intro j c hj
    simp only [Disk.begin] at hj
    split at hj
    · cases hj
    · exact ih j c hj
  | finish h ih =>
    intro j c hj
    simp only [Disk.finish] at hj
    split at hj
    · rename_i e; cases hj; exact e
    · exact ih j c hj
  | crash h hj ih => exact ih
  | fresh h hc ih => exact ih

/-- With no limit or a limit of at least two snapshots: once a snapshot was completed, at every moment,
also while the next one is being written and after any number of crashes and restarts from arbitrary
complete snapshots, the snapshot written or loaded last is complete on disk. -/
theorem C30_available {m : Nat} (hm : m ≠ 1) {w : Bool} {d : Disk} (h : DiskReach m w d)
    (hc : 0 < d.counter) : d.slot (slotOf m (d.counter - 1)) = .complete (d.counter - 1) := by
  induction h with
  | init => cases hc
  | @begin d h ih =>
    simp only [Disk.begin] at hc ⊢
    obtain ⟨c, e⟩ : ∃ c, d.counter = c + 1 := ⟨d.counter - 1, by omega⟩
    rw [e, Nat.add_sub_cancel, if_neg (slotOf_succ_ne hm c).symm]
    have := ih hc
    rwa [e, Nat.add_sub_cancel] at this
  | finish h ih => simp [Disk.finish]
  | @crash w d j c h hj ih =>
    simp only [Disk.restart, Nat.add_sub_cancel]
    rw [← complete_slot h j c hj]; exact hj
  | fresh h h0 ih => omega

/-- histories in which restarts use the latest snapshot -/
inductive DiskReachLatest (m : Nat) : Bool → Disk → Prop
  | init : DiskReachLatest m false ⟨fun _ => .absent, 0⟩
  | begin {d} : DiskReachLatest m false d → DiskReachLatest m true (d.begin m)
  | finish {d} : DiskReachLatest m true d → DiskReachLatest m false (d.finish m)
  | crash {w d} : DiskReachLatest m w d → DiskReachLatest m false d

private theorem slotOf_inj {m a b : Nat} (hab : a < b) (hm : m ≠ 0 → b - a < m) :
    slotOf m a ≠ slotOf m b := by
  unfold slotOf
  split_ifs with h0
  · intro e
    have h1 := hm h0
    have : (b - a) % m = 0 := Nat.sub_mod_eq_zero_of_mod_eq e.symm
    rw [Nat.mod_eq_of_lt h1] at this
    omega
  · omega

/-- With limit `m` the `m - 1` most recent complete snapshots (all without limit) are on disk at every
moment. -/
theorem C30_recent {m : Nat} {w : Bool} {d : Disk} (h : DiskReachLatest m w d) (i : Nat)
    (hi : i < d.counter) (him : m = 0 ∨ i + 1 < m) :
    d.slot (slotOf m (d.counter - 1 - i)) = .complete (d.counter - 1 - i) := by
  induction h generalizing i with
  | init => cases hi
  | @begin d h ih =>
    simp only [Disk.begin] at hi ⊢
    rw [if_neg (slotOf_inj (by omega) (by omega))]
    exact ih i hi him
  | @finish d h ih =>
    simp only [Disk.finish, Nat.add_sub_cancel] at hi ⊢
    by_cases h0 : i = 0
    · subst h0; simp
    · rw [if_neg (slotOf_inj (by omega) (by omega))]
      have := ih (i - 1) (by omega) (by omega)
      rwa [show d.counter - 1 - (i - 1) = d.counter - i by omega] at this
  | crash h ih => exact ih i hi him

/-- Right after a snapshot was completed all `m` most recent ones are on disk. -/
theorem C30_after_writing {m : Nat} {d : Disk} (h : DiskReachLatest m true d) (i : Nat)
    (hi : i < d.counter + 1) (him : m = 0 ∨ i < m) :
    (d.finish m).slot (slotOf m (d.counter - i)) = .complete (d.counter - i) := by
  simp only [Disk.finish]
  by_cases h0 : i = 0
  · subst h0; simp
  · rw [if_neg (slotOf_inj (by omega) (by omega))]
    have := C30_recent h (i - 1) (by omega) (by omega)
    rwa [show d.counter - 1 - (i - 1) = d.counter - i by omega] at this

/-- The code violates the property for a limit of one snapshot: while the second snapshot is being
written there is no complete one. -/
theorem C30_violated : ∃ d, DiskReach 1 true d ∧ d.counter = 1 ∧ ∀ j c, d.slot j ≠ .complete c := by
  refine ⟨_, .begin (.finish (.begin .init)), rfl, ?_⟩
  intro j c
  simp only [Disk.begin, Disk.finish, slotOf, Nat.mod_one, ne_eq, one_ne_zero, not_false_eq_true, if_true]
  split_ifs <;> simp

namespace Ex30
/-- three snapshots with limit two, then a crash while writing the fourth -/
def d : Disk := ((((Disk.mk (fun _ => .absent) 0).begin 2).finish 2 |>.begin 2).finish 2
  |>.begin 2).finish 2 |>.begin 2
example : DiskReach 2 true d :=
  .begin (.finish (.begin (.finish (.begin (.finish (.begin .init))))))
example : d.counter = 3 ∧ d.slot 0 = .complete 2 ∧ d.slot 1 = .broken := by decide
end Ex30

/-! ## C31 -/

/-- Snapshots scheduled by calls: at step number `n0 + j + 1` of a simulation that was (re)started at
step `n0`, the predicate fires exactly if the step number is one of 1, 1 + k, 1 + 2k, ..., so the
schedule does not depend on interruptions. -/
theorem C31_calls (interval : Rat) (k : Nat) (hk : 0 < k) (hi : ⌊interval⌋₊ = k) (n0 j : Nat) :
    callsAfter interval n0 (j + 1) = .ok (decide ((n0 + j) % k = 0), n0 + j + 1) := by
  have hpos : ¬ interval ≤ 0 := by
    intro h
    rw [Nat.floor_of_nonpos h] at hi
    omega
  have hnow : ∀ c, nowCalls interval c = .ok (decide (c % k = 0), c + 1) := by
    intro c
    unfold nowCalls
    dsimp only
    rw [if_neg hpos, if_neg (by omega), hi, Nat.add_sub_cancel]
  induction j with
  | zero =>
    simp only [callsAfter, Res.ok_bind, hnow, Nat.add_zero]
  | succ j ih =>
    rw [callsAfter, ih]
    simp only [Res.ok_bind, hnow, Nat.add_assoc]

/-- An interval between 0 and 1 divides by zero. -/
theorem C31_fraction_ub (interval : Rat) (h0 : 0 < interval) (h1 : interval < 1) (c : Nat) :
    nowCalls interval c = .ub := by
  unfold nowCalls
  dsimp only
  rw [if_neg (not_le.2 h0), if_pos (Nat.floor_eq_zero.2 h1)]

section
variable [IsStrictOrderedRing K]

/-- Snapshots scheduled by simulation time: the predicate fires at a later time exactly if the interval
has passed up to the tolerance, and remembers the time. -/
theorem C31_simulation_time (interval eps last t : K) (hi : 0 < interval) (ht : last < t) :
    ((nowSim interval eps last t).1 = true ↔ interval - eps < t - last) ∧
    (nowSim interval eps last t).2 = (if (nowSim interval eps last t).1 then t else last) := by
  unfold nowSim
  rw [if_neg (not_le.2 hi)]
  dsimp only
  by_cases h : t - last - interval > -eps
  · rw [if_pos h]
    simp only [decide_true, if_true, true_iff]
    exact ⟨by linarith, trivial⟩
  · rw [if_neg h]
    have : ¬ last = t := ne_of_lt ht
    simp only [this, decide_false, Bool.false_eq_true, false_iff, if_false]
    exact ⟨by intro h'; exact h (by linarith), trivial⟩

/-- history of outputs of a run: time of the run, variable `time_last_output`, time of the last actual
output -/
inductive OutReach (interval t0 : K) : K → K → K → Prop
  | start : OutReach interval t0 t0 0 t0
  | step {t last act t' : K} (l : Bool) : OutReach interval t0 t last act → t < t' →
      OutReach interval t0 t' (outputStep interval last t' l).2
        (if (outputStep interval last t' l).1 then t' else act)

/-- After every accepted step less than one output interval has passed since the last output, for start
times that are not negative. The variable `time_last_output` starts at zero, hence for a negative start
time the claim fails (`C31_negative_start`). -/
theorem C31_output_partial {interval t0 t last act : K} (hi : 0 < interval) (h0 : 0 ≤ t0)
    (h : OutReach interval t0 t last act) : last ≤ act ∧ act ≤ t ∧ (t0 < t → t - act < interval) := by
  induction h with
  | start => exact ⟨h0, le_rfl, fun h => absurd h (lt_irrefl _)⟩
  | @step t last act t' l h ht ih =>
    obtain ⟨i1, i2, _⟩ := ih
    unfold outputStep
    by_cases hc : interval > 0 ∧ (t' ≥ interval + last ∨ l = true)
    · rw [if_pos hc]
      simp only [if_true]
      exact ⟨le_rfl, le_rfl, fun _ => by linarith⟩
    · rw [if_neg hc]
      simp only [Bool.false_eq_true, if_false]
      refine ⟨i1, by linarith, fun _ => ?_⟩
      have : ¬ t' ≥ interval + last := fun h => hc ⟨hi, Or.inl h⟩
      have := not_le.1 this
      linarith

/-- The final state is output and saved: the step that ends the loop is recognised as the last one,
except if the time misses the end by exactly the tolerance. -/
theorem C31_final (p : LoopParams K) (t interval last : K) (now : Bool) (hi : 0 < interval)
    (hend : loopCond p t = false) (htol : |t - p.timeEnd| ≠ p.tol) :
    outputStep interval last t (isLast p t) = (true, t) ∧ snapshotDue (isLast p t) now = true := by
  have hl : isLast p t = true := by
    simp only [loopCond, decide_eq_false_iff_not, not_lt] at hend
    simp only [isLast, decide_eq_true_eq]
    exact lt_of_le_of_ne hend htol
  rw [hl]
  exact ⟨by unfold outputStep; rw [if_pos ⟨hi, Or.inr rfl⟩], rfl⟩
end

namespace Ex31
/-- interval 3: steps 1, 4, 7, and the same after a restart at step 5 -/
example : (List.range 8).map (fun j => callsAfter 3 0 (j + 1)) =
    [.ok (true, 1), .ok (false, 2), .ok (false, 3), .ok (true, 4), .ok (false, 5), .ok (false, 6),
     .ok (true, 7), .ok (false, 8)] := by decide +kernel
example : (List.range 3).map (fun j => callsAfter 3 5 (j + 1)) =
    [.ok (false, 6), .ok (true, 7), .ok (false, 8)] := by decide +kernel

/-- Two snapshots by simulation time can be less than the interval apart, by the tolerance. -/
theorem C31_tolerance : nowSim (1 : Rat) (1/10) 0 (95/100) = (true, 95/100) := by decide +kernel

/-- negative start time -5, interval 1: no output is written at time 0, five intervals after the initial
output -/
theorem C31_negative_start : OutReach (1 : Rat) (-5) 0 0 (-5) ∧ ¬ (0 - (-5) < (1 : Rat)) :=
  ⟨by
    have h := OutReach.step (t' := 0) false (OutReach.start (interval := (1 : Rat)) (t0 := -5)) (by decide +kernel)
    have e : outputStep (1 : Rat) 0 0 false = (false, 0) := by decide +kernel
    rw [e] at h
    exact h, by decide +kernel⟩
/-- at the exact tolerance the loop ends without final output -/
example : loopCond (⟨10, 1, 1, 1, 1/10⟩ : LoopParams Rat) (99/10) = false ∧
    isLast (⟨10, 1, 1, 1, 1/10⟩ : LoopParams Rat) (99/10) = false := by decide +kernel
end Ex31

/-! ## C32 -/

section
variable [AddCommGroup V] [Module K V]

/-- After an accepted step without refinement, with an integrator of order at least two, the linear
predictor gives the linear extrapolation of the last two solutions to the end of the next step. Missing
for the full claim: order one, start-up, retries and refined meshes, see below. -/
theorem C32_linear_partial {p : LoopParams K} {k : Scheme} {st0 st st' : RunState K V} {sols : List V}
    {dts : List K} (hr : RunReach p (some k) st0 st sols dts) (a : Attempt V) (sol : V) (good : Bool)
    (ho : a.outcome = .success sol good) (hp : pass p st a = .ok st') (hk : 1 < k.order)
    (ht : 0 < st'.t) (h0 : 0 < st'.dt) (h1 : 0 < st.dt) :
    ∃ u, (specPrep a st.converged sols)[0]? = some u ∧
      linearPredictor st'.t st'.data st'.hist = .ok (some (sol + (st'.dt / st.dt) • (sol - u))) := by
  have h := hr.inv
  obtain ⟨c, tl, k1, k2, k3⟩ := prepare_ok a h.hist
  have hd : depth (some k) = k.order := by cases k <;> rfl
  obtain ⟨d, e1, e2⟩ := accept_ok (p := p) (m := depth (some k) - 1) h.data (a.guess.getD c) c tl sol good k2
  have hp' : pass p st a = accept p st (a.guess.getD c :: c :: tl.take (depth (some k) - 1)) sol good := by
    unfold pass; rw [k3, ho]; rfl
  rw [hp', e1] at hp
  obtain rfl := Res.ok.inj hp
  refine ⟨c, by rw [k1]; rfl, ?_⟩
  have hsteps := e2.steps
  have hord := e2.order
  dsimp only at ht h0 ⊢
  generalize nextDt p good (st.t + st.dt) st.dt = nd at *
  unfold linearPredictor
  rw [if_pos ht]
  have ho1 : d.order > 1 := by rw [hord]; exact hk
  rw [if_pos ho1]
  obtain ⟨m, hm⟩ : ∃ m, depth (some k) = m + 2 := ⟨depth (some k) - 2, by omega⟩
  rw [hsteps, hm]
  simp only [Res.index, List.take_succ_cons, List.getElem?_cons_zero, List.getElem?_cons_succ,
    Res.ok_bind, extrapolate]
  rw [if_pos ⟨h0, h1⟩]
  simp only [Res.pure_def, Res.ok_bind]
  congr 2
  module

/-- The value is that of the straight line through the last two solutions at the new time. -/
theorem C32_is_linear (t d0 d1 : K) (h1 : d1 ≠ 0) (u v : V) :
    let line := fun s : K => v + ((s - t) / d1) • (v - u)
    line t = v ∧ line (t - d1) = u ∧ line (t + d0) = v + (d0 / d1) • (v - u) := by
  refine ⟨by simp, ?_, by simp⟩
  have : (t - d1 - t) / d1 = -1 := by field_simp; ring
  dsimp only
  rw [this]
  module

/-- The code violates the property: with an integrator of order one, or if the previous step size is not
known (first step after a positive start time or after a restart without history), the initial guess is
zero instead of the last solution, whatever the state was. -/
theorem C32_zero (t : K) (ht : 0 < t) (d : TimeData K) (h : List V)
    (hd : d.order ≤ 1 ∨ ∃ x l, d.dt = x :: 0 :: l) :
    linearPredictor t d h = .ok (some 0) := by
  unfold linearPredictor
  rw [if_pos ht]
  rcases hd with hd | ⟨x, l, hx⟩
  · rw [if_neg (by omega)]; rfl
  · split_ifs
    · rw [hx]
      simp [Res.index]
    · rfl

/-- On a retry after a rejected step the guess is the last solution, not the extrapolation. -/
theorem C32_retry {p : LoopParams K} {k : Scheme} {st0 st : RunState K V} {sols : List V}
    {dts : List K} (hr : RunReach p (some k) st0 st sols dts) (hc : st.converged = false)
    (hk : 1 < k.order) (ht : 0 < st.t) (h0 : 0 < st.dt) (h1 : ∀ x ∈ dts, 0 < x) :
    ∃ u, sols[0]? = some u ∧ linearPredictor st.t st.data st.hist = .ok (some u) := by
  have h := hr.inv
  obtain ⟨c, r, tl, k1, k2, k3, k4⟩ := h.hist
  have hd : depth (some k) = k.order := by cases k <;> rfl
  refine ⟨c, by rw [k2]; rfl, ?_⟩
  have hsteps := h.data.steps
  have hord := h.data.order
  have hn := h.data.ndts
  have hrc := k4 hc
  obtain ⟨x, l, hx⟩ : ∃ x l, dts = x :: l := by
    cases dts with
    | nil => simp only [List.length_nil] at hn; omega
    | cons x l => exact ⟨x, l, rfl⟩
  unfold linearPredictor
  have ho1 : st.data.order > 1 := by rw [hord]; exact hk
  rw [if_pos ht, if_pos ho1]
  obtain ⟨m, hm⟩ : ∃ m, depth (some k) = m + 2 := ⟨depth (some k) - 2, by omega⟩
  rw [hsteps, hm, hx, k1, hrc]
  simp only [Res.index, List.take_succ_cons, List.getElem?_cons_zero, List.getElem?_cons_succ,
    Res.ok_bind, extrapolate]
  rw [if_pos ⟨h0, h1 x (by rw [hx]; simp)⟩]
  simp only [Res.pure_def, Res.ok_bind]
  congr 2
  module
end

namespace Ex32
def d : TimeData Rat := ⟨some .bdf2, 2, [2, 1], computeWeights .bdf2 [2, 1], 1⟩
example : linearPredictor (3 : Rat) d [(10 : Rat), 9, 9] = .ok (some 12) := by decide +kernel
/-- order one: the state is replaced by zero -/
example : linearPredictor (3 : Rat) ⟨some .bdf1, 1, [2], [1/2, -1/2], 1⟩ [(10 : Rat), 9] = .ok (some 0) := by
  decide +kernel
/-- After refinement (here: transfer to a mesh on which every value is doubled) the second entry has not
been transferred, and the extrapolation mixes both meshes: 42 instead of 24. -/
theorem C32_stale :
    linearPredictor (3 : Rat) d (histApply true false true (fun x : Rat => 2 * x) [10, 9, 9]) = .ok (some 42) ∧
    linearPredictor (3 : Rat) d ([10, 9, 9].map (fun x : Rat => 2 * x)) = .ok (some 24) := by decide +kernel
end Ex32

/-! ## C33 -/

/-- Grain tracking at the beginning of a step (default): if all vectors that are kept use one numbering
(`P`), all vectors that enter the step use the new numbering (`Q`). -/
theorem C33_default {p : LoopParams K} {s : Option Scheme} {st0 st : RunState K V} {sols : List V}
    {dts : List K} (hr : RunReach p s st0 st sols dts) (a : Attempt V) (P Q : V → Prop)
    (hP : ∀ u ∈ sols, P u) (hl : ∀ u, P u → P (a.limit u)) (hm : ∀ u, P u → Q (a.remesh u))
    (hc : st.converged = true) :
    ∃ g, prepare a st.converged st.hist = .ok g ∧ (∀ u ∈ oldSolutions g, Q u) ∧
      (a.guess = none → ∀ u ∈ g, Q u) := by
  obtain ⟨g, h1, h2, h3, h4, h5⟩ := C20_step_input hr a
  have hQ : ∀ u ∈ specPrep a st.converged sols, Q u := by
    rw [hc]
    cases sols with
    | nil => intro u hu; cases hu
    | cons x xs =>
      intro u hu
      simp only [specPrep, if_true, List.mem_cons, List.mem_map] at hu
      rcases hu with rfl | ⟨y, hy, rfl⟩
      · exact hm _ (hl _ (hP x (by simp)))
      · exact hm _ (hP y (by simp [hy]))
  have hold : ∀ u ∈ oldSolutions g, Q u := by
    intro u hu
    rw [h2] at hu
    exact hQ u (List.mem_of_mem_take hu)
  refine ⟨g, h1, hold, fun hg u hu => ?_⟩
  have h6 := h5 hg
  cases g with
  | nil => cases hu
  | cons x xs =>
    rcases List.mem_cons.1 hu with rfl | hu
    · rw [List.getElem?_cons_zero] at h6
      exact hQ u (List.mem_of_getElem? h6.symm)
    · exact hold u hu

/-- Grain tracking before the step is committed (`check_inconsistency`): the new solution is renumbered,
but the solution of the step before enters the history with the old numbering, for all states and
integrators of order at least two. -/
theorem C33_tracked_stale {p : LoopParams K} {s : Option Scheme} {st : RunState K V} {dts : List K}
    (hd : DataInv s st.data st.dt dts) (g c x : V) (l : List V) (sol : V) (good : Bool)
    (remap : V → V) :
    ∃ st', acceptTracked p st (g :: c :: x :: l) sol good remap = .ok st' ∧
      st'.hist = remap sol :: c :: c :: ((x :: l).dropLast).map remap := by
  obtain ⟨d, e1, e2⟩ := accept_ok (p := p) (m := ((x :: l).map remap).length) hd (remap sol) c
    ((x :: l).map remap) (remap sol) good le_rfl
  rw [List.take_length] at e1
  refine ⟨⟨st.t + st.dt, nextDt p good (st.t + st.dt) st.dt, st.n + 1, remap sol :: c :: List.take ((x :: l).map remap).length (c :: (x :: l).map remap), d, true⟩, ?_, ?_⟩
  · unfold acceptTracked
    have : setR (g :: c :: x :: l) 0 sol = .ok (sol :: c :: x :: l) := by
      rw [setR, if_pos (by simp)]; rfl
    simp only [this, Res.ok_bind, (histApply_cons remap sol c (x :: l)).1, getCurrent, Res.index,
      List.getElem?_cons_zero]
    exact e1
  · simp only [List.length_map, List.length_cons]
    rw [List.take_succ_cons, List.map_cons, List.dropLast_eq_take, List.map_take, List.length_cons,
      Nat.add_sub_cancel, List.map_cons]

/-- With an integrator of order one (two entries) all vectors entering the next step are renumbered. -/
theorem C33_order_one_partial {p : LoopParams K} {s : Option Scheme} {st : RunState K V} {dts : List K}
    (hd : DataInv s st.data st.dt dts) (g c : V) (sol : V) (good : Bool) (remap : V → V)
    (b : Attempt V) (hl : b.limit = id) (hm : b.remesh = id) (hg : b.guess = none) :
    ∃ st', acceptTracked p st [g, c] sol good remap = .ok st' ∧
      prepare b st'.converged st'.hist = .ok [remap sol, remap sol] := by
  obtain ⟨d, e1, e2⟩ := accept_ok (p := p) (m := 0) hd (remap sol) c [] (remap sol) good le_rfl
  refine ⟨⟨st.t + st.dt, nextDt p good (st.t + st.dt) st.dt, st.n + 1, [remap sol, c], d, true⟩, ?_, ?_⟩
  · unfold acceptTracked
    have : setR [g, c] 0 sol = .ok [sol, c] := by
      rw [setR, if_pos (by simp)]; rfl
    simp only [this, Res.ok_bind, (histApply_cons remap sol c []).1, getCurrent, Res.index,
      List.getElem?_cons_zero]
    exact e1
  · dsimp only
    unfold prepare
    rw [hl, hm, hg]
    simp only [if_true, (histApply_cons id (remap sol) c _).2, (histApply_cons id _ c _).1]
    rfl

namespace Ex33
open Ex26
/-- Witness with vectors represented by the numbering they use: after tracking, the two old solutions of
a BDF2 step use the numberings 1 and 0. -/
theorem C33_violated : ∃ st', acceptTracked p st0 [0, 0, 0] 0 false (fun _ => 1) = .ok st' ∧
    ∃ g, prepare ⟨id, id, none, .failure 0⟩ st'.converged st'.hist = .ok g ∧ oldSolutions g = [1, 0] :=
  ⟨⟨2, 2, 1, [1, 0, 0], ⟨some .bdf2, 2, [2, 2], computeWeights .bdf2 [2, 2], 1⟩, true⟩, by decide +kernel,
    [1, 1, 0], by decide +kernel, by decide +kernel⟩
end Ex33
end Verif.Props
