import Verif.Model.Arkode
import Verif.Spec.Arkode
import Verif.Lemmas.Arkode
import Mathlib.Algebra.Field.Rat
import Mathlib.Algebra.Order.Ring.Rat
import Mathlib.Tactic.NormNum
import Mathlib.Tactic.Linarith
/-!
# C123: time stepping with ARKODE

Full claim: a step of size `dt` from the time `t` integrates the time-dependent equations from `t` to `t + dt` starting at the
given solution, with the stationary unknowns satisfying their equations at each evaluation; afterwards all unknowns are at
`t + dt`. Proved (`C123_partial`, `C123_rhs`, `C123_time`): blocks are taken out and put back at the right places, the right-hand
side is the negative residual of the time-dependent equations, the stationary unknowns satisfy their equations in the
final state, and successful steps from the start time zero integrate consecutive intervals. Missing, because it does not hold:
the stationary unknowns keep the values of the previous step during all evaluations (`C123_frozen_violated`); after a failed
step and for another start time the interval is wrong (`C123_failure_violated`, `C123_start_violated`); except after a reset the
given solution is ignored (`C123_ignored`).
-/
namespace Verif.Props
open Verif.Arkode Verif.Arkode.Spec
variable {K V : Type}

/-- C123: the constructor accepts exactly the operators all of whose equations have a type; it then holds the positions
of the stationary equations. -/
theorem C123_indices (ts : List EqType) :
    (.undefined ∈ ts → stationaryIndices 0 ts = .exc .assertThrow) ∧
    (.undefined ∉ ts → ∃ idx, stationaryIndices 0 ts = .ok idx ∧
      ∀ i, i ∈ idx ↔ ts[i]? = some .stationary) := by
  refine ⟨stationaryIndices_exc ts 0, fun h => ⟨pos 0 ts, stationaryIndices_ok ts 0 h, fun i => ?_⟩⟩
  rw [mem_pos]
  constructor
  · rintro ⟨j, h1, h2⟩
    obtain rfl : i = j := by omega
    exact h2
  · exact fun h => ⟨i, by omega, h⟩

/-- C123: a vector of blocks is determined by its time-dependent and its stationary blocks. -/
theorem C123_unique (ts : List EqType) (y b u v : List V) (hu : Merged ts y b u) (hv : Merged ts y b v) : u = v :=
  merged_unique ts y b u v hu hv

/-- C123: the right-hand side at the time `t` and the time-dependent blocks `y` is the negative residual of the
time-dependent equations, evaluated for the vector that has these blocks and the stationary blocks `b` in their places. -/
theorem C123_rhs [Neg V] (P : Problem K V) (idx : List Nat) (hidx : stationaryIndices 0 P.types = .ok idx)
    (hres : ∀ t x, (P.res t x).length = P.types.length) (u : List V) (hu : u.length = P.types.length)
    (t : K) (y : List V) (hy : y.length = (free P.types u).length) :
    ∃ full, Merged P.types y (stat P.types u) full ∧
      rhs P idx (stat P.types u) t y = .ok ((free P.types (P.res t full)).map fun x => -x) := by
  obtain rfl : pos 0 P.types = idx := idx_eq hidx
  rw [free_length _ _ hu] at hy
  obtain ⟨h1, h2⟩ := insertAll_pos P.types y (stat P.types u) hy (stat_length _ _ hu)
  refine ⟨_, h2, ?_⟩
  rw [rhs, h1, Res.ok_bind, removeAll_pos _ _ (hres _ _)]
  rfl

/-- C123: a step whose integration succeeds with `y'`. It integrates from the end of the previous interval to `time + dt`,
after a reset from the time-dependent blocks of the given solution. The new solution consists of `y'` and of stationary blocks
that solve their equations at the new time for `y'` and the old stationary blocks. -/
theorem C123_partial [Add K] [LT K] [DecidableLT K] [Neg V] (P : Problem K V) (idx : List Nat)
    (hidx : stationaryIndices 0 P.types = .ok idx)
    (hres : ∀ t x, (P.res t x).length = P.types.length) (ode : Ode K V) (dt : K) (st : St K V) (u : List V)
    (hu : u.length = P.types.length) (hlt : st.lastEnd < st.time + dt) (y' : List V) (s : K)
    (hode : ode (rhs P idx (stat P.types u)) st.lastEnd (st.time + dt)
      (if st.ready then st.inner else free P.types u) = (.ok y', s))
    (hy : y'.length = (free P.types u).length) :
    ∃ u' full, makeStep P idx ode dt st u =
        (.ok u', ⟨st.time + dt, st.time + dt, true, y', (st.lastEnd, st.time + dt) :: st.done⟩) ∧
      Merged P.types y' (stat P.types u) full ∧
      Merged P.types y' ((stat P.types (P.res (st.time + dt) full)).map fun x => -(P.minv x)) u' := by
  obtain rfl : pos 0 P.types = idx := idx_eq hidx
  rw [free_length _ _ hu] at hy
  obtain ⟨h1, h2⟩ := insertAll_pos P.types y' (stat P.types u) hy (stat_length _ _ hu)
  obtain ⟨z, h3, h4⟩ := setStationary_pos P P.types (P.res (st.time + dt) (merge P.types y' (stat P.types u)))
    (merge P.types y' (stat P.types u)) (hres _ _) h2.1
  rw [h2.2.1] at h4
  refine ⟨z, _, ?_, h2, h4⟩
  rw [makeStep_ok (removeAll_pos _ _ hu) hlt hode, stationaryPart, h1, Res.ok_bind, h3]

/-- C123: with the start time zero, successful steps integrate consecutive intervals whose lengths are the step
sizes. -/
theorem C123_time [AddMonoid K] [LT K] [DecidableLT K] [Neg V] (P : Problem K V) (idx : List Nat) (ode : Ode K V)
    (dts : List K) (u u' : List V) (st' : St K V)
    (hs : steps P idx ode dts (construct 0) u = (.ok u', st')) :
    Consecutive 0 dts st'.done.reverse st'.time ∧ st'.time = st'.lastEnd := by
  obtain ⟨l, h1, h2, h3⟩ := steps_consecutive P idx ode dts (construct 0) u u' st' rfl hs
  refine ⟨?_, h3⟩
  rw [h1]
  simpa [construct] using h2

/-- C123: unless the solver was reset, the time-dependent blocks of the given solution are ignored, for instance a
prediction or a modification of the solution after the previous step. -/
theorem C123_ignored [Add K] [LT K] [DecidableLT K] [Neg V] (P : Problem K V) (idx : List Nat)
    (hidx : stationaryIndices 0 P.types = .ok idx) (ode : Ode K V) (dt : K) (st : St K V) (hst : st.ready = true)
    (u v : List V) (hu : u.length = P.types.length) (hv : v.length = P.types.length)
    (huv : stat P.types u = stat P.types v) :
    makeStep P idx ode dt st u = makeStep P idx ode dt st v := by
  obtain rfl : pos 0 P.types = idx := idx_eq hidx
  rw [makeStep, makeStep, removeAll_pos _ _ hu, removeAll_pos _ _ hv]
  dsimp only
  rw [hst, huv]
  rfl

/-- C123: after a step that failed at the stage time `t` and was reset, the next step of size `dt'` integrates from the
end of the last successful interval to `t + dt'`. -/
theorem C123_failure [Add K] [LT K] [DecidableLT K] [Neg V] (P : Problem K V) (idx : List Nat)
    (hidx : stationaryIndices 0 P.types = .ok idx) (ode : Ode K V) (dt dt' : K) (st : St K V) (u : List V)
    (hu : u.length = P.types.length) (hlt : st.lastEnd < st.time + dt) (e : Exc) (t : K)
    (hode : ode (rhs P idx (stat P.types u)) st.lastEnd (st.time + dt)
      (if st.ready then st.inner else free P.types u) = (.exc e, t))
    (hlt' : st.lastEnd < t + dt') (y' : List V) (s : K)
    (hode' : ode (rhs P idx (stat P.types u)) st.lastEnd (t + dt') (free P.types u) = (.ok y', s)) :
    (makeStep P idx ode dt st u).1 = .exc e ∧
    (makeStep P idx ode dt' (clear (makeStep P idx ode dt st u).2) u).2.done = (st.lastEnd, t + dt') :: st.done := by
  obtain rfl : pos 0 P.types = idx := idx_eq hidx
  have h1 : makeStep P (pos 0 P.types) ode dt st u = (.exc e, { st with time := t }) :=
    makeStep_exc (removeAll_pos _ _ hu) hlt hode
  rw [h1]
  refine ⟨rfl, ?_⟩
  rw [makeStep_ok (st := clear { st with time := t }) (removeAll_pos _ _ hu) hlt' hode']
  rfl

/-- the midpoint rule; it fails at its second stage for intervals longer than `limit` -/
def Ex123.midpoint (limit : ℚ) : Ode ℚ ℚ := fun f a b y =>
  (do
    let k ← f a y
    let y1 := (y.zip k).map fun p => p.1 + (b - a) / 2 * p.2
    if limit < b - a then .exc .newtonDidNotConverge else
    let k ← f ((a + b) / 2) y1
    .ok ((y.zip k).map fun p => p.1 + (b - a) * p.2), (a + b) / 2)

/-- `y' = -z` with the stationary equation `z = y` -/
def Ex123.pair : Problem ℚ ℚ where
  types := [.timeDependent, .stationary]
  res := fun _ x => [x.getD 1 0, -(x.getD 0 0)]
  minv := fun x => x

/-- the same problem with `z` eliminated, `y' = -y` -/
def Ex123.single : Problem ℚ ℚ where
  types := [.timeDependent]
  res := fun _ x => [x.getD 0 0]
  minv := fun x => x

/-- C123 is violated: the stationary unknowns are not updated between the stages. The stationary equation `z = y` with
consistent initial values gives another solution than the problem in which `z` is eliminated. -/
theorem C123_frozen_violated :
    (makeStep Ex123.pair [1] (Ex123.midpoint 2) 1 (construct 0) [1, 1]).1 = .ok [0, 0] ∧
    (makeStep Ex123.single [] (Ex123.midpoint 2) 1 (construct 0) [1]).1 = .ok [1 / 2] := by
  constructor <;> decide +kernel

/-- C123 is violated: a step of size 2 fails while steps of size 1 do not. Repeating the failed step with half the size
fails again because it covers the interval of the failed step, and with the size 1/4 it covers the interval from 0 to
5/4. -/
theorem C123_failure_violated :
    let step := makeStep Ex123.single [] (Ex123.midpoint (3 / 2))
    let r := step 2 (construct 0) [1]
    r.1 = .exc .newtonDidNotConverge ∧ (step 1 (construct 0) [1]).1 = .ok [1 / 2] ∧
    (step 1 (clear r.2) [1]).1 = .exc .newtonDidNotConverge ∧
    (step (1 / 4) (construct 0) [1]).1 = .ok [25 / 32] ∧
    (step (1 / 4) (clear r.2) [1]).1 = .ok [17 / 32] ∧ (step (1 / 4) (clear r.2) [1]).2.done = [(0, 5 / 4)] := by
  refine ⟨?_, ?_, ?_, ?_, ?_, ?_⟩ <;> decide +kernel

/-- C123 is violated for a positive start time: the first step throws if it is not longer than the start time, and
otherwise covers only the part beyond it. -/
theorem C123_start_violated [Neg V] (P : Problem ℚ V) (idx : List Nat) (hidx : stationaryIndices 0 P.types = .ok idx)
    (ode : Ode ℚ V) (t dt : ℚ) (ht : 0 < t) (u : List V) (hu : u.length = P.types.length) :
    (dt ≤ t → (makeStep P idx ode dt (construct t) u).1 = .exc .assertThrow) ∧
    (∀ u' st', makeStep P idx ode dt (construct t) u = (.ok u', st') →
      ∃ a b, st'.done = [(a, b)] ∧ a = t ∧ b - a < dt) := by
  obtain rfl : pos 0 P.types = idx := idx_eq hidx
  constructor
  · intro h
    rw [makeStep_not (removeAll_pos _ _ hu) (by show ¬ t < 0 + dt; linarith)]
  · intro u' st' h
    obtain ⟨_, _, _, h3⟩ := makeStep_inv h
    exact ⟨t, 0 + dt, h3, rfl, by linarith⟩

namespace Ex123

example : stationaryIndices 0 pair.types = .ok [1] := rfl
example : stationaryIndices 0 [.timeDependent, .undefined] = .exc .assertThrow := rfl
example : ∀ t x, (pair.res t x).length = pair.types.length := fun _ _ => rfl
example : free pair.types [5, 7] = [5] ∧ stat pair.types [5, 7] = [7] := ⟨rfl, rfl⟩
-- the hypotheses of `C123_partial`
example : midpoint 2 (rhs pair [1] (stat pair.types [1, 1])) 0 (0 + 1) (free pair.types [1, 1]) = (.ok [0], 1 / 2) := by
  decide +kernel
-- two steps
example : (steps single [] (midpoint 2) [1, 1 / 2] (construct 0) [1]).1 = .ok [5 / 16] ∧
    (steps single [] (midpoint 2) [1, 1 / 2] (construct 0) [1]).2.done = [(1, 3 / 2), (0, 1)] := by
  constructor <;> decide +kernel
-- the second step ignores the given value
example : (makeStep single [] (midpoint 2) 1 (makeStep single [] (midpoint 2) 1 (construct 0) [1]).2 [100]).1 =
    .ok [1 / 4] := by decide +kernel
example : (makeStep single [] (midpoint 2) 1 (construct 3) [1]).1 = .exc .assertThrow := by decide +kernel

end Ex123
end Verif.Props
