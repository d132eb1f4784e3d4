import Verif.Lemmas.TimeLoop
import Mathlib.Algebra.Order.Archimedean.Basic
import Mathlib.Tactic.Linarith
import Mathlib.Tactic.Ring
import Mathlib.Algebra.Order.Ring.Rat
import Mathlib.Algebra.Field.Rat
/-! # Solution history and time loop: C20, C22, C26, C27, C28 -/
set_option linter.unusedSectionVars false
namespace Verif.Props
open Verif
variable {K V : Type} [Field K] [LinearOrder K]

/-! ## C20 -/

/-- At the head of the loop the current entry is the solution of the last accepted step and the entries
from the third on are those of the accepted steps before it; after a rejected step the second entry,
too, is the solution of the last accepted step. `sols` lists the accepted solutions, newest first,
followed by the initial values of the older entries. -/
theorem C20_history {p : LoopParams K} {s : Option Scheme} {st0 st : RunState K V} {sols : List V}
    {dts : List K} (h : RunReach p s st0 st sols dts) :
    st.hist.length = depth s + 1 ∧ st.hist[0]? = sols[0]? ∧
    (∀ i : Nat, 1 ≤ i → i < depth s → st.hist[i + 1]? = sols[i]? ∧ i < sols.length) ∧
    (st.converged = false → st.hist[1]? = sols[0]?) := by
  obtain ⟨c, r, tl, h1, h2, h3, h4⟩ := h.inv.hist
  have hd : 1 ≤ depth s := by unfold depth; omega
  rw [h1, h2]
  refine ⟨?_, rfl, ?_, ?_⟩
  · simp only [List.length_cons, List.length_take]; omega
  · intro i hi hi2
    obtain ⟨j, rfl⟩ : ∃ j, i = j + 1 := ⟨i - 1, by omega⟩
    simp only [List.getElem?_cons_succ, List.length_cons]
    rw [List.getElem?_take_of_lt (by omega)]
    exact ⟨rfl, by omega⟩
  · intro hc; rw [h4 hc]; rfl

/-- The old solutions the integrator works with during an attempt are exactly the solutions of the last
accepted steps (after refinement), whatever the predictor puts into the current entry. -/
theorem C20_step_input {p : LoopParams K} {s : Option Scheme} {st0 st : RunState K V} {sols : List V}
    {dts : List K} (h : RunReach p s st0 st sols dts) (a : Attempt V) :
    ∃ g, prepare a st.converged st.hist = .ok g ∧
      oldSolutions g = (specPrep a st.converged sols).take (depth s) ∧
      g.length = depth s + 1 ∧
      (∀ x, a.guess = some x → g[0]? = some x) ∧
      (a.guess = none → g[0]? = (specPrep a st.converged sols)[0]?) := by
  obtain ⟨c, tl, h1, h2, h3⟩ := prepare_ok a h.inv.hist
  have hd : 1 ≤ depth s := by unfold depth; omega
  obtain ⟨m, hm⟩ : ∃ m, depth s = m + 1 := ⟨depth s - 1, by omega⟩
  rw [hm] at h2 h3
  refine ⟨_, h3, ?_, ?_, ?_, ?_⟩
  · rw [h1, hm]; rfl
  · rw [hm]; simp only [List.length_cons, List.length_take]; omega
  · intro x hx; rw [hx]; rfl
  · intro hx; rw [hx, h1]; rfl

omit [Field K] [LinearOrder K] in
/-- Selecting current, recent and old entries yields exactly those positions. -/
theorem C20_filter (current recent old : Bool) (h : List V) :
    histFilter current recent old h =
      (if current then h.take 1 else []) ++ (if recent then (h.drop 1).take 1 else []) ++
        (if old then h.drop 2 else []) := histFilter_eq current recent old h

omit [Field K] [LinearOrder K] in
/-- Committing shifts the old solutions by one and leaves the first two entries alone. -/
theorem C20_commit (a b : V) (rest : List V) :
    commitOld (a :: b :: rest) = .ok (a :: b :: (b :: rest).dropLast) := by
  rw [commitOld_ok, List.dropLast_eq_take]; rfl

omit [Field K] [LinearOrder K] in
/-- With fewer than two entries the recent entry does not exist. -/
theorem C20_too_short (h : List V) (x : V) (hl : h.length < 2) : setRecent h x = .ub := by
  rw [setRecent, setR, if_neg (by omega)]

/-! ## C22 -/

/-- At the head of the loop, hence at every attempted step, the step sizes of the integrator are the size
about to be attempted followed by those of the last accepted steps, and the weights are the ones for
these sizes. -/
theorem C22_steps {p : LoopParams K} {s : Option Scheme} {st0 st : RunState K V} {sols : List V}
    {dts : List K} (h : RunReach p s st0 st sols dts) :
    st.data.dt = (st.dt :: dts).take (depth s) ∧ st.data.dt.length = depth s ∧
    (∀ k, s = some k → st.data.weights = computeWeights k st.data.dt) := by
  obtain ⟨h1, h2, h3, h4, h5⟩ := h.inv.data
  refine ⟨h3, ?_, h5⟩
  rw [h3, List.length_take, List.length_cons]; omega

/-- A fresh run starts with zeros for the missing steps. -/
theorem C22_fresh (t0 dt0 : K) (s : Option Scheme) (u0 x : V) (rest : List V)
    (hr : rest.length + 1 = depth s) :
    ∃ st : RunState K V, RunState.init t0 dt0 s u0 x rest = .ok st ∧ st.t = t0 ∧ st.dt = dt0 ∧
      Started s st (u0 :: rest) (List.replicate (depth s - 1) 0) := by
  match s with
  | none =>
    exact ⟨_, rfl, rfl, rfl, ⟨⟨u0, x, rest, rfl, rfl, hr⟩, rfl, rfl, rfl, rfl,
      (by intro k hk; cases hk), rfl⟩⟩
  | some .bdf1 =>
    exact ⟨_, rfl, rfl, rfl, ⟨⟨u0, x, rest, rfl, rfl, hr⟩, rfl, rfl, rfl, rfl,
      (by intro k hk; cases hk; rfl), rfl⟩⟩
  | some .bdf2 =>
    exact ⟨_, rfl, rfl, rfl, ⟨⟨u0, x, rest, rfl, rfl, hr⟩, rfl, rfl, rfl, rfl,
      (by intro k hk; cases hk; rfl), rfl⟩⟩
  | some .bdf3 =>
    exact ⟨_, rfl, rfl, rfl, ⟨⟨u0, x, rest, rfl, rfl, hr⟩, rfl, rfl, rfl, rfl,
      (by intro k hk; cases hk; rfl), rfl⟩⟩

/-! ## C27 -/

/-- A rejected step: time, counter and accepted history are unchanged, the current solution is the one
the attempt started from, the step is halved; the run aborts exactly if the halved step is not above
the minimum. -/
theorem C27_rejected {p : LoopParams K} {s : Option Scheme} {st0 st : RunState K V} {sols : List V}
    {dts : List K} (h : RunReach p s st0 st sols dts) (a : Attempt V) (g : V)
    (ho : a.outcome = .failure g) :
    (¬ st.dt / 2 > p.dtMin → pass p st a = .exc .assertThrow) ∧
    (st.dt / 2 > p.dtMin → ∃ st', pass p st a = .ok st' ∧ st'.t = st.t ∧ st'.n = st.n ∧
      st'.dt = st.dt / 2 ∧ st'.hist[0]? = (specPrep a st.converged sols)[0]? ∧
      st'.hist.drop 1 = (specPrep a st.converged sols).take (depth s) ∧
      st'.data.dt = st.dt / 2 :: st.data.dt.drop 1) := by
  have e : st.dt / 2 = st.dt * (1 / 2) := by rw [div_eq_mul_one_div]
  rw [e]
  obtain ⟨h1, h2⟩ := (pass_inv (p := p) h.inv a).2 g ho
  refine ⟨h1, fun hd => ?_⟩
  obtain ⟨st', g1, g2, g3, g4, g5, g6, g7⟩ := h2 hd
  obtain ⟨c, tl, k1, k2, k3⟩ := prepare_ok a h.inv.hist
  refine ⟨st', g1, g2, g4, g3, ?_, ?_, ?_⟩
  · rw [g6, k1]; rfl
  · rw [g6, k1]; rfl
  · have hd1 := g7.data.steps
    have hd2 := h.inv.data.steps
    simp only [specDts, ho] at hd1
    have hd : 1 ≤ depth s := by unfold depth; omega
    obtain ⟨m, hm⟩ : ∃ m, depth s = m + 1 := ⟨depth s - 1, by omega⟩
    rw [hd1, hd2, hm, g3]; rfl

/-- If nothing is refined or clamped, as in every attempt after a rejected one, the whole accepted
history is literally unchanged. -/
theorem C27_repeated {p : LoopParams K} {s : Option Scheme} {st0 st : RunState K V} {sols : List V}
    {dts : List K} (h : RunReach p s st0 st sols dts) (hc : st.converged = false) (a : Attempt V) (g : V)
    (ho : a.outcome = .failure g) (hd : st.dt / 2 > p.dtMin) :
    ∃ st', pass p st a = .ok st' ∧ st'.hist = st.hist ∧ st'.t = st.t ∧ st'.n = st.n := by
  obtain ⟨st', h1, h2, h3, h4, h5, h6, _⟩ := (C27_rejected h a g ho).2 hd
  refine ⟨st', h1, ?_, h2, h3⟩
  obtain ⟨c, r, tl, k1, k2, k3, k4⟩ := h.inv.hist
  rw [k2] at h5 h6
  simp only [specPrep, hc, Bool.false_eq_true, if_false] at h5 h6
  have hd : 1 ≤ depth s := by unfold depth; omega
  obtain ⟨m, hm⟩ : ∃ m, depth s = m + 1 := ⟨depth s - 1, by omega⟩
  rw [k1, k4 hc]
  cases e : st'.hist with
  | nil => rw [e] at h5; cases h5
  | cons x xs =>
    rw [e] at h5 h6
    simp only [List.getElem?_cons_zero, Option.some.injEq] at h5
    simp only [List.drop_succ_cons, List.drop_zero] at h6
    rw [h5, h6, hm]; rfl

/-! ## C26 -/

section
variable [IsStrictOrderedRing K]

/-- sensible limits -/
structure LoopParams.Ok (p : LoopParams K) : Prop where
  tol : 0 < p.tol
  dtMin : 0 < p.dtMin
  dtMax : 0 < p.dtMax

/-- times and step sizes at the head of the loop -/
structure TimeInv (p : LoopParams K) (L D : K) (st : RunState K V) : Prop where
  le : st.t ≤ p.timeEnd
  step : loopCond p st.t = true → L ≤ st.dt ∧ st.dt ≤ D ∧ st.t + st.dt ≤ p.timeEnd

private theorem nextDt_bounds {p : LoopParams K} {L D t dt : K} (good : Bool)
    (hL : 0 < L) (hdt : L ≤ dt) (hD : dt ≤ D) (hLm : L ≤ p.dtMax) (hLt : L ≤ p.tol) (hDm : p.dtMax ≤ D)
    (ht : t ≤ p.timeEnd) (hc : loopCond p t = true) :
    L ≤ nextDt p good t dt ∧ nextDt p good t dt ≤ D ∧ t + nextDt p good t dt ≤ p.timeEnd := by
  have hab : |t - p.timeEnd| = p.timeEnd - t := by
    rw [abs_sub_comm, abs_of_nonneg (by linarith)]
  simp only [loopCond, decide_eq_true_eq, hab] at hc
  have hl : isLast p t = false := by
    simp only [isLast, decide_eq_false_iff_not, hab]; linarith
  have hg : L ≤ growDt p good dt ∧ growDt p good dt ≤ D := by
    unfold growDt
    dsimp only
    split_ifs with h1 h2
    · exact ⟨hLm, hDm⟩
    · refine ⟨?_, le_trans (not_lt.1 h2) hDm⟩
      have : dt * 1 ≤ dt * p.growth := mul_le_mul_of_nonneg_left h1.2.le (by linarith)
      linarith
    · exact ⟨hdt, hD⟩
  unfold nextDt
  rw [hl]
  simp only [Bool.false_eq_true, if_false]
  split_ifs with h1
  · exact ⟨by linarith, by linarith [hg.2], by linarith⟩
  · exact ⟨hg.1, hg.2, not_lt.1 h1⟩

/-- one pass keeps the bounds -/
private theorem pass_time {p : LoopParams K} {s : Option Scheme} {st st' : RunState K V}
    {sols : List V} {dts : List K} {L D : K} (hi : LoopInv s st sols dts)
    (hL : 0 < L) (hLn : L ≤ p.dtMin) (hLm : L ≤ p.dtMax) (hLt : L ≤ p.tol) (hDm : p.dtMax ≤ D)
    (hT : TimeInv p L D st) (hc : loopCond p st.t = true) (a : Attempt V) (hp : pass p st a = .ok st') :
    TimeInv p L D st' := by
  obtain ⟨h1, h2, h3⟩ := hT.step hc
  cases ho : a.outcome with
  | success sol good =>
    obtain ⟨st'', g1, g2, g3, _⟩ := (pass_inv (p := p) hi a).1 sol good ho
    rw [hp] at g1
    obtain rfl := Res.ok.inj g1
    refine ⟨by rw [g2]; exact h3, fun hc' => ?_⟩
    rw [g3, g2]
    rw [g2] at hc'
    exact nextDt_bounds good hL h1 h2 hLm hLt hDm h3 hc'
  | failure g =>
    obtain ⟨g1, g2⟩ := (pass_inv (p := p) hi a).2 g ho
    by_cases hd : st.dt * (1 / 2) > p.dtMin
    · obtain ⟨st'', k1, k2, k3, _⟩ := g2 hd
      rw [hp] at k1
      obtain rfl := Res.ok.inj k1
      have hh : st.dt * (1 / 2) ≤ st.dt := by linarith
      refine ⟨by rw [k2]; exact hT.le, fun _ => ?_⟩
      rw [k3, k2]
      exact ⟨by linarith, by linarith, by linarith⟩
    · rw [g1 hd] at hp; cases hp

/-- lower bound for all step sizes -/
def stepLo (p : LoopParams K) (dt0 : K) : K := min (min dt0 p.dtMin) (min p.dtMax p.tol)
/-- upper bound for all step sizes -/
def stepHi (p : LoopParams K) (dt0 : K) : K := max dt0 p.dtMax

private theorem stepLo_pos {p : LoopParams K} (hp : LoopParams.Ok p) {dt0 : K} (h : 0 < dt0) :
    0 < stepLo p dt0 :=
  lt_min (lt_min h hp.dtMin) (lt_min hp.dtMax hp.tol)

private theorem stepLo_le (p : LoopParams K) (dt0 : K) : stepLo p dt0 ≤ dt0 ∧
    stepLo p dt0 ≤ p.dtMin ∧ stepLo p dt0 ≤ p.dtMax ∧ stepLo p dt0 ≤ p.tol :=
  ⟨le_trans (min_le_left _ _) (min_le_left _ _), le_trans (min_le_left _ _) (min_le_right _ _),
    le_trans (min_le_right _ _) (min_le_left _ _), le_trans (min_le_right _ _) (min_le_right _ _)⟩

private theorem reach_time {p : LoopParams K} {s : Option Scheme} {st0 st : RunState K V}
    {sols : List V} {dts : List K} (hp : LoopParams.Ok p) (h0 : 0 < st0.dt)
    (hfit : st0.t + st0.dt ≤ p.timeEnd) (h : RunReach p s st0 st sols dts) :
    TimeInv p (stepLo p st0.dt) (stepHi p st0.dt) st := by
  induction h with
  | start h =>
    exact ⟨by linarith, fun _ => ⟨(stepLo_le p _).1, le_max_left _ _, hfit⟩⟩
  | @pass st st' sols dts a h hc hpass ih =>
    obtain ⟨_, l2, l3, l4⟩ := stepLo_le p st0.dt
    exact pass_time h.inv (stepLo_pos hp h0) l2 l3 l4 (le_max_right _ _) ih hc a hpass

/-- Time never exceeds the final time and every attempted step is positive and ends at or before the
final time, provided the first step does; so time strictly increases with every accepted step. -/
theorem C26_progress {p : LoopParams K} {s : Option Scheme} {st0 st : RunState K V} {sols : List V}
    {dts : List K} (hp : LoopParams.Ok p) (h0 : 0 < st0.dt) (hfit : st0.t + st0.dt ≤ p.timeEnd)
    (h : RunReach p s st0 st sols dts) :
    st.t ≤ p.timeEnd ∧ (loopCond p st.t = true → 0 < st.dt ∧ st.t + st.dt ≤ p.timeEnd) ∧
    (∀ a st' sol good, loopCond p st.t = true → a.outcome = .success sol good →
      pass p st a = .ok st' → st.t < st'.t ∧ st'.t = st.t + st.dt ∧ st'.t ≤ p.timeEnd) := by
  have hT := reach_time hp h0 hfit h
  have hpos := stepLo_pos hp h0
  refine ⟨hT.le, fun hc => ⟨by linarith [(hT.step hc).1], (hT.step hc).2.2⟩, ?_⟩
  intro a st' sol good hc ho hpass
  obtain ⟨st'', g1, g2, _⟩ := (pass_inv (p := p) h.inv a).1 sol good ho
  rw [hpass] at g1
  obtain rfl := Res.ok.inj g1
  rw [g2]
  exact ⟨by linarith [(hT.step hc).1], rfl, (hT.step hc).2.2⟩

private theorem timeLoop_mono (p : LoopParams K) (oracle : Nat → Attempt V) : ∀ (n : Nat) (k : Nat)
    (st : RunState K V) (r : Res (RunState K V)), timeLoop p oracle n k st = some r →
    ∀ m, n ≤ m → timeLoop p oracle m k st = some r
  | 0, k, st, r, h, m, _ => by
    unfold timeLoop at h
    split at h
    · cases h
    · cases m with
      | zero => unfold timeLoop; rw [if_neg (by assumption)]; exact h
      | succ m => unfold timeLoop; rw [if_neg (by assumption)]; exact h
  | n + 1, k, st, r, h, 0, hm => by omega
  | n + 1, k, st, r, h, m + 1, hm => by
    unfold timeLoop at h ⊢
    split
    · rename_i hc
      rw [if_pos hc] at h
      cases hpass : pass p st (oracle k) with
      | ok st' =>
        rw [hpass] at h
        exact timeLoop_mono p oracle n (k + 1) st' r h m (by omega)
      | exc e => rw [hpass] at h; exact h
      | ub => rw [hpass] at h; exact h
    · rename_i hc
      rw [if_neg hc] at h
      exact h

/-- good results of the loop -/
private def LoopDone (p : LoopParams K) (r : Res (RunState K V)) : Prop :=
  r = .exc .assertThrow ∨ ∃ st', r = .ok st' ∧ |st'.t - p.timeEnd| ≤ p.tol ∧ st'.t ≤ p.timeEnd

private theorem loop_terminates {p : LoopParams K} {s : Option Scheme} {L D : K} (M : Nat)
    (hn : 0 < p.dtMin)
    (hL : 0 < L) (hLn : L ≤ p.dtMin) (hLm : L ≤ p.dtMax) (hLt : L ≤ p.tol) (hDm : p.dtMax ≤ D)
    (hM : D ≤ p.dtMin * 2 ^ M) (oracle : Nat → Attempt V) :
    ∀ (A m : Nat) (st : RunState K V) (sols : List V) (dts : List K) (k : Nat),
      LoopInv s st sols dts → TimeInv p L D st → p.timeEnd - st.t ≤ A * L →
      (loopCond p st.t = true → st.dt ≤ p.dtMin * 2 ^ m) →
      ∃ r, timeLoop p oracle (A * (M + 1) + m + 1) k st = some r ∧ LoopDone p r := by
  intro A
  induction A with
  | zero =>
    intro m st sols dts k hi hT hA hm
    refine ⟨.ok st, ?_, Or.inr ⟨st, rfl, ?_, hT.le⟩⟩
    · unfold timeLoop
      rw [if_neg]
      intro hc
      have := hT.step hc
      simp only [Nat.cast_zero, zero_mul] at hA
      linarith
    · have : st.t = p.timeEnd := by
        simp only [Nat.cast_zero, zero_mul] at hA
        exact le_antisymm hT.le (by linarith)
      rw [this, sub_self, abs_zero]; linarith
  | succ A ihA =>
    intro m
    induction m with
    | zero =>
      intro st sols dts k hi hT hA hm
      by_cases hc : loopCond p st.t = true
      · have hst := hT.step hc
        have hm := hm hc
        simp only [pow_zero, mul_one] at hm
        unfold timeLoop
        rw [if_pos hc]
        cases ho : (oracle k).outcome with
        | success sol good =>
          obtain ⟨st', g1, g2, g3, _, _, g4⟩ := (pass_inv (p := p) hi (oracle k)).1 sol good ho
          have hT' := pass_time hi hL hLn hLm hLt hDm hT hc (oracle k) g1
          obtain ⟨r, r1, r2⟩ := ihA M st' _ _ (k + 1) g4 hT' (by
            rw [g2]; push_cast at hA; linarith) (fun hc' => le_trans (hT'.step hc').2.1 hM)
          refine ⟨r, ?_, r2⟩
          rw [g1]
          exact timeLoop_mono p oracle _ _ _ _ r1 _ (by ring_nf; omega)
        | failure g =>
          obtain ⟨g1, _⟩ := (pass_inv (p := p) hi (oracle k)).2 g ho
          rw [g1 (by intro h; linarith)]
          exact ⟨_, rfl, Or.inl rfl⟩
      · refine ⟨.ok st, ?_, Or.inr ⟨st, rfl, ?_, hT.le⟩⟩
        · unfold timeLoop; rw [if_neg hc]
        · simpa [loopCond] using hc
    | succ m ihm =>
      intro st sols dts k hi hT hA hm
      by_cases hc : loopCond p st.t = true
      · have hst := hT.step hc
        have hm := hm hc
        unfold timeLoop
        rw [if_pos hc]
        cases ho : (oracle k).outcome with
        | success sol good =>
          obtain ⟨st', g1, g2, g3, _, _, g4⟩ := (pass_inv (p := p) hi (oracle k)).1 sol good ho
          have hT' := pass_time hi hL hLn hLm hLt hDm hT hc (oracle k) g1
          obtain ⟨r, r1, r2⟩ := ihA M st' _ _ (k + 1) g4 hT' (by
            rw [g2]; push_cast at hA; linarith) (fun hc' => le_trans (hT'.step hc').2.1 hM)
          refine ⟨r, ?_, r2⟩
          rw [g1]
          exact timeLoop_mono p oracle _ _ _ _ r1 _ (by ring_nf; omega)
        | failure g =>
          obtain ⟨g1, g2⟩ := (pass_inv (p := p) hi (oracle k)).2 g ho
          by_cases hd : st.dt * (1 / 2) > p.dtMin
          · obtain ⟨st', k1, k2, k3, _, _, _, k4⟩ := g2 hd
            have hT' := pass_time hi hL hLn hLm hLt hDm hT hc (oracle k) k1
            obtain ⟨r, r1, r2⟩ := ihm st' _ _ (k + 1) k4 hT' (by rw [k2]; exact hA) (by
              intro _
              rw [k3]
              rw [pow_succ] at hm
              linarith)
            refine ⟨r, ?_, r2⟩
            rw [k1]
            exact r1
          · rw [g1 hd]
            exact ⟨_, rfl, Or.inl rfl⟩
      · refine ⟨.ok st, ?_, Or.inr ⟨st, rfl, ?_, hT.le⟩⟩
        · unfold timeLoop; rw [if_neg hc]
        · simpa [loopCond] using hc

/-- For every behaviour of the solvers the loop ends after a bounded number of passes, at the final time
within tolerance and not beyond, or with the minimum time step exception; there is no undefined
behaviour. -/
theorem C26_terminates [Archimedean K] {p : LoopParams K} {s : Option Scheme} {st0 : RunState K V}
    {sols : List V} {dts : List K} (hp : LoopParams.Ok p) (hs : Started s st0 sols dts)
    (h0 : 0 < st0.dt) (hfit : st0.t + st0.dt ≤ p.timeEnd) :
    ∃ N, ∀ oracle : Nat → Attempt V, ∃ r, timeLoop p oracle N 0 st0 = some r ∧
      (r = .exc .assertThrow ∨
        ∃ st', r = .ok st' ∧ |st'.t - p.timeEnd| ≤ p.tol ∧ st'.t ≤ p.timeEnd) := by
  obtain ⟨l1, l2, l3, l4⟩ := stepLo_le p st0.dt
  have hL := stepLo_pos hp h0
  obtain ⟨M, hM⟩ := pow_unbounded_of_one_lt (stepHi p st0.dt / p.dtMin) (one_lt_two (α := K))
  have hM' : stepHi p st0.dt ≤ p.dtMin * 2 ^ M := by
    rw [div_lt_iff₀ hp.dtMin] at hM; linarith
  obtain ⟨A, hA⟩ := Archimedean.arch (p.timeEnd - st0.t) hL
  refine ⟨A * (M + 1) + M + 1, fun oracle => ?_⟩
  exact loop_terminates (s := s) M hp.dtMin hL l2 l3 l4 (le_max_right _ _)
    hM' oracle A M st0 sols dts 0 hs.inv
    (reach_time (sols := sols) (dts := dts) hp h0 hfit (RunReach.start hs)) (by simpa using hA)
    (fun _ => le_trans (le_max_left _ _) hM')

/-! ## C28 -/

/-- Step size control after an accepted step that was not the last: the new step fits into the remaining
time; it is enlarged only after good convergence and then bounded by the maximum; if the step was
within the maximum it is reduced only to fit into the remaining time. -/
theorem C28_accepted (p : LoopParams K) (good : Bool) (t dt : K) (hdt : 0 < dt)
    (hl : isLast p t = false) :
    t + nextDt p good t dt ≤ p.timeEnd ∧
    (dt < nextDt p good t dt → good = true ∧ nextDt p good t dt ≤ p.dtMax ∧
      nextDt p good t dt ≤ dt * p.growth) ∧
    (dt ≤ p.dtMax → nextDt p good t dt < dt → t + nextDt p good t dt = p.timeEnd) := by
  have hg : (dt < growDt p good dt → good = true ∧ growDt p good dt ≤ p.dtMax ∧
      growDt p good dt ≤ dt * p.growth) ∧ (dt ≤ p.dtMax → dt ≤ growDt p good dt) := by
    unfold growDt
    dsimp only
    split_ifs with h1 h2
    · exact ⟨fun _ => ⟨h1.1, le_rfl, h2.le⟩, fun h => h⟩
    · refine ⟨fun _ => ⟨h1.1, not_lt.1 h2, le_rfl⟩, fun _ => ?_⟩
      have : dt * 1 ≤ dt * p.growth := mul_le_mul_of_nonneg_left h1.2.le hdt.le
      linarith
    · exact ⟨fun h => absurd h (lt_irrefl _), fun _ => le_rfl⟩
  unfold nextDt
  rw [hl]
  simp only [Bool.false_eq_true, if_false]
  split_ifs with h1
  · refine ⟨by linarith, fun h => ?_, fun _ _ => by linarith⟩
    have : dt < growDt p good dt := by linarith
    obtain ⟨a, b, c⟩ := hg.1 this
    exact ⟨a, by linarith, by linarith⟩
  · refine ⟨not_lt.1 h1, hg.1, fun hm h => ?_⟩
    exact absurd h (not_lt.2 (hg.2 hm))

/-- Every step size in a run that starts within the maximum stays within the maximum. -/
theorem C28_max {p : LoopParams K} {s : Option Scheme} {st0 st : RunState K V} {sols : List V}
    {dts : List K} (hp : LoopParams.Ok p) (h0 : 0 < st0.dt) (hfit : st0.t + st0.dt ≤ p.timeEnd)
    (hmax : st0.dt ≤ p.dtMax) (h : RunReach p s st0 st sols dts) (hc : loopCond p st.t = true) :
    st.dt ≤ p.dtMax := by
  have := ((reach_time hp h0 hfit h).step hc).2.1
  rwa [stepHi, max_eq_right hmax] at this

/-- The minimum: right after a rejected step the step is above the minimum, and this is kept except that
a step cut to the remaining time may be smaller. Missing for the full claim: the cut, see
`C28_violated`. -/
theorem C28_min_partial {p : LoopParams K} {s : Option Scheme} {st0 st st' : RunState K V}
    {sols : List V} {dts : List K} (hp : LoopParams.Ok p) (h0 : 0 < st0.dt)
    (hfit : st0.t + st0.dt ≤ p.timeEnd) (hmm : p.dtMin < p.dtMax)
    (h : RunReach p s st0 st sols dts) (hc : loopCond p st.t = true) (a : Attempt V)
    (hpass : pass p st a = .ok st') :
    (∀ g, a.outcome = .failure g → p.dtMin < st'.dt) ∧
    (p.dtMin < st.dt ∨ st.t + st.dt = p.timeEnd → loopCond p st'.t = true →
      p.dtMin < st'.dt ∨ st'.t + st'.dt = p.timeEnd) := by
  have hf : ∀ g, a.outcome = .failure g → p.dtMin < st'.dt := by
    intro g ho
    obtain ⟨g1, g2⟩ := (pass_inv (p := p) h.inv a).2 g ho
    by_cases hd : st.dt * (1 / 2) > p.dtMin
    · obtain ⟨st'', k1, k2, k3, _⟩ := g2 hd
      rw [hpass] at k1
      obtain rfl := Res.ok.inj k1
      rw [k3]; exact hd
    · rw [g1 hd] at hpass; cases hpass
  refine ⟨hf, fun hJ hc' => ?_⟩
  cases ho : a.outcome with
  | failure g => exact Or.inl (hf g ho)
  | success sol good =>
    obtain ⟨st'', g1, g2, g3, _⟩ := (pass_inv (p := p) h.inv a).1 sol good ho
    rw [hpass] at g1
    obtain rfl := Res.ok.inj g1
    have hT := reach_time hp h0 hfit h
    have hdt : 0 < st.dt := lt_of_lt_of_le (stepLo_pos hp h0) (hT.step hc).1
    rcases hJ with hJ | hJ
    · rw [g3, g2]
      rw [g2] at hc'
      have hl : isLast p (st.t + st.dt) = false := by
        simp only [loopCond, decide_eq_true_eq] at hc'
        simp only [isLast, decide_eq_false_iff_not]
        exact not_lt.2 hc'.le
      unfold nextDt
      rw [hl]
      simp only [Bool.false_eq_true, if_false]
      split_ifs with h1
      · right; ring
      · left
        unfold growDt
        dsimp only
        split_ifs with h2 h3
        · exact hmm
        · have : st.dt * 1 ≤ st.dt * p.growth := mul_le_mul_of_nonneg_left h2.2.le hdt.le
          linarith
        · exact hJ
    · exfalso
      rw [g2, hJ] at hc'
      simp only [loopCond, sub_self, abs_zero, decide_eq_true_eq] at hc'
      linarith [hp.tol]
end

namespace Ex26

def p : LoopParams Rat := ⟨10, 1/10, 4, 2, 1/1000⟩
/-- accept with the given solution, good convergence -/
def ok (u : Nat) : Attempt Nat := ⟨id, id, none, .success u true⟩
/-- fail leaving garbage behind -/
def bad : Attempt Nat := ⟨id, id, some 77, .failure 99⟩

def st0 : RunState Rat Nat := ⟨0, 2, 0, [5, 0, 5], ⟨some .bdf2, 2, [2, 0], [1/2, -1/2, 0], 1⟩, true⟩
example : RunState.init (0 : Rat) 2 (some .bdf2) 5 0 [5] = .ok st0 := by decide +kernel
example : LoopParams.Ok p := ⟨by decide +kernel, by decide +kernel, by decide +kernel⟩
example : 0 < st0.dt ∧ st0.t + st0.dt ≤ p.timeEnd := by decide +kernel

/-- reject, accept, accept, ...: the time and the histories -/
def oracle : Nat → Attempt Nat
  | 0 => bad
  | k => ok (10 + k)
example : pass p st0 bad = .ok ⟨0, 1, 0, [5, 5, 5], ⟨some .bdf2, 2, [1, 0], [1, -1, 0], 1⟩, false⟩ := by
  decide +kernel
example : timeLoop p oracle 10 0 st0 =
    some (.ok ⟨10, 3, 4, [14, 13, 13], ⟨some .bdf2, 2, [3, 3], computeWeights .bdf2 [3, 3], 1⟩, true⟩) := by
  decide +kernel
/-- permanent failure ends with the exception -/
example : timeLoop p (fun _ => bad) 10 0 st0 = some (.exc .assertThrow) := by decide +kernel

/-- The hypothesis that the first step fits is needed: a first step beyond the final time is not
cut, the time overshoots, the next step is negative and time goes backwards. -/
theorem C26_overshoot :
    pass p { st0 with dt := 12 } (ok 1) = .ok ⟨12, -2, 1, [1, 5, 5],
      ⟨some .bdf2, 2, [-2, 2], [-1/2, 1/2, 0], 1⟩, true⟩ ∧
    timeLoop p (fun k => ok k) 10 0 { st0 with dt := 12 } =
      some (.ok ⟨10, -2, 2, [1, 0, 0], ⟨some .bdf2, 2, [-2, -2], [0, 0, 0], 1⟩, true⟩) := by
  decide +kernel

/-- The remaining time can be smaller than the configured minimum: after a rejected step the run
attempts a step of size 1/20 although the minimum is 1/10. -/
theorem C28_violated : ∃ st1 st2 st3 : RunState Rat Nat,
    let q := { p with timeEnd := 41/20, growth := 1 }
    pass q st0 bad = .ok st1 ∧ pass q st1 (ok 1) = .ok st2 ∧ pass q st2 (ok 2) = .ok st3 ∧
    loopCond q st3.t = true ∧ st3.dt = 1/20 ∧ st3.dt < q.dtMin :=
  ⟨⟨0, 1, 0, [5, 5, 5], ⟨some .bdf2, 2, [1, 0], [1, -1, 0], 1⟩, false⟩,
    ⟨1, 1, 1, [1, 5, 5], ⟨some .bdf2, 2, [1, 1], computeWeights .bdf2 [1, 1], 1⟩, true⟩,
    ⟨2, 1/20, 2, [2, 1, 1], ⟨some .bdf2, 2, [1/20, 1], computeWeights .bdf2 [1/20, 1], 1⟩, true⟩,
    by decide +kernel⟩

/-- A step above the maximum is not cut unless it is about to grow. -/
example : nextDt p false 0 6 = 6 ∧ nextDt p true 0 6 = 4 := by decide +kernel

end Ex26
end Verif.Props
