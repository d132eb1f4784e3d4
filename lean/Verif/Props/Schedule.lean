import Verif.Lemmas.Schedule
/-!
# C121: schedule of refinement and grain tracking
-/
namespace Verif.Props
open Verif Verif.Schedule Verif.Schedule.Spec

/-- C121 (partial). Without quality control and extra coarsening, a run refines exactly after the steps that are
multiples of the frequency, each once and in order, whatever fails in between; a refinement due after the last accepted
step is pending. Missing: the flags of the deal.II estimator, the sizes of the steps. -/
theorem C121_partial (c : Conf) (levels levels0 : Nat) (st : State) (hst : Fresh c st) (hq : c.quality = false)
    (hx : c.extraCoarsening = false) (hf : c.fluxes = false) (as : List Attempt) (ha : ∀ a ∈ as, a.isLast = false)
    (s : State) (hr : run c (start c true levels levels0 st) as = .ok s) :
    s.amrLog ++ (if s.doMesh then [s.n] else []) = due c.refFreq s.n := by
  obtain ⟨_, h1, h2, _, _, _, h3, _, _, h5, _⟩ := start_inv c true levels levels0 st
  refine (run_keeps (AmrInv c) (fun a => a.isLast = false) (fun st a s h hl hp => h.pass hq hx hf hl hp) as _ s ?_ ha
    hr).log
  refine ⟨by rw [h3]; simp, ?_, ?_, by rw [h3]; simp, ?_⟩
  · rw [h2, hst.2.1]; exact Nat.dvd_zero _
  · rw [h2, hst.2.1]; exact Nat.zero_le _
  · rw [h5, h3, h1, hst.1]; simp [due]

/-- with advection or boundary conditions that need it, the tracker runs after every step; if only the frequency asks
for it, exactly after the multiples of the frequency -/
theorem C121_tracker (c : Conf) (levels levels0 : Nat) (st : State) (hst : Fresh c st)
    (ho : (c.advection || c.ebc || (!c.output && !(c.quality && c.trackWithQuality))) = true)
    (hc : c.checkInconsistency = false) (hf : c.fluxes = false) (as : List Attempt) (ha : ∀ a ∈ as, a.isLast = false)
    (s : State) (hr : run c (start c true levels levels0 st) as = .ok s) :
    s.gtLog ++ (if s.doGt then [s.n] else []) = due (if c.advection || c.ebc then 1 else c.gtFreq) s.n := by
  obtain ⟨_, h1, _, h2, _, _, _, h3, _, _, h5⟩ := start_inv c true levels levels0 st
  refine (run_keeps (GtInv c) (fun a => a.isLast = false) (fun st a s h hl hp => h.pass ho hc hf hl hp) as _ s ?_ ha
    hr).log
  refine ⟨by rw [h3]; simp, ?_, ?_, by rw [h3]; simp, ?_⟩
  · rw [h2, hst.2.2.1]; exact Nat.dvd_zero _
  · rw [h2, hst.2.2.1]; exact Nat.zero_le _
  · rw [h5, h3, h1, hst.1]; simp [due]

/-- with the check of the grains, the tracker has run for every accepted step, before it is accepted -/
theorem C121_check (c : Conf) (levels levels0 : Nat) (st : State) (hst : Fresh c st) (hc : c.checkInconsistency = true)
    (hf : c.fluxes = false) (as : List Attempt) (ha : ∀ a ∈ as, a.isLast = false) (s : State)
    (hr : run c (start c true levels levels0 st) as = .ok s) : ∀ k, 0 < k → k ≤ s.n → k ∈ s.gtLog := by
  obtain ⟨_, h1, _⟩ := start_inv c true levels levels0 st
  refine run_keeps (fun s : State => ∀ k, 0 < k → k ≤ s.n → k ∈ s.gtLog) (fun a => a.isLast = false)
    (fun st a s h hl hp => check_pass hc hf hl hp h) as _ s ?_ ha hr
  intro k h2 h3
  rw [h1, hst.1] at h3
  omega

/-- Whenever the solver is called, the data of the tracker belong to the current mesh, if something needs them; the
boundary conditions and, if the Courant condition is checked, the diameters of the cells do as well. This holds from
any restart, with quality control, extra coarsening and any failures. -/
theorem C121_sync (c : Conf) (fresh : Bool) (levels levels0 : Nat) (st : State) (as : List Attempt)
    (ha : ∀ a ∈ as, a.isLast = false) (s : State) (hr : run c (start c fresh levels levels0 st) as = .ok s)
    (a : Attempt) (s' : State) (hs : atSolver c s a = .ok s') :
    (needsTracker c = true → s'.gtMesh = s'.mesh) ∧ (courant c = true → s'.cflMesh = some s'.mesh) ∧
    s'.bcMesh = s'.mesh := by
  have h := (start_inv c fresh levels levels0 st).1.run ha hr
  have := atSolver_ok c s a s' hs
  subst this
  exact h.atSolver

/-- the check of the Courant condition never uses diameters of another mesh: no run is undefined -/
theorem C121_courant (c : Conf) (fresh : Bool) (levels levels0 : Nat) (st : State) (as : List Attempt)
    (ha : ∀ a ∈ as, a.isLast = false) (a : Attempt) : run c (start c fresh levels levels0 st) (as ++ [a]) ≠ .ub := by
  have key : ∀ (as : List Attempt) (st : State), Inv c st → (∀ a ∈ as, a.isLast = false) →
      ∀ a, run c st (as ++ [a]) ≠ .ub := by
    have hpass : ∀ (st : State) (a : Attempt), Inv c st → pass c st a ≠ .ub := by
      intro st a h hu
      unfold pass at hu
      cases hs : atSolver c st a with
      | ok s =>
        rw [hs, Res.ok_bind] at hu
        have := atSolver_ok c st a s hs
        subst this
        cases h2 : step c { beginPure c st with recent := (beginPure c st).sol } a with
        | ok s2 => rw [h2, Res.ok_bind] at hu; simp at hu
        | exc e => rw [h2] at hu; exact absurd hu (by simp [bind, Res.bind])
        | ub => exact step_not_ub c { beginPure c st with recent := (beginPure c st).sol } a h.atSolver.2.1 h2
      | exc e => rw [hs] at hu; exact absurd hu (by simp [bind, Res.bind])
      | ub =>
        unfold atSolver begin at hs
        revert hs
        cases st.converged <;> cases st.doMesh <;> cases hg : st.doGt <;> cases a.gtStartFails <;>
          simp [refine, hg]
    intro as
    induction as with
    | nil =>
      intro st h _ a hu
      rw [List.nil_append, run_cons] at hu
      cases hp : pass c st a with
      | ok s => rw [hp, Res.ok_bind] at hu; exact absurd hu (by simp [run])
      | exc e => rw [hp] at hu; exact absurd hu (by simp [bind, Res.bind])
      | ub => exact hpass st a h hp
    | cons b bs ih =>
      intro st h hl a hu
      rw [List.cons_append, run_cons] at hu
      cases hp : pass c st b with
      | ok s =>
        rw [hp, Res.ok_bind] at hu
        exact ih s (h.pass (hl b List.mem_cons_self) hp) (fun x hx => hl x (List.mem_cons_of_mem _ hx)) a hu
      | exc e => rw [hp] at hu; exact absurd hu (by simp [bind, Res.bind])
      | ub => exact hpass st b h hp
  exact key as _ (start_inv c fresh levels levels0 st).1 ha a

/-- without failing post-processing every pass either advances the counter of steps by one together with the solution,
or leaves both and reports the failure -/
theorem C121_time (c : Conf) (st : State) (hst : st.sol = st.n) (as : List Attempt)
    (ha : ∀ a ∈ as, (c.fluxes && a.postFails) = false) (s : State) (hr : run c st as = .ok s) (a : Attempt) (s' : State)
    (hp : pass c s a = .ok s') (hp' : (c.fluxes && a.postFails) = false) :
    s'.sol = s'.n ∧ (s'.n = s.n ∨ s'.n = s.n + 1) ∧ (s'.converged = true ↔ s'.n = s.n + 1) :=
  time_pass hp' hp (run_keeps (fun s : State => s.sol = s.n) (fun a => (c.fluxes && a.postFails) = false)
    (fun _ _ _ h hl hp => (time_pass hl hp h).1) as st s hst ha hr)

/-- without quality control the depth of the refinement is the one asked for or, after the extra coarsening, one less
(as an `unsigned int`) -/
theorem C121_depth (c : Conf) (st : State) (hq : c.quality = false) (hst : st.depth = c.maxDepth) (as : List Attempt)
    (s : State) (hr : run c st as = .ok s) :
    s.depth = c.maxDepth ∨ (c.extraCoarsening = true ∧ s.depth = (c.maxDepth + 4294967295) % 4294967296) := by
  refine run_keeps (fun s : State => s.depth = c.maxDepth ∨ (c.extraCoarsening = true ∧
    s.depth = (c.maxDepth + 4294967295) % 4294967296)) (fun _ => True) ?_ as st s (.inl hst) (fun _ _ => trivial) hr
  intro st a s h _ hp
  rcases depth_pass hq hp with h' | ⟨h1, _, _, h'⟩
  · rw [h']; exact h
  · exact .inr ⟨h1, h'⟩

/-- the finest level allowed: after the extra coarsening one less than before, for two or more initial levels, even if
the depth wraps -/
theorem C121_level (levels0 depth : Nat) (h0 : 2 ≤ levels0) (hb : levels0 - 1 + depth < 4294967296) :
    maxLevel levels0 ((depth + 4294967295) % 4294967296) = maxLevel levels0 depth - 1 := by
  unfold maxLevel
  rw [Nat.add_mod_mod]
  omega

/-- the initial refinements suffice to reach the finest and the coarsest level allowed from the mesh generated, one
level with each -/
theorem C121_initial (c : Conf) (levels levels0 : Nat) (h1 : 1 ≤ levels) (h : levels ≤ levels0) :
    levels0 - 1 + c.maxDepth ≤ levels - 1 + initialRefinements c levels levels0 ∧
    levels - 1 - initialRefinements c levels levels0 ≤ levels0 - 1 - min (levels0 - 1) c.minDepth := by
  unfold initialRefinements
  omega

/-- number of meshes made before the first step: none for a restart, which keeps the mesh it has loaded, and otherwise
as many as the initial refinement asks for -/
theorem C121_meshes (c : Conf) (fresh : Bool) (levels levels0 : Nat) (st : State) :
    (start c fresh levels levels0 st).mesh = st.mesh +
      (if fresh = true ∧ (0 < c.refFreq ∨ c.quality = true ∨ c.fullRefinement = false) then
        initialRefinements c levels levels0 else 0) := by
  have hr : ∀ (l : List Nat) (st : State), (l.foldl (fun st _ => refine c st) st).mesh = st.mesh + l.length := by
    intro l
    induction l with
    | nil => exact fun _ => rfl
    | cons a l ih =>
      intro st
      rw [List.foldl_cons, ih, List.length_cons]
      simp only [refine]
      omega
  have hi : ∀ st : State, (initialMesh c fresh levels levels0 st).mesh = st.mesh +
      (if fresh = true ∧ (0 < c.refFreq ∨ c.quality = true ∨ c.fullRefinement = false) then
        initialRefinements c levels levels0 else 0) := by
    intro st
    unfold initialMesh
    by_cases hc : fresh = true ∧ (0 < c.refFreq ∨ c.quality = true ∨ c.fullRefinement = false)
    · rw [if_pos hc, if_pos (by simpa [or_assoc] using hc)]
      by_cases hk : initialRefinements c levels levels0 = 0
      · simp [hk]
      · simp only [hk, if_false]
        rw [hr, List.length_range]
    · rw [if_neg hc, if_neg (by simpa [or_assoc] using hc)]
      split <;> rfl
  unfold start
  dsimp only
  rw [show (initialTrack c (initialMesh c fresh levels levels0
    { st with doMesh := false, doGt := false, converged := true })).mesh =
    (initialMesh c fresh levels levels0 { st with doMesh := false, doGt := false, converged := true }).mesh from by
      unfold initialTrack track; split <;> rfl, hi]

namespace Ex121
/-- refinement every second step, tracker every third -/
def conf : Conf :=
  { refFreq := 2, gtFreq := 3, quality := false, autoQuality := false, trackWithQuality := false, advection := false,
    checkCourant := false, ebc := false, output := false, checkInconsistency := false, extraCoarsening := false,
    fluxes := false, fullRefinement := true, maxDepth := 0, minDepth := 3 }
def begin0 : State :=
  { n := 0, lastAmr := 0, lastGt := 0, depth := 0, doMesh := false, doGt := false, converged := true, sol := 0,
    recent := 0, mesh := 0, gtMesh := 0, cflMesh := none, bcMesh := 0, amrLog := [], gtLog := [] }
def good : Attempt :=
  { isLast := false, gtStartFails := false, courantFails := false, stepFails := false, good := true,
    qualityLow := false, gtCheckFails := false, postFails := false, dtTooSmall := false, qualityLoop := 0 }
def bad : Attempt := { good with stepFails := true }

example : Fresh conf begin0 := ⟨rfl, rfl, rfl, rfl, rfl⟩
/-- steps and logs of a result -/
def summary : Res State → Option (Nat × List Nat × List Nat × Nat × Nat × Bool)
  | .ok s => some (s.n, s.amrLog, s.gtLog, s.sol, s.depth, s.doMesh)
  | _ => none

example : summary (run conf (start conf true 4 4 begin0) [good, good, bad, good, good, good, good]) =
    some (6, [2, 4], [3], 6, 0, true) := by decide +kernel
example : (due 2 6, due 3 6) = ([2, 4, 6], [3, 6]) := by decide

/-- advection with the Courant check, quality control: refinements follow the quality and the tracker follows them -/
def conf2 : Conf :=
  { conf with quality := true, advection := true, checkCourant := true, gtFreq := 0, maxDepth := 1 }
def low : Attempt := { good with qualityLow := true, qualityLoop := 2 }
example : needsTracker conf2 = true ∧ courant conf2 = true := by decide
example : summary (run conf2 (start conf2 true 3 4 { begin0 with depth := 1 }) [low, good, { good with courantFails := true }, low]) =
    some (3, [1, 1, 1], [1, 2], 3, 3, true) := by decide +kernel
example : (match run conf2 (start conf2 true 3 4 { begin0 with depth := 1 }) [low] with
    | .ok s => decide (s.gtMesh ≠ s.mesh) && (match atSolver conf2 s good with
      | .ok s' => decide (s'.gtMesh = s'.mesh ∧ s'.cflMesh = some s'.mesh ∧ s'.mesh = 5)
      | _ => false)
    | _ => false) = true := by decide +kernel
/-- extra coarsening -/
def conf3 : Conf := { conf with extraCoarsening := true, maxDepth := 2 }
example : summary (run conf3 (start conf3 true 4 4 { begin0 with depth := 2 }) [good, good, good]) =
    some (3, [1], [], 3, 1, true) := by decide +kernel
example : maxLevel 4 1 = 4 ∧ maxLevel 4 2 = 5 ∧ maxLevel 4 ((0 + 4294967295) % 4294967296) = 2 := by decide
example : initialRefinements conf 2 4 = 2 ∧ initialRefinements conf 4 4 = 3 := by decide
example : (start conf false 3 5 begin0).mesh = 0 ∧ (start conf true 3 5 begin0).mesh = 2 := by decide
end Ex121

/-- A solver of the post-processing that does not converge is handled as a failed step, but time and counter have
already been advanced: the solution is that of step 0 at step 1. A refinement due at that step does not come. -/
theorem C121_post_violated : ¬ (∀ (c : Conf) (st : State) (as : List Attempt) (s : State), st.sol = st.n →
    run c st as = .ok s → s.sol = s.n) ∧
    ¬ (∀ (c : Conf) (st : State) (as : List Attempt) (s : State), Fresh c st → c.quality = false →
      c.extraCoarsening = false → (∀ a ∈ as, a.isLast = false) → run c (start c true 4 4 st) as = .ok s →
      s.amrLog ++ (if s.doMesh then [s.n] else []) = due c.refFreq s.n) := by
  constructor
  · intro h
    have h' : ∀ s, run { Ex121.conf with fluxes := true } Ex121.begin0 [{ Ex121.good with postFails := true }] = .ok s →
        s.sol = s.n := fun s hs => h _ _ _ s rfl hs
    exact absurd (h' _ rfl) (by decide +kernel)
  · intro h
    have h' : ∀ s, run { Ex121.conf with fluxes := true } (start { Ex121.conf with fluxes := true } true 4 4 Ex121.begin0)
        [Ex121.good, { Ex121.good with postFails := true }] = .ok s → s.amrLog ++ (if s.doMesh then [s.n] else []) = due 2 s.n :=
      fun s hs => h { Ex121.conf with fluxes := true } _ _ s ⟨rfl, rfl, rfl, rfl, rfl⟩ rfl rfl (by decide) hs
    exact absurd (h' _ rfl) (by decide +kernel)

/-- A restart does not continue the run: the flag of a pending refinement is not stored, the refinement due after step
2 is left out in the continued run. -/
theorem C121_restart_violated : ∃ (c : Conf) (st s s1 s2 : State) (a b : Attempt), Fresh c st ∧
    run c (start c true 4 4 st) [a, a] = .ok s ∧ run c (start c false 4 4 s) [b] = .ok s1 ∧
    run c { s with amrLog := [] } [b] = .ok s2 ∧ s1.n = s2.n ∧ s2.amrLog = [2] ∧ s1.amrLog = [] ∧ s1.doMesh = false := by
  refine ⟨Ex121.conf, Ex121.begin0, _, _, _, Ex121.good, Ex121.good, ⟨rfl, rfl, rfl, rfl, rfl⟩, rfl, rfl, rfl, ?_⟩
  decide +kernel

/-- The depth is reduced for the extra coarsening although the step is then rejected by the check of the grains; the
coarsening itself is not carried out later. -/
theorem C121_coarsening_violated : ¬ (∀ (c : Conf) (st s : State) (as : List Attempt), c.quality = false →
    st.depth = c.maxDepth → (∀ a ∈ as, a.isLast = false) → run c st as = .ok s → s.depth ≠ st.depth →
    st.mesh < s.mesh ∨ s.doMesh = true) := by
  intro h
  have h' : ∀ s, run { Ex121.conf3 with checkInconsistency := true, refFreq := 0 } { Ex121.begin0 with depth := 2 }
      [{ Ex121.good with gtCheckFails := true }, Ex121.good] = .ok s → s.depth ≠ 2 → 0 < s.mesh ∨ s.doMesh = true :=
    fun s hs => h { Ex121.conf3 with checkInconsistency := true, refFreq := 0 } { Ex121.begin0 with depth := 2 } s _ rfl rfl
      (by decide) hs
  exact absurd (h' _ rfl) (by decide +kernel)

/-- For one initial level and no further refinement, the extra coarsening makes the number of levels unlimited. -/
theorem C121_level_violated : ¬ (∀ levels0 depth : Nat, 1 ≤ levels0 → levels0 - 1 + depth < 4294967296 →
    maxLevel levels0 ((depth + 4294967295) % 4294967296) ≤ maxLevel levels0 depth) := by
  intro h
  exact absurd (h 1 0 (by decide) (by decide)) (by decide)

end Verif.Props
