/-
C161: a run that starts in a pure phase ends in it.
-/
import Verif.Lemmas.PureRun
import Verif.Props.Locality
import Verif.Props.TimeLoop
import Mathlib.Tactic.NormNum

set_option linter.unusedSectionVars false

namespace Verif.Props

open Finset Verif.Newton Verif.Energy Verif.Locality.Spec Verif.PureRun Verif.PureRun.Spec

variable {K : Type} [Field K] [LinearOrder K] [IsStrictOrderedRing K] {n m d : Nat}

/-- One pass: with a past in the phase, the residual of the phase is defined and zero, the solver needs no iteration, and the pass is one that accepts the phase. -/
theorem C161_pass {p : LoopParams K} {par : SinteringKernel.Par K} {s : Scheme} {st0 st : RunState K (Fields K n m)} {sols : List (Fields K n m)} {dts : List K}
    {k : Option (Fin m)} (hr : RunReach p (some s) st0 st sols dts) (hp : Past k sols dts) (hd : 0 < st.dt) (c : Config K n m d) (hc : Fair k c) :
    passNewton p par st c = pass p st ⟨c.limit, c.remesh, c.guess, .success (phase k) c.good⟩ ∧
    ∃ h ns, prepare ⟨c.limit, c.remesh, c.guess, .failure c.garbage⟩ st.converged st.hist = .ok h ∧
      residualAll par 2 st.data.order st.data.weights c.pts (phase k) (oldSolutions h) = .ok Fields.zero ∧
      solve { c.solver with residual := residualFn par c st.data h } c.histN c.histL (phase k) c.solver.maxIter = some (.ok ns) ∧
      ns.dst = phase k ∧ ns.it = 0 ∧ ns.updates = [] := by
  obtain ⟨past, z, rest, hpos, rfl, rfl⟩ := hp
  obtain ⟨w1, w2, w3⟩ := C22_steps hr
  have hdep : depth (some s) = s.order := by cases s <;> rfl
  have hord : st.data.order = s.order := by rw [hr.inv.data.order]; rfl
  have hnd := hr.inv.data.ndts
  obtain ⟨h, q0, q1, q2, q3, q4⟩ := C20_step_input hr ⟨c.limit, c.remesh, c.guess, .failure c.garbage⟩
  -- the accepted solutions after refinement
  obtain ⟨rest', hsp⟩ : ∃ rest', specPrep ⟨c.limit, c.remesh, c.guess, .failure c.garbage⟩ st.converged (phase k :: (List.replicate past.length (phase k) ++ rest)) =
      phase k :: (List.replicate past.length (phase k) ++ rest') := by
    cases st.converged with
    | true => exact ⟨rest.map c.remesh, by simp [specPrep, hc.limit, hc.remesh]⟩
    | false => exact ⟨rest, rfl⟩
  rw [hsp] at q1 q4
  have hx : h[0]? = some (phase k) := by
    cases hg : c.guess with
    | none => rw [q4 hg]; rfl
    | some g => rw [q3 g hg, hc.guess g hg]
  have holen : (oldSolutions h).length = s.order := by
    unfold oldSolutions; rw [List.length_drop, q2, hdep]; rfl
  -- the weights
  have hw := w3 s rfl
  rw [w1, hdep] at hw
  obtain ⟨e1, e2, e3⟩ := weights_past s hd hpos (z := z) (by rw [← hdep]; simpa using hnd)
  rw [← hw] at e1 e2 e3
  rw [← hord] at e1 e2
  have hs0 : st.data.order ≠ 0 := by rw [hord]; cases s <;> decide
  -- the residual
  have heq : ∀ u, residualAll par 2 st.data.order st.data.weights c.pts u (oldSolutions h) =
      residualAll par 2 st.data.order st.data.weights c.pts u (List.replicate s.order (phase k)) := by
    intro u
    refine residualAll_weightless (by rw [holen, List.length_replicate]) (fun i => ?_) _ _
    by_cases hi : past.length < i
    · exact Or.inl (e3 i hi)
    · by_cases hio : i < s.order
      · right
        rw [q1, hdep, List.getElem?_take, if_pos hio, List.getElem?_replicate, if_pos hio]
        cases i with
        | zero => rfl
        | succ i =>
          rw [List.getElem?_cons_succ, List.getElem?_append_left (by rw [List.length_replicate]; omega), List.getElem?_replicate, if_pos (by omega)]
      · right
        rw [List.getElem?_eq_none (by omega), List.getElem?_eq_none (by rw [List.length_replicate]; omega)]
  have hz : residualAll par 2 st.data.order st.data.weights c.pts (phase k) (oldSolutions h) = .ok Fields.zero := by
    obtain ⟨r, h1⟩ := residualAll_defined (par := par) hs0 e1 (o := List.replicate s.order (phase k)) (by rw [List.length_replicate, hord]) c.pts (phase k)
    have := C156_uniform k e2 hc.unity hc.flux (fun o ho => List.eq_of_mem_replicate ho) h1
    rw [heq, h1, this]
  have hres : residualFn par c st.data h (phase k) = Fields.zero := by unfold residualFn; rw [hz]
  obtain ⟨ns, n1, n2, n3, n4, _⟩ := solve_rest { c.solver with residual := residualFn par c st.data h } c.histN c.histL c.solver.maxIter (phase k)
    (by show c.solver.norm (residualFn par c st.data h (phase k)) = _; rw [hres, hc.norm]) hc.tol hc.user
  refine ⟨?_, h, ns, q0, hz, n1, n2, n3, n4⟩
  have ho : stepOutcome par c st.data h = .ok (.success (phase k) c.good) := by
    unfold stepOutcome getCurrent
    simp only [Res.index, hx, Res.ok_bind, hz]
    rw [n1]
    simp only [n2]
  unfold passNewton
  rw [q0, Res.ok_bind, ho, Res.ok_bind]

/-- The past of a pass in the phase is one again. -/
theorem C161_past {k : Option (Fin m)} {c : Config K n m d} (hc : Fair k c) {conv : Bool} {sols : List (Fields K n m)} {dts : List K} {dt : K} (hd : 0 < dt)
    (h : Past k sols dts) :
    Past k (specSols ⟨c.limit, c.remesh, c.guess, .success (phase k) c.good⟩ conv sols) (specDts (⟨c.limit, c.remesh, c.guess, .success (phase k) c.good⟩ : Attempt (Fields K n m)) dt dts) := by
  obtain ⟨past, z, rest, hpos, rfl, rfl⟩ := h
  refine ⟨dt :: past, z, if conv then rest.map c.remesh else rest, ?_, rfl, ?_⟩
  · intro x hx
    rcases List.mem_cons.1 hx with rfl | hx
    · exact hd
    · exact hpos x hx
  · cases conv <;> simp [specSols, specPrep, hc.limit, hc.remesh, List.replicate_succ]

/-- At every point of a run, with any fair choices: the run is one of the time loop in which every step is accepted with the phase. -/
theorem C161_run {p : LoopParams K} (hp : LoopParams.Ok p) {par : SinteringKernel.Par K} {s : Scheme} {st0 st : RunState K (Fields K n m)} {sols : List (Fields K n m)}
    {dts : List K} {k : Option (Fin m)} (h0 : 0 < st0.dt) (hfit : st0.t + st0.dt ≤ p.timeEnd) (oracle : Nat → Config K n m d) (hc : ∀ j, Fair k (oracle j))
    (hr : RunReach p (some s) st0 st sols dts) (hpast : Past k sols dts) (fuel j : Nat) :
    runNewton p par oracle fuel j st = timeLoop p (fun j => ⟨(oracle j).limit, (oracle j).remesh, (oracle j).guess, .success (phase k) (oracle j).good⟩) fuel j st ∧
    (∀ e, runNewton p par oracle fuel j st ≠ some (.exc e)) ∧ runNewton p par oracle fuel j st ≠ some .ub ∧
    ∀ st', runNewton p par oracle fuel j st = some (.ok st') → st'.hist[0]? = some (phase k) ∧ st.n ≤ st'.n ∧ st'.n ≤ st.n + fuel := by
  induction fuel generalizing st sols dts j with
  | zero =>
    unfold runNewton timeLoop
    cases hl : loopCond p st.t with
    | true => simp
    | false =>
      refine ⟨rfl, by simp, by simp, ?_⟩
      intro st' he
      obtain rfl : st = st' := by simpa using he
      obtain ⟨past, z, rest, _, _, rfl⟩ := hpast
      exact ⟨(C20_history hr).2.1, le_refl _, le_refl _⟩
  | succ fuel ih =>
    unfold runNewton timeLoop
    cases hl : loopCond p st.t with
    | false =>
      simp only [Bool.false_eq_true, if_false]
      refine ⟨trivial, by simp, by simp, ?_⟩
      intro st' he
      obtain rfl : st = st' := by simpa using he
      obtain ⟨past, z, rest, _, _, rfl⟩ := hpast
      exact ⟨(C20_history hr).2.1, le_refl _, by omega⟩
    | true =>
      have hd := ((C26_progress hp h0 hfit hr).2.1 hl).1
      have hcj := hc j
      simp only [if_true]
      rw [(C161_pass hr hpast hd (oracle j) hcj).1]
      obtain ⟨st1, a1, _, _, a4, _, _⟩ := (pass_inv (p := p) hr.inv ⟨(oracle j).limit, (oracle j).remesh, (oracle j).guess, .success (phase k) (oracle j).good⟩).1 _ _ rfl
      rw [a1]
      dsimp only
      obtain ⟨b1, b2, b3, b4⟩ := ih (RunReach.pass _ hr hl a1) (C161_past hcj hd hpast) (j + 1)
      refine ⟨b1, b2, b3, fun st' he => ?_⟩
      obtain ⟨c1, c2, c3⟩ := b4 st' he
      exact ⟨c1, by omega, by omega⟩

/-- A run that starts in a pure phase reaches the end of time, in the phase. -/
theorem C161_end [Archimedean K] {p : LoopParams K} (hp : LoopParams.Ok p) {par : SinteringKernel.Par K} {s : Scheme} {st0 : RunState K (Fields K n m)}
    {sols : List (Fields K n m)} {dts : List K} {k : Option (Fin m)} (hs : Started (some s) st0 sols dts) (hpast : Past k sols dts) (h0 : 0 < st0.dt)
    (hfit : st0.t + st0.dt ≤ p.timeEnd) :
    ∃ N, ∀ oracle : Nat → Config K n m d, (∀ j, Fair k (oracle j)) →
      ∃ st', runNewton p par oracle N 0 st0 = some (.ok st') ∧ |st'.t - p.timeEnd| ≤ p.tol ∧ st'.hist[0]? = some (phase k) := by
  obtain ⟨N, hN⟩ := C26_terminates hp hs h0 hfit
  refine ⟨N, fun oracle hc => ?_⟩
  obtain ⟨b1, b2, _, b4⟩ := C161_run (par := par) hp h0 hfit oracle hc (RunReach.start hs) hpast N 0
  obtain ⟨r, h1, h2⟩ := hN fun j => ⟨(oracle j).limit, (oracle j).remesh, (oracle j).guess, .success (phase k) (oracle j).good⟩
  rw [← b1] at h1
  rcases h2 with rfl | ⟨st', rfl, h3, _⟩
  · exact absurd h1 (b2 _)
  · exact ⟨st', h1, h3, (b4 st' h1).1⟩

/-- A fresh run has a past in the phase, whatever the older entries of the history hold. -/
theorem C161_fresh (t0 dt0 : K) (s : Scheme) (k : Option (Fin m)) (x : Fields K n m) (rest : List (Fields K n m)) (hr : rest.length + 1 = s.order) :
    ∃ st dts, RunState.init t0 dt0 (some s) (phase k) x rest = .ok st ∧ st.t = t0 ∧ st.dt = dt0 ∧ Started (some s) st (phase k :: rest) dts ∧ Past k (phase k :: rest) dts := by
  have hdep : depth (some s) = s.order := by cases s <;> rfl
  obtain ⟨st, h1, h2, h3, h4⟩ := C22_fresh t0 dt0 (some s) (phase k : Fields K n m) x rest (by rw [hdep, hr])
  exact ⟨st, _, h1, h2, h3, h4, [], _, rest, by simp, rfl, rfl⟩

namespace Ex161

/-- A bar of two elements, one point each; one order parameter, at rest. -/
def bar : List (VPt Rat 3 1 1) :=
  [(⟨1, ![1/2, 1/2, 0], fun i _ => ![-1, 1, 0] i⟩, ![none]), (⟨1, ![0, 1/2, 1/2], fun i _ => ![0, -1, 1] i⟩, ![none])]

def par : SinteringKernel.Par Rat := ⟨16, 1, ⟨1, 1, 1, 1, 1⟩, 1, 1, 1, 1⟩

/-- The solver: sum of absolute values, no increments. -/
def config : Config Rat 3 1 1 where
  limit u := ⟨fun i => max 0 (min 1 (u.c i)), u.mu, fun g i => max 0 (min 1 (u.eta g i))⟩
  remesh := id
  guess := none
  pts := bar
  solver := ⟨id, fun u => .fin (∑ i, (|u.c i| + |u.mu i| + |u.eta 0 i|)), fun _ _ _ => .exc .newtonDidNotConverge, 10, 1/1000, 1/100, false, false, true, true, 10, 10, none⟩
  histN := 0
  histL := 0
  good := true
  garbage := Fields.zero

example : Fair (some 0) config where
  limit := by
    simp only [config, phase, Fields.mk.injEq]
    refine ⟨funext fun _ => ?_, trivial, funext fun g => funext fun _ => ?_⟩
    · simp
    · by_cases h : (some 0 : Option (Fin 1)) = some g
      · simp only [if_pos h]; norm_num
      · simp only [if_neg h]; norm_num
  remesh := rfl
  guess := by simp [config]
  unity := by show Unity bar; unfold Unity; decide +kernel
  flux := Or.inr (by show ∀ g i, netFlux bar i g = 0; decide +kernel)
  norm := by simp [config, Fields.zero]
  tol := by norm_num [config]
  user := by simp [config]

def limits : LoopParams Rat := ⟨10, 1/100, 4, 2, 1/1000⟩

example : LoopParams.Ok limits := ⟨by norm_num [limits], by norm_num [limits], by norm_num [limits]⟩

/-- Times and numbers of steps of a run, and the concentrations at its end. -/
def shown : Option (Res (RunState Rat (Fields Rat 3 1))) → Option (Rat × Nat × List Rat)
  | some (.ok st) => some (st.t, st.n, (st.hist.head?.map fun u => List.ofFn u.c).getD [])
  | _ => none

/-- Steps of size 1, 2, 4 and the remaining 3; garbage in the oldest entry of the history. -/
example : (match RunState.init 0 1 (some .bdf2) (phase (some 0)) (phase none) [⟨fun _ => 7, fun _ => 7, fun _ _ => 7⟩] with
    | .ok st => shown (runNewton limits par (fun _ => config) 10 0 st)
    | _ => none) = some (10, 4, [1, 1, 1]) := by decide +kernel

end Ex161

end Verif.Props
