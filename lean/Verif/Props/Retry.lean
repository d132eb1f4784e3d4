/-
C143: repeated attempts of a step after an inconsistency of the grains.
-/
import Verif.Lemmas.Retry
import Verif.Props.OutTrack

namespace Verif.Props

open Verif.Spec Verif.Cycle Verif.Cycle.Spec Verif.OutTrack Verif.OutTrack.Spec Verif.Retry Verif.Retry.Spec

section
variable {P K : Type} [Field K] [LinearOrder K] {c : Conf P K} {inter : P × K → P × K → Prop}

/-- What the tracker knows after an attempt whose first search was rejected: exactly the grains seen in the rejected solution that were matched,
where they were seen there.  A known grain that no particle was matched with is forgotten. -/
theorem C143_left (hq : QueryContract inter c.query) (hcc : CCContract c.cc) (hcol : ColorContract c.reassign.color)
    (hsort : SortContract c.reassign.sortBy) (hd : c.reassign.diag = true) {st : Cycle.State P K} (h0 : Runs c st) {s s' : Seen P K} (hf : Fits s)
    (hn : s.ops.length = st.n) (h : trackAll c false s st = .exc .grainsInconsistency) :
    ∃ st' d m, tryTrack c s s' st = .ok (.rejected st') ∧ IsDetection s.ops d ∧
      IsMatching c.G.dist inter (Grain.distanceCenters c.G) d.grains st.tr.grains m ∧ st'.n = st.n ∧ RightBefore st' ∧
      (∀ k R, st'.tr.grains.get? k = some R ↔ ∃ g G, d.grains.get? g = some G ∧ m.get? g = some (some k) ∧
        R = { G with grainId := k, dynamics := dynamicsOf (st.tr.grains.get? k) G }) ∧
      (∀ k, (∀ g, m.get? g ≠ some (some k)) → st'.tr.grains.get? k = none) ∧
      ∃ g G, d.grains.get? g = some G ∧ m.get? g = some none ∧ c.track.thresholdNew < G.maxValue := by
  obtain ⟨hi, -⟩ := run_spec hq hcc hcol hsort hd h0
  obtain ⟨d, hd1, hd2⟩ := C06_detection c.G hcc false hf.conns
  have hpre := trackPre_of hcc hi hn hd2
  have hexc : (trackMatch c.G c.query c.track st.tr d st.n).2 = .exc .grainsInconsistency ∨
      ∃ u, (trackMatch c.G c.query c.track st.tr d st.n).2 = .ok u := by
    obtain ⟨m, -, hor, -⟩ := C04_accounting c.G hq c.track hpre
    rcases hor with h | h
    · exact .inr ⟨_, h⟩
    · exact .inl h
  have hexc : (trackMatch c.G c.query c.track st.tr d st.n).2 = .exc .grainsInconsistency := by
    rcases hexc with h1 | ⟨u, h1⟩
    · exact h1
    · exfalso
      unfold trackAll at h
      rw [hd1] at h
      simp only [Res.bind] at h
      rw [h1] at h
      exact assign_no_inconsistency h
  have hnew : c.track.allowNew = false := by
    obtain ⟨m, -, -, hiff, -⟩ := C04_accounting c.G hq c.track hpre
    exact (hiff.1 hexc).1
  obtain ⟨m, hm, hs, hl, ht, -, hiff⟩ := table_matched hq hpre hnew
  have hb := base_left hq hd2 hf hpre hn hnew
  refine ⟨left c s st, d, m, try_rejects hd1 hexc, hd2, hm, ?_, ?_, ?_, ?_, hiff.1 hexc⟩
  · rw [left_eq hd1]
  · rw [left_eq hd1]
    intro b cell g sg hg
    exact (grainAt_spec (inv_of_base hb _) b cell).2.2 g sg hg
  · rw [left_eq hd1]; exact ht
  · intro k hk
    rw [left_eq hd1]
    cases hx : (trackMatch c.G c.query c.track st.tr d st.n).1.grains.get? k with
    | none => rfl
    | some R =>
      obtain ⟨g, G, -, e2, -⟩ := (ht k R).1 hx
      exact absurd e2 (hk g)

/-- Whatever attempts are rejected before: the accepted one knows only grains that were known before the step, all of its answers name such a grain
and a segment of it, and no access is undefined. -/
theorem C143_numbers (hq : QueryContract inter c.query) (hcc : CCContract c.cc) (hcol : ColorContract c.reassign.color)
    (hsort : SortContract c.reassign.sortBy) (hd : c.reassign.diag = true) (hnew : c.track.allowNew = false) {st st' : Cycle.State P K} (h0 : Runs c st)
    {dbg : Option (Ask × Seen P K)} {l : List (Seen P K × Seen P K)} (hf : FitTries c dbg l st) (h : attempts c dbg l st = .ok st') :
    (∀ k, (st'.tr.grains.get? k).isSome → (st.tr.grains.get? k).isSome) ∧ RightBefore st' ∧ ∀ b cell, grainAt st' b cell ≠ .ub := by
  obtain ⟨hi, -⟩ := run_spec hq hcc hcol hsort hd h0
  obtain ⟨i1, k1⟩ := attempts_spec hq hcc hcol hsort hd hnew l hi hf h
  exact ⟨k1, fun b cell g sg hg => (grainAt_spec i1 b cell).2.2 g sg hg, fun b cell => (grainAt_spec i1 b cell).2.1⟩

/-- No recovery: if in the first attempt the grains of some kind touch none of the known ones (they moved too far, say), and in all attempts grains of
this kind are seen above the threshold apart from the others, then all attempts are rejected and the simulation ends, wherever smaller steps bring
these grains, also if back to where they were known. -/
theorem C143_stuck (hq : QueryContract inter c.query) (hcc : CCContract c.cc) (hcol : ColorContract c.reassign.color)
    (hsort : SortContract c.reassign.sortBy) (hd : c.reassign.diag = true) (hnew : c.track.allowNew = false) {st : Cycle.State P K} (h0 : Runs c st)
    {x : Seen P K × Seen P K} {l : List (Seen P K × Seen P K)} (hf : FitTries c none (x :: l) st) {A : Grain P K → Prop}
    (seen : ∀ y ∈ x :: l, ∃ d g G, detectGrains c.G c.cc false y.1.ops = .ok d ∧ d.grains.get? g = some G ∧ A G ∧ c.track.thresholdNew < G.maxValue)
    (apart : ∀ y ∈ x :: l, ∀ z ∈ x :: l, ∀ dy dz, detectGrains c.G c.cc false y.1.ops = .ok dy → detectGrains c.G c.cc false z.1.ops = .ok dz →
      ∀ o O g G, dy.grains.get? o = some O → dz.grains.get? g = some G → A G → ¬ A O → O.op = G.op → ¬ Touch inter O G)
    (far : ∀ d, detectGrains c.G c.cc false x.1.ops = .ok d → ∀ g G, d.grains.get? g = some G → A G →
      ∀ o O, st.tr.grains.get? o = some O → O.op = G.op → ¬ Touch inter O G) :
    attempts c none (x :: l) st = .exc .assertThrow := by
  obtain ⟨hi, -⟩ := run_spec hq hcc hcol hsort hd h0
  refine stuck hq hcc hcol hsort hd hnew (x :: l) apart (x :: l) (fun _ h => h) seen hi hf ?_
  intro y l' hy d hdy
  rw [List.cons.injEq] at hy
  rw [← hy.1] at hdy
  exact far d hdy

/-- A rejected attempt does not influence the next one if every grain seen in the next one continues, one by one, a grain that was seen and matched in
the rejected one.
Missing: without this it does, `C143_moved_violated`. -/
theorem C143_same_partial (hq : QueryContract inter c.query) (hcc : CCContract c.cc) (hcol : ColorContract c.reassign.color)
    (hsort : SortContract c.reassign.sortBy) (hd : c.reassign.diag = true) (hnew : c.track.allowNew = false) {st : Cycle.State P K} (h0 : Runs c st)
    {s1 s1' s2 s2' : Seen P K} (hf1 : Fits s1) (hn1 : s1.ops.length = st.n) (hf2 : Fits s2) (hn2 : s2.ops.length = st.n)
    {d1 d2 : Detection P K} (hd1 : detectGrains c.G c.cc false s1.ops = .ok d1) (hd2 : detectGrains c.G c.cc false s2.ops = .ok d2)
    {f1 : Nat → Option Nat} {f2 f : Nat → Nat} (p1 : Partly inter f1 st.tr.grains d1.grains) (c2 : Continues inter f2 d1.grains d2.grains)
    (hmatched : ∀ g G, d2.grains.get? g = some G → f1 (f2 g) = some (f g)) (c12 : Continues inter f st.tr.grains d2.grains)
    (hrej : ∃ g G, d1.grains.get? g = some G ∧ f1 g = none ∧ c.track.thresholdNew < G.maxValue) :
    ((∃ r1 r2, attempts c none [(s1, s1'), (s2, s2')] st = .ok r1 ∧ attempts c none [(s2, s2')] st = .ok r2 ∧ Same r1 r2) ∨
      ∃ e, attempts c none [(s1, s1'), (s2, s2')] st = e ∧ attempts c none [(s2, s2')] st = e ∧ ∀ x, e ≠ .ok x) := by
  obtain ⟨hi, -⟩ := run_spec hq hcc hcol hsort hd h0
  obtain ⟨d1', e1, k1⟩ := C06_detection c.G hcc false hf1.conns
  rw [hd1, Res.ok.injEq] at e1
  subst e1
  obtain ⟨d2', e2, k2⟩ := C06_detection c.G hcc false hf2.conns
  rw [hd2, Res.ok.injEq] at e2
  subst e2
  have hpre1 := trackPre_of hcc hi hn1 k1
  obtain ⟨m, hm, hs, hl, ht, -, hiff⟩ := table_matched hq hpre1 hnew
  have hmf : ∀ g G, d1.grains.get? g = some G → m.get? g = some (f1 g) := fun g G hg => matched_of_partly p1 hm hg
  obtain ⟨g0, G0, u1, u2, u3⟩ := hrej
  have htry : tryTrack c s1 s1' st = .ok (.rejected (left c s1 st)) :=
    try_rejects hd1 (hiff.2 ⟨g0, G0, u1, by rw [hmf g0 G0 u1, u2], u3⟩)
  have hstep : attempts c none [(s1, s1'), (s2, s2')] st = attempts c none [(s2, s2')] (left c s1 st) := by
    rw [attempts, htry]
    rfl
  have i1 : Inv (left c s1 st) := by
    rw [left_eq hd1]
    exact inv_of_base (base_left hq k1 hf1 hpre1 hn1 hnew) _
  have hnl : (left c s1 st).n = st.n := by rw [left_eq hd1]
  have hc : Continues inter f (left c s1 st).tr.grains d2.grains := by
    rw [left_eq hd1]
    refine ⟨?_, ?_, c12.inj⟩
    · intro g G hg
      obtain ⟨O, a1, a2, a3⟩ := c2.touches g G hg
      exact ⟨_, (ht _ _).2 ⟨f2 g, O, a1, by rw [hmf _ O a1, hmatched g G hg], rfl⟩, a2, a3⟩
    · intro g G o O hg ho hop htouch
      obtain ⟨g1, G1, b1, b2, b3⟩ := (ht o O).1 ho
      subst b3
      have h3 := c2.only g G g1 G1 hg b1 hop htouch
      rw [hmf g1 G1 b1, h3, hmatched g G hg, Option.some.injEq, Option.some.injEq] at b2
      exact b2.symm
  have hal : Alike (trackAll c false s2 (left c s1 st)) (trackAll c false s2 st) := by
    obtain ⟨b1, b2, b3, b4⟩ := track_follow hq (trackPre_of hcc i1 (by rw [hnl]; exact hn2) k2) hc
    obtain ⟨g1, g2, g3, g4⟩ := track_follow hq (trackPre_of hcc hi hn2 k2) c12
    unfold trackAll
    rw [hd2]
    simp only [Res.bind]
    rw [hnl] at b1 b2 b3 b4 ⊢
    rw [b1, g1]
    refine assign_alike c false false _ _ ?_ (by rw [b3, g3]) _ _
    refine OMap.ext (sorted_plain b2) (sorted_plain g2) fun k => ?_
    rw [get_plain, get_plain]
    apply Option.ext
    intro R
    simp only [Option.map_eq_some_iff, b4, g4]
    constructor
    · rintro ⟨R', ⟨g, G, q1, q2, q3⟩, rfl⟩
      exact ⟨_, ⟨g, G, q1, q2, rfl⟩, by rw [q3]; rfl⟩
    · rintro ⟨R', ⟨g, G, q1, q2, q3⟩, rfl⟩
      exact ⟨_, ⟨g, G, q1, q2, rfl⟩, by rw [q3]; rfl⟩
  rw [hstep]
  exact last_alike s2' hal

end

namespace Ex143

open Ex06
open Ex137 hiding conf
open Ex142 hiding result

/-- Grains known before the step, and what is seen in the attempts; numbers and places of the grains after the step. -/
def result (dbg : Option Ask) (l0 : List ℚ) (l : List (List ℚ)) : Res (List (Nat × List ℚ)) :=
  (runTracker (conf false) true (at' l0) (at' l0) (start 1)).bind fun st =>
    (attempts (conf false) (dbg.map fun a => (a, at' l0)) (l.map fun x => (at' x, at' x)) st).bind fun st' =>
      .ok (st'.tr.grains.map fun p => (p.1, p.2.segments.map (·.center)))

/-- A grain moves too far, from 10 to 14.  In the repeated attempt it is seen at 11, where it would have been accepted, or does not move at all: both are
rejected, as it has been forgotten. -/
theorem C143_moved_violated : result none [0, 10] [[0, 14]] = .exc .assertThrow ∧ result none [0, 10] [[0, 11]] = .ok [(0, [0]), (1, [11])] ∧
    result none [0, 10] [[0, 14], [0, 11]] = .exc .assertThrow ∧ result none [0, 10] [[0, 14], [0, 10], [0, 10]] = .exc .assertThrow := by decide +kernel

/-- The known grain may also be replaced by what was seen in the rejected attempt: the grain at 0 is known at 3/2 afterwards, and accepted at 3. -/
theorem C143_place_violated : result none [0] [[3/2, 20], [3]] = .ok [(0, [3])] ∧ result none [0] [[3]] = .exc .assertThrow := by decide +kernel

/-- With output for debugging the step is not repeated at all: the output runs the tracker, which throws within the handler. -/
theorem C143_debug_violated : result (some stats) [0, 10] [[0, 14], [0, 11]] = .exc .grainsInconsistency ∧
    result (some stats) [0] [[3/2, 20], [3]] = .exc .assertThrow := by decide +kernel

/-- The hypotheses on what is seen, for attempts without order parameters added. -/
def fitB : List (List ℚ) → Cycle.State ℚ ℚ → Bool
  | [], _ => true
  | x :: l, st => st.n == 1 && (match trackAll (conf false) false (at' x) st with
      | .ok r => r.1.active.length == 1
      | _ => true) && match tryTrack (conf false) (at' x) (at' x) st with
      | .ok (.rejected st') => fitB l st'
      | _ => true

def tries (l : List (List ℚ)) : List (Seen ℚ ℚ × Seen ℚ ℚ) := l.map fun x => (at' x, at' x)

theorem fit_of : ∀ (l : List (List ℚ)) (st : Cycle.State ℚ ℚ), fitB l st = true → FitTries (conf false) none (tries l) st
  | [], _, _ => trivial
  | x :: l, st, h => by
    unfold fitB at h
    simp only [Bool.and_eq_true, beq_iff_eq] at h
    obtain ⟨⟨h1, h2⟩, h3⟩ := h
    refine ⟨fits_at x, fits_at x, h1.symm, ?_, ?_⟩
    · intro r hr
      rw [hr] at h2
      simp only [beq_iff_eq] at h2
      exact h2.symm
    · intro st' hst'
      rw [hst'] at h3
      refine ⟨fun a y hy => (by cases hy), ?_⟩
      intro st'' e
      have e' : (Res.ok st' : Res (Cycle.State ℚ ℚ)) = .ok st'' := e
      rw [Res.ok.injEq] at e'
      subst e'
      exact fit_of l st' h3

/-- The initial run with grains at 0 and 10. -/
def first : Res (Cycle.State ℚ ℚ) := runTracker (conf false) true (at' [0, 10]) (at' [0, 10]) (start 1)

theorem first_runs {st : Cycle.State ℚ ℚ} (h : first = .ok st) : Runs (conf false) st :=
  one (conf false) (at' [0, 10]) (at' [0, 10]) (fits_at _) (fits_at _) 1 1 rfl rfl (by decide +kernel) st h

/-- The moved grains: to the right of 5. -/
def right (G : Grain ℚ ℚ) : Bool := G.segments.any fun s => decide (5 < s.center)

/-- Grains found in this picture. -/
def found (x : List ℚ) : OMap (Grain ℚ ℚ) :=
  match detectGrains gQ ccExec false (at' x).ops with
  | .ok d => d.grains
  | _ => []

theorem found_of {x : List ℚ} {d : Detection ℚ ℚ} (h : detectGrains (conf false).G (conf false).cc false (at' x).ops = .ok d) : d.grains = found x := by
  have h' : detectGrains gQ ccExec false (at' x).ops = .ok d := h
  unfold found
  rw [h']

/-- The hypotheses of `C143_stuck`. -/
def stuckB (l : List (List ℚ)) (old : OMap (Grain ℚ ℚ)) : Bool :=
  (l.all fun x => (found x).any fun p => right p.2 && decide ((1/2 : ℚ) < p.2.maxValue)) &&
  (l.all fun x => l.all fun y => (found x).all fun p => (found y).all fun q => !(right q.2 && !right p.2 && p.2.op == q.2.op && touching p.2 q.2)) &&
  match l with
  | [] => false
  | x :: _ => (found x).all fun q => old.all fun p => !(right q.2 && p.2.op == q.2.op && touching p.2 q.2)

/-- The hypotheses of `C143_stuck` are met: a grain moves from 10 to 14, back to 11 and to 10. -/
example : ∃ st, first = .ok st ∧ attempts (conf false) none (tries [[0, 14], [0, 11], [0, 10]]) st = .exc .assertThrow := by
  have hchk : (match first with
    | .ok st => fitB [[0, 14], [0, 11], [0, 10]] st && stuckB [[0, 14], [0, 11], [0, 10]] st.tr.grains
    | _ => false) = true := by decide +kernel
  cases hst : first with
  | exc e => rw [hst] at hchk; cases hchk
  | ub => rw [hst] at hchk; cases hchk
  | ok st =>
    rw [hst] at hchk
    simp only [Bool.and_eq_true] at hchk
    obtain ⟨h1, h2⟩ := hchk
    refine ⟨st, rfl, ?_⟩
    unfold stuckB at h2
    simp only [Bool.and_eq_true] at h2
    obtain ⟨⟨q1, q2⟩, q3⟩ := h2
    have hmem : ∀ y ∈ tries [[0, 14], [0, 11], [0, 10]], ∃ x ∈ [[0, 14], [0, 11], [0, 10]], y.1 = at' x := by
      intro y hy
      unfold tries at hy
      obtain ⟨x, hx, rfl⟩ := List.mem_map.1 hy
      exact ⟨x, hx, rfl⟩
    refine C143_stuck (A := fun G => right G = true) ask_contract ccExec_contract greedyColor_contract sortDesc_contract rfl rfl (first_runs hst)
      (fit_of _ st h1) ?_ ?_ ?_
    · intro y hy
      obtain ⟨x, hx, e⟩ := hmem y hy
      have := List.all_eq_true.1 q1 x hx
      obtain ⟨p, hp, hpp⟩ := List.any_eq_true.1 this
      simp only [Bool.and_eq_true] at hpp
      obtain ⟨d, hd1, hd2⟩ := C06_detection (conf false).G ccExec_contract false (fits_at x).conns
      refine ⟨d, p.1, p.2, by rw [e]; exact hd1, ?_, hpp.1, of_decide_eq_true hpp.2⟩
      refine OMap.get?_of_mem hd2.sorted ?_
      rw [found_of hd1]
      exact hp
    · intro y hy z hz dy dz ey ez o O g G hO hG hA hnA hop ht
      obtain ⟨x, hx, e⟩ := hmem y hy
      obtain ⟨x', hx', e'⟩ := hmem z hz
      rw [e] at ey
      rw [e'] at ez
      have k1 := OMap.mem_of_get? hO
      have k2 := OMap.mem_of_get? hG
      rw [found_of ey] at k1
      rw [found_of ez] at k2
      have := List.all_eq_true.1 (List.all_eq_true.1 (List.all_eq_true.1 (List.all_eq_true.1 q2 x hx) x' hx') _ k1) _ k2
      rw [hA, (touching_iff _ _).2 ht, Bool.eq_false_iff.2 hnA] at this
      simp [hop] at this
    · intro d hd g G hG hA o O hO hop ht
      have hd' : detectGrains (conf false).G (conf false).cc false (at' [0, 14]).ops = .ok d := hd
      have k2 := OMap.mem_of_get? hG
      rw [found_of hd'] at k2
      have := List.all_eq_true.1 (List.all_eq_true.1 q3 _ k2) _ (OMap.mem_of_get? hO)
      rw [hA, (touching_iff _ _).2 ht] at this
      simp [hop] at this

/-- The hypotheses of `C143_left` are met: the grain at 10 is forgotten. -/
example : ∃ st st', Runs (conf false) st ∧ tryTrack (conf false) (at' [1, 14]) (at' []) st = .ok (.rejected st') ∧
    (st.tr.grains.map fun p => (p.1, p.2.segments.map (·.center))) = [(0, [0]), (1, [10])] ∧
    (st'.tr.grains.map fun p => (p.1, p.2.segments.map (·.center))) = [(0, [1])] := by
  have hchk : (match first with
    | .ok st => (match tryTrack (conf false) (at' [1, 14]) (at' []) st with
      | .ok (.rejected st') => decide ((st.tr.grains.map fun p => (p.1, p.2.segments.map (·.center))) = [(0, [0]), (1, [10])] ∧
        (st'.tr.grains.map fun p => (p.1, p.2.segments.map (·.center))) = [(0, [1])])
      | _ => false)
    | _ => false) = true := by decide +kernel
  cases hst : first with
  | exc e => rw [hst] at hchk; cases hchk
  | ub => rw [hst] at hchk; cases hchk
  | ok st =>
    rw [hst] at hchk
    simp only at hchk
    split at hchk
    · rename_i st' e
      have := of_decide_eq_true hchk
      exact ⟨st, st', first_runs hst, e, this.1, this.2⟩
    · cases hchk

/-- A particle that appears only in the first attempt: the second one is accepted as if it had been the first. -/
example : result none [0, 10] [[0, 10, 20], [1, 10]] = .ok [(0, [1]), (1, [10])] ∧ result none [0, 10] [[1, 10]] = .ok [(0, [1]), (1, [10])] := by
  decide +kernel

/-- Grains with numbers below 2 continue, the others touch none. -/
def partlyB (old new : OMap (Grain ℚ ℚ)) : Bool :=
  (new.all fun p => !decide (p.1 < 2) || old.any fun q => q.1 == p.1 && q.2.op == p.2.op && touching q.2 p.2) &&
    (new.all fun p => old.all fun q => !(q.2.op == p.2.op && touching q.2 p.2) || (q.1 == p.1 && decide (p.1 < 2)))

theorem partly_of {old new : OMap (Grain ℚ ℚ)} (hs : old.Sorted) (h : partlyB old new = true) :
    Partly meets (fun g => if g < 2 then some g else none) old new := by
  unfold partlyB at h
  simp only [Bool.and_eq_true, List.all_eq_true, List.any_eq_true, beq_iff_eq, Bool.or_eq_true, Bool.not_eq_true', decide_eq_false_iff_not,
    decide_eq_true_eq] at h
  obtain ⟨h1, h2⟩ := h
  have hlt : ∀ g o : Nat, (if g < 2 then some g else none) = some o → g < 2 ∧ g = o := by
    intro g o h
    by_cases hg : g < 2
    · rw [if_pos hg, Option.some.injEq] at h; exact ⟨hg, h⟩
    · rw [if_neg hg] at h; cases h
  refine ⟨?_, ?_, ?_⟩
  · intro g G o hg ho
    obtain ⟨a1, rfl⟩ := hlt g o ho
    rcases h1 (g, G) (OMap.mem_of_get? hg) with h | ⟨q, q1, ⟨q2, q3⟩, q4⟩
    · exact absurd a1 h
    · refine ⟨q.2, ?_, q3, (touching_iff _ _).1 q4⟩
      rw [← show q.1 = g from q2]
      exact OMap.get?_of_mem hs q1
  · intro g G o O hg ho h3 h4
    rcases h2 (g, G) (OMap.mem_of_get? hg) (o, O) (OMap.mem_of_get? ho) with h | ⟨h, h'⟩
    · simp only at h
      rw [(touching_iff _ _).2 h4, h3] at h
      simp at h
    · simp only at h h'
      rw [if_pos h', h]
  · intro g g' G G' o _ _ e1 e2
    rw [(hlt g o e1).2, (hlt g' o e2).2]

/-- The hypotheses of `C143_same_partial`. -/
def sameB : Bool :=
  match first, detectGrains gQ ccExec false (at' [0, 10, 20]).ops, detectGrains gQ ccExec false (at' [1, 10]).ops with
  | .ok st, .ok d1, .ok d2 => st.n == 1 && decide st.tr.grains.Sorted && partlyB st.tr.grains d1.grains && follows d1.grains d2.grains &&
      follows st.tr.grains d2.grains && (d2.grains.all fun p => decide (p.1 < 2)) &&
      (d1.grains.any fun p => !decide (p.1 < 2) && decide ((1/2 : ℚ) < p.2.maxValue)) && decide d1.grains.Sorted
  | _, _, _ => false

/-- They are met. -/
example : ∃ st r1 r2, Runs (conf false) st ∧ attempts (conf false) none (tries [[0, 10, 20], [1, 10]]) st = .ok r1 ∧
    attempts (conf false) none (tries [[1, 10]]) st = .ok r2 ∧ Same r1 r2 := by
  have hres : result none [0, 10] [[1, 10]] = .ok [(0, [1]), (1, [10])] := by decide +kernel
  have h : sameB = true := by decide +kernel
  unfold sameB at h
  split at h
  · rename_i st d1 d2 e0 e1 e2
    simp only [Bool.and_eq_true, beq_iff_eq] at h
    obtain ⟨⟨⟨⟨⟨⟨⟨h1, h2⟩, h3⟩, h4⟩, h5⟩, h6⟩, h7⟩, h8⟩ := h
    obtain ⟨p, hp, hpp⟩ := List.any_eq_true.1 h7
    simp only [Bool.and_eq_true, Bool.not_eq_true', decide_eq_false_iff_not] at hpp
    rcases C143_same_partial (c := conf false) (s1 := at' [0, 10, 20]) (s1' := at' [0, 10, 20]) (s2 := at' [1, 10]) (s2' := at' [1, 10])
      (f := fun g => g) (f2 := fun g => g)
      ask_contract ccExec_contract greedyColor_contract sortDesc_contract rfl rfl (first_runs e0) (fits_at _) h1.symm (fits_at _) h1.symm e1 e2
      (partly_of (of_decide_eq_true h2) h3) (continues_of_follows h4)
      (fun g G hg => by
        have := List.all_eq_true.1 h6 (g, G) (OMap.mem_of_get? hg)
        rw [if_pos (of_decide_eq_true this)])
      (continues_of_follows h5)
      ⟨p.1, p.2, OMap.get?_of_mem (of_decide_eq_true h8) hp, by rw [if_neg hpp.1], of_decide_eq_true hpp.2⟩
      with ⟨r1, r2, a1, a2, a3⟩ | ⟨e, a1, a2, a3⟩
    · exact ⟨st, r1, r2, first_runs e0, a1, a2, a3⟩
    · exfalso
      unfold result at hres
      have e0' : runTracker (conf false) true (at' [0, 10]) (at' [0, 10]) (start 1) = .ok st := e0
      rw [e0'] at hres
      simp only [Res.bind] at hres
      have a2' : attempts (conf false) ((none : Option Ask).map fun a => (a, at' [0, 10])) ([[1, 10]].map fun x => (at' x, at' x)) st = e := a2
      rw [a2'] at hres
      cases e with
      | ok x => exact a3 x rfl
      | exc e => cases hres
      | ub => cases hres
  · cases h

end Ex143

end Verif.Props
