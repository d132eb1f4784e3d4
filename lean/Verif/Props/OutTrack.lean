/-
C142: the grain tracker at output.
-/
import Verif.Lemmas.OutTrack
import Verif.Props.Cycle
import Verif.Model.RemapOld

namespace Verif.Props

open Verif.Spec Verif.Cycle Verif.Cycle.Spec Verif.OutTrack Verif.OutTrack.Spec

section
variable {P K : Type} [Field K] [LinearOrder K] {c : Conf P K} {inter : P × K → P × K → Prop}

/-- In all simulations, runs of the tracker and outputs in any order: when contours, statistics or coordination numbers are written, all answers of
the tracker are right. -/
theorem C142_right (hq : QueryContract inter c.query) (hcc : CCContract c.cc) (hcol : ColorContract c.reassign.color)
    (hsort : SortContract c.reassign.sortBy) (hd : c.reassign.diag = true) {adv : Bool} (hadv : adv = true → c.again = true)
    {st0 st st' : Cycle.State P K} (h0 : Runs c st0) {l : List (Op P K)} (hf : FitAll c adv l st0) (hl : ops c adv l st0 = .ok st)
    {a : Ask} (ha : (a.contours || a.contoursTex || a.stats || a.coordination) = true) {s : Seen P K} (hs : Fit c st (.output a s))
    (h : look c adv a s st = .ok st') : Right st' := by
  obtain ⟨i0, o0⟩ := run_spec hq hcc hcol hsort hd h0
  obtain ⟨i1, o1⟩ := ops_spec hq hcc hcol hsort hd i0 o0 hf hl
  obtain ⟨i2, o2⟩ := look_ops hq hcc i1 hs.1 hs.2 (fun hx => o1 (hadv hx)) ha h
  intro b cell g sg hg
  obtain ⟨R, e1, e2, e3⟩ := (grainAt_spec i2 b cell).2.2 g sg hg
  exact ⟨R, e1, by rw [o2 g R e1, e2], e3⟩

/-- The number written with a piece of a contour is that of a grain in this order parameter, or 0 in a cell without particle or if there are no
grains at all; no access is undefined. -/
theorem C142_number (hq : QueryContract inter c.query) (hcc : CCContract c.cc) (hcol : ColorContract c.reassign.color)
    (hsort : SortContract c.reassign.sortBy) (hd : c.reassign.diag = true) {adv : Bool} (hadv : adv = true → c.again = true)
    {st0 st st' : Cycle.State P K} (h0 : Runs c st0) {l : List (Op P K)} (hf : FitAll c adv l st0) (hl : ops c adv l st0 = .ok st)
    {a : Ask} (ha : (a.contours || a.contoursTex || a.stats || a.coordination) = true) {s : Seen P K} (hs : Fit c st (.output a s))
    (h : look c adv a s st = .ok st') (b cell : Nat) :
    number st' b cell ≠ .ub ∧ ∀ g, number st' b cell = .ok (some g) →
      (∃ R, st'.tr.grains.get? g = some R ∧ R.op = b) ∨ (g = 0 ∧ (st'.tr.grains = [] ∨ grainAt st' b cell = .ok none)) := by
  have hr := C142_right hq hcc hcol hsort hd hadv h0 hf hl ha hs h
  obtain ⟨i0, o0⟩ := run_spec hq hcc hcol hsort hd h0
  obtain ⟨i1, o1⟩ := ops_spec hq hcc hcol hsort hd i0 o0 hf hl
  have i2 := (look_spec hq hcc i1 hs.1 hs.2 h).1
  have hub := (grainAt_spec i2 b cell).2.1
  unfold number
  by_cases he : st'.tr.grains.isEmpty = true
  · rw [if_pos he]
    refine ⟨by simp, ?_⟩
    intro g hg
    simp only [Res.ok.injEq, Option.some.injEq] at hg
    exact .inr ⟨hg.symm, .inl (List.isEmpty_iff.1 he)⟩
  · rw [if_neg he]
    unfold label
    cases hx : grainAt st' b cell with
    | ub => exact absurd hx hub
    | exc e => exact ⟨by simp [Res.bind], fun g hg => by simp [Res.bind] at hg⟩
    | ok e =>
      cases e with
      | none =>
        refine ⟨by simp [Res.bind], fun g hg => ?_⟩
        simp only [Res.bind, Res.ok.injEq, Option.some.injEq] at hg
        exact .inr ⟨hg.symm, .inr rfl⟩
      | some e =>
        refine ⟨by simp [Res.bind], fun g hg => ?_⟩
        simp only [Res.bind, Res.ok.injEq] at hg
        obtain ⟨g', sg⟩ := e
        simp only at hg
        subst hg
        obtain ⟨R, e1, e2, -⟩ := hr b cell g sg hx
        exact .inl ⟨R, e1, e2⟩

/-- The only way an output fails in the tracker: new grains are not allowed, and there is a particle above the threshold that no grain of the last
search is matched with.  Nothing catches this exception. -/
theorem C142_throws (hq : QueryContract inter c.query) (hcc : CCContract c.cc) (hcol : ColorContract c.reassign.color)
    (hsort : SortContract c.reassign.sortBy) (hd : c.reassign.diag = true) {adv : Bool}
    {st0 st : Cycle.State P K} (h0 : Runs c st0) {l : List (Op P K)} (hf : FitAll c adv l st0) (hl : ops c adv l st0 = .ok st)
    {a : Ask} {s : Seen P K} (hs : Fit c st (.output a s)) :
    ∃ d m, IsDetection s.ops d ∧ IsMatching c.G.dist inter (Grain.distanceCenters c.G) d.grains st.tr.grains m ∧
      ((∃ st', look c adv a s st = .ok st') ∨ look c adv a s st = .exc .grainsInconsistency) ∧
      (look c adv a s st = .exc .grainsInconsistency ↔
        (a.contours || a.contoursTex || a.stats || a.coordination) = true ∧ st.tr.grains ≠ [] ∧ adv = false ∧ c.track.allowNew = false ∧
          ∃ g G, d.grains.get? g = some G ∧ m.get? g = some none ∧ c.track.thresholdNew < G.maxValue) := by
  obtain ⟨i0, o0⟩ := run_spec hq hcc hcol hsort hd h0
  obtain ⟨i1, -⟩ := ops_spec hq hcc hcol hsort hd i0 o0 hf hl
  obtain ⟨d, hd1, hd2⟩ := C06_detection c.G hcc false hs.1.conns
  have hpre := trackPre_of hcc i1 hs.2 hd2
  obtain ⟨m, hm, hor, hiff, -⟩ := C04_accounting c.G hq c.track hpre
  refine ⟨d, m, hd2, hm, ?_⟩
  unfold look
  by_cases hx : ((a.contours || a.contoursTex || a.stats || a.coordination) && !st.tr.grains.isEmpty && !adv) = true
  · rw [if_pos hx]
    have hx' := hx
    simp only [Bool.and_eq_true, Bool.not_eq_true', List.isEmpty_eq_false_iff] at hx'
    obtain ⟨⟨x1, x2⟩, x3⟩ := hx'
    unfold trackAll
    rw [hd1]
    simp only [Res.bind]
    rcases hor with hok | hexc
    · rw [hok]
      simp only [assignOps, if_pos]
      refine ⟨.inl ⟨_, rfl⟩, ?_⟩
      rw [hok] at hiff
      simp only [reduceCtorEq, false_iff] at hiff ⊢
      exact fun ⟨_, _, _, h1, h2⟩ => hiff ⟨h1, h2⟩
    · rw [hexc]
      exact ⟨.inr rfl, fun _ => ⟨x1, x2, x3, hiff.1 hexc⟩, fun _ => rfl⟩
  · rw [if_neg hx]
    refine ⟨.inl ⟨_, rfl⟩, ?_⟩
    simp only [reduceCtorEq, false_iff]
    rintro ⟨x1, x2, x3, -⟩
    apply hx
    rw [x1, x3]
    cases hg : st.tr.grains with
    | nil => exact absurd hg x2
    | cons p l => rfl

/-- An output does not change the next run of the tracker, as long as the grains continue one by one: every grain seen at output touches exactly one
grain of its order parameter in the last search, the same from output to the next run and over both.
Missing: without this it does, `C142_numbers_violated`; and what is kept of the search before does change, `C142_remains_violated`. -/
theorem C142_same_partial (hq : QueryContract inter c.query) (hcc : CCContract c.cc) (hcol : ColorContract c.reassign.color)
    (hsort : SortContract c.reassign.sortBy) (hd : c.reassign.diag = true) {adv : Bool}
    {st0 st : Cycle.State P K} (h0 : Runs c st0) {l : List (Op P K)} (hf : FitAll c adv l st0) (hl : ops c adv l st0 = .ok st)
    {a : Ask} {s1 : Seen P K} (hs1 : Fit c st (.output a s1)) {s2 s2' : Seen P K} (hf2 : Fits s2) (hn2 : s2.ops.length = st.n)
    {d1 d2 : Detection P K} (hd1 : detectGrains c.G c.cc false s1.ops = .ok d1) (hd2 : detectGrains c.G c.cc false s2.ops = .ok d2)
    {f1 f2 : Nat → Nat} (c1 : Continues inter f1 st.tr.grains d1.grains) (c2 : Continues inter f2 d1.grains d2.grains)
    (c12 : Continues inter (fun g => f1 (f2 g)) st.tr.grains d2.grains) :
    ((∃ st1 st2, ops c adv [.output a s1, .run s2 s2'] st = .ok st1 ∧ ops c adv [.run s2 s2'] st = .ok st2 ∧ Same st1 st2) ∨
      ∃ e, ops c adv [.output a s1, .run s2 s2'] st = e ∧ ops c adv [.run s2 s2'] st = e ∧ ∀ x, e ≠ .ok x) := by
  obtain ⟨i0, o0⟩ := run_spec hq hcc hcol hsort hd h0
  obtain ⟨i1, -⟩ := ops_spec hq hcc hcol hsort hd i0 o0 hf hl
  obtain ⟨d1', e1, k1⟩ := C06_detection c.G hcc false hs1.1.conns
  rw [hd1, Res.ok.injEq] at e1
  subst e1
  obtain ⟨d2', e2, k2⟩ := C06_detection c.G hcc false hf2.conns
  rw [hd2, Res.ok.injEq] at e2
  subst e2
  -- the state after output
  have key : ∃ st1, look c adv a s1 st = .ok st1 ∧ Alike (trackAll c false s2 st1) (trackAll c false s2 st) := by
    unfold look
    split
    · obtain ⟨a1, a2, a3, a4⟩ := track_follow hq (trackPre_of hcc i1 hs1.2 k1) c1
      have hb := base_track hq k1 hs1.1 i1 hs1.2 a1
      rw [hs1.2] at hb
      have i2 := inv_of_base hb (extractActive (trackMatch c.G c.query c.track st.tr d1 st.n).1.grains)
      refine ⟨⟨(trackMatch c.G c.query c.track st.tr d1 st.n).1, extractActive (trackMatch c.G c.query c.track st.tr d1 st.n).1.grains,
        s1.pids, st.n⟩, ?_, ?_⟩
      · unfold trackAll
        rw [hd1]
        simp only [Res.bind]
        rw [a1]
        rfl
      · have hc := continues_output c1 c2 a4
        obtain ⟨b1, b2, b3, b4⟩ := track_follow hq (trackPre_of hcc i2 hn2 k2) hc
        obtain ⟨g1, g2, g3, g4⟩ := track_follow hq (trackPre_of hcc i1 hn2 k2) c12
        unfold trackAll
        rw [hd2]
        simp only [Res.bind] at b1 b2 b3 b4 ⊢
        rw [b1, g1]
        refine assign_alike c false false _ _ ?_ (by rw [b3, g3]) _ _
        refine OMap.ext (sorted_plain b2) (sorted_plain g2) fun k => ?_
        rw [get_plain, get_plain]
        apply Option.ext
        intro R
        simp only [Option.map_eq_some_iff, b4, g4]
        constructor
        · rintro ⟨R', ⟨g, G, q1, q2, q3⟩, rfl⟩
          exact ⟨_, ⟨g, G, q1, q2, rfl⟩, by rw [q3]; rfl⟩
        · rintro ⟨R', ⟨g, G, q1, q2, q3⟩, rfl⟩
          exact ⟨_, ⟨g, G, q1, q2, rfl⟩, by rw [q3]; rfl⟩
    · exact ⟨st, rfl, rfl⟩
  obtain ⟨st1, l1, hal⟩ := key
  have hr := after_alike c s2' hal
  have one : ∀ (st : Cycle.State P K), ops c adv [.run s2 s2'] st = (trackAll c false s2 st).bind (after c s2') := by
    intro st
    have : ops c adv [.run s2 s2'] st = (runTracker c false s2 s2' st).bind fun x => .ok x := rfl
    rw [this]
    unfold runTracker
    rw [if_neg (by simp)]
    cases (trackAll c false s2 st).bind (after c s2') <;> rfl
  have o1 : ops c adv [.output a s1, .run s2 s2'] st = (trackAll c false s2 st1).bind (after c s2') := by
    have : ops c adv [.output a s1, .run s2 s2'] st = (look c adv a s1 st).bind (ops c adv [.run s2 s2']) := rfl
    rw [this, l1, ← one]
    rfl
  have o2 := one st
  rw [o1, o2]
  revert hr
  generalize (trackAll c false s2 st1).bind (after c s2') = x
  generalize (trackAll c false s2 st).bind (after c s2') = y
  intro hr
  cases x with
  | ok x =>
    cases y with
    | ok y =>
      simp only [Res.bind, Res.ok.injEq] at hr
      exact .inl ⟨x, y, rfl, rfl, hr⟩
    | exc e => cases hr
    | ub => cases hr
  | exc e =>
    cases y with
    | ok y => cases hr
    | exc e' =>
      simp only [Res.bind, Res.exc.injEq] at hr
      exact .inr ⟨.exc e, rfl, by rw [hr], by simp⟩
    | ub => cases hr
  | ub =>
    cases y with
    | ok y => cases hr
    | exc e => cases hr
    | ub => exact .inr ⟨.ub, rfl, rfl, by simp⟩

end

namespace Ex142

open Ex06 Ex137

def conf (allowNew : Bool) : Conf ℚ ℚ :=
  ⟨gQ, ccExec, ask, ⟨1/2, allowNew⟩, ⟨0, 1, 10, true, greedyColor, sortDesc⟩, false, true, false⟩

/-- One order parameter with particles at these places, two cells. -/
def at' (l : List ℚ) : Seen ℚ ℚ := ⟨[⟨l.map segQ, []⟩], [[if l = [] then none else some 0, none]]⟩

def stats : Ask := ⟨false, false, true, false⟩

/-- After a reassignment without looking again (`Ex137.C137_throws_violated`) output finds the grain where it is now. -/
example : ((runTracker (Ex137.conf false) true seen seen' (start 1)).bind fun st => (look (Ex137.conf false) false stats seen' st).bind fun st' =>
      .ok (table st', grainAt st' 1 3, number st' 1 3)) = .ok ([(0, 0, 0), (1, 1, 1)], .ok (some (some 1, 0)), .ok (some 1)) := by decide +kernel

/-- Numbers and places of the grains after the initial run and the operations. -/
def result (allowNew : Bool) (l0 : List ℚ) (l : List (Op ℚ ℚ)) : Res (List (Nat × List ℚ)) :=
  (runTracker (conf allowNew) true (at' l0) (at' l0) (start 1)).bind fun st =>
    (ops (conf allowNew) false l st).bind fun st' => .ok (st'.tr.grains.map fun p => (p.1, p.2.segments.map (·.center)))

/-- A small particle that comes and goes: with output the simulation ends, without it the next run of the tracker finds everything in order. -/
theorem C142_ends_violated :
    result false [0] [.output stats (at' [0, 10]), .run (at' [0]) (at' [0])] = .exc .grainsInconsistency ∧
    result false [0] [.run (at' [0]) (at' [0])] = .ok [(0, [0])] := by decide +kernel

/-- A grain that moves: with output it keeps its number, without it gets another one. -/
theorem C142_numbers_violated :
    result true [0] [.output stats (at' [3/2]), .run (at' [3]) (at' [3])] = .ok [(0, [3])] ∧
    result true [0] [.run (at' [3]) (at' [3])] = .ok [(1, [3])] := by decide +kernel

/-- Grains whose remains the old remapping clears after the operations. -/
def cleared (l0 : List ℚ) (l : List (Op ℚ ℚ)) : Res (List Nat) :=
  (runTracker (conf true) true (at' l0) (at' l0) (start 1)).bind fun st =>
    (ops (conf true) false l st).bind fun st' => .ok ((RemapOld.disappeared st'.tr.oldGrains st'.tr.grains).map (·.1))

/-- A grain that disappears: the old remapping clears what is left of it (tracker.h:703-740), but not if there was an output in between. -/
theorem C142_remains_violated :
    cleared [0, 10] [.run (at' [0]) (at' [0])] = .ok [1] ∧
    cleared [0, 10] [.output stats (at' [0]), .run (at' [0]) (at' [0])] = .ok [] := by decide +kernel

/-- Two grains touch. -/
def touching (o g : Grain ℚ ℚ) : Bool := g.segments.any fun s => o.segments.any fun t => decide (meets (t.center, t.radius) (s.center, s.radius))

theorem touching_iff (o g : Grain ℚ ℚ) : touching o g = true ↔ Touch meets o g := by
  unfold touching Touch
  simp only [List.any_eq_true, decide_eq_true_eq]

/-- Grains that continue under the same numbers. -/
theorem continues_of {old new : OMap (Grain ℚ ℚ)} (hs : old.Sorted)
    (h1 : ∀ p ∈ new, ∃ q ∈ old, q.1 = p.1 ∧ q.2.op = p.2.op ∧ touching q.2 p.2 = true)
    (h2 : ∀ p ∈ new, ∀ q ∈ old, q.2.op = p.2.op → touching q.2 p.2 = true → q.1 = p.1) : Continues meets (fun g => g) old new := by
  refine ⟨?_, ?_, fun g g' G G' _ _ h => h⟩
  · intro g G hg
    obtain ⟨q, q1, q2, q3, q4⟩ := h1 (g, G) (OMap.mem_of_get? hg)
    refine ⟨q.2, ?_, q3, (touching_iff _ _).1 q4⟩
    rw [← show q.1 = g from q2]
    exact OMap.get?_of_mem hs q1
  · intro g G o O hg ho h3 h4
    exact h2 (g, G) (OMap.mem_of_get? hg) (o, O) (OMap.mem_of_get? ho) h3 ((touching_iff _ _).2 h4)

theorem fits_at (l : List ℚ) : Fits (at' l) := by
  refine ⟨rfl, ?_, ?_⟩
  · intro b row x hr hx p hp
    unfold at' at hr hx
    cases b with
    | succ b => simp at hr
    | zero =>
      simp only [List.getElem?_cons_zero, Option.some.injEq] at hr hx
      subst hr; subst hx
      by_cases hl : l = []
      · simp [hl] at hp
      · simp [hl] at hp
        subst hp
        simpa [List.length_pos_iff] using hl
  · intro x hx c hc
    unfold at' at hx
    simp only [List.mem_singleton] at hx
    subst hx
    cases hc

/-- The hypotheses of `continues_of`. -/
def follows (old new : OMap (Grain ℚ ℚ)) : Bool :=
  decide old.Sorted && (new.all fun p => old.any fun q => q.1 == p.1 && q.2.op == p.2.op && touching q.2 p.2) &&
    (new.all fun p => old.all fun q => !(q.2.op == p.2.op && touching q.2 p.2) || q.1 == p.1)

theorem continues_of_follows {old new : OMap (Grain ℚ ℚ)} (h : follows old new = true) : Continues meets (fun g => g) old new := by
  unfold follows at h
  simp only [Bool.and_eq_true, List.all_eq_true, List.any_eq_true, beq_iff_eq, Bool.or_eq_true, Bool.not_eq_true', Bool.and_eq_false_iff] at h
  obtain ⟨⟨h1, h2⟩, h3⟩ := h
  refine continues_of (of_decide_eq_true h1) (fun p hp => ?_) (fun p hp q hq e1 e2 => ?_)
  · obtain ⟨q, q1, ⟨q2, q3⟩, q4⟩ := h2 p hp
    exact ⟨q, q1, q2, q3, q4⟩
  · rcases h3 p hp q hq with h | h
    · rcases h with h | h
      · simp [e1] at h
      · rw [e2] at h; cases h
    · exact h

/-- Grains at 0 and 10, of which the first moves. -/
def checked : Bool :=
  match runTracker (conf false) true (at' [0, 10]) (at' [0, 10]) (start 1), detectGrains gQ ccExec false (at' [1/2, 10]).ops,
    detectGrains gQ ccExec false (at' [1, 10]).ops with
  | .ok st, .ok d1, .ok d2 => follows st.tr.grains d1.grains && follows d1.grains d2.grains && follows st.tr.grains d2.grains && st.n == 1
  | _, _, _ => false

/-- The hypotheses are met, and the results agree. -/
example : result false [0, 10] [.output stats (at' [1/2, 10]), .run (at' [1, 10]) (at' [1, 10])] = .ok [(0, [1]), (1, [10])] ∧
    result false [0, 10] [.run (at' [1, 10]) (at' [1, 10])] = .ok [(0, [1]), (1, [10])] ∧
    (∃ st st1 st2, Runs (conf false) st ∧ ops (conf false) false [.output stats (at' [1/2, 10]), .run (at' [1, 10]) (at' [1, 10])] st = .ok st1 ∧
      ops (conf false) false [.run (at' [1, 10]) (at' [1, 10])] st = .ok st2 ∧ Same st1 st2) := by
  have hres : result false [0, 10] [.run (at' [1, 10]) (at' [1, 10])] = .ok [(0, [1]), (1, [10])] := by decide +kernel
  refine ⟨by decide +kernel, hres, ?_⟩
  have h : checked = true := by decide +kernel
  unfold checked at h
  split at h
  · rename_i st d1 d2 e0 e1 e2
    simp only [Bool.and_eq_true, beq_iff_eq] at h
    obtain ⟨⟨⟨h1, h2⟩, h3⟩, hn⟩ := h
    have hruns := one (conf false) (at' [0, 10]) (at' [0, 10]) (fits_at _) (fits_at _) 1 1 rfl rfl (by decide +kernel) st e0
    rcases C142_same_partial (c := conf false) (adv := false) (l := []) (a := stats) (s1 := at' [1/2, 10]) (s2 := at' [1, 10])
      (s2' := at' [1, 10]) (f1 := fun g => g) (f2 := fun g => g)
      ask_contract ccExec_contract greedyColor_contract sortDesc_contract rfl hruns trivial rfl
      ⟨fits_at _, hn.symm⟩ (fits_at _) hn.symm e1 e2 (continues_of_follows h1) (continues_of_follows h2) (continues_of_follows h3)
      with ⟨st1, st2, a1, a2, a3⟩ | ⟨e, a1, a2, a3⟩
    · exact ⟨st, st1, st2, hruns, a1, a2, a3⟩
    · exfalso
      unfold result at hres
      rw [e0] at hres
      simp only [Res.bind] at hres
      rw [a2] at hres
      cases e with
      | ok x => exact a3 x rfl
      | exc e => cases hres
      | ub => cases hres
  · cases h

end Ex142

end Verif.Props
