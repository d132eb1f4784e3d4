import Verif.Spec.Retry
import Verif.Lemmas.OutTrack

set_option linter.unusedSectionVars false

namespace Verif.Retry

open Verif.Cycle Verif.Cycle.Spec Verif.Spec Verif.OutTrack Verif.OutTrack.Spec Verif.Retry.Spec Verif.Props

variable {P K : Type} [Field K] [LinearOrder K] {c : Conf P K} {inter : P × K → P × K → Prop}

/-- What a search leaves behind without new grains, whether it succeeds or not: exactly the matched grains. -/
theorem table_matched (hq : QueryContract inter c.query) {t : Tracker P K} {d : Detection P K} {n : Nat} (h : TrackPre t d n)
    (hnew : c.track.allowNew = false) :
    ∃ m, IsMatching c.G.dist inter (Grain.distanceCenters c.G) d.grains t.grains m ∧
      (trackMatch c.G c.query c.track t d n).1.grains.Sorted ∧
      (trackMatch c.G c.query c.track t d n).1.lookup = renamed (fun g => (m.get? g).join) d.lookup ∧
      (∀ k R, (trackMatch c.G c.query c.track t d n).1.grains.get? k = some R ↔ ∃ g G, d.grains.get? g = some G ∧ m.get? g = some (some k) ∧
        R = { G with grainId := k, dynamics := dynamicsOf (t.grains.get? k) G }) ∧
      ((trackMatch c.G c.query c.track t d n).2 = .ok () ∨ (trackMatch c.G c.query c.track t d n).2 = .exc .grainsInconsistency) ∧
      ((trackMatch c.G c.query c.track t d n).2 = .exc .grainsInconsistency ↔
        ∃ g G, d.grains.get? g = some G ∧ m.get? g = some none ∧ c.track.thresholdNew < G.maxValue) := by
  obtain ⟨m, hm1, -, hm2⟩ := transfer_core (G := c.G) hq h.newSorted h.oldSorted h.newOps h.oldOps
  obtain ⟨s, φ, hl, hI⟩ := track_core (cfg := c.track) h.oldSorted h.newSorted hm2
    (fun p hp => Nat.lt_of_lt_of_le (h.newOps p hp) h.lookupSize)
  have hmem : ∀ g G', (g, G') ∈ d.grains ↔ d.grains.get? g = some G' := fun g G' =>
    (OMap.get?_iff_mem h.newSorted).symm
  have hφ : ∀ g G, d.grains.get? g = some G → φ g = (m.get? g).join := by
    intro g G hg
    obtain ⟨v, hv⟩ := Option.isSome_iff_exists.1 ((hm2.total g).2 (by rw [hg]; rfl))
    rw [hv, Option.join_some]
    cases v with
    | some o => exact hI.matched g G o ((hmem g G).2 hg) hv
    | none =>
      by_cases ht : c.track.thresholdNew < G.maxValue
      · exact hI.invalid g G ((hmem g G).2 hg) hv ht hnew
      · exact hI.skipped g G ((hmem g G).2 hg) hv ht
  have hres : trackMatch c.G c.query c.track t d n =
      ({ grains := s.grains, oldGrains := t.grains, lookup := s.lookup },
        if s.nInvalid ≠ 0 then .exc .grainsInconsistency
        else if d.grains.length = s.grains.length + s.nSkipped then .ok ()
        else .exc .grainsInconsistency) := by
    unfold trackMatch
    rw [hm1]
    simp only [trackWith, hl]
    split
    · rfl
    · split <;> rfl
  obtain ⟨m', φ', -, hs', -, hl', -, -⟩ := trackMatch_spec c.G hq c.track h
  have htab : ∀ k R, s.grains.get? k = some R ↔ ∃ g G, d.grains.get? g = some G ∧ m.get? g = some (some k) ∧
        R = { G with grainId := k, dynamics := dynamicsOf (t.grains.get? k) G } := by
    intro k R
    rw [hI.table]
    constructor
    · rintro ⟨g, G, e1, e2, e3⟩
      have hg := (hmem g G).1 e1
      rw [hφ g G hg] at e2
      have e2' := Option.join_eq_some_iff.1 e2
      refine ⟨g, G, hg, e2', ?_⟩
      rw [e3, e2', Option.join_some, Option.bind_some]
    · rintro ⟨g, G, e1, e2, e3⟩
      refine ⟨g, G, (hmem g G).2 e1, ?_, ?_⟩
      · rw [hφ g G e1, e2, Option.join_some]
      · rw [e3, e2, Option.join_some, Option.bind_some]
  refine ⟨m, hm2, hs', ?_, ?_, ?_, ?_⟩
  · rw [hres]
    simp only
    apply List.ext_getElem?
    intro op
    by_cases hop : op < d.lookup.length
    · obtain ⟨h1, -⟩ := hI.look.2.2 op d.lookup[op] (by simp [hop])
      rw [h1]
      simp only [renamed, List.getElem?_map, List.getElem?_eq_getElem hop, Option.map_some]
      refine congrArg some (List.map_congr_left ?_)
      intro e he
      obtain ⟨g, G', e1, e2, e3⟩ := h.consistent op _ (List.getElem?_eq_getElem hop) e he
      have : d.grains.any (fun p => p.1 == g && p.2.op == op) = true := by
        rw [List.any_eq_true]
        exact ⟨(g, G'), OMap.mem_of_get? e2, by simp [e3]⟩
      rw [renPre, e1]
      simp [this, hφ g G' e2]
    · have h1 : s.lookup.length = d.lookup.length := hI.look.1
      rw [List.getElem?_eq_none (by omega), renamed, List.getElem?_eq_none (by simp; omega)]
  · rw [hres]; exact htab
  · rw [hres]
    simp only
    split
    · exact .inr rfl
    · split
      · exact .inl rfl
      · exact .inr rfl
  · rw [hres]
    simp only
    have hinv := hI.nInv
    have hcount := hI.count
    constructor
    · intro hx
      by_cases hz : s.nInvalid ≠ 0
      · obtain ⟨g, G, e1, e2, e3, -⟩ := hinv.1 hz
        exact ⟨g, G, (hmem g G).1 e1, e2, e3⟩
      · rw [if_neg hz] at hx
        have : s.nInvalid = 0 := by omega
        rw [if_pos (by omega)] at hx
        cases hx
    · rintro ⟨g, G, e1, e2, e3⟩
      rw [if_pos (hinv.2 ⟨g, G, (hmem g G).2 e1, e2, e3, hnew⟩)]

/-- The result of `track` with and without reassignment comes from the matched grains. -/
theorem assign_keys (hcol : ColorContract c.reassign.color) (hsort : SortContract c.reassign.sortBy) {force skip : Bool} {tr : Tracker P K}
    (hs : tr.grains.Sorted) {pids : List (List (Option Nat))} {n : Nat} {r : State P K × Bool × Bool}
    (h : assignOps c force skip tr pids n = .ok r) (k : Nat) : (r.1.tr.grains.get? k).isSome ↔ (tr.grains.get? k).isSome := by
  cases skip with
  | true =>
    rw [assignOps, if_pos rfl, Res.ok.injEq] at h
    subst h
    exact Iff.rfl
  | false =>
    rw [assignOps, if_neg (by simp)] at h
    obtain ⟨q, hq, hr⟩ := Res.bind_eq_ok.1 h
    rw [Res.ok.injEq] at hr
    subst hr
    obtain ⟨-, -, hkeys, -⟩ := C08_safe hcol hsort hs hq
    exact hkeys k

/-- What a search leaves behind. -/
theorem left_eq {s : Seen P K} {d : Detection P K} (hd : detectGrains c.G c.cc false s.ops = .ok d) (st : State P K) :
    left c s st = ⟨(trackMatch c.G c.query c.track st.tr d st.n).1, st.active, s.pids, st.n⟩ := by
  unfold left
  rw [hd]

/-- Grains and lookup left behind fit together. -/
theorem base_left (hq : QueryContract inter c.query) {s : Seen P K} {d : Detection P K} (h : IsDetection s.ops d) (hf : Fits s)
    {st : State P K} (hpre : TrackPre st.tr d st.n) (hn : s.ops.length = st.n) (hnew : c.track.allowNew = false) :
    Base (trackMatch c.G c.query c.track st.tr d st.n).1 s.pids st.n := by
  obtain ⟨m, hm, hs, hl, ht, -, -⟩ := table_matched hq hpre hnew
  refine ⟨hs, ?_, ?_, ?_⟩
  · intro k R hR
    obtain ⟨g, G, e1, -, rfl⟩ := (ht k R).1 hR
    rw [← hn]
    exact detected_ops h g G e1
  · intro b i g sg es hes he
    rw [hl, renamed, List.getElem?_map] at hes
    cases hes0 : d.lookup[b]? with
    | none => rw [hes0] at hes; cases hes
    | some es0 =>
      rw [hes0] at hes
      simp only [Option.map_some, Option.some.injEq] at hes
      subst hes
      rw [List.getElem?_map] at he
      cases he0 : es0[i]? with
      | none => rw [he0] at he; cases he
      | some e0 =>
        obtain ⟨g0, s0⟩ := e0
        rw [he0] at he
        simp only [Option.map_some, Option.some.injEq, Prod.mk.injEq] at he
        obtain ⟨hg, rfl⟩ := he
        cases g0 with
        | none => cases hg
        | some g0 =>
          simp only [Option.bind_some] at hg
          obtain ⟨R, r1, r2, r3⟩ := detected_entry h b i g0 s0 es0 hes0 he0
          exact ⟨_, (ht g _).2 ⟨g0, R, r1, Option.join_eq_some_iff.1 hg, rfl⟩, r2, r3⟩
  · intro b p row hrow hp
    obtain ⟨es, he, hlt⟩ := detected_cells h hf b p row hrow hp
    rw [hl, renamed, List.getElem?_map, he]
    exact ⟨_, rfl, by simpa using hlt⟩

/-- The matched grains were known. -/
theorem keys_left (hq : QueryContract inter c.query) {t : Tracker P K} {d : Detection P K} {n : Nat} (hpre : TrackPre t d n)
    (hnew : c.track.allowNew = false) (k : Nat) (h : ((trackMatch c.G c.query c.track t d n).1.grains.get? k).isSome) :
    (t.grains.get? k).isSome := by
  obtain ⟨m, hm, -, -, ht, -, -⟩ := table_matched hq hpre hnew
  obtain ⟨R, hR⟩ := Option.isSome_iff_exists.1 h
  obtain ⟨g, G, -, e2, -⟩ := (ht k R).1 hR
  obtain ⟨-, O, -, h2, -⟩ := hm.sound g k e2
  rw [h2]; rfl

/-- The state in which the tracker may look again. -/
theorem counted_spec (hcol : ColorContract c.reassign.color) (hsort : SortContract c.reassign.sortBy) (hd : c.reassign.diag = true)
    {tr : Tracker P K} {pids : List (List (Option Nat))} {n : Nat} (hb : Base tr pids n) {r : State P K × Bool × Bool}
    (h : assignOps c false false tr pids n = .ok r) : Inv (counted r) ∧ (counted r).n = r.1.active.length ∧ (counted r).tr = r.1.tr := by
  obtain ⟨a1, a2, a3, a4, -, a6, a7⟩ := assign_spec hcol hsort hd hb h
  obtain ⟨b1, b2, b3⟩ := a6 rfl
  have hn : (counted r).n = r.1.active.length := by
    unfold counted
    by_cases hx : r.2.2 = true
    · rw [if_pos hx]
    · rw [if_neg hx, a4]
      rw [b1] at hx
      simp at hx
      exact hx.symm
  have htr : (counted r).tr = r.1.tr := by unfold counted; split <;> rfl
  have hpids : (counted r).pids = r.1.pids := by unfold counted; split <;> rfl
  refine ⟨⟨by rw [htr]; exact a1, ?_, ?_, ?_⟩, hn, htr⟩
  · rw [htr, hn]; exact b2
  · rw [htr, a2]; exact a7
  · rw [htr, hpids, a2, a3]; exact hb.cells

/-- A successful call in parts. -/
theorem trackAll_parts (hcc : CCContract c.cc) {skip : Bool} {s : Seen P K} (hf : Fits s) {st : State P K} {r : State P K × Bool × Bool}
    (h : trackAll c skip s st = .ok r) : ∃ d, detectGrains c.G c.cc false s.ops = .ok d ∧ IsDetection s.ops d ∧
      (trackMatch c.G c.query c.track st.tr d st.n).2 = .ok () ∧
      assignOps c false skip (trackMatch c.G c.query c.track st.tr d st.n).1 s.pids st.n = .ok r := by
  unfold trackAll at h
  obtain ⟨d, hdet, h⟩ := Res.bind_eq_ok.1 h
  obtain ⟨u, hu, h⟩ := Res.bind_eq_ok.1 h
  obtain ⟨d', hd1, hd2⟩ := C06_detection c.G hcc false hf.conns
  rw [hd1, Res.ok.injEq] at hdet
  subst hdet
  exact ⟨d', hd1, hd2, hu, h⟩

/-- A successful call adds no grain. -/
theorem trackAll_keys (hq : QueryContract inter c.query) (hcc : CCContract c.cc) (hcol : ColorContract c.reassign.color)
    (hsort : SortContract c.reassign.sortBy) (hnew : c.track.allowNew = false) {skip : Bool} {s : Seen P K} (hf : Fits s) {st : State P K}
    (hi : Inv st) (hn : s.ops.length = st.n) {r : State P K × Bool × Bool} (h : trackAll c skip s st = .ok r) (k : Nat)
    (hk : (r.1.tr.grains.get? k).isSome) : (st.tr.grains.get? k).isSome := by
  obtain ⟨d, hd1, hd2, hu, ha⟩ := trackAll_parts hcc hf h
  have hpre := trackPre_of hcc hi hn hd2
  obtain ⟨m, hm, hs, -⟩ := table_matched hq hpre hnew
  exact keys_left hq hpre hnew k ((assign_keys hcol hsort hs ha k).1 hk)

/-- What an attempt leaves behind. -/
theorem try_spec (hq : QueryContract inter c.query) (hcc : CCContract c.cc) (hcol : ColorContract c.reassign.color)
    (hsort : SortContract c.reassign.sortBy) (hd : c.reassign.diag = true) (hnew : c.track.allowNew = false) {s s' : Seen P K} (hf : Fits s)
    (hf' : Fits s') {st : State P K} (hi : Inv st) (hn : s.ops.length = st.n)
    (hn' : ∀ r, trackAll c false s st = .ok r → s'.ops.length = r.1.active.length) :
    (∀ st', tryTrack c s s' st = .ok (.accepted st') → Inv st' ∧ ∀ k, (st'.tr.grains.get? k).isSome → (st.tr.grains.get? k).isSome) ∧
    (∀ st', tryTrack c s s' st = .ok (.rejected st') → Inv st' ∧ ∀ k, (st'.tr.grains.get? k).isSome → (st.tr.grains.get? k).isSome) := by
  have hlook : ∀ (s : Seen P K) (st : State P K), Fits s → Inv st → s.ops.length = st.n →
      Inv (left c s st) ∧ ∀ k, ((left c s st).tr.grains.get? k).isSome → (st.tr.grains.get? k).isSome := by
    intro s st hf hi hn
    obtain ⟨d, hd1, hd2⟩ := C06_detection c.G hcc false hf.conns
    have hpre := trackPre_of hcc hi hn hd2
    rw [left_eq hd1]
    exact ⟨inv_of_base (base_left hq hd2 hf hpre hn hnew) _, fun k hk => keys_left hq hpre hnew k hk⟩
  have hfirst : ∀ r, trackAll c false s st = .ok r → Inv (counted r) ∧ (counted r).n = r.1.active.length ∧
      (∀ k, ((counted r).tr.grains.get? k).isSome → (st.tr.grains.get? k).isSome) ∧
      ∀ st', after c s' r = .ok st' → Inv st' ∧ ∀ k, (st'.tr.grains.get? k).isSome → (st.tr.grains.get? k).isSome := by
    intro r hr
    obtain ⟨d, hd1, hd2, hu, ha⟩ := trackAll_parts hcc hf hr
    have hb := base_track hq hd2 hf hi hn hu
    rw [hn] at hb
    obtain ⟨c1, c2, c3⟩ := counted_spec hcol hsort hd hb ha
    have hkeys : ∀ k, ((counted r).tr.grains.get? k).isSome → (st.tr.grains.get? k).isSome := by
      intro k hk
      rw [c3] at hk
      exact trackAll_keys hq hcc hcol hsort hnew hf hi hn hr k hk
    refine ⟨c1, c2, hkeys, ?_⟩
    intro st' hst'
    refine ⟨(after_spec hq hcc hcol hsort hd hb ha hf' (hn' r hr) hst').1, ?_⟩
    unfold after at hst'
    by_cases hch : (r.2.1 || r.2.2) = true
    · rw [if_pos hch] at hst'
      change (if c.again = true then (trackAll c true s' (counted r)).bind fun q => .ok q.1 else .ok (counted r)) = .ok st' at hst'
      by_cases hag : c.again = true
      · rw [if_pos hag] at hst'
        obtain ⟨q, hq1, hq2⟩ := Res.bind_eq_ok.1 hst'
        rw [Res.ok.injEq] at hq2
        subst hq2
        intro k hk
        exact hkeys k (trackAll_keys hq hcc hcol hsort hnew hf' c1 (by rw [c2]; exact hn' r hr) hq1 k hk)
      · rw [if_neg hag, Res.ok.injEq] at hst'
        subst hst'
        exact hkeys
    · rw [if_neg hch, Res.ok.injEq] at hst'
      subst hst'
      rw [← c3]
      exact hkeys
  constructor
  · intro st' h
    unfold tryTrack at h
    split at h
    · rename_i r hr
      split at h
      · rename_i st1 h1
        rw [Res.ok.injEq, Tried.accepted.injEq] at h
        subst h
        exact (hfirst r hr).2.2.2 _ h1
      · cases h
      · cases h
      · cases h
    · cases h
    · cases h
    · cases h
  · intro st' h
    unfold tryTrack at h
    split at h
    · rename_i r hr
      split at h
      · cases h
      · rw [Res.ok.injEq, Tried.rejected.injEq] at h
        subst h
        obtain ⟨h1, h2, h3, -⟩ := hfirst r hr
        obtain ⟨k1, k2⟩ := hlook s' (counted r) hf' h1 (by rw [h2]; exact hn' r hr)
        exact ⟨k1, fun k hk => h3 k (k2 k hk)⟩
      · cases h
      · cases h
    · rw [Res.ok.injEq, Tried.rejected.injEq] at h
      subst h
      exact hlook s st hf hi hn
    · cases h
    · cases h

/-- Output for debugging adds no grain either. -/
theorem debug_spec (hq : QueryContract inter c.query) (hcc : CCContract c.cc) (hcol : ColorContract c.reassign.color)
    (hsort : SortContract c.reassign.sortBy) (hnew : c.track.allowNew = false) {dbg : Option (Ask × Seen P K)} {st st' : State P K} (hi : Inv st)
    (hf : ∀ a x, dbg = some (a, x) → Fits x ∧ x.ops.length = st.n) (h : debugOut c dbg st = .ok st') :
    Inv st' ∧ ∀ k, (st'.tr.grains.get? k).isSome → (st.tr.grains.get? k).isSome := by
  unfold debugOut at h
  split at h
  · rw [Res.ok.injEq] at h
    subst h
    exact ⟨hi, fun k hk => hk⟩
  · rename_i a x
    obtain ⟨f1, f2⟩ := hf a x rfl
    refine ⟨(look_spec hq hcc hi f1 f2 h).1, ?_⟩
    unfold look at h
    split at h
    · obtain ⟨q, h1, h2⟩ := Res.bind_eq_ok.1 h
      rw [Res.ok.injEq] at h2
      subst h2
      exact fun k hk => trackAll_keys hq hcc hcol hsort hnew f1 hi f2 h1 k hk
    · rw [Res.ok.injEq] at h
      subst h
      exact fun k hk => hk

/-- All attempts of a step. -/
theorem attempts_spec (hq : QueryContract inter c.query) (hcc : CCContract c.cc) (hcol : ColorContract c.reassign.color)
    (hsort : SortContract c.reassign.sortBy) (hd : c.reassign.diag = true) (hnew : c.track.allowNew = false) {dbg : Option (Ask × Seen P K)} :
    ∀ (l : List (Seen P K × Seen P K)) {st st' : State P K}, Inv st → FitTries c dbg l st → attempts c dbg l st = .ok st' →
      Inv st' ∧ ∀ k, (st'.tr.grains.get? k).isSome → (st.tr.grains.get? k).isSome
  | [], st, st', _, _, h => by cases h
  | (s, s') :: l, st, st', hi, hf, h => by
    obtain ⟨f1, f2, f3, f4, f5⟩ := hf
    obtain ⟨p1, p2⟩ := try_spec hq hcc hcol hsort hd hnew f1 f2 hi f3 f4
    unfold attempts at h
    obtain ⟨t, h1, h2⟩ := Res.bind_eq_ok.1 h
    cases t with
    | accepted st1 =>
      simp only [Res.ok.injEq] at h2
      subst h2
      exact p1 _ h1
    | rejected st1 =>
      obtain ⟨st2, h3, h4⟩ := Res.bind_eq_ok.1 h2
      obtain ⟨i1, k1⟩ := p2 _ h1
      obtain ⟨g1, g2⟩ := f5 _ h1
      obtain ⟨i2, k2⟩ := debug_spec hq hcc hcol hsort hnew i1 g1 h3
      obtain ⟨i3, k3⟩ := attempts_spec hq hcc hcol hsort hd hnew l i2 (g2 _ h3) h4
      exact ⟨i3, fun k hk => k1 k (k2 k (k3 k hk))⟩

/-- A first search that finds a particle above the threshold without match is rejected. -/
theorem try_rejects {s s' : Seen P K} {st : State P K} {d : Detection P K} (hd1 : detectGrains c.G c.cc false s.ops = .ok d)
    (h : (trackMatch c.G c.query c.track st.tr d st.n).2 = .exc .grainsInconsistency) :
    tryTrack c s s' st = .ok (.rejected (left c s st)) := by
  unfold tryTrack
  have : trackAll c false s st = .exc .grainsInconsistency := by
    unfold trackAll
    rw [hd1]
    simp only [Res.bind]
    rw [h]
  rw [this]

/-- Grains of a kind that touch no known grain are not matched. -/
theorem unmatched_kind {A : Grain P K → Prop} {old new : OMap (Grain P K)} {dist : P → P → K} {dc : Grain P K → Grain P K → K}
    {m : OMap (Option Nat)} (hm : IsMatching dist inter dc new old m)
    (h : ∀ g G, new.get? g = some G → A G → ∀ o O, old.get? o = some O → O.op = G.op → ¬ Touch inter O G) {g : Nat} {G : Grain P K}
    (hg : new.get? g = some G) (hA : A G) : m.get? g = some none := by
  obtain ⟨v, hv⟩ := Option.isSome_iff_exists.1 ((hm.total g).2 (by rw [hg]; rfl))
  cases v with
  | none => exact hv
  | some o =>
    exfalso
    obtain ⟨G', O, h1, h2, h3, h4, -⟩ := hm.sound g o hv
    rw [hg, Option.some.injEq] at h1
    subst h1
    exact h g G hg hA o O h2 h3 h4

/-- Once the grains of a kind are forgotten, every attempt in which one is seen is rejected. -/
theorem stuck (hq : QueryContract inter c.query) (hcc : CCContract c.cc) (hcol : ColorContract c.reassign.color)
    (hsort : SortContract c.reassign.sortBy) (hd : c.reassign.diag = true) (hnew : c.track.allowNew = false) {A : Grain P K → Prop}
    (all : List (Seen P K × Seen P K))
    (apart : ∀ x ∈ all, ∀ y ∈ all, ∀ dx dy, detectGrains c.G c.cc false x.1.ops = .ok dx → detectGrains c.G c.cc false y.1.ops = .ok dy →
      ∀ o O g G, dx.grains.get? o = some O → dy.grains.get? g = some G → A G → ¬ A O → O.op = G.op → ¬ Touch inter O G) :
    ∀ (l : List (Seen P K × Seen P K)) {st : State P K}, (∀ x ∈ l, x ∈ all) →
      (∀ x ∈ l, ∃ d g G, detectGrains c.G c.cc false x.1.ops = .ok d ∧ d.grains.get? g = some G ∧ A G ∧ c.track.thresholdNew < G.maxValue) →
      Inv st → FitTries c none l st →
      (∀ x l', l = x :: l' → ∀ d, detectGrains c.G c.cc false x.1.ops = .ok d → ∀ g G, d.grains.get? g = some G → A G →
        ∀ o O, st.tr.grains.get? o = some O → O.op = G.op → ¬ Touch inter O G) →
      attempts c none l st = .exc .assertThrow
  | [], st, _, _, _, _, _ => rfl
  | x :: l, st, hall, hseen, hi, hf, hfar => by
    obtain ⟨s, s'⟩ := x
    obtain ⟨f1, f2, f3, f4, f5⟩ := hf
    obtain ⟨d, g, G, q1, q2, q3, q4⟩ := hseen (s, s') (by simp)
    obtain ⟨d', hd1, hd2⟩ := C06_detection c.G hcc false f1.conns
    have q1' : detectGrains c.G c.cc false s.ops = .ok d := q1
    rw [hd1, Res.ok.injEq] at q1'
    subst q1'
    have hpre := trackPre_of hcc hi f3 hd2
    obtain ⟨m, hm, hs, hl, ht, -, hiff⟩ := table_matched hq hpre hnew
    have hfar1 := hfar (s, s') l rfl d' q1
    have hno := unmatched_kind hm hfar1 q2 q3
    have htry : tryTrack c s s' st = .ok (.rejected (left c s st)) := try_rejects hd1 (hiff.2 ⟨g, G, q2, hno, q4⟩)
    have h1 : attempts c none ((s, s') :: l) st = attempts c none l (left c s st) := by
      rw [attempts, htry]
      rfl
    rw [h1]
    refine stuck hq hcc hcol hsort hd hnew all apart l (fun x hx => hall x (by simp [hx])) (fun x hx => hseen x (by simp [hx]))
      ((try_spec hq hcc hcol hsort hd hnew f1 f2 hi f3 f4).2 _ htry).1 ((f5 _ htry).2 _ rfl) ?_
    intro y l' hy dy hdy g' G' e1 e2 o O ho hop
    rw [left_eq hd1] at ho
    obtain ⟨g0, G0, k1, k2, rfl⟩ := (ht o O).1 ho
    have hnA : ¬ A G0 := by
      intro hA
      have := unmatched_kind hm hfar1 k1 hA
      rw [k2] at this
      cases this
    exact apart (s, s') (hall _ (by simp)) y (hall y (by simp [hy])) d' dy q1 hdy g0 G0 g' G' k1 e1 e2 hnA hop

/-- Not an inconsistency. -/
def Fine {α : Type} (x : Res α) : Prop := x ≠ .exc .grainsInconsistency

theorem fine_bind {α β : Type} {x : Res α} {f : α → Res β} (hx : Fine x) (hf : ∀ a, Fine (f a)) : Fine (x >>= f) := by
  cases x with
  | ok a => exact hf a
  | exc e => exact fun h => hx (by have h' : (Res.exc e : Res β) = .exc .grainsInconsistency := h; cases h'; rfl)
  | ub => exact fun h => by have h' : (Res.ub : Res β) = .exc .grainsInconsistency := h; cases h'

theorem fine_ok {α : Type} (a : α) : Fine (Res.ok a) := fun h => by cases h

theorem fine_assert (b : Bool) : Fine (Res.assertThrow b) := by
  unfold Res.assertThrow Fine
  split <;> simp

theorem fine_foldlM {α β : Type} {f : β → α → Res β} (hf : ∀ b a, Fine (f b a)) : ∀ (l : List α) (b : β), Fine (l.foldlM f b)
  | [], b => fine_ok b
  | a :: l, b => by rw [List.foldlM_cons]; exact fine_bind (hf b a) fun b' => fine_foldlM hf l b'

theorem fine_mapM {α β : Type} {f : α → Res β} (hf : ∀ a, Fine (f a)) : ∀ l : List α, Fine (l.mapM f)
  | [] => fine_ok []
  | a :: l => by rw [List.mapM_cons]; exact fine_bind (hf a) fun b => fine_bind (fine_mapM hf l) fun _ => fine_ok _

theorem fine_index {α : Type} (l : List α) (i : Nat) : Fine (Res.index l i) := by
  unfold Res.index Fine
  split <;> simp

theorem fine_at {α : Type} (x : Option α) : Fine (Res.at? x) := by
  cases x <;> simp [Fine]

theorem fine_full (G : Geometry P K) (cfg : ReassignCfg K) (gs : OMap (Grain P K)) : Fine (fullColor G cfg gs) := by
  unfold fullColor
  exact fine_bind (fine_assert _) fun _ => fine_ok _

theorem fine_recolor (G : Geometry P K) (cfg : ReassignCfg K) (force fast : Bool) (gs : OMap (Grain P K)) : Fine (recolor G cfg force fast gs) := by
  unfold recolor
  dsimp only
  split
  · split
    · split
      · exact fine_full G cfg gs
      · exact fine_ok _
    · exact fine_full G cfg gs
  · exact fine_ok _

theorem fine_neighbors (G : Geometry P K) (gs : OMap (Grain P K)) : Fine (buildNeighbors G gs) := by
  unfold buildNeighbors
  refine fine_mapM (fun p => fine_bind ?_ fun _ => fine_ok _) gs
  unfold neighborsOf
  refine fine_foldlM (fun b o => ?_) gs p.2
  split
  · unfold addNeighbor
    exact fine_bind (fine_assert _) fun _ => fine_ok _
  · exact fine_ok _

theorem fine_dangling (gs : OMap (Grain P K)) (act : List Nat) (n : Nat) : Fine (removeDangling gs act n) := by
  unfold removeDangling
  cases act.getLast? with
  | none => exact fun h => by cases h
  | some mx =>
    refine fine_bind (fine_assert _) fun _ => ?_
    split
    · refine fine_bind ?_ fun offs => fine_bind (fine_mapM (fun p => fine_bind (fine_at _) fun _ => fine_ok _) gs) fun _ => fine_ok _
      unfold idsOffsets
      exact fine_foldlM (fun b o => fine_bind (fine_index _ _) fun _ => fine_ok _) _ _
    · exact fine_ok _

/-- The reassignment reports no inconsistency. -/
theorem assign_no_inconsistency {force skip : Bool} {tr : Tracker P K} {pids : List (List (Option Nat))} {n : Nat}
    (h : assignOps c force skip tr pids n = .exc .grainsInconsistency) : False := by
  have hr : Fine (reassignGrains c.G c.reassign force c.fast tr.grains) := by
    unfold reassignGrains
    refine fine_bind (fine_recolor _ _ _ _ _) fun _ => fine_bind (fine_neighbors _ _) fun _ => fine_bind (fine_dangling _ _ _) fun _ => fine_ok _
  unfold assignOps at h
  split at h
  · cases h
  · cases hx : reassignGrains c.G c.reassign force c.fast tr.grains with
    | ok a => rw [hx] at h; cases h
    | exc e => rw [hx] at h; simp only [Res.bind] at h; injection h with h; subst h; exact hr hx
    | ub => rw [hx] at h; cases h

theorem matched_of_partly {f : Nat → Option Nat} {old new : OMap (Grain P K)} (hc : Partly inter f old new) {dist : P → P → K}
    {dc : Grain P K → Grain P K → K} {m : OMap (Option Nat)} (hm : IsMatching dist inter dc new old m) {g : Nat} {G : Grain P K}
    (hg : new.get? g = some G) : m.get? g = some (f g) := by
  obtain ⟨v, hv⟩ := Option.isSome_iff_exists.1 ((hm.total g).2 (by rw [hg]; rfl))
  cases v with
  | some o =>
    obtain ⟨G', O, h1, h2, h3, h4, -⟩ := hm.sound g o hv
    rw [hg, Option.some.injEq] at h1
    subst h1
    rw [hv, hc.only g G o O hg h2 h3 h4]
  | none =>
    cases hfg : f g with
    | none => exact hv
    | some o0 =>
      exfalso
      rcases hm.unmatched g G hg hv with h | ⟨o, O, g', G', h1, h2, h3, h4, h5, h6, -⟩
      · obtain ⟨O, h1, h2, h3⟩ := hc.touches g G o0 hg hfg
        exact h o0 O h1 h2 h3
      · have e1 := hc.only g G o O hg h1 h2 h3.1
        obtain ⟨G'', O', k1, k2, k3, k4, -⟩ := hm.sound g' o h6
        rw [h4, Option.some.injEq] at k1
        subst k1
        have e2 := hc.only g' G' o O' h4 k2 k3 k4
        exact h5 (hc.inj g' g G' G o h4 hg e2 e1)

/-- The last attempt from states with the same result of the search. -/
theorem last_alike {s : Seen P K} (s' : Seen P K) {st st' : State P K} (hal : Alike (trackAll c false s st) (trackAll c false s st')) :
    ((∃ r1 r2, attempts c none [(s, s')] st = .ok r1 ∧ attempts c none [(s, s')] st' = .ok r2 ∧ Same r1 r2) ∨
      ∃ e, attempts c none [(s, s')] st = e ∧ attempts c none [(s, s')] st' = e ∧ ∀ x, e ≠ .ok x) := by
  have hr := after_alike c s' hal
  have one : ∀ st : State P K, attempts c none [(s, s')] st = match (trackAll c false s st).bind (after c s') with
      | .ok x => .ok x
      | .exc .grainsInconsistency => .exc .assertThrow
      | .exc e => .exc e
      | .ub => .ub := by
    intro st
    rw [attempts, tryTrack]
    cases trackAll c false s st with
    | ok r =>
      simp only [Res.bind]
      cases after c s' r with
      | ok x => rfl
      | exc e => cases e <;> rfl
      | ub => rfl
    | exc e => cases e <;> rfl
    | ub => rfl
  rw [one, one]
  revert hr
  generalize (trackAll c false s st).bind (after c s') = x
  generalize (trackAll c false s st').bind (after c s') = y
  intro hr
  cases x with
  | ok x =>
    cases y with
    | ok y =>
      simp only [Res.bind, Res.ok.injEq] at hr
      exact .inl ⟨x, y, rfl, rfl, hr⟩
    | exc e => cases hr
    | ub => cases hr
  | exc e =>
    cases y with
    | ok y => cases hr
    | exc e' =>
      simp only [Res.bind, Res.exc.injEq] at hr
      subst hr
      right
      cases e <;> exact ⟨_, rfl, rfl, by simp⟩
    | ub => cases hr
  | ub =>
    cases y with
    | ok y => cases hr
    | exc e => cases hr
    | ub => exact .inr ⟨.ub, rfl, rfl, by simp⟩

end Verif.Retry
