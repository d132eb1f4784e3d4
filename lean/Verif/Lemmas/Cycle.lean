import Verif.Spec.Cycle
import Verif.Props.Reassign

set_option linter.unusedSectionVars false

namespace Verif.Cycle

open Verif.Spec Verif.Cycle.Spec Verif.Props

variable {P K : Type} [Field K] [LinearOrder K]

/-- Grains and lookup as they are after a search, before any reassignment. -/
structure Base (tr : Tracker P K) (pids : List (List (Option Nat))) (n : Nat) : Prop where
  sorted : tr.grains.Sorted
  ops : ∀ k R, tr.grains.get? k = some R → R.op < n ∧ R.oldOp = R.op
  entry : ∀ (b i g s : Nat) (es : List (Option Nat × Nat)), tr.lookup[b]? = some es → es[i]? = some (some g, s) →
    ∃ R, tr.grains.get? g = some R ∧ R.oldOp = b ∧ s < R.segments.length
  cells : ∀ (b p : Nat) (row : List (Option Nat)), pids[b]? = some row → some p ∈ row →
    ∃ es, tr.lookup[b]? = some es ∧ p < es.length

/-- The state after a run of the tracker. -/
structure Inv (st : State P K) : Prop where
  sorted : st.tr.grains.Sorted
  ops : ∀ k R, st.tr.grains.get? k = some R → R.op < st.n
  entry : ∀ (b i g s : Nat) (es : List (Option Nat × Nat)), st.tr.lookup[b]? = some es → es[i]? = some (some g, s) →
    ∃ R, st.tr.grains.get? g = some R ∧ R.oldOp = b ∧ s < R.segments.length
  cells : ∀ (b p : Nat) (row : List (Option Nat)), st.pids[b]? = some row → some p ∈ row →
    ∃ es, st.tr.lookup[b]? = some es ∧ p < es.length

theorem detected_ops {ops : List (OpParticles P K)} {d : Detection P K} (h : IsDetection ops d) (g : Nat) (R : Grain P K)
    (hR : d.grains.get? g = some R) : R.op < ops.length ∧ R.oldOp = R.op := by
  have hne := h.nonempty g R hR
  have h0 : 0 < R.segments.length := List.length_pos_iff.2 hne
  obtain ⟨op, i, row, h1, h2⟩ := h.segment g 0 R R.segments[0] hR (by simp [h0])
  obtain ⟨a1, -⟩ := List.getElem?_eq_some_iff.1 h1
  obtain ⟨a2, -⟩ := List.getElem?_eq_some_iff.1 h2
  have hop : op < ops.length := by rw [← h.rows]; exact a1
  have hc := h.cols op ops[op] row (by simp [hop]) h1
  obtain ⟨g', s', G', q1, q2, q3, q4, -⟩ := h.entry op i ops[op] row (ops[op].parts[i]'(by omega))
    (by simp [hop]) h1 (List.getElem?_eq_getElem _)
  rw [h2] at q1
  simp only [Option.some.injEq, Prod.mk.injEq] at q1
  rw [q1.1.symm] at q2
  rw [hR] at q2; simp at q2; subst q2
  rw [q3, q4]; exact ⟨hop, rfl⟩

theorem detected_entry {ops : List (OpParticles P K)} {d : Detection P K} (h : IsDetection ops d) (b i g s : Nat)
    (es : List (Option Nat × Nat)) (hes : d.lookup[b]? = some es) (he : es[i]? = some (some g, s)) :
    ∃ R, d.grains.get? g = some R ∧ R.oldOp = b ∧ s < R.segments.length := by
  obtain ⟨a1, -⟩ := List.getElem?_eq_some_iff.1 hes
  obtain ⟨a2, -⟩ := List.getElem?_eq_some_iff.1 he
  have hop : b < ops.length := by rw [← h.rows]; exact a1
  have hc := h.cols b ops[b] es (by simp [hop]) hes
  obtain ⟨g', s', R, q1, q2, q3, q4, q5⟩ := h.entry b i ops[b] es (ops[b].parts[i]'(by omega))
    (by simp [hop]) hes (List.getElem?_eq_getElem _)
  rw [he] at q1
  simp only [Option.some.injEq, Prod.mk.injEq] at q1
  obtain ⟨rfl, rfl⟩ := q1
  exact ⟨R, q2, q4, (List.getElem?_eq_some_iff.1 q5).1⟩

theorem detected_cells {s : Seen P K} {d : Detection P K} (h : IsDetection s.ops d) (hf : Fits s) (b p : Nat)
    (row : List (Option Nat)) (hrow : s.pids[b]? = some row) (hp : some p ∈ row) :
    ∃ es, d.lookup[b]? = some es ∧ p < es.length := by
  obtain ⟨a1, -⟩ := List.getElem?_eq_some_iff.1 hrow
  have hop : b < s.ops.length := by rw [← hf.rows]; exact a1
  have hl : b < d.lookup.length := by rw [h.rows]; exact hop
  refine ⟨d.lookup[b], List.getElem?_eq_getElem hl, ?_⟩
  rw [h.cols b s.ops[b] d.lookup[b] (List.getElem?_eq_getElem hop) (List.getElem?_eq_getElem hl)]
  exact hf.parts b row s.ops[b] hrow (List.getElem?_eq_getElem hop) p hp

theorem base_setup {s : Seen P K} {d : Detection P K} (h : IsDetection s.ops d) (hf : Fits s) :
    Base ⟨d.grains, [], d.lookup⟩ s.pids s.ops.length where
  sorted := h.sorted
  ops := detected_ops h
  entry := detected_entry h
  cells := detected_cells h hf

theorem base_track {c : Conf P K} {inter : P × K → P × K → Prop} (hq : QueryContract inter c.query) {s : Seen P K}
    {d : Detection P K} (h : IsDetection s.ops d) (hf : Fits s) {st : State P K} (hi : Inv st) (hn : s.ops.length = st.n)
    (hok : (trackMatch c.G c.query c.track st.tr d st.n).2 = .ok ()) :
    Base (trackMatch c.G c.query c.track st.tr d st.n).1 s.pids s.ops.length := by
  have hpre : TrackPre st.tr d s.ops.length :=
    C06_establishes_track_precondition h hi.sorted
      (fun p hp => by rw [hn]; exact hi.ops p.1 p.2 (OMap.get?_of_mem hi.sorted hp))
  rw [← hn] at hok ⊢
  have hok' : trackMatch c.G c.query c.track st.tr d s.ops.length =
      ((trackMatch c.G c.query c.track st.tr d s.ops.length).1, .ok ()) := Prod.ext rfl hok
  obtain ⟨m, φ, hm, hs, -, hl, h1, h2⟩ := trackMatch_spec c.G hq c.track hpre
  have hT := (h1 (by
    cases ha : c.track.allowNew with
    | true => exact Or.inl rfl
    | false =>
      right
      intro g G' e1 e2 e3
      have := h2 ⟨ha, g, G', e1, e2, e3⟩
      rw [hok] at this
      simp at this)).2
  refine ⟨hs, ?_, ?_, ?_⟩
  · intro k R hR
    obtain ⟨g, G', e1, -, rfl⟩ := (hT.table k R).1 hR
    exact detected_ops h g G' e1
  · intro b i g sg es hes he
    rw [hl, renamed, List.getElem?_map] at hes
    cases hes0 : d.lookup[b]? with
    | none => rw [hes0] at hes; cases hes
    | some es0 =>
      rw [hes0] at hes
      simp only [Option.map_some, Option.some.injEq] at hes
      subst hes
      rw [List.getElem?_map] at he
      cases he0 : es0[i]? with
      | none => rw [he0] at he; cases he
      | some e0 =>
        obtain ⟨g0, s0⟩ := e0
        rw [he0] at he
        simp only [Option.map_some, Option.some.injEq, Prod.mk.injEq] at he
        obtain ⟨hg, rfl⟩ := he
        cases g0 with
        | none => cases hg
        | some g0 =>
          simp only [Option.bind_some] at hg
          obtain ⟨R, r1, r2, r3⟩ := detected_entry h b i g0 s0 es0 hes0 he0
          exact ⟨_, (hT.table g _).2 ⟨g0, R, r1, hg, rfl⟩, r2, r3⟩
  · intro b p row hrow hp
    obtain ⟨es, he, hlt⟩ := detected_cells h hf b p row hrow hp
    rw [hl, renamed, List.getElem?_map, he]
    exact ⟨_, rfl, by simpa using hlt⟩

/-- What the reassignment makes of it. -/
theorem assign_spec {c : Conf P K} (hcol : ColorContract c.reassign.color) (hsort : SortContract c.reassign.sortBy)
    (hd : c.reassign.diag = true) {force skip : Bool} {tr : Tracker P K} {pids : List (List (Option Nat))} {n : Nat}
    (hb : Base tr pids n) {r : State P K × Bool × Bool} (h : assignOps c force skip tr pids n = .ok r) :
    r.1.tr.grains.Sorted ∧ r.1.tr.lookup = tr.lookup ∧ r.1.pids = pids ∧ r.1.n = n ∧
    (skip = true → r.1.tr = tr) ∧
    (skip = false → (r.2.2 = (r.1.active.length != n)) ∧
      (∀ k R, r.1.tr.grains.get? k = some R → R.op < r.1.active.length) ∧
      (r.2.1 = false → ∀ k R, r.1.tr.grains.get? k = some R → R.op = R.oldOp)) ∧
    (∀ (b i g s : Nat) (es : List (Option Nat × Nat)), tr.lookup[b]? = some es → es[i]? = some (some g, s) →
      ∃ R, r.1.tr.grains.get? g = some R ∧ R.oldOp = b ∧ s < R.segments.length) := by
  cases skip with
  | true =>
    rw [assignOps, if_pos rfl, Res.ok.injEq] at h
    subst h
    exact ⟨hb.sorted, rfl, rfl, rfl, fun _ => rfl, fun h => (by cases h), hb.entry⟩
  | false =>
    rw [assignOps, if_neg (by simp)] at h
    obtain ⟨q, hq, hr⟩ := Res.bind_eq_ok.1 h
    rw [Res.ok.injEq] at hr
    subst hr
    obtain ⟨hsafe, hsr, hkeys, hsame⟩ := C08_safe hcol hsort hb.sorted hq
    have back : ∀ k R, q.grains.get? k = some R → ∃ R0, tr.grains.get? k = some R0 ∧
        R = { R0 with op := R.op, nearest := R.nearest } := by
      intro k R hR
      obtain ⟨R0, h0⟩ := Option.isSome_iff_exists.1 ((hkeys k).1 (by rw [hR]; rfl))
      exact ⟨R0, h0, hsame k R0 R h0 hR⟩
    refine ⟨hsr, rfl, rfl, rfl, fun h => (by cases h), fun _ => ⟨rfl, ?_, ?_⟩, ?_⟩
    · intro k R hR
      obtain ⟨R0, h0, -⟩ := back k R hR
      have hne : 0 < tr.grains.length := by
        cases hg : tr.grains with
        | nil => rw [hg] at h0; cases h0
        | cons a l => simp
      exact ((C09_gap_free hcol hsort hb.sorted hne (.inl hd) hq).1 R.op).1 ⟨k, R, hR, rfl⟩
    · intro hf k R hR
      obtain ⟨R0, h0, e⟩ := back k R hR
      have hne : 0 < tr.grains.length := by
        cases hg : tr.grains with
        | nil => rw [hg] at h0; cases h0
        | cons a l => simp
      have h1 := C09_flag hcol hsort hb.sorted hne hq hf h0 hR
      have h2 := (hb.ops k R0 h0).2
      have h3 : R.oldOp = R0.oldOp := by rw [e]
      rw [h1, h3, h2]
    · intro b i g s es hes he
      obtain ⟨R0, h0, h1, h2⟩ := hb.entry b i g s es hes he
      obtain ⟨R, hR⟩ := Option.isSome_iff_exists.1 ((hkeys g).2 (by rw [h0]; rfl))
      have e := hsame g R0 R h0 hR
      exact ⟨R, hR, by rw [e]; exact h1, by rw [e]; exact h2⟩

variable {c : Conf P K}

theorem inv_of_base {tr : Tracker P K} {pids : List (List (Option Nat))} {n : Nat} (hb : Base tr pids n) (act : List Nat) :
    Inv (⟨tr, act, pids, n⟩ : State P K) :=
  ⟨hb.sorted, fun k R h => (hb.ops k R h).1, hb.entry, hb.cells⟩

/-- The end of a run: the invariant, and every grain is where it was seen if the tracker looked again. -/
theorem after_spec {inter : P × K → P × K → Prop} (hq : QueryContract inter c.query) (hcc : CCContract c.cc)
    (hcol : ColorContract c.reassign.color) (hsort : SortContract c.reassign.sortBy)
    (hd : c.reassign.diag = true) {force : Bool} {tr : Tracker P K} {pids : List (List (Option Nat))} {n : Nat}
    (hb : Base tr pids n) {r : State P K × Bool × Bool} (h : assignOps c force false tr pids n = .ok r) {s' : Seen P K}
    (hf' : Fits s') (hs' : s'.ops.length = r.1.active.length) {st : State P K} (ha : after c s' r = .ok st) :
    Inv st ∧ (c.again = true → ∀ k R, st.tr.grains.get? k = some R → R.op = R.oldOp) ∧
      (r.2.1 = false → ∀ k R, st.tr.grains.get? k = some R → R.op = R.oldOp) := by
  obtain ⟨a1, a2, a3, a4, -, a6, a7⟩ := assign_spec hcol hsort hd hb h
  obtain ⟨b1, b2, b3⟩ := a6 rfl
  -- the state before looking again
  have hn : (if r.2.2 = true then { r.1 with n := r.1.active.length } else r.1).n = r.1.active.length := by
    by_cases hx : r.2.2 = true
    · rw [if_pos hx]
    · rw [if_neg hx, a4]
      rw [b1] at hx
      simp at hx
      exact hx.symm
  have htr : (if r.2.2 = true then { r.1 with n := r.1.active.length } else r.1).tr = r.1.tr := by split <;> rfl
  have hpids : (if r.2.2 = true then { r.1 with n := r.1.active.length } else r.1).pids = r.1.pids := by split <;> rfl
  have hinv : Inv (if r.2.2 = true then { r.1 with n := r.1.active.length } else r.1) := by
    refine ⟨by rw [htr]; exact a1, ?_, ?_, ?_⟩
    · rw [htr, hn]; exact b2
    · rw [htr, a2]; exact a7
    · rw [htr, hpids, a2, a3]; exact hb.cells
  unfold after at ha
  by_cases hch : (r.2.1 || r.2.2) = true
  · rw [if_pos hch] at ha
    dsimp only at ha
    by_cases hag : c.again = true
    · rw [if_pos hag] at ha
      obtain ⟨q, hq1, hq2⟩ := Res.bind_eq_ok.1 ha
      rw [Res.ok.injEq] at hq2
      subst hq2
      unfold trackAll at hq1
      obtain ⟨d, hdet, hq1⟩ := Res.bind_eq_ok.1 hq1
      obtain ⟨u, hu, hq1⟩ := Res.bind_eq_ok.1 hq1
      obtain ⟨d', hd1, hd2⟩ := C06_detection c.G hcc false hf'.conns
      rw [hd1, Res.ok.injEq] at hdet
      subst hdet
      have hb' := base_track hq hd2 hf' hinv (by rw [hn]; exact hs') hu
      rw [hn, ← hs'] at hq1
      rw [hn, ← hs'] at hb'
      have hsk := assign_spec hcol hsort hd hb' hq1
      rw [assignOps, if_pos rfl, Res.ok.injEq] at hq1
      subst hq1
      exact ⟨inv_of_base hb' _, fun _ k R hR => ((hb'.ops k R hR).2).symm, fun _ k R hR => ((hb'.ops k R hR).2).symm⟩
    · rw [if_neg hag, Res.ok.injEq] at ha
      subst ha
      refine ⟨hinv, fun h => absurd h hag, ?_⟩
      rw [htr]; exact b3
  · rw [if_neg hch, Res.ok.injEq] at ha
    subst ha
    simp only [Bool.or_eq_true, not_or, Bool.not_eq_true] at hch
    rw [if_neg (by rw [hch.2]; simp)] at hinv
    exact ⟨hinv, fun _ => b3 hch.1, b3⟩

theorem run_spec {inter : P × K → P × K → Prop} (hq : QueryContract inter c.query) (hcc : CCContract c.cc)
    (hcol : ColorContract c.reassign.color) (hsort : SortContract c.reassign.sortBy)
    (hd : c.reassign.diag = true) {st : State P K} (h : Runs c st) :
    Inv st ∧ (c.again = true → ∀ k R, st.tr.grains.get? k = some R → R.op = R.oldOp) := by
  induction h with
  | init s s' st0 st hf hf' hn hs' hr =>
    unfold runTracker at hr
    obtain ⟨r, h1, h2⟩ := Res.bind_eq_ok.1 hr
    rw [if_pos rfl] at h1
    have hlen := hs' r h1
    unfold setup at h1
    obtain ⟨d, hdet, h1⟩ := Res.bind_eq_ok.1 h1
    obtain ⟨d', hd1, hd2⟩ := C06_detection c.G hcc true hf.conns
    rw [hd1, Res.ok.injEq] at hdet
    subst hdet
    rw [← hn] at h1
    have := after_spec hq hcc hcol hsort hd (base_setup hd2 hf) h1 hf' hlen h2
    exact ⟨this.1, this.2.1⟩
  | step s s' st0 st hp hf hf' hn hs' hr ih =>
    unfold runTracker at hr
    obtain ⟨r, h1, h2⟩ := Res.bind_eq_ok.1 hr
    rw [if_neg (by simp)] at h1
    have hlen := hs' r h1
    unfold trackAll at h1
    obtain ⟨d, hdet, h1⟩ := Res.bind_eq_ok.1 h1
    obtain ⟨u, hu, h1⟩ := Res.bind_eq_ok.1 h1
    obtain ⟨d', hd1, hd2⟩ := C06_detection c.G hcc false hf.conns
    rw [hd1, Res.ok.injEq] at hdet
    subst hdet
    have hb := base_track hq hd2 hf ih.1 hn hu
    rw [hn] at hb
    have := after_spec hq hcc hcol hsort hd hb h1 hf' hlen h2
    exact ⟨this.1, this.2.1⟩

theorem grainAt_spec {st : State P K} (hi : Inv st) (b cell : Nat) :
    (grainAt st b cell = .exc .assertThrow ↔ (st.pids[b]?.bind fun row => row[cell]?) = none) ∧
    grainAt st b cell ≠ .ub ∧
    (∀ g s, grainAt st b cell = .ok (some (some g, s)) → ∃ R, st.tr.grains.get? g = some R ∧ R.oldOp = b ∧
      s < R.segments.length) := by
  unfold grainAt
  cases h1 : st.pids[b]? with
  | none => simp
  | some row =>
    cases h2 : row[cell]? with
    | none => simp [h2]
    | some e =>
      cases e with
      | none => simp [h2]
      | some p =>
        obtain ⟨es, he, hlt⟩ := hi.cells b p row h1 (List.mem_of_getElem? h2)
        simp only [h2, he, List.getElem?_eq_getElem hlt]
        refine ⟨by simp [h2], by simp, ?_⟩
        intro g s hg
        simp only [Res.ok.injEq, Option.some.injEq] at hg
        exact hi.entry b p g s es he (by rw [List.getElem?_eq_getElem hlt, hg])

end Verif.Cycle
