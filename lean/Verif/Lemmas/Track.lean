import Mathlib.Logic.Function.Basic
import Mathlib.Tactic.Set
import Verif.Model.Track
import Verif.Spec.Track
import Verif.Lemmas.Tracking
/-! Helper lemmas for the tracking call. -/
namespace Verif
open Spec
variable {P K : Type}

/-- Invariant rule for `loopStop`. -/
theorem loopStop_inv {σ α : Type} (f : σ → α → σ × Res Unit) (I : List α → σ → Prop) :
    ∀ (l pre : List α) (s : σ), I pre s →
      (∀ (p : List α) (a : α) (q : List α) (s : σ), pre ++ l = p ++ a :: q → I p s →
        ∃ s', f s a = (s', .ok ()) ∧ I (p ++ [a]) s') →
      ∃ s', loopStop f s l = (s', .ok ()) ∧ I (pre ++ l) s'
  | [], pre, s, hs, _ => ⟨s, rfl, by simpa using hs⟩
  | a :: l, pre, s, hs, hstep => by
    obtain ⟨s', hs', hI⟩ := hstep pre a l s rfl hs
    obtain ⟨s'', h1, h2⟩ := loopStop_inv f I l (pre ++ [a]) s' hI
      (fun p b q s h => hstep p b q s (by simpa using h))
    exact ⟨s'', by simp [loopStop, hs', h1], by simpa using h2⟩

theorem renameEntries_map (cur : Nat) (new : Option Nat) (es : List (Option Nat × Nat))
    (r : Option Nat × Nat → Option Nat × Nat) (c : Option Nat × Nat → Bool) :
    renameEntries cur new (es.map r) (es.map c) =
      (es.map (fun e => if c e = false ∧ (r e).1 = some cur then (new, (r e).2) else r e),
       es.map (fun e => if c e = false ∧ (r e).1 = some cur then true else c e)) := by
  induction es with
  | nil => rfl
  | cons e es ih =>
    simp only [List.map_cons, renameEntries, ih]
    split <;> simp_all

/-- renaming of one entry once the grains in `pre` are processed -/
def renPre (pre : List (Nat × Grain P K)) (φ : Nat → Option Nat) (op : Nat) (e : Option Nat × Nat) :
    Option Nat × Nat :=
  match e.1 with
  | some g => if pre.any (fun p => p.1 == g && p.2.op == op) then (φ g, e.2) else e
  | none => e

def flagPre (pre : List (Nat × Grain P K)) (φ : Nat → Option Nat) (op : Nat) (e : Option Nat × Nat) :
    Bool :=
  match e.1 with
  | some g => pre.any (fun p => p.1 == g && p.2.op == op) && (φ g != some g)
  | none => false

def LookInv (L0 : Lookup) (pre : List (Nat × Grain P K)) (φ : Nat → Option Nat) (L : Lookup)
    (C : List (List Bool)) : Prop :=
  L.length = L0.length ∧ C.length = L0.length ∧
  ∀ (op : Nat) (es : List (Option Nat × Nat)), L0[op]? = some es →
    L[op]? = some (es.map (renPre pre φ op)) ∧ C[op]? = some (es.map (flagPre pre φ op))

theorem renPre_ne {pre : List (Nat × Grain P K)} {φ : Nat → Option Nat} {op cur : Nat}
    {v : Option Nat} {gr : Grain P K} {e : Option Nat × Nat} (hcur : ∀ p ∈ pre, p.1 ≠ cur)
    (hne : ¬ (e.1 = some cur ∧ gr.op = op)) :
    renPre (pre ++ [(cur, gr)]) (Function.update φ cur v) op e = renPre pre φ op e ∧
    flagPre (pre ++ [(cur, gr)]) (Function.update φ cur v) op e = flagPre pre φ op e := by
  unfold renPre flagPre
  cases he : e.1 with
  | none => simp
  | some g =>
    simp only [he] at hne
    by_cases hg : g = cur
    · subst hg
      have h1 : gr.op ≠ op := by simpa using hne
      have h2 : pre.any (fun p => p.1 == g && p.2.op == op) = false := by
        rw [List.any_eq_false]
        intro p hp; simp [hcur p hp]
      simp [List.any_append, h2, h1]
    · have h3 : (pre ++ [(cur, gr)]).any (fun p => p.1 == g && p.2.op == op) =
          pre.any (fun p => p.1 == g && p.2.op == op) := by
        rw [List.any_append]; simp [Ne.symm hg]
      simp only [h3, Function.update_of_ne hg, and_self]

theorem renPre_eq {pre : List (Nat × Grain P K)} {φ : Nat → Option Nat} {cur : Nat}
    {v : Option Nat} {gr : Grain P K} {e : Option Nat × Nat} (hcur : ∀ p ∈ pre, p.1 ≠ cur)
    (he : e.1 = some cur) :
    renPre pre φ gr.op e = e ∧ flagPre pre φ gr.op e = false ∧
    renPre (pre ++ [(cur, gr)]) (Function.update φ cur v) gr.op e = (v, e.2) ∧
    flagPre (pre ++ [(cur, gr)]) (Function.update φ cur v) gr.op e = (v != some cur) := by
  have h2 : pre.any (fun p => p.1 == cur && p.2.op == gr.op) = false := by
    rw [List.any_eq_false]
    intro p hp; simp [hcur p hp]
  simp [renPre, flagPre, he, h2]

/-- an unflagged entry that reads `cur` was `cur` from the start -/
theorem unflagged {pre : List (Nat × Grain P K)} {φ : Nat → Option Nat} {op cur : Nat}
    {e : Option Nat × Nat} (h1 : flagPre pre φ op e = false) (h2 : (renPre pre φ op e).1 = some cur) :
    e.1 = some cur := by
  unfold renPre at h2
  unfold flagPre at h1
  cases he : e.1 with
  | none => simp [he] at h2
  | some g =>
    simp only [he] at h1 h2
    by_cases hp : pre.any (fun p => p.1 == g && p.2.op == op)
    · rw [hp] at h1 h2
      simp at h1 h2
      rw [h1] at h2; exact h2
    · simp only [hp] at h2
      simpa [he] using h2

theorem lookInv_rename {L0 : Lookup} {pre : List (Nat × Grain P K)} {φ : Nat → Option Nat}
    {L : Lookup} {C : List (List Bool)} (hI : LookInv L0 pre φ L C) {cur : Nat} {gr : Grain P K}
    {v : Option Nat} (hcur : ∀ p ∈ pre, p.1 ≠ cur) (hop : gr.op < L0.length) (hv : v ≠ some cur) :
    ∃ L' C', renameOp L C gr.op cur v = .ok (L', C') ∧
      LookInv L0 (pre ++ [(cur, gr)]) (Function.update φ cur v) L' C' := by
  obtain ⟨hl, hc, h⟩ := hI
  obtain ⟨h1, h2⟩ := h gr.op L0[gr.op] (by simp [hop])
  unfold renameOp
  rw [h1, h2]
  simp only [renameEntries_map]
  refine ⟨_, _, rfl, by simp [hl], by simp [hc], ?_⟩
  intro op es hes
  by_cases e : op = gr.op
  · subst e
    have hes' : es = L0[gr.op] := by
      rw [List.getElem?_eq_getElem hop] at hes; simpa using hes.symm
    subst hes'
    rw [List.getElem?_set_self (by omega), List.getElem?_set_self (by omega)]
    refine ⟨congrArg some (List.map_congr_left ?_), congrArg some (List.map_congr_left ?_)⟩
    · intro e he
      by_cases hec : e.1 = some cur
      · obtain ⟨a1, a2, a3, a4⟩ := renPre_eq (φ := φ) (v := v) (gr := gr) hcur hec
        rw [a3, if_pos ⟨a2, by rw [a1]; exact hec⟩, a1]
      · obtain ⟨a1, a2⟩ := renPre_ne (φ := φ) (v := v) (gr := gr) (op := gr.op) hcur (e := e)
          (by simp [hec])
        rw [a1, if_neg]
        rintro ⟨b1, b2⟩
        exact hec (unflagged b1 b2)
    · intro e he
      by_cases hec : e.1 = some cur
      · obtain ⟨a1, a2, a3, a4⟩ := renPre_eq (φ := φ) (v := v) (gr := gr) hcur hec
        rw [a4, if_pos ⟨a2, by rw [a1]; exact hec⟩]
        simp [hv]
      · obtain ⟨a1, a2⟩ := renPre_ne (φ := φ) (v := v) (gr := gr) (op := gr.op) hcur (e := e)
          (by simp [hec])
        rw [a2, if_neg]
        rintro ⟨b1, b2⟩
        exact hec (unflagged b1 b2)
  · rw [List.getElem?_set_ne (Ne.symm e), List.getElem?_set_ne (Ne.symm e)]
    obtain ⟨h1, h2⟩ := h op es hes
    rw [h1, h2]
    refine ⟨congrArg some (List.map_congr_left ?_), congrArg some (List.map_congr_left ?_)⟩ <;>
    · intro x hx
      obtain ⟨a1, a2⟩ := renPre_ne (φ := φ) (v := v) (gr := gr) (op := op) hcur (e := x)
        (by rintro ⟨-, h⟩; exact e h.symm)
      first | exact a1.symm | exact a2.symm

theorem lookInv_keep {L0 : Lookup} {pre : List (Nat × Grain P K)} {φ : Nat → Option Nat}
    {L : Lookup} {C : List (List Bool)} (hI : LookInv L0 pre φ L C) {cur : Nat} {gr : Grain P K}
    (hcur : ∀ p ∈ pre, p.1 ≠ cur) :
    LookInv L0 (pre ++ [(cur, gr)]) (Function.update φ cur (some cur)) L C := by
  obtain ⟨hl, hc, h⟩ := hI
  refine ⟨hl, hc, ?_⟩
  intro op es hes
  obtain ⟨h1, h2⟩ := h op es hes
  rw [h1, h2]
  refine ⟨congrArg some (List.map_congr_left ?_), congrArg some (List.map_congr_left ?_)⟩ <;>
  · intro x hx
    by_cases hne : x.1 = some cur ∧ gr.op = op
    · obtain ⟨e1, rfl⟩ := hne
      obtain ⟨a1, a2, a3, a4⟩ := renPre_eq (φ := φ) (v := some cur) (gr := gr) hcur e1
      first
        | rw [a1, a3]; rw [← e1]
        | rw [a2, a4]; simp
    · obtain ⟨a1, a2⟩ := renPre_ne (φ := φ) (v := some cur) (gr := gr) (op := op) hcur (e := x) hne
      first | exact a1.symm | exact a2.symm

/-- effect of `finish` -/
theorem finish_ok {L0 : Lookup} {pre : List (Nat × Grain P K)} {φ : Nat → Option Nat}
    {s : LoopState P K} (hI : LookInv L0 pre φ s.lookup s.changed) {cur : Nat} {gr : Grain P K}
    {v : Option Nat} {dyn : Dynamics} (hcur : ∀ p ∈ pre, p.1 ≠ cur) (hop : gr.op < L0.length)
    (hs : OMap.Sorted s.grains) (hv : ∀ k, v = some k → s.grains.get? k = none) :
    ∃ s', trackStep.finish (cur, gr) s v dyn = (s', .ok ()) ∧
      LookInv L0 (pre ++ [(cur, gr)]) (Function.update φ cur v) s'.lookup s'.changed ∧
      s'.numberer = s.numberer ∧ s'.nInvalid = s.nInvalid ∧ s'.nSkipped = s.nSkipped ∧
      OMap.Sorted s'.grains ∧
      s'.grains.length = s.grains.length + (if v = none then 0 else 1) ∧
      ∀ k, s'.grains.get? k = if v = some k then some { gr with grainId := k, dynamics := dyn }
        else s.grains.get? k := by
  obtain ⟨s1, hs1⟩ : ∃ s1, s1 = register s gr v dyn := ⟨_, rfl⟩
  have hfin : trackStep.finish (cur, gr) s v dyn =
      if v ≠ some cur then
        match renameOp s1.lookup s1.changed gr.op cur v with
        | .ok (l, c) => ({ s1 with lookup := l, changed := c }, .ok ())
        | .exc e => (s1, .exc e)
        | .ub => (s1, .ub)
      else (s1, .ok ()) := by subst hs1; rfl
  have hsp : s1.lookup = s.lookup ∧ s1.changed = s.changed ∧ s1.numberer = s.numberer ∧
      s1.nInvalid = s.nInvalid ∧ s1.nSkipped = s.nSkipped ∧ OMap.Sorted s1.grains ∧
      s1.grains.length = s.grains.length + (if v = none then 0 else 1) ∧
      ∀ k, s1.grains.get? k = if v = some k then some { gr with grainId := k, dynamics := dyn }
        else s.grains.get? k := by
    cases v with
    | none => simp [hs1, register, hs]
    | some k =>
      have hk := hv k rfl
      have he : (s.grains.emplace k gr).get? k = some gr := by
        rw [OMap.get?_emplace hs, hk]; simp
      have hse : OMap.Sorted (s.grains.emplace k gr) := OMap.sorted_emplace hs
      simp only [hs1, register, he]
      refine ⟨trivial, trivial, trivial, trivial, trivial, OMap.sorted_set hse, ?_, ?_⟩
      · rw [OMap.length_set_present hse (by simp [he]), OMap.length_emplace_absent hk]; simp
      · intro j
        rw [OMap.get?_set hse, OMap.get?_emplace hs]
        by_cases hj : j = k
        · subst hj; simp
        · simp [hj, Ne.symm hj]
  obtain ⟨p1, p2, p3, p4, p5, p6, p7, p8⟩ := hsp
  rw [hfin]
  by_cases hvc : v = some cur
  · rw [if_neg (by simpa using hvc)]
    refine ⟨s1, rfl, ?_, p3, p4, p5, p6, p7, p8⟩
    rw [hvc, p1, p2]
    exact lookInv_keep hI hcur
  · rw [if_pos hvc]
    obtain ⟨L', C', h1, h2⟩ := lookInv_rename hI (gr := gr) hcur hop hvc
    rw [p1, p2, h1]
    exact ⟨_, rfl, h2, p3, p4, p5, p6, p7, p8⟩

theorem lt_firstFree {old : OMap (Grain P K)} (hs : OMap.Sorted old) {o : Nat} {O : Grain P K}
    (h : old.get? o = some O) : o < firstFree old := by
  have hm := OMap.mem_of_get? h
  unfold firstFree
  cases hl : old.getLast? with
  | none => rw [List.getLast?_eq_none_iff] at hl; subst hl; simp at hm
  | some p =>
    obtain ⟨ys, rfl⟩ := List.getLast?_eq_some_iff.1 hl
    simp only
    rcases List.mem_append.1 hm with hm | hm
    · rw [OMap.Sorted, List.pairwise_append] at hs
      have := hs.2.2 _ hm p (by simp)
      simp at this; omega
    · simp at hm; subst hm; simp

section
variable [LinearOrder K]

/-- loop invariant of `track` -/
structure TrackInv (cfg : TrackCfg K) (old : OMap (Grain P K)) (m : OMap (Option Nat)) (L0 : Lookup)
    (pre : List (Nat × Grain P K)) (φ : Nat → Option Nat) (s : LoopState P K) : Prop where
  sorted : OMap.Sorted s.grains
  base : firstFree old ≤ s.numberer
  matched : ∀ g G o, (g, G) ∈ pre → m.get? g = some (some o) → φ g = some o
  fresh : ∀ g G, (g, G) ∈ pre → m.get? g = some none → cfg.thresholdNew < G.maxValue →
    cfg.allowNew = true → ∃ k, φ g = some k ∧ firstFree old ≤ k ∧ k < s.numberer
  invalid : ∀ g G, (g, G) ∈ pre → m.get? g = some none → cfg.thresholdNew < G.maxValue →
    cfg.allowNew = false → φ g = none
  skipped : ∀ g G, (g, G) ∈ pre → m.get? g = some none → ¬ cfg.thresholdNew < G.maxValue → φ g = none
  inj : ∀ g g' G G' k, (g, G) ∈ pre → (g', G') ∈ pre → φ g = some k → φ g' = some k → g = g'
  table : ∀ k R, s.grains.get? k = some R ↔ ∃ g G, (g, G) ∈ pre ∧ φ g = some k ∧
    R = { G with
          grainId := k
          dynamics := dynamicsOf ((m.get? g).join.bind old.get?) G }
  nInv : s.nInvalid ≠ 0 ↔ ∃ g G, (g, G) ∈ pre ∧ m.get? g = some none ∧
    cfg.thresholdNew < G.maxValue ∧ cfg.allowNew = false
  count : pre.length = s.grains.length + s.nSkipped + s.nInvalid
  look : LookInv L0 pre φ s.lookup s.changed

theorem trackStep_ok {cfg : TrackCfg K} {old new : OMap (Grain P K)} (hso : OMap.Sorted old)
    (hsn : OMap.Sorted new)
    {m : OMap (Option Nat)} {dist : P → P → K} {inter : P × K → P × K → Prop} {dc : Grain P K → Grain P K → K}
    (hm : IsMatching dist inter dc new old m) {L0 : Lookup} (hL : ∀ p ∈ new, p.2.op < L0.length)
    {pre post : List (Nat × Grain P K)} {cur : Nat} {gr : Grain P K}
    (hnew : new = pre ++ (cur, gr) :: post)
    {φ : Nat → Option Nat} {s : LoopState P K} (hI : TrackInv cfg old m L0 pre φ s) :
    ∃ s' φ', trackStep cfg old m s (cur, gr) = (s', .ok ()) ∧
      TrackInv cfg old m L0 (pre ++ [(cur, gr)]) φ' s' := by
  have hcur : ∀ p ∈ pre, p.1 ≠ cur := by
    intro p hp
    rw [OMap.Sorted, hnew, List.pairwise_append] at hsn
    have := hsn.2.2 p hp (cur, gr) (by simp)
    simp at this; omega
  have hgm : (cur, gr) ∈ new := by rw [hnew]; simp
  have hgr : new.get? cur = some gr := OMap.get?_of_mem hsn hgm
  have hop : gr.op < L0.length := hL _ hgm
  have hpre : ∀ g G, (g, G) ∈ pre → new.get? g = some G := fun g G h =>
    OMap.get?_of_mem hsn (by rw [hnew]; simp [h])
  obtain ⟨v, hv⟩ := Option.isSome_iff_exists.1 ((hm.total cur).2 (by simp [hgr]))
  -- common reconstruction of the invariant
  have rebuild : ∀ (w : Option Nat) (dyn : Dynamics) (s1 : LoopState P K),
      s1.grains = s.grains → s1.lookup = s.lookup → s1.changed = s.changed →
      s.numberer ≤ s1.numberer →
      (∀ k, w = some k → s.grains.get? k = none) →
      (∀ o, v = some o → w = some o) →
      (v = none → cfg.thresholdNew < gr.maxValue → cfg.allowNew = true →
        ∃ k, w = some k ∧ firstFree old ≤ k ∧ k < s1.numberer) →
      (v = none → (cfg.allowNew = false ∨ ¬ cfg.thresholdNew < gr.maxValue) → w = none) →
      dyn = dynamicsOf (v.bind old.get?) gr →
      (s1.nInvalid ≠ 0 ↔ s.nInvalid ≠ 0 ∨ (v = none ∧ cfg.thresholdNew < gr.maxValue ∧
        cfg.allowNew = false)) →
      (s1.nSkipped + s1.nInvalid + (if w = none then 0 else 1) = s.nSkipped + s.nInvalid + 1) →
      ∃ s' φ', trackStep.finish (cur, gr) s1 w dyn = (s', .ok ()) ∧
        TrackInv cfg old m L0 (pre ++ [(cur, gr)]) φ' s' := by
    intro w dyn s1 e1 e2 e3 e4 e5 e6 e7 e8 e9 e10 e11
    obtain ⟨s', f1, f2, f3, f4, f5, f6, f7, f8⟩ := finish_ok (L0 := L0) (pre := pre) (φ := φ)
      (s := s1) (by rw [e2, e3]; exact hI.look) (cur := cur) (gr := gr) (v := w) (dyn := dyn)
      hcur hop (by rw [e1]; exact hI.sorted) (by rw [e1]; exact e5)
    refine ⟨s', Function.update φ cur w, f1, ?_⟩
    have hu : ∀ g G, (g, G) ∈ pre → Function.update φ cur w g = φ g := fun g G h =>
      Function.update_of_ne (hcur _ h) _ _
    have husame : Function.update φ cur w cur = w := Function.update_self _ _ _
    have hmem : ∀ g G, (g, G) ∈ pre ++ [(cur, gr)] → (g, G) ∈ pre ∨ g = cur ∧ G = gr := by
      intro g G h
      rcases List.mem_append.1 h with h | h
      · exact Or.inl h
      · simp at h; exact Or.inr h
    -- ids in the table are exactly the images of `pre`
    have himg : ∀ g G k, (g, G) ∈ pre → φ g = some k → (s.grains.get? k).isSome := by
      intro g G k h1 h2
      rw [Option.isSome_iff_exists]
      exact ⟨_, (hI.table k _).2 ⟨g, G, h1, h2, rfl⟩⟩
    refine ⟨f6, by rw [f3]; exact Nat.le_trans hI.base e4, ?_, ?_, ?_, ?_, ?_, ?_, ?_, ?_, f2⟩
    · intro g G o h1 h2
      rcases hmem g G h1 with h | ⟨rfl, rfl⟩
      · rw [hu g G h]; exact hI.matched g G o h h2
      · rw [husame]; rw [hv] at h2; simp at h2; exact e6 o h2
    · intro g G h1 h2 h3 h4
      rcases hmem g G h1 with h | ⟨rfl, rfl⟩
      · rw [hu g G h]
        obtain ⟨k, k1, k2, k3⟩ := hI.fresh g G h h2 h3 h4
        exact ⟨k, k1, k2, by rw [f3]; omega⟩
      · rw [husame]; rw [hv] at h2; simp at h2
        obtain ⟨k, k1, k2, k3⟩ := e7 h2 h3 h4
        exact ⟨k, k1, k2, by rw [f3]; exact k3⟩
    · intro g G h1 h2 h3 h4
      rcases hmem g G h1 with h | ⟨rfl, rfl⟩
      · rw [hu g G h]; exact hI.invalid g G h h2 h3 h4
      · rw [husame]; rw [hv] at h2; simp at h2
        exact e8 h2 (Or.inl h4)
    · intro g G h1 h2 h3
      rcases hmem g G h1 with h | ⟨rfl, rfl⟩
      · rw [hu g G h]; exact hI.skipped g G h h2 h3
      · rw [husame]; rw [hv] at h2; simp at h2
        exact e8 h2 (Or.inr h3)
    · intro g g' G G' k h1 h1' h2 h2'
      rcases hmem g G h1 with h | ⟨rfl, rfl⟩ <;> rcases hmem g' G' h1' with h' | ⟨rfl, rfl⟩
      · rw [hu g G h] at h2; rw [hu g' G' h'] at h2'
        exact hI.inj g g' G G' k h h' h2 h2'
      · rw [hu g G h] at h2; rw [husame] at h2'
        have := himg g G k h h2
        rw [e5 k h2'] at this; simp at this
      · rw [hu g' G' h'] at h2'; rw [husame] at h2
        have := himg g' G' k h' h2'
        rw [e5 k h2] at this; simp at this
      · rfl
    · intro k R
      rw [f8, e1]
      by_cases hw : w = some k
      · rw [if_pos hw]
        constructor
        · intro h
          simp at h
          refine ⟨cur, gr, by simp, by rw [husame]; exact hw, ?_⟩
          rw [← h, e9, hv]; simp
        · rintro ⟨g, G, h1, h2, rfl⟩
          rcases hmem g G h1 with h | ⟨rfl, rfl⟩
          · rw [hu g G h] at h2
            have := himg g G k h h2
            rw [e5 k hw] at this; simp at this
          · rw [e9, hv]; simp
      · rw [if_neg hw, hI.table]
        constructor
        · rintro ⟨g, G, h1, h2, h3⟩
          exact ⟨g, G, by simp [h1], by rw [hu g G h1]; exact h2, h3⟩
        · rintro ⟨g, G, h1, h2, h3⟩
          rcases hmem g G h1 with h | ⟨rfl, rfl⟩
          · exact ⟨g, G, h, by rw [← hu g G h]; exact h2, h3⟩
          · rw [husame] at h2; exact absurd h2 hw
    · rw [f4, e10, hI.nInv]
      constructor
      · rintro (⟨g, G, h1, h2⟩ | ⟨h1, h2⟩)
        · exact ⟨g, G, by simp [h1], h2⟩
        · exact ⟨cur, gr, by simp, by rw [hv, h1], h2⟩
      · rintro ⟨g, G, h1, h2, h3⟩
        rcases hmem g G h1 with h | ⟨rfl, rfl⟩
        · exact Or.inl ⟨g, G, h, h2, h3⟩
        · rw [hv] at h2; simp at h2; exact Or.inr ⟨h2, h3⟩
    · have := hI.count
      rw [f7, f4, f5, e1]
      simp only [List.length_append, List.length_singleton]
      split at e11 <;> rename_i hw <;> simp only [hw, if_true, if_false] <;> omega
  have hnumfree : ∀ k, s.numberer ≤ k → s.grains.get? k = none := by
    intro k hk
    by_contra hc
    obtain ⟨R, hR⟩ := Option.ne_none_iff_exists'.1 hc
    obtain ⟨g, G, h1, h2, -⟩ := (hI.table k R).1 hR
    have hg := hpre g G h1
    obtain ⟨w, hw⟩ := Option.isSome_iff_exists.1 ((hm.total g).2 (by simp [hg]))
    cases w with
    | some o =>
      have := hI.matched g G o h1 hw
      rw [h2] at this; simp at this; subst this
      obtain ⟨_, O, _, hO, _⟩ := hm.sound g k hw
      have := lt_firstFree hso hO
      have := hI.base
      omega
    | none =>
      by_cases ht : cfg.thresholdNew < G.maxValue
      · cases ha : cfg.allowNew with
        | true =>
          obtain ⟨k', q1, q2, q3⟩ := hI.fresh g G h1 hw ht ha
          rw [h2] at q1; simp at q1; omega
        | false =>
          have := hI.invalid g G h1 hw ht ha
          rw [h2] at this; simp at this
      · have := hI.skipped g G h1 hw ht
        rw [h2] at this; simp at this
  unfold trackStep
  simp only [hv]
  cases v with
  | none =>
    simp only
    by_cases ht : gr.maxValue > cfg.thresholdNew
    · rw [if_pos ht]
      cases ha : cfg.allowNew with
      | true =>
        simp only [if_true]
        exact rebuild (some s.numberer) .none { s with numberer := s.numberer + 1 } rfl rfl rfl
          (Nat.le_succ _) (by rintro k ⟨⟩; exact hnumfree _ (Nat.le_refl _)) (by simp)
          (fun _ _ _ => ⟨_, rfl, hI.base, Nat.lt_succ_self _⟩)
          (by intro _ h; rcases h with h | h
              · simp [ha] at h
              · exact absurd ht h) rfl (by simp [ha]) (by simp)
      | false =>
        simp only [Bool.false_eq_true, if_false]
        exact rebuild none .none { s with nInvalid := s.nInvalid + 1 } rfl rfl rfl
          (Nat.le_refl _) (by simp) (by simp) (by simp [ha]) (by simp) rfl
          (by simp [ha, ht]) (by simp; omega)
    · rw [if_neg ht]
      exact rebuild none .none { s with nSkipped := s.nSkipped + 1 } rfl rfl rfl
        (Nat.le_refl _) (by simp) (by simp) (fun _ h => absurd h ht) (by simp) rfl
        (by
          have : ¬ cfg.thresholdNew < gr.maxValue := ht
          simp [this]) (by simp; omega)
  | some o =>
    obtain ⟨G', O, h1, h2, h3, -⟩ := hm.sound cur o hv
    rw [hgr] at h1; injection h1 with h1; subst h1
    simp only [h2, h3, if_true]
    refine rebuild (some o) _ s rfl rfl rfl (Nat.le_refl _) ?_ (by simp) (by simp) (by simp)
      (by simp [dynamicsOf, h2]) (by simp) (by simp)
    rintro k ⟨⟩
    by_contra hc
    obtain ⟨R, hR⟩ := Option.ne_none_iff_exists'.1 hc
    obtain ⟨g, G2, q1, q2, -⟩ := (hI.table o R).1 hR
    have hg := hpre g G2 q1
    obtain ⟨w, hw⟩ := Option.isSome_iff_exists.1 ((hm.total g).2 (by simp [hg]))
    cases w with
    | some o' =>
      have := hI.matched g G2 o' q1 hw
      rw [q2] at this; simp at this; subst this
      exact hcur _ q1 (hm.injective g cur o hw hv)
    | none =>
      have hlt := lt_firstFree hso h2
      by_cases ht : cfg.thresholdNew < G2.maxValue
      · cases ha : cfg.allowNew with
        | true =>
          obtain ⟨k', q1, q2', q3⟩ := hI.fresh g G2 q1 hw ht ha
          rw [q2] at q1; simp at q1; omega
        | false =>
          have := hI.invalid g G2 q1 hw ht ha
          rw [q2] at this; simp at this
      · have := hI.skipped g G2 q1 hw ht
        rw [q2] at this; simp at this

/-- the whole loop -/
theorem track_core {cfg : TrackCfg K} {t : Tracker P K} {d : Detection P K}
    (hso : OMap.Sorted t.grains) (hsn : OMap.Sorted d.grains)
    {m : OMap (Option Nat)} {dist : P → P → K} {inter : P × K → P × K → Prop} {dc : Grain P K → Grain P K → K}
    (hm : IsMatching dist inter dc d.grains t.grains m)
    (hL : ∀ p ∈ d.grains, p.2.op < d.lookup.length) :
    ∃ s φ, loopStop (trackStep cfg t.grains m)
      { grains := [], lookup := d.lookup,
        changed := d.lookup.map (fun es => es.map (fun _ => false)),
        numberer := firstFree t.grains, nInvalid := 0, nSkipped := 0 } d.grains = (s, .ok ()) ∧
      TrackInv cfg t.grains m d.lookup d.grains φ s := by
  obtain ⟨s, h1, φ, h2⟩ := loopStop_inv (trackStep cfg t.grains m)
    (fun pre s => ∃ φ, TrackInv cfg t.grains m d.lookup pre φ s) d.grains []
    { grains := [], lookup := d.lookup,
      changed := d.lookup.map (fun es => es.map (fun _ => false)),
      numberer := firstFree t.grains, nInvalid := 0, nSkipped := 0 }
    ⟨fun _ => none, by
      refine ⟨OMap.sorted_nil, Nat.le_refl _, by simp, by simp, by simp, by simp, by simp, by simp,
        by simp, by simp, by simp, by simp, ?_⟩
      intro op es h
      have hr : ∀ e, renPre ([] : List (Nat × Grain P K)) (fun _ => none) op e = e := by
        intro e; unfold renPre; cases e.1 <;> simp
      have hf : ∀ e, flagPre ([] : List (Nat × Grain P K)) (fun _ => none) op e = false := by
        intro e; unfold flagPre; cases e.1 <;> simp
      have hr' : renPre ([] : List (Nat × Grain P K)) (fun _ => none) op = id := funext hr
      have hf' : flagPre ([] : List (Nat × Grain P K)) (fun _ => none) op = fun _ => false :=
        funext hf
      rw [hr', hf', List.map_id]
      refine ⟨h, ?_⟩
      simp [h]⟩
    (by
      rintro p ⟨cur, gr⟩ q s hpq ⟨φ, hI⟩
      simp only [List.nil_append] at hpq
      obtain ⟨s', φ', h1, h2⟩ := trackStep_ok hso hsn hm hL hpq hI
      exact ⟨s', h1, φ', h2⟩)
  exact ⟨s, φ, h1, by simpa using h2⟩

end
end Verif
