import Mathlib.Tactic.Set
import Verif.Model.Tracking
import Verif.Spec.Tracking
/-! Helper lemmas for `Verif.Props.Tracking`. -/
namespace Verif
open Spec
variable {P K : Type}

theorem extractPerOp_ok {grains : OMap (Grain P K)} {n : Nat} (h : ∀ p ∈ grains, p.2.op < n) :
    ∃ l, extractPerOp grains n = .ok l ∧ l.length = n ∧
      ∀ op, op < n → l[op]? = some ((grains.filter (fun p => decide (p.2.op = op))).map (·.1)) := by
  unfold extractPerOp
  obtain ⟨l, h1, h2⟩ := Res.foldlM_inv_prefix
    (fun acc (p : Nat × Grain P K) =>
      if p.2.op < acc.length then Res.ok (acc.modify p.2.op (· ++ [p.1])) else Res.ub)
    (fun pre acc => acc.length = n ∧
      ∀ op, op < n → acc[op]? = some ((pre.filter (fun p => decide (p.2.op = op))).map (·.1)))
    grains [] (List.replicate n []) (by
      refine ⟨by simp, fun op hop => ?_⟩
      simp [hop]) (by
      intro p a q acc hpq hI
      have ha : a ∈ grains := by
        have : a ∈ p ++ a :: q := by simp
        rw [← hpq] at this; simpa using this
      have hop := h a ha
      refine ⟨_, if_pos (by rw [hI.1]; exact hop), by simp [hI.1], fun op hlt => ?_⟩
      rw [List.getElem?_modify, hI.2 op hlt]
      by_cases e : a.2.op = op
      · simp [e, List.filter_append]
      · simp [e, List.filter_append])
  simp only [List.nil_append] at h2
  exact ⟨l, h1, h2⟩

theorem extractPerOp_ub {grains : OMap (Grain P K)} {n : Nat} (h : ∃ p ∈ grains, n ≤ p.2.op) :
    extractPerOp grains n = .ub := by
  unfold extractPerOp
  suffices H : ∀ (l : List (Nat × Grain P K)) (acc : List (List Nat)), acc.length = n →
      (∃ p ∈ l, n ≤ p.2.op) → l.foldlM (fun acc (p : Nat × Grain P K) =>
      if p.2.op < acc.length then Res.ok (acc.modify p.2.op (· ++ [p.1])) else Res.ub) acc = .ub from
    H _ _ (by simp) h
  intro l
  induction l with
  | nil => simp
  | cons a l ih =>
    intro acc hacc h
    rw [List.foldlM_cons]
    by_cases ha : a.2.op < acc.length
    · rw [if_pos ha]
      simp only [Res.ok_bind]
      apply ih
      · simp [hacc]
      · obtain ⟨p, hp, hle⟩ := h
        rcases List.mem_cons.1 hp with rfl | hp
        · omega
        · exact ⟨p, hp, hle⟩
    · rw [if_neg ha]; rfl

/-- segments of grain `id`, empty if absent -/
def segsOf (old : OMap (Grain P K)) (id : Nat) : List (Segment P K) :=
  match old.get? id with
  | some g => g.segments
  | none => []

def flatSpec (old : OMap (Grain P K)) (ids : List Nat) : List (Nat × Segment P K) :=
  ids.flatMap (fun id => (segsOf old id).map (fun s => (id, s)))

theorem flattenOld_ok {old : OMap (Grain P K)} {ids : List Nat}
    (h : ∀ id ∈ ids, (old.get? id).isSome) : flattenOld old ids = .ok (flatSpec old ids) := by
  unfold flattenOld
  obtain ⟨l, h1, h2⟩ := Res.foldlM_inv_prefix
    (fun acc id => do
      let g ← Res.at? (old.get? id)
      pure (acc ++ g.segments.map (fun s => (id, s))))
    (fun pre acc => acc = flatSpec old pre) ids [] [] rfl (by
      intro p a q s hpq hs
      have ha : a ∈ ids := by
        have : a ∈ p ++ a :: q := by simp
        rw [← hpq] at this; simpa using this
      obtain ⟨g, hg⟩ := Option.isSome_iff_exists.1 (h a ha)
      refine ⟨s ++ g.segments.map (fun s => (a, s)), by simp [hg], ?_⟩
      simp [hs, flatSpec, segsOf, hg])
  simp only [List.nil_append] at h2
  rw [h1, h2]

theorem blockStart_spec (ids : List Nat) : ∀ i,
    blockStart ids i ≤ i ∧ (∀ j, blockStart ids i ≤ j → j ≤ i → ids[j]? = ids[i]?) ∧
      (0 < blockStart ids i → ids[blockStart ids i - 1]? ≠ ids[i]?)
  | 0 => by
    simp [blockStart]
  | i + 1 => by
    obtain ⟨h1, h2, h3⟩ := blockStart_spec ids i
    unfold blockStart
    split
    · rename_i he
      refine ⟨by omega, fun j hj1 hj2 => ?_, fun hp => by rw [← he]; exact h3 hp⟩
      by_cases hj : j = i + 1
      · rw [hj]
      · rw [h2 j hj1 (by omega), he]
    · rename_i he
      refine ⟨by omega, fun j hj1 hj2 => ?_, fun _ => by simpa using he⟩
      have : j = i + 1 := by omega
      rw [this]

theorem mem_flatSpec {old : OMap (Grain P K)} {ids : List Nat} {c : Nat} {s : Segment P K} :
    (c, s) ∈ flatSpec old ids ↔ c ∈ ids ∧ s ∈ segsOf old c := by
  simp only [flatSpec, List.mem_flatMap, List.mem_map, Prod.mk.injEq]
  constructor
  · rintro ⟨a, ha, t, ht, rfl, rfl⟩; exact ⟨ha, ht⟩
  · rintro ⟨h1, h2⟩; exact ⟨c, h1, s, h2, rfl, rfl⟩

/-- the segment id recovered from the flat index is the right one -/
theorem segmentId_correct {old : OMap (Grain P K)} {ids : List Nat} (hnd : ids.Nodup) {i c : Nat}
    {s : Segment P K} (h : (flatSpec old ids)[i]? = some (c, s)) :
    (segsOf old c)[i - blockStart ((flatSpec old ids).map (·.1)) i]? = some s := by
  have hmem : (c, s) ∈ flatSpec old ids := List.mem_of_getElem? h
  obtain ⟨hc, -⟩ := mem_flatSpec.1 hmem
  obtain ⟨pre, post, rfl⟩ := List.append_of_mem hc
  have hpre : c ∉ pre := by
    rw [List.nodup_append] at hnd
    intro hcp
    exact hnd.2.2 c hcp c (by simp) rfl
  have hpost : c ∉ post := by
    rw [List.nodup_append] at hnd
    exact (List.nodup_cons.1 hnd.2.1).1
  have hflat : flatSpec old (pre ++ c :: post) =
      flatSpec old pre ++ (segsOf old c).map (fun s => (c, s)) ++ flatSpec old post := by
    simp [flatSpec]
  set A := flatSpec old pre with hA
  set B := segsOf old c with hB
  set C := flatSpec old post with hC
  have hAn : ∀ j : Nat, (∃ t, A[j]? = some (c, t)) → False := by
    rintro j ⟨t, ht⟩
    exact hpre (mem_flatSpec.1 (List.mem_of_getElem? ht)).1
  have hCn : ∀ j : Nat, (∃ t, C[j]? = some (c, t)) → False := by
    rintro j ⟨t, ht⟩
    exact hpost (mem_flatSpec.1 (List.mem_of_getElem? ht)).1
  -- characterise positions carrying grain id `c`
  have key : ∀ j : Nat, ((A ++ B.map (fun s => (c, s)) ++ C).map (·.1))[j]? = some c →
      A.length ≤ j ∧ j < A.length + B.length := by
    intro j hj
    rw [List.getElem?_map] at hj
    obtain ⟨⟨c', t⟩, ht, hct⟩ := Option.map_eq_some_iff.1 hj
    simp at hct; subst hct
    constructor
    · by_contra hlt
      have hlt : j < A.length := by omega
      rw [List.append_assoc, List.getElem?_append_left hlt] at ht
      exact hAn j ⟨t, ht⟩
    · by_contra hge
      have hge : A.length + B.length ≤ j := by omega
      rw [List.getElem?_append_right (by simp; omega)] at ht
      exact hCn _ ⟨t, ht⟩
  rw [hflat] at h ⊢
  have hi : ((A ++ B.map (fun s => (c, s)) ++ C).map (·.1))[i]? = some c := by
    rw [List.getElem?_map, h]; rfl
  obtain ⟨b1, b2, b3⟩ := blockStart_spec ((A ++ B.map (fun s => (c, s)) ++ C).map (·.1)) i
  set b := blockStart ((A ++ B.map (fun s => (c, s)) ++ C).map (·.1)) i with hb
  have hir := key i hi
  have hbr := key b (by rw [b2 b (Nat.le_refl _) b1, hi])
  have hbA : b = A.length := by
    by_contra hne
    have hgt : A.length < b := by omega
    apply b3 (by omega)
    rw [hi, List.getElem?_map, List.append_assoc, List.getElem?_append_right (by omega),
      List.getElem?_append_left (by simp; omega), List.getElem?_map]
    have hlt : b - 1 - A.length < B.length := by omega
    simp [hlt]
  rw [List.append_assoc, List.getElem?_append_right hir.1,
    List.getElem?_append_left (by simp; omega), List.getElem?_map] at h
  obtain ⟨t, ht, hts⟩ := Option.map_eq_some_iff.1 h
  simp at hts
  rw [hbA, ht, hts]

section
variable [LinearOrder K]

/-- candidates of a new grain: old grains of the same order parameter it touches -/
def CandOf (inter : P × K → P × K → Prop) (old : OMap (Grain P K)) (ids : List Nat)
    (segs : List (Segment P K)) (o : Nat) : Prop :=
  o ∈ ids ∧ ∃ s ∈ segs, ∃ t ∈ segsOf old o, inter (t.center, t.radius) (s.center, s.radius)

theorem hitStep_ok {dist : P → P → K} {old : OMap (Grain P K)} {ids : List Nat} (hnd : ids.Nodup)
    (hk : ∀ id ∈ ids, (old.get? id).isSome) {newSeg : Segment P K} {best : Best K} {i c : Nat}
    {t : Segment P K} (h : (flatSpec old ids)[i]? = some (c, t)) :
    ∃ best', hitStep dist old (flatSpec old ids) newSeg best i = .ok best' ∧
      (best'.1 = best.1 ∧ best.2.isSome ∨ best'.1 = some c) ∧ best'.2.isSome := by
  have hidx : Res.index ((flatSpec old ids).map (·.1)) i = .ok c := by
    rw [Res.index_eq_ok, List.getElem?_map, h]; rfl
  have hc : c ∈ ids := (mem_flatSpec.1 (List.mem_of_getElem? h)).1
  obtain ⟨g, hg⟩ := Option.isSome_iff_exists.1 (hk c hc)
  have hs := segmentId_correct hnd h
  have hseg : segsOf old c = g.segments := by simp [segsOf, hg]
  rw [hseg] at hs
  have hidx2 := Res.index_eq_ok.2 hs
  unfold hitStep
  simp only [hidx, Res.ok_bind, hg, Res.at?_some, hidx2]
  cases hb : best.2 with
  | none => exact ⟨_, rfl, by simp, by simp⟩
  | some m =>
    simp only
    split
    · exact ⟨_, rfl, by simp, by simp⟩
    · exact ⟨_, rfl, by simp, by simp [hb]⟩

theorem segmentStep_ok {dist : P → P → K} {inter : P × K → P × K → Prop}
    {query : List (P × K) → P × K → List Nat} (hq : QueryContract inter query)
    {old : OMap (Grain P K)} {ids : List Nat} (hnd : ids.Nodup)
    (hk : ∀ id ∈ ids, (old.get? id).isSome) {pre : List (Segment P K)} {newSeg : Segment P K}
    {best : Best K}
    (h1 : ∀ o, best.1 = some o → CandOf inter old ids pre o)
    (h2 : best.1 = none → (best.2 = none ∧ ∀ o, ¬ CandOf inter old ids pre o)) :
    ∃ best', segmentStep dist query old (flatSpec old ids) best newSeg = .ok best' ∧
      (∀ o, best'.1 = some o → CandOf inter old ids (pre ++ [newSeg]) o) ∧
      (best'.1 = none → (best'.2 = none ∧ ∀ o, ¬ CandOf inter old ids (pre ++ [newSeg]) o)) := by
  have mono : ∀ o, CandOf inter old ids pre o → CandOf inter old ids (pre ++ [newSeg]) o := by
    rintro o ⟨ho, s, hs, t, ht, hi⟩
    exact ⟨ho, s, by simp [hs], t, ht, hi⟩
  have hbox : ∀ i, i ∈ query ((flatSpec old ids).map (fun p => (p.2.center, p.2.radius)))
      (newSeg.center, newSeg.radius) → ∃ (c : Nat) (t : Segment P K), (flatSpec old ids)[i]? = some (c, t) ∧
        inter (t.center, t.radius) (newSeg.center, newSeg.radius) := by
    intro i hi
    obtain ⟨bx, hb, hin⟩ := (hq _ _ _).1 hi
    rw [List.getElem?_map] at hb
    obtain ⟨⟨c, t⟩, hct, hbx⟩ := Option.map_eq_some_iff.1 hb
    refine ⟨c, t, hct, ?_⟩
    simp at hbx; rw [hbx]; exact hin
  have hcand : ∀ (i c : Nat) (t : Segment P K), (flatSpec old ids)[i]? = some (c, t) →
      inter (t.center, t.radius) (newSeg.center, newSeg.radius) →
      CandOf inter old ids (pre ++ [newSeg]) c := by
    intro i c t hct hin
    obtain ⟨m1, m2⟩ := mem_flatSpec.1 (List.mem_of_getElem? hct)
    exact ⟨m1, newSeg, by simp, t, m2, hin⟩
  unfold segmentStep
  generalize hres : query ((flatSpec old ids).map (fun p => (p.2.center, p.2.radius)))
      (newSeg.center, newSeg.radius) = result at hbox
  cases result with
  | nil =>
    refine ⟨best, by simp, fun o ho => mono o (h1 o ho), fun hn => ⟨(h2 hn).1, fun o ho => ?_⟩⟩
    obtain ⟨ho, s, hs, t, ht, hi⟩ := ho
    rcases List.mem_append.1 hs with hs | hs
    · exact (h2 hn).2 o ⟨ho, s, hs, t, ht, hi⟩
    · simp at hs; subst hs
      have hm : (o, t) ∈ flatSpec old ids := mem_flatSpec.2 ⟨ho, ht⟩
      obtain ⟨i, hi'⟩ := List.mem_iff_getElem?.1 hm
      have : i ∈ query ((flatSpec old ids).map (fun p => (p.2.center, p.2.radius)))
          (s.center, s.radius) := by
        rw [hq]
        exact ⟨(t.center, t.radius), by rw [List.getElem?_map, hi']; rfl, hi⟩
      rw [hres] at this
      simp at this
  | cons r rs =>
    simp only
    by_cases hcond : rs ≠ [] ∨ best.1.isSome
    · rw [if_pos hcond]
      obtain ⟨b', hb', hI⟩ := Res.foldlM_inv
        (fun b : Best K => (∀ o, b.1 = some o → CandOf inter old ids (pre ++ [newSeg]) o) ∧
          (b.2.isSome → b.1.isSome) ) (hitStep dist old (flatSpec old ids) newSeg) (r :: rs) best
        ⟨fun o ho => mono o (h1 o ho), by
          intro hs
          by_contra hn
          simp at hn
          rw [(h2 hn).1] at hs
          simp at hs⟩ (by
          intro b i hi hIb
          obtain ⟨c, t, hct, hin⟩ := hbox i hi
          obtain ⟨b', hb', hc, hs⟩ := hitStep_ok (dist := dist) (newSeg := newSeg) (best := b) hnd hk hct
          refine ⟨b', hb', fun o ho => ?_, fun _ => ?_⟩
          · rcases hc with ⟨hc, -⟩ | hc
            · exact hIb.1 o (hc ▸ ho)
            · rw [hc] at ho; simp at ho; subst ho
              exact hcand i _ t hct hin
          · rcases hc with ⟨hc, hs2⟩ | hc
            · rw [hc]; exact hIb.2 hs2
            · simp [hc])
      refine ⟨b', hb', hI.1, fun hn => ?_⟩
      -- after at least one hit the candidate is set
      exfalso
      obtain ⟨c, t, hct, hin⟩ := hbox r (by simp)
      obtain ⟨b1, hb1, hc, hs⟩ := hitStep_ok (dist := dist) (newSeg := newSeg) (best := best) hnd hk hct
      rw [List.foldlM_cons, hb1, Res.ok_bind] at hb'
      have hb1s : b1.1.isSome := by
        rcases hc with ⟨hc, hs2⟩ | hc
        · rw [hc]
          by_contra hbn
          simp at hbn
          rw [(h2 hbn).1] at hs2; simp at hs2
        · simp [hc]
      obtain ⟨b'', hb'', hI''⟩ := Res.foldlM_inv (fun b : Best K => b.1.isSome)
        (hitStep dist old (flatSpec old ids) newSeg) rs b1 hb1s (by
          intro b i hi hIb
          obtain ⟨c, t, hct, hin⟩ := hbox i (by simp [hi])
          obtain ⟨b', hb', hc, hs⟩ := hitStep_ok (dist := dist) (newSeg := newSeg) (best := b) hnd hk hct
          refine ⟨b', hb', ?_⟩
          rcases hc with ⟨hc, -⟩ | hc
          · rw [hc]; exact hIb
          · simp [hc])
      rw [hb''] at hb'
      injection hb' with hb'
      rw [hb', hn] at hI''
      simp at hI''
    · rw [if_neg hcond]
      obtain ⟨c, t, hct, hin⟩ := hbox r (by simp)
      have hidx : Res.index ((flatSpec old ids).map (·.1)) r = .ok c := by
        rw [Res.index_eq_ok, List.getElem?_map, hct]; rfl
      refine ⟨(some c, best.2), by simp [hidx], fun o ho => ?_, fun hn => by simp at hn⟩
      simp at ho; subst ho
      exact hcand r _ t hct hin

/-- the whole search for one new grain -/
theorem search_ok {dist : P → P → K} {inter : P × K → P × K → Prop}
    {query : List (P × K) → P × K → List Nat} (hq : QueryContract inter query)
    {old : OMap (Grain P K)} {ids : List Nat} (hnd : ids.Nodup)
    (hk : ∀ id ∈ ids, (old.get? id).isSome) (segs : List (Segment P K)) :
    ∃ best, segs.foldlM (segmentStep dist query old (flatSpec old ids)) (none, none) = .ok best ∧
      (∀ o, best.1 = some o → CandOf inter old ids segs o) ∧
      (best.1 = none → ∀ o, ¬ CandOf inter old ids segs o) := by
  obtain ⟨b, hb, hI⟩ := Res.foldlM_inv_prefix (segmentStep dist query old (flatSpec old ids))
    (fun pre b => (∀ o, b.1 = some o → CandOf inter old ids pre o) ∧
      (b.1 = none → (b.2 = none ∧ ∀ o, ¬ CandOf inter old ids pre o))) segs [] (none, none)
    ⟨by simp, fun _ => ⟨rfl, by rintro o ⟨-, s, hs, -⟩; simp at hs⟩⟩ (by
      intro p a q s hpq hI
      obtain ⟨b', hb', h1, h2⟩ := segmentStep_ok (dist := dist) hq hnd hk (newSeg := a) hI.1 hI.2
      exact ⟨b', hb', h1, h2⟩)
  simp only [List.nil_append] at hI
  exact ⟨b, hb, hI.1, fun hn => (hI.2 hn).2⟩

theorem hitStep_eq {dist : P → P → K} {old : OMap (Grain P K)} {ids : List Nat} (hnd : ids.Nodup)
    (hk : ∀ id ∈ ids, (old.get? id).isSome) {newSeg : Segment P K} {best : Best K} {i c : Nat}
    {t : Segment P K} (h : (flatSpec old ids)[i]? = some (c, t)) :
    hitStep dist old (flatSpec old ids) newSeg best i = .ok (match best.2 with
      | some m => if dist t.center newSeg.center < m then
          (some c, some (dist t.center newSeg.center)) else best
      | none => (some c, some (dist t.center newSeg.center))) := by
  have hidx : Res.index ((flatSpec old ids).map (·.1)) i = .ok c := by
    rw [Res.index_eq_ok, List.getElem?_map, h]; rfl
  have hc : c ∈ ids := (mem_flatSpec.1 (List.mem_of_getElem? h)).1
  obtain ⟨g, hg⟩ := Option.isSome_iff_exists.1 (hk c hc)
  have hs := segmentId_correct hnd h
  have hseg : segsOf old c = g.segments := by simp [segsOf, hg]
  rw [hseg] at hs
  have hidx2 := Res.index_eq_ok.2 hs
  unfold hitStep
  simp only [hidx, Res.ok_bind, hg, Res.at?_some, hidx2]
  cases hb : best.2 with
  | none => rfl
  | some m =>
    simp only
    split <;> rfl

/-- for a single segment the search finds the nearest touching old segment -/
theorem search_nearest {dist : P → P → K} {inter : P × K → P × K → Prop}
    {query : List (P × K) → P × K → List Nat} (hq : QueryContract inter query)
    {old : OMap (Grain P K)} {ids : List Nat} (hnd : ids.Nodup)
    (hk : ∀ id ∈ ids, (old.get? id).isSome) {s : Segment P K} {best : Best K}
    (h : [s].foldlM (segmentStep dist query old (flatSpec old ids)) (none, none) = .ok best)
    {o : Nat} (ho : best.1 = some o) :
    ∃ t ∈ segsOf old o, inter (t.center, t.radius) (s.center, s.radius) ∧
      ∀ c ∈ ids, ∀ t' ∈ segsOf old c, inter (t'.center, t'.radius) (s.center, s.radius) →
        dist t.center s.center ≤ dist t'.center s.center := by
  have hbox : ∀ i, i ∈ query ((flatSpec old ids).map (fun p => (p.2.center, p.2.radius)))
      (s.center, s.radius) → ∃ (c : Nat) (t : Segment P K), (flatSpec old ids)[i]? = some (c, t) ∧
        inter (t.center, t.radius) (s.center, s.radius) := by
    intro i hi
    obtain ⟨bx, hb, hin⟩ := (hq _ _ _).1 hi
    rw [List.getElem?_map] at hb
    obtain ⟨⟨c, t⟩, hct, hbx⟩ := Option.map_eq_some_iff.1 hb
    refine ⟨c, t, hct, ?_⟩
    simp at hbx; rw [hbx]; exact hin
  have hall : ∀ c ∈ ids, ∀ t' ∈ segsOf old c, inter (t'.center, t'.radius) (s.center, s.radius) →
      ∃ i ∈ query ((flatSpec old ids).map (fun p => (p.2.center, p.2.radius))) (s.center, s.radius),
        (flatSpec old ids)[i]? = some (c, t') := by
    intro c hc t' ht' hin
    obtain ⟨i, hi⟩ := List.mem_iff_getElem?.1 (mem_flatSpec.2 ⟨hc, ht'⟩ : (c, t') ∈ flatSpec old ids)
    refine ⟨i, ?_, hi⟩
    rw [hq]
    exact ⟨(t'.center, t'.radius), by rw [List.getElem?_map, hi]; rfl, hin⟩
  simp only [List.foldlM_cons, List.foldlM_nil] at h
  unfold segmentStep at h
  generalize query ((flatSpec old ids).map (fun p => (p.2.center, p.2.radius)))
      (s.center, s.radius) = result at hbox hall h
  cases result with
  | nil =>
    exfalso
    have : best = (none, none) := by
      have h' : (Res.ok (none, none) : Res (Best K)) = .ok best := h
      injection h' with h'
      exact h'.symm
    rw [this] at ho
    simp at ho
  | cons r rs =>
    by_cases hrs : rs = []
    · subst hrs
      obtain ⟨c, t, hct, hin⟩ := hbox r (by simp)
      have hidx : Res.index ((flatSpec old ids).map (·.1)) r = .ok c := by
        rw [Res.index_eq_ok, List.getElem?_map, hct]; rfl
      simp only [ne_eq, not_true_eq_false, Option.isSome_none, Bool.false_eq_true, or_self, if_false,
        hidx, Res.ok_bind] at h
      have hb : best = (some c, none) := by
        have h' : (Res.ok (some c, none) : Res (Best K)) = .ok best := h
        injection h' with h'
        exact h'.symm
      rw [hb] at ho
      simp only [Option.some.injEq] at ho
      subst ho
      obtain ⟨m1, m2⟩ := mem_flatSpec.1 (List.mem_of_getElem? hct)
      refine ⟨t, m2, hin, fun c' hc' t' ht' hi' => ?_⟩
      obtain ⟨i, hi, hi2⟩ := hall c' hc' t' ht' hi'
      simp at hi
      subst hi
      rw [hct] at hi2
      simp only [Option.some.injEq, Prod.mk.injEq] at hi2
      rw [hi2.2]
    · simp only [ne_eq, hrs, not_false_eq_true, true_or, if_true] at h
      obtain ⟨b', hb', hI⟩ := Res.foldlM_inv_prefix (hitStep dist old (flatSpec old ids) s)
        (fun pre (b : Best K) => (pre = [] ∧ b = (none, none)) ∨ ∃ o t, b = (some o, some (dist t.center s.center)) ∧
          o ∈ ids ∧ t ∈ segsOf old o ∧ inter (t.center, t.radius) (s.center, s.radius) ∧
          ∀ i ∈ pre, ∀ c t', (flatSpec old ids)[i]? = some (c, t') →
            dist t.center s.center ≤ dist t'.center s.center) (r :: rs) [] (none, none)
        (Or.inl ⟨rfl, rfl⟩) (by
          intro p a q b hpq hIb
          obtain ⟨c, t, hct, hin⟩ := hbox a (by
            simp only [List.nil_append] at hpq; rw [hpq]; simp)
          obtain ⟨m1, m2⟩ := mem_flatSpec.1 (List.mem_of_getElem? hct)
          refine ⟨_, hitStep_eq hnd hk hct, Or.inr ?_⟩
          have hsame : ∀ c' t', (flatSpec old ids)[a]? = some (c', t') → t' = t := by
            intro c' t' h'
            rw [hct] at h'; simp at h'; exact h'.2.symm
          rcases hIb with ⟨rfl, rfl⟩ | ⟨o, t0, rfl, i1, i2, i3, i4⟩
          · refine ⟨c, t, rfl, m1, m2, hin, ?_⟩
            intro i hi c' t' hc'
            simp at hi; subst hi
            rw [hsame c' t' hc']
          · simp only
            by_cases hlt : dist t.center s.center < dist t0.center s.center
            · rw [if_pos hlt]
              refine ⟨c, t, rfl, m1, m2, hin, ?_⟩
              intro i hi c' t' hc'
              rcases List.mem_append.1 hi with hi | hi
              · exact le_trans (le_of_lt hlt) (i4 i hi c' t' hc')
              · simp at hi; subst hi
                rw [hsame c' t' hc']
            · rw [if_neg hlt]
              refine ⟨o, t0, rfl, i1, i2, i3, ?_⟩
              intro i hi c' t' hc'
              rcases List.mem_append.1 hi with hi | hi
              · exact i4 i hi c' t' hc'
              · simp at hi; subst hi
                rw [hsame c' t' hc']
                exact not_lt.1 hlt)
      rw [hb'] at h
      have hbb : b' = best := by
        have h' : (Res.ok b' : Res (Best K)) = .ok best := h
        injection h' with h'
      subst hbb
      rcases hI with ⟨hnil, -⟩ | ⟨o', t, rfl, i1, i2, i3, i4⟩
      · simp at hnil
      · simp only [Option.some.injEq] at ho
        subst ho
        refine ⟨t, i2, i3, fun c hc t' ht' hi' => ?_⟩
        obtain ⟨i, hi, hi2⟩ := hall c hc t' ht' hi'
        exact i4 i (by simpa using hi) c t' hi2

omit [LinearOrder K] in
theorem assignAt_ok {α : Type} {m : OMap α} {k : Nat} {v : α} (h : (m.get? k).isSome) :
    assignAt m k v = .ok (m.set k v) := by
  obtain ⟨x, hx⟩ := Option.isSome_iff_exists.1 h
  simp [assignAt, hx]

/-- loop invariant of the conflict resolution. `done` are the processed new grains, `dom` the keys of
`new_grains_to_old`. -/
structure MapInv (dist : P → P → K) (inter : P × K → P × K → Prop) (dc : Grain P K → Grain P K → K)
    (new old : OMap (Grain P K)) (dom done : Nat → Prop) (m : Mappings) : Prop where
  s1 : OMap.Sorted m.newToOld
  s2 : OMap.Sorted m.oldToNew
  keys : ∀ g, (m.newToOld.get? g).isSome ↔ dom g
  bij : ∀ g o, m.newToOld.get? g = some (some o) ↔ m.oldToNew.get? o = some g
  fin : ∀ g o, m.newToOld.get? g = some (some o) → done g
  sound : ∀ g o, m.newToOld.get? g = some (some o) →
    ∃ G O, new.get? g = some G ∧ old.get? o = some O ∧ O.op = G.op ∧ Touch inter O G ∧
      Nearest dist inter old O G
  unm : ∀ g G, done g → new.get? g = some G → m.newToOld.get? g = some none →
    (∀ o O, old.get? o = some O → O.op = G.op → ¬ Touch inter O G) ∨
    ∃ o O g' G', old.get? o = some O ∧ O.op = G.op ∧ (Touch inter O G ∧ Nearest dist inter old O G) ∧
      new.get? g' = some G' ∧ g' ≠ g ∧ m.newToOld.get? g' = some (some o) ∧ dc O G' ≤ dc O G

theorem grainStep_ok {G : Geometry P K} {inter : P × K → P × K → Prop}
    {query : List (P × K) → P × K → List Nat} (hq : QueryContract inter query)
    {new old : OMap (Grain P K)} {op : Nat} {ids : List Nat} (hnd : ids.Nodup)
    (hids : ∀ o, o ∈ ids ↔ ∃ O, old.get? o = some O ∧ O.op = op)
    {dom done : Nat → Prop} {m : Mappings} {gid : Nat} {gr : Grain P K}
    (hgr : new.get? gid = some gr) (hop : gr.op = op) (hdom : dom gid) (hnew : ¬ done gid)
    (hI : MapInv G.dist inter (Grain.distanceCenters G) new old dom done m) :
    ∃ m', grainStep G query new old (flatSpec old ids) m gid = .ok m' ∧
      MapInv G.dist inter (Grain.distanceCenters G) new old dom (fun g => done g ∨ g = gid) m' := by
  have hk : ∀ id ∈ ids, (old.get? id).isSome := by
    intro id hid
    obtain ⟨O, hO, -⟩ := (hids id).1 hid
    simp [hO]
  obtain ⟨best, hbest, hb1, hb2⟩ := search_ok (dist := G.dist) hq hnd hk gr.segments
  have candIff : ∀ o, CandOf inter old ids gr.segments o ↔
      ∃ O, old.get? o = some O ∧ O.op = gr.op ∧ Touch inter O gr := by
    intro o
    constructor
    · rintro ⟨ho, s, hs, t, ht, hi⟩
      obtain ⟨O, hO, hOop⟩ := (hids o).1 ho
      refine ⟨O, hO, hOop.trans hop.symm, s, hs, t, ?_, hi⟩
      simpa [segsOf, hO] using ht
    · rintro ⟨O, hO, hOop, s, hs, t, ht, hi⟩
      exact ⟨(hids o).2 ⟨O, hO, hOop.trans hop⟩, s, hs, t, by simpa [segsOf, hO] using ht, hi⟩
  -- an unprocessed grain is not mapped
  have hnone : m.newToOld.get? gid = some none := by
    obtain ⟨v, hv⟩ := Option.isSome_iff_exists.1 ((hI.keys gid).2 hdom)
    cases v with
    | none => exact hv
    | some o => exact absurd (hI.fin gid o hv) hnew
  unfold grainStep
  simp only [hgr, Res.at?_some, Res.ok_bind, hbest]
  cases hb : best.1 with
  | none =>
    refine ⟨m, rfl, ?_⟩
    refine { hI with fin := fun g o h => Or.inl (hI.fin g o h), unm := ?_ }
    intro g G' hd hg hn
    rcases hd with hd | rfl
    · exact hI.unm g G' hd hg hn
    · left
      intro o O hO hOop ht
      rw [hgr] at hg; injection hg with hg; subst hg
      exact hb2 hb o ((candIff o).2 ⟨O, hO, hOop, ht⟩)
  | some o =>
    obtain ⟨O, hO, hOop, hT0⟩ := (candIff o).1 (hb1 o hb)
    have hT : Touch inter O gr ∧ Nearest G.dist inter old O gr := by
      refine ⟨hT0, fun s hs => ?_⟩
      rw [hs] at hbest
      obtain ⟨t, ht, hi, hmin⟩ := search_nearest hq hnd hk hbest hb
      refine ⟨t, by simpa [segsOf, hO] using ht, hi, fun o' O' hO' hop' t' ht' hi' => ?_⟩
      exact hmin o' ((hids o').2 ⟨O', hO', hop'.trans hop⟩) t' (by simpa [segsOf, hO'] using ht') hi'
    simp only
    cases he : m.oldToNew.get? o with
    | none =>
      have hset : assignAt m.newToOld gid (some o) = .ok (m.newToOld.set gid (some o)) :=
        assignAt_ok (by simp [hnone])
      simp only [hset, Res.ok_bind]
      refine ⟨_, rfl, ?_⟩
      have hem : ∀ k, (m.oldToNew.emplace o gid).get? k =
          if k = o then some gid else m.oldToNew.get? k := by
        intro k; rw [OMap.get?_emplace hI.s2, he]; simp
      have hge := fun k => OMap.get?_set (k := gid) (v := some o) hI.s1 k
      have notin : ∀ o', m.oldToNew.get? o' ≠ some gid := by
        intro o' h
        have := (hI.bij gid o').2 h
        rw [hnone] at this; simp at this
      have notin2 : ∀ g, m.newToOld.get? g ≠ some (some o) := by
        intro g h
        have := (hI.bij g o).1 h
        rw [he] at this; simp at this
      refine ⟨OMap.sorted_set hI.s1, OMap.sorted_emplace hI.s2, ?_, ?_, ?_, ?_, ?_⟩
      · intro g; simp only [hge]; split
        · rename_i e; subst e; simp [hdom]
        · exact hI.keys g
      · intro g o'
        simp only [hge, hem]
        by_cases e1 : g = gid <;> by_cases e2 : o' = o
        · simp [e1, e2]
        · simp only [e1, e2, if_true, if_false]
          constructor
          · intro h; simp at h; exact absurd h.symm e2
          · intro h; exact absurd h (notin o')
        · simp only [e1, e2, if_true, if_false]
          constructor
          · intro h; exact absurd h (notin2 g)
          · intro h; simp at h; exact absurd h.symm e1
        · simp only [e1, e2, if_false]; exact hI.bij g o'
      · intro g o' h
        simp only [hge] at h
        split at h
        · rename_i e; exact Or.inr e
        · exact Or.inl (hI.fin g o' h)
      · intro g o' h
        simp only [hge] at h
        split at h
        · rename_i e; subst e; simp at h; subst h
          exact ⟨gr, O, hgr, hO, hOop, hT⟩
        · exact hI.sound g o' h
      · intro g G' hd hg hn
        simp only [hge] at hn
        split at hn
        · simp at hn
        · rename_i e
          rcases hd with hd | hd
          · rcases hI.unm g G' hd hg hn with h | ⟨o', O', g', G'', h1, h2, h3, h4, h5, h6, h7⟩
            · exact Or.inl h
            · refine Or.inr ⟨o', O', g', G'', h1, h2, h3, h4, h5, ?_, h7⟩
              simp only [hge]
              rw [if_neg]
              · exact h6
              · rintro rfl; rw [hnone] at h6; simp at h6
          · exact absurd hd e
    | some ex =>
      have hexo : m.newToOld.get? ex = some (some o) := (hI.bij ex o).2 he
      obtain ⟨E, O2, hE, hO2, hE2, hE3⟩ := hI.sound ex o hexo
      rw [hO] at hO2; injection hO2 with hO2; subst hO2
      have hexg : ex ≠ gid := by
        rintro rfl; rw [hnone] at hexo; simp at hexo
      have hov : overrideMapping G new old o gid ex =
          .ok (decide (Grain.distanceCenters G O gr < Grain.distanceCenters G O E)) := by
        simp [overrideMapping, hO, hgr, hE]
      simp only [hov, Res.ok_bind]
      by_cases hlt : Grain.distanceCenters G O gr < Grain.distanceCenters G O E
      · simp only [hlt, decide_true, if_true]
        have hset1 : assignAt m.newToOld ex none = .ok (m.newToOld.set ex none) :=
          assignAt_ok (by simp [hexo])
        have g1 := fun k => OMap.get?_set (k := ex) (v := (none : Option Nat)) hI.s1 k
        have hset2 : assignAt (m.newToOld.set ex none) gid (some o) =
            .ok ((m.newToOld.set ex none).set gid (some o)) :=
          assignAt_ok (by rw [g1, if_neg (Ne.symm hexg), hnone]; rfl)
        have hset3 : assignAt m.oldToNew o gid = .ok (m.oldToNew.set o gid) :=
          assignAt_ok (by simp [he])
        simp only [hset1, Res.ok_bind, hset2, hset3]
        refine ⟨_, rfl, ?_⟩
        have s1' : OMap.Sorted (m.newToOld.set ex none) := OMap.sorted_set hI.s1
        have g2 : ∀ k, ((m.newToOld.set ex none).set gid (some o)).get? k =
            if k = gid then some (some o) else if k = ex then some none else m.newToOld.get? k := by
          intro k; rw [OMap.get?_set s1', g1]
        have g3 := fun k => OMap.get?_set (k := o) (v := gid) hI.s2 k
        have notin : ∀ o', m.oldToNew.get? o' ≠ some gid := by
          intro o' h
          have := (hI.bij gid o').2 h
          rw [hnone] at this; simp at this
        refine ⟨OMap.sorted_set s1', OMap.sorted_set hI.s2, ?_, ?_, ?_, ?_, ?_⟩
        · intro g; simp only [g2]; split
          · rename_i e; subst e; simp [hdom]
          · split
            · rename_i e; subst e
              simp
              exact (hI.keys _).1 (by simp [hexo])
            · exact hI.keys g
        · intro g o'
          simp only [g2, g3]
          by_cases e1 : g = gid
          · subst e1
            by_cases e2 : o' = o
            · simp [e2]
            · simp only [if_true, e2, if_false]
              constructor
              · intro h; simp at h; exact absurd h.symm e2
              · intro h; exact absurd h (notin o')
          · by_cases e3 : g = ex
            · subst e3
              simp only [e1, if_false, if_true]
              by_cases e2 : o' = o
              · simp [e2, Ne.symm e1]
              · simp only [e2, if_false]
                constructor
                · intro h; simp at h
                · intro h
                  have := (hI.bij _ _).2 h
                  rw [hexo] at this; simp at this; exact absurd this.symm e2
            · simp only [e1, e3, if_false]
              by_cases e2 : o' = o
              · simp only [e2, if_true]
                constructor
                · intro h
                  have := (hI.bij _ _).1 h
                  rw [he] at this; simp at this; exact absurd this.symm e3
                · intro h; simp at h; exact absurd h.symm e1
              · simp only [e2, if_false]; exact hI.bij g o'
        · intro g o' h
          simp only [g2] at h
          split at h
          · rename_i e; exact Or.inr e
          · split at h
            · simp at h
            · exact Or.inl (hI.fin g o' h)
        · intro g o' h
          simp only [g2] at h
          split at h
          · rename_i e; subst e; simp at h; subst h
            exact ⟨gr, O, hgr, hO, hOop, hT⟩
          · split at h
            · simp at h
            · exact hI.sound g o' h
        · intro g G' hd hg hn
          simp only [g2] at hn
          split at hn
          · simp at hn
          · rename_i e
            split at hn
            · rename_i e3
              subst e3
              rw [hE] at hg; injection hg with hg; subst hg
              refine Or.inr ⟨o, O, gid, gr, hO, hE2, hE3, hgr, Ne.symm e, ?_, le_of_lt hlt⟩
              simp [g2]
            · rename_i e3
              rcases hd with hd | hd
              · rcases hI.unm g G' hd hg hn with h | ⟨o', O', g', G'', h1, h2, h3, h4, h5, h6, h7⟩
                · exact Or.inl h
                · by_cases e4 : g' = ex
                  · subst e4
                    rw [hexo] at h6; simp at h6; subst h6
                    rw [hO] at h1; injection h1 with h1; subst h1
                    rw [hE] at h4; injection h4 with h4; subst h4
                    refine Or.inr ⟨o, O, gid, gr, hO, h2, h3, hgr, Ne.symm e, ?_,
                      le_trans (le_of_lt hlt) h7⟩
                    simp [g2]
                  · refine Or.inr ⟨o', O', g', G'', h1, h2, h3, h4, h5, ?_, h7⟩
                    simp only [g2]
                    rw [if_neg, if_neg e4]
                    · exact h6
                    · rintro rfl; rw [hnone] at h6; simp at h6
              · exact absurd hd e
      · simp only [hlt, decide_false]
        refine ⟨m, by simp, ?_⟩
        refine { hI with fin := fun g o h => Or.inl (hI.fin g o h), unm := ?_ }
        intro g G' hd hg hn
        rcases hd with hd | rfl
        · exact hI.unm g G' hd hg hn
        · right
          rw [hgr] at hg; injection hg with hg; subst hg
          exact ⟨o, O, ex, E, hO, hOop, hT, hE, hexg, hexo, not_lt.1 hlt⟩

omit [LinearOrder K] in
theorem foldl_emplace_none {m : OMap (Option Nat)} (hs : OMap.Sorted m) (l : List Nat) :
    OMap.Sorted (l.foldl (fun acc id => acc.emplace id none) m) ∧
    ∀ k, (l.foldl (fun acc id => acc.emplace id none) m).get? k =
      match m.get? k with
      | some v => some v
      | none => if k ∈ l then some none else none := by
  induction l generalizing m with
  | nil => refine ⟨hs, fun k => ?_⟩; simp; cases m.get? k <;> rfl
  | cons a l ih =>
    obtain ⟨h1, h2⟩ := ih (OMap.sorted_emplace (k := a) (v := none) hs)
    refine ⟨h1, fun k => ?_⟩
    simp only [List.foldl_cons]
    rw [h2 k, OMap.get?_emplace hs]
    by_cases e : k = a
    · subst e
      simp only [if_true]
      cases m.get? k <;> simp
    · simp only [e, if_false, List.mem_cons, false_or]

omit [LinearOrder K] in
theorem mem_perOp {grains : OMap (Grain P K)} (hs : OMap.Sorted grains) {op id : Nat} :
    id ∈ (grains.filter (fun p => decide (p.2.op = op))).map (·.1) ↔
      ∃ g, grains.get? id = some g ∧ g.op = op := by
  simp only [List.mem_map, List.mem_filter, decide_eq_true_eq]
  constructor
  · rintro ⟨⟨k, g⟩, ⟨h1, h2⟩, rfl⟩
    exact ⟨g, OMap.get?_of_mem hs h1, h2⟩
  · rintro ⟨g, h1, h2⟩
    exact ⟨(id, g), ⟨OMap.mem_of_get? h1, h2⟩, rfl⟩

omit [LinearOrder K] in
theorem nodup_perOp {grains : OMap (Grain P K)} (hs : OMap.Sorted grains) {op : Nat} :
    ((grains.filter (fun p => decide (p.2.op = op))).map (·.1)).Nodup :=
  List.Nodup.sublist (List.Sublist.map _ List.filter_sublist) (OMap.keys_nodup hs)

theorem opStep_ok {G : Geometry P K} {inter : P × K → P × K → Prop}
    {query : List (P × K) → P × K → List Nat} (hq : QueryContract inter query)
    {new old : OMap (Grain P K)} (hsn : OMap.Sorted new) (hso : OMap.Sorted old)
    {nl ol : List (List Nat)} {op : Nat}
    (hnl : nl[op]? = some ((new.filter (fun p => decide (p.2.op = op))).map (·.1)))
    (hol : ol[op]? = some ((old.filter (fun p => decide (p.2.op = op))).map (·.1)))
    {D : Nat → Prop} (hD : ∀ g G', new.get? g = some G' → G'.op = op → ¬ D g) {m : Mappings}
    (hI : MapInv G.dist inter (Grain.distanceCenters G) new old D D m) :
    ∃ m', opStep G query new old nl ol m op = .ok m' ∧
      MapInv G.dist inter (Grain.distanceCenters G) new old
        (fun g => D g ∨ ∃ G', new.get? g = some G' ∧ G'.op = op)
        (fun g => D g ∨ ∃ G', new.get? g = some G' ∧ G'.op = op) m' := by
  have hol' := Res.index_eq_ok.2 hol
  have hnl' := Res.index_eq_ok.2 hnl
  set oi := (old.filter (fun p => decide (p.2.op = op))).map (·.1) with hoi
  set ni := (new.filter (fun p => decide (p.2.op = op))).map (·.1) with hni
  have hnio : ∀ o, o ∈ oi ↔ ∃ O, old.get? o = some O ∧ O.op = op := fun o => mem_perOp hso
  have hnin : ∀ o, o ∈ ni ↔ ∃ O, new.get? o = some O ∧ O.op = op := fun o => mem_perOp hsn
  have hf : flattenOld old oi = .ok (flatSpec old oi) := flattenOld_ok (by
    intro id hid
    obtain ⟨O, hO, -⟩ := (hnio id).1 hid
    simp [hO])
  unfold opStep
  simp only [hnl', hol', Res.ok_bind, hf]
  obtain ⟨es, eg⟩ := foldl_emplace_none hI.s1 ni
  have hmn : ∀ g, g ∈ ni → m.newToOld.get? g = none := by
    intro g hg
    obtain ⟨G', h1, h2⟩ := (hnin g).1 hg
    have := hD g G' h1 h2
    rw [← hI.keys g] at this
    simpa using this
  have hval : ∀ g o, (ni.foldl (fun acc id => acc.emplace id none) m.newToOld).get? g = some (some o) ↔
      m.newToOld.get? g = some (some o) := by
    intro g o
    rw [eg g]
    cases m.newToOld.get? g with
    | some v => rfl
    | none => simp
  obtain ⟨m', hm', hI'⟩ := Res.foldlM_inv_prefix (grainStep G query new old (flatSpec old oi))
    (fun pre m => MapInv G.dist inter (Grain.distanceCenters G) new old (fun g => D g ∨ g ∈ ni)
      (fun g => D g ∨ g ∈ pre) m) ni []
    { m with newToOld := ni.foldl (fun acc id => acc.emplace id none) m.newToOld } (by
      refine ⟨es, hI.s2, ?_, ?_, ?_, ?_, ?_⟩
      · intro g
        simp only [eg g]
        have := hI.keys g
        cases h : m.newToOld.get? g with
        | some v => simp [h] at this; simp [this]
        | none => simp [h] at this; simp [this]
      · intro g o; simp only [hval]; exact hI.bij g o
      · intro g o h; simp only [hval] at h; exact Or.inl (hI.fin g o h)
      · intro g o h; simp only [hval] at h; exact hI.sound g o h
      · intro g G' hd hg hn
        simp at hd
        have hv : m.newToOld.get? g = some none := by
          have := eg g
          simp only [] at hn
          rw [hn] at this
          obtain ⟨v, hv⟩ := Option.isSome_iff_exists.1 ((hI.keys g).2 hd)
          rw [hv] at this; simp at this; rw [hv, ← this]
        rcases hI.unm g G' hd hg hv with h | ⟨o', O', g', G'', h1, h2, h3, h4, h5, h6, h7⟩
        · exact Or.inl h
        · exact Or.inr ⟨o', O', g', G'', h1, h2, h3, h4, h5, (hval _ _).2 h6, h7⟩)
    (by
      intro p a q s hpq hIp
      simp only [List.nil_append] at hpq
      have hnd : ni.Nodup := nodup_perOp hsn
      have ha : a ∈ ni := by rw [hpq]; simp
      obtain ⟨gr, hgr, hop⟩ := (hnin a).1 ha
      have hap : a ∉ p := by
        rw [hpq, List.nodup_append] at hnd
        intro h; exact hnd.2.2 a h a (by simp) rfl
      obtain ⟨s', h1, h2⟩ := grainStep_ok (G := G) hq (nodup_perOp hso) hnio hgr hop
        (dom := fun g => D g ∨ g ∈ ni) (done := fun g => D g ∨ g ∈ p) (Or.inr ha)
        (by
          rintro (h | h)
          · exact hD a gr hgr hop h
          · exact hap h) hIp
      refine ⟨s', h1, ?_⟩
      have : (fun g => D g ∨ g ∈ p ++ [a]) = (fun g => (D g ∨ g ∈ p) ∨ g = a) := by
        funext g; simp [or_assoc]
      rw [this]; exact h2)
  refine ⟨m', hm', ?_⟩
  simp only [List.nil_append] at hI'
  have : (fun g => D g ∨ g ∈ ni) = (fun g => D g ∨ ∃ G', new.get? g = some G' ∧ G'.op = op) := by
    funext g; simp only [hnin]
  rw [this] at hI'
  exact hI'

theorem transfer_core {G : Geometry P K} {inter : P × K → P × K → Prop}
    {query : List (P × K) → P × K → List Nat} (hq : QueryContract inter query)
    {new old : OMap (Grain P K)} (hsn : OMap.Sorted new) (hso : OMap.Sorted old) {n : Nat}
    (hn : ∀ p ∈ new, p.2.op < n) (ho : ∀ p ∈ old, p.2.op < n) :
    ∃ m, transferGrainIds G query new old n = .ok m ∧ OMap.Sorted m ∧
      IsMatching G.dist inter (Grain.distanceCenters G) new old m := by
  obtain ⟨ol, hol, hol1, hol2⟩ := extractPerOp_ok ho
  obtain ⟨nl, hnl, hnl1, hnl2⟩ := extractPerOp_ok hn
  unfold transferGrainIds
  simp only [hol, hnl, Res.ok_bind]
  obtain ⟨m, hm, hI⟩ := Res.foldlM_inv_prefix (opStep G query new old nl ol)
    (fun pre m => MapInv G.dist inter (Grain.distanceCenters G) new old
      (fun g => ∃ G', new.get? g = some G' ∧ G'.op ∈ pre)
      (fun g => ∃ G', new.get? g = some G' ∧ G'.op ∈ pre) m) (List.range n) [] ⟨[], []⟩
    ⟨OMap.sorted_nil, OMap.sorted_nil, by simp, by simp, by simp, by simp, by simp⟩
    (by
      intro p op q s hpq hIp
      simp only [List.nil_append] at hpq
      have hop : op < n := by
        have : op ∈ List.range n := by rw [hpq]; simp
        simpa using this
      have hopp : op ∉ p := by
        have hnd : (List.range n).Nodup := List.nodup_range
        rw [hpq, List.nodup_append] at hnd
        intro h; exact hnd.2.2 op h op (by simp) rfl
      obtain ⟨s', h1, h2⟩ := opStep_ok (G := G) hq hsn hso (hnl2 op hop) (hol2 op hop)
        (D := fun g => ∃ G', new.get? g = some G' ∧ G'.op ∈ p)
        (by
          rintro g G' h1 h2 ⟨G'', h3, h4⟩
          rw [h1] at h3; injection h3 with h3; subst h3
          rw [h2] at h4; exact hopp h4) hIp
      refine ⟨s', h1, ?_⟩
      have : (fun g => ∃ G', new.get? g = some G' ∧ G'.op ∈ p ++ [op]) =
          (fun g => (∃ G', new.get? g = some G' ∧ G'.op ∈ p) ∨
            ∃ G', new.get? g = some G' ∧ G'.op = op) := by
        funext g
        simp only [List.mem_append, List.mem_singleton, eq_iff_iff]
        constructor
        · rintro ⟨G', h1, h2 | h2⟩
          · exact Or.inl ⟨G', h1, h2⟩
          · exact Or.inr ⟨G', h1, h2⟩
        · rintro (⟨G', h1, h2⟩ | ⟨G', h1, h2⟩)
          · exact ⟨G', h1, Or.inl h2⟩
          · exact ⟨G', h1, Or.inr h2⟩
      rw [this]; exact h2)
  have hdone : ∀ g G', new.get? g = some G' → G'.op ∈ List.range n := by
    intro g G' h
    simpa using hn (g, G') (OMap.mem_of_get? h)
  simp only [List.nil_append] at hI
  refine ⟨m.newToOld, by simp [hm], hI.s1, ?_, hI.sound, ?_, ?_⟩
  · intro g
    rw [hI.keys g]
    constructor
    · rintro ⟨G', h, -⟩; simp [h]
    · intro h
      obtain ⟨G', hG⟩ := Option.isSome_iff_exists.1 h
      exact ⟨G', hG, hdone g G' hG⟩
  · intro g g' o h1 h2
    have e1 := (hI.bij g o).1 h1
    have e2 := (hI.bij g' o).1 h2
    rw [e1] at e2; simpa using e2
  · intro g G' hg hnone
    exact hI.unm g G' ⟨G', hg, hdone g G' hg⟩ hg hnone

end
end Verif
