import Verif.Lemmas.Flood
import Verif.Lemmas.Stitch
import Verif.Spec.Connect
/-! # Lemmas about the parallel detection -/
namespace Verif
open Spec

theorem Res.mapM_ok {α β : Type} {f : α → Res β} {F : α → β} : ∀ (l : List α),
    (∀ a ∈ l, f a = .ok (F a)) → l.mapM f = .ok (l.map F)
  | [], _ => rfl
  | a :: l, h => by
    rw [List.mapM_cons, h a (by simp), Res.mapM_ok l (fun b hb => h b (by simp [hb]))]
    rfl

theorem flatten_get {α : Type} : ∀ {L : List (List α)} {r i : Nat} {l : List α}, L[r]? = some l →
    i < l.length → L.flatten[offsetOf (L.map List.length) r + i]? = l[i]?
  | [], r, i, l, h, _ => by simp at h
  | x :: L, 0, i, l, h, hi => by
    simp at h; subst h
    simp [List.getElem?_append_left hi]
  | x :: L, r + 1, i, l, h, hi => by
    simp at h
    have := flatten_get h hi
    rw [List.map_cons, offsetOf_cons, List.flatten_cons, List.getElem?_append_right (by omega)]
    rw [← this]
    congr 1
    omega

theorem flatten_split {α : Type} : ∀ {L : List (List α)} {p : Nat} {x : α}, L.flatten[p]? = some x →
    ∃ r i l, L[r]? = some l ∧ l[i]? = some x ∧ p = offsetOf (L.map List.length) r + i
  | [], p, x, h => by simp at h
  | y :: L, p, x, h => by
    rw [List.flatten_cons] at h
    by_cases hp : p < y.length
    · rw [List.getElem?_append_left hp] at h
      exact ⟨0, p, y, rfl, h, by simp⟩
    · rw [List.getElem?_append_right (by omega)] at h
      obtain ⟨r, i, l, h1, h2, h3⟩ := flatten_split h
      exact ⟨r + 1, i, l, by simpa using h1, h2, by simp; omega⟩

variable {K : Type} [LinearOrder K] {M : FMesh K} {thr : K} {active : List Nat} {P : Partition}
  {L : List (LocalParticles K)}

omit [LinearOrder K] in
theorem leafOf_onRank {P : Partition} {r a b : Nat} : LeafOf (onRank M P r) a b ↔ LeafOf M a b := by
  constructor
  · intro h
    induction h with
    | leaf h => exact .leaf h
    | child h _ ih => exact .child h ih
  · intro h
    induction h with
    | leaf h => exact .leaf h
    | child h _ ih => exact .child h ih

omit [LinearOrder K] in
theorem leafOf_whole {a b : Nat} : LeafOf (whole M) a b ↔ LeafOf M a b := by
  constructor
  · intro h
    induction h with
    | leaf h => exact .leaf h
    | child h _ ih => exact .child h ih
  · intro h
    induction h with
    | leaf h => exact .leaf h
    | child h _ ih => exact .child h ih

omit [LinearOrder K] in
theorem across_onRank {P : Partition} {r a b : Nat} : Across (onRank M P r) a b ↔ Across M a b := by
  simp only [Across, leafOf_onRank]; rfl

omit [LinearOrder K] in
theorem across_whole {a b : Nat} : Across (whole M) a b ↔ Across M a b := by
  simp only [Across, leafOf_whole]; rfl

theorem inside_onRank {P : Partition} {r c : Nat} :
    Inside (onRank M P r) thr c ↔ Inside (whole M) thr c ∧ P.owner c = r := by
  simp only [Inside, onRank, whole, decide_eq_true_eq]
  tauto

omit [LinearOrder K] in
theorem localCounts_get {r : Nat} {lp : LocalParticles K} (h : L[r]? = some lp) :
    (localCounts L).getD r 0 = lp.maxs.length := by
  simp [localCounts, List.getD, h]

/-- what a shifted number tells -/
theorem shiftedId_spec (S : ParallelSetup M thr active P L) {c g : Nat} (hc : c ∈ active) :
    shiftedId P L c = some g ↔ ∃ lp k, L[P.owner c]? = some lp ∧ lp.ids c = some k ∧
      k < lp.maxs.length ∧ g = offsetOf (localCounts L) (P.owner c) + k ∧ Inside (whole M) thr c := by
  obtain ⟨lp, hlp⟩ : ∃ lp, L[P.owner c]? = some lp := ⟨_, List.getElem?_eq_getElem (S.owner c hc)⟩
  have hR := S.regions _ lp hlp
  constructor
  · intro h
    rw [shiftedId, hlp] at h
    simp only [Option.map_eq_some_iff] at h
    obtain ⟨k, hk, rfl⟩ := h
    have hin : Inside (onRank M P (P.owner c)) thr c := by
      by_contra hn
      rw [hR.outside c (Or.inl hn)] at hk
      simp at hk
    obtain ⟨k', hk', he⟩ := (hR.inside c hc).1 hin
    rw [hk] at he; cases he
    exact ⟨lp, k, rfl.trans hlp, hk, hk', rfl, (inside_onRank.1 hin).1⟩
  · rintro ⟨lp', k, h1, h2, h3, rfl, -⟩
    rw [shiftedId, h1]
    simp [h2]

theorem shiftedId_ne_none (S : ParallelSetup M thr active P L) {c : Nat} (hc : c ∈ active) :
    Inside (whole M) thr c ↔ ∃ g, shiftedId P L c = some g := by
  constructor
  · intro h
    obtain ⟨lp, hlp⟩ : ∃ lp, L[P.owner c]? = some lp := ⟨_, List.getElem?_eq_getElem (S.owner c hc)⟩
    obtain ⟨k, hk, he⟩ := ((S.regions _ lp hlp).inside c hc).1 (inside_onRank.2 ⟨h, rfl⟩)
    exact ⟨_, (shiftedId_spec S hc).2 ⟨lp, k, hlp, he, hk, rfl, h⟩⟩
  · rintro ⟨g, hg⟩
    obtain ⟨_, _, _, _, _, _, h⟩ := (shiftedId_spec S hc).1 hg
    exact h

theorem shiftedId_holds (S : ParallelSetup M thr active P L) {c g : Nat} (hc : c ∈ active)
    (h : shiftedId P L c = some g) : Holds (localCounts L) (P.owner c) g := by
  obtain ⟨lp, k, h1, h2, h3, rfl, -⟩ := (shiftedId_spec S hc).1 h
  refine ⟨by simpa [localCounts] using S.owner c hc, by omega, ?_⟩
  rw [offsetOf_succ, localCounts_get h1]
  omega

/-- equal shifted numbers mean: same rank and connected there -/
theorem shiftedId_same (S : ParallelSetup M thr active P L) {a b g : Nat} (ha : a ∈ active)
    (hb : b ∈ active) (h1 : shiftedId P L a = some g) (h2 : shiftedId P L b = some g) :
    Connected (whole M) thr a b := by
  have hr : P.owner a = P.owner b := by
    rw [(holds_iff.1 (shiftedId_holds S ha h1)).2, (holds_iff.1 (shiftedId_holds S hb h2)).2]
  obtain ⟨lp, k, p1, p2, p3, p4, p5⟩ := (shiftedId_spec S ha).1 h1
  obtain ⟨lp', k', q1, q2, q3, q4, q5⟩ := (shiftedId_spec S hb).1 h2
  rw [← hr, p1] at q1; cases q1
  rw [hr] at p4
  have hk : k = k' := by omega
  subst hk
  have hc := ((S.regions _ lp p1).same a ha b hb (inside_onRank.2 ⟨p5, rfl⟩)
    (inside_onRank.2 ⟨q5, hr.symm⟩)).1 (by rw [p2, q2])
  have : ∀ y, Connected (onRank M P (P.owner a)) thr a y → Connected (whole M) thr a y := by
    intro y hy
    induction hy with
    | refl => exact .refl
    | tail _ h ih => exact ih.tail ⟨across_whole.2 (across_onRank.1 h.1), (inside_onRank.1 h.2).1⟩
  exact this b hc

/-- the contact lists of one rank -/
theorem buildConnectivity_ok (S : ParallelSetup M thr active P L) {r : Nat} {lp : LocalParticles K}
    (hr : L[r]? = some lp) :
    ∃ conn, buildConnectivity P L r = .ok conn ∧ conn.length = lp.maxs.length ∧
      ∀ (i : Nat) (l : List GId), conn[i]? = some l → l.Pairwise gidLt ∧ ∀ e, e ∈ l ↔
        ∃ p ∈ P.faces r, P.owner p.2 = r ∧ e.1 = P.owner p.1 ∧ shiftedId P L p.1 = some e.2 ∧
          shiftedId P L p.2 = some (offsetOf (localCounts L) r + i) := by
  have h := Res.foldlM_inv_prefix
    (addContact P (shiftedId P L) (offsetOf (localCounts L) r) r)
    (fun pre (acc : List (List GId)) => acc.length = lp.maxs.length ∧
      ∀ (i : Nat) (l : List GId), acc[i]? = some l → l.Pairwise gidLt ∧ ∀ e, e ∈ l ↔
        ∃ p ∈ pre, P.owner p.2 = r ∧ e.1 = P.owner p.1 ∧ shiftedId P L p.1 = some e.2 ∧
          shiftedId P L p.2 = some (offsetOf (localCounts L) r + i))
    (P.faces r) [] (List.replicate ((localCounts L).getD r 0) [])
    (by
      refine ⟨by rw [List.length_replicate, localCounts_get hr], ?_⟩
      intro i l hl
      rw [List.getElem?_replicate] at hl
      split at hl
      · cases hl; simp
      · simp at hl)
    (by
      intro pre p post acc hpre hI
      obtain ⟨hlen, hI⟩ := hI
      have hp : p ∈ P.faces r := by
        have : p ∈ [] ++ P.faces r := by rw [hpre]; simp
        simpa using this
      obtain ⟨hgh, hp1, hp2⟩ := S.ghost r p hp
      have skip : (∀ i g, ¬ (P.owner p.2 = r ∧ shiftedId P L p.1 = some g ∧
          shiftedId P L p.2 = some (offsetOf (localCounts L) r + i))) →
          ∀ (i : Nat) (l : List GId), acc[i]? = some l → l.Pairwise gidLt ∧ ∀ e, e ∈ l ↔
            ∃ q ∈ pre ++ [p], P.owner q.2 = r ∧ e.1 = P.owner q.1 ∧ shiftedId P L q.1 = some e.2 ∧
              shiftedId P L q.2 = some (offsetOf (localCounts L) r + i) := by
        intro hno i l hl
        refine ⟨(hI i l hl).1, fun e => ?_⟩
        rw [(hI i l hl).2 e]
        constructor
        · rintro ⟨q, hq, h⟩; exact ⟨q, by simp [hq], h⟩
        · rintro ⟨q, hq, h1, h2, h3, h4⟩
          rcases List.mem_append.1 hq with hq | hq
          · exact ⟨q, hq, h1, h2, h3, h4⟩
          · rw [List.mem_singleton] at hq
            subst hq
            exact absurd ⟨h1, h3, h4⟩ (hno i e.2)
      cases h1 : shiftedId P L p.1 with
      | none =>
        refine ⟨acc, by simp [addContact, h1], hlen, skip ?_⟩
        rintro i g ⟨-, h, -⟩
        rw [h1] at h; simp at h
      | some g =>
        by_cases ho : P.owner p.2 = r
        · cases h2 : shiftedId P L p.2 with
          | none =>
            refine ⟨acc, by simp [addContact, h1, h2, ho], hlen, skip ?_⟩
            rintro i g ⟨-, -, h⟩
            rw [h2] at h; simp at h
          | some l2 =>
            obtain ⟨lp', k, q1, q2, q3, q4, q5⟩ := (shiftedId_spec S hp2).1 h2
            rw [ho] at q1 q4
            rw [hr] at q1; cases q1
            refine ⟨acc.modify (l2 - offsetOf (localCounts L) r)
              (fun t => uniqG (sortG (t ++ [(P.owner p.1, g)]))), ?_, by simpa using hlen, ?_⟩
            · simp only [addContact, h1, h2, ho]
              rw [if_neg (by simp), if_pos ⟨by omega, by omega⟩]
            · intro i l hl
              rw [List.getElem?_modify] at hl
              cases ha : acc[i]? with
              | none => rw [ha] at hl; simp at hl
              | some l0 =>
                rw [ha] at hl
                simp only [Option.map_eq_map, Option.map_some, Option.some.injEq] at hl
                have hold := hI i l0 ha
                by_cases hi : l2 - offsetOf (localCounts L) r = i
                · rw [if_pos hi] at hl
                  subst hl
                  refine ⟨sorted_merge _ _, fun e => ?_⟩
                  rw [mem_merge, hold.2 e, List.mem_singleton]
                  constructor
                  · rintro (⟨q, hq, h⟩ | rfl)
                    · exact ⟨q, by simp [hq], h⟩
                    · exact ⟨p, by simp, ho, rfl, h1, by rw [h2]; congr 1; omega⟩
                  · rintro ⟨q, hq, r1, r2, r3, r4⟩
                    rcases List.mem_append.1 hq with hq | hq
                    · exact Or.inl ⟨q, hq, r1, r2, r3, r4⟩
                    · rw [List.mem_singleton] at hq
                      subst hq
                      rw [h1] at r3
                      exact Or.inr (Prod.ext r2 (by simpa using r3.symm))
                · rw [if_neg hi] at hl
                  have hl : l0 = l := hl
                  subst hl
                  refine ⟨hold.1, fun e => ?_⟩
                  rw [hold.2 e]
                  constructor
                  · rintro ⟨q, hq, h⟩; exact ⟨q, by simp [hq], h⟩
                  · rintro ⟨q, hq, r1, r2, r3, r4⟩
                    rcases List.mem_append.1 hq with hq | hq
                    · exact ⟨q, hq, r1, r2, r3, r4⟩
                    · rw [List.mem_singleton] at hq
                      subst hq
                      rw [h2] at r4
                      simp at r4
                      omega
        · refine ⟨acc, by simp [addContact, h1, ho], hlen, skip ?_⟩
          rintro i g ⟨h, -⟩
          exact ho h)
  obtain ⟨conn, e, h1, h2⟩ := h
  exact ⟨conn, e, h1, by simpa using h2⟩

/-- the contact lists of all ranks -/
theorem connectivity_ok (S : ParallelSetup M thr active P L) :
    ∃ conns, (List.range L.length).mapM (buildConnectivity P L) = .ok conns ∧
      conns.map List.length = localCounts L ∧ conns.length = L.length ∧
      ContactLists (localCounts L) conns.flatten ∧
      ∀ g q, Touches conns.flatten g q ↔ ∃ r, ∃ p ∈ P.faces r, P.owner p.2 = r ∧
        shiftedId P L p.2 = some g ∧ shiftedId P L p.1 = some q := by
  have hex : ∀ r, ∃ conn, r < L.length → (buildConnectivity P L r = .ok conn ∧
      conn.length = (localCounts L).getD r 0 ∧
      ∀ (i : Nat) (l : List GId), conn[i]? = some l → l.Pairwise gidLt ∧ ∀ e, e ∈ l ↔
        ∃ p ∈ P.faces r, P.owner p.2 = r ∧ e.1 = P.owner p.1 ∧ shiftedId P L p.1 = some e.2 ∧
          shiftedId P L p.2 = some (offsetOf (localCounts L) r + i)) := by
    intro r
    by_cases hr : r < L.length
    · obtain ⟨conn, h1, h2, h3⟩ := buildConnectivity_ok S (List.getElem?_eq_getElem hr)
      exact ⟨conn, fun _ => ⟨h1, by rw [h2, localCounts_get (List.getElem?_eq_getElem hr)], h3⟩⟩
    · exact ⟨[], fun h => absurd h hr⟩
  choose F hF using hex
  have hget : ∀ (r : Nat) (l : List (List GId)), ((List.range L.length).map F)[r]? = some l →
      r < L.length ∧ l = F r := by
    intro r l h
    rw [List.getElem?_map] at h
    by_cases hr : r < L.length
    · rw [List.getElem?_range hr] at h
      simp at h
      exact ⟨hr, h.symm⟩
    · rw [List.getElem?_eq_none (by simpa using hr)] at h
      simp at h
  have hlens : ((List.range L.length).map F).map List.length = localCounts L := by
    apply List.ext_getElem?
    intro r
    rw [List.getElem?_map]
    by_cases hr : r < L.length
    · rw [List.getElem?_map, List.getElem?_range hr]
      have := (hF r hr).2.1
      simp only [Option.map_some, this, localCounts, List.getElem?_map, List.getElem?_eq_getElem hr,
        List.getD, Option.getD_some]
    · rw [List.getElem?_eq_none (by simpa using hr), List.getElem?_eq_none (by simpa [localCounts] using hr)]
      rfl
  have hentry : ∀ (g : Nat) (l : List GId), ((List.range L.length).map F).flatten[g]? = some l →
      l.Pairwise gidLt ∧ ∃ r, r < L.length ∧ Holds (localCounts L) r g ∧ ∀ e, e ∈ l ↔
        ∃ p ∈ P.faces r, P.owner p.2 = r ∧ e.1 = P.owner p.1 ∧ shiftedId P L p.1 = some e.2 ∧
          shiftedId P L p.2 = some g := by
    intro g l hl
    obtain ⟨r, i, l', h1, h2, h3⟩ := flatten_split hl
    rw [hlens] at h3
    obtain ⟨hr, rfl⟩ := hget r l' h1
    obtain ⟨-, f2, f3⟩ := hF r hr
    have hi := (List.getElem?_eq_some_iff.1 h2).1
    refine ⟨(f3 i l h2).1, r, hr, ⟨by simpa [localCounts] using hr, by omega, ?_⟩, ?_⟩
    · rw [offsetOf_succ]; omega
    · rw [h3]; exact (f3 i l h2).2
  refine ⟨(List.range L.length).map F, Res.mapM_ok _ (fun r hr => (hF r (List.mem_range.1 hr)).1),
    hlens, by simp, ⟨?_, ?_, ?_, ?_⟩, ?_⟩
  · rw [← hlens, List.length_flatten]
  · intro g l hl; exact (hentry g l hl).1
  · intro g l hl e he
    obtain ⟨-, r, hr, -, h⟩ := hentry g l hl
    obtain ⟨p, hp, h1, h2, h3, h4⟩ := (h e).1 he
    rw [h2]
    exact shiftedId_holds S (S.ghost r p hp).2.1 h3
  · intro g l hl e he hh
    obtain ⟨-, r, hr, hg, h⟩ := hentry g l hl
    obtain ⟨p, hp, h1, h2, h3, h4⟩ := (h e).1 he
    apply (S.ghost r p hp).1
    rw [← h2, (holds_iff.1 hh).2, (holds_iff.1 hg).2]
  · intro g q
    constructor
    · rintro ⟨l, e, hl, he, rfl⟩
      obtain ⟨-, r, hr, hg, h⟩ := hentry g l hl
      obtain ⟨p, hp, h1, h2, h3, h4⟩ := (h e).1 he
      exact ⟨r, p, hp, h1, h4, h3⟩
    · rintro ⟨r, p, hp, h1, h2, h3⟩
      have hh := shiftedId_holds S (S.ghost r p hp).2.2 h2
      have hlt : g < ((List.range L.length).map F).flatten.length := by
        rw [List.length_flatten, hlens]; exact (holds_iff.1 hh).1
      have hl := List.getElem?_eq_getElem hlt
      obtain ⟨-, r', hr', hg, h⟩ := hentry g _ hl
      have hrr : r' = r := by rw [(holds_iff.1 hg).2, ← h1, (holds_iff.1 hh).2]
      subst hrr
      exact ⟨_, (P.owner p.1, q), hl, (h _).2 ⟨p, hp, h1, rfl, h3, h2⟩, rfl⟩

/-- particles touching each other in the lists are the connected regions of the whole mesh -/
theorem same_iff_connected (S : ParallelSetup M thr active P L) {input : List (List GId)}
    (hT : ∀ g q, Touches input g q ↔ ∃ r, ∃ p ∈ P.faces r, P.owner p.2 = r ∧
        shiftedId P L p.2 = some g ∧ shiftedId P L p.1 = some q)
    {a b g q : Nat} (ha : a ∈ active) (hb : b ∈ active) (hag : shiftedId P L a = some g)
    (hbq : shiftedId P L b = some q) :
    SameParticle input g q ↔ Connected (whole M) thr a b := by
  -- connectedness is symmetric
  have csym : ∀ x y, Connected (whole M) thr x y → Inside (whole M) thr x → x ∈ active →
      Connected (whole M) thr y x ∧ Inside (whole M) thr y ∧ y ∈ active := by
    intro x y hxy hx hxa
    induction hxy with
    | refl => exact ⟨.refl, hx, hxa⟩
    | tail _ hstep ih =>
      obtain ⟨i1, i2, i3⟩ := ih
      have hac := across_whole.1 hstep.1
      have hy := S.reach _ i3 _ hac
      exact ⟨Relation.ReflTransGen.head ⟨across_whole.2 (S.sym _ i3 _ hy hac), i2⟩ i1, hstep.2, hy⟩
  have hia := (shiftedId_ne_none S ha).2 ⟨g, hag⟩
  constructor
  · intro h
    let f : Nat → Nat → Prop := fun p y => ∃ x ∈ active, shiftedId P L x = some p ∧
      Connected (whole M) thr x y
    have hf : ∀ p p', Touches input p p' → f p = f p' := by
      intro p p' ht
      obtain ⟨r, c, hc, h1, h2, h3⟩ := (hT p p').1 ht
      obtain ⟨hgh, hc1, hc2⟩ := S.ghost r c hc
      have hac : Across M c.1 c.2 := by
        refine (S.faces c.1 hc1 c.2 hc2 (by rw [h1]; exact hgh)).1 ?_
        rw [h1]; exact hc
      have hi1 := (shiftedId_ne_none S hc1).2 ⟨p', h3⟩
      have hi2 := (shiftedId_ne_none S hc2).2 ⟨p, h2⟩
      have c12 : Connected (whole M) thr c.1 c.2 := .single ⟨across_whole.2 hac, hi2⟩
      have c21 : Connected (whole M) thr c.2 c.1 :=
        .single ⟨across_whole.2 (S.sym _ hc1 _ hc2 hac), hi1⟩
      funext y
      apply propext
      constructor
      · rintro ⟨x, hx, hxp, hxy⟩
        have := shiftedId_same S hc2 hx h2 hxp
        exact ⟨c.1, hc1, h3, c12.trans (this.trans hxy)⟩
      · rintro ⟨x, hx, hxp, hxy⟩
        have := shiftedId_same S hc1 hx h3 hxp
        exact ⟨c.2, hc2, h2, c21.trans (this.trans hxy)⟩
    have hfe := eqvGen_lift f hf h
    have : f q b := ⟨b, hb, hbq, .refl⟩
    rw [← hfe] at this
    obtain ⟨x, hx, hxg, hxb⟩ := this
    exact (shiftedId_same S ha hx hag hxg).trans hxb
  · intro h
    have key : ∀ y, Connected (whole M) thr a y → y ∈ active ∧ Inside (whole M) thr y ∧
        ∀ q, shiftedId P L y = some q → SameParticle input g q := by
      intro y hy
      induction hy with
      | refl =>
        refine ⟨ha, hia, ?_⟩
        intro q hq
        rw [hag] at hq; cases hq
        exact .refl _
      | @tail y z _ hstep ih =>
        obtain ⟨i1, i2, i3⟩ := ih
        have hac := across_whole.1 hstep.1
        have hz := S.reach _ i1 _ hac
        refine ⟨hz, hstep.2, ?_⟩
        intro q hq
        obtain ⟨py, hpy⟩ := (shiftedId_ne_none S i1).1 i2
        refine .trans _ _ _ (i3 py hpy) ?_
        by_cases ho : P.owner y = P.owner z
        · -- same rank: same local particle
          obtain ⟨lp, k, p1, p2, p3, p4, p5⟩ := (shiftedId_spec S i1).1 hpy
          obtain ⟨lp', k', q1, q2, q3, q4, q5⟩ := (shiftedId_spec S hz).1 hq
          rw [← ho, p1] at q1; cases q1
          have := ((S.regions _ lp p1).same y i1 z hz (inside_onRank.2 ⟨p5, rfl⟩)
            (inside_onRank.2 ⟨q5, ho.symm⟩)).2
            (.single ⟨across_onRank.2 hac, inside_onRank.2 ⟨q5, ho.symm⟩⟩)
          rw [p2, q2] at this
          have : k = k' := by simpa using this
          have hpq : py = q := by rw [p4, q4, ho, this]
          rw [hpq]; exact .refl _
        · refine .symm _ _ (.rel _ _ ((hT q py).2 ⟨P.owner z, (y, z), ?_, rfl, hq, hpy⟩))
          exact (S.faces y i1 z hz ho).2 hac
    exact (key b h).2.2 q hbq

end Verif
