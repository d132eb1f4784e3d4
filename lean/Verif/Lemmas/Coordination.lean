import Verif.Model.Coordination
import Verif.Spec.Coordination
import Verif.Lemmas.Cutoff
import Mathlib.Algebra.BigOperators.Group.Finset.Basic
import Mathlib.Algebra.BigOperators.Group.List.Basic
import Mathlib.Data.Nat.Cast.Basic

namespace Verif.Coordination

/-- The map represents a relation: ordered, no empty sets. -/
structure Rep (nb : Neighbors) (P : Nat → Nat → Prop) : Prop where
  sorted : OMap.Sorted nb
  inner : ∀ g s, nb.get? g = some s → OMap.Sorted s ∧ s ≠ []
  rel : ∀ g h, (∃ s, nb.get? g = some s ∧ h ∈ s.keys) ↔ P g h

theorem Rep.congr {nb : Neighbors} {P Q : Nat → Nat → Prop} (h : Rep nb P) (e : ∀ g k, P g k ↔ Q g k) : Rep nb Q :=
  ⟨h.sorted, h.inner, fun g k => (h.rel g k).trans (e g k)⟩

theorem rep_nil : Rep [] (fun _ _ => False) :=
  ⟨OMap.sorted_nil, by simp, by simp⟩

theorem keys_emplace (s : OMap Unit) (hs : OMap.Sorted s) (h k : Nat) :
    k ∈ (s.emplace h ()).keys ↔ k = h ∨ k ∈ s.keys := by
  rw [← OMap.get?_isSome_iff_mem_keys, ← OMap.get?_isSome_iff_mem_keys, OMap.get?_emplace hs]
  by_cases e : k = h <;> simp [e]

theorem emplace_ne_nil (s : OMap Unit) (hs : OMap.Sorted s) (h : Nat) : s.emplace h () ≠ [] := by
  intro e
  have := (keys_emplace s hs h h).mpr (Or.inl rfl)
  rw [e] at this
  simp [OMap.keys] at this

/-- set the entry of `g` to a set that contains the old one -/
theorem rep_set {nb : Neighbors} {P : Nat → Nat → Prop} (H : Rep nb P) (g : Nat) (s : OMap Unit) (hs : OMap.Sorted s)
    (hne : s ≠ []) (A : Nat → Prop) (hk : ∀ k, k ∈ s.keys ↔ A k ∨ k ∈ OMap.keys ((nb.get? g).getD [])) :
    Rep (nb.set g s) (fun a b => P a b ∨ (a = g ∧ A b)) := by
  refine ⟨OMap.sorted_set H.sorted, ?_, ?_⟩
  · intro a t ht
    rw [OMap.get?_set H.sorted] at ht
    split at ht
    · cases ht; exact ⟨hs, hne⟩
    · exact H.inner a t ht
  · intro a b
    rw [OMap.get?_set H.sorted]
    by_cases e : a = g
    · subst e
      simp only [if_true, Option.some.injEq, exists_eq_left', true_and, hk, ← H.rel]
      cases h : OMap.get? nb a with
      | none => simp [OMap.keys]
      | some t => simp [or_comm]
    · simp only [e, if_false, false_and, or_false]
      exact H.rel a b

theorem sorted_getD {nb : Neighbors} {P : Nat → Nat → Prop} (H : Rep nb P) (g : Nat) :
    OMap.Sorted ((nb.get? g).getD []) := by
  cases h : nb.get? g with
  | none => exact OMap.sorted_nil
  | some t => exact (H.inner g t h).1

theorem rep_insertPair {nb : Neighbors} {P : Nat → Nat → Prop} (H : Rep nb P) (g h : Nat) :
    Rep (insertPair nb g h) (fun a b => P a b ∨ (a = g ∧ b = h)) := by
  have hs := sorted_getD H g
  exact rep_set H g _ (OMap.sorted_emplace hs) (emplace_ne_nil _ hs h) (· = h) (fun k => keys_emplace _ hs h k)

theorem rep_inner_loop (gs : List Nat) (i g : Nat) (l : List Nat) {nb : Neighbors} {P : Nat → Nat → Prop} (H : Rep nb P) :
    Rep (l.foldl (fun nb j => if i ≠ j then insertPair nb g (gs.getD j 0) else nb) nb)
      (fun a b => P a b ∨ ∃ j ∈ l, i ≠ j ∧ a = g ∧ b = gs.getD j 0) := by
  induction l generalizing nb P with
  | nil => exact H.congr (by simp)
  | cons j l ih =>
    rw [List.foldl_cons]
    by_cases e : i = j
    · rw [if_neg (by simpa using e)]
      refine (ih H).congr fun a b => or_congr_right ⟨?_, ?_⟩
      · rintro ⟨k, hk, r⟩; exact ⟨k, List.mem_cons_of_mem _ hk, r⟩
      · rintro ⟨k, hk, r⟩
        rcases List.mem_cons.mp hk with rfl | hk
        · exact absurd e r.1
        · exact ⟨k, hk, r⟩
    · rw [if_pos e]
      refine (ih (rep_insertPair H g _)).congr fun a b => ?_
      rw [or_assoc]
      refine or_congr_right ⟨?_, ?_⟩
      · rintro (⟨r1, r2⟩ | ⟨k, hk, r⟩)
        · exact ⟨j, List.mem_cons_self, e, r1, r2⟩
        · exact ⟨k, List.mem_cons_of_mem _ hk, r⟩
      · rintro ⟨k, hk, r⟩
        rcases List.mem_cons.mp hk with rfl | hk
        · exact Or.inl r.2
        · exact Or.inr ⟨k, hk, r⟩

theorem rep_outer_loop (inside : Nat → Res Bool) (ins : Nat → Bool) (gs : List Nat)
    (hin : ∀ g ∈ gs, inside g = .ok (ins g)) (l : List Nat) (hl : ∀ i ∈ l, i < gs.length)
    {nb : Neighbors} {P : Nat → Nat → Prop} (H : Rep nb P) :
    ∃ nb', l.foldlM (fun nb i => do
        let g := gs.getD i 0
        let ins ← inside g
        if ins then
          pure ((List.range gs.length).foldl (fun nb j => if i ≠ j then insertPair nb g (gs.getD j 0) else nb) nb)
        else pure nb) nb = Res.ok nb' ∧
      Rep nb' (fun a b => P a b ∨ ∃ i ∈ l, ∃ j < gs.length, i ≠ j ∧ a = gs.getD i 0 ∧ b = gs.getD j 0 ∧ ins a = true) := by
  induction l generalizing nb P with
  | nil => exact ⟨nb, rfl, H.congr (by simp)⟩
  | cons i l ih =>
    have hi := hl i List.mem_cons_self
    have hg : gs.getD i 0 ∈ gs := by
      rw [List.getD_eq_getElem?_getD, List.getElem?_eq_getElem hi]
      exact List.getElem_mem hi
    rw [List.foldlM_cons]
    simp only [hin _ hg, Res.ok_bind]
    cases hb : ins (gs.getD i 0) with
    | false =>
      obtain ⟨nb', e, R⟩ := ih (fun k hk => hl k (List.mem_cons_of_mem _ hk)) H
      refine ⟨nb', e, R.congr fun a b => or_congr_right ⟨?_, ?_⟩⟩
      · rintro ⟨k, hk, r⟩; exact ⟨k, List.mem_cons_of_mem _ hk, r⟩
      · rintro ⟨k, hk, j, hj, r⟩
        rcases List.mem_cons.mp hk with rfl | hk
        · rw [r.2.1, hb] at r; exact absurd r.2.2.2 (by simp)
        · exact ⟨k, hk, j, hj, r⟩
    | true =>
      obtain ⟨nb', e, R⟩ := ih (fun k hk => hl k (List.mem_cons_of_mem _ hk))
        (rep_inner_loop gs i (gs.getD i 0) (List.range gs.length) H)
      refine ⟨nb', e, R.congr fun a b => ?_⟩
      rw [or_assoc]
      refine or_congr_right ⟨?_, ?_⟩
      · rintro (⟨j, hj, r⟩ | ⟨k, hk, r⟩)
        · exact ⟨i, List.mem_cons_self, j, List.mem_range.mp hj, r.1, r.2.1, r.2.2, r.2.1 ▸ hb⟩
        · exact ⟨k, List.mem_cons_of_mem _ hk, r⟩
      · rintro ⟨k, hk, j, hj, r⟩
        rcases List.mem_cons.mp hk with rfl | hk
        · exact Or.inl ⟨j, List.mem_range.mpr hj, r.1, r.2.1, r.2.2.1⟩
        · exact Or.inr ⟨k, hk, j, hj, r⟩

theorem rep_cellPairs (inside : Nat → Res Bool) (ins : Nat → Bool) (gs : List Nat)
    (hin : ∀ g ∈ gs, inside g = .ok (ins g)) {nb : Neighbors} {P : Nat → Nat → Prop} (H : Rep nb P) :
    ∃ nb', cellPairs inside gs nb = .ok nb' ∧ Rep nb' (fun a b => P a b ∨ Touch ins [gs] a b) := by
  obtain ⟨nb', e, R⟩ := rep_outer_loop inside ins gs hin (List.range gs.length) (fun i hi => List.mem_range.mp hi) H
  refine ⟨nb', e, R.congr fun a b => or_congr_right ⟨?_, ?_⟩⟩
  · rintro ⟨i, hi, j, hj, hij, rfl, rfl, r⟩
    have hi := List.mem_range.mp hi
    refine ⟨gs, List.mem_cons_self, i, j, hij, ?_, ?_, r⟩
    · rw [List.getElem?_eq_getElem hi, List.getD_eq_getElem?_getD, List.getElem?_eq_getElem hi]; rfl
    · rw [List.getElem?_eq_getElem hj, List.getD_eq_getElem?_getD, List.getElem?_eq_getElem hj]; rfl
  · rintro ⟨gs', hgs, i, j, hij, hi, hj, r⟩
    rw [List.mem_singleton] at hgs
    subst hgs
    obtain ⟨hi', -⟩ := List.getElem?_eq_some_iff.mp hi
    obtain ⟨hj', -⟩ := List.getElem?_eq_some_iff.mp hj
    refine ⟨i, List.mem_range.mpr hi', j, hj', hij, ?_, ?_, r⟩
    · rw [List.getD_eq_getElem?_getD, hi]; rfl
    · rw [List.getD_eq_getElem?_getD, hj]; rfl

theorem touch_cons (ins : Nat → Bool) (gs : List Nat) (cells : List (List Nat)) (a b : Nat) :
    Touch ins (gs :: cells) a b ↔ Touch ins [gs] a b ∨ Touch ins cells a b := by
  unfold Touch
  simp only [List.mem_cons, List.not_mem_nil, or_false]
  constructor
  · rintro ⟨x, rfl | hx, r⟩
    · exact Or.inl ⟨x, rfl, r⟩
    · exact Or.inr ⟨x, hx, r⟩
  · rintro (⟨x, rfl, r⟩ | ⟨x, hx, r⟩)
    · exact ⟨x, Or.inl rfl, r⟩
    · exact ⟨x, Or.inr hx, r⟩

theorem rep_local (inside : Nat → Res Bool) (ins : Nat → Bool) (cells : List (List Nat))
    (hin : ∀ gs ∈ cells, ∀ g ∈ gs, inside g = .ok (ins g)) :
    ∃ nb, localNeighbors inside cells = .ok nb ∧ Rep nb (Touch ins cells) := by
  have key : ∀ (cells : List (List Nat)) (hin : ∀ gs ∈ cells, ∀ g ∈ gs, inside g = .ok (ins g)) (nb : Neighbors)
      (P : Nat → Nat → Prop), Rep nb P →
      ∃ nb', cells.foldlM (fun nb gs => cellPairs inside gs nb) nb = .ok nb'
        ∧ Rep nb' (fun a b => P a b ∨ Touch ins cells a b) := by
    intro cells
    induction cells with
    | nil => intro _ nb P H; exact ⟨nb, rfl, H.congr (by simp [Touch])⟩
    | cons gs cells ih =>
      intro hin nb P H
      obtain ⟨nb', e, R⟩ := rep_cellPairs inside ins gs (hin gs List.mem_cons_self) H
      obtain ⟨nb'', e', R'⟩ := ih (fun x hx => hin x (List.mem_cons_of_mem _ hx)) nb' _ R
      rw [List.foldlM_cons, e, Res.ok_bind]
      refine ⟨nb'', e', R'.congr fun a b => ?_⟩
      rw [touch_cons ins gs cells, or_assoc]
  obtain ⟨nb, e, R⟩ := key cells hin [] _ rep_nil
  exact ⟨nb, e, R.congr (by simp)⟩

theorem foldl_emplace (l : List Nat) (s : OMap Unit) (hs : OMap.Sorted s) :
    OMap.Sorted (l.foldl (fun s h => OMap.emplace s h ()) s)
    ∧ ∀ k, k ∈ OMap.keys (l.foldl (fun s h => OMap.emplace s h ()) s) ↔ k ∈ l ∨ k ∈ s.keys := by
  induction l generalizing s with
  | nil => exact ⟨hs, by simp⟩
  | cons h l ih =>
    obtain ⟨a, b⟩ := ih (s.emplace h ()) (OMap.sorted_emplace hs)
    refine ⟨a, fun k => ?_⟩
    rw [List.foldl_cons, b, keys_emplace s hs, List.mem_cons]
    tauto

theorem ne_nil_of_key {s : OMap Unit} {k : Nat} (h : k ∈ s.keys) : s ≠ [] := by
  rintro rfl
  simp [OMap.keys] at h

theorem rep_absorb (m : List (Nat × OMap Unit)) (hm : ∀ p ∈ m, p.2 ≠ []) {nb : Neighbors} {P : Nat → Nat → Prop}
    (H : Rep nb P) :
    ∃ nb', absorb nb (m.flatMap fun p => p.1 :: p.2.length :: OMap.keys p.2) = .ok nb'
      ∧ Rep nb' (fun a b => P a b ∨ ∃ p ∈ m, a = p.1 ∧ b ∈ OMap.keys p.2) := by
  induction m generalizing nb P with
  | nil =>
    refine ⟨nb, ?_, H.congr (by simp)⟩
    simp [absorb]
  | cons p m ih =>
    have hlen : (OMap.keys p.2).length = p.2.length := by simp [OMap.keys]
    rw [List.flatMap_cons]
    simp only [List.cons_append]
    rw [absorb]
    rw [if_neg (by rw [List.length_append, hlen]; omega)]
    have ht : List.take p.2.length (OMap.keys p.2 ++ List.flatMap (fun p => p.1 :: p.2.length :: OMap.keys p.2) m)
        = OMap.keys p.2 := by rw [← hlen, List.take_left]
    have hd : List.drop p.2.length (OMap.keys p.2 ++ List.flatMap (fun p => p.1 :: p.2.length :: OMap.keys p.2) m)
        = List.flatMap (fun p => p.1 :: p.2.length :: OMap.keys p.2) m := by rw [← hlen, List.drop_left]
    simp only [ht, hd]
    -- the entry that is extended
    have hget : ((OMap.emplace nb p.1 []).get? p.1).getD [] = (nb.get? p.1).getD [] := by
      rw [OMap.get?_emplace H.sorted, if_pos rfl]; rfl
    have hset : ∀ s, OMap.set (OMap.emplace nb p.1 []) p.1 s = OMap.set nb p.1 s := by
      intro s
      refine OMap.ext (OMap.sorted_set (OMap.sorted_emplace H.sorted)) (OMap.sorted_set H.sorted) fun k => ?_
      rw [OMap.get?_set (OMap.sorted_emplace H.sorted), OMap.get?_set H.sorted, OMap.get?_emplace H.sorted]
      by_cases e : k = p.1 <;> simp [e]
    rw [hget, hset]
    obtain ⟨a, b⟩ := foldl_emplace (OMap.keys p.2) ((nb.get? p.1).getD []) (sorted_getD H p.1)
    have hne : (OMap.keys p.2).foldl (fun s h => OMap.emplace s h ()) ((nb.get? p.1).getD []) ≠ [] := by
      obtain ⟨q, l, e⟩ := List.exists_cons_of_ne_nil (hm p List.mem_cons_self)
      exact ne_nil_of_key ((b q.1).mpr (Or.inl (by rw [e]; simp [OMap.keys])))
    have R := rep_set H p.1 _ a hne (· ∈ OMap.keys p.2) b
    obtain ⟨nb', e, R'⟩ := ih (fun q hq => hm q (List.mem_cons_of_mem _ hq)) R
    refine ⟨nb', e, R'.congr fun x y => ?_⟩
    rw [or_assoc]
    refine or_congr_right ⟨?_, ?_⟩
    · rintro (r | ⟨q, hq, r⟩)
      · exact ⟨p, List.mem_cons_self, r⟩
      · exact ⟨q, List.mem_cons_of_mem _ hq, r⟩
    · rintro ⟨q, hq, r⟩
      rcases List.mem_cons.mp hq with rfl | hq
      · exact Or.inl r
      · exact Or.inr ⟨q, hq, r⟩

theorem rep_absorb_flatten {m nb : Neighbors} {P Q : Nat → Nat → Prop} (H : Rep nb P) (M : Rep m Q) :
    ∃ nb', absorb nb (flatten m) = .ok nb' ∧ Rep nb' (fun a b => P a b ∨ Q a b) := by
  obtain ⟨nb', e, R⟩ := rep_absorb m
    (fun p hp => (M.inner p.1 p.2 (OMap.get?_of_mem M.sorted hp)).2) H
  refine ⟨nb', e, R.congr fun a b => or_congr_right ?_⟩
  rw [← M.rel]
  constructor
  · rintro ⟨p, hp, rfl, hb⟩
    exact ⟨p.2, OMap.get?_of_mem M.sorted hp, hb⟩
  · rintro ⟨s, hs, hb⟩
    exact ⟨(a, s), OMap.mem_of_get? hs, rfl, hb⟩

theorem rep_absorb_all (ms : List Neighbors) (Qs : Neighbors → Nat → Nat → Prop) (hms : ∀ m ∈ ms, Rep m (Qs m))
    {nb : Neighbors} {P : Nat → Nat → Prop} (H : Rep nb P) :
    ∃ nb', (ms.map flatten).foldlM absorb nb = .ok nb'
      ∧ Rep nb' (fun a b => P a b ∨ ∃ m ∈ ms, Qs m a b) := by
  induction ms generalizing nb P with
  | nil => exact ⟨nb, rfl, H.congr (by simp)⟩
  | cons m ms ih =>
    obtain ⟨nb', e, R⟩ := rep_absorb_flatten H (hms m List.mem_cons_self)
    obtain ⟨nb'', e', R'⟩ := ih (fun x hx => hms x (List.mem_cons_of_mem _ hx)) R
    rw [List.map_cons, List.foldlM_cons, e, Res.ok_bind]
    refine ⟨nb'', e', R'.congr fun a b => ?_⟩
    rw [or_assoc]
    simp only [List.mem_cons, exists_eq_or_imp]

theorem average_eq {K : Type} [Field K] {nb : Neighbors} {P : Nat → Nat → Prop} (H : Rep nb P) (D : Finset Nat)
    (N : Nat → Finset Nat) (hD : ∀ g, g ∈ D ↔ ∃ h, P g h) (hN : ∀ g h, h ∈ N g ↔ P g h) :
    (average nb : K) = (∑ g ∈ D, ((N g).card : K)) / (D.card : K) := by
  have hnd := OMap.keys_nodup H.sorted
  have hkeys : (OMap.keys nb).toFinset = D := by
    ext g
    rw [List.mem_toFinset, hD, ← OMap.get?_isSome_iff_mem_keys]
    constructor
    · intro h
      obtain ⟨s, hs⟩ := Option.isSome_iff_exists.mp h
      obtain ⟨q, l, e⟩ := List.exists_cons_of_ne_nil (H.inner g s hs).2
      exact ⟨q.1, (H.rel g q.1).mp ⟨s, hs, by rw [e]; simp [OMap.keys]⟩⟩
    · rintro ⟨h, hP⟩
      obtain ⟨s, hs, -⟩ := (H.rel g h).mpr hP
      rw [hs]; rfl
  have hcard : D.card = nb.length := by
    rw [← hkeys, List.toFinset_card_of_nodup hnd]
    simp [OMap.keys]
  have hinner : ∀ p ∈ nb, p.2.length = (N p.1).card := by
    intro p hp
    have hs := OMap.get?_of_mem H.sorted hp
    have : (OMap.keys p.2).toFinset = N p.1 := by
      ext h
      rw [List.mem_toFinset, hN, ← H.rel]
      constructor
      · intro hh; exact ⟨p.2, hs, hh⟩
      · rintro ⟨s, e, hh⟩
        rw [hs] at e
        cases e
        exact hh
    rw [← this, List.toFinset_card_of_nodup (OMap.keys_nodup (H.inner _ _ hs).1)]
    simp [OMap.keys]
  have hfold : ∀ (l : List (Nat × OMap Unit)) (a : K), l.foldl (fun (a : K) p => a + (p.2.length : K)) a
      = a + (l.map fun p => (p.2.length : K)).sum := by
    intro l
    induction l with
    | nil => simp
    | cons p l ih => intro a; rw [List.foldl_cons, ih, List.map_cons, List.sum_cons, add_assoc]
  have hsum : nb.foldl (fun (a : K) p => a + (p.2.length : K)) 0 = ∑ g ∈ D, ((N g).card : K) := by
    rw [hfold, zero_add, ← hkeys, List.sum_toFinset _ hnd]
    unfold OMap.keys
    rw [List.map_map]
    congr 1
    apply List.map_congr_left
    intro p hp
    simp [hinner p hp]
  unfold average
  rw [hsum, hcard]
  split
  · rfl
  · rename_i h
    have h0 : nb.length = 0 := by simpa using h
    rw [h0]; simp

end Verif.Coordination
