import Mathlib.Data.Nat.Find
import Mathlib.Data.List.Nodup
import Verif.Lemmas.Components
import Verif.Spec.Stitch
/-! # Lemmas about stitching -/
namespace Verif
open Spec

/-! ## Numbers and ranks -/

@[simp] theorem offsetOf_zero (s : List Nat) : offsetOf s 0 = 0 := by simp [offsetOf]
@[simp] theorem offsetOf_cons (s : Nat) (l : List Nat) (r : Nat) :
    offsetOf (s :: l) (r + 1) = s + offsetOf l r := by simp [offsetOf]

theorem holds_iff : ∀ {sizes : List Nat} {r g : Nat},
    Holds sizes r g ↔ g < sizes.sum ∧ r = rankOf sizes g
  | [], r, g => by simp [Holds]
  | s :: l, 0, g => by
    simp only [Holds, List.length_cons, offsetOf_zero, offsetOf_cons, List.sum_cons, rankOf]
    split
    · simp; omega
    · simp; omega
  | s :: l, r + 1, g => by
    have ih := holds_iff (sizes := l) (r := r) (g := g - s)
    simp only [Holds, List.length_cons, offsetOf_cons, List.sum_cons, rankOf] at ih ⊢
    split
    · simp; omega
    · simp only [Nat.add_right_cancel_iff]
      have : (g - s < l.sum) ↔ g < s + l.sum := by omega
      rw [← this, ← ih]
      omega

theorem rankOf_mono : ∀ {sizes : List Nat} {g g' : Nat}, g ≤ g' → rankOf sizes g ≤ rankOf sizes g'
  | [], _, _, _ => by simp [rankOf]
  | s :: l, g, g', h => by
    simp only [rankOf]
    split
    · omega
    · rw [if_neg (by omega)]
      have := rankOf_mono (sizes := l) (show g - s ≤ g' - s by omega)
      omega

/-! ## Sorted lists -/

/-- strict order of tuples -/
abbrev gidLt (a b : GId) : Prop := a.1 < b.1 ∨ (a.1 = b.1 ∧ a.2 < b.2)

instance : Std.Total gidLe := ⟨fun a b => by unfold gidLe; omega⟩
instance : IsTrans GId gidLe := ⟨fun a b c => by unfold gidLe; omega⟩
instance : Std.Irrefl gidLt := ⟨fun a => by omega⟩
instance : Std.Antisymm gidLt := ⟨fun a b => by omega⟩

theorem mem_sortG {l : List GId} {x : GId} : x ∈ sortG l ↔ x ∈ l := List.mem_insertionSort _

theorem mem_uniqG {x : GId} : ∀ {l : List GId}, x ∈ uniqG l ↔ x ∈ l
  | [] => by simp [uniqG]
  | [a] => by simp [uniqG]
  | a :: b :: l => by
    have ih := mem_uniqG (x := x) (l := b :: l)
    rw [uniqG]
    split
    · rename_i h
      rw [ih]; subst h; simp
    · rw [List.mem_cons, ih]; simp

theorem sorted_uniqG : ∀ {l : List GId}, l.Pairwise gidLe → (uniqG l).Pairwise gidLt
  | [], _ => by simp [uniqG]
  | [a], _ => by simp [uniqG]
  | a :: b :: l, h => by
    have ih := sorted_uniqG (l := b :: l) h.of_cons
    rw [uniqG]
    split
    · exact ih
    · rename_i hab
      refine List.pairwise_cons.2 ⟨?_, ih⟩
      intro x hx
      rw [mem_uniqG] at hx
      obtain ⟨h1, h2⟩ := List.pairwise_cons.1 h
      have hab' := h1 b (by simp)
      have hlt : gidLt a b := by
        have : ¬ (a.1 = b.1 ∧ a.2 = b.2) := fun h => hab (Prod.ext h.1 h.2)
        unfold gidLe at hab'
        unfold gidLt
        omega
      rcases List.mem_cons.1 hx with rfl | hx
      · exact hlt
      · have h3 := (List.pairwise_cons.1 h2).1 x hx
        unfold gidLe at h3
        unfold gidLt at hlt ⊢
        omega

theorem sorted_merge (l m : List GId) : (uniqG (sortG (l ++ m))).Pairwise gidLt :=
  sorted_uniqG (List.pairwise_insertionSort gidLe _)

theorem mem_merge {l m : List GId} {x : GId} : x ∈ uniqG (sortG (l ++ m)) ↔ x ∈ l ∨ x ∈ m := by
  rw [mem_uniqG, mem_sortG, List.mem_append]

theorem merge_length {l m : List GId} (hl : l.Pairwise gidLt) :
    l.length ≤ (uniqG (sortG (l ++ m))).length ∧
    (l.length = (uniqG (sortG (l ++ m))).length → uniqG (sortG (l ++ m)) = l ∧ ∀ x ∈ m, x ∈ l) := by
  have hsub : l.Subperm (uniqG (sortG (l ++ m))) :=
    List.subperm_of_subset hl.nodup (fun x hx => mem_merge.2 (Or.inl hx))
  refine ⟨hsub.length_le, fun h => ?_⟩
  have hp : l.Perm (uniqG (sortG (l ++ m))) := hsub.perm_of_length_le (by omega)
  refine ⟨?_, fun x hx => hp.mem_iff.2 (mem_merge.2 (Or.inr hx))⟩
  exact (List.Pairwise.eq_of_mem_iff (r := gidLt) hl (sorted_merge l m) (fun a => hp.mem_iff)).symm

/-! ## The exchange -/

/-- invariant of the iteration; `R` is the relation to be found -/
structure FpInv (sizes : List Nat) (R : Nat → Nat → Prop) (st : List (List GId)) : Prop where
  length : st.length = sizes.sum
  sorted : ∀ (g : Nat) (l : List GId), st[g]? = some l → l.Pairwise gidLt
  entry : ∀ (g : Nat) (l : List GId), st[g]? = some l → ∀ e ∈ l, Holds sizes e.1 e.2 ∧ e.2 ≠ g ∧ R g e.2

/-- messages that keep the invariant -/
def GoodMsg (sizes : List Nat) (R : Nat → Nat → Prop) (m : GId × List GId) : Prop :=
  Holds sizes m.1.1 m.1.2 ∧ ∀ e ∈ m.2, Holds sizes e.1 e.2 ∧ e.2 ≠ m.1.2 ∧ R m.1.2 e.2

/-- lists only grow -/
def Below (st st' : List (List GId)) : Prop :=
  ∀ (g : Nat) (l : List GId), st[g]? = some l → ∃ l' : List GId, st'[g]? = some l' ∧ ∀ e ∈ l, e ∈ l'

theorem Below.refl (st : List (List GId)) : Below st st := fun _ l h => ⟨l, h, fun _ h => h⟩

theorem Below.trans {a b c : List (List GId)} (h : Below a b) (h' : Below b c) : Below a c := by
  intro g l hl
  obtain ⟨l1, h1, h2⟩ := h g l hl
  obtain ⟨l2, h3, h4⟩ := h' g l1 h1
  exact ⟨l2, h3, fun e he => h4 e (h2 e he)⟩

/-- total number of entries -/
def entries (st : List (List GId)) : Nat := (st.map List.length).sum

theorem sum_set_nat : ∀ (l : List Nat) (i : Nat) (a b : Nat), l[i]? = some a →
    (l.set i b).sum + a = l.sum + b
  | [], i, a, b, h => by simp at h
  | x :: l, 0, a, b, h => by simp at h; subst h; simp; omega
  | x :: l, i + 1, a, b, h => by
    simp at h
    have := sum_set_nat l i a b h
    simp; omega

theorem entries_set {st : List (List GId)} {i : Nat} {l l' : List GId} (h : st[i]? = some l) :
    entries (st.set i l') + l.length = entries st + l'.length := by
  unfold entries
  rw [List.map_set]
  exact sum_set_nat _ _ _ _ (by simp [h])

variable {sizes : List Nat} {R : Nat → Nat → Prop}

theorem deliver_ok {s : List (List GId) × Bool} {m : GId × List GId} (hI : FpInv sizes R s.1)
    (hm : GoodMsg sizes R m) :
    ∃ s', deliver sizes s m = .ok s' ∧ FpInv sizes R s'.1 ∧ Below s.1 s'.1 ∧
      entries s.1 ≤ entries s'.1 ∧ (s'.2 = true → s.2 = true) ∧
      (s.2 = true → s'.2 = false → entries s.1 < entries s'.1) ∧
      (s'.2 = true → s'.1 = s.1 ∧ ∃ l, s.1[m.1.2]? = some l ∧ ∀ e ∈ m.2, e ∈ l) := by
  have hlt : m.1.2 < s.1.length := by rw [hI.length]; exact (holds_iff.1 hm.1).1
  obtain ⟨old, hold⟩ : ∃ old, s.1[m.1.2]? = some old := ⟨_, List.getElem?_eq_getElem hlt⟩
  have hmer := merge_length (m := m.2) (hI.sorted _ _ hold)
  have hent := entries_set (l' := uniqG (sortG (old ++ m.2))) hold
  refine ⟨(s.1.set m.1.2 (uniqG (sortG (old ++ m.2))),
    s.2 && decide (old.length = (uniqG (sortG (old ++ m.2))).length)), ?_, ⟨?_, ?_, ?_⟩, ?_, ?_, ?_, ?_, ?_⟩
  · rw [deliver, if_pos hm.1, hold]
  · simp [hI.length]
  · intro g l hl
    rw [List.getElem?_set] at hl
    split at hl
    · cases hl; exact sorted_merge _ _
    · exact hI.sorted g l hl
  · intro g l hl e he
    rw [List.getElem?_set] at hl
    split at hl
    · rename_i hg
      subst hg
      cases hl
      rcases mem_merge.1 he with he | he
      · exact hI.entry _ _ hold e he
      · exact hm.2 e he
    · exact hI.entry g l hl e he
  · intro g l hl
    by_cases hg : m.1.2 = g
    · subst hg
      rw [hold] at hl; cases hl
      exact ⟨uniqG (sortG (old ++ m.2)), by simp only [List.getElem?_set_self hlt], fun e he => mem_merge.2 (Or.inl he)⟩
    · exact ⟨l, by simp only [List.getElem?_set_ne hg]; exact hl, fun e he => he⟩
  · simp only; omega
  · simp only [Bool.and_eq_true]; exact fun h => h.1
  · intro h1 h2
    simp [h1] at h2
    simp only; omega
  · intro h
    simp at h
    obtain ⟨h1, h2⟩ := hmer.2 h.2
    refine ⟨?_, old, hold, h2⟩
    simp only [h1]
    apply List.ext_getElem?
    intro i
    rw [List.getElem?_set]
    split
    · rename_i h; subst h
      simp [hold]
    · rfl

theorem deliver_list : ∀ (ms : List (GId × List GId)) (s : List (List GId) × Bool), FpInv sizes R s.1 →
    (∀ m ∈ ms, GoodMsg sizes R m) →
    ∃ s', ms.foldlM (deliver sizes) s = .ok s' ∧ FpInv sizes R s'.1 ∧ Below s.1 s'.1 ∧
      entries s.1 ≤ entries s'.1 ∧ (s'.2 = true → s.2 = true) ∧
      (s.2 = true → s'.2 = false → entries s.1 < entries s'.1) ∧
      (s'.2 = true → s'.1 = s.1 ∧ ∀ m ∈ ms, ∃ l, s.1[m.1.2]? = some l ∧ ∀ e ∈ m.2, e ∈ l)
  | [], s, hI, _ => ⟨s, rfl, hI, Below.refl _, le_refl _, fun h => h, fun h h' => by simp [h] at h',
      fun _ => ⟨rfl, by simp⟩⟩
  | m :: ms, s, hI, hm => by
    obtain ⟨s1, e1, I1, b1, n1, f1, g1, k1⟩ := deliver_ok hI (hm m (by simp))
    obtain ⟨s2, e2, I2, b2, n2, f2, g2, k2⟩ := deliver_list ms s1 I1 (fun m' h => hm m' (by simp [h]))
    refine ⟨s2, by simp [List.foldlM_cons, e1, e2], I2, b1.trans b2, by omega, fun h => f1 (f2 h), ?_, ?_⟩
    · intro h h'
      by_cases h1 : s1.2 = true
      · have := g2 h1 h'; omega
      · have := g1 h (by simpa using h1); omega
    · intro h
      obtain ⟨q1, q2⟩ := k2 h
      obtain ⟨p1, p2⟩ := k1 (f2 h)
      refine ⟨q1.trans p1, ?_⟩
      intro m' hm'
      rcases List.mem_cons.1 hm' with rfl | hm'
      · exact p2
      · rw [← p1]; exact q2 m' hm'

theorem mem_messages {st : List (List GId)} {m : GId × List GId} :
    m ∈ (List.range st.length).flatMap (messagesOf sizes st) ↔
      ∃ (g : Nat) (l : List GId) (j : Nat), st[g]? = some l ∧ l[j]? = some m.1 ∧
        m.1.1 ≠ rankOf sizes g ∧ m.2 = sortG ((rankOf sizes g, g) :: l.eraseIdx j) := by
  rw [List.mem_flatMap]
  constructor
  · rintro ⟨g, hg, hm⟩
    rw [List.mem_range] at hg
    simp only [messagesOf, List.mem_filterMap, List.mem_range] at hm
    obtain ⟨j, hj, hm⟩ := hm
    have hst : st[g]? = some (st.getD g []) := by simp [List.getD, hg]
    refine ⟨g, _, j, hst, ?_⟩
    unfold messageTo at hm
    split at hm
    · rename_i e he
      split at hm
      · simp at hm
      · cases hm
        exact ⟨he, by assumption, rfl⟩
    · simp at hm
  · rintro ⟨g, l, j, hl, hj, hr, hm⟩
    have hd : st.getD g [] = l := by simp [List.getD, hl]
    refine ⟨g, List.mem_range.2 (List.getElem?_eq_some_iff.1 hl).1, ?_⟩
    simp only [messagesOf, List.mem_filterMap, List.mem_range, hd]
    refine ⟨j, (List.getElem?_eq_some_iff.1 hj).1, ?_⟩
    rw [messageTo, hj]
    simp only [if_neg hr]
    rw [← hm]

theorem goodMsg_of_mem (hR : Equivalence R) {st : List (List GId)} (hI : FpInv sizes R st)
    {m : GId × List GId} (hm : m ∈ (List.range st.length).flatMap (messagesOf sizes st)) :
    GoodMsg sizes R m := by
  obtain ⟨g, l, j, hl, hj, hr, hmm⟩ := mem_messages.1 hm
  have he := hI.entry g l hl m.1 (List.mem_of_getElem? hj)
  refine ⟨he.1, ?_⟩
  intro e hem
  rw [hmm, mem_sortG, List.mem_cons] at hem
  rcases hem with rfl | hem
  · refine ⟨holds_iff.2 ⟨?_, rfl⟩, fun h => he.2.1 h.symm, hR.symm he.2.2⟩
    rw [← hI.length]; exact (List.getElem?_eq_some_iff.1 hl).1
  · have hel : e ∈ l := List.mem_of_mem_eraseIdx hem
    have h2 := hI.entry g l hl e hel
    refine ⟨h2.1, ?_, hR.trans (hR.symm he.2.2) h2.2.2⟩
    intro heq
    have h3 := (holds_iff.1 h2.1).2
    have h4 := (holds_iff.1 he.1).2
    rw [heq, ← h4] at h3
    have heq' : e = m.1 := Prod.ext h3 heq
    subst heq'
    have hnd : l.Nodup := (hI.sorted g l hl).nodup
    obtain ⟨i, hi, hie⟩ := List.mem_eraseIdx_iff_getElem?.1 hem
    exact hi ((List.getElem?_inj (List.getElem?_eq_some_iff.1 hie).1 hnd).1 (hie.trans hj.symm))

/-- what the last exchange has verified -/
def Fixed (sizes : List Nat) (st : List (List GId)) : Prop :=
  ∀ (g : Nat) (l : List GId), st[g]? = some l → ∀ e ∈ l, e.1 ≠ rankOf sizes g →
    ∃ l', st[e.2]? = some l' ∧ (rankOf sizes g, g) ∈ l' ∧ ∀ x ∈ l, x ≠ e → x ∈ l'

theorem fpIter_ok (hR : Equivalence R) {order : List (GId × List GId) → List (GId × List GId)}
    (ho : ∀ l, (order l).Perm l) {st : List (List GId)} (hI : FpInv sizes R st) :
    ∃ s', fpIter sizes order st = .ok s' ∧ FpInv sizes R s'.1 ∧ Below st s'.1 ∧
      (s'.2 = false → entries st < entries s'.1) ∧ (s'.2 = true → Fixed sizes s'.1) := by
  obtain ⟨s', e, I, b, n, f, g, k⟩ := deliver_list
    (order ((List.range st.length).flatMap (messagesOf sizes st))) (st, true) hI
    (fun m hm => goodMsg_of_mem hR hI ((ho _).mem_iff.1 hm))
  refine ⟨s', e, I, b, g rfl, ?_⟩
  intro h
  obtain ⟨k1, k2⟩ := k h
  rw [k1]
  intro g l hl e he hr
  obtain ⟨j, hj, hje⟩ := List.mem_iff_getElem.1 he
  have hj' : l[j]? = some e := by rw [List.getElem?_eq_getElem hj, hje]
  obtain ⟨l', hl', hsub⟩ := k2 (e, sortG ((rankOf sizes g, g) :: l.eraseIdx j))
    ((ho _).mem_iff.2 (mem_messages.2 ⟨g, l, j, hl, hj', hr, rfl⟩))
  refine ⟨l', hl', hsub _ (mem_sortG.2 (by simp)), ?_⟩
  intro x hx hxe
  refine hsub x (mem_sortG.2 (List.mem_cons_of_mem _ ?_))
  obtain ⟨i, hi, hix⟩ := List.mem_iff_getElem.1 hx
  refine List.mem_eraseIdx_iff_getElem?.2 ⟨i, ?_, by rw [List.getElem?_eq_getElem hi, hix]⟩
  rintro rfl
  exact hxe (hix.symm.trans hje)

theorem sum_le_mul : ∀ (l : List Nat) (n : Nat), (∀ x ∈ l, x ≤ n) → l.sum ≤ l.length * n
  | [], _, _ => by simp
  | x :: l, n, h => by
    have h1 := sum_le_mul l n (fun y hy => h y (by simp [hy]))
    have h2 := h x (by simp)
    simp only [List.sum_cons, List.length_cons, Nat.add_mul, Nat.one_mul]
    omega

theorem entries_le {st : List (List GId)} (hI : FpInv sizes R st) :
    entries st ≤ sizes.sum * sizes.sum := by
  have h1 : ∀ x ∈ st.map List.length, x ≤ sizes.sum := by
    intro x hx
    obtain ⟨l, hl, rfl⟩ := List.mem_map.1 hx
    obtain ⟨g, hg, rfl⟩ := List.mem_iff_getElem.1 hl
    have hg' := List.getElem?_eq_getElem hg
    have hinj : (st[g].map (·.2)).Nodup := by
      refine List.Nodup.map_on ?_ (hI.sorted g _ hg').nodup
      intro x hx y hy hxy
      have h1 := (holds_iff.1 (hI.entry g _ hg' x hx).1).2
      have h2 := (holds_iff.1 (hI.entry g _ hg' y hy).1).2
      refine Prod.ext ?_ hxy
      rw [h1, h2, hxy]
    have hsub : (st[g].map (·.2)).Subperm (List.range sizes.sum) := by
      refine List.subperm_of_subset hinj ?_
      intro x hx
      obtain ⟨e, he, rfl⟩ := List.mem_map.1 hx
      exact List.mem_range.2 (holds_iff.1 (hI.entry g _ hg' e he).1).1
    have := hsub.length_le
    simpa using this
  have h2 := sum_le_mul _ _ h1
  simpa [entries, hI.length] using h2

theorem fpLoop_ok (hR : Equivalence R) {order : Nat → List (GId × List GId) → List (GId × List GId)}
    (ho : ∀ k l, (order k l).Perm l) : ∀ (fuel iter : Nat) (st : List (List GId)), FpInv sizes R st →
    sizes.sum * sizes.sum < fuel + entries st →
    ∃ st', fpLoop sizes order fuel iter st = some (.ok st') ∧ FpInv sizes R st' ∧ Below st st' ∧
      Fixed sizes st'
  | 0, iter, st, hI, hf => by
    have := entries_le hI
    omega
  | fuel + 1, iter, st, hI, hf => by
    obtain ⟨⟨st', b⟩, e, I, bel, g, k⟩ := fpIter_ok hR (ho iter) hI
    cases b with
    | true =>
      exact ⟨st', by rw [fpLoop, e], I, bel, k rfl⟩
    | false =>
      have := g rfl
      simp only at this
      obtain ⟨st2, e2, I2, b2, k2⟩ := fpLoop_ok hR ho fuel (iter + 1) st' I (by omega)
      exact ⟨st2, by rw [fpLoop, e]; exact e2, I2, bel.trans b2, k2⟩

/-! ## The fixed point -/

theorem same_equiv (input : List (List GId)) : Equivalence (SameParticle input) :=
  Relation.EqvGen.is_equivalence _

theorem eqvGen_lift {α β : Sort _} {r : α → α → Prop} (f : α → β) (h : ∀ a b, r a b → f a = f b)
    {a b : α} (hab : Relation.EqvGen r a b) : f a = f b := by
  induction hab with
  | rel _ _ h' => exact h _ _ h'
  | refl => rfl
  | symm _ _ _ ih => exact ih.symm
  | trans _ _ _ _ _ ih1 ih2 => exact ih1.trans ih2

theorem init_inv {input : List (List GId)} (hC : ContactLists sizes input) :
    FpInv sizes (SameParticle input) input := by
  refine ⟨hC.length, hC.sorted, ?_⟩
  intro g l hl e he
  have h := hC.entry g l hl e he
  refine ⟨h, ?_, .rel _ _ ⟨l, e, hl, he, rfl⟩⟩
  intro hg
  exact hC.other g l hl e he (hg ▸ h)

theorem fixed_mem {input st : List (List GId)} (hC : ContactLists sizes input) (hB : Below input st) (hF : Fixed sizes st)
    {g q : Nat} {l : List GId} (hl : st[g]? = some l)
    (h : SameParticle input g q) (hne : q ≠ g) : (rankOf sizes q, q) ∈ l := by
  let K : Nat → Nat → Prop := fun g x => x = g ∨ ∃ l, st[g]? = some l ∧ (rankOf sizes x, x) ∈ l
  have half : ∀ (g : Nat) (l : List GId) (e : GId), st[g]? = some l → e ∈ l → e.1 ≠ rankOf sizes g →
      (∀ x, K g x → K e.2 x) ∧ ∃ l', st[e.2]? = some l' ∧ (rankOf sizes g, g) ∈ l' := by
    intro g l e hl he hr
    obtain ⟨l', hl', h1, h2⟩ := hF g l hl e he hr
    refine ⟨?_, l', hl', h1⟩
    rintro x (rfl | ⟨l2, hl2, hx⟩)
    · exact Or.inr ⟨l', hl', h1⟩
    · rw [hl] at hl2; cases hl2
      by_cases hxe : (rankOf sizes x, x) = e
      · left; rw [← hxe]
      · exact Or.inr ⟨l', hl', h2 _ hx hxe⟩
  have step : ∀ a b, Touches input a b → K a = K b := by
    rintro a b ⟨l0, e, hl0, he0, rfl⟩
    obtain ⟨l, hl, hsub⟩ := hB a l0 hl0
    have he := hsub e he0
    have hh := hC.entry a l0 hl0 e he0
    have hr : e.1 ≠ rankOf sizes a := by
      intro hr
      refine hC.other a l0 hl0 e he0 (holds_iff.2 ⟨?_, hr⟩)
      rw [← hC.length]; exact (List.getElem?_eq_some_iff.1 hl0).1
    obtain ⟨h1, l', hl', hm⟩ := half a l e hl he hr
    have h2 := (half e.2 l' (rankOf sizes a, a) hl' hm
      (by rw [← (holds_iff.1 hh).2]; exact fun h => hr h.symm)).1
    funext x
    exact propext ⟨h1 x, h2 x⟩
  have hK : K g q := by
    rw [eqvGen_lift K step h]
    exact Or.inl rfl
  rcases hK with hK | ⟨l2, hl2, hx⟩
  · exact absurd hK hne
  · rw [hl] at hl2; cases hl2; exact hx

/-- `g` is the smallest number of its particle -/
def IsMin (sizes : List Nat) (input : List (List GId)) (g : Nat) : Prop :=
  ∀ q, q < sizes.sum → SameParticle input g q → g ≤ q

theorem representative_spec {input st : List (List GId)} (hC : ContactLists sizes input)
    (hI : FpInv sizes (SameParticle input) st) (hB : Below input st) (hF : Fixed sizes st)
    {g : Nat} (hg : g < sizes.sum) :
    (IsMin sizes input g → representative sizes st g = some ((rankOf sizes g, g) :: st.getD g [])) ∧
    (¬ IsMin sizes input g → representative sizes st g = none) := by
  have hg' : g < st.length := by rw [hI.length]; exact hg
  have hst : st[g]? = some (st.getD g []) := by simp [List.getD, hg']
  have hmem := fun q (_ : q < sizes.sum) h hne => fixed_mem hC hB hF (q := q) hst h hne
  have hsort := hI.sorted _ _ hst
  have hent := hI.entry _ _ hst
  unfold representative
  generalize st.getD g [] = l at hmem hsort hent
  cases l with
  | nil =>
    refine ⟨fun _ => rfl, fun h => ?_⟩
    exfalso
    apply h
    intro q hq hs
    by_contra hlt
    exact absurd (hmem q hq hs (by omega)) (by simp)
  | cons e l =>
    obtain ⟨he1, he2, he3⟩ := hent e (by simp)
    obtain ⟨hlt, hrk⟩ := holds_iff.1 he1
    constructor
    · intro hmin
      have := hmin e.2 hlt he3
      have hr := rankOf_mono (sizes := sizes) this
      dsimp only
      rw [if_pos ⟨by rw [hrk]; exact hr, by omega⟩]
    · intro hmin
      dsimp only
      rw [if_neg]
      rintro ⟨h1, h2⟩
      apply hmin
      intro q hq hs
      by_contra hqg
      have hqg : q < g := by omega
      have hr := rankOf_mono (sizes := sizes) (show q ≤ g by omega)
      rcases List.mem_cons.1 (hmem q hq hs (by omega)) with h | h
      · have : q = e.2 := congrArg Prod.snd h
        omega
      · have := (List.pairwise_cons.1 hsort).1 _ h
        omega

theorem filterMap_if {α β : Type _} (p : α → Prop) [DecidablePred p] (f : α → β) (F : α → Option β) :
    ∀ (l : List α), (∀ a ∈ l, (p a → F a = some (f a)) ∧ (¬ p a → F a = none)) →
      l.filterMap F = (l.filter p).map f
  | [], _ => rfl
  | a :: l, h => by
    have ih := filterMap_if p f F l (fun b hb => h b (by simp [hb]))
    by_cases hp : p a
    · rw [List.filterMap_cons, (h a (by simp)).1 hp, List.filter_cons_of_pos (by simpa using hp), ih]
      rfl
    · rw [List.filterMap_cons, (h a (by simp)).2 hp, List.filter_cons_of_neg (by simpa using hp), ih]

theorem notify_list : ∀ (ms : List (GId × Nat)) (res : List (Option Nat)), res.length = sizes.sum →
    (∀ m ∈ ms, Holds sizes m.1.1 m.1.2) → (ms.map (fun m => m.1.2)).Nodup →
    (∀ m ∈ ms, res[m.1.2]? = some none) →
    ∃ res', ms.foldlM (notify sizes) res = .ok res' ∧ res'.length = sizes.sum ∧
      (∀ m ∈ ms, res'[m.1.2]? = some (some m.2)) ∧
      (∀ q, (∀ m ∈ ms, m.1.2 ≠ q) → res'[q]? = res[q]?)
  | [], res, hlen, _, _, _ => ⟨res, rfl, hlen, by simp, fun _ _ => rfl⟩
  | m :: ms, res, hlen, hh, hnd, hn => by
    have hlt : m.1.2 < res.length := by rw [hlen]; exact (holds_iff.1 (hh m (by simp))).1
    rw [List.map_cons, List.nodup_cons] at hnd
    have hfresh : ∀ m' ∈ ms, m'.1.2 ≠ m.1.2 := by
      intro m' hm' h
      exact hnd.1 (List.mem_map.2 ⟨m', hm', h⟩)
    have e1 : notify sizes res m = .ok (res.set m.1.2 (some m.2)) := by
      rw [notify, if_pos (hh m (by simp)), hn m (by simp)]
    obtain ⟨res', e2, l2, k2, n2⟩ := notify_list ms (res.set m.1.2 (some m.2)) (by simpa using hlen)
      (fun m' h => hh m' (by simp [h])) hnd.2
      (fun m' h => by
        rw [List.getElem?_set_ne (fun h' => hfresh m' h h'.symm)]
        exact hn m' (by simp [h]))
    refine ⟨res', by simp [List.foldlM_cons, e1, e2], l2, ?_, ?_⟩
    · intro m' hm'
      rcases List.mem_cons.1 hm' with rfl | hm'
      · rw [n2 _ hfresh, List.getElem?_set_self hlt]
      · exact k2 m' hm'
    · intro q hq
      rw [n2 q (fun m' h => hq m' (by simp [h])), List.getElem?_set_ne (hq m (by simp))]

open Classical in
/-- steps 2 and 3 from a fixed point -/
theorem numberCliques_ok {input st : List (List GId)} (hC : ContactLists sizes input)
    (hI : FpInv sizes (SameParticle input) st) (hB : Below input st) (hF : Fixed sizes st)
    {orderN : List (GId × Nat) → List (GId × Nat)} (hN : ∀ l, (orderN l).Perm l) :
    ∃ labels n, numberCliques sizes orderN st = .ok (labels.map some) ∧ IsStitching input labels n := by
  have hE := same_equiv input
  have hmins : ∃ mins : List Nat, mins = (List.range sizes.sum).filter (fun g => IsMin sizes input g) :=
    ⟨_, rfl⟩
  obtain ⟨mins, hmins⟩ := hmins
  have hcl : cliques sizes st = mins.map (fun g => (rankOf sizes g, g) :: st.getD g []) := by
    rw [cliques, hI.length, hmins]
    apply filterMap_if
    intro g hg
    exact representative_spec hC hI hB hF (List.mem_range.1 hg)
  have hmem : ∀ g, g ∈ mins ↔ g < sizes.sum ∧ IsMin sizes input g := by
    intro g; rw [hmins]; simp
  have hnd : mins.Nodup := by rw [hmins]; exact List.nodup_range.filter _
  have hmin_unique : ∀ g ∈ mins, ∀ g' ∈ mins, SameParticle input g g' → g = g' := by
    intro g hg g' hg' h
    have h1 := (hmem g).1 hg
    have h2 := (hmem g').1 hg'
    have := h1.2 g' h2.1 h
    have := h2.2 g h1.1 (hE.symm h)
    omega
  have hex : ∀ q, q < sizes.sum → ∃ g ∈ mins, SameParticle input g q := by
    intro q hq
    have hx : ∃ x, x < sizes.sum ∧ SameParticle input x q := ⟨q, hq, hE.refl q⟩
    refine ⟨Nat.find hx, (hmem _).2 ⟨(Nat.find_spec hx).1, ?_⟩, (Nat.find_spec hx).2⟩
    intro y hy hs
    exact Nat.find_min' hx ⟨hy, hE.trans (hE.symm hs) (Nat.find_spec hx).2⟩
  -- members of a clique
  have hclq : ∀ g ∈ mins, ∀ e : GId, e ∈ (rankOf sizes g, g) :: st.getD g [] ↔
      (e.2 < sizes.sum ∧ e.1 = rankOf sizes e.2 ∧ SameParticle input g e.2) := by
    intro g hg e
    have hglt := ((hmem g).1 hg).1
    have hst : st[g]? = some (st.getD g []) := by
      have : g < st.length := by rw [hI.length]; exact hglt
      simp [List.getD, this]
    constructor
    · intro he
      rcases List.mem_cons.1 he with rfl | he
      · exact ⟨hglt, rfl, hE.refl g⟩
      · obtain ⟨h1, -, h3⟩ := hI.entry g _ hst e he
        exact ⟨(holds_iff.1 h1).1, (holds_iff.1 h1).2, h3⟩
    · rintro ⟨h1, h2, h3⟩
      by_cases heg : e.2 = g
      · have : e = (rankOf sizes g, g) := Prod.ext (by rw [h2, heg]) heg
        rw [this]; simp
      · have := fixed_mem hC hB hF hst h3 heg
        rw [← h2] at this
        exact List.mem_cons_of_mem _ this
  have hgetD : ∀ k, (cliques sizes st).getD k [] =
      match mins[k]? with | some g => (rankOf sizes g, g) :: st.getD g [] | none => [] := by
    intro k
    rw [hcl, List.getD_eq_getElem?_getD, List.getElem?_map]
    cases mins[k]? <;> rfl
  have hnot : ∀ m : GId × Nat, m ∈ notifications (cliques sizes st) ↔
      ∃ g, mins[m.2]? = some g ∧ m.1.2 < sizes.sum ∧ m.1.1 = rankOf sizes m.1.2 ∧
        SameParticle input g m.1.2 := by
    intro m
    simp only [notifications, List.mem_flatMap, List.mem_range, List.mem_map, hgetD]
    constructor
    · rintro ⟨k, hk, e, he, rfl⟩
      rw [hcl, List.length_map] at hk
      have hmk := List.getElem?_eq_getElem hk
      rw [hmk] at he
      exact ⟨mins[k], hmk, (hclq _ (List.getElem_mem hk) e).1 he⟩
    · rintro ⟨g, hg, h⟩
      refine ⟨m.2, ?_, m.1, ?_, rfl⟩
      · rw [hcl, List.length_map]; exact (List.getElem?_eq_some_iff.1 hg).1
      · rw [hg]; exact (hclq g (List.mem_of_getElem? hg) m.1).2 h
  have hnn : ((notifications (cliques sizes st)).map (fun m => m.1.2)).Nodup := by
    rw [notifications, List.map_flatMap]
    rw [List.nodup_flatMap]
    constructor
    · intro k hk
      rw [List.map_map, hgetD]
      cases hmk : mins[k]? with
      | none => simp
      | some g =>
        have hg := List.mem_of_getElem? hmk
        have hglt := ((hmem g).1 hg).1
        have hst : st[g]? = some (st.getD g []) := by
          have : g < st.length := by rw [hI.length]; exact hglt
          simp [List.getD, this]
        refine List.Nodup.map_on ?_ ?_
        · intro x hx y hy hxy
          have h1 := (hclq g hg x).1 hx
          have h2 := (hclq g hg y).1 hy
          simp only [Function.comp] at hxy
          exact Prod.ext (by rw [h1.2.1, h2.2.1, hxy]) hxy
        · rw [List.nodup_cons]
          refine ⟨?_, (hI.sorted g _ hst).nodup⟩
          intro h
          exact (hI.entry g _ hst _ h).2.1 rfl
    · refine List.Pairwise.imp_of_mem ?_ List.pairwise_lt_range
      intro i j hi hj hij
      simp only [Function.onFun]
      rw [List.disjoint_left]
      intro x hx hy
      simp only [List.mem_map] at hx hy
      obtain ⟨m, ⟨e, he, rfl⟩, rfl⟩ := hx
      obtain ⟨m', ⟨e', he', rfl⟩, hxy⟩ := hy
      have m1 := (hnot (e, i)).1 (List.mem_flatMap.2 ⟨i, hi, List.mem_map.2 ⟨e, he, rfl⟩⟩)
      have m2 := (hnot (e', j)).1 (List.mem_flatMap.2 ⟨j, hj, List.mem_map.2 ⟨e', he', rfl⟩⟩)
      obtain ⟨g, g1, g2, g3, g4⟩ := m1
      obtain ⟨g', g1', g2', g3', g4'⟩ := m2
      simp only at g1 g1' g4 g4' hxy
      rw [hxy] at g4'
      have := hmin_unique g (List.mem_of_getElem? g1) g' (List.mem_of_getElem? g1')
        (hE.trans g4 (hE.symm g4'))
      subst this
      have := (List.getElem?_inj (List.getElem?_eq_some_iff.1 g1).1 hnd).1 (g1.trans g1'.symm)
      omega
  have hperm := hN (notifications (cliques sizes st))
  obtain ⟨res, e, hlen, hres, -⟩ := notify_list (sizes := sizes)
    (orderN (notifications (cliques sizes st))) (List.replicate st.length none)
    (by simp [hI.length])
    (fun m hm => by
      obtain ⟨g, h1, h2, h3, h4⟩ := (hnot m).1 (hperm.mem_iff.1 hm)
      exact holds_iff.2 ⟨h2, h3⟩)
    ((hperm.map _).nodup_iff.2 hnn)
    (fun m hm => by
      obtain ⟨g, h1, h2, h3, h4⟩ := (hnot m).1 (hperm.mem_iff.1 hm)
      rw [List.getElem?_replicate, if_pos (by rw [hI.length]; exact h2)])
  -- every particle has got its number
  have hall : ∀ q, q < sizes.sum → ∃ k g, mins[k]? = some g ∧ SameParticle input g q ∧
      res[q]? = some (some k) := by
    intro q hq
    obtain ⟨g, hg, hs⟩ := hex q hq
    obtain ⟨k, hk, rfl⟩ := List.mem_iff_getElem.1 hg
    refine ⟨k, mins[k], List.getElem?_eq_getElem hk, hs, ?_⟩
    exact hres ((rankOf sizes q, q), k) (hperm.mem_iff.2 ((hnot _).2
      ⟨mins[k], List.getElem?_eq_getElem hk, hq, rfl, hs⟩))
  have hlab : ∃ labels : List Nat, res = labels.map some := by
    refine ⟨res.map (fun o => o.getD 0), ?_⟩
    rw [List.map_map]
    apply List.ext_getElem?
    intro q
    rw [List.getElem?_map]
    by_cases hq : q < sizes.sum
    · obtain ⟨k, g, -, -, hr⟩ := hall q hq
      rw [hr]; rfl
    · rw [List.getElem?_eq_none (by omega)]; rfl
  obtain ⟨labels, hlab⟩ := hlab
  have hL : ∀ (v a : Nat), labels[v]? = some a → ∃ g, mins[a]? = some g ∧ SameParticle input g v := by
    intro v a hv
    have hv' : v < sizes.sum := by
      rw [← hlen, hlab, List.length_map]; exact (List.getElem?_eq_some_iff.1 hv).1
    obtain ⟨k, g, h1, h2, h3⟩ := hall v hv'
    rw [hlab, List.getElem?_map, hv] at h3
    simp at h3
    subst h3
    exact ⟨g, h1, h2⟩
  refine ⟨labels, mins.length, ?_, ?_, ?_, ?_, ?_⟩
  · rw [numberCliques, e, hlab]
  · rw [hC.length, ← hlen, hlab, List.length_map]
  · intro v l hv
    obtain ⟨g, hg, -⟩ := hL v l hv
    exact (List.getElem?_eq_some_iff.1 hg).1
  · intro l hl
    have hg := (hmem mins[l]).1 (List.getElem_mem hl)
    obtain ⟨k, g, h1, h2, h3⟩ := hall mins[l] hg.1
    refine ⟨mins[l], ?_⟩
    have := hmin_unique g (List.mem_of_getElem? h1) _ (List.getElem_mem hl) h2
    rw [this] at h1
    have := (List.getElem?_inj (List.getElem?_eq_some_iff.1 h1).1 hnd).1
      (h1.trans (List.getElem?_eq_getElem hl).symm)
    subst this
    rw [hlab, List.getElem?_map] at h3
    cases hv : labels[mins[k]]? with
    | none => rw [hv] at h3; simp at h3
    | some x => rw [hv] at h3; simp at h3; rw [h3]
  · intro v w a b hv hw
    obtain ⟨g, hg, hgv⟩ := hL v a hv
    obtain ⟨g', hg', hgw⟩ := hL w b hw
    constructor
    · rintro rfl
      rw [hg] at hg'; cases hg'
      exact hE.trans (hE.symm hgv) hgw
    · intro h
      have := hmin_unique g (List.mem_of_getElem? hg) g' (List.mem_of_getElem? hg')
        (hE.trans hgv (hE.trans h (hE.symm hgw)))
      subst this
      exact (List.getElem?_inj (List.getElem?_eq_some_iff.1 hg).1 hnd).1 (hg.trans hg'.symm)

/-! ## The variant with a graph on rank 0 -/

theorem gather_fold : ∀ (edgesIn pre : List (List (List GId))) (E : List (Nat × Nat)),
    (∀ e, e ∈ E ↔ ∃ l x, pre.flatten[e.1]? = some l ∧ x ∈ l ∧ x.2 = e.2) →
    ∃ E', edgesIn.foldl (fun s rk => (s.1 + rk.length,
        s.2 ++ (List.range rk.length).flatMap fun j => (rk.getD j []).map fun e => (s.1 + j, e.2)))
        (pre.flatten.length, E) = ((pre ++ edgesIn).flatten.length, E') ∧
      ∀ e, e ∈ E' ↔ ∃ l x, (pre ++ edgesIn).flatten[e.1]? = some l ∧ x ∈ l ∧ x.2 = e.2
  | [], pre, E, h => ⟨E, by simp, by simpa using h⟩
  | rk :: edgesIn, pre, E, h => by
    obtain ⟨E', e1, e2⟩ := gather_fold edgesIn (pre ++ [rk])
      (E ++ (List.range rk.length).flatMap fun j => (rk.getD j []).map fun e =>
        (pre.flatten.length + j, e.2)) (by
      intro e
      rw [List.mem_append, h, List.mem_flatMap]
      simp only [List.flatten_append, List.flatten_cons, List.flatten_nil, List.append_nil,
        List.mem_range, List.mem_map]
      constructor
      · rintro (⟨l, x, h1, h2, h3⟩ | ⟨j, hj, x, hx, rfl⟩)
        · exact ⟨l, x, by rw [List.getElem?_append_left (List.getElem?_eq_some_iff.1 h1).1]; exact h1,
            h2, h3⟩
        · refine ⟨rk.getD j [], x, ?_, hx, rfl⟩
          rw [List.getElem?_append_right (by omega)]
          simp [List.getD, hj]
      · rintro ⟨l, x, h1, h2, h3⟩
        by_cases hlt : e.1 < pre.flatten.length
        · rw [List.getElem?_append_left hlt] at h1
          exact Or.inl ⟨l, x, h1, h2, h3⟩
        · rw [List.getElem?_append_right (by omega)] at h1
          refine Or.inr ⟨e.1 - pre.flatten.length, (List.getElem?_eq_some_iff.1 h1).1, x, ?_, ?_⟩
          · simp only [List.getD, h1, Option.getD_some]; exact h2
          · exact Prod.ext (by simp only; omega) h3)
    refine ⟨E', ?_, by simpa using e2⟩
    rw [List.foldl_cons]
    have hlen : pre.flatten.length + rk.length = (pre ++ [rk]).flatten.length := by
      simp only [List.flatten_append, List.length_append, List.flatten_cons, List.flatten_nil,
        List.append_nil]
    simp only at e1 ⊢
    rw [hlen, e1]
    simp

theorem gather_spec (edgesIn : List (List (List GId))) :
    (gatherEdges edgesIn).1 = edgesIn.flatten.length ∧
    ∀ e, e ∈ (gatherEdges edgesIn).2 ↔ Touches edgesIn.flatten e.1 e.2 := by
  obtain ⟨E', e1, e2⟩ := gather_fold edgesIn [] [] (by simp)
  have e1' : gatherEdges edgesIn = (edgesIn.flatten.length, E') := e1
  rw [e1']
  exact ⟨rfl, e2⟩

theorem offsetOf_succ {sizes : List Nat} {r : Nat} :
    offsetOf sizes (r + 1) = offsetOf sizes r + sizes.getD r 0 := by
  simp only [offsetOf, List.take_add_one, List.sum_append, List.getD]
  cases hs : sizes[r]? <;> simp

theorem slices_flatten (sizes colors : List Nat) : ∀ k : Nat,
    ((List.range k).map fun r => (colors.drop (offsetOf sizes r)).take (sizes.getD r 0)).flatten =
      colors.take (offsetOf sizes k)
  | 0 => by simp
  | k + 1 => by
    rw [List.range_succ, List.map_append, List.flatten_append, slices_flatten sizes colors k,
      offsetOf_succ]
    simp [List.take_add]

end Verif
