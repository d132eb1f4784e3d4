/-
C170: contacts of spheres.
-/
import Verif.Model.ContactPairs
import Verif.Spec.ContactPairs
import Mathlib.Tactic.Linarith
import Mathlib.Data.List.Nodup
import Mathlib.Algebra.Order.Field.Rat

namespace Verif.Props

open Verif.ContactPairs Verif.ContactPairs.Spec

variable {K : Type} [Field K] [LinearOrder K] [IsStrictOrderedRing K]

/-- Neighbours side by side: for each ball those of the left and those of the right array, the latter with the offset. -/
theorem C170_hstack (a b : List (List Nat)) (offset : Nat) (h : a.length = b.length) : hstack (flat a) (flat b) offset = flat (List.zipWith (fun x y => x ++ y.map (· + offset)) a b) := by
  unfold hstack flat
  dsimp only
  induction a generalizing b with
  | nil => cases b with
    | nil => rfl
    | cons => cases h
  | cons x a ih => cases b with
    | nil => cases h
    | cons y b =>
      have := ih b (by simpa using h)
      have e : (List.map (· + offset) (y :: b).flatten) = y.map (· + offset) ++ b.flatten.map (· + offset) := by rw [List.flatten_cons, List.map_append]
      have l : (y.map (· + offset)).length = y.length := List.length_map _
      rw [e]
      simp only [List.map_cons, hgo, List.flatten_cons, List.zipWith_cons_cons]
      rw [List.drop_left, List.take_left, List.drop_left' l, List.take_left' l, this]
      simp

/-- Neighbours one after the other. -/
theorem C170_vstack (a b : List (List Nat)) : vstack (flat a) (flat b) = flat (a ++ b) := by simp [vstack, flat]

/-- Neighbours in the original order with the original numbers. -/
theorem C170_reorder (ll : List (List Nat)) (index : Nat → Nat) (rev : List Nat) (h : ∀ k ∈ rev, k < ll.length) :
    reorder (flat ll) index rev = flat (rev.map fun k => (ll.getD k []).map index) := by
  have seg : ∀ (ll : List (List Nat)) (k : Nat), k < ll.length →
      (ll.map List.length).getD k 0 = (ll.getD k []).length ∧ (ll.flatten.drop ((ll.map List.length).take k).sum).take (ll.getD k []).length = ll.getD k [] := by
    intro ll
    induction ll with
    | nil => intro k hk; cases hk
    | cons x ll ih =>
      intro k hk
      cases k with
      | zero => simp
      | succ k =>
        obtain ⟨h1, h2⟩ := ih k (by simpa using hk)
        refine ⟨by simpa using h1, ?_⟩
        simp only [List.map_cons, List.take_succ_cons, List.sum_cons, List.flatten_cons, List.getD_cons_succ]
        rw [List.drop_append, List.drop_eq_nil_of_le (by omega), List.nil_append, Nat.add_sub_cancel_left]
        exact h2
  unfold reorder flat
  dsimp only
  refine Prod.ext ?_ ?_
  · simp only [List.map_map]
    refine List.map_congr_left fun k hk => ?_
    simpa using (seg ll k (h k hk)).1
  · dsimp only
    rw [List.flatMap_def]
    congr 1
    refine List.map_congr_left fun k hk => ?_
    rw [(seg ll k (h k hk)).1, (seg ll k (h k hk)).2]

/-- The search with the largest radius of each group finds all contacts. -/
theorem C170_found (dist : Nat → Nat → K) (rs : Nat → K) {n s : Nat} (hs : s < n) (hr : ∀ i j, i ≤ j → j < n → rs i ≤ rs j) {i j : Nat} (hj : j < n) (h : Touch dist rs i j) :
    found dist rs n s i j = true := by
  unfold found
  rw [decide_eq_true_iff]
  have := h.2
  split
  · have := hr j s (by omega) hs
    linarith
  · have := hr j (n - 1) (by omega) (by omega)
    linarith

/-- The neighbours in the original order are enough: `q` are the results of the search among the sorted balls, `index` and `rev` the permutation and its inverse. -/
theorem C170_candidates (dist : Nat → Nat → K) (r : Nat → K) {n s : Nat} (hs : s < n) {index rev : Nat → Nat} (hi : ∀ k, k < n → index k < n ∧ rev (index k) = k)
    (hv : ∀ k, k < n → rev k < n ∧ index (rev k) = k) (hr : ∀ i j, i ≤ j → j < n → r (index i) ≤ r (index j)) {q : Nat → List Nat} (hq : ∀ k, k < n → (q k).Nodup)
    (hm : ∀ k j, k < n → (j ∈ q k ↔ j < n ∧ found (fun a b => dist (index a) (index b)) (fun a => r (index a)) n s k j = true)) :
    Candidates dist r n fun i => (q (rev i)).map index := by
  intro i hin
  obtain ⟨a, b⟩ := hv i hin
  refine ⟨?_, ?_, ?_⟩
  · refine List.Nodup.map_on (fun x hx y hy e => ?_) (hq _ a)
    rw [← (hi x ((hm _ _ a).1 hx).1).2, e, (hi y ((hm _ _ a).1 hy).1).2]
  · intro j hj
    obtain ⟨k, hk, rfl⟩ := List.mem_map.1 hj
    exact (hi k ((hm _ _ a).1 hk).1).1
  · intro j hj ht
    obtain ⟨c, d⟩ := hv j hj
    refine List.mem_map.2 ⟨rev j, (hm _ _ a).2 ⟨c, ?_⟩, d⟩
    refine C170_found _ _ hs hr c ⟨fun e => ht.1 ?_, ?_⟩
    · rw [← b, e, d]
    · dsimp only
      rw [b, d]
      exact ht.2

private theorem split_lt (l : List Nat) (x : Nat) : l.takeWhile (fun y => decide (x < y)) ++ l.dropWhile (fun y => decide (x < y)) = l := List.takeWhile_append_dropWhile

private theorem sortIn_perm (p : List Nat) (x : Nat) : (sortIn p x).Perm (x :: p) := by
  unfold sortIn
  refine List.perm_middle.trans (List.Perm.cons _ ?_)
  rw [← List.reverse_append, split_lt]
  simp

private theorem sortIn_sorted (p : List Nat) (x : Nat) (h : p.Pairwise (· ≤ ·)) : (sortIn p x).Pairwise (· ≤ ·) := by
  have hr : p.reverse.Pairwise (fun a b => b ≤ a) := List.pairwise_reverse.2 h
  have hs := hr
  rw [← split_lt p.reverse x, List.pairwise_append] at hs
  obtain ⟨h1, h2, h3⟩ := hs
  have big : ∀ y ∈ p.reverse.takeWhile (fun y => decide (x < y)), x < y := by
    have := List.all_takeWhile (l := p.reverse) (p := fun y => decide (x < y))
    rw [List.all_eq_true] at this
    exact fun y hy => by simpa using this y hy
  have small : ∀ y ∈ p.reverse.dropWhile (fun y => decide (x < y)), y ≤ x := by
    cases hd : p.reverse.dropWhile (fun y => decide (x < y)) with
    | nil => simp
    | cons a t =>
      have ha : ¬ x < a := by
        have := List.head_dropWhile_not (fun y => decide (x < y)) (l := p.reverse) (by rw [hd]; simp)
        simp only [hd, List.head_cons] at this
        simpa using this
      rw [hd] at h2
      intro y hy
      rcases List.mem_cons.1 hy with rfl | hy
      · omega
      · have := (List.pairwise_cons.1 h2).1 y hy
        omega
  unfold sortIn
  rw [List.pairwise_append]
  refine ⟨List.pairwise_reverse.2 h2, ?_, ?_⟩
  · rw [List.pairwise_cons]
    exact ⟨fun y hy => (big y (by simpa using hy)).le, List.pairwise_reverse.2 h1⟩
  · intro y hy z hz
    have hy := small y (by simpa using hy)
    rcases List.mem_cons.1 hz with rfl | hz
    · exact hy
    · have := big z (by simpa using hz)
      omega

/-- The sort of short arrays gives the same entries in order. -/
theorem C170_sort (l : List Nat) : (sort l).Perm l ∧ (sort l).Pairwise (· ≤ ·) := by
  have key : ∀ (l p : List Nat), p.Pairwise (· ≤ ·) → (l.foldl sortIn p).Perm (p ++ l) ∧ (l.foldl sortIn p).Pairwise (· ≤ ·) := by
    intro l
    induction l with
    | nil => intro p hp; exact ⟨by simp, hp⟩
    | cons x l ih =>
      intro p hp
      obtain ⟨a, b⟩ := ih (sortIn p x) (sortIn_sorted p x hp)
      refine ⟨a.trans ?_, b⟩
      exact ((sortIn_perm p x).append_right l).trans (by simpa using (List.perm_middle (l₁ := p) (l₂ := l) (a := x)).symm)
  exact key l [] List.Pairwise.nil

private theorem sort_id {l : List Nat} (h : l.Pairwise (· ≤ ·)) : sort l = l := by
  obtain ⟨a, b⟩ := C170_sort l
  exact a.eq_of_pairwise (fun x y _ _ h1 h2 => Nat.le_antisymm h1 h2) b h

omit [IsStrictOrderedRing K] in
private theorem contactsOf_eq (dist : Nat → Nat → K) (r : Nat → K) (nb : List Nat) (i : Nat) : contactsOf dist r nb i =
    ((sort (nb.filter fun j => decide (j ≠ i))).filter fun j => decide (dist i j - (r j + r i) ≤ 0)).map fun j => ((i, j), dist i j - (r j + r i)) := by
  unfold contactsOf
  dsimp only
  rw [sort_id ((C170_sort _).2.filter _), List.zipWith_map_right, List.zipWith_self]

private theorem contactsOf_mem (dist : Nat → Nat → K) (r : Nat → K) (nb : List Nat) (i : Nat) (e : (Nat × Nat) × K) :
    e ∈ contactsOf dist r nb i ↔ e.1.1 = i ∧ e.1.2 ∈ nb ∧ Touch dist r i e.1.2 ∧ e.2 = dist i e.1.2 - (r i + r e.1.2) := by
  rw [contactsOf_eq]
  simp only [List.mem_map, List.mem_filter, (C170_sort _).1.mem_iff, decide_eq_true_iff]
  constructor
  · rintro ⟨j, ⟨⟨h1, h2⟩, h3⟩, rfl⟩
    exact ⟨rfl, h1, ⟨Ne.symm h2, by linarith⟩, by dsimp only; rw [add_comm]⟩
  · rintro ⟨h1, h2, ⟨h3, h4⟩, h5⟩
    refine ⟨e.1.2, ⟨⟨h2, Ne.symm h3⟩, by linarith⟩, ?_⟩
    rw [add_comm, ← h5, ← h1]

private theorem directed_mem {dist : Nat → Nat → K} {r : Nat → K} {n : Nat} {nb : Nat → List Nat} (h : Candidates dist r n nb) (e : (Nat × Nat) × K) :
    e ∈ directed dist r nb n ↔ e.1.1 < n ∧ e.1.2 < n ∧ Touch dist r e.1.1 e.1.2 ∧ e.2 = dist e.1.1 e.1.2 - (r e.1.1 + r e.1.2) := by
  unfold directed
  simp only [List.mem_flatMap, List.mem_range, contactsOf_mem]
  constructor
  · rintro ⟨i, hi, rfl, h1, h2, h3⟩
    exact ⟨hi, (h _ hi).2.1 _ h1, h2, h3⟩
  · rintro ⟨h1, h2, h3, h4⟩
    exact ⟨_, h1, rfl, (h _ h1).2.2 _ h2 h3, h3, h4⟩

/-- Order of pairs by the first and then by the second number. -/
private def lex (a b : (Nat × Nat) × K) : Prop := a.1.1 < b.1.1 ∨ a.1.1 = b.1.1 ∧ a.1.2 < b.1.2

private theorem directed_lex {dist : Nat → Nat → K} {r : Nat → K} {n : Nat} {nb : Nat → List Nat} (h : Candidates dist r n nb) : (directed dist r nb n).Pairwise lex := by
  unfold directed
  rw [List.pairwise_flatMap]
  constructor
  · intro i hi
    rw [contactsOf_eq, List.pairwise_map]
    have h1 := (C170_sort ((nb i).filter fun j => decide (j ≠ i))).2
    have h2 : (sort ((nb i).filter fun j => decide (j ≠ i))).Nodup := (C170_sort _).1.nodup_iff.2 ((h i (List.mem_range.1 hi)).1.filter _)
    exact ((h1.and h2).filter _).imp fun {a b} ⟨x, y⟩ => .inr ⟨rfl, Nat.lt_of_le_of_ne x y⟩
  · refine List.pairwise_lt_range.imp ?_
    intro i j hij a ha b hb
    rw [contactsOf_mem] at ha hb
    exact .inl (by rw [ha.1, hb.1]; exact hij)

/-- The result: each pair in contact once with the smaller number first, with the gap of the pair, in order; the assertion and the sizes of the arrays hold. -/
theorem C170_pairs {dist : Nat → Nat → K} (hd : ∀ i j, dist i j = dist j i) {r : Nat → K} {n : Nat} {nb : Nat → List Nat} (h : Candidates dist r n nb) :
    ∃ l, pairs dist r nb n = .ok l ∧
      (∀ e : (Nat × Nat) × K, e ∈ l ↔ e.1.1 < e.1.2 ∧ e.1.2 < n ∧ dist e.1.1 e.1.2 ≤ r e.1.1 + r e.1.2 ∧ e.2 = dist e.1.1 e.1.2 - (r e.1.1 + r e.1.2)) ∧
      l.Pairwise fun a b => a.1.1 < b.1.1 ∨ a.1.1 = b.1.1 ∧ a.1.2 < b.1.2 := by
  have hl := directed_lex h
  have nd : (directed dist r nb n).Nodup := hl.imp fun {a b} x e => by
    subst e
    rcases x with x | x <;> omega
  have sw : (((directed dist r nb n).filter fun e => !decide (e.1.1 < e.1.2)).map fun e => ((e.1.2, e.1.1), e.2)).Perm ((directed dist r nb n).filter fun e => decide (e.1.1 < e.1.2)) := by
    rw [List.perm_ext_iff_of_nodup]
    · rintro ⟨⟨i, j⟩, g⟩
      simp only [List.mem_map, List.mem_filter, directed_mem h, Bool.not_eq_true', decide_eq_false_iff_not, decide_eq_true_iff]
      constructor
      · rintro ⟨⟨⟨a, b⟩, c⟩, ⟨⟨h1, h2, ⟨h3, h4⟩, h5⟩, h6⟩, he⟩
        simp only [Prod.mk.injEq] at he
        obtain ⟨⟨rfl, rfl⟩, rfl⟩ := he
        refine ⟨⟨h2, h1, ⟨Ne.symm h3, by rw [hd, add_comm]; exact h4⟩, by rw [hd, add_comm (r b)]; exact h5⟩, by dsimp only at h3 h6; omega⟩
      · rintro ⟨⟨h1, h2, ⟨h3, h4⟩, h5⟩, h6⟩
        exact ⟨((j, i), g), ⟨⟨h2, h1, ⟨Ne.symm h3, by dsimp only; rw [hd, add_comm]; exact h4⟩, by dsimp only; rw [hd, add_comm (r j)]; exact h5⟩, by dsimp only; omega⟩, rfl⟩
    · refine List.Nodup.map ?_ (nd.filter _)
      rintro ⟨⟨a, b⟩, c⟩ ⟨⟨a', b'⟩, c'⟩ he
      simp only [Prod.mk.injEq] at he ⊢
      exact ⟨⟨he.1.2, he.1.1⟩, he.2⟩
    · exact nd.filter _
  have len := sw.length_eq
  rw [List.length_map] at len
  have tot : (directed dist r nb n).length = ((directed dist r nb n).filter fun e => decide (e.1.1 < e.1.2)).length + ((directed dist r nb n).filter fun e => !decide (e.1.1 < e.1.2)).length :=
    List.length_eq_length_filter_add _
  refine ⟨(directed dist r nb n).filter fun e => decide (e.1.1 < e.1.2), ?_, ?_, hl.filter _⟩
  · unfold pairs
    dsimp only
    rw [if_neg (by omega), if_neg (by omega), if_neg (by omega)]
  · intro e
    rw [List.mem_filter, directed_mem h, decide_eq_true_iff]
    constructor
    · rintro ⟨⟨_, h2, h3, h4⟩, h5⟩; exact ⟨h5, h2, h3.2, h4⟩
    · rintro ⟨h1, h2, h3, h4⟩; exact ⟨⟨by omega, h2, ⟨by omega, h3⟩, h4⟩, h1⟩

/-- Each pair counts for two spheres: twice the number of pairs is the sum of the numbers of contacts of all spheres. -/
theorem C170_degree {dist : Nat → Nat → K} {r : Nat → K} {n : Nat} {nb : Nat → List Nat} (h : Candidates dist r n nb) {l : List ((Nat × Nat) × K)} (hp : pairs dist r nb n = .ok l) :
    2 * l.length = ((List.range n).map (degree dist r n)).sum := by
  have h1 : 2 * l.length = (directed dist r nb n).length := by
    unfold pairs at hp
    dsimp only at hp
    split at hp
    · cases hp
    · split at hp
      · cases hp
      · split at hp
        · cases hp
        · cases hp
          omega
  rw [h1, directed, List.length_flatMap]
  congr 1
  refine List.map_congr_left fun i hi => ?_
  have hc := h i (List.mem_range.1 hi)
  unfold degree
  rw [contactsOf_eq, List.length_map]
  refine List.Perm.length_eq ((List.perm_ext_iff_of_nodup ?_ (List.nodup_range.filter _)).2 fun j => ?_)
  · exact ((C170_sort _).1.nodup_iff.2 (hc.1.filter _)).filter _
  · simp only [List.mem_filter, (C170_sort _).1.mem_iff, decide_eq_true_iff, Bool.and_eq_true, List.mem_range]
    constructor
    · rintro ⟨⟨a, b⟩, c⟩; exact ⟨hc.2.1 j a, Ne.symm b, by linarith⟩
    · rintro ⟨a, b, c⟩; exact ⟨⟨hc.2.2 j a ⟨b, c⟩, Ne.symm b⟩, by linarith⟩

namespace Ex170

/-- C170_degree: the ball in the middle touches two others. -/
example : (List.range 3).map (degree (K := Rat) (fun i j => if i = j then 0 else if i + j = 2 then 4 else 2) (fun _ => 1) 3) = [1, 2, 1] := by decide +kernel


/-- C170_hstack, C170_vstack -/
example : hstack ([1, 2], [0, 0, 1]) ([1, 0], [0]) 2 = ([2, 2], [0, 2, 0, 1]) ∧ vstack ([1], [0]) ([2], [0, 1]) = ([1, 2], [0, 0, 1]) := by decide

/-- C170_reorder -/
example : reorder ([1, 2], [0, 0, 1]) (fun k => 1 - k) [1, 0] = ([2, 1], [1, 0, 1]) := by decide

/-- C170_found: a large ball is found from a small one. -/
example : found (K := Rat) (fun _ _ => 6) (fun k => if k = 3 then 5 else 1) 4 3 0 3 = true := by decide +kernel

/-- C170_candidates: two balls in reverse order. -/
example : ([[0, 1], [1]].map fun l => l.map fun k => 1 - k) = [[1, 0], [0]] := by decide

/-- C170_sort -/
example : sort [3, 1, 2, 1] = [1, 1, 2, 3] := by decide

/-- C170_pairs: three balls in a line. -/
example : pairs (K := Rat) (fun i j => if i = j then 0 else if i + j = 2 then 4 else 2) (fun _ => 1) (fun _ => [2, 0, 1]) 3 = .ok [((0, 1), 0), ((1, 2), 0)] := by decide +kernel

/-- Without all contacts among the candidates, the assertion fails. -/
example : pairs (K := Rat) (fun _ _ => 1) (fun _ => 1) (fun i => if i = 0 then [1] else []) 2 = .exc .assertThrow := by decide +kernel

end Ex170

end Verif.Props
