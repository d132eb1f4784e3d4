/-
C163: entries of block vectors owned by a process.
-/
import Verif.Lemmas.Owned
import Verif.Lemmas.BlockVector
import Mathlib.Algebra.Order.Field.Basic
import Mathlib.Algebra.Field.Rat
import Mathlib.Algebra.Order.Ring.Unbundled.Rat

set_option linter.unusedSectionVars false

namespace Verif.Props

open Verif.Owned Verif.Owned.Spec

/-- The set holds, in ascending order and once each, the positions of the entries that the process owns. -/
theorem C163_members_partial (l : List Blk) (hi : ∀ x ∈ l, x.hi ≤ x.size) :
    ∃ is, locallyOwned (collect l) = .ok is ∧ is.Pairwise (· < ·) ∧ ∀ k, k ∈ is ↔ ∃ b i, Owns l b i ∧ k = position l b i :=
  ⟨_, locallyOwned_eq l hi, nodup_listed hi 0, fun k => by simpa using mem_listed (off := 0) (k := k) (l := l)⟩

/-- All positions are owned by one process each. -/
theorem C163_partition_partial {sizes : List Nat} {ranks : List (List Blk)} (h : Shared sizes ranks) {k : Nat} (hk : k < sizes.sum) :
    ∃ r : Nat, (∃ l is, ranks[r]? = some l ∧ locallyOwned (collect l) = .ok is ∧ k ∈ is) ∧
      ∀ r' l' is', ranks[r']? = some l' → locallyOwned (collect l') = .ok is' → k ∈ is' → r' = r := by
  obtain ⟨b, i, n, h1, h2, h3⟩ := position_exists sizes hk
  obtain ⟨r, ⟨l, hl, ho⟩, hu⟩ := h.one b i n h1 h2
  have pos : ∀ l ∈ ranks, ∀ b i, position l b i = (sizes.take b).sum + i := fun l hl b i => by rw [position, ← h.same l hl, List.map_take]
  refine ⟨r, ⟨l, _, hl, locallyOwned_eq l (h.inside l (List.mem_of_getElem? hl)), ?_⟩, fun r' l' is' hl' hs hk' => ?_⟩
  · exact mem_listed.2 ⟨b, i, ho, by rw [pos l (List.mem_of_getElem? hl)]; omega⟩
  · have hm := List.mem_of_getElem? hl'
    rw [locallyOwned_eq l' (h.inside l' hm)] at hs
    obtain rfl := Res.ok.inj hs
    obtain ⟨b', i', ho', he⟩ := mem_listed.1 hk'
    obtain ⟨x', g1, g2, g3⟩ := ho'
    have hx' := h.inside l' hm x' (List.mem_of_getElem? g1)
    have hs' : (l'.map Blk.size)[b]? = some n := by rw [h.same l' hm]; exact h1
    rw [List.getElem?_map] at hs'
    obtain ⟨x, gx, rfl⟩ := Option.map_eq_some_iff.1 hs'
    obtain ⟨rfl, rfl⟩ := position_inj gx g1 h2 (show i' < x'.size by omega) (by rw [pos l' hm b i]; omega)
    exact hu r' l' hl' ⟨x', g1, g2, g3⟩

/-- A view has no sizes: if the process owns anything of its blocks, the call is undefined. -/
theorem C163_view_violation (v : Vec) (s e : Nat) (h : ∃ x, (viewOf v s e).blocks.head? = some x ∧ x.lo < x.hi) : locallyOwned (viewOf v s e) = .ub := by
  obtain ⟨x, hx, h⟩ := h
  unfold locallyOwned
  cases hb : (viewOf v s e).blocks with
  | nil => rw [hb] at hx; simp at hx
  | cons y l =>
    rw [hb] at hx
    simp only [List.head?_cons, Option.some.injEq] at hx
    subst hx
    rw [List.zipIdx_cons, List.foldlM_cons]
    have : ownedStep (viewOf v s e) [] (y, 0) = .ub := by
      unfold ownedStep addIndices
      rw [if_neg (by simp), if_pos]
      exact ⟨h, by simp [viewOf, DBV.start]; omega⟩
    rw [this]
    rfl

/-- After blocks of different sizes have been exchanged, the stored sizes are old ones: one process claims position 2 instead of 1, for the other the call is undefined. -/
theorem C163_move_violation : ∃ a b, moved (collect [⟨2, 0, 1⟩, ⟨1, 0, 0⟩]) 0 1 = .ok a ∧ moved (collect [⟨2, 1, 2⟩, ⟨1, 0, 1⟩]) 0 1 = .ok b ∧
    locallyOwned a = .ok [2] ∧ locallyOwned b = .ub := by
  refine ⟨⟨[⟨1, 0, 0⟩, ⟨2, 0, 1⟩], [2, 1]⟩, ⟨[⟨1, 0, 1⟩, ⟨2, 1, 2⟩], [2, 1]⟩, ?_⟩
  decide +kernel

private theorem linftyV_le {K : Type} [Field K] [LinearOrder K] [IsStrictOrderedRing K] (x : List K) (r : K) (hr : 0 ≤ r) :
    x.foldl (fun r a => max r |a|) r = 0 ↔ r = 0 ∧ ∀ a ∈ x, a = 0 := by
  induction x generalizing r with
  | nil => simp
  | cons a x ih =>
    rw [List.foldl_cons, ih _ (le_max_of_le_left hr)]
    constructor
    · rintro ⟨h1, h2⟩
      have h3 : r = 0 := le_antisymm (h1 ▸ le_max_left _ _) hr
      have h4 : a = 0 := abs_nonpos_iff.1 (h1 ▸ le_max_right _ _)
      exact ⟨h3, by simp [h4]; exact h2⟩
    · rintro ⟨rfl, h⟩
      exact ⟨by simp [h a (by simp)], fun b hb => h b (by simp [hb])⟩

private theorem linfty_nonneg {K : Type} [Field K] [LinearOrder K] [IsStrictOrderedRing K] (x : List K) (r : K) (hr : 0 ≤ r) : 0 ≤ x.foldl (fun r a => max r |a|) r := by
  induction x generalizing r with
  | nil => exact hr
  | cons a x ih => exact ih _ (le_max_of_le_left hr)

/-- A vector counts as zero if and only if all entries are zero. -/
theorem C163_zero {K : Type} [Field K] [LinearOrder K] [IsStrictOrderedRing K] (v : DBV K) : allZero v = true ↔ ∀ a ∈ v.blocks.flatten, a = 0 := by
  unfold allZero DBV.linfty
  rw [decide_eq_true_iff]
  have key : ∀ (l : List (List K)) (r : K), 0 ≤ r → (l.foldl (fun r x => max r (DBV.linftyV x)) r = 0 ↔ r = 0 ∧ ∀ a ∈ l.flatten, a = 0) := by
    intro l
    induction l with
    | nil => intro r _; simp
    | cons x l ih =>
      intro r hr
      have hx := linfty_nonneg x 0 le_rfl
      rw [List.foldl_cons, ih _ (le_max_of_le_left hr)]
      have h0 := linftyV_le x 0 le_rfl
      constructor
      · rintro ⟨h1, h2⟩
        have h3 : r = 0 := le_antisymm (h1 ▸ le_max_left _ _) hr
        have h4 : DBV.linftyV x = 0 := le_antisymm (h1 ▸ le_max_right _ _) hx
        refine ⟨h3, fun a ha => ?_⟩
        rw [List.flatten_cons, List.mem_append] at ha
        exact ha.elim ((h0.1 h4).2 a) (h2 a)
      · rintro ⟨rfl, h⟩
        have h4 : DBV.linftyV x = 0 := h0.2 ⟨rfl, fun a ha => h a (by simp [ha])⟩
        exact ⟨by rw [h4, max_self], fun a ha => h a (by rw [List.flatten_cons, List.mem_append]; exact Or.inr ha)⟩
  simpa using key v.blocks 0 le_rfl

namespace Ex163

/-- Two processes, blocks of sizes 3, 0 and 2. -/
def p0 : List Blk := [⟨3, 0, 2⟩, ⟨0, 0, 0⟩, ⟨2, 0, 1⟩]
def p1 : List Blk := [⟨3, 2, 3⟩, ⟨0, 0, 0⟩, ⟨2, 1, 2⟩]

example : locallyOwned (collect p0) = .ok [0, 1, 3] ∧ locallyOwned (collect p1) = .ok [2, 4] := by decide +kernel

example : Shared [3, 0, 2] [p0, p1] where
  same := by decide +kernel
  inside := by decide +kernel
  one := by
    have own : ∀ l : List Blk, ∀ b i x, l[b]? = some x → (Owns l b i ↔ x.lo ≤ i ∧ i < x.hi) := fun l b i x hx => by simp [Owns, hx]
    intro b i n hb hi
    match b with
    | 0 =>
      obtain rfl : 3 = n := by simpa using hb
      by_cases h : i < 2
      · refine ⟨0, ⟨p0, rfl, (own p0 0 i _ rfl).2 ⟨by simp, h⟩⟩, fun r' l' hr ho => ?_⟩
        match r' with
        | 0 => rfl
        | 1 => obtain rfl : p1 = l' := by simpa using hr
               have := (own p1 0 i _ rfl).1 ho
               simp at this; omega
        | r' + 2 => simp at hr
      · refine ⟨1, ⟨p1, rfl, (own p1 0 i _ rfl).2 ⟨by simp; omega, hi⟩⟩, fun r' l' hr ho => ?_⟩
        match r' with
        | 0 => obtain rfl : p0 = l' := by simpa using hr
               have := (own p0 0 i _ rfl).1 ho
               simp at this; omega
        | 1 => rfl
        | r' + 2 => simp at hr
    | 1 => obtain rfl : 0 = n := by simpa using hb
           omega
    | 2 =>
      obtain rfl : 2 = n := by simpa using hb
      by_cases h : i < 1
      · refine ⟨0, ⟨p0, rfl, (own p0 2 i _ rfl).2 ⟨by simp, h⟩⟩, fun r' l' hr ho => ?_⟩
        match r' with
        | 0 => rfl
        | 1 => obtain rfl : p1 = l' := by simpa using hr
               have := (own p1 2 i _ rfl).1 ho
               simp at this; omega
        | r' + 2 => simp at hr
      · refine ⟨1, ⟨p1, rfl, (own p1 2 i _ rfl).2 ⟨by simp; omega, hi⟩⟩, fun r' l' hr ho => ?_⟩
        match r' with
        | 0 => obtain rfl : p0 = l' := by simpa using hr
               have := (own p0 2 i _ rfl).1 ho
               simp at this; omega
        | 1 => rfl
        | r' + 2 => simp at hr
    | b + 3 => simp at hb

example : allZero (DBV.collect [[0, (0 : Rat)], []]) = true ∧ allZero (DBV.collect [[0, (1/2 : Rat)], []]) = false := by decide +kernel
example : locallyOwned (viewOf (collect p0) 0 1) = .ub := by decide +kernel

end Ex163

end Verif.Props
