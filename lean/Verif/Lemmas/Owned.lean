/-
Lemmas on owned entries.
-/
import Verif.Spec.Owned

set_option linter.unusedSectionVars false

namespace Verif.Owned

open Verif.Owned.Spec

/-- The owned entries of blocks written one after the other, from position `off` on. -/
def listed (off : Nat) : List Blk → List Nat
  | [] => []
  | b :: bs => (List.range (b.hi - b.lo)).map (off + b.lo + ·) ++ listed (off + b.size) bs

theorem loop_listed (v : Vec) (pre l : List Blk) (hv : v = collect (pre ++ l)) (hi : ∀ x ∈ l, x.hi ≤ x.size) (acc : List Nat) :
    (l.zipIdx pre.length).foldlM (ownedStep v) acc = .ok (acc ++ listed ((pre.map Blk.size).sum) l) := by
  induction l generalizing pre acc with
  | nil => simp [listed]
  | cons b l ih =>
    have hb := hi b (by simp)
    have e1 : v.indices = (pre ++ b :: l).map Blk.size := by rw [hv]; rfl
    have e2 : DBV.start v.indices pre.length = (pre.map Blk.size).sum := by
      rw [e1, DBV.start, List.map_append, List.take_left' (by simp)]
    have e3 : (pre.map Blk.size).sum + b.size ≤ v.indices.sum := by
      rw [e1]; simp only [List.map_append, List.map_cons, List.sum_append, List.sum_cons]; omega
    have e4 : ¬ v.indices.length < pre.length := by rw [e1]; simp
    rw [List.zipIdx_cons, List.foldlM_cons]
    have hs : ownedStep v acc (b, pre.length) = .ok (acc ++ (List.range (b.hi - b.lo)).map ((pre.map Blk.size).sum + b.lo + ·)) := by
      unfold ownedStep addIndices
      rw [if_neg e4, e2]
      dsimp only
      rw [if_neg (by omega)]
    rw [hs, Res.ok_bind]
    have := ih (pre ++ [b]) (by rw [hv]; simp) (fun x hx => hi x (by simp [hx])) (acc ++ (List.range (b.hi - b.lo)).map ((pre.map Blk.size).sum + b.lo + ·))
    rw [List.length_append] at this
    rw [show pre.length + 1 = pre.length + [b].length from rfl, this]
    simp [listed, List.append_assoc]

theorem locallyOwned_eq (l : List Blk) (hi : ∀ x ∈ l, x.hi ≤ x.size) : locallyOwned (collect l) = .ok (listed 0 l) := by
  have := loop_listed (collect l) [] l rfl hi []
  simpa [locallyOwned, collect] using this

theorem mem_listed {off k : Nat} {l : List Blk} : k ∈ listed off l ↔ ∃ b i, Owns l b i ∧ k = off + position l b i := by
  induction l generalizing off with
  | nil => simp [listed, Owns]
  | cons x l ih =>
    rw [listed, List.mem_append, ih]
    constructor
    · rintro (h | ⟨b, i, h, rfl⟩)
      · obtain ⟨j, hj, rfl⟩ := List.mem_map.1 h
        have := List.mem_range.1 hj
        exact ⟨0, x.lo + j, ⟨x, rfl, by omega, by omega⟩, by simp [position]; omega⟩
      · refine ⟨b + 1, i, ?_, ?_⟩
        · simpa [Owns] using h
        · simp [position]; omega
    · rintro ⟨b, i, ⟨y, h1, h2, h3⟩, rfl⟩
      cases b with
      | zero =>
        simp only [List.getElem?_cons_zero, Option.some.injEq] at h1
        subst h1
        left
        exact List.mem_map.2 ⟨i - x.lo, List.mem_range.2 (by omega), by simp [position]; omega⟩
      | succ b =>
        right
        refine ⟨b, i, ⟨y, by simpa using h1, h2, h3⟩, ?_⟩
        simp [position]; omega

theorem position_inj {l : List Blk} {b b' i i' : Nat} {x x' : Blk} (h : l[b]? = some x) (h' : l[b']? = some x') (hi : i < x.size) (hi' : i' < x'.size)
    (he : position l b i = position l b' i') : b = b' ∧ i = i' := by
  induction l generalizing b b' with
  | nil => simp at h
  | cons y l ih =>
    cases b with
    | zero =>
      simp only [List.getElem?_cons_zero, Option.some.injEq] at h
      subst h
      cases b' with
      | zero => simp [position] at he; exact ⟨rfl, he⟩
      | succ b' => simp [position] at he; omega
    | succ b =>
      cases b' with
      | zero =>
        simp only [List.getElem?_cons_zero, Option.some.injEq] at h'
        subst h'
        simp [position] at he; omega
      | succ b' =>
        have := ih (by simpa using h) (by simpa using h') (by simp [position] at he ⊢; omega)
        exact ⟨by omega, this.2⟩

theorem position_exists (sizes : List Nat) {k : Nat} (hk : k < sizes.sum) : ∃ b i n, sizes[b]? = some n ∧ i < n ∧ k = (sizes.take b).sum + i := by
  induction sizes generalizing k with
  | nil => simp at hk
  | cons n sizes ih =>
    by_cases h : k < n
    · exact ⟨0, k, n, rfl, h, by simp⟩
    · obtain ⟨b, i, n', h1, h2, h3⟩ := ih (k := k - n) (by simp at hk; omega)
      exact ⟨b + 1, i, n', by simpa using h1, h2, by simp; omega⟩

theorem nodup_listed {l : List Blk} (hi : ∀ x ∈ l, x.hi ≤ x.size) (off : Nat) : (listed off l).Pairwise (· < ·) := by
  induction l generalizing off with
  | nil => simp [listed]
  | cons x l ih =>
    rw [listed, List.pairwise_append]
    refine ⟨?_, ih (fun y hy => hi y (by simp [hy])) _, ?_⟩
    · rw [List.pairwise_map]
      exact List.pairwise_lt_range.imp fun h => by omega
    · intro a ha b hb
      obtain ⟨j, hj, rfl⟩ := List.mem_map.1 ha
      obtain ⟨b', i, _, rfl⟩ := mem_listed.1 hb
      have := List.mem_range.1 hj
      have := hi x (by simp)
      omega

end Verif.Owned
