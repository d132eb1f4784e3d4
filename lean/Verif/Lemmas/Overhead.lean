import Verif.Spec.Overhead
import Verif.Lemmas.Cutoff
import Mathlib.Algebra.Order.BigOperators.Group.Finset

set_option linter.unusedSectionVars false

namespace Verif.Overhead

open Verif.Overhead.Spec

variable {K : Type} [Field K] [LinearOrder K]

theorem le_foldl_max (l : List Nat) (a : Nat) : a ≤ l.foldl max a ∧ ∀ x ∈ l, x ≤ l.foldl max a := by
  induction l generalizing a with
  | nil => simp
  | cons y l ih =>
    obtain ⟨h1, h2⟩ := ih (max a y)
    rw [List.foldl_cons]
    refine ⟨le_trans (le_max_left _ _) h1, ?_⟩
    intro x hx
    rcases List.mem_cons.mp hx with rfl | hx
    · exact le_trans (le_max_right _ _) h1
    · exact h2 x hx

theorem foldl_max_mem (l : List Nat) (a : Nat) : l.foldl max a = a ∨ l.foldl max a ∈ l := by
  induction l generalizing a with
  | nil => exact .inl rfl
  | cons y l ih =>
    rw [List.foldl_cons]
    rcases ih (max a y) with h | h
    · rcases max_choice a y with h2 | h2
      · rw [h2] at h ⊢; exact .inl h
      · rw [h2] at h ⊢; rw [h]; exact .inr (by simp)
    · exact .inr (by simp [h])

/-- The counters with ghost values. -/
def trueCounters (th : K) (blocks : List (Nat → K)) (r : Rank) : List Nat :=
  r.owned.map (present th blocks) ++ List.replicate r.foreign 0

theorem counters_ghosted (th : K) (owner : Nat → Nat) (blocks : List (Nat → K)) (i : Nat) (r : Rank) :
    counters th owner true blocks i r = trueCounters th blocks r := by
  simp [counters, trueCounters, above, read, present]

theorem mapIdx_const {α β : Type} (f : Nat → α → β) (g : α → β) (h : ∀ i a, f i a = g a) (l : List α) : l.mapIdx f = l.map g := by
  refine List.ext_getElem (by simp) ?_
  intro i h1 h2
  simp [h]

theorem maxGrains_ghosted (th : K) (owner : Nat → Nat) (blocks : List (Nat → K)) (ranks : List Rank) (hb : 2 ≤ blocks.length)
    (hne : ∀ r ∈ ranks, r.owned ≠ [] ∨ r.foreign ≠ 0) :
    maxGrains th owner true blocks ranks =
      (Res.index (histogram (ranks.map (trueCounters th blocks)) (((ranks.map (trueCounters th blocks)).map (List.foldl max 0)).foldl max 0)) 0).bind fun _ =>
        .ok (((ranks.map (trueCounters th blocks)).map (List.foldl max 0)).foldl max 0,
          histogram (ranks.map (trueCounters th blocks)) (((ranks.map (trueCounters th blocks)).map (List.foldl max 0)).foldl max 0)) := by
  unfold maxGrains
  rw [if_neg (by omega), mapIdx_const _ _ (counters_ghosted th owner blocks)]
  have hm := Res.mapM_eq (ranks.map (trueCounters th blocks)) maxElement (List.foldl max 0) (by
    intro l hl
    obtain ⟨r, hr, rfl⟩ := List.mem_map.mp hl
    unfold maxElement
    rw [if_neg]
    intro h0
    unfold trueCounters at h0
    rcases hne r hr with h | h
    · have := List.append_eq_nil_iff.mp h0
      exact h (List.map_eq_nil_iff.mp this.1)
    · have := (List.append_eq_nil_iff.mp h0).2
      exact h (by simpa using this))
  simp only [hm, Res.ok_bind]
  rfl

theorem mem_counters (th : K) (blocks : List (Nat → K)) (ranks : List Rank) (x : Nat) (hx : 0 < x) :
    (∃ c ∈ ranks.map (trueCounters th blocks), x ∈ c) ↔ ∃ cell ∈ cells ranks, present th blocks cell = x := by
  constructor
  · rintro ⟨c, hc, hxc⟩
    obtain ⟨r, hr, rfl⟩ := List.mem_map.mp hc
    rcases List.mem_append.mp hxc with h | h
    · obtain ⟨cell, hcell, rfl⟩ := List.mem_map.mp h
      exact ⟨cell, List.mem_flatMap.mpr ⟨r, hr, hcell⟩, rfl⟩
    · have := (List.mem_replicate.mp h).2; omega
  · rintro ⟨cell, hcell, rfl⟩
    obtain ⟨r, hr, h⟩ := List.mem_flatMap.mp hcell
    exact ⟨_, List.mem_map.mpr ⟨r, hr, rfl⟩, List.mem_append.mpr (.inl (List.mem_map.mpr ⟨cell, h, rfl⟩))⟩

theorem sum_count (th : K) (blocks : List (Nat → K)) (ranks : List Rank) (k : Nat) :
    ((ranks.map (trueCounters th blocks)).map fun c => c.count (k + 1)).sum =
      (cells ranks).countP fun cell => present th blocks cell == k + 1 := by
  induction ranks with
  | nil => rfl
  | cons r l ih =>
    rw [List.map_cons, List.map_cons, List.sum_cons, ih]
    unfold cells
    rw [List.flatMap_cons, List.countP_append]
    congr 1
    unfold trueCounters
    rw [List.count_append, List.count_replicate]
    have : (0 == k + 1) = false := by simp
    rw [this, if_neg (by simp), Nat.add_zero, List.count, List.countP_map]
    rfl

section tree

variable {n : Nat} (th : K) (merge : (Fin n → K) → K) (veto : (Fin n → Tree K n) → Bool)

theorem count_pos (hn : 0 < n) (t : Tree K n) : 0 < t.count := by
  induction t with
  | leaf x => exact Nat.one_pos
  | node c ih =>
    rw [Tree.count]
    exact Finset.sum_pos (fun i _ => ih i) ⟨⟨0, hn⟩, Finset.mem_univ _⟩

theorem coarsen_le (hn : 0 < n) (t : Tree K n) : (t.coarsen th merge veto).count ≤ t.count := by
  induction t with
  | leaf x => exact Nat.le_refl _
  | node c ih =>
    rw [Tree.coarsen]
    split
    · exact count_pos hn _
    · rw [Tree.count, Tree.count]
      exact Finset.sum_le_sum fun i _ => ih i

theorem coarsen_eq (hn : 2 ≤ n) (t : Tree K n) (h : t.count = (t.coarsen th merge veto).count) : t.coarsen th merge veto = t := by
  induction t with
  | leaf x => rfl
  | node c ih =>
    rw [Tree.coarsen] at h ⊢
    split at h
    · exfalso
      rw [Tree.count, Tree.count] at h
      have h1 : ∑ i : Fin n, 1 ≤ ∑ i, (c i).count := Finset.sum_le_sum fun i _ => count_pos (by omega) (c i)
      rw [Finset.sum_const, Finset.card_univ, Fintype.card_fin, smul_eq_mul, Nat.mul_one] at h1
      omega
    · next hc =>
      rw [if_neg hc]
      rw [Tree.count, Tree.count] at h
      have := (Finset.sum_eq_sum_iff_of_le (fun i _ => coarsen_le th merge veto (by omega) (c i))).mp h.symm
      congr 1
      funext i
      exact ih i (this i (Finset.mem_univ _)).symm

theorem stable_of_fix (t : Tree K n) (h : t.coarsen th merge veto = t) : Stable th veto t := by
  induction t with
  | leaf x => exact .leaf x
  | node c ih =>
    rw [Tree.coarsen] at h
    split at h
    · cases h
    · next hc =>
      injection h with h
      refine .node c ?_ fun i => ih i (congrFun h i)
      rintro ⟨h1, h2⟩
      refine hc ⟨fun i => ?_, h2⟩
      obtain ⟨x, hx, hle⟩ := h1 i
      rw [hx, Tree.small]
      exact decide_eq_true hle

end tree

theorem loop_spec {M : Type} (step : M → M) (count : M → Nat) (hle : ∀ m, count (step m) ≤ count m)
    (heq : ∀ m, count m = count (step m) → step m = m) (fuel : Nat) (m : M) (hf : count m < fuel) :
    ∃ m' k, loop step count fuel m = some (m', k) ∧ step m' = m' ∧ count m' ≤ count m ∧ k + count m' ≤ count m + 1 := by
  induction fuel generalizing m with
  | zero => omega
  | succ fuel ih =>
    rw [loop]
    by_cases h : count m = count (step m)
    · refine ⟨step m, 1, by simp [h], ?_, by omega, by omega⟩
      have := heq m h
      rw [this, this]
    · have h1 := hle m
      obtain ⟨m', k, h2, h3, h4, h5⟩ := ih (step m) (by omega)
      exact ⟨m', k + 1, by simp [h, h2], h3, by omega, by omega⟩

end Verif.Overhead
