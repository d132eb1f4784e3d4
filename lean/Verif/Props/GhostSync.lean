/-
Values which several ranks write to the same entry.
-/
import Verif.Lemmas.GhostSync
import Mathlib.Algebra.Field.Rat
import Mathlib.Algebra.Order.Ring.Rat
import Mathlib.Tactic.NormNum

namespace Verif.Props
open Verif.GhostSync Verif.GhostSync.Spec

section
variable {K : Type} [Field K] [LinearOrder K]

theorem C134_at (tol : K) (owner : Nat → Nat) (writes : List (List (Nat × K))) (v0 : Nat → K) (i : Nat) {x : K}
    (hx : ((writes[owner i]?).bind fun ws => lastWrite ws i).getD (v0 i) = x) :
    level tol owner writes v0 i =
      merge tol x (((others owner writes i).map fun y => (v0 i, y)).filter fun e => decide (|x - e.1| < tol)) := by
  unfold level
  rw [reconcile_at, noted_level]
  have h : ownValue (writes.mapIdx fun p ws => ws.foldl (write fun i => owner i != p) (v0, []))[owner i]? v0 i = x := by
    rw [List.getElem?_mapIdx, ← hx]
    cases h : writes[owner i]? with
    | none => rfl
    | some ws =>
      simp only [Option.map_some, Option.bind_some, ownValue]
      exact (writes_eq _ v0 ws i).1
  rw [h]

/-- **C134** (owner).  What the owner wrote stays, whatever other ranks wrote, if it changed the entry by at least `tol`. -/
theorem C134_owner (tol : K) (owner : Nat → Nat) (writes : List (List (Nat × K))) (v0 : Nat → K) (i : Nat) {ws : List (Nat × K)} {x : K}
    (hw : writes[owner i]? = some ws) (hx : lastWrite ws i = some x) (hd : tol ≤ |x - v0 i|) :
    level tol owner writes v0 i = x := by
  rw [C134_at tol owner writes v0 i (x := x) (by rw [hw, Option.bind_some, hx, Option.getD_some])]
  rw [List.filter_eq_nil_iff.2]
  · rfl
  · intro e he
    obtain ⟨y, _, rfl⟩ := List.mem_map.1 he
    simpa using hd

variable [IsStrictOrderedRing K]

theorem C134_not_owner {tol : K} (ht : 0 < tol) (owner : Nat → Nat) (writes : List (List (Nat × K))) (v0 : Nat → K) (i : Nat)
    (hno : ∀ ws, writes[owner i]? = some ws → lastWrite ws i = none) :
    level tol owner writes v0 i = merge tol (v0 i) ((others owner writes i).map fun y => (v0 i, y)) := by
  have hx : ((writes[owner i]?).bind fun ws => lastWrite ws i).getD (v0 i) = v0 i := by
    cases h : writes[owner i]? with
    | none => rfl
    | some ws => rw [Option.bind_some, hno ws h]; rfl
  rw [C134_at tol owner writes v0 i hx, List.filter_eq_self.2]
  intro e he
  obtain ⟨y, _, rfl⟩ := List.mem_map.1 he
  simp [ht]

/-- **C134** (partial).  For an entry which the owner leaves alone and which is not negative before, or which at most one other rank writes
to: without writes it stays; if some rank writes a positive value, then the greatest of the written values is found afterwards; otherwise the
least of them, up to `tol`. -/
theorem C134_partial {tol : K} (ht : 0 < tol) (owner : Nat → Nat) (writes : List (List (Nat × K))) (v0 : Nat → K) (i : Nat)
    (hno : ∀ ws, writes[owner i]? = some ws → lastWrite ws i = none)
    (hv : 0 ≤ v0 i ∨ (others owner writes i).length ≤ 1) :
    (others owner writes i = [] → level tol owner writes v0 i = v0 i) ∧
    ((∃ x ∈ others owner writes i, 0 < x) →
      level tol owner writes v0 i ∈ others owner writes i ∧ ∀ y ∈ others owner writes i, y ≤ level tol owner writes v0 i) ∧
    (others owner writes i ≠ [] → (∀ x ∈ others owner writes i, x ≤ 0) →
      ∃ x ∈ others owner writes i, (∀ y ∈ others owner writes i, x ≤ y) ∧ |level tol owner writes v0 i - x| ≤ tol) := by
  rw [C134_not_owner ht owner writes v0 i hno]
  generalize others owner writes i = xs at hv
  have hsame : ∀ e ∈ xs.map fun y => (v0 i, y), e.1 = v0 i := by
    intro e he
    obtain ⟨y, _, rfl⟩ := List.mem_map.1 he
    rfl
  have hneg : ((xs.map fun y => (v0 i, y)).filter fun e => decide (e.2 < 0)).map (fun e => e.2) = xs.filter fun x => decide (x < 0) := by
    rw [List.filter_map, List.map_map]
    simp [Function.comp_def]
  have hpos : ((xs.map fun y => (v0 i, y)).filter fun e => decide (0 < e.2)).map (fun e => e.2) = xs.filter fun x => decide (0 < x) := by
    rw [List.filter_map, List.map_map]
    simp [Function.comp_def]
  refine ⟨fun h => by subst h; rfl, ?_⟩
  by_cases hne : xs = []
  · subst hne
    exact ⟨fun ⟨x, hx, _⟩ => by simp at hx, fun h => absurd rfl h⟩
  have hlen : 0 < xs.length := List.length_pos_iff.2 hne
  have hc : -tol ≤ cleared tol (v0 i) xs.length ∧ cleared tol (v0 i) xs.length ≤ 0 := by
    rcases hv with hv | hv
    · exact cleared_nonneg ht.le hv hlen
    · have : xs.length = 1 := by omega
      rw [this, cleared_one ht.le]
      exact ⟨by linarith, le_refl _⟩
  rw [merge_same tol (v0 i) _ hsame (by simpa using hne), hneg, hpos, List.length_map]
  generalize cleared tol (v0 i) xs.length = c at hc
  have h1 := foldl_min_le (xs.filter fun x => decide (x < 0)) c
  have h2 := foldl_min_mem (xs.filter fun x => decide (x < 0)) c
  generalize (xs.filter fun x => decide (x < 0)).foldl min c = m at h1 h2
  have h3 := le_foldl_max (xs.filter fun x => decide (0 < x)) m
  have h4 := foldl_max_mem (xs.filter fun x => decide (0 < x)) m
  constructor
  · rintro ⟨x, hx, hx0⟩
    have hx1 := h3.2 x (List.mem_filter.2 ⟨hx, by simpa using hx0⟩)
    constructor
    · rcases h4 with h | h
      · exfalso
        rw [h] at hx1
        linarith [h1.1]
      · exact (List.mem_filter.1 h).1
    · intro y hy
      by_cases hy0 : 0 < y
      · exact h3.2 y (List.mem_filter.2 ⟨hy, by simpa using hy0⟩)
      · linarith
  · intro _ hall
    have hp : (xs.filter fun x => decide (0 < x)) = [] := by
      rw [List.filter_eq_nil_iff]
      intro x hx
      simpa using hall x hx
    rw [hp, List.foldl_nil]
    have hl := foldl_min_mem xs (xs.head hne)
    have hl' := foldl_min_le xs (xs.head hne)
    have hmem : xs.foldl min (xs.head hne) ∈ xs := by
      rcases hl with h | h
      · rw [h]; exact List.head_mem hne
      · exact h
    refine ⟨_, hmem, hl'.2, ?_⟩
    generalize xs.foldl min (xs.head hne) = x at hmem hl'
    have hx0 := hall x hmem
    rcases h2 with h | h
    · subst h
      have hxc : m ≤ x := by
        rcases lt_or_eq_of_le hx0 with h | h
        · exact h1.2 x (List.mem_filter.2 ⟨hmem, by simpa using h⟩)
        · rw [h]; exact hc.2
      rw [abs_le]
      constructor <;> linarith
    · obtain ⟨hm1, hm2⟩ := List.mem_filter.1 h
      have hxm := hl'.2 m hm1
      have hm0 : m < 0 := by simpa using hm2
      have := h1.2 x (List.mem_filter.2 ⟨hmem, by simpa using lt_of_le_of_lt hxm hm0⟩)
      have : m = x := le_antisymm this hxm
      rw [this, sub_self, abs_zero]
      exact ht.le

/-- **C134** (order).  For an entry which the owner leaves alone, the result depends neither on the number of ranks nor on the order in
which they write: two runs in which other ranks write the same values give the same result. -/
theorem C134_order {tol : K} (ht : 0 < tol) (owner owner' : Nat → Nat) (writes writes' : List (List (Nat × K))) (v0 : Nat → K) (i : Nat)
    (hno : ∀ ws, writes[owner i]? = some ws → lastWrite ws i = none)
    (hno' : ∀ ws, writes'[owner' i]? = some ws → lastWrite ws i = none)
    (h : (others owner writes i).Perm (others owner' writes' i)) :
    level tol owner writes v0 i = level tol owner' writes' v0 i := by
  rw [C134_not_owner ht owner writes v0 i hno, C134_not_owner ht owner' writes' v0 i hno']
  exact merge_perm tol (v0 i) (h.map _)

/-- **C134** (negative entries).  If a negative entry is written to by two or more ranks other than the owner and none of the new values is
negative or greater than the old value in magnitude, then the entry is set to the old magnitude times the number of these ranks less one. -/
theorem C134_negative_violated {tol : K} (ht : 0 < tol) (owner : Nat → Nat) (writes : List (List (Nat × K))) (v0 : Nat → K) (i : Nat)
    (hno : ∀ ws, writes[owner i]? = some ws → lastWrite ws i = none) (hv : v0 i < 0) (h2 : 2 ≤ (others owner writes i).length)
    (hall : ∀ x ∈ others owner writes i, 0 ≤ x ∧ x ≤ -v0 i) :
    level tol owner writes v0 i = (((others owner writes i).length : K) - 1) * -v0 i := by
  rw [C134_not_owner ht owner writes v0 i hno]
  generalize others owner writes i = xs at h2 hall
  have hne : xs ≠ [] := by intro h; rw [h] at h2; simp at h2
  have hsame : ∀ e ∈ xs.map fun y => (v0 i, y), e.1 = v0 i := by
    intro e he
    obtain ⟨y, _, rfl⟩ := List.mem_map.1 he
    rfl
  have hneg : ((xs.map fun y => (v0 i, y)).filter fun e => decide (e.2 < 0)).map (fun e => e.2) = [] := by
    rw [List.map_eq_nil_iff, List.filter_eq_nil_iff]
    intro e he
    obtain ⟨y, hy, rfl⟩ := List.mem_map.1 he
    simpa using (hall y hy).1
  have hk : (2 : K) ≤ xs.length := by exact_mod_cast h2
  have hc : cleared tol (v0 i) (xs.map fun y => (v0 i, y)).length = ((xs.length : K) - 1) * -v0 i := by
    unfold cleared
    rw [List.length_map, if_neg]
    · ring
    · rw [not_lt]
      nlinarith
  rw [merge_same tol (v0 i) _ hsame (by simpa using hne), hneg, hc, List.foldl_nil]
  rcases foldl_max_mem (((xs.map fun y => (v0 i, y)).filter fun e => decide (0 < e.2)).map fun e => e.2)
    (((xs.length : K) - 1) * -v0 i) with h | h
  · exact h
  · have hle := (le_foldl_max (((xs.map fun y => (v0 i, y)).filter fun e => decide (0 < e.2)).map fun e => e.2)
      (((xs.length : K) - 1) * -v0 i)).1
    obtain ⟨e, he, hee⟩ := List.mem_map.1 h
    obtain ⟨y, hy, rfl⟩ := List.mem_map.1 (List.mem_filter.1 he).1
    rw [← hee] at hle ⊢
    have := (hall y hy).2
    simp only at hle ⊢
    apply le_antisymm _ hle
    nlinarith

end

namespace Ex134

/-- Entry 0 belongs to rank 0, entry 1 to rank 1. -/
def owner (i : Nat) : Nat := i

/-- Ranks 1 and 2 write to entry 0, rank 2 twice; ranks 0 and 1 write to entry 1. -/
def writes : List (List (Nat × ℚ)) := [[(1, 5)], [(0, 1/4), (1, 1/5)], [(0, 3/4), (0, 1/2)]]

/-- The greatest of the last values, 1/2, and the value of the owner, 1/5. -/
example : (level (1/1000000) owner writes (fun _ => 1) 0, level (1/1000000) owner writes (fun _ => 1) 1) = (1/2, 1/5) := by decide +kernel

example : level (1/1000000) owner writes (fun _ => 1) 0 ∈ others owner writes 0 ∧
    ∀ y ∈ others owner writes 0, y ≤ level (1/1000000) owner writes (fun _ => 1) 0 := by
  refine (C134_partial (by norm_num) owner writes (fun _ => 1) 0 ?_ (.inl (by norm_num))).2.1 ⟨1/2, by decide +kernel, by norm_num⟩
  intro ws h
  have : ws = [(1, 5)] := by simpa [writes, owner] using h.symm
  subst this
  decide +kernel

/-- **C134** (negative entries).  The old value -1 and new values 1/4 and 1/2 give 1. -/
example : level (1/1000000) owner writes (fun _ => -1) 0 = 1 := by decide +kernel

end Ex134

end Verif.Props
