/-
Helper lemmas for the readers of microstructures.
-/
import Verif.Model.Readers
import Mathlib.Data.Finset.Card
import Mathlib.Data.List.Nodup

namespace Verif.Readers

open Verif.Initial Verif.Micro

section
variable {α : Type}

/-- Filling of the table of order parameters. -/
def fill (m : OMap (List α)) (l : List (Nat × α)) : OMap (List α) := l.foldl (fun m p => pushAt m p.1 p.2) m

theorem pushAt_sorted {m : OMap (List α)} (h : m.Sorted) (k : Nat) (i : α) : (pushAt m k i).Sorted := OMap.sorted_set h

theorem fill_sorted (l : List (Nat × α)) : ∀ {m : OMap (List α)}, m.Sorted → (fill m l).Sorted := by
  induction l with
  | nil => intro m h; exact h
  | cons p l ih => intro m h; exact ih (pushAt_sorted h _ _)

theorem get?_pushAt {m : OMap (List α)} (h : m.Sorted) (k : Nat) (i : α) (c : Nat) :
    (pushAt m k i).get? c = if c = k then some ((m.get? k).getD [] ++ [i]) else m.get? c := OMap.get?_set h c

theorem get?_fill (l : List (Nat × α)) : ∀ {m : OMap (List α)}, m.Sorted → ∀ c,
    (fill m l).get? c = if (l.filter (·.1 == c)) = [] then m.get? c
      else some ((m.get? c).getD [] ++ (l.filter (·.1 == c)).map (·.2)) := by
  induction l with
  | nil => intro m _ c; rfl
  | cons p l ih =>
    intro m h c
    show (fill (pushAt m p.1 p.2) l).get? c = _
    rw [ih (pushAt_sorted h _ _), get?_pushAt h]
    by_cases hc : p.1 = c
    · have e : (p :: l).filter (·.1 == c) = p :: l.filter (·.1 == c) := by simp [hc]
      rw [e, if_pos hc.symm, hc, if_neg (List.cons_ne_nil p _)]
      by_cases hl : l.filter (·.1 == c) = []
      · rw [if_pos hl, hl]; rfl
      · rw [if_neg hl]; simp
    · have e : (p :: l).filter (·.1 == c) = l.filter (·.1 == c) := by simp [hc]
      rw [e, if_neg (Ne.symm hc)]

/-- Without entries before. -/
theorem get?_fill_nil (l : List (Nat × α)) (c : Nat) :
    (fill [] l).get? c = if (l.filter (·.1 == c)) = [] then none else some ((l.filter (·.1 == c)).map (·.2)) := by
  rw [get?_fill l OMap.sorted_nil]; simp

theorem mem_keys_fill (l : List (Nat × α)) (c : Nat) : c ∈ (fill [] l).keys ↔ c ∈ l.map (·.1) := by
  rw [← OMap.get?_isSome_iff_mem_keys, get?_fill_nil]
  by_cases h : l.filter (·.1 == c) = []
  · rw [if_pos h]
    simp only [Option.isSome_none, Bool.false_eq_true, false_iff]
    intro hc
    obtain ⟨p, hp, rfl⟩ := List.mem_map.1 hc
    rw [List.filter_eq_nil_iff] at h
    exact h p hp (by simp)
  · rw [if_neg h]
    simp only [Option.isSome_some, true_iff]
    obtain ⟨p, hp⟩ := List.exists_mem_of_ne_nil _ h
    rw [List.mem_filter] at hp
    exact List.mem_map.2 ⟨p, hp.1, by simpa using hp.2⟩

end

/-- All numbers below the size are keys exactly if the keys are closed downwards. -/
theorem keys_closed (m : OMap (List Nat)) (hs : m.Sorted) :
    (∀ op < m.length, op ∈ m.keys) ↔ ∀ c ∈ m.keys, ∀ c' < c, c' ∈ m.keys := by
  classical
  have hn := OMap.keys_nodup hs
  have hcard : m.keys.toFinset.card = m.length := by
    rw [List.toFinset_card_of_nodup hn, OMap.keys, List.length_map]
  constructor
  · intro h c hc c' hlt
    have hsub : Finset.range m.length ⊆ m.keys.toFinset := by
      intro x hx
      rw [List.mem_toFinset]
      exact h x (Finset.mem_range.1 hx)
    have heq : Finset.range m.length = m.keys.toFinset :=
      Finset.eq_of_subset_of_card_le hsub (by rw [hcard, Finset.card_range])
    have hc1 : c ∈ Finset.range m.length := by rw [heq, List.mem_toFinset]; exact hc
    exact h c' (by have := Finset.mem_range.1 hc1; omega)
  · intro h op hop
    have hsub : m.keys.toFinset ⊆ Finset.range m.length := by
      intro c hc
      rw [List.mem_toFinset] at hc
      rw [Finset.mem_range]
      have : Finset.range (c + 1) ⊆ m.keys.toFinset := by
        intro x hx
        rw [List.mem_toFinset]
        rcases Nat.lt_succ_iff_lt_or_eq.1 (Finset.mem_range.1 hx) with hx | rfl
        · exact h c hc x hx
        · exact hc
      have := Finset.card_le_card this
      rw [Finset.card_range, hcard] at this
      omega
    have heq : m.keys.toFinset = Finset.range m.length :=
      Finset.eq_of_subset_of_card_le hsub (by rw [hcard, Finset.card_range])
    have : op ∈ Finset.range m.length := Finset.mem_range.2 hop
    rw [← heq, List.mem_toFinset] at this
    exact this

/-- Grains of an order parameter. -/
theorem grainsOf_isOk {K : Type} (s : Structure K) (op : Nat) (h : op ∈ s.ops.keys)
    (hr : ∀ l, s.ops.get? op = some l → ∀ g ∈ l, g < s.grains.length) :
    ∃ l, s.ops.get? op = some l ∧ s.grainsOf op = .ok (l.filterMap fun g => s.grains[g]?) := by
  obtain ⟨l, hl⟩ := Option.isSome_iff_exists.1 (OMap.get?_isSome_iff_mem_keys.2 h)
  refine ⟨l, hl, ?_⟩
  rw [Structure.grainsOf, hl]
  dsimp only
  have hr' := hr l hl
  clear hl
  induction l with
  | nil => rfl
  | cons g l ih =>
    have hg := hr' g (by simp)
    have hsome : s.grains[g]? = some s.grains[g] := List.getElem?_eq_getElem hg
    rw [List.mapM_cons, hsome, List.filterMap_cons, hsome]
    dsimp only
    rw [Res.ok_bind, ih (fun x hx => hr' x (by simp [hx])), Res.ok_bind]
    rfl

section
variable {K : Type} [Field K] [LinearOrder K]

theorem mkSegment_ok (w : K) (d : Direction) (vs : List (K × K)) (h : vs ≠ []) : ∃ s, mkSegment w d vs = .ok s := by
  cases vs with
  | nil => exact absurd rfl h
  | cons v vs => exact ⟨_, rfl⟩

/-- Adding one contour each to the grains from number `k` on. -/
def addSegs (gs : List (MGrain K)) (k : Nat) : List (MicroSegment K) → List (MGrain K)
  | [] => gs
  | s :: ss => addSegs (gs.modify k fun g => ⟨g.color, g.segments ++ [s]⟩) (k + 1) ss

omit [Field K] [LinearOrder K] in
theorem length_addSegs (ss : List (MicroSegment K)) : ∀ (gs : List (MGrain K)) (k : Nat), (addSegs gs k ss).length = gs.length := by
  induction ss with
  | nil => intro gs k; rfl
  | cons s ss ih => intro gs k; rw [addSegs, ih]; simp

omit [Field K] [LinearOrder K] in
theorem getElem?_addSegs (ss : List (MicroSegment K)) : ∀ (gs : List (MGrain K)) (k j : Nat),
    (addSegs gs k ss)[j]? = (gs[j]?).map fun g =>
      if k ≤ j then match ss[j - k]? with
        | some s => ⟨g.color, g.segments ++ [s]⟩
        | none => g
      else g := by
  induction ss with
  | nil => intro gs k j; simp [addSegs]
  | cons s ss ih =>
    intro gs k j
    rw [addSegs, ih, List.getElem?_modify]
    cases hg : gs[j]? with
    | none => rfl
    | some g =>
      show some _ = some _
      congr 1
      dsimp only
      by_cases h1 : k = j
      · subst h1
        simp
      · rw [if_neg h1]
        by_cases h2 : k ≤ j
        · have e : j - k = (j - (k + 1)) + 1 := by omega
          rw [if_pos (by omega : k + 1 ≤ j), if_pos h2, e, List.getElem?_cons_succ]
        · rw [if_neg (by omega), if_neg h2]

end

end Verif.Readers
