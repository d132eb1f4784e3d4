/-
Lemmas on values written by several ranks.
-/
import Verif.Model.GhostSync
import Verif.Spec.GhostSync
import Mathlib.Algebra.Order.Field.Basic
import Mathlib.Data.List.Perm.Basic
import Mathlib.Data.List.Induction
import Mathlib.Tactic.Ring
import Mathlib.Tactic.Linarith

set_option linter.unusedSectionVars false

namespace Verif.GhostSync
open Verif.GhostSync.Spec

variable {K : Type} [Field K] [LinearOrder K]

/-- Values for one entry. -/
def at_ {α : Type} (i : Nat) (l : List (Nat × α)) : List α := l.filterMap fun e => if e.1 = i then some e.2 else none

theorem update_row (op : K → K → K) (v : Nat → K) (l : List (Nat × K)) (i : Nat) :
    l.foldl (fun (v : Nat → K) e => fun i => if i = e.1 then op (v i) e.2 else v i) v i = (at_ i l).foldl op (v i) := by
  induction l generalizing v with
  | nil => rfl
  | cons e l ih =>
    rw [List.foldl_cons, ih]
    unfold at_
    by_cases h : e.1 = i
    · rw [List.filterMap_cons_some (by rw [if_pos h]), List.foldl_cons, if_pos h.symm]
    · rw [List.filterMap_cons_none (by rw [if_neg h]), if_neg fun hh => h hh.symm]

theorem update_at (op : K → K → K) (v : Nat → K) (sent : List (List (Nat × K))) (i : Nat) :
    update op v sent i = (at_ i sent.flatten).foldl op (v i) := by
  unfold update
  induction sent generalizing v with
  | nil => rfl
  | cons l sent ih =>
    rw [List.foldl_cons, ih, update_row, List.flatten_cons]
    unfold at_
    rw [List.filterMap_append, List.foldl_append]

theorem at_map {α β : Type} (i : Nat) (f : α → β) (l : List (Nat × α)) : at_ i (l.map fun e => (e.1, f e.2)) = (at_ i l).map f := by
  induction l with
  | nil => rfl
  | cons e l ih =>
    unfold at_ at ih ⊢
    by_cases h : e.1 = i <;> simp [h, ih]

theorem at_filter {α : Type} (i : Nat) (p : Nat → α → Bool) (l : List (Nat × α)) :
    at_ i (l.filter fun e => p e.1 e.2) = (at_ i l).filter (p i) := by
  induction l with
  | nil => rfl
  | cons e l ih =>
    unfold at_ at ih ⊢
    by_cases h : e.1 = i
    · subst h
      by_cases hp : p e.1 e.2 = true
      · simp [hp, ih]
      · simp [hp, ih]
    · by_cases hp : p e.1 e.2 = true
      · simp [hp, h, ih]
      · simp [hp, h, ih]

theorem flatten_map_map {α β : Type} (f : α → β) (l : List (List α)) : (l.map fun m => m.map f).flatten = l.flatten.map f := by
  rw [List.map_flatten]

theorem flatten_map_filter {α : Type} (p : α → Bool) (l : List (List α)) : (l.map fun m => m.filter p).flatten = l.flatten.filter p := by
  induction l with
  | nil => rfl
  | cons a l ih => rw [List.map_cons, List.flatten_cons, ih, List.flatten_cons, List.filter_append]

/-- The exchange for one entry: `es` are the entries the owner did not change. -/
def merge (tol v : K) (es : List (K × K)) : K :=
  let v1 := (es.map fun e => -e.1).foldl (· + ·) v
  let v2 := ((es.filter fun _ => decide (v1 < -tol)).map fun _ => (0 : K)).foldl max v1
  let v3 := ((es.filter fun e => decide (e.2 < 0)).map fun e => e.2).foldl min v2
  ((es.filter fun e => decide (0 < e.2)).map fun e => e.2).foldl max v3

theorem reconcile_at (tol : K) (v : Nat → K) (maps : List (List (Nat × (K × K)))) (i : Nat) :
    reconcile tol v maps i = merge tol (v i) ((noted maps i).filter fun e => decide (|v i - e.1| < tol)) := by
  have hk : at_ i (kept tol v maps).flatten = (noted maps i).filter fun e => decide (|v i - e.1| < tol) := by
    unfold kept
    rw [flatten_map_filter (fun e : Nat × (K × K) => decide (|v e.1 - e.2.1| < tol))]
    rw [at_filter i (fun j (e : K × K) => decide (|v j - e.1| < tol))]
    rfl
  unfold reconcile
  rw [update_at, update_at, update_at, update_at]
  simp only [flatten_map_map]
  have e1 : ∀ (g : Nat × (K × K) → Bool) (f : K × K → K) (l : List (List (Nat × (K × K)))),
      (l.map fun m => (m.filter g).map fun e => (e.1, f e.2)).flatten = (l.flatten.filter g).map fun e => (e.1, f e.2) := by
    intro g f l
    rw [← flatten_map_filter, ← flatten_map_map, List.map_map]
    rfl
  rw [e1 (fun e => decide (0 < e.2.2)) (fun e => e.2), e1 (fun e => decide (e.2.2 < 0)) (fun e => e.2), e1 _ (fun _ => 0)]
  rw [at_map i (fun e : K × K => e.2), at_map i (fun e : K × K => e.2), at_map i (fun _ : K × K => (0 : K)),
    at_map i (fun e : K × K => -e.1)]
  rw [at_filter i (fun _ (e : K × K) => decide (0 < e.2)), at_filter i (fun _ (e : K × K) => decide (e.2 < 0)), hk]
  rw [at_filter i (fun j (_ : K × K) => decide (update (· + ·) v ((kept tol v maps).map fun m => m.map fun e => (e.1, -e.2.1)) j < -tol)),
    hk, update_at]
  simp only [flatten_map_map]
  rw [at_map i (fun e : K × K => -e.1), hk]
  rfl

/-! ### Notes -/

theorem at_append {α : Type} (i : Nat) (l m : List (Nat × α)) : at_ i (l ++ m) = at_ i l ++ at_ i m := List.filterMap_append

theorem at_cons {α : Type} (i : Nat) (e : Nat × α) (l : List (Nat × α)) : at_ i (e :: l) = (if e.1 = i then [e.2] else []) ++ at_ i l := by
  unfold at_
  by_cases h : e.1 = i <;> simp [h]

theorem at_note (m : List (Nat × (K × K))) (i j : Nat) (cur new : K) :
    at_ j (note m i cur new) = if j = i then (if at_ i m = [] then [(cur, new)] else (at_ i m).map fun e => (e.1, new)) else at_ j m := by
  have hany : (m.any fun e => e.1 == i) = true ↔ at_ i m ≠ [] := by
    unfold at_
    simp [List.filterMap_eq_nil_iff]
  unfold note
  by_cases h : (m.any fun e => e.1 == i) = true
  · rw [if_pos h]
    have hne := hany.1 h
    clear hany h
    by_cases hj : j = i
    · rw [if_pos hj, if_neg hne, hj]
      clear hne
      induction m with
      | nil => rfl
      | cons e m ih =>
        rw [List.map_cons, at_cons, at_cons, ih, List.map_append]
        by_cases he : e.1 = i <;> simp [he]
    · rw [if_neg hj]
      clear hne
      induction m with
      | nil => rfl
      | cons e m ih =>
        rw [List.map_cons, at_cons, at_cons, ih]
        have hij : ¬ i = j := fun h => hj h.symm
        by_cases he : e.1 = i
        · simp [he, hij]
        · simp [he]
  · rw [if_neg h]
    have hnil : at_ i m = [] := by
      by_contra hc
      exact h (hany.2 hc)
    have hsplit : at_ j (m.takeWhile fun e => decide (e.1 < i)) ++ at_ j (m.dropWhile fun e => decide (e.1 < i)) = at_ j m := by
      rw [← at_append, List.takeWhile_append_dropWhile]
    rw [at_append, at_cons]
    by_cases hj : j = i
    · rw [if_pos hj, if_pos hnil]
      rw [hj, hnil] at hsplit
      rw [hj]
      have := List.append_eq_nil_iff.1 hsplit
      rw [this.1, this.2]
      simp
    · have hij : ¬ i = j := fun h => hj h.symm
      rw [if_neg hj, ← hsplit]
      simp [hij]

theorem lastWrite_append (ws : List (Nat × K)) (e : Nat × K) (i : Nat) :
    lastWrite (ws ++ [e]) i = if e.1 = i then some e.2 else lastWrite ws i := by
  unfold lastWrite
  rw [List.filterMap_append]
  by_cases h : e.1 = i <;> simp [h]

theorem write_def (ghost : Nat → Bool) (s : (Nat → K) × List (Nat × (K × K))) (e : Nat × K) : write ghost s e =
    (fun i => if i = e.1 then e.2 else s.1 i, if ghost e.1 then note s.2 e.1 (s.1 e.1) e.2 else s.2) := rfl

/-- What a rank has after its writing. -/
theorem writes_eq (ghost : Nat → Bool) (v0 : Nat → K) (ws : List (Nat × K)) (i : Nat) :
    (ws.foldl (write ghost) (v0, [])).1 i = (lastWrite ws i).getD (v0 i) ∧
    at_ i (ws.foldl (write ghost) (v0, [])).2 =
      if ghost i then ((lastWrite ws i).map fun x => (v0 i, x)).toList else [] := by
  induction ws using List.reverseRecOn with
  | nil => simp [lastWrite, at_]
  | append_singleton ws e ih =>
    rw [List.foldl_append, List.foldl_cons, List.foldl_nil, lastWrite_append]
    rw [write_def]
    constructor
    · simp only
      by_cases h : e.1 = i
      · simp [h]
      · rw [if_neg fun hh => h hh.symm, if_neg h]
        exact ih.1
    · simp only
      by_cases hg : ghost e.1 = true
      · rw [if_pos hg, at_note]
        by_cases h : e.1 = i
        · subst h
          rw [if_pos rfl, if_pos hg, if_pos rfl, ih.1, ih.2, if_pos hg]
          cases lastWrite ws e.1 <;> simp
        · rw [if_neg fun hh => h hh.symm, if_neg h]
          exact ih.2
      · rw [if_neg hg]
        by_cases h : e.1 = i
        · subst h
          rw [ih.2, if_neg hg, if_neg hg]
        · rw [if_neg h]
          exact ih.2

theorem noted_flatten (maps : List (List (Nat × (K × K)))) (i : Nat) : noted maps i = (maps.map (at_ i)).flatten := by
  unfold noted
  induction maps with
  | nil => rfl
  | cons m maps ih =>
    rw [List.flatten_cons, List.filterMap_append, ih, List.map_cons, List.flatten_cons]
    rfl

theorem map_mapIdx' {α β γ : Type} (f : Nat → α → β) (g : β → γ) (l : List α) :
    (l.mapIdx f).map g = l.mapIdx fun p a => g (f p a) := by
  apply List.ext_getElem?
  intro j
  simp [List.getElem?_mapIdx, Function.comp_def]

theorem noted_level (owner : Nat → Nat) (writes : List (List (Nat × K))) (v0 : Nat → K) (i : Nat) :
    noted ((writes.mapIdx fun p ws => ws.foldl (write fun i => owner i != p) (v0, [])).map fun r => r.2) i =
      (others owner writes i).map fun x => (v0 i, x) := by
  rw [noted_flatten, List.map_map]
  unfold others
  rw [map_mapIdx']
  have h : ∀ p (ws : List (Nat × K)), (at_ i ∘ fun r : (Nat → K) × List (Nat × (K × K)) => r.2)
      (ws.foldl (write fun i => owner i != p) (v0, [])) =
      ((if owner i = p then none else lastWrite ws i).map fun x => (v0 i, x)).toList := by
    intro p ws
    simp only [Function.comp]
    rw [(writes_eq (fun i => owner i != p) v0 ws i).2]
    by_cases h : owner i = p <;> simp [h]
  simp only [h]
  rw [← map_mapIdx' (fun p (ws : List (Nat × K)) => if owner i = p then none else lastWrite ws i)
    (fun o : Option K => (o.map fun x => (v0 i, x)).toList)]
  generalize (writes.mapIdx fun p (ws : List (Nat × K)) => if owner i = p then none else lastWrite ws i) = l
  induction l with
  | nil => rfl
  | cons o l ih => cases o <;> simp_all

theorem foldl_add_const [IsStrictOrderedRing K] (es : List (K × K)) (v x : K) (h : ∀ e ∈ es, e.1 = v) :
    (es.map fun e => -e.1).foldl (· + ·) x = x - es.length * v := by
  induction es generalizing x with
  | nil => simp
  | cons e es ih =>
    rw [List.map_cons, List.foldl_cons, ih _ fun a ha => h a (List.mem_cons_of_mem _ ha), h e (List.mem_cons_self ..)]
    rw [List.length_cons]
    push_cast
    ring

theorem merge_perm (tol v : K) {es es' : List (K × K)} (h : es.Perm es') : merge tol v es = merge tol v es' := by
  have hadd : (es.map fun e => -e.1).foldl (· + ·) v = (es'.map fun e => -e.1).foldl (· + ·) v :=
    (h.map _).foldl_eq' (fun x _ y _ z => by ring) v
  have hmax : ∀ {l l' : List K} (x : K), l.Perm l' → l.foldl max x = l'.foldl max x :=
    fun x hl => hl.foldl_eq' (fun x _ y _ z => by rw [max_assoc, max_comm x y, ← max_assoc]) x
  have hmin : ∀ {l l' : List K} (x : K), l.Perm l' → l.foldl min x = l'.foldl min x :=
    fun x hl => hl.foldl_eq' (fun x _ y _ z => by rw [min_assoc, min_comm x y, ← min_assoc]) x
  unfold merge
  simp only
  rw [hadd, hmax _ ((h.filter _).map _), hmin _ ((h.filter _).map _), hmax _ ((h.filter _).map _)]

theorem foldl_zero_max (n : Nat) (x : K) : (List.replicate n (0 : K)).foldl max x = if n = 0 then x else max x 0 := by
  induction n generalizing x with
  | zero => rfl
  | succ n ih =>
    rw [List.replicate_succ, List.foldl_cons, ih]
    split
    · simp
    · rw [if_neg (by omega), max_assoc, max_self]

theorem foldl_max_mem (l : List K) (x : K) : l.foldl max x = x ∨ l.foldl max x ∈ l := by
  induction l generalizing x with
  | nil => exact .inl rfl
  | cons a l ih =>
    rw [List.foldl_cons]
    rcases ih (max x a) with h | h
    · rcases max_choice x a with hc | hc
      · rw [h, hc]; exact .inl rfl
      · rw [h, hc]; exact .inr (List.mem_cons_self ..)
    · exact .inr (List.mem_cons_of_mem _ h)

theorem le_foldl_max (l : List K) (x : K) : x ≤ l.foldl max x ∧ ∀ a ∈ l, a ≤ l.foldl max x := by
  induction l generalizing x with
  | nil => simp
  | cons a l ih =>
    rw [List.foldl_cons]
    have := ih (max x a)
    refine ⟨le_trans (le_max_left _ _) this.1, fun b hb => ?_⟩
    rcases List.mem_cons.1 hb with rfl | hb
    · exact le_trans (le_max_right _ _) this.1
    · exact this.2 b hb

theorem foldl_min_mem (l : List K) (x : K) : l.foldl min x = x ∨ l.foldl min x ∈ l := by
  induction l generalizing x with
  | nil => exact .inl rfl
  | cons a l ih =>
    rw [List.foldl_cons]
    rcases ih (min x a) with h | h
    · rcases min_choice x a with hc | hc
      · rw [h, hc]; exact .inl rfl
      · rw [h, hc]; exact .inr (List.mem_cons_self ..)
    · exact .inr (List.mem_cons_of_mem _ h)

theorem foldl_min_le (l : List K) (x : K) : l.foldl min x ≤ x ∧ ∀ a ∈ l, l.foldl min x ≤ a := by
  induction l generalizing x with
  | nil => simp
  | cons a l ih =>
    rw [List.foldl_cons]
    have := ih (min x a)
    refine ⟨le_trans this.1 (min_le_left _ _), fun b hb => ?_⟩
    rcases List.mem_cons.1 hb with rfl | hb
    · exact le_trans this.1 (min_le_right _ _)
    · exact this.2 b hb

/-- After the first two rounds. -/
def cleared (tol v : K) (n : Nat) : K := if v - n * v < -tol then max (v - n * v) 0 else v - n * v

variable [IsStrictOrderedRing K]

theorem merge_same (tol v : K) (es : List (K × K)) (h : ∀ e ∈ es, e.1 = v) (hne : es ≠ []) :
    merge tol v es = ((es.filter fun e => decide (0 < e.2)).map fun e => e.2).foldl max
      (((es.filter fun e => decide (e.2 < 0)).map fun e => e.2).foldl min (cleared tol v es.length)) := by
  unfold merge
  simp only
  rw [foldl_add_const es v v h]
  congr 2
  unfold cleared
  split
  · rename_i hlt
    rw [List.filter_eq_self.2 (by simp [hlt]), List.map_const', foldl_zero_max, if_neg (by simpa using hne)]
  · rename_i hlt
    rw [List.filter_eq_nil_iff.2 (by simp [hlt])]
    rfl

theorem cleared_nonneg {tol v : K} (ht : 0 ≤ tol) (hv : 0 ≤ v) {n : Nat} (hn : 0 < n) : -tol ≤ cleared tol v n ∧ cleared tol v n ≤ 0 := by
  have h1 : (1 : K) ≤ n := by exact_mod_cast hn
  have h2 : v - n * v ≤ 0 := by nlinarith
  unfold cleared
  split
  · rw [max_eq_right h2]
    exact ⟨by linarith, le_refl _⟩
  · rename_i h
    exact ⟨not_lt.1 h, h2⟩

theorem cleared_one {tol v : K} (ht : 0 ≤ tol) : cleared tol v 1 = 0 := by
  unfold cleared
  have : v - ((1 : Nat) : K) * v = 0 := by push_cast; ring
  rw [this, if_neg (by linarith)]

end Verif.GhostSync
