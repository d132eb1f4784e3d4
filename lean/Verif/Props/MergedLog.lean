/-
C164: output and checks that involve all processes.
-/
import Verif.Model.MergedLog
import Verif.Spec.MergedLog
import Mathlib.Tactic.Tauto

namespace Verif.Props

open Verif.MergedLog Verif.MergedLog.Spec

variable {E : Type} [LinearOrder E]

private theorem mem_ins (s : List E) (x e : E) : e ∈ MergedLog.insert s x ↔ e = x ∨ e ∈ s := by
  induction s with
  | nil => simp [MergedLog.insert]
  | cons y ys ih =>
    unfold MergedLog.insert
    by_cases h1 : x < y
    · rw [if_pos h1]; simp
    · rw [if_neg h1]
      by_cases h2 : x = y
      · rw [if_pos h2, h2]; simp
      · rw [if_neg h2, List.mem_cons, ih, List.mem_cons]
        tauto

private theorem sorted_ins (s : List E) (x : E) (h : s.Pairwise (· < ·)) : (MergedLog.insert s x).Pairwise (· < ·) := by
  induction s with
  | nil => simp [MergedLog.insert]
  | cons y ys ih =>
    have hy := List.pairwise_cons.1 h
    unfold MergedLog.insert
    by_cases h1 : x < y
    · rw [if_pos h1]
      refine List.pairwise_cons.2 ⟨fun z hz => ?_, h⟩
      rcases List.mem_cons.1 hz with rfl | hz
      · exact h1
      · exact lt_trans h1 (hy.1 z hz)
    · rw [if_neg h1]
      by_cases h2 : x = y
      · rw [if_pos h2]; exact h
      · rw [if_neg h2]
        refine List.pairwise_cons.2 ⟨fun z hz => ?_, ih hy.2⟩
        rcases (mem_ins ys x z).1 hz with rfl | hz
        · exact lt_of_le_of_ne (not_lt.1 h1) (Ne.symm h2)
        · exact hy.1 z hz

private theorem fold_ins (l : List E) (s : List E) (h : s.Pairwise (· < ·)) :
    (l.foldl MergedLog.insert s).Pairwise (· < ·) ∧ ∀ e, e ∈ l.foldl MergedLog.insert s ↔ e ∈ s ∨ e ∈ l := by
  induction l generalizing s with
  | nil => exact ⟨h, by simp⟩
  | cons x l ih =>
    obtain ⟨h1, h2⟩ := ih (MergedLog.insert s x) (sorted_ins s x h)
    refine ⟨h1, fun e => ?_⟩
    rw [List.foldl_cons, h2, mem_ins, List.mem_cons]
    tauto

private theorem fold_logs (logs : List (List E)) (s : List E) (h : s.Pairwise (· < ·)) :
    (logs.foldl (fun s l => l.foldl MergedLog.insert s) s).Pairwise (· < ·) ∧
      ∀ e, e ∈ logs.foldl (fun s l => l.foldl MergedLog.insert s) s ↔ e ∈ s ∨ ∃ l ∈ logs, e ∈ l := by
  induction logs generalizing s with
  | nil => exact ⟨h, by simp⟩
  | cons l logs ih =>
    obtain ⟨g1, g2⟩ := fold_ins l s h
    obtain ⟨h1, h2⟩ := ih _ g1
    refine ⟨h1, fun e => ?_⟩
    rw [List.foldl_cons, h2, g2]
    simp only [List.mem_cons, exists_eq_or_imp]
    tauto

/-- The first process prints all events once, the others nothing. -/
theorem C164_log (logs : List (List E)) : Merged logs (printLog logs 0) ∧ ∀ r, r ≠ 0 → printLog logs r = [] := by
  refine ⟨?_, fun r hr => ?_⟩
  · obtain ⟨h1, h2⟩ := fold_logs logs [] List.Pairwise.nil
    exact ⟨h1, fun e => (h2 e).trans (by simp)⟩
  · simp [printLog, hr]

/-- The output is determined by the events: who logged them, how often and in which order does not matter. -/
theorem C164_determined (logs logs' : List (List E)) (h : ∀ e, (∃ l ∈ logs, e ∈ l) ↔ ∃ l ∈ logs', e ∈ l) : printLog logs 0 = printLog logs' 0 := by
  obtain ⟨a1, a2⟩ := (C164_log logs).1
  obtain ⟨b1, b2⟩ := (C164_log logs').1
  have key : ∀ a b : List E, a.Pairwise (· < ·) → b.Pairwise (· < ·) → (∀ e, e ∈ a ↔ e ∈ b) → a = b := by
    intro a
    induction a with
    | nil =>
      intro b _ _ hm
      cases b with
      | nil => rfl
      | cons y b => exact absurd ((hm y).2 (by simp)) (by simp)
    | cons x a ih =>
      intro b ha hb hm
      cases b with
      | nil => exact absurd ((hm x).1 (by simp)) (by simp)
      | cons y b =>
        have hx := List.pairwise_cons.1 ha
        have hy := List.pairwise_cons.1 hb
        have e : x = y := by
          rcases List.mem_cons.1 ((hm x).1 (by simp)) with h1 | h1
          · exact h1
          · rcases List.mem_cons.1 ((hm y).2 (by simp)) with h2 | h2
            · exact h2.symm
            · exact absurd (lt_trans (hx.1 y h2) (hy.1 x h1)) (lt_irrefl _)
        subst e
        congr 1
        refine ih b hx.2 hy.2 fun e => ⟨fun he => ?_, fun he => ?_⟩
        · rcases List.mem_cons.1 ((hm e).1 (by simp [he])) with h1 | h1
          · subst h1; exact absurd (hx.1 _ he) (lt_irrefl _)
          · exact h1
        · rcases List.mem_cons.1 ((hm e).2 (by simp [he])) with h1 | h1
          · subst h1; exact absurd (hy.1 _ he) (lt_irrefl _)
          · exact h1
  exact key _ _ a1 b1 fun e => (a2 e).trans ((h e).trans (b2 e).symm)

private theorem min_fold (l : List Nat) (n : Nat) : l.foldl min n ≤ n ∧ (∀ x ∈ l, l.foldl min n ≤ x) := by
  induction l generalizing n with
  | nil => simp
  | cons y l ih =>
    obtain ⟨h1, h2⟩ := ih (min n y)
    refine ⟨le_trans h1 (min_le_left _ _), fun x hx => ?_⟩
    rcases List.mem_cons.1 hx with rfl | hx
    · exact le_trans h1 (min_le_right _ _)
    · exact h2 x hx

private theorem max_fold (l : List Nat) (n : Nat) : n ≤ l.foldl max n ∧ (∀ x ∈ l, x ≤ l.foldl max n) := by
  induction l generalizing n with
  | nil => simp
  | cons y l ih =>
    obtain ⟨h1, h2⟩ := ih (max n y)
    refine ⟨le_trans (le_max_left _ _) h1, fun x hx => ?_⟩
    rcases List.mem_cons.1 hx with rfl | hx
    · exact le_trans (le_max_right _ _) h1
    · exact h2 x hx

private theorem fold_same (l : List Nat) (n : Nat) (h : ∀ x ∈ l, x = n) : l.foldl min n = n ∧ l.foldl max n = n := by
  induction l with
  | nil => simp
  | cons y l ih =>
    have := ih fun x hx => h x (by simp [hx])
    have hy := h y (by simp)
    subst hy
    simpa using this

/-- All processes go on or all stop; they go on if and only if all sizes are the same. -/
theorem C164_dimension (sizes : List Nat) (r : Nat) (hr : r < sizes.length) :
    ((checkDimension sizes)[r]? = some (.ok ()) ↔ ∀ a ∈ sizes, ∀ b ∈ sizes, a = b) ∧
    ((checkDimension sizes)[r]? = some (.exc .assertThrow) ↔ ∃ a ∈ sizes, ∃ b ∈ sizes, a ≠ b) := by
  have e : (checkDimension sizes)[r]? = some (if minAll sizes = maxAll sizes then .ok () else .exc .assertThrow) := by
    simp [checkDimension, List.getElem?_eq_getElem hr]
  have key : minAll sizes = maxAll sizes ↔ ∀ a ∈ sizes, ∀ b ∈ sizes, a = b := by
    cases sizes with
    | nil => simp at hr
    | cons n l =>
      obtain ⟨a1, a2⟩ := min_fold l n
      obtain ⟨b1, b2⟩ := max_fold l n
      constructor
      · intro h
        have h : l.foldl min n = l.foldl max n := h
        have all : ∀ a ∈ n :: l, a = n := by
          intro a ha
          rcases List.mem_cons.1 ha with rfl | ha
          · rfl
          · have := a2 a ha; have := b2 a ha; omega
        intro a ha b hb
        rw [all a ha, all b hb]
      · intro h
        obtain ⟨c1, c2⟩ := fold_same l n fun x hx => h x (by simp [hx]) n (by simp)
        show l.foldl min n = l.foldl max n
        rw [c1, c2]
  rw [e]
  by_cases h : minAll sizes = maxAll sizes
  · rw [if_pos h]
    refine ⟨⟨fun _ => key.1 h, fun _ => rfl⟩, ⟨fun h' => by simp at h', ?_⟩⟩
    rintro ⟨a, ha, b, hb, hab⟩
    exact absurd (key.1 h a ha b hb) hab
  · rw [if_neg h]
    refine ⟨⟨fun h' => by simp at h', fun h' => absurd (key.2 h') h⟩, ⟨fun _ => ?_, fun _ => rfl⟩⟩
    by_contra hn
    exact h (key.2 fun a ha b hb => by by_contra hab; exact hn ⟨a, ha, b, hb, hab⟩)

private theorem join_snoc (sep : List Char) (l : List (List Char)) (x : List Char) : joined sep (l ++ [x]) = if l = [] then x else joined sep l ++ sep ++ x := by
  induction l with
  | nil => rfl
  | cons y l ih =>
    cases l with
    | nil => simp [joined]
    | cons z l => simp only [List.cons_append, joined] at ih ⊢; rw [ih]; simp

/-- Both ways to print a list put a separator between neighbours and nowhere else. -/
theorem C164_joined (sep : List Char) (v : List (List Char)) : toStringVec sep v = joined sep v ∧ toStringIt sep [] v = joined sep v := by
  constructor
  · have key : ∀ n, n ≤ v.length → (List.range n).foldl (fun s i => (if i ≠ 0 then s ++ sep else s) ++ v.getD i []) [] = joined sep (v.take n) := by
      intro n
      induction n with
      | zero => intro _; rfl
      | succ n ih =>
        intro hn
        have hv : v[n]? = some v[n] := List.getElem?_eq_getElem (by omega)
        rw [List.range_succ, List.foldl_append, ih (by omega), List.take_add_one, hv]
        simp only [List.foldl_cons, List.foldl_nil, Option.toList_some, List.getD_eq_getElem?_getD, hv, Option.getD_some]
        rw [join_snoc]
        cases n with
        | zero => simp [joined]
        | succ n =>
          have : v.take (n + 1) ≠ [] := by
            intro h
            have := congrArg List.length h
            rw [List.length_take, List.length_nil] at this
            omega
          rw [if_neg this, if_pos (by omega)]
    have := key v.length le_rfl
    rwa [List.take_length] at this
  · have key : ∀ (v : List (List Char)) (s : List Char), toStringIt sep s v = s ++ joined sep v := by
      intro v
      induction v with
      | nil => intro s; simp [toStringIt, joined]
      | cons x v ih =>
        intro s
        unfold toStringIt
        rw [ih]
        cases v with
        | nil => simp [joined]
        | cons y v => simp [joined]
    simpa using key v []

namespace Ex164

example : printLog [[5, 3, 5], [], [3, 1]] 0 = [1, 3, 5] := by decide +kernel
example : checkDimension [2, 2, 2] = [.ok (), .ok (), .ok ()] ∧ checkDimension [2, 3] = [.exc .assertThrow, .exc .assertThrow] := by decide +kernel
example : toStringVec ",".toList ["1".toList, "20".toList, "3".toList] = "1,20,3".toList := by decide +kernel
example : toStringIt ",".toList [] ["1".toList, "20".toList, "3".toList] = "1,20,3".toList := by decide +kernel

end Ex164

end Verif.Props
