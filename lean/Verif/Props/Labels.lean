/-
C168: short labels of files.
-/
import Verif.Model.Labels
import Verif.Spec.Labels
import Mathlib.Data.List.Nodup
import Mathlib.Order.Lattice
import Mathlib.Order.Nat

namespace Verif.Props

open Verif.Labels Verif.Labels.Spec

private theorem minLen_le (files : List Name) : ∀ f ∈ files, minLen files ≤ f.length := by
  cases files with
  | nil => simp
  | cons f fs =>
    have key : ∀ (l : List Name) (m : Nat), l.foldl (fun m g => min m g.length) m ≤ m ∧ ∀ g ∈ l, l.foldl (fun m g => min m g.length) m ≤ g.length := by
      intro l
      induction l with
      | nil => simp
      | cons x l ih =>
        intro m
        obtain ⟨a, b⟩ := ih (min m x.length)
        refine ⟨by rw [List.foldl_cons]; omega, fun g hg => ?_⟩
        rcases List.mem_cons.1 hg with rfl | hg
        · rw [List.foldl_cons]; omega
        · exact b g hg
    intro g hg
    obtain ⟨a, b⟩ := key fs f.length
    rcases List.mem_cons.1 hg with rfl | hg
    · exact a
    · exact b g hg

private theorem le_minLen {files : List Name} {n : Nat} (hn : files ≠ []) (h : ∀ f ∈ files, n ≤ f.length) : n ≤ minLen files := by
  cases files with
  | nil => exact absurd rfl hn
  | cons f fs =>
    have key : ∀ (l : List Name) (m : Nat), n ≤ m → (∀ g ∈ l, n ≤ g.length) → n ≤ l.foldl (fun m g => min m g.length) m := by
      intro l
      induction l with
      | nil => intro m h _; exact h
      | cons x l ih =>
        intro m h1 h2
        exact ih _ (by have := h2 x (by simp); dsimp only; omega) fun g hg => h2 g (by simp [hg])
    exact key fs _ (h f (by simp)) fun g hg => h g (by simp [hg])

private theorem takeWhile_range (p : Nat → Bool) (n : Nat) : let k := ((List.range n).takeWhile p).length
    k ≤ n ∧ (∀ i, i < k → p i = true) ∧ (k < n → p k = false) := by
  induction n with
  | zero => simp
  | succ n ih =>
    obtain ⟨a, b, c⟩ := ih
    rw [List.range_succ, List.takeWhile_append]
    by_cases h : ((List.range n).takeWhile p).length = (List.range n).length
    · rw [if_pos h]
      rw [List.length_range] at h
      have b' : ∀ i, i < n → p i = true := fun i hi => b i (by omega)
      by_cases hp : p n
      · simp [hp]
        intro i hi
        rcases Nat.lt_succ_iff_lt_or_eq.1 hi with hi | rfl
        · exact b' i hi
        · exact hp
      · simp [hp]
        exact b'
    · rw [if_neg h]
      rw [List.length_range] at h
      exact ⟨by omega, b, fun _ => c (by omega)⟩

private theorem prefix_of_agree {files : List Name} {f : Name} (hf : f ∈ files) {n : Nat} (h : ∀ i, i < n → agree files i = true) :
    (files.headD []).take n = f.take n := by
  apply List.ext_getElem?
  intro i
  rw [List.getElem?_take, List.getElem?_take]
  split
  · rename_i hi
    have := h i hi
    unfold agree at this
    have := List.all_eq_true.1 this f hf
    exact (beq_iff_eq.1 this).symm
  · rfl

private theorem head_mem {files : List Name} (hn : files ≠ []) : files.headD [] ∈ files := by
  cases files with
  | nil => exact absurd rfl hn
  | cons f fs => simp

/-- What is cut off at the front is the longest common start. -/
theorem C168_prefix {files : List Name} (hn : files ≠ []) : CommonPrefix files ((files.headD []).take (lead files)) ∧ ∀ f ∈ files, f.take (lead files) = (files.headD []).take (lead files) := by
  obtain ⟨a, b, c⟩ := takeWhile_range (agree files) (minLen files)
  have e : ∀ f ∈ files, f.take (lead files) = (files.headD []).take (lead files) := fun f hf => (prefix_of_agree hf b).symm
  refine ⟨⟨fun f hf => ?_, fun p hp => ?_⟩, e⟩
  · rw [← e f hf]; exact List.take_prefix _ _
  · have hl : lead files ≤ (files.headD []).length := le_trans a (minLen_le files _ (head_mem hn))
    rw [List.length_take, min_eq_left hl]
    by_contra hlt
    have hm : p.length ≤ minLen files := le_minLen hn fun f hf => (hp f hf).length_le
    have hk : lead files < p.length := by omega
    have hc : agree files (lead files) = false := c (by unfold lead at hk; omega)
    have : agree files (lead files) = true := by
      unfold agree
      rw [List.all_eq_true]
      intro f hf
      have g1 : ∀ g ∈ files, g[lead files]? = p[lead files]? := fun g hg => by
        obtain ⟨t, rfl⟩ := hp g hg
        rw [List.getElem?_append_left hk]
      rw [beq_iff_eq, g1 f hf, g1 _ (head_mem hn)]
    rw [hc] at this
    cases this

/-- The same at the end. -/
theorem C168_suffix {files : List Name} (hn : files ≠ []) : (∀ f ∈ files, f.drop (f.length - trail files) = (files.headD []).drop ((files.headD []).length - trail files)) ∧
    ∀ p, (∀ f ∈ files, p <:+ f) → p.length ≤ trail files := by
  have hn' : files.map List.reverse ≠ [] := by simpa using hn
  obtain ⟨⟨a, b⟩, c⟩ := C168_prefix hn'
  have hh : (files.map List.reverse).headD [] = (files.headD []).reverse := by cases files <;> simp
  refine ⟨fun f hf => ?_, fun p hp => ?_⟩
  · have := c f.reverse (List.mem_map.2 ⟨f, hf, rfl⟩)
    rw [hh, List.take_reverse, List.take_reverse, List.reverse_inj] at this
    exact this
  · have := b p.reverse fun f hf => by
      obtain ⟨g, hg, rfl⟩ := List.mem_map.1 hf
      exact List.reverse_prefix.2 (hp g hg)
    rw [List.length_reverse, List.length_take] at this
    exact le_trans this (min_le_left _ _)

/-- C168, partial: labels that are made at once are the middle parts of the names; different names have different labels. Missing: names that differ in their last
character and names that are part of each other. -/
theorem C168_labels_partial (parentName : Name → Name) {files : List Name} (h2 : 2 ≤ files.length) {ls : List Name} (h : labels parentName files = .ok (some ls)) :
    Middle files ls ∧ [] ∉ ls ∧ (files.Nodup → ls.Nodup) := by
  have hm : Middle files ls ∧ [] ∉ ls := by
    match files, h2 with
    | f :: g :: fs, _ =>
      unfold labels at h
      dsimp only at h
      generalize hall : f :: g :: fs = all at h ⊢
      have hn : all ≠ [] := by rw [← hall]; simp
      split at h
      · exfalso
        revert h
        cases anySep (lead all) all <;> simp
      · rename_i he
        simp only [Res.ok.injEq, Option.some.injEq] at h
        subst h
        refine ⟨⟨(all.headD []).take (lead all), (all.headD []).drop ((all.headD []).length - trail all), fun x hx => ?_, ?_⟩, he⟩
        · refine ⟨(C168_prefix hn).1.1 x hx, ?_⟩
          rw [← (C168_suffix hn).1 x hx]
          exact List.drop_suffix _ _
        · rw [List.map_map]
          conv_lhs => rw [← List.map_id all]
          refine List.map_congr_left fun x hx => ?_
          have hne : slice x (lead all) (trail all) ≠ [] := fun h0 => he (List.mem_map.2 ⟨x, hx, h0⟩)
          simp only [Function.comp_apply, id_eq]
          rw [← (C168_prefix hn).2 x hx, ← (C168_suffix hn).1 x hx]
          unfold slice at hne ⊢
          split at hne
          · exact absurd rfl hne
          · rename_i ht
            rw [if_neg ht]
            have hlen : lead all ≤ x.length - trail all := by
              by_contra hlt
              exact hne (List.drop_eq_nil_of_le (by rw [List.length_take]; omega))
            have e1 : x.take (lead all) = (x.take (x.length - trail all)).take (lead all) := by rw [List.take_take, min_eq_left hlen]
            rw [e1, List.take_append_drop, List.take_append_drop]
  refine ⟨hm.1, hm.2, fun hnd => ?_⟩
  obtain ⟨pre, suf, _, e⟩ := hm.1
  rw [e] at hnd
  exact hnd.of_map _

/-- Names that differ in their last character never get labels at once: with nothing to cut off at the end, the slice is empty. -/
theorem C168_end_violation (parentName : Name → Name) {files : List Name} (h2 : 2 ≤ files.length) (ht : trail files = 0) (ls : List Name) : labels parentName files ≠ .ok (some ls) := by
  match files, h2 with
  | f :: g :: fs, _ =>
    unfold labels
    dsimp only
    rw [ht, if_pos (by simp [slice])]
    cases anySep (lead (f :: g :: fs)) (f :: g :: fs) <;> simp

/-- If the first name is the start of all others, the script stops with an error. -/
theorem C168_start_violation (parentName : Name → Name) {f g : Name} {fs : List Name} (h : ∀ x ∈ g :: fs, f <+: x) : labels parentName (f :: g :: fs) = .exc .outOfRange := by
  have hn : f :: g :: fs ≠ [] := by simp
  have hl : f.length ≤ lead (f :: g :: fs) := by
    have := (C168_prefix hn).1.2 f fun x hx => by
      rcases List.mem_cons.1 hx with rfl | hx
      · exact List.prefix_refl _
      · exact h x hx
    rw [List.length_take] at this
    exact le_trans this (min_le_left _ _)
  unfold labels
  dsimp only
  rw [if_pos]
  · rw [anySep, List.getElem?_eq_none hl]
    rfl
  · refine List.mem_map.2 ⟨f, by simp, ?_⟩
    unfold slice
    split
    · rfl
    · exact List.drop_eq_nil_of_le (by rw [List.length_take]; omega)

/-- The test of the separator stops the script exactly if a name is too short and all names before it have a separator at this place. -/
theorem C168_separator (s : Nat) (files : List Name) :
    anySep s files = .exc .outOfRange ↔ ∃ (pre : List Name) (f : Name) (post : List Name), files = pre ++ f :: post ∧ f.length ≤ s ∧ ∀ g ∈ pre, g[s]? = some '/' := by
  induction files with
  | nil => simp [anySep]
  | cons f fs ih =>
    unfold anySep
    cases hc : f[s]? with
    | none =>
      simp only [true_iff]
      exact ⟨[], f, fs, rfl, List.getElem?_eq_none_iff.1 hc, by simp⟩
    | some c =>
      have hlen : ¬ f.length ≤ s := fun h => by
        rw [List.getElem?_eq_none_iff.2 h] at hc
        cases hc
      by_cases h : c = '/'
      · subst h
        simp only [ne_eq, not_true_eq_false, if_false]
        rw [ih]
        constructor
        · rintro ⟨pre, g, post, h1, h2, h3⟩
          refine ⟨f :: pre, g, post, by rw [h1]; rfl, h2, fun x hx => ?_⟩
          rcases List.mem_cons.1 hx with rfl | hx
          · exact hc
          · exact h3 x hx
        · rintro ⟨pre, g, post, h1, h2, h3⟩
          cases pre with
          | nil => cases h1; exact absurd h2 hlen
          | cons x pre =>
            cases h1
            exact ⟨pre, g, post, rfl, h2, fun y hy => h3 y (by simp [hy])⟩
      · simp only [ne_eq, h, not_false_eq_true, if_true]
        constructor
        · intro e; cases e
        · rintro ⟨pre, g, post, h1, h2, h3⟩
          cases pre with
          | nil => cases h1; exact absurd h2 hlen
          | cons x pre =>
            cases h1
            have := h3 f (by simp)
            rw [hc] at this
            exact absurd (Option.some.inj this) h

namespace Ex168

/-- C168_separator: the second name is not looked at. -/
example : anySep 1 ["ab".toList, "a".toList] = .ok true ∧ anySep 1 ["a/".toList, "a".toList] = .exc .outOfRange := by decide

example : labels id ["out/run1/a.log".toList, "out/run22/a.log".toList] = .ok (some ["1".toList, "22".toList]) := by decide +kernel
example : labels id ["out/run1".toList, "out/run2".toList] = .ok none := by decide +kernel
example : labels id ["out/run1".toList, "out/run12".toList] = .exc .outOfRange := by decide +kernel

end Ex168

end Verif.Props
