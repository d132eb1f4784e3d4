import Verif.Spec.Levels
import Mathlib.Algebra.Order.Field.Basic

namespace Verif.Levels

open Verif.Mesh Verif.Levels.Spec

section
variable {K : Type} [Field K] [LinearOrder K]

theorem mark_spec (vmin vmax : K) (lo hi : Nat) (cells : List (Cell K)) (c : Cell K)
    (h : c ∈ mark vmin vmax lo hi cells) : (∃ d ∈ cells, d.level = c.level) ∧ (c.refine = true → c.level < hi) := by
  rw [mark, List.mem_map] at h
  obtain ⟨c1, hc1, rfl⟩ := h
  rw [List.mem_map] at hc1
  obtain ⟨c0, hc0, rfl⟩ := hc1
  have hlev : ∀ d : Cell K, (limitLevels lo hi d).level = d.level := by
    intro d
    unfold limitLevels
    dsimp only
    split <;> split <;> first | rfl | (split <;> rfl)
  have hm : (markInterface vmin vmax c0).level = c0.level := by
    unfold markInterface; split
    · rfl
    · split <;> rfl
  refine ⟨⟨c0, hc0, by rw [hlev, hm]⟩, ?_⟩
  rw [hlev]
  generalize markInterface vmin vmax c0 = d
  intro hr
  unfold limitLevels at hr
  dsimp only at hr
  by_cases h1 : d.refine = true ∧ d.level = hi
  · rw [if_pos h1] at hr
    split at hr <;> simp at hr
  · rw [if_neg h1] at hr
    by_cases h2 : d.coarsen = true ∧ d.level = lo
    · rw [if_pos h2] at hr
      dsimp only at hr
      split at hr
      · simp at hr
      · rename_i h3
        have : d.level ≠ hi := fun e => h1 ⟨hr, e⟩
        omega
    · rw [if_neg h2] at hr
      split at hr
      · simp at hr
      · rename_i h3
        have : d.level ≠ hi := fun e => h1 ⟨hr, e⟩
        omega

/-- One refinement keeps the finest level below the limit. -/
theorem executed_bound (vmin vmax : K) (lo hi : Nat) (cells : List (Cell K)) (new : List Nat)
    (he : Executed (mark vmin vmax lo hi cells) new) (b : Nat) (hb : ∀ c ∈ cells, c.level ≤ b) (hhi : hi ≤ b) :
    ∀ l ∈ new, l ≤ b := by
  -- the largest new level is not a consequence of a finer one
  by_contra hcon
  push Not at hcon
  obtain ⟨l, hl, hlb⟩ := hcon
  have key : ∀ n l, l ∈ new → b < l → (∀ m ∈ new, m < l + n) → False := by
    intro n
    induction n with
    | zero => intro l hl _ hm; exact absurd (hm l hl) (by omega)
    | succ n ih =>
      intro l hl hbl hm
      rcases he l hl with ⟨c, hc, h⟩ | ⟨c, hc, _, h⟩ | ⟨c, hc, hr, h⟩ | ⟨_, m, hm', hlm⟩
      · obtain ⟨⟨d, hd, e⟩, _⟩ := mark_spec vmin vmax lo hi cells c hc
        have := hb d hd; omega
      · obtain ⟨⟨d, hd, e⟩, _⟩ := mark_spec vmin vmax lo hi cells c hc
        have := hb d hd; omega
      · have := (mark_spec vmin vmax lo hi cells c hc).2 hr; omega
      · exact ih m hm' (by omega) (fun m2 hm2 => by have := hm m2 hm2; omega)
  have hmax : ∃ B, ∀ m ∈ new, m < B := by
    have hx : ∀ (xs : List Nat), ∃ B, ∀ m ∈ xs, m < B := by
      intro xs
      induction xs with
      | nil => exact ⟨0, by simp⟩
      | cons x xs ih =>
        obtain ⟨B, hB⟩ := ih
        refine ⟨B + x + 1, fun m hm => ?_⟩
        rw [List.mem_cons] at hm
        rcases hm with rfl | hm
        · omega
        · have := hB m hm; omega
    exact hx new
  obtain ⟨B, hB⟩ := hmax
  exact key B l hl hlb (fun m hm => by have := hB m hm; omega)

end

theorem set_flag (fl : List Bool) (i j : Nat) : (fl.set i true)[j]? = some true ↔
    (fl[j]? = some true ∨ (i = j ∧ j < fl.length)) := by
  rw [List.getElem?_set]
  by_cases h : i = j
  · subst h
    by_cases h2 : i < fl.length
    · simp [h2]
    · simp [h2]
  · simp [h]

theorem flag_children (ch : List Child) (fl : List Bool) (j : Nat) :
    (ch.foldl setFlag fl).length = fl.length ∧
    ((ch.foldl setFlag fl)[j]? = some true ↔
      (fl[j]? = some true ∨ (j < fl.length ∧ ∃ o, some (j, o) ∈ ch))) := by
  induction ch generalizing fl with
  | nil => simp
  | cons c ch ih =>
    rw [List.foldl_cons]
    rcases c with _ | ⟨i, o⟩
    · simpa [setFlag] using ih fl
    · rw [show setFlag fl (some (i, o)) = fl.set i true from rfl]
      obtain ⟨h1, h2⟩ := ih (fl.set i true)
      refine ⟨by simpa using h1, ?_⟩
      rw [h2, set_flag, List.length_set]
      constructor
      · rintro ((h | ⟨rfl, h⟩) | ⟨h, o', h'⟩)
        · exact .inl h
        · exact .inr ⟨h, o, List.mem_cons_self ..⟩
        · exact .inr ⟨h, o', List.mem_cons_of_mem _ h'⟩
      · rintro (h | ⟨h, o', h'⟩)
        · exact .inl (.inl h)
        · rw [List.mem_cons] at h'
          rcases h' with h' | h'
          · simp only [Option.some.injEq, Prod.mk.injEq] at h'
            exact .inl (.inr ⟨h'.1.symm, h⟩)
          · exact .inr ⟨h, o', h'⟩

theorem allOwned_iff (ch : List Child) : allOwned ch = true ↔ ∀ c ∈ ch, ∃ j, c = some (j, true) := by
  induction ch with
  | nil => simp [allOwned]
  | cons c ch ih =>
    rcases c with _ | ⟨i, o⟩
    · simp [allOwned]
    · simp only [allOwned, Bool.and_eq_true, ih, List.mem_cons, forall_eq_or_imp]
      constructor
      · rintro ⟨rfl, h⟩; exact ⟨⟨i, rfl⟩, h⟩
      · rintro ⟨⟨j, hj⟩, h⟩
        simp only [Option.some.injEq, Prod.mk.injEq] at hj
        exact ⟨hj.2, h⟩

theorem unrefined_spec (n : Nat) (parents : List (List Child)) (j : Nat) :
    (unrefined n parents).length = n ∧
    ((unrefined n parents)[j]? = some true ↔ j < n ∧ Mergeable parents j) := by
  have key : ∀ (ps : List (List Child)) (fl : List Bool),
      (ps.foldl (fun fl ch => if allOwned ch then
        ch.foldl setFlag fl else fl) fl).length = fl.length ∧
      ((ps.foldl (fun fl ch => if allOwned ch then
        ch.foldl setFlag fl else fl) fl)[j]? = some true ↔
        (fl[j]? = some true ∨ (j < fl.length ∧ Mergeable ps j))) := by
    intro ps
    induction ps with
    | nil => intro fl; simp [Mergeable]
    | cons ch ps ih =>
      intro fl
      rw [List.foldl_cons]
      by_cases ho : allOwned ch = true
      · rw [if_pos ho]
        obtain ⟨f1, f2⟩ := flag_children ch fl j
        obtain ⟨h1, h2⟩ := ih (ch.foldl setFlag fl)
        refine ⟨h1.trans f1, ?_⟩
        rw [h2, f1, f2]
        rw [allOwned_iff] at ho
        constructor
        · rintro ((h | ⟨h, h'⟩) | ⟨h, q, hq, hr⟩)
          · exact .inl h
          · exact .inr ⟨h, ch, List.mem_cons_self .., h', ho⟩
          · exact .inr ⟨h, q, List.mem_cons_of_mem _ hq, hr⟩
        · rintro (h | ⟨h, q, hq, hr⟩)
          · exact .inl (.inl h)
          · rw [List.mem_cons] at hq
            rcases hq with rfl | hq
            · exact .inl (.inr ⟨h, hr.1⟩)
            · exact .inr ⟨h, q, hq, hr⟩
      · rw [if_neg ho]
        obtain ⟨h1, h2⟩ := ih fl
        refine ⟨h1, ?_⟩
        rw [h2]
        rw [allOwned_iff] at ho
        constructor
        · rintro (h | ⟨h, q, hq, hr⟩)
          · exact .inl h
          · exact .inr ⟨h, q, List.mem_cons_of_mem _ hq, hr⟩
        · rintro (h | ⟨h, q, hq, hr⟩)
          · exact .inl h
          · rw [List.mem_cons] at hq
            rcases hq with rfl | hq
            · exact absurd hr.2 ho
            · exact .inr ⟨h, q, hq, hr⟩
  obtain ⟨h1, h2⟩ := key parents (List.replicate n false)
  refine ⟨by rw [unrefined, h1, List.length_replicate], ?_⟩
  rw [unrefined, h2, List.length_replicate]
  constructor
  · rintro (h | h)
    · rw [List.getElem?_replicate] at h
      split at h <;> simp at h
    · exact h
  · exact .inr

end Verif.Levels

namespace Verif.Levels

open Verif.Mesh Verif.Levels.Spec

section
variable {K : Type} [Field K] [LinearOrder K]

theorem reach_inv (vmin vmax : K) (levels0 maxD minD cur k : Nat) (ls : List Nat)
    (h : Reach K vmin vmax levels0 maxD minD cur k ls) (h1 : 1 ≤ levels0) (hw : 2 ≤ levels0 ∨ 1 ≤ maxD)
    (hs : levels0 + maxD + k < 4294967296) :
    (cur ≤ maxD + k ∨ (maxD = 0 ∧ cur = 4294967295)) ∧ ∀ l ∈ ls, l ≤ levels0 - 1 + maxD + k := by
  induction h with
  | start ls h => exact ⟨.inl (by omega), fun l hl => by have := h l hl; omega⟩
  | @amr cur k ls cells new h hc he ih =>
    obtain ⟨a, b⟩ := ih hs
    refine ⟨a, executed_bound vmin vmax _ _ cells new he _ ?_ ?_⟩
    · intro c hcm
      exact b _ (hc ▸ List.mem_map_of_mem hcm)
    · unfold Schedule.maxLevel
      omega
  | more h ih =>
    obtain ⟨a, b⟩ := ih (by omega)
    exact ⟨by omega, fun l hl => by have := b l hl; omega⟩
  | less h ih =>
    obtain ⟨a, b⟩ := ih hs
    exact ⟨by omega, b⟩

theorem forM_ok_or (n b : Nat) : ((List.range n).forM fun l => if l ≤ b then (Res.ok () : Res Unit) else .ub) =
    if n ≤ b + 1 then .ok () else .ub := by
  have key : ∀ (xs : List Nat), (xs.forM fun l => if l ≤ b then (Res.ok () : Res Unit) else .ub) =
      if ∀ x ∈ xs, x ≤ b then .ok () else .ub := by
    intro xs
    induction xs with
    | nil => simp; try rfl
    | cons x xs ih =>
      rw [show ((x :: xs).forM fun l => if l ≤ b then (Res.ok () : Res Unit) else .ub) =
        ((if x ≤ b then (Res.ok () : Res Unit) else .ub) >>= fun _ => xs.forM fun l => if l ≤ b then (Res.ok () : Res Unit) else .ub) from rfl, ih]
      by_cases hx : x ≤ b
      · rw [if_pos hx, Res.ok_bind]
        simp [hx]
      · rw [if_neg hx]
        simp [hx]
  rw [key]
  have : (∀ x ∈ List.range n, x ≤ b) ↔ n ≤ b + 1 := by
    simp only [List.mem_range]
    constructor
    · intro h
      by_contra hc
      have := h (b + 1) (by omega)
      omega
    · intro h x hx; omega
  simp only [this]

theorem initLevels_eq (levels0 maxD finest : Nat) :
    initLevels levels0 maxD finest = if finest ≤ levels0 + maxD then .ok () else .ub := by
  rw [initLevels, forM_ok_or]
  simp

theorem uniformCells_eq (dim coarse r : Nat) : uniformCells dim coarse r = coarse * (2 ^ dim) ^ r := by
  induction r with
  | zero => simp [uniformCells]
  | succ r ih => rw [uniformCells, ih, Nat.mul_assoc, ← Nat.pow_succ]

end

end Verif.Levels
