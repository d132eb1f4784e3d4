/-
Lemmas about the clamped bar.
-/
import Verif.Spec.ClampedBar
import Verif.Lemmas.OpBase
import Mathlib.Tactic.Ring
import Mathlib.Tactic.Linarith
import Mathlib.Tactic.NormNum
import Mathlib.Tactic.Positivity
import Mathlib.Algebra.Order.Field.Basic

set_option linter.unusedSectionVars false

namespace Verif.ClampedBar

open Verif.OpBase Verif.Structural Verif.Newton Verif.ClampedBar.Spec

variable {K : Type} [Field K]

theorem vmult_src (o : Operator K) (v : Vec K) {k : Nat × Nat} (hk : k ∈ o.given.keys) : (o.vmult v).1 k = 0 := by
  unfold Operator.vmult
  dsimp only
  rw [writeAll_map, if_pos hk]

theorem combination_zero {o : Operator K} {x : Vec K} (h : Combination o.vmult x) {k : Nat × Nat} (hk : k ∈ o.given.keys) : x k = 0 := by
  obtain ⟨l, rfl⟩ := h
  dsimp only
  induction l with
  | nil => rfl
  | cons c l ih => rw [List.map_cons, List.sum_cons, ih, vmult_src o _ hk, mul_zero, add_zero]

section
variable [LinearOrder K]

/-- What every iteration keeps holds at the end. -/
theorem loop_keeps {V : Type} [AddCommGroup V] [Module K V] (S : Solver K V) (P : V → Prop)
    (hi : ∀ st st', P st.dst → iteration S st = .ok st' → P st'.dst) : ∀ (fuel : Nat) (st st' : NState K V), P st.dst → loop S fuel st = some (.ok st') → P st'.dst := by
  have hc : ∀ st, (check S st).1.dst = st.dst := by
    intro st; unfold check; dsimp only; cases S.user <;> rfl
  intro fuel
  induction fuel with
  | zero =>
    intro st st' hp h
    unfold loop at h
    rcases hs : check S st with ⟨s1, s2⟩
    have := hc st; rw [hs] at this
    rw [hs] at h
    cases s2 with
    | success => simp only [Option.some.injEq, Res.ok.injEq] at h; rw [← h]; rw [this]; exact hp
    | failure => cases h
    | iterate => cases h
  | succ fuel ih =>
    intro st st' hp h
    unfold loop at h
    rcases hs : check S st with ⟨s1, s2⟩
    have := hc st; rw [hs] at this
    rw [hs] at h
    cases s2 with
    | success => simp only [Option.some.injEq, Res.ok.injEq] at h; rw [← h]; rw [this]; exact hp
    | failure => cases h
    | iterate =>
      dsimp only at h
      rcases hit : iteration S s1 with s3 | _ | _ <;> rw [hit] at h
      · exact ih s3 st' (hi s1 s3 (by rw [this]; exact hp) hit) h
      · cases h
      · cases h

theorem iteration_dst (o : Operator K) (norm : Vec K → Fl K) (lin : Nat → Vec K → Vec K → Res (Vec K × Nat)) {st st' : NState K (Vec K)}
    (h : iteration (newton o norm lin) st = .ok st') :
    ∃ x n, lin st.it st.dst ((-1 : K) • st.res) = .ok (x, n) ∧ st'.dst = st.dst + (1 : K) • x := by
  unfold iteration at h
  rw [if_neg (show (newton o norm lin).thresholdNewton ≠ 0 from by simp [newton])] at h
  dsimp only at h
  rcases hl : lin st.it st.dst ((-1 : K) • st.res) with ⟨x, n⟩ | _ | _
  · rw [show (newton o norm lin).lin = lin from rfl, hl] at h
    dsimp only at h
    rw [if_neg (show ¬ (newton o norm lin).damping = true from by simp [newton])] at h
    cases h
    exact ⟨x, n, rfl, rfl⟩
  · rw [show (newton o norm lin).lin = lin from rfl, hl] at h; cases h
  · rw [show (newton o norm lin).lin = lin from rfl, hl] at h; cases h

end

section
variable {b : Bar K} {manual mb : Bool}

/-- Clamped entries. -/
def Bar.Clamped (b : Bar K) (k : Nat × Nat) : Prop := k.1 < b.dim ∧ k.2 ∈ b.left

instance (b : Bar K) : DecidablePred b.Clamped := fun k => inferInstanceAs (Decidable (k.1 < b.dim ∧ k.2 ∈ b.left))

theorem mem_attach (dim owned : Nat) (ac : Nat → Nat → Option K) (k : Nat × Nat) :
    k ∈ (attach dim owned ac).keys ↔ k.1 < dim ∧ k.2 < owned ∧ (ac k.1 k.2).isSome := by
  obtain ⟨d, i⟩ := k
  simp only [attach, List.mem_flatMap, List.mem_range, List.mem_map, List.mem_filter, Prod.mk.injEq]
  constructor
  · rintro ⟨_, hd, _, ⟨hi, h⟩, rfl, rfl⟩; exact ⟨hd, hi, h⟩
  · rintro ⟨hd, hi, h⟩; exact ⟨d, hd, i, ⟨hi, h⟩, rfl, rfl⟩

theorem keys_manual (hl : ∀ i ∈ b.left, i < b.nodes) (k : Nat × Nat) : k ∈ (b.operator true mb).given.keys ↔ b.Clamped k := by
  rw [show (b.operator true mb).given = attach b.dim b.nodes (fun _ i => if b.left.contains i then some 0 else none) from rfl, mem_attach]
  unfold Bar.Clamped
  constructor
  · rintro ⟨h1, h2, h3⟩
    refine ⟨h1, ?_⟩
    by_contra h
    simp [h] at h3
  · rintro ⟨h1, h2⟩
    exact ⟨h1, hl _ h2, by simp [h2]⟩

theorem keys_affine (k : Nat × Nat) : k ∉ (b.operator false mb).given.keys := by
  rw [show (b.operator false mb).given = attach b.dim b.nodes (fun _ _ => none) from by simp [Bar.operator], mem_attach]
  simp

theorem value_zero (k : Nat × Nat) : (b.operator manual mb).given.value k = 0 := by
  show ((if (manual && b.left.contains k.2) = true then some 0 else none : Option K).getD 0) = 0
  split <;> rfl

theorem write_given (f : Nat × Nat → K) (hl : ∀ i ∈ b.left, i < b.nodes) (s : Vec K) :
    writeAll (b.operator manual mb).given.keys ((b.operator manual mb).given.keys.map f) s =
      fun k => if manual = true ∧ b.Clamped k then f k else s k := by
  funext k
  rw [writeAll_map]
  cases manual
  · rw [if_neg (keys_affine k)]; simp
  · simp only [keys_manual hl, true_and]

theorem idx_mem (k : Nat × Nat) : k ∈ blockKeys (b.operator manual mb).dim (b.operator manual mb).idx ↔ manual = false ∧ b.Clamped k := by
  rw [mem_blockKeys]
  cases manual
  · simp [Bar.operator, Bar.Clamped]
  · simp [Bar.operator]

/-- Set clamped entries to zero. -/
def Bar.clamp (b : Bar K) (u : Vec K) : Vec K := fun k => if b.Clamped k then 0 else u k

theorem read_eq (u : Vec K) : (b.operator manual mb).read u = if manual then u else b.clamp u := by
  funext k
  unfold Operator.read
  simp only [idx_mem]
  cases manual <;> simp [Bar.clamp]

theorem residual_eq (hl : ∀ i ∈ b.left, i < b.nodes) {u : Vec K} (hu : b.clamp u = u) :
    (b.operator manual mb).residual u = b.clamp fun k => b.A u k + b.load k := by
  have hr : (b.operator manual mb).read u = u := by rw [read_eq]; cases manual <;> simp [hu]
  unfold Operator.residual
  rw [write_given _ hl, hr, read_eq]
  funext k
  cases manual
  · simp [Bar.operator]
  · simp only [value_zero]
    by_cases hc : b.Clamped k <;> simp [hc, Bar.clamp, Bar.operator]

theorem block_eq (A : Vec K → Vec K) (n : Nat) {idx : List Nat} (h : idx.Nodup) (s : Vec K) :
    (vmultBlock A n idx s).2 = fun k => if k ∈ blockKeys n idx then s k else A (fun j => if j ∈ blockKeys n idx then 0 else s j) k := by
  have hz : (saveZero (blockKeys n idx) s).2 = fun k => if k ∈ blockKeys n idx then 0 else s k := by
    funext k; rw [saveZero_snd]; split <;> rfl
  funext k
  unfold vmultBlock
  dsimp only
  rw [saveZero_fst _ _ (blockKeys_nodup h), restore_snd, hz]
  congr

/-- The operator applied to a vector. -/
theorem vmult_eq (hl : ∀ i ∈ b.left, i < b.nodes) (hn : b.left.Nodup) (x : Vec K) :
    ((b.operator manual mb).vmult x).2 = fun k =>
      if b.Clamped k then (if manual then 0 else if mb then b.diagonal k * x k else x k) else b.A (b.clamp x) k := by
  have hnd : (b.operator manual mb).idx.Nodup := by cases manual <;> simp [Bar.operator, hn]
  have hcc : ∀ u, b.clamp (b.clamp u) = b.clamp u := by
    intro u; funext k; unfold Bar.clamp; split <;> rfl
  unfold Operator.vmult
  dsimp only
  rw [write_given _ hl]
  funext k
  cases manual
  · have hs : writeAll (b.operator false mb).given.keys ((b.operator false mb).given.keys.map (b.operator false mb).given.value) x = x := by
      rw [write_given _ hl]; simp
    rw [hs]
    cases mb
    · rw [show (b.operator false false).matrixBased = false from rfl]
      simp only [Bool.false_eq_true, if_false, false_and]
      rw [block_eq _ _ hnd]
      simp only [idx_mem, true_and]
      by_cases hc : b.Clamped k
      · simp [hc]
      · simp only [hc, if_false]
        show (b.operator false false).cells (b.clamp x) k = _
        unfold Operator.cells
        simp only [read_eq, Bool.false_eq_true, if_false, hcc]
        unfold Bar.clamp
        simp only [hc, if_false]
        rfl
    · rw [show (b.operator false true).matrixBased = true from rfl]
      simp only [if_true, Bool.false_eq_true, false_and, if_false]
      rw [hs, write_given _ hl]
      simp only [Bool.false_eq_true, false_and, if_false]
      unfold Operator.matrix
      rw [if_neg (keys_affine k)]
      simp only [idx_mem, true_and, read_eq, Bool.false_eq_true, if_false]
      rfl
  · have hs : writeAll (b.operator true mb).given.keys ((b.operator true mb).given.keys.map (b.operator true mb).given.value) x = b.clamp x := by
      rw [write_given _ hl]; funext j; simp only [value_zero, true_and]; rfl
    rw [hs]
    simp only [true_and, value_zero, if_true]
    by_cases hc : b.Clamped k
    · simp only [hc, if_true]
    · simp only [hc, if_false]
      cases mb
      · rw [show (b.operator true false).matrixBased = false from rfl]
        simp only [Bool.false_eq_true, if_false]
        rw [block_eq _ _ hnd]
        simp only [idx_mem, Bool.true_eq_false, false_and, if_false]
        unfold Operator.cells
        simp only [read_eq, if_true]
        rfl
      · rw [show (b.operator true true).matrixBased = true from rfl]
        simp only [if_true]
        have hs' : writeAll (b.operator true true).given.keys ((b.operator true true).given.keys.map (b.operator true true).given.value) (b.clamp x) = b.clamp x := by
          rw [write_given _ hl]; funext j
          simp only [value_zero, true_and]
          unfold Bar.clamp; split <;> rfl
        rw [hs', writeAll_not_mem _ _ _ (by rw [keys_manual hl]; exact hc)]
        unfold Operator.matrix
        rw [if_neg (by rw [keys_manual hl]; exact hc), if_neg (by rw [idx_mem]; simp), read_eq]
        simp only [if_true]
        rfl

theorem block_fst (A : Vec K → Vec K) (n : Nat) {idx : List Nat} (h : idx.Nodup) (s : Vec K) : (vmultBlock A n idx s).1 = s := by
  funext k
  unfold vmultBlock
  dsimp only
  rw [saveZero_fst _ _ (blockKeys_nodup h), restore_fst, saveZero_snd]
  split <;> rfl

/-- The source afterwards: clamped entries are zero if the conditions are attached by hand. -/
theorem vmult_fst (hl : ∀ i ∈ b.left, i < b.nodes) (hn : b.left.Nodup) (x : Vec K) :
    ((b.operator manual mb).vmult x).1 = if manual then b.clamp x else x := by
  have hnd : (b.operator manual mb).idx.Nodup := by cases manual <;> simp [Bar.operator, hn]
  unfold Operator.vmult
  dsimp only
  rw [write_given _ hl, write_given _ hl]
  funext k
  cases mb
  · rw [show (b.operator manual false).matrixBased = false from rfl]
    simp only [Bool.false_eq_true, if_false]
    rw [block_fst _ _ hnd]
    cases manual
    · simp
    · by_cases hc : b.Clamped k <;> simp [Bar.clamp, hc]
  · rw [show (b.operator manual true).matrixBased = true from rfl]
    cases manual
    · simp
    · by_cases hc : b.Clamped k <;> simp [Bar.clamp, hc]

end

end Verif.ClampedBar
