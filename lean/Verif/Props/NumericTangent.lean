/-
Property C93: numerical tangent matrix.
-/
import Verif.Model.JacobianFree
import Mathlib.Algebra.Order.Field.Basic
import Mathlib.Algebra.Order.Group.Abs
import Mathlib.Algebra.Field.Rat
import Mathlib.Algebra.Order.Ring.Rat
import Mathlib.Tactic.Ring
import Mathlib.Tactic.NormNum

namespace Verif.Props

open Verif Verif.JacobianFree

section lemmas

theorem mem_entries {nb n : Nat} {p : Nat × Nat} : p ∈ entries nb n ↔ p.1 < nb ∧ p.2 < n := by
  obtain ⟨b, i⟩ := p
  simp [entries]

theorem nodup_entries (nb n : Nat) : (entries nb n).Nodup := by
  unfold entries
  rw [List.nodup_flatMap]
  refine ⟨fun b _ => ?_, ?_⟩
  · exact List.Nodup.map (fun i j h => by simpa using h) List.nodup_range
  · refine List.Pairwise.imp ?_ List.nodup_range
    intro a b hab
    simp only [Function.onFun, List.Disjoint, List.mem_map]
    rintro p ⟨i, _, rfl⟩ ⟨j, _, h⟩
    exact hab (congrArg Prod.fst h).symm

theorem pos_injective {nb : Nat} {p q : Nat × Nat} (hp : p.1 < nb) (hq : q.1 < nb) (h : pos nb p = pos nb q) : p = q := by
  unfold pos at h
  have h1 : p.1 = q.1 := by
    have := congrArg (· % nb) h
    simpa [Nat.add_mul_mod_self_right, Nat.mod_eq_of_lt hp, Nat.mod_eq_of_lt hq] using this
  have h2 : p.2 = q.2 := by
    rw [h1] at h
    have : p.2 * nb = q.2 * nb := by omega
    exact Nat.eq_of_mul_eq_mul_right (by omega) this
  exact Prod.ext h1 h2

end lemmas

section tangent

variable {K : Type} [Field K] [LinearOrder K]

/-- The entry that replaces `old`, from the difference quotient. -/
def newEntry (inPattern diagonal : Bool) (tol q old : K) : K :=
  if inPattern then (if tol < |q| then q else if diagonal then 1 else old) else old

variable (R : (Nat × Nat → K) → Nat × Nat → K) (pattern : Nat → Nat → Bool) (nb n : Nat) (eps tol : K)

theorem setEntry_eq (r0 r1 : Nat × Nat → K) (col row : Nat × Nat) (T : Nat → Nat → K) (r c : Nat) :
    setEntry pattern nb eps tol r0 r1 col T row r c = if r = pos nb row ∧ c = pos nb col
      then newEntry (pattern (pos nb row) (pos nb col)) (decide (row = col)) tol ((r1 row - r0 row) / eps) (T r c) else T r c := by
  unfold setEntry newEntry
  have hd : (col.1 = row.1 ∧ col.2 = row.2) ↔ row = col := by
    rw [Prod.ext_iff]; exact ⟨fun h => ⟨h.1.symm, h.2.symm⟩, fun h => ⟨h.1.symm, h.2.symm⟩⟩
  by_cases h1 : pattern (pos nb row) (pos nb col) = true
  · by_cases h2 : tol < |(r1 row - r0 row) / eps|
    · by_cases h3 : r = pos nb row ∧ c = pos nb col <;> simp [h1, h2, h3]
    · by_cases h4 : row = col
      · have h4' := hd.mpr h4
        by_cases h3 : r = pos nb row ∧ c = pos nb col
        · rw [if_pos h1, if_neg h2, if_pos h4', if_pos h3, if_pos h1, if_neg h2, if_pos (decide_eq_true h4)]
          exact (if_pos h3).symm
        · simp only [h1, h2, if_true, if_false, if_pos h4', if_neg h3]
      · have h4' : ¬ (col.1 = row.1 ∧ col.2 = row.2) := fun h => h4 (hd.mp h)
        by_cases h3 : r = pos nb row ∧ c = pos nb col <;> simp [h1, h2, h4, h4', h3]
  · simp [h1]

theorem inner_other (r0 r1 : Nat × Nat → K) (col : Nat × Nat) (r c : Nat) : ∀ (l : List (Nat × Nat)) (T : Nat → Nat → K),
    (c ≠ pos nb col ∨ ∀ row ∈ l, r ≠ pos nb row) → l.foldl (setEntry pattern nb eps tol r0 r1 col) T r c = T r c
  | [], _, _ => rfl
  | row :: l, T, h => by
    rw [List.foldl_cons, inner_other r0 r1 col r c l]
    · rw [setEntry_eq, if_neg]
      rintro ⟨h1, h2⟩
      rcases h with h | h
      · exact h h2
      · exact h row (by simp) h1
    · exact h.imp id fun h x hx => h x (by simp [hx])

theorem inner_at (r0 r1 : Nat × Nat → K) (col row : Nat × Nat) : ∀ (l : List (Nat × Nat)) (T : Nat → Nat → K),
    l.Nodup → (∀ p ∈ l, p.1 < nb) → row ∈ l →
    l.foldl (setEntry pattern nb eps tol r0 r1 col) T (pos nb row) (pos nb col) =
      newEntry (pattern (pos nb row) (pos nb col)) (decide (row = col)) tol ((r1 row - r0 row) / eps) (T (pos nb row) (pos nb col))
  | [], _, _, _, h => by simp at h
  | x :: l, T, hn, hb, h => by
    rw [List.foldl_cons]
    rw [List.nodup_cons] at hn
    by_cases hx : x = row
    · subst hx
      rw [inner_other, setEntry_eq, if_pos ⟨rfl, rfl⟩]
      right
      intro y hy he
      exact hn.1 (pos_injective (hb _ (by simp)) (hb _ (by simp [hy])) he ▸ hy)
    · have hm : row ∈ l := by
        rcases List.mem_cons.mp h with h | h
        · exact absurd h.symm hx
        · exact h
      rw [inner_at r0 r1 col row l _ hn.2 (fun p hp => hb p (by simp [hp])) hm, setEntry_eq, if_neg]
      rintro ⟨h1, _⟩
      exact hx (pos_injective (hb _ (by simp)) (hb _ (by simp [hm])) h1.symm)

theorem column_state (r0 : Nat × Nat → K) (s : (Nat × Nat → K) × (Nat → Nat → K)) (col : Nat × Nat) :
    (column R pattern nb n eps tol r0 s col).1 = s.1 := by
  funext p
  unfold column
  by_cases h : p = col <;> simp [h]

theorem outer_state (r0 : Nat × Nat → K) : ∀ (l : List (Nat × Nat)) (s : (Nat × Nat → K) × (Nat → Nat → K)),
    (l.foldl (column R pattern nb n eps tol r0) s).1 = s.1
  | [], _ => rfl
  | col :: l, s => by rw [List.foldl_cons, outer_state r0 l, column_state]

theorem outer_other (r0 : Nat × Nat → K) (r c : Nat) : ∀ (l : List (Nat × Nat)) (s : (Nat × Nat → K) × (Nat → Nat → K)),
    ((∀ col ∈ l, c ≠ pos nb col) ∨ ∀ row ∈ entries nb n, r ≠ pos nb row) →
    (l.foldl (column R pattern nb n eps tol r0) s).2 r c = s.2 r c
  | [], _, _ => rfl
  | col :: l, s, h => by
    rw [List.foldl_cons, outer_other r0 r c l _ (h.imp (fun h x hx => h x (by simp [hx])) id)]
    unfold column
    exact inner_other pattern nb eps tol r0 _ col r c _ _ (h.imp (fun h => h col (by simp)) id)

theorem outer_at (u : Nat × Nat → K) (r0 : Nat × Nat → K) (row col : Nat × Nat) (hr : row ∈ entries nb n) :
    ∀ (l : List (Nat × Nat)) (T : Nat → Nat → K), l.Nodup → (∀ p ∈ l, p.1 < nb) → col ∈ l →
    (l.foldl (column R pattern nb n eps tol r0) (u, T)).2 (pos nb row) (pos nb col) =
      newEntry (pattern (pos nb row) (pos nb col)) (decide (row = col)) tol
        ((R (fun p => if p = col then u p + eps else u p) row - r0 row) / eps) (T (pos nb row) (pos nb col))
  | [], _, _, _, h => by simp at h
  | x :: l, T, hn, hb, h => by
    rw [List.foldl_cons]
    rw [List.nodup_cons] at hn
    have hst : column R pattern nb n eps tol r0 (u, T) x = (u, (column R pattern nb n eps tol r0 (u, T) x).2) :=
      Prod.ext (column_state R pattern nb n eps tol r0 (u, T) x) rfl
    by_cases hx : x = col
    · subst hx
      rw [outer_other]
      · unfold column
        exact inner_at pattern nb eps tol r0 _ x row _ _ (nodup_entries nb n) (fun p hp => (mem_entries.mp hp).1) hr
      · left
        intro y hy he
        exact hn.1 (pos_injective (hb _ (by simp)) (hb _ (by simp [hy])) he ▸ hy)
    · have hm : col ∈ l := by
        rcases List.mem_cons.mp h with h | h
        · exact absurd h.symm hx
        · exact h
      rw [hst, outer_at u r0 row col hr l _ hn.2 (fun p hp => hb p (by simp [hp])) hm]
      congr 1
      unfold column
      exact inner_other pattern nb eps tol r0 _ x _ _ _ _ (Or.inl fun h1 =>
        hx (pos_injective (hb _ (by simp)) (hb _ (by simp [hm])) h1.symm))

/-- **C93**: the state is as before; every entry of the matrix is the one given by the difference quotient of its column, and positions
outside the rows and columns of the vector are left alone. -/
theorem C93_entries (u : Nat × Nat → K) (T : Nat → Nat → K) :
    (numericTangent R pattern nb n eps tol u T).1 = u ∧
    (∀ row col, row.1 < nb → row.2 < n → col.1 < nb → col.2 < n →
      (numericTangent R pattern nb n eps tol u T).2 (row.1 + row.2 * nb) (col.1 + col.2 * nb) =
        newEntry (pattern (row.1 + row.2 * nb) (col.1 + col.2 * nb)) (decide (row = col)) tol
          ((R (fun p => if p = col then u p + eps else u p) row - R u row) / eps) (T (row.1 + row.2 * nb) (col.1 + col.2 * nb))) ∧
    (∀ r c, (nb * n ≤ r ∨ nb * n ≤ c) → (numericTangent R pattern nb n eps tol u T).2 r c = T r c) := by
  refine ⟨outer_state R pattern nb n eps tol _ _ _, ?_, ?_⟩
  · intro row col h1 h2 h3 h4
    exact outer_at R pattern nb n eps tol u (R u) row col (mem_entries.mpr ⟨h1, h2⟩) _ T (nodup_entries nb n)
      (fun p hp => (mem_entries.mp hp).1) (mem_entries.mpr ⟨h3, h4⟩)
  · intro r c h
    have hlt : ∀ p ∈ entries nb n, pos nb p < nb * n := by
      intro p hp
      obtain ⟨h1, h2⟩ := mem_entries.mp hp
      unfold pos
      calc p.1 + p.2 * nb < nb + p.2 * nb := by omega
        _ = (p.2 + 1) * nb := by ring
        _ ≤ n * nb := Nat.mul_le_mul_right _ h2
        _ = nb * n := Nat.mul_comm _ _
    refine outer_other R pattern nb n eps tol _ r c _ _ ?_
    rcases h with h | h
    · exact Or.inr fun row hr he => by have := hlt row hr; omega
    · exact Or.inl fun col hc he => by have := hlt col hc; omega

/-- **C93** for a residual that is affine with matrix `A`, on a matrix that was empty, for a pair in the pattern: the entry is exact if it is
above the tolerance, zero off the diagonal if it is below, so the error is at most the tolerance there; on the diagonal a small entry
becomes one. -/
theorem C93_affine_partial (heps : eps ≠ 0) (u : Nat × Nat → K) (A : Nat × Nat → Nat × Nat → K)
    (haff : ∀ row col, col.1 < nb → col.2 < n → R (fun p => if p = col then u p + eps else u p) row = R u row + eps * A row col)
    (row col : Nat × Nat) (h1 : row.1 < nb) (h2 : row.2 < n) (h3 : col.1 < nb) (h4 : col.2 < n)
    (hp : pattern (row.1 + row.2 * nb) (col.1 + col.2 * nb) = true) :
    let t := fdmMatrix R pattern nb n eps tol none u (row.1 + row.2 * nb) (col.1 + col.2 * nb)
    (tol < |A row col| → t = A row col) ∧
    (|A row col| ≤ tol → row ≠ col → t = 0 ∧ |t - A row col| ≤ tol) ∧
    (|A row col| ≤ tol → row = col → t = 1) := by
  intro t
  have e : t = newEntry true (decide (row = col)) tol (A row col) 0 := by
    have := (C93_entries R pattern nb n eps tol u (initializeMatrix false (fun _ _ => 0) none)).2.1 row col h1 h2 h3 h4
    simp only [t, fdmMatrix]
    rw [this, haff row col h3 h4, hp]
    congr 1
    · rw [add_sub_cancel_left, mul_div_assoc, mul_comm, div_mul_cancel₀ _ heps]
  refine ⟨fun h => by simp [e, newEntry, h], fun h hd => ?_, fun h hd => by
    rw [e, newEntry, if_pos rfl, if_neg (not_lt.mpr h), if_pos (decide_eq_true hd)]⟩
  have e0 : t = 0 := by simp [e, newEntry, not_lt.mpr h, hd]
  exact ⟨e0, by rw [e0, zero_sub, abs_neg]; exact h⟩

/-- **C93** does not hold from the second time on: the matrix is not cleared, and an entry off the diagonal whose derivative is now small keeps
whatever was there, however large. -/
theorem C93_stale_violated (u : Nat × Nat → K) (M : Nat → Nat → K) (row col : Nat × Nat) (hne : row ≠ col)
    (h1 : row.1 < nb) (h2 : row.2 < n) (h3 : col.1 < nb) (h4 : col.2 < n)
    (hsmall : |(R (fun p => if p = col then u p + eps else u p) row - R u row) / eps| ≤ tol) :
    fdmMatrix R pattern nb n eps tol (some M) u (row.1 + row.2 * nb) (col.1 + col.2 * nb) =
      M (row.1 + row.2 * nb) (col.1 + col.2 * nb) := by
  have := (C93_entries R pattern nb n eps tol u (initializeMatrix false (fun _ _ => 0) (some M))).2.1 row col h1 h2 h3 h4
  simp only [fdmMatrix]
  rw [this]
  simp [newEntry, not_lt.mpr hsmall, hne, initializeMatrix]

end tangent

/-! A concrete case: one block, two entries, residual `(2 x + y², 0)`. -/
namespace Ex93

def R (u : Nat × Nat → ℚ) (p : Nat × Nat) : ℚ := if p = (0, 0) then 2 * u (0, 0) + u (0, 1) * u (0, 1) else 0

def all (_ _ : Nat) : Bool := true

/-- At `y = 1` the entry is 3 (step 1); at `y = -1/2` the difference quotient is zero and 3 is still there. -/
example : let M1 := fdmMatrix R all 1 2 1 (1 / 10) none (fun p => if p = (0, 1) then 1 else 0)
    let M2 := fdmMatrix R all 1 2 1 (1 / 10) (some M1) (fun p => if p = (0, 1) then -1 / 2 else 0)
    M1 0 0 = 2 ∧ M1 0 1 = 3 ∧ M1 1 1 = 1 ∧ M2 0 1 = 3 ∧ M2 0 0 = 2 := by
  decide +kernel

/-- A residual that is affine. -/
def L (u : Nat × Nat → ℚ) (p : Nat × Nat) : ℚ := if p = (0, 0) then 2 * u (0, 0) + 3 * u (0, 1) + 1 else 0

def A (r c : Nat × Nat) : ℚ := if r = (0, 0) then (if c = (0, 0) then 2 else if c = (0, 1) then 3 else 0) else 0

example (u : Nat × Nat → ℚ) : fdmMatrix L all 1 2 (1 / 10) (1 / 100) none u 0 1 = 3 :=
  (C93_affine_partial L all 1 2 (1 / 10) (1 / 100) (by norm_num) u A (by
    intro row col h1 h2
    obtain ⟨b, i⟩ := col
    have hb : b = 0 := by simpa using h1
    subst hb
    have hi : i = 0 ∨ i = 1 := by simp at h2; omega
    rcases hi with rfl | rfl
    · unfold L A
      by_cases h : row = (0, 0) <;> simp [h]
      ring
    · unfold L A
      by_cases h : row = (0, 0) <;> simp [h]
      ring) (0, 0) (0, 1) (by decide) (by decide) (by decide) (by decide) rfl).1 (by norm_num [A])

end Ex93

end Verif.Props
