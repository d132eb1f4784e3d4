/-
Closed forms of the loops of the grain growth energy.
-/
import Verif.Model.GrainGrowth
import Verif.Lemmas.FreeEnergy
import Mathlib.Algebra.BigOperators.Intervals
import Mathlib.Tactic.Ring

namespace Verif.GrainGrowth

theorem list_sum_range {K : Type} [AddCommMonoid K] (n : Nat) (f : Nat → K) :
    ((List.range n).map f).sum = ∑ i ∈ Finset.range n, f i := by
  induction n with
  | zero => simp
  | succ n ih => simp [List.range_succ, Finset.sum_range_succ, ih]

theorem pw {K : Type} [Field K] (p n : Nat) (x : Nat → K) :
    FreeEnergy.powerSum p (entries n x) = ∑ i ∈ Finset.range n, x i ^ p := by
  rw [FreeEnergy.powerSum_eq, entries, List.map_map, ← list_sum_range]
  rfl

private theorem inner_eq {K : Type} [Field K] (x : Nat → K) (i : Nat) (k j : Nat) (a : K) :
    mixedInner x i a k j = a + ∑ l ∈ Finset.range k, x i ^ 2 * x (j + l) ^ 2 := by
  induction k generalizing a j with
  | zero => simp [mixedInner]
  | succ k ih =>
    rw [mixedInner, ih, Finset.sum_range_succ']
    simp only [Nat.add_assoc, Nat.add_comm 1, Nat.add_zero]
    ring

private theorem inner_eq' {K : Type} [Field K] (x : Nat → K) (i n : Nat) (a : K) (h : i < n) :
    mixedInner x i a (n - (i + 1)) (i + 1) =
      a + ∑ j ∈ Finset.range n, if i < j then x i ^ 2 * x j ^ 2 else 0 := by
  rw [inner_eq]
  congr 1
  have : n = (i + 1) + (n - (i + 1)) := by omega
  generalize hm : n - (i + 1) = m at this
  subst this
  rw [Finset.sum_range_add, Finset.sum_eq_zero (s := Finset.range (i + 1)), zero_add]
  · refine Finset.sum_congr rfl fun l _ => ?_
    rw [if_pos (by omega)]
  · intro j hj
    rw [if_neg (by have := Finset.mem_range.1 hj; omega)]

theorem outer_eq {K : Type} [Field K] (n : Nat) (x : Nat → K) (k i : Nat) (a : K) (h : i + k = n) :
    mixedOuter n x a k i =
      a + ∑ l ∈ Finset.range k, ∑ j ∈ Finset.range n, if i + l < j then x (i + l) ^ 2 * x j ^ 2 else 0 := by
  induction k generalizing a i with
  | zero => simp [mixedOuter]
  | succ k ih =>
    rw [mixedOuter, ih _ _ (by omega), inner_eq' _ _ _ _ (by omega), Finset.sum_range_succ']
    simp only [Nat.add_assoc, Nat.add_comm 1, Nat.add_zero]
    ring

end Verif.GrainGrowth
