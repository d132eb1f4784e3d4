/-
C162: initial values of the debug mode.
-/
import Verif.Lemmas.DebugValues
import Mathlib.Algebra.Field.Rat
import Mathlib.Algebra.Order.Ring.Unbundled.Rat

set_option linter.unusedSectionVars false

namespace Verif.Props

open Finset Verif.DebugValues Verif.DebugValues.Spec

variable {K : Type} [Field K] [LinearOrder K] [IsStrictOrderedRing K]

/-- Two dimensions: at and around every node the values are those of two grains side by side. -/
theorem C162_plane {p : Fin 2 → K} (x : Fin 3) (y : Fin 2) (h : At p ![x.val, y.val]) (j : Nat) : doValue table2 p j = .ok (component x y j) := by
  have hn := at_near h
  unfold doValue
  rw [lookup_node hn]
  have key : ∀ (x : Fin 3) (y : Fin 2), ∃ l, found table2 (fun i => ((![x.val, y.val] i : Nat) : Int)) = .ok l ∧ ∀ j : Fin 4, Res.index l j.val = .ok (component x y j.val) := by
    have : ∀ (x : Fin 3) (y : Fin 2), (match found table2 (fun i => ((![x.val, y.val] i : Nat) : Int)) with
        | .ok l => decide (∀ j : Fin 4, Res.index l j.val = .ok (component x y j.val))
        | _ => false) = true := by decide +kernel
    intro x y
    have h1 := this x y
    cases hf : found table2 (fun i => ((![x.val, y.val] i : Nat) : Int)) with
    | ok l => rw [hf] at h1; exact ⟨l, rfl, of_decide_eq_true h1⟩
    | exc e => rw [hf] at h1; exact nomatch h1
    | ub => rw [hf] at h1; exact nomatch h1
  obtain ⟨l, h1, h2⟩ := key x y
  rw [h1, Res.ok_bind]
  by_cases hj : j < 4
  · rw [if_pos hj]; exact h2 ⟨j, hj⟩
  · rw [if_neg hj]
    match j, hj with
    | j + 4, _ => rfl

/-- Three dimensions: the same in both layers. -/
theorem C162_space {p : Fin 3 → K} (x : Fin 3) (y z : Fin 2) (h : At p ![x.val, y.val, z.val]) (j : Nat) : doValue table3 p j = .ok (component x y j) := by
  have hn := at_near h
  unfold doValue
  rw [lookup_node hn]
  have key : ∀ (x : Fin 3) (y z : Fin 2), ∃ l, found table3 (fun i => ((![x.val, y.val, z.val] i : Nat) : Int)) = .ok l ∧ ∀ j : Fin 4, Res.index l j.val = .ok (component x y j.val) := by
    have : ∀ (x : Fin 3) (y z : Fin 2), (match found table3 (fun i => ((![x.val, y.val, z.val] i : Nat) : Int)) with
        | .ok l => decide (∀ j : Fin 4, Res.index l j.val = .ok (component x y j.val))
        | _ => false) = true := by decide +kernel
    intro x y z
    have h1 := this x y z
    cases hf : found table3 (fun i => ((![x.val, y.val, z.val] i : Nat) : Int)) with
    | ok l => rw [hf] at h1; exact ⟨l, rfl, of_decide_eq_true h1⟩
    | exc e => rw [hf] at h1; exact nomatch h1
    | ub => rw [hf] at h1; exact nomatch h1
  obtain ⟨l, h1, h2⟩ := key x y z
  rw [h1, Res.ok_bind]
  by_cases hj : j < 4
  · rw [if_pos hj]; exact h2 ⟨j, hj⟩
  · rw [if_neg hj]
    match j, hj with
    | j + 4, _ => rfl

/-- Anywhere else the program stops. -/
theorem C162_elsewhere {p : Fin 2 → K} {p3 : Fin 3 → K} (j : Nat) :
    ((∀ (x : Fin 3) (y : Fin 2), ¬ At p ![x.val, y.val]) → doValue table2 p j = .exc .assertThrow) ∧
    ((∀ (x : Fin 3) (y z : Fin 2), ¬ At p3 ![x.val, y.val, z.val]) → doValue table3 p3 j = .exc .assertThrow) := by
  constructor
  · intro h
    have : lookup p table2 = .exc .assertThrow := lookup_none fun b hb q hq => by
      have tab : ∀ b ∈ table2, ∀ q ∈ b.1, ∃ (x : Fin 3) (y : Fin 2), q = ![(x.val : Int), (y.val : Int)] := by decide +kernel
      obtain ⟨x, y, rfl⟩ := tab b hb q hq
      have := h x y
      unfold At at this
      unfold near tol
      rw [decide_eq_false_iff_not]
      simpa [Fin.sum_univ_two] using this
    unfold doValue
    rw [this]
    rfl
  · intro h
    have : lookup p3 table3 = .exc .assertThrow := lookup_none fun b hb q hq => by
      have tab : ∀ b ∈ table3, ∀ q ∈ b.1, ∃ (x : Fin 3) (y z : Fin 2), q = ![(x.val : Int), (y.val : Int), (z.val : Int)] := by decide +kernel
      obtain ⟨x, y, z, rfl⟩ := tab b hb q hq
      have := h x y z
      unfold At at this
      unfold near tol
      rw [decide_eq_false_iff_not]
      simpa [Fin.sum_univ_three] using this
    unfold doValue
    rw [this]
    rfl

/-- Components: concentration, chemical potential and one order parameter for each particle; no more are asked for. -/
theorem C162_components : nComponents = 2 + nParticles ∧ ∀ x y j, nComponents ≤ j → component x y j = 0 := by
  refine ⟨rfl, fun x y j hj => ?_⟩
  match j, hj with
  | j + 4, _ => rfl

/-- The boundaries of the domain are not those of the grid: unless a bounding box is given, there is a corner of the domain, which is a node of the mesh in any case, without values. -/
theorem C162_domain_violation {factor : K} (hf : 1 / 10 ^ 9 ≤ factor) (j : Nat) :
    doValue table2 (domain factor).1 j = .exc .assertThrow ∧ doValue table3 (domain factor).1 j = .exc .assertThrow := by
  have h9 : (0 : K) < 1 / 10 ^ 9 := by norm_num
  have key : ∀ x : Nat, (1 / 10 ^ 9 : K) ^ 2 ≤ (0 - factor * 1 - (x : K)) ^ 2 := by
    intro x
    have hx : (0 : K) ≤ x := Nat.cast_nonneg x
    nlinarith
  have pos : ∀ x : Nat, (0 : K) ≤ (0 - factor * 1 - (x : K)) ^ 2 := fun x => sq_nonneg _
  constructor
  · refine (C162_elsewhere (p3 := fun _ => (0 : K)) j).1 fun x y h => ?_
    unfold At at h
    simp only [Fin.sum_univ_two, domain, boundaries, rMax, Matrix.cons_val_zero, Matrix.cons_val_one] at h
    linarith [key x.val, pos y.val]
  · refine (C162_elsewhere (p := fun _ => (0 : K)) j).2 fun x y z h => ?_
    unfold At at h
    simp only [Fin.sum_univ_three, domain, boundaries, rMax, Matrix.cons_val_zero, Matrix.cons_val_one, Matrix.cons_val_two] at h
    have h : (0 - factor * 1 - (x.val : K)) ^ 2 + (0 - factor * 1 - (y.val : K)) ^ 2 + (0 - factor * 1 - (z.val : K)) ^ 2 < (1 / 10 ^ 9) ^ 2 := h
    linarith [key x.val, pos y.val, pos z.val]

namespace Ex162

example : At (![1 + 1/10^10, 0] : Fin 2 → Rat) ![(1 : Fin 3).val, (0 : Fin 2).val] := by unfold At; decide +kernel
example : doValue table2 (![1 + 1/10^10, 0] : Fin 2 → Rat) 2 = .ok (2/5) := by decide +kernel
example : doValue table3 (![2, 1, 1] : Fin 3 → Rat) 1 = .ok (3/5) := by decide +kernel
example : doValue table2 (![1/2, 0] : Fin 2 → Rat) 0 = .exc .assertThrow := by decide +kernel
/-- The default factor. -/
example : doValue table2 (domain (1/2 : Rat)).1 0 = .exc .assertThrow := by decide +kernel

end Ex162

end Verif.Props
