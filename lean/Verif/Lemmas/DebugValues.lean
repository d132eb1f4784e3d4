/-
Lemmas on the initial values of the debug mode.
-/
import Verif.Model.DebugValues
import Verif.Spec.DebugValues
import Mathlib.Tactic.Linarith
import Mathlib.Tactic.NormNum
import Mathlib.Algebra.Order.BigOperators.Group.Finset

set_option linter.unusedSectionVars false

namespace Verif.DebugValues

open Finset Verif.DebugValues.Spec

variable {K : Type} [Field K] [LinearOrder K] [IsStrictOrderedRing K] {d : Nat}

/-- The difference to a near node is small in every coordinate. -/
theorem near_coord {p : Fin d → K} {q : Fin d → Int} (h : near p q = true) (i : Fin d) : (p i - (q i : K)) ^ 2 < 1 / 4 := by
  have h := of_decide_eq_true h
  have h1 : (p i - (q i : K)) ^ 2 ≤ ∑ i, (p i - (q i : K)) ^ 2 := single_le_sum (f := fun i => (p i - (q i : K)) ^ 2) (fun j _ => sq_nonneg _) (mem_univ i)
  have h2 : (tol : K) ^ 2 ≤ 1 / 4 := by unfold tol; norm_num
  linarith

/-- At most one node is near. -/
theorem near_unique {p : Fin d → K} {a b : Fin d → Int} (ha : near p a = true) (hb : near p b = true) : a = b := by
  funext i
  have h1 := near_coord ha i
  have h2 := near_coord hb i
  by_contra hne
  have h3 : (1 : K) ≤ ((a i : K) - b i) ^ 2 := by
    have : (1 : Int) ≤ (a i - b i) ^ 2 := by
      have : a i - b i ≠ 0 := sub_ne_zero.2 hne
      have := sq_pos_of_ne_zero this
      omega
    have h := (Int.cast_le (R := K)).2 this
    push_cast at h
    exact h
  nlinarith [sq_nonneg ((p i - (a i : K)) + (p i - b i))]

/-- The values of the first branch that names a node. -/
def found (t : List (List (Fin d → Int) × List Rat)) (a : Fin d → Int) : Res (List Rat) :=
  match t.find? (fun b => decide (a ∈ b.1)) with
  | some b => .ok b.2
  | none => .exc .assertThrow

/-- At a node the chain of branches ends at the first one that names the node. -/
theorem lookup_node {p : Fin d → K} {a : Fin d → Int} (ha : near p a = true) (t : List (List (Fin d → Int) × List Rat)) :
    lookup p t = found t a := by
  induction t with
  | nil => rfl
  | cons b t ih =>
    have : b.1.any (near p) = decide (a ∈ b.1) := by
      rw [Bool.eq_iff_iff, decide_eq_true_iff, List.any_eq_true]
      exact ⟨fun ⟨q, h1, h2⟩ => near_unique ha h2 ▸ h1, fun h => ⟨a, h, ha⟩⟩
    unfold lookup found
    rw [this, List.find?_cons]
    cases decide (a ∈ b.1) with
    | true => rfl
    | false => exact ih

/-- Away from all points of the table the chain throws. -/
theorem lookup_none {p : Fin d → K} {t : List (List (Fin d → Int) × List Rat)} (h : ∀ b ∈ t, ∀ q ∈ b.1, near p q = false) : lookup p t = .exc .assertThrow := by
  induction t with
  | nil => rfl
  | cons b t ih =>
    have : b.1.any (near p) = false := List.any_eq_false.2 fun q hq => by rw [h b (by simp) q hq]; simp
    unfold lookup
    rw [this]
    exact ih fun b' hb' => h b' (by simp [hb'])

theorem at_near {p : Fin d → K} {a : Fin d → Nat} (h : At p a) : near p (fun i => (a i : Int)) = true := by
  unfold At at h
  unfold near tol
  simpa using h

end Verif.DebugValues
