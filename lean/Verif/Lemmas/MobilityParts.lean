/- Lemmas on the contributions to the mobility. -/
import Verif.Model.MobilityParts
import Mathlib.Analysis.Real.Sqrt
import Mathlib.Algebra.Order.BigOperators.Ring.Finset
import Mathlib.Tactic.Ring
import Mathlib.Tactic.Linarith
import Mathlib.Tactic.Positivity
import Mathlib.Tactic.Module
import Mathlib.Tactic.Abel

namespace Verif.Mobility.Parts

open Verif.Mobility

section vectors

variable {K : Type} [Field K] {d : Nat}

theorem dotp_add (a b c : Fin d → K) : dot a (b + c) = dot a b + dot a c := by
  simp [dot, dotProduct_add]
theorem dotp_sub (a b c : Fin d → K) : dot a (b - c) = dot a b - dot a c := by
  simp [dot, dotProduct_sub]
theorem dotp_smul (a b : Fin d → K) (r : K) : dot a (r • b) = r * dot a b := by
  simp [dot, dotProduct_smul]
theorem dotp_neg (a b : Fin d → K) : dot a (-b) = -dot a b := by simp [dot, dotProduct_neg]
theorem dotp_comm (a b : Fin d → K) : dot a b = dot b a := dotProduct_comm _ _

theorem app_diagonal (f : K) (v : Fin d → K) : app (diagonal f) v = f • v := by
  funext i
  simp [app, dot, dotProduct, diagonal]

theorem app_outer (a b v : Fin d → K) : app (outer a b) v = dot b v • a := by
  funext i
  simp only [app, dot, dotProduct, outer, Pi.smul_apply, smul_eq_mul, Finset.sum_mul]
  exact Finset.sum_congr rfl fun j _ => by ring

theorem app_add (A B : Mat K d) (v : Fin d → K) : app (A + B) v = app A v + app B v := by
  funext i
  simp [app, dot, add_dotProduct]

theorem app_neg (A : Mat K d) (v : Fin d → K) : app (-A) v = -app A v := by
  funext i
  simp [app, dot, neg_dotProduct]

theorem app_zero (v : Fin d → K) : app (0 : Mat K d) v = 0 := by
  funext i
  simp [app, dot]

theorem app_scale (A : Mat K d) (r : K) (v : Fin d → K) : app (fun i j => A i j * r) v = r • app A v := by
  funext i
  simp only [app, dot, dotProduct, Pi.smul_apply, smul_eq_mul, Finset.mul_sum]
  exact Finset.sum_congr rfl fun j _ => by ring

theorem app_projector (n : Fin d → K) (f s : K) (v : Fin d → K) :
    app (projector n f s) v = f • (s • v - dot n v • n) := by
  have e : projector n f s = fun i j => (diagonal s + -outer n n : Mat K d) i j * f := by
    funext i j
    simp only [projector, Pi.add_apply, Pi.neg_apply, sub_eq_add_neg]
  rw [e, app_scale, app_add, app_neg, app_diagonal, app_outer, sub_eq_add_neg]

theorem app_mul (A B : Mat K d) (v : Fin d → K) : app (mul A B) v = app A (app B v) := by
  funext i
  simp only [app, mul, dot, dotProduct, Finset.sum_mul, Finset.mul_sum]
  rw [Finset.sum_comm]
  exact Finset.sum_congr rfl fun j _ => Finset.sum_congr rfl fun k _ => by ring

theorem phiMask_eq [LinearOrder K] [IsStrictOrderedRing K] (c : K) : phiMask c = phi c := by
  unfold phiMask phi
  dsimp only
  generalize c * c * c * (10 - 15 * c + 6 * c * c) = p
  by_cases h0 : p < 0
  · rw [if_pos h0, max_eq_left h0.le, min_eq_right zero_le_one, if_neg (by simp)]
  · rw [if_neg h0, max_eq_right (not_lt.1 h0)]
    by_cases h1 : 1 < p
    · rw [if_pos h1, min_eq_left h1.le]
    · rw [if_neg h1, min_eq_right (not_lt.1 h1)]

end vectors

section sums

variable {M : Type} [AddCommGroup M]

/-- A sum over all entries but one. -/
theorem skip_sum {α : Type} (h : α → M) (i k : Nat) (l : List α) :
    ((l.zipIdx k).map fun f => if i ≠ f.2 then h f.1 else 0).sum =
      (l.map h).sum - (if k ≤ i then ((l[i - k]?).map h).getD 0 else 0) := by
  induction l generalizing k with
  | nil => simp
  | cons x l ih =>
    rw [List.zipIdx_cons, List.map_cons, List.sum_cons, ih]
    by_cases hk : i = k
    · subst hk
      simp
    · rw [if_pos hk]
      by_cases hle : k ≤ i
      · have h2 : k + 1 ≤ i := by omega
        have h3 : i - k = (i - (k + 1)) + 1 := by omega
        rw [if_pos hle, if_pos h2, h3, List.getElem?_cons_succ, List.map_cons, List.sum_cons]
        abel
      · have h2 : ¬ k + 1 ≤ i := by omega
        rw [if_neg hle, if_neg h2, List.map_cons, List.sum_cons]
        abel

/-- sum over the pairs of an entry with the entries before it -/
def pairs {α : Type} (w : α → α → M) (pre : List α) : List α → M
  | [] => 0
  | g :: r => (pre.map (w g)).sum + pairs w (pre ++ [g]) r

theorem sum_sub {α : Type} (f g : α → M) (l : List α) :
    (l.map fun x => f x - g x).sum = (l.map f).sum - (l.map g).sum := by
  induction l with
  | nil => simp
  | cons x l ih =>
    simp only [List.map_cons, List.sum_cons, ih]
    abel

theorem sum_add {α : Type} (f g : α → M) (l : List α) :
    (l.map fun x => f x + g x).sum = (l.map f).sum + (l.map g).sum := by
  induction l with
  | nil => simp
  | cons x l ih =>
    simp only [List.map_cons, List.sum_cons, ih]
    abel

/-- Twice the sum over pairs is the sum over all ordered pairs less the diagonal. -/
theorem pairs_double {α : Type} (w : α → α → M) (hw : ∀ a b, w a b = w b a) (pre l : List α) :
    pairs w pre l + pairs w pre l =
      (l.map fun g => (l.map (w g)).sum - w g g).sum + (l.map fun g => (pre.map (w g)).sum).sum +
        (l.map fun g => (pre.map (w g)).sum).sum := by
  induction l generalizing pre with
  | nil => simp [pairs]
  | cons g l ih =>
    rw [pairs]
    have := ih (pre ++ [g])
    have e1 : (l.map fun f => ((pre ++ [g]).map (w f)).sum).sum =
        (l.map fun f => (pre.map (w f)).sum).sum + (l.map (w g)).sum := by
      rw [← sum_add]
      refine congrArg List.sum (List.map_congr_left fun f _ => ?_)
      simp [hw f g]
    have e2 : (l.map fun f => ((g :: l).map (w f)).sum - w f f).sum =
        (l.map fun f => (l.map (w f)).sum - w f f).sum + (l.map (w g)).sum := by
      rw [← sum_add]
      refine congrArg List.sum (List.map_congr_left fun f _ => ?_)
      rw [List.map_cons, List.sum_cons, hw f g]
      abel
    simp only [List.map_cons, List.sum_cons] at e2 ⊢
    rw [e2]
    rw [e1] at this
    have e3 : (pre.map (w g)).sum + pairs w (pre ++ [g]) l + ((pre.map (w g)).sum + pairs w (pre ++ [g]) l) =
        ((pre.map (w g)).sum + (pre.map (w g)).sum) +
          (pairs w (pre ++ [g]) l + pairs w (pre ++ [g]) l) := by abel
    rw [e3, this]
    abel

/-- As `pairs_double` for a weight that is made symmetric. -/
theorem pairs_both {α : Type} (a : α → α → M) (pre l : List α) :
    pairs (fun g f => a g f + a f g) pre l =
      (l.map fun g => (l.map (a g)).sum - a g g).sum + (l.map fun g => (pre.map fun f => a g f + a f g).sum).sum := by
  induction l generalizing pre with
  | nil => simp [pairs]
  | cons g l ih =>
    rw [pairs, ih]
    have e1 : (l.map fun f => ((pre ++ [g]).map fun h => a f h + a h f).sum).sum =
        (l.map fun f => (pre.map fun h => a f h + a h f).sum).sum + ((l.map fun f => a f g).sum + (l.map (a g)).sum) := by
      rw [← sum_add, ← sum_add]
      refine congrArg List.sum (List.map_congr_left fun f _ => ?_)
      simp
    have e2 : (l.map fun f => ((g :: l).map (a f)).sum - a f f).sum =
        (l.map fun f => (l.map (a f)).sum - a f f).sum + (l.map fun f => a f g).sum := by
      rw [← sum_add]
      refine congrArg List.sum (List.map_congr_left fun f _ => ?_)
      rw [List.map_cons, List.sum_cons]
      abel
    simp only [List.map_cons, List.sum_cons] at e2 ⊢
    rw [e2, e1]
    abel

theorem pairs_add {α : Type} (u v : α → α → M) (pre l : List α) :
    pairs (fun g f => u g f + v g f) pre l = pairs u pre l + pairs v pre l := by
  induction l generalizing pre with
  | nil => simp [pairs]
  | cons g l ih =>
    rw [pairs, pairs, pairs, ih, sum_add]
    abel

theorem pairs_map {α β : Type} (w : β → β → M) (h : α → β) (pre l : List α) :
    pairs (fun g f => w (h g) (h f)) pre l = pairs w (pre.map h) (l.map h) := by
  induction l generalizing pre with
  | nil => rfl
  | cons g l ih =>
    rw [List.map_cons, pairs, pairs, ih, List.map_map, List.map_append]
    rfl

theorem pairs_congr {α : Type} (u v : α → α → M) (h : ∀ g f, u g f = v g f) (pre l : List α) :
    pairs u pre l = pairs v pre l := by
  have : u = v := by funext g f; exact h g f
  rw [this]

end sums

end Verif.Mobility.Parts
