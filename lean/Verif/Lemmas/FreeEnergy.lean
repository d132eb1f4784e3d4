/-
Closed forms of the loops of the free energy.
-/
import Verif.Model.FreeEnergy
import Mathlib.Algebra.BigOperators.Group.List.Basic
import Mathlib.Tactic.Ring

namespace Verif.FreeEnergy

theorem foldl_psum {K : Type} [Field K] (p : Nat) (l : List K) (a : K) :
    l.foldl (fun a b => a + b ^ p) a = a + (l.map (· ^ p)).sum := by
  induction l generalizing a with
  | nil => simp
  | cons x l ih => simp [ih, add_assoc]

theorem powerSum_eq {K : Type} [Field K] (p : Nat) (l : List K) :
    powerSum p l = (l.map (· ^ p)).sum := by
  simp [powerSum, foldl_psum]

theorem readEtas_ok {K : Type} (a b : K) (etas rest : List K) (n : Nat) (hn : n ≤ etas.length) :
    readEtas (a :: b :: (etas ++ rest)) n = .ok (etas.take n) := by
  induction n with
  | zero => simp [readEtas]
  | succ n ih =>
    have h : (a :: b :: (etas ++ rest))[2 + n]? = some etas[n] := by
      rw [Nat.add_comm]
      simp [List.getElem?_append, show n < etas.length from hn]
    rw [readEtas, ih (by omega)]
    simp only [Res.ok_bind, h]
    rw [List.take_add_one]
    simp [show n < etas.length from hn]

/-- The evaluator reads the concentration and the order parameters from the state and ignores the chemical
potential and everything behind the order parameters. -/
theorem eval_ok {K : Type} [Field K] (with3 : Bool) (A B c mu : K) (etas rest : List K) :
    eval with3 A B (c :: mu :: (etas ++ rest)) etas.length =
      .ok { A := A, B := B, c := c, p2 := (etas.map (· ^ 2)).sum,
            p3 := if with3 then some ((etas.map (· ^ 3)).sum) else none } := by
  simp [eval, readEtas_ok, powerSum_eq]

theorem dotFrom_eq {K : Type} [Field K] (a : K) (l : List (K × K)) :
    dotFrom a l = a + (l.map fun p => p.1 * p.2).sum := by
  induction l generalizing a with
  | nil => simp [dotFrom]
  | cons p l ih =>
    rcases p with ⟨e, v⟩
    simp [dotFrom, ih, add_assoc]

theorem applyD2f_eq {K : Type} [Field K] (B L : K) (l : List (K × K × K)) :
    applyD2f B L l =
      l.map fun t => t.2.2 + (L * 24 * B) * t.1 * ((l.map fun t => t.1 * t.2.1).sum - t.1 * t.2.1) := by
  rcases l with _ | ⟨⟨e0, v0, r0⟩, l⟩
  · simp [applyD2f]
  by_cases h1 : l = []
  · subst h1
    simp [applyD2f]
  · have h2 : ¬ ((e0, v0, r0) :: l).length ≤ 1 := by
      cases l with
      | nil => exact absurd rfl h1
      | cons _ _ => simp
    have hdot : dotFrom (e0 * v0) (l.map fun t => (t.1, t.2.1)) =
        ((((e0, v0, r0) :: l).map fun t => t.1 * t.2.1)).sum := by
      rw [dotFrom_eq]; simp [Function.comp_def]
    simp only [applyD2f, if_neg h2, hdot]

end Verif.FreeEnergy
