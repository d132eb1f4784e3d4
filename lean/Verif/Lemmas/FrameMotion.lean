/-
Lemmas on forces and rotations in turned frames.
-/
import Verif.Model.Advection
import Verif.Spec.Frame
import Mathlib.Algebra.Module.Prod
import Mathlib.Algebra.Module.LinearMap.Basic
import Mathlib.Algebra.BigOperators.Group.List.Basic
import Mathlib.Tactic.Ring

set_option linter.unusedSectionVars false

namespace Verif.Frame

open Verif.Advection Verif.Frame.Spec

variable {K : Type} [Field K] [LinearOrder K]

theorem rotation2_eq (mr vol : K) (l : List ((K × K) × (K × K))) (r : K × K) :
    rotation2 mr vol (torque2 l) r = (mr * (1 / vol)) • (l.map fun p => inner2 p.2 r • p.1 - inner2 p.1 r • p.2).sum := by
  have key : ∀ t, rotation2 mr vol (l.foldl (fun t p => t + cross2 p.1 p.2) t) r =
      rotation2 mr vol t r + (mr * (1 / vol)) • (l.map fun p => inner2 p.2 r • p.1 - inner2 p.1 r • p.2).sum := by
    induction l with
    | nil => intro t; simp
    | cons p l ih =>
      intro t
      rw [List.foldl_cons, ih, List.map_cons, List.sum_cons, smul_add, ← add_assoc]
      congr 1
      unfold rotation2 cross2 inner2
      ext
      · simp only [Prod.fst_add, Prod.smul_fst, Prod.fst_sub, smul_eq_mul]
        ring
      · simp only [Prod.snd_add, Prod.smul_snd, Prod.snd_sub, smul_eq_mul]
        ring
  unfold torque2
  rw [key 0]
  have : rotation2 mr vol 0 r = 0 := by
    unfold rotation2
    ext <;> simp
  rw [this, zero_add]

theorem rotation3_eq (mr vol : K) (l : List ((K × K × K) × (K × K × K))) (r : K × K × K) :
    rotation3 mr vol (torque3 l) r = (mr * (1 / vol)) • (l.map fun p => inner3 p.1 r • p.2 - inner3 p.2 r • p.1).sum := by
  have key : ∀ t, rotation3 mr vol (l.foldl (fun t p => t + cross3 p.1 p.2) t) r =
      rotation3 mr vol t r + (mr * (1 / vol)) • (l.map fun p => inner3 p.1 r • p.2 - inner3 p.2 r • p.1).sum := by
    induction l with
    | nil => intro t; simp
    | cons p l ih =>
      intro t
      rw [List.foldl_cons, ih, List.map_cons, List.sum_cons, smul_add, ← add_assoc]
      congr 1
      unfold rotation3 cross3 inner3
      ext
      · simp only [Prod.fst_add, Prod.snd_add, Prod.smul_fst, Prod.fst_sub, smul_eq_mul]
        ring
      · simp only [Prod.fst_add, Prod.snd_add, Prod.smul_fst, Prod.smul_snd, Prod.fst_sub, Prod.snd_sub, smul_eq_mul]
        ring
      · simp only [Prod.fst_add, Prod.snd_add, Prod.smul_snd, Prod.snd_sub, smul_eq_mul]
        ring
  unfold torque3
  rw [key 0]
  have : rotation3 mr vol 0 r = 0 := by
    unfold rotation3 cross3
    ext <;> simp
  rw [this, zero_add]

variable {V W : Type} [AddCommGroup V] [Module K V] [AddCommGroup W] [Module K W]

theorem sum_map (Q : V →ₗ[K] W) {α : Type} (l : List α) (f : α → V) : (l.map fun a => Q (f a)).sum = Q (l.map f).sum := by
  induction l with
  | nil => exact (map_zero Q).symm
  | cons a l ih => rw [List.map_cons, List.sum_cons, ih, List.map_cons, List.sum_cons, map_add]

theorem forceOn_map (Q : V →ₗ[K] W) (k cgb ceq : K) (smooth : Option (K → K)) (c : K) (gs : List (Option (K × V))) (ig : Nat) :
    forceOn k cgb ceq smooth c (gs.map fun o => o.map fun g => (g.1, Q g.2)) ig = Q (forceOn k cgb ceq smooth c gs ig) := by
  have pf : ∀ i j : K × V, pairForce k cgb ceq smooth c (i.1, Q i.2) (j.1, Q j.2) = Q (pairForce k cgb ceq smooth c i j) := by
    intro i j
    unfold pairForce
    simp only [map_smul, map_sub]
  unfold forceOn
  rw [List.getElem?_map]
  cases h : gs[ig]? with
  | none => exact (map_zero Q).symm
  | some o =>
    cases o with
    | none => exact (map_zero Q).symm
    | some i =>
      simp only [Option.map_some]
      have ez : (gs.map fun o => o.map fun g : K × V => (g.1, Q g.2)).zipIdx = gs.zipIdx.map fun p => (p.1.map fun g : K × V => (g.1, Q g.2), p.2) := by
        rw [List.zipIdx_map]
        rfl
      rw [ez, List.foldl_map]
      generalize gs.zipIdx = l
      have key : ∀ (l : List (Option (K × V) × Nat)) (a : V),
          l.foldl (fun f p => match p.1.map fun g : K × V => (g.1, Q g.2) with
            | some j => if ig ≠ p.2 then f + pairForce k cgb ceq smooth c (i.1, Q i.2) j else f
            | none => f) (Q a) =
          Q (l.foldl (fun f p => match p.1 with
            | some j => if ig ≠ p.2 then f + pairForce k cgb ceq smooth c i j else f
            | none => f) a) := by
        intro l
        induction l with
        | nil => exact fun _ => rfl
        | cons p l ih =>
          intro a
          rw [List.foldl_cons, List.foldl_cons, ← ih]
          congr 1
          obtain ⟨o, m⟩ := p
          cases o with
          | none => rfl
          | some j =>
            simp only [Option.map_some]
            split
            · rw [pf, map_add]
            · rfl
      have := key l 0
      rw [map_zero] at this
      exact this

end Verif.Frame
