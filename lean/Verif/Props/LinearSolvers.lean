/-
C91: linear solvers: fallback from Bicgstab to GMRES, limits and numbers of steps, selection.
-/
import Verif.Model.LinearSolvers

namespace Verif.Props

open Verif.LinearSolvers

variable {X : Type}

/-- **C91** (result).  A reported solution is one that Bicgstab found from the first guess within its own limit, or that GMRES found from
the same first guess within the limit of the control after Bicgstab had failed. -/
theorem C91_result (bicg gmres : Solver X) (maxBicg : Nat) (c c' : Control) (dst x : X) (n : Nat)
    (h : bicgstab bicg gmres maxBicg c dst = (c', .solved x n)) :
    (bicg maxBicg dst = .converged x n ∧ c'.lastStep = n) ∨
    (∃ y k m, bicg maxBicg dst = .noConvergence y k ∧ gmres c.maxSteps dst = .converged x m ∧ n = m + maxBicg ∧ c'.lastStep = m) := by
  unfold bicgstab at h
  rcases hb : bicg maxBicg dst with ⟨y, k⟩ | ⟨y, k⟩ | _
  · simp only [hb, Prod.mk.injEq, Outcome.solved.injEq] at h
    obtain ⟨rfl, rfl, rfl⟩ := h
    exact Or.inl ⟨rfl, rfl⟩
  · simp only [hb] at h
    rcases hg : gmres c.maxSteps dst with ⟨z, m⟩ | ⟨z, m⟩ | _
    · simp only [hg, Prod.mk.injEq, Outcome.solved.injEq] at h
      obtain ⟨rfl, rfl, rfl⟩ := h
      exact Or.inr ⟨y, k, m, rfl, rfl, rfl, rfl⟩
    · simp [hg] at h
    · simp [hg] at h
  · simp [hb] at h

/-- **C91** (fallback).  No solution that one of the two solvers would find is lost. -/
theorem C91_fallback (bicg gmres : Solver X) (maxBicg : Nat) (c : Control) (dst : X)
    (h : (∃ x n, bicg maxBicg dst = .converged x n) ∨
      ((∃ y k, bicg maxBicg dst = .noConvergence y k) ∧ ∃ x n, gmres c.maxSteps dst = .converged x n)) :
    ∃ c' x n, bicgstab bicg gmres maxBicg c dst = (c', .solved x n) := by
  unfold bicgstab
  rcases h with ⟨x, n, h⟩ | ⟨⟨y, k, h⟩, x, n, hg⟩
  · rw [h]
    exact ⟨_, _, _, rfl⟩
  · rw [h]
    simp only [hg]
    exact ⟨_, _, _, rfl⟩

/-- **C91** (limit), partial.  The limit of the control is as before unless Bicgstab ends with another exception.  Missing: other
exceptions (`C91_limit_violated`). -/
theorem C91_limit_partial (bicg gmres : Solver X) (maxBicg : Nat) (c : Control) (dst : X) (h : bicg maxBicg dst ≠ .other) :
    (bicgstab bicg gmres maxBicg c dst).1.maxSteps = c.maxSteps := by
  unfold bicgstab
  rcases hb : bicg maxBicg dst with ⟨y, k⟩ | ⟨y, k⟩ | _
  · rfl
  · simp only
    rcases gmres c.maxSteps dst with ⟨z, m⟩ | ⟨z, m⟩ | _ <;> rfl
  · exact absurd hb h

/-- **C91** violated (limit).  After another exception in Bicgstab the control keeps the limit of Bicgstab. -/
theorem C91_limit_violated (bicg gmres : Solver X) (maxBicg : Nat) (c : Control) (dst : X) (h : bicg maxBicg dst = .other)
    (hne : maxBicg ≠ c.maxSteps) : (bicgstab bicg gmres maxBicg c dst).1.maxSteps ≠ c.maxSteps := by
  unfold bicgstab
  rw [h]
  exact hne

/-- Specification: steps made by both solvers. -/
def stepsMade (bicg gmres : Solver X) (maxBicg : Nat) (c : Control) (dst : X) : Nat :=
  match bicg maxBicg dst with
  | .converged _ n => n
  | .other => 0
  | .noConvergence _ k =>
    match gmres c.maxSteps dst with
    | .converged _ m => k + m
    | .noConvergence _ m => k + m
    | .other => k

/-- **C91** (number of steps).  If no run exceeds its limit, the number reported is at least the number of steps made, and equal if
Bicgstab converges or uses all its steps. -/
theorem C91_steps_partial (bicg gmres : Solver X) (maxBicg : Nat) (c c' : Control) (dst x : X) (n : Nat)
    (hlim : ∀ y k, bicg maxBicg dst = .noConvergence y k → k ≤ maxBicg)
    (h : bicgstab bicg gmres maxBicg c dst = (c', .solved x n)) :
    stepsMade bicg gmres maxBicg c dst ≤ n ∧
      ((∀ y k, bicg maxBicg dst = .noConvergence y k → k = maxBicg) → n = stepsMade bicg gmres maxBicg c dst) := by
  unfold stepsMade
  rcases C91_result bicg gmres maxBicg c c' dst x n h with ⟨hb, _⟩ | ⟨y, k, m, hb, hg, hn, _⟩
  · rw [hb]
    exact ⟨Nat.le_refl _, fun _ => rfl⟩
  · have h1 := hlim y k hb
    have h2 : (∀ y k, bicg maxBicg dst = .noConvergence y k → k = maxBicg) → k = maxBicg := fun he => he y k hb
    refine ⟨?_, fun he => ?_⟩
    · simp only [hb, hg]
      omega
    · have := h2 he
      simp only [hb, hg]
      omega

/-- **C91** violated (number of steps).  If Bicgstab gives up early, too many steps are reported. -/
theorem C91_steps_violated (bicg gmres : Solver X) (maxBicg : Nat) (c : Control) (dst x y : X) (k m : Nat)
    (hb : bicg maxBicg dst = .noConvergence y k) (hk : k < maxBicg) (hg : gmres c.maxSteps dst = .converged x m) :
    ∃ c' n, bicgstab bicg gmres maxBicg c dst = (c', .solved x n) ∧ stepsMade bicg gmres maxBicg c dst < n := by
  refine ⟨{ maxSteps := c.maxSteps, lastStep := m }, m + maxBicg, ?_, ?_⟩
  · unfold bicgstab
    simp only [hb, hg]
  · unfold stepsMade
    simp only [hb, hg]
    omega

/-- **C91** (single solvers).  They report solution, number of steps and failure of the run and keep the limit. -/
theorem C91_plain (run : Solver X) (c : Control) (dst : X) :
    (plain run c dst).1.maxSteps = c.maxSteps ∧
      (∀ x n, (plain run c dst).2 = .solved x n ↔ run c.maxSteps dst = .converged x n) := by
  unfold plain
  rcases run c.maxSteps dst with ⟨y, k⟩ | ⟨y, k⟩ | _ <;> simp

/-- **C91** (selection).  Exactly the labels of the list are known; "Direct" only with the nonlinear operator.  There is no label for CG. -/
theorem C91_labels (label : String) :
    ((∃ k, createKind label = .ok k) ↔ label ∈ ["GMRES", "Relaxation", "IDR", "Bicgstab"]) ∧
    ((∃ k, createKindDirect label = .ok k) ↔ label ∈ ["GMRES", "Relaxation", "IDR", "Bicgstab", "Direct"]) ∧
    (label ∉ ["GMRES", "Relaxation", "IDR", "Bicgstab", "Direct"] → createKindDirect label = .exc .assertThrow) := by
  unfold createKindDirect createKind
  by_cases h1 : label = "GMRES"
  · subst h1; simp
  by_cases h2 : label = "Relaxation"
  · subst h2; simp
  by_cases h3 : label = "IDR"
  · subst h3; simp
  by_cases h4 : label = "Bicgstab"
  · subst h4; simp
  by_cases h5 : label = "Direct"
  · subst h5; simp
  simp [h1, h2, h3, h4, h5]

/-- **C91** (selection).  Each label gives its own solver. -/
theorem C91_kinds : createKindDirect "GMRES" = .ok .gmres ∧ createKindDirect "Relaxation" = .ok .relaxation ∧
    createKindDirect "IDR" = .ok .idr ∧ createKindDirect "Bicgstab" = .ok .bicgstab ∧ createKindDirect "Direct" = .ok .direct := by
  decide

/-- **C91** (selection).  The two methods of Gram-Schmidt have one name each, any other name is refused. -/
theorem C91_orthogonalization (s : String) :
    (orthogonalization s = .ok true ↔ s = "classical gram schmidt") ∧ (orthogonalization s = .ok false ↔ s = "modified gram schmidt") ∧
    (s ≠ "classical gram schmidt" → s ≠ "modified gram schmidt" → orthogonalization s = .exc .assertThrow) := by
  unfold orthogonalization
  by_cases h1 : s = "classical gram schmidt"
  · subst h1; simp
  by_cases h2 : s = "modified gram schmidt"
  · subst h2; simp
  simp [h1, h2]

namespace Ex91

/-- Bicgstab gives up after 3 of 10 steps, GMRES needs 20. -/
def bicg : Solver Nat := fun _ _ => .noConvergence 99 3
def gmres : Solver Nat := fun _ x => .converged (x + 1) 20

example : bicgstab bicg gmres 10 ⟨100, 0⟩ 5 = (⟨100, 20⟩, .solved 6 30) ∧ stepsMade bicg gmres 10 ⟨100, 0⟩ 5 = 23 := by decide

example : ∃ c' n, bicgstab bicg gmres 10 ⟨100, 0⟩ 5 = (c', .solved 6 n) ∧ stepsMade bicg gmres 10 ⟨100, 0⟩ 5 < n :=
  C91_steps_violated bicg gmres 10 ⟨100, 0⟩ 5 6 99 3 20 rfl (by omega) rfl

example : (bicgstab (fun _ _ => End.other) gmres 10 ⟨100, 0⟩ 5).1.maxSteps = 10 := rfl

example : (bicgstab (fun _ _ => End.other) gmres 10 ⟨100, 0⟩ 5).1.maxSteps ≠ 100 :=
  C91_limit_violated _ gmres 10 ⟨100, 0⟩ 5 rfl (by decide)

end Ex91

end Verif.Props
