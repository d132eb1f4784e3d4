/-
C160: the statistics at the end of a run.
-/
import Verif.Lemmas.RunStats
import Mathlib.Algebra.Field.Rat
import Mathlib.Algebra.Order.Ring.Rat

set_option linter.unusedSectionVars false

namespace Verif.Props

open Verif.RunStats Verif.Spec.RunStats

section
variable {K : Type} [Field K] [LinearOrder K]

/-- C160, part: if every linear solve converges, the numbers of steps, failed attempts, linear iterations and evaluations
of the residual are those of the attempts that were accepted and of those that failed, for any run, also one that
continues with the totals of an earlier one. -/
theorem C160_totals_partial (c : Totals K) (as : List (Attempt K)) (h : ∀ a ∈ as, AllConverged a.work) :
    (run c as).steps = c.steps + (good as).length ∧ (run c as).failed = c.failed + (bad as).length ∧
    (run c as).linear = c.linear + ((good as).map fun a => total linearDone a.work).sum ∧
    (run c as).failedLinear = c.failedLinear + ((bad as).map fun a => total linearDone a.work).sum ∧
    (run c as).residual = c.residual + ((good as).map fun a => total residualDone a.work).sum ∧
    (run c as).failedResidual = c.failedResidual + ((bad as).map fun a => total residualDone a.work).sum := by
  obtain ⟨h1, h2, h3, h4, h5, h6, -, -⟩ := run_totals as c
  refine ⟨h1, h2, ?_, ?_, h5, h6⟩
  · rw [h3]
    congr 2
    exact List.map_congr_left fun a ha => counted_all _ (h a (List.mem_filter.1 ha).1)
  · rw [h4]
    congr 2
    exact List.map_congr_left fun a ha => counted_all _ (h a (List.mem_filter.1 ha).1)

/-- C160, part: if moreover no exception comes after a step was accepted, accepted and failed work are all the work
done, and accepted steps and failures all the attempts. -/
theorem C160_all_partial (as : List (Attempt K)) (h : ∀ a ∈ as, AllConverged a.work) (hl : ∀ a ∈ as, a.ending ≠ .late) :
    (run Totals.init as).steps + (run Totals.init as).failed = as.length ∧
    (run Totals.init as).linear + (run Totals.init as).failedLinear = (as.map fun a => total linearDone a.work).sum ∧
    (run Totals.init as).residual + (run Totals.init as).failedResidual = (as.map fun a => total residualDone a.work).sum := by
  obtain ⟨h1, h2, h3, h4, h5, h6⟩ := C160_totals_partial (K := K) Totals.init as h
  have key : ∀ (f : Attempt K → Nat) (l : List (Attempt K)), (∀ a ∈ l, a.ending ≠ .late) →
      ((good l).map f).sum + ((bad l).map f).sum = (l.map f).sum := by
    intro f l
    induction l with
    | nil => intro _; rfl
    | cons a l ih =>
      intro hl
      have ih' := ih fun b hb => hl b (List.mem_cons_of_mem _ hb)
      have ha := hl a (by simp)
      cases he : a.ending with
      | accepted => simp [good, bad, he] at ih' ⊢; omega
      | failed => simp [good, bad, he] at ih' ⊢; omega
      | late => exact absurd he ha
  have hlen := key (fun _ => 1) as hl
  have one : ∀ l : List (Attempt K), (l.map fun _ => 1).sum = l.length := by
    intro l
    induction l with
    | nil => rfl
    | cons a l ih => rw [List.map_cons, List.sum_cons, ih, List.length_cons, Nat.add_comm]
  rw [one, one, one] at hlen
  have e1 := key (fun a => total linearDone a.work) as hl
  have e2 := key (fun a => total residualDone a.work) as hl
  have z : (Totals.init : Totals K).steps = 0 ∧ (Totals.init : Totals K).failed = 0 ∧ (Totals.init : Totals K).linear = 0 ∧
    (Totals.init : Totals K).failedLinear = 0 ∧ (Totals.init : Totals K).residual = 0 ∧
    (Totals.init : Totals K).failedResidual = 0 := ⟨rfl, rfl, rfl, rfl, rfl, rfl⟩
  omega

/-- C160: the largest step is at least as large as every accepted one and was accepted itself (or is the initial zero). -/
theorem C160_max_dt (as : List (Attempt K)) :
    (∀ a ∈ as, a.ending ≠ .failed → a.dt ≤ (run Totals.init as).maxDt) ∧
    ((run Totals.init as).maxDt = 0 ∨ ∃ a ∈ as, a.ending ≠ .failed ∧ (run Totals.init as).maxDt = a.dt) := by
  rw [run_max]
  obtain ⟨-, h2, h3⟩ := fold_max (good as) (Totals.init : Totals K).maxDt
  constructor
  · intro a ha he
    exact h2 a (List.mem_filter.2 ⟨ha, by simpa using he⟩)
  · rcases h3 with h3 | ⟨a, ha, h3⟩
    · exact .inl h3
    · obtain ⟨h4, h5⟩ := List.mem_filter.1 ha
      exact .inr ⟨a, h4, by simpa using h5, h3⟩

/-- C160: for the Newton solver of the code the number of iterations counted is the number of iterations completed,
whatever happens in the one that is not completed (no further check). -/
theorem C160_newton (its : List (Nat × Nat)) (rest : List Work)
    (hr : ∀ w ∈ rest, w = .residual ∨ ∃ n b, w = .linear n b) :
    ((newtonWork its rest).foldl Stat.after Stat.clear).newton = its.length := by
  have hrest : ∀ (l : List Work) (s : Stat), (∀ w ∈ l, w = .residual ∨ ∃ n b, w = .linear n b) →
      (l.foldl Stat.after s).newton = s.newton := by
    intro l
    induction l with
    | nil => intro s _; rfl
    | cons w l ih =>
      intro s h
      rw [List.foldl_cons, ih _ fun w hw => h w (List.mem_cons_of_mem _ hw)]
      rcases h w (by simp) with rfl | ⟨n, b, rfl⟩
      · rfl
      · cases b <;> rfl
  unfold newtonWork
  rw [List.foldl_cons, List.foldl_cons, List.foldl_append, hrest _ _ hr, newton_fold its 0 _ rfl, Nat.zero_add]

/-- C160, violated: the iterations of a linear solve that does not converge are counted nowhere, although usually these
are the most expensive ones. -/
theorem C160_linear_violation (c : Totals K) (dt : K) (its : List (Nat × Nat)) (n m : Nat) :
    attempt c ⟨dt, newtonWork its [.linear n false], .failed⟩ = attempt c ⟨dt, newtonWork its [.linear m false], .failed⟩ := by
  have : ∀ n, (newtonWork its [.linear n false]).foldl Stat.after Stat.clear
      = (newtonWork its []).foldl Stat.after Stat.clear := by
    intro n
    unfold newtonWork
    rw [List.append_nil, ← List.cons_append, ← List.cons_append, List.foldl_append]
    rfl
  unfold attempt
  dsimp only
  rw [this n, this m]

/-- C160, violated: the iterations of an external solver that fails are counted nowhere. -/
theorem C160_external_violation (c : Totals K) (dt : K) (work : List Work) (n : Nat) :
    attempt c ⟨dt, work ++ [.external n false], .failed⟩ = attempt c ⟨dt, work, .failed⟩ := by
  unfold attempt
  dsimp only
  rw [List.foldl_append]
  rfl

/-- C160, violated: if the solver of the divergences fails, the work of the step is counted as done and as failed. -/
theorem C160_late_violation (as : List (Attempt K)) (a : Attempt K) (ha : a.ending = .late)
    (h : ∀ b ∈ as, AllConverged b.work) (h' : AllConverged a.work) (hl : ∀ b ∈ as, b.ending ≠ .late) :
    (run Totals.init (as ++ [a])).steps + (run Totals.init (as ++ [a])).failed = as.length + 2 ∧
    (run Totals.init (as ++ [a])).linear + (run Totals.init (as ++ [a])).failedLinear
      = (as.map fun a => total linearDone a.work).sum + 2 * total linearDone a.work := by
  obtain ⟨h1, h2, -⟩ := C160_all_partial as h hl
  have e : run (Totals.init : Totals K) (as ++ [a]) = attempt (run Totals.init as) a := by
    unfold run; rw [List.foldl_append]; rfl
  obtain ⟨s1, -⟩ := stat_fold a.work Stat.clear
  have z1 : Stat.clear.linear = 0 := rfl
  rw [z1, Nat.zero_add, counted_all _ h'] at s1
  rw [e, attempt, ha]
  simp only [Totals.accept, Totals.fail, s1]
  omega

/-- C160: the averages printed times the number of steps and of iterations are the totals. -/
theorem C160_averages_partial [CharZero K] (c : Totals K) :
    (0 < c.steps → ∃ x, avgNewton c = some x ∧ x * (c.steps : K) = (c.newton : K)) ∧
    (0 < c.newton → ∃ x, avgLinear c = some x ∧ x * (c.newton : K) = (c.linear : K)) := by
  constructor
  · intro h
    refine ⟨_, if_neg (by omega), div_mul_cancel₀ _ ?_⟩
    exact_mod_cast (by omega : c.steps ≠ 0)
  · intro h
    refine ⟨_, if_neg (by omega), div_mul_cancel₀ _ ?_⟩
    exact_mod_cast (by omega : c.newton ≠ 0)

/-- C160, violated: without a step, e.g. if a run is restarted at its end, or if no step needs an iteration, the averages
are not numbers. -/
theorem C160_averages_violation :
    avgNewton (run (Totals.init : Totals K) []) = none ∧
    ∀ as : List (Attempt K), (∀ a ∈ as, a.work = newtonWork [] []) → avgLinear (run Totals.init as) = none := by
  refine ⟨rfl, fun as h => ?_⟩
  obtain ⟨-, -, -, -, -, -, h7, -⟩ := run_totals as (Totals.init : Totals K)
  unfold avgLinear
  rw [if_pos]
  rw [h7]
  have z : (Totals.init : Totals K).newton = 0 := rfl
  rw [z, Nat.zero_add]
  have hz : ∀ l : List (Attempt K), (∀ a ∈ l, a.work = newtonWork [] []) →
      (l.map fun a => (a.work.foldl Stat.after Stat.clear).newton).sum = 0 := by
    intro l
    induction l with
    | nil => intro _; rfl
    | cons a l ih =>
      intro h
      rw [List.map_cons, List.sum_cons, ih fun b hb => h b (List.mem_cons_of_mem _ hb), h a (by simp)]
      rfl
  exact hz _ fun a ha => h a (List.mem_filter.1 ha).1
end

namespace Ex160
/-- accepted after two iterations, failed in the second one, accepted -/
def as : List (Attempt ℚ) := [⟨1, newtonWork [(5, 1), (7, 2)] [], .accepted⟩,
  ⟨2, newtonWork [(6, 1)] [.linear 9 true, .residual], .failed⟩, ⟨1 / 2, newtonWork [(4, 1)] [], .accepted⟩]

example : run Totals.init as = ⟨2, 16, 3, 6, 1, 15, 1, 3, 1⟩ := by decide +kernel
example : ∀ a ∈ as, AllConverged a.work := by
  intro a ha w hw n h
  subst h
  simp only [as, List.mem_cons, List.not_mem_nil, or_false] at ha
  rcases ha with rfl | rfl | rfl <;> simp [newtonWork] at hw
example : ∀ a ∈ as, a.ending ≠ .late := by
  intro a ha
  simp only [as, List.mem_cons, List.not_mem_nil, or_false] at ha
  rcases ha with rfl | rfl | rfl <;> simp
example : avgNewton (run Totals.init as) = some (3 / 2) := by decide +kernel
example : run (Totals.init : Totals ℚ) [⟨1, newtonWork [(5, 1)] [], .late⟩] = ⟨1, 5, 1, 2, 1, 5, 1, 2, 1⟩ := by decide +kernel
end Ex160

end Verif.Props
