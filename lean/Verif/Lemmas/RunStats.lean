import Verif.Spec.RunStats

set_option linter.unusedSectionVars false

namespace Verif.RunStats

open Verif.Spec.RunStats

/-- linear iterations that are counted -/
def counted : Work → Nat
  | .linear n true => n
  | _ => 0

theorem stat_fold (l : List Work) (s : Stat) :
    (l.foldl Stat.after s).linear = s.linear + total counted l ∧
    (l.foldl Stat.after s).residual = s.residual + total residualDone l := by
  induction l generalizing s with
  | nil => simp [total]
  | cons w l ih =>
    rw [List.foldl_cons]
    obtain ⟨h1, h2⟩ := ih (s.after w)
    rw [h1, h2]
    simp only [total, List.map_cons, List.sum_cons]
    cases w with
    | residual => simp [Stat.after, counted, residualDone]; omega
    | check n => simp [Stat.after, counted, residualDone]
    | linear n b => cases b <;> simp [Stat.after, counted, residualDone]; omega
    | external n b => cases b <;> simp [Stat.after, counted, residualDone]

theorem counted_all (l : List Work) (h : AllConverged l) : total counted l = total linearDone l := by
  unfold total
  congr 1
  refine List.map_congr_left fun w hw => ?_
  cases w with
  | linear n b =>
    cases b with
    | true => rfl
    | false => exact absurd rfl (h _ hw n)
  | _ => rfl

variable {K : Type} [Field K] [LinearOrder K]

theorem run_totals (as : List (Attempt K)) (c : Totals K) :
    (run c as).steps = c.steps + (good as).length ∧ (run c as).failed = c.failed + (bad as).length ∧
    (run c as).linear = c.linear + ((good as).map fun a => total counted a.work).sum ∧
    (run c as).failedLinear = c.failedLinear + ((bad as).map fun a => total counted a.work).sum ∧
    (run c as).residual = c.residual + ((good as).map fun a => total residualDone a.work).sum ∧
    (run c as).failedResidual = c.failedResidual + ((bad as).map fun a => total residualDone a.work).sum ∧
    (run c as).newton = c.newton + ((good as).map fun a => (a.work.foldl Stat.after Stat.clear).newton).sum ∧
    (run c as).failedNewton = c.failedNewton + ((bad as).map fun a => (a.work.foldl Stat.after Stat.clear).newton).sum := by
  induction as generalizing c with
  | nil => simp [run, good, bad]
  | cons a as ih =>
    have hrun : run c (a :: as) = run (attempt c a) as := rfl
    rw [hrun]
    obtain ⟨s1, s2⟩ := stat_fold a.work Stat.clear
    have z1 : Stat.clear.linear = 0 := rfl
    have z2 : Stat.clear.residual = 0 := rfl
    rw [z1, Nat.zero_add] at s1
    rw [z2, Nat.zero_add] at s2
    obtain ⟨h1, h2, h3, h4, h5, h6, h7, h8⟩ := ih (attempt c a)
    rw [h1, h2, h3, h4, h5, h6, h7, h8]
    cases he : a.ending with
    | accepted =>
      have g : good (a :: as) = a :: good as := by simp [good, he]
      have b : bad (a :: as) = bad as := by simp [bad, he]
      rw [g, b]
      simp only [attempt, he, Totals.accept, List.map_cons, List.sum_cons, List.length_cons, s1, s2]
      clear ih h1 h2 h3 h4 h5 h6 h7 h8
      and_intros <;> first | trivial | omega
    | failed =>
      have g : good (a :: as) = good as := by simp [good, he]
      have b : bad (a :: as) = a :: bad as := by simp [bad, he]
      rw [g, b]
      simp only [attempt, he, Totals.fail, List.map_cons, List.sum_cons, List.length_cons, s1, s2]
      clear ih h1 h2 h3 h4 h5 h6 h7 h8
      and_intros <;> first | trivial | omega
    | late =>
      have g : good (a :: as) = a :: good as := by simp [good, he]
      have b : bad (a :: as) = a :: bad as := by simp [bad, he]
      rw [g, b]
      simp only [attempt, he, Totals.fail, Totals.accept, List.map_cons, List.sum_cons, List.length_cons, s1, s2]
      clear ih h1 h2 h3 h4 h5 h6 h7 h8
      and_intros <;> first | trivial | omega

theorem run_max (as : List (Attempt K)) (c : Totals K) :
    (run c as).maxDt = (good as).foldl (fun m a => max m a.dt) c.maxDt := by
  induction as generalizing c with
  | nil => rfl
  | cons a as ih =>
    have hrun : run c (a :: as) = run (attempt c a) as := rfl
    rw [hrun, ih]
    cases he : a.ending with
    | accepted =>
      have g : good (a :: as) = a :: good as := by simp [good, he]
      rw [g, List.foldl_cons, attempt, he]; rfl
    | failed =>
      have g : good (a :: as) = good as := by simp [good, he]
      rw [g, attempt, he]; rfl
    | late =>
      have g : good (a :: as) = a :: good as := by simp [good, he]
      rw [g, List.foldl_cons, attempt, he]; rfl

theorem fold_max (l : List (Attempt K)) (m : K) :
    m ≤ l.foldl (fun m a => max m a.dt) m ∧ (∀ a ∈ l, a.dt ≤ l.foldl (fun m a => max m a.dt) m) ∧
      (l.foldl (fun m a => max m a.dt) m = m ∨ ∃ a ∈ l, l.foldl (fun m a => max m a.dt) m = a.dt) := by
  induction l generalizing m with
  | nil => simp
  | cons a l ih =>
    rw [List.foldl_cons]
    obtain ⟨h1, h2, h3⟩ := ih (max m a.dt)
    refine ⟨le_trans (le_max_left _ _) h1, ?_, ?_⟩
    · intro b hb
      rcases List.mem_cons.1 hb with rfl | hb
      · exact le_trans (le_max_right _ _) h1
      · exact h2 b hb
    · rcases h3 with h3 | ⟨b, hb, h3⟩
      · rw [h3]
        rcases max_choice m a.dt with h | h
        · exact .inl h
        · exact .inr ⟨a, by simp, h⟩
      · exact .inr ⟨b, List.mem_cons_of_mem _ hb, h3⟩

theorem newton_replicate (k : Nat) (s : Stat) : ((List.replicate k Work.residual).foldl Stat.after s).newton = s.newton := by
  induction k generalizing s with
  | zero => rfl
  | succ k ih => rw [List.replicate_succ, List.foldl_cons, ih]; rfl

theorem newton_fold (its : List (Nat × Nat)) (k : Nat) (s : Stat) (hs : s.newton = k) :
    (((its.zipIdx k).flatMap fun p =>
      Work.linear p.1.1 true :: List.replicate p.1.2 .residual ++ [.check (p.2 + 1)]).foldl Stat.after s).newton
      = k + its.length := by
  induction its generalizing k s with
  | nil => simpa using hs
  | cons p its ih =>
    rw [List.zipIdx_cons, List.flatMap_cons, List.foldl_append]
    rw [ih (k + 1)]
    · simp; omega
    · rw [List.foldl_append]; rfl

end Verif.RunStats
