/-
Running minima.
-/
import Verif.Model.Clamp

namespace Verif.Clamp

variable {K : Type}

/-- Running minimum: the first element with the smallest key. -/
theorem nearest_fold [LinearOrder K] {α : Type} (xs : List (K × α)) (b : K × α) :
    ∃ r, xs.foldl nearestStep (some b) = some r ∧ r ∈ b :: xs ∧ ∀ x ∈ b :: xs, r.1 ≤ x.1 := by
  induction xs generalizing b with
  | nil => exact ⟨b, rfl, by simp, by simp⟩
  | cons x xs ih =>
    rw [List.foldl_cons]
    by_cases h : x.1 < b.1
    · rw [show nearestStep (some b) x = some x from if_pos h]
      obtain ⟨r, hr, hm, hl⟩ := ih x
      refine ⟨r, hr, List.mem_cons_of_mem _ hm, ?_⟩
      intro y hy
      rcases List.mem_cons.1 hy with rfl | hy
      · exact le_trans (hl x List.mem_cons_self) h.le
      · exact hl y hy
    · rw [show nearestStep (some b) x = some b from if_neg h]
      obtain ⟨r, hr, hm, hl⟩ := ih b
      refine ⟨r, hr, ?_, ?_⟩
      · rcases List.mem_cons.1 hm with rfl | hm
        · exact List.mem_cons_self
        · exact List.mem_cons_of_mem _ (List.mem_cons_of_mem _ hm)
      · intro y hy
        rcases List.mem_cons.1 hy with rfl | hy
        · exact hl y List.mem_cons_self
        · rcases List.mem_cons.1 hy with rfl | hy
          · exact le_trans (hl b List.mem_cons_self) (not_lt.1 h)
          · exact hl y (List.mem_cons_of_mem _ hy)

end Verif.Clamp
