import Verif.Model.Inverse
/-! Helper lemmas for the segment numbering. -/
namespace Verif

def InvOk (pre : List (Option Nat × Nat)) (st : OMap (OMap Nat) × Nat) : Prop :=
  OMap.Sorted st.1 ∧ (∀ k inner, st.1.get? k = some inner → OMap.Sorted inner) ∧
  st.2 = pre.length ∧
  ∀ (i : Nat) (e : Option Nat × Nat), pre[i]? = some e → (∀ j, i < j → ∀ e', pre[j]? = some e' →
      ¬ (gridKey e'.1 = gridKey e.1 ∧ e'.2 = e.2)) →
    segmentIndex st.1 (gridKey e.1) e.2 = .ok i

theorem inverseStep_ok {pre : List (Option Nat × Nat)} {st : OMap (OMap Nat) × Nat} (h : InvOk pre st)
    (e : Option Nat × Nat) : InvOk (pre ++ [e]) (inverseStep st e) := by
  obtain ⟨h1, h2, h3, h4⟩ := h
  have hin : OMap.Sorted ((st.1.get? (gridKey e.1)).getD []) := by
    cases hg : st.1.get? (gridKey e.1) with
    | none => exact OMap.sorted_nil
    | some inner => exact h2 _ _ hg
  have hget := fun k => OMap.get?_set (k := gridKey e.1)
    (v := ((st.1.get? (gridKey e.1)).getD []).set e.2 st.2) h1 k
  refine ⟨OMap.sorted_set h1, ?_, by simp [inverseStep, h3], ?_⟩
  · intro k inner hk
    simp only [inverseStep] at hk
    rw [hget] at hk
    split at hk
    · simp at hk; subst hk; exact OMap.sorted_set hin
    · exact h2 _ _ hk
  · intro i e' hi hlast
    rcases Nat.lt_trichotomy i pre.length with hlt | heq | hgt
    · rw [List.getElem?_append_left hlt] at hi
      have hne := hlast pre.length hlt e (by simp)
      have hold := h4 i e' hi (by
        intro j hj e'' he''
        exact hlast j hj e'' (by
          rw [List.getElem?_append_left]
          · exact he''
          · exact (List.getElem?_eq_some_iff.1 he'').1))
      unfold segmentIndex at hold ⊢
      simp only [inverseStep]
      rw [hget]
      by_cases hk : gridKey e'.1 = gridKey e.1
      · have hs : e.2 ≠ e'.2 := fun hs => hne ⟨hk.symm, hs⟩
        rw [if_pos hk]
        simp only [Res.at?_some, Res.ok_bind]
        rw [OMap.get?_set hin, if_neg (Ne.symm hs)]
        rw [hk] at hold
        cases hg : st.1.get? (gridKey e.1) with
        | none => rw [hg] at hold; simp at hold
        | some inner => rw [hg] at hold; simpa using hold
      · rw [if_neg hk]; exact hold
    · subst heq
      simp at hi; subst hi
      unfold segmentIndex
      simp only [inverseStep]
      rw [hget, if_pos rfl]
      simp only [Res.at?_some, Res.ok_bind]
      rw [OMap.get?_set hin, if_pos rfl, h3]; rfl
    · rw [List.getElem?_eq_none (by simp; omega)] at hi; simp at hi

theorem buildInverse_ok (lookup : Lookup) : InvOk lookup.flatten (buildInverse lookup) := by
  have e : buildInverse lookup = lookup.flatten.foldl inverseStep ([], 0) := by
    unfold buildInverse
    rw [List.foldl_flatten]
  rw [e]
  suffices H : ∀ (l pre : List (Option Nat × Nat)) (st : OMap (OMap Nat) × Nat), InvOk pre st →
      InvOk (pre ++ l) (l.foldl inverseStep st) by
    simpa using H lookup.flatten [] ([], 0) ⟨OMap.sorted_nil, by simp, rfl, by simp⟩
  intro l
  induction l with
  | nil => intro pre st h; simpa using h
  | cons a l ih =>
    intro pre st h
    simpa using ih (pre ++ [a]) _ (inverseStep_ok h a)

end Verif
