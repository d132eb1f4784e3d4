import Verif.Lemmas.BlockVector
import Mathlib.Algebra.BigOperators.Group.List.Basic
import Mathlib.Algebra.Order.Field.Basic
/-! # Lemmas on the arithmetic of block vectors -/
namespace Verif
namespace DBV
variable {K : Type} [Field K]

theorem foldl_add_sum {A : Type} (f : A → K) (l : List A) (r : K) :
    l.foldl (fun r x => r + f x) r = r + (l.map f).sum := by
  induction l generalizing r with
  | nil => simp
  | cons a l ih => rw [List.foldl_cons, ih, List.map_cons, List.sum_cons, add_assoc]

theorem dotV_append (a b c d : List K) (h : a.length = c.length) :
    dotV (a ++ b) (c ++ d) = dotV a c + dotV b d := by
  unfold dotV
  rw [List.zipWith_append h, List.sum_append]

/-- loops over the blocks of two vectors with matching layout -/
theorem dot_loop (v w : List (List K)) (pre : List (List K)) (r : K)
    (h : v.map List.length = w.map List.length) :
    (v.zipIdx pre.length).foldlM (fun r p => do
      let y ← Res.index (pre ++ w) p.2
      pure (r + dotV p.1 y)) r = .ok (r + dotV v.flatten w.flatten) := by
  induction v generalizing w pre r with
  | nil =>
    cases w with
    | nil => simp [dotV]
    | cons y w => simp at h
  | cons x v ih =>
    cases w with
    | nil => simp at h
    | cons y w =>
      simp only [List.map_cons, List.cons.injEq] at h
      have hi : Res.index (pre ++ y :: w) pre.length = .ok y := by
        rw [Res.index, List.getElem?_append_right (by omega)]; simp
      rw [List.zipIdx_cons, List.foldlM_cons]
      simp only [hi, Res.ok_bind, Res.pure_def]
      have := ih w (pre ++ [y]) (r + dotV x y) h.2
      simp only [List.length_append, List.length_singleton, List.append_assoc,
        List.singleton_append, Res.pure_def] at this
      rw [this, List.flatten_cons, List.flatten_cons, dotV_append _ _ _ _ h.1]
      rw [add_assoc]

theorem sadd_loop (s a : K) (v w : List (List K)) (pre : List (List K))
    (h : v.map List.length = w.map List.length) :
    ∃ l, (v.zipIdx pre.length).mapM (fun p => do
      let y ← Res.index (pre ++ w) p.2
      pure (saddV s a p.1 y)) = .ok l ∧ l.map List.length = v.map List.length ∧
      l.flatten = saddV s a v.flatten w.flatten := by
  induction v generalizing w pre with
  | nil =>
    cases w with
    | nil => exact ⟨[], by simp [saddV]⟩
    | cons y w => simp at h
  | cons x v ih =>
    cases w with
    | nil => simp at h
    | cons y w =>
      simp only [List.map_cons, List.cons.injEq] at h
      have hi : Res.index (pre ++ y :: w) pre.length = .ok y := by
        rw [Res.index, List.getElem?_append_right (by omega)]; simp
      obtain ⟨l, h1, h2, h3⟩ := ih w (pre ++ [y]) h.2
      simp only [List.length_append, List.length_singleton, List.append_assoc,
        List.singleton_append] at h1
      refine ⟨saddV s a x y :: l, ?_, ?_, ?_⟩
      · rw [List.zipIdx_cons, List.mapM_cons]
        simp only [hi, Res.ok_bind, Res.pure_def] at h1 ⊢
        rw [h1]; rfl
      · rw [List.map_cons, List.map_cons, h2]
        congr 1
        simp [saddV, h.1]
      · rw [List.flatten_cons, List.flatten_cons, List.flatten_cons, h3]
        unfold saddV
        rw [List.zipWith_append h.1]

theorem dotV_flatten (v : List (List K)) :
    dotV v.flatten v.flatten = (v.map fun x => dotV x x).sum := by
  induction v with
  | nil => simp [dotV]
  | cons x v ih => rw [List.flatten_cons, dotV_append _ _ _ _ rfl, ih, List.map_cons, List.sum_cons]

theorem sum_flatten_map (v : List (List K)) (f : K → K) :
    (v.flatten.map f).sum = (v.map fun x => (x.map f).sum).sum := by
  induction v with
  | nil => simp
  | cons x v ih => rw [List.flatten_cons, List.map_append, List.sum_append, ih, List.map_cons, List.sum_cons]

variable [LinearOrder K] [IsStrictOrderedRing K]

omit [IsStrictOrderedRing K] in
theorem linftyV_from (x : List K) (r : K) (hr : 0 ≤ r) :
    x.foldl (fun r a => max r |a|) r = max r (linftyV x) := by
  unfold linftyV
  have key : ∀ (x : List K) (r s : K), x.foldl (fun r a => max r |a|) (max r s) =
      max r (x.foldl (fun r a => max r |a|) s) := by
    intro x
    induction x with
    | nil => intro r s; rfl
    | cons a x ih => intro r s; rw [List.foldl_cons, List.foldl_cons, max_assoc, ih]
  have := key x r 0
  rwa [max_eq_left hr] at this

omit [IsStrictOrderedRing K] in
theorem linftyV_nonneg (x : List K) : 0 ≤ linftyV x := by
  have := linftyV_from x 0 le_rfl
  unfold linftyV at *
  rw [this]; exact le_max_left _ _

omit [IsStrictOrderedRing K] in
theorem linfty_flatten (v : List (List K)) (r : K) (hr : 0 ≤ r) :
    v.foldl (fun r x => max r (linftyV x)) r = max r (linftyV v.flatten) := by
  induction v generalizing r with
  | nil => simp [linftyV, max_eq_left hr]
  | cons x v ih =>
    rw [List.foldl_cons, ih _ (le_trans hr (le_max_left _ _)), List.flatten_cons]
    have : linftyV (x ++ v.flatten) = max (linftyV x) (linftyV v.flatten) := by
      conv_lhs => unfold linftyV
      rw [List.foldl_append]
      exact linftyV_from _ _ (linftyV_nonneg x)
    rw [this, max_assoc]

omit [IsStrictOrderedRing K] in
theorem linftyV_spec (x : List K) :
    (∀ a ∈ x, |a| ≤ linftyV x) ∧ (x ≠ [] → ∃ a ∈ x, max 0 |a| = linftyV x) := by
  induction x with
  | nil => simp
  | cons a x ih =>
    have e : linftyV (a :: x) = max (max 0 |a|) (linftyV x) := by
      conv_lhs => unfold linftyV
      rw [List.foldl_cons]
      exact linftyV_from x _ (le_max_left _ _)
    rw [e]
    refine ⟨?_, fun _ => ?_⟩
    · intro b hb
      rcases List.mem_cons.1 hb with rfl | hb
      · exact le_trans (le_max_right _ _) (le_max_left _ _)
      · exact le_trans (ih.1 b hb) (le_max_right _ _)
    · rcases le_total (linftyV x) (max 0 |a|) with h | h
      · exact ⟨a, by simp, (max_eq_left h).symm⟩
      · by_cases hx : x = []
        · subst hx
          refine ⟨a, by simp, ?_⟩
          simp [linftyV]
        · obtain ⟨b, hb, e2⟩ := ih.2 hx
          exact ⟨b, by simp [hb], by rw [e2, max_eq_right h]⟩

end DBV
end Verif
