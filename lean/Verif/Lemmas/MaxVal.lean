import Verif.Lemmas.Connect
/-! # Lemmas about `compute_particles_max_values` -/
namespace Verif
variable {K : Type}

theorem allMax_spec [LinearOrder K] {n : Nat} : ∀ (vs : List (List K)), vs ≠ [] →
    (∀ v ∈ vs, v.length = n) → (allMax vs).length = n ∧
    ∀ (u : Nat) (x : K), (allMax vs)[u]? = some x →
      (∃ v ∈ vs, v[u]? = some x) ∧ ∀ v ∈ vs, ∀ y, v[u]? = some y → y ≤ x
  | [], h, _ => absurd rfl h
  | [v], _, hl => by
    refine ⟨hl v (by simp), fun u x hx => ⟨⟨v, by simp, hx⟩, ?_⟩⟩
    intro w hw y hy
    simp only [List.mem_singleton] at hw
    subst hw
    have hx : w[u]? = some x := hx
    rw [hx] at hy
    cases hy
    exact le_refl _
  | v :: w :: vs, _, hl => by
    obtain ⟨h1, h2⟩ := allMax_spec (w :: vs) (by simp) (fun z hz => hl z (by simp [hz]))
    have hv := hl v (by simp)
    refine ⟨by simp only [allMax, List.length_zipWith, h1, hv, Nat.min_self], ?_⟩
    intro u x hx
    simp only [allMax, List.getElem?_zipWith] at hx
    cases ha : v[u]? with
    | none => rw [ha] at hx; simp at hx
    | some a =>
      cases hb : (allMax (w :: vs))[u]? with
      | none => rw [ha, hb] at hx; simp at hx
      | some b =>
        rw [ha, hb] at hx
        simp at hx
        obtain ⟨⟨z, hz, hzb⟩, h4⟩ := h2 u b hb
        subst hx
        constructor
        · rcases max_choice a b with h | h
          · exact ⟨v, by simp, by rw [h]; exact ha⟩
          · exact ⟨z, by simp only [List.mem_cons] at hz ⊢; exact Or.inr hz, by rw [h]; exact hzb⟩
        · intro z' hz' y hy
          rcases List.mem_cons.1 hz' with rfl | hz'
          · rw [ha] at hy; cases hy; exact le_max_left _ _
          · exact (h4 z' hz' y hy).trans (le_max_right _ _)

theorem rankMax_ok {ids : Nat → Option Nat} {l2g : List Nat} {maxs : List K} {owned : List Nat}
    {init : List K} (hids : ∀ c ∈ owned, ∀ i, ids c = some i → i < l2g.length)
    (hlen : maxs.length = l2g.length) (hg : ∀ u ∈ l2g, u < init.length) :
    ∃ v, rankMax ids l2g maxs owned init = .ok v ∧ v.length = init.length ∧
      (∀ u, (∀ c ∈ owned, ∀ i, ids c = some i → l2g[i]? ≠ some u) → v[u]? = init[u]?) ∧
      (l2g.Nodup → ∀ c ∈ owned, ∀ i u, ids c = some i → l2g[i]? = some u → v[u]? = maxs[i]?) := by
  have h := Res.foldlM_inv_prefix (rankMaxStep ids l2g maxs)
    (fun pre (v : List K) => v.length = init.length ∧
      (∀ u, (∀ c ∈ pre, ∀ i, ids c = some i → l2g[i]? ≠ some u) → v[u]? = init[u]?) ∧
      (l2g.Nodup → ∀ c ∈ pre, ∀ i u, ids c = some i → l2g[i]? = some u → v[u]? = maxs[i]?))
    owned [] init ⟨rfl, by simp, by simp⟩
    (by
      intro pre c post v hpre hI
      obtain ⟨h1, h2, h3⟩ := hI
      have hc : c ∈ owned := by
        have : c ∈ [] ++ owned := by rw [hpre]; simp
        simpa using this
      cases hi : ids c with
      | none =>
        refine ⟨v, by rw [rankMaxStep, hi], h1, ?_, ?_⟩
        · intro u hu; exact h2 u (fun c' hc' => hu c' (by simp [hc']))
        · intro hnd c' hc' i u hi' hu
          rcases List.mem_append.1 hc' with hc' | hc'
          · exact h3 hnd c' hc' i u hi' hu
          · rw [List.mem_singleton] at hc'
            subst hc'
            rw [hi] at hi'; simp at hi'
      | some i =>
        have hil := hids c hc i hi
        have hu := List.getElem?_eq_getElem hil
        have hm := List.getElem?_eq_getElem (show i < maxs.length by omega)
        have hul : l2g[i] < v.length := by rw [h1]; exact hg _ (List.getElem_mem hil)
        refine ⟨v.set l2g[i] (maxs[i]'(by omega)), ?_, by simpa using h1, ?_, ?_⟩
        · simp only [rankMaxStep, hi, Res.index, hu, hm, Res.ok_bind, if_pos hul]
        · intro u hu'
          have hne : l2g[i] ≠ u := by
            intro h
            exact hu' c (by simp) i hi (by rw [hu, h])
          rw [List.getElem?_set_ne hne]
          exact h2 u (fun c' hc' => hu' c' (by simp [hc']))
        · intro hnd c' hc' i' u hi' hu'
          by_cases hne : l2g[i] = u
          · subst hne
            rw [List.getElem?_set_self hul]
            have : i = i' := (List.getElem?_inj hil hnd).1 (hu.trans hu'.symm)
            subst this
            exact hm.symm
          · rw [List.getElem?_set_ne hne]
            rcases List.mem_append.1 hc' with hc' | hc'
            · exact h3 hnd c' hc' i' u hi' hu'
            · rw [List.mem_singleton] at hc'
              subst hc'
              rw [hi] at hi'; cases hi'
              rw [hu] at hu'
              exact absurd (by simpa using hu') hne)
  simpa [rankMax] using h

end Verif
