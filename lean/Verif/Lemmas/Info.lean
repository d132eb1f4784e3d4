import Verif.Spec.Info
import Verif.Lemmas.MaxVal
import Mathlib.Algebra.BigOperators.Group.List.Basic
import Mathlib.Algebra.Order.Field.Basic
/-! # Lemmas about particle properties -/
namespace Verif
variable {K : Type}

theorem addAt_fold [AddCommMonoid K] : ∀ (L : List (Nat × K)) (v : List K),
    (∀ p ∈ L, p.1 < v.length) →
    ∃ w, L.foldlM addAt v = .ok w ∧ w.length = v.length ∧
      ∀ (i : Nat) (x : K), v[i]? = some x →
        w[i]? = some (x + ((L.filter fun p => p.1 == i).map (·.2)).sum)
  | [], v, _ => ⟨v, rfl, rfl, fun i x h => by simpa using h⟩
  | p :: L, v, h => by
    have hp := h p (by simp)
    obtain ⟨w, h1, h2, h3⟩ := addAt_fold L (v.modify p.1 (· + p.2))
      (fun q hq => by rw [List.length_modify]; exact h q (by simp [hq]))
    refine ⟨w, ?_, by rw [h2, List.length_modify], ?_⟩
    · rw [List.foldlM_cons, addAt, if_pos hp]
      exact h1
    · intro i x hx
      by_cases hi : p.1 = i
      · rw [h3 i (x + p.2) (by rw [List.getElem?_modify, hx]; simp [hi])]
        simp [hi, add_assoc]
      · rw [h3 i x (by rw [List.getElem?_modify, hx]; simp [hi])]
        simp [hi]

theorem addAt_fold_ub [Add K] : ∀ (L : List (Nat × K)) (v : List K),
    (∃ p ∈ L, v.length ≤ p.1) → L.foldlM addAt v = .ub
  | [], _, h => by simp at h
  | p :: L, v, h => by
    rw [List.foldlM_cons, addAt]
    by_cases hp : p.1 < v.length
    · rw [if_pos hp]
      refine addAt_fold_ub L _ ?_
      obtain ⟨q, hq, hl⟩ := h
      rcases List.mem_cons.1 hq with rfl | hq
      · omega
      · exact ⟨q, hq, by rw [List.length_modify]; exact hl⟩
    · rw [if_neg hp]; rfl

theorem accumulate_eq [Add K] (contrib : Nat → List (Nat × K)) : ∀ (cells : List Nat) (v : List K),
    accumulate contrib cells v = (cells.flatMap contrib).foldlM addAt v
  | [], _ => rfl
  | c :: cells, v => by
    have ih := accumulate_eq contrib cells
    unfold accumulate at ih ⊢
    rw [List.foldlM_cons, List.flatMap_cons, List.foldlM_append]
    congr 1
    funext w
    exact ih w

theorem allSum_spec [AddCommMonoid K] {n : Nat} : ∀ (vs : List (List K)), vs ≠ [] →
    (∀ v ∈ vs, v.length = n) → (allSum vs).length = n ∧
    ∀ (g : List K → K) (u : Nat), (∀ v ∈ vs, v[u]? = some (g v)) →
      (allSum vs)[u]? = some ((vs.map g).sum)
  | [], h, _ => absurd rfl h
  | [v], _, hl => by
    refine ⟨hl v (by simp), fun g u h => ?_⟩
    simpa [allSum] using h v (by simp)
  | v :: w :: vs, _, hl => by
    obtain ⟨h1, h2⟩ := allSum_spec (w :: vs) (by simp) (fun z hz => hl z (by simp [hz]))
    have hv := hl v (by simp)
    refine ⟨by simp only [allSum, List.length_zipWith, h1, hv, Nat.min_self], fun g u h => ?_⟩
    have h3 := h2 g u (fun z hz => h z (by simp [hz]))
    simp only [allSum, List.getElem?_zipWith, h v (by simp), h3]
    simp

/-- the accumulated and reduced array: entry `i` is the sum of all contributions to it -/
theorem accumulate_ranks [AddCommMonoid K] (contrib : Nat → List (Nat × K)) {ranks : List (List Nat)}
    {cells : List Nat} (hne : ranks ≠ []) (hp : ranks.flatten.Perm cells) (N : Nat)
    (hr : ∀ c ∈ cells, ∀ p ∈ contrib c, p.1 < N) :
    ∃ vs, ranks.mapM (fun cs => accumulate contrib cs (List.replicate N (0 : K))) = .ok vs ∧
      (allSum vs).length = N ∧ ∀ i < N, (allSum vs)[i]? =
        some (((cells.flatMap contrib).filter fun p => p.1 == i).map (·.2)).sum := by
  have hmem : ∀ cs ∈ ranks, ∀ c ∈ cs, c ∈ cells := fun cs hcs c hc =>
    hp.subset (List.mem_flatten.2 ⟨cs, hcs, hc⟩)
  have hrank : ∀ cs ∈ ranks, ∃ w, accumulate contrib cs (List.replicate N (0 : K)) = .ok w ∧
      w.length = N ∧ ∀ i < N, w[i]? =
        some (((cs.flatMap contrib).filter fun p => p.1 == i).map (·.2)).sum := by
    intro cs hcs
    obtain ⟨w, h1, h2, h3⟩ := addAt_fold (cs.flatMap contrib) (List.replicate N (0 : K))
      (fun p hp' => by
        obtain ⟨c, hc, hpc⟩ := List.mem_flatMap.1 hp'
        rw [List.length_replicate]; exact hr c (hmem cs hcs c hc) p hpc)
    refine ⟨w, by rw [accumulate_eq, h1], by rw [h2, List.length_replicate], fun i hi => ?_⟩
    rw [h3 i 0 (by simp [List.getElem?_replicate, hi]), zero_add]
  obtain ⟨F, hF⟩ : ∃ F : List Nat → List K, ∀ cs ∈ ranks,
      accumulate contrib cs (List.replicate N (0 : K)) = .ok (F cs) ∧
      (F cs).length = N ∧ ∀ i < N, (F cs)[i]? =
        some (((cs.flatMap contrib).filter fun p => p.1 == i).map (·.2)).sum := by
    classical
    refine ⟨fun cs => if h : cs ∈ ranks then (hrank cs h).choose else [], fun cs hcs => ?_⟩
    simp only [dif_pos hcs]
    exact (hrank cs hcs).choose_spec
  have hmap : ranks.mapM (fun cs => accumulate contrib cs (List.replicate N (0 : K))) =
      .ok (ranks.map F) := by
    clear hne hp hmem hrank
    induction ranks with
    | nil => rfl
    | cons a l ih =>
      rw [List.mapM_cons, (hF a (by simp)).1, Res.ok_bind, ih (fun cs h => hF cs (by simp [h]))]
      rfl
  obtain ⟨h1, h2⟩ := allSum_spec (n := N) (ranks.map F) (by simpa using hne)
    (by intro v hv; obtain ⟨cs, hcs, rfl⟩ := List.mem_map.1 hv; exact (hF cs hcs).2.1)
  refine ⟨ranks.map F, hmap, h1, fun i hi => ?_⟩
  rw [h2 (fun v => v.getD i 0) i (by
    intro v hv
    obtain ⟨cs, hcs, rfl⟩ := List.mem_map.1 hv
    have := (hF cs hcs).2.2 i hi
    rw [this, List.getD_eq_getElem?_getD, this]; rfl)]
  congr 1
  have hflat : (((cells.flatMap contrib).filter fun p => p.1 == i).map (·.2)).sum =
      (((ranks.flatten.flatMap contrib).filter fun p => p.1 == i).map (·.2)).sum :=
    ((((hp.symm.flatMap_right contrib).filter _).map _).sum_eq)
  rw [hflat]
  clear hflat hmap h1 h2 hp hne hmem hrank
  induction ranks with
  | nil => rfl
  | cons a l ih =>
    rw [List.map_cons, List.map_cons, List.sum_cons, ih (fun cs h => hF cs (by simp [h])),
      List.flatten_cons, List.flatMap_append, List.filter_append, List.map_append, List.sum_append,
      List.getD_eq_getElem?_getD, (hF a (by simp)).2.2 i hi]
    rfl

theorem filter_zipIdx : ∀ (j : Nat) (L : List K) (s : Nat),
    (L.zipIdx s).filter (fun p => p.2 == s + j) = if h : j < L.length then [(L[j], s + j)] else []
  | _, [], _ => by simp
  | 0, a :: L, s => by
    rw [List.zipIdx_cons, List.filter_cons]
    simp only [Nat.add_zero, beq_self_eq_true, if_true, List.length_cons, Nat.zero_lt_succ,
      dif_pos, List.getElem_cons_zero]
    congr 1
    rw [List.filter_eq_nil_iff]
    intro p hp
    have := List.le_snd_of_mem_zipIdx hp
    simp; omega
  | j + 1, a :: L, s => by
    rw [List.zipIdx_cons, List.filter_cons]
    simp only [show (s == s + (j + 1)) = false by simp, Bool.false_eq_true, if_false]
    rw [show s + (j + 1) = s + 1 + j by omega, filter_zipIdx j L (s + 1)]
    by_cases h : j < L.length
    · simp [h]
    · simp [h]

/-- if every cell contributes at most to `k` consecutive places of its particle, place `j` of
particle `u` receives the `j`-th amounts of the cells of `u` -/
theorem contrib_total [AddCommMonoid K] {k : Nat} (f : Nat → Nat → List K) (ids : Nat → Option Nat)
    (cells : List Nat) (contrib : Nat → List (Nat × K))
    (hc : ∀ c ∈ cells, contrib c = match ids c with
      | none => []
      | some u => (f u c).zipIdx.map fun p => (k * u + p.2, p.1))
    (hlen : ∀ c ∈ cells, ∀ u, (f u c).length = k) (u j : Nat) (hj : j < k) :
    (((cells.flatMap contrib).filter fun p => p.1 == k * u + j).map (·.2)).sum =
      Spec.total ids cells u (fun c => (f u c).getD j 0) := by
  induction cells with
  | nil => rfl
  | cons c l ih =>
    rw [List.flatMap_cons, List.filter_append, List.map_append, List.sum_append,
      ih (fun c' h => hc c' (by simp [h])) (fun c' h => hlen c' (by simp [h]))]
    have hcc := hc c (by simp)
    have hl := hlen c (by simp)
    unfold Spec.total Spec.cellsOf
    rw [List.filter_cons]
    have key : ∀ w, (((f w c).zipIdx.map fun p => (k * w + p.2, p.1)).filter
        (fun p => p.1 == k * u + j)) = if w = u then [(k * u + j, (f u c).getD j 0)] else [] := by
      intro w
      have hdiv : ∀ t, t < k → (k * w + t = k * u + j ↔ w = u ∧ t = j) := by
        intro t ht
        constructor
        · intro h
          have h1 : (k * w + t) / k = w := by
            rw [Nat.mul_add_div (by omega), Nat.div_eq_of_lt ht]; omega
          have h2 : (k * u + j) / k = u := by
            rw [Nat.mul_add_div (by omega), Nat.div_eq_of_lt hj]; omega
          have : w = u := by rw [← h1, h, h2]
          exact ⟨this, by subst this; omega⟩
        · rintro ⟨rfl, rfl⟩; rfl
      by_cases hw : w = u
      · subst hw
        rw [if_pos rfl]
        have hlw := hl w
        generalize hf : f w c = L at hlw
        rw [List.filter_map]
        have h2 : L.zipIdx.filter ((fun p : Nat × K => p.1 == k * w + j) ∘ fun p : K × Nat => (k * w + p.2, p.1))
            = L.zipIdx.filter (fun p => p.2 == j) := by
          refine List.filter_congr ?_
          intro p hp
          obtain ⟨a, b⟩ := p
          simp only [Function.comp]
          by_cases hb : b = j
          · simp [hb]
          · simp [hb]
        rw [h2]
        clear h2 hf hcc hl hdiv
        have h4 := filter_zipIdx j L 0
        rw [Nat.zero_add] at h4
        rw [h4, dif_pos (by omega)]
        simp [List.getD_eq_getElem?_getD, List.getElem?_eq_getElem (show j < L.length by omega)]
      · rw [if_neg hw, List.filter_eq_nil_iff]
        intro p hp
        obtain ⟨q, hq, rfl⟩ := List.mem_map.1 hp
        have hlt : q.2 < k := by
          have := List.snd_lt_of_mem_zipIdx hq
          rw [hl w] at this; omega
        simp only [beq_iff_eq]
        rw [hdiv q.2 hlt]
        exact fun h => hw h.1
    rw [hcc]
    cases hid : ids c with
    | none => simp
    | some w =>
      simp only [key w]
      by_cases hw : w = u
      · subst hw; simp
      · simp [hw]

end Verif
namespace Verif
variable {K : Type}

/-! ## info -/

theorem infoContrib_eq [Mul K] [Zero K] (dim : Nat) (geo : CellGeo K) (ids : Nat → Option Nat) (c : Nat) :
    infoContrib dim geo ids c = match ids c with
      | none => []
      | some u => ((geo.measure c :: (List.range dim).map fun d => geo.center c d * geo.measure c)
          ).zipIdx.map fun p => ((1 + dim) * u + p.2, p.1) := by
  unfold infoContrib
  cases ids c with
  | none => rfl
  | some u =>
    simp only [List.zipIdx_cons, List.map_cons, List.cons.injEq, true_and]
    apply List.ext_getElem?
    intro i
    simp only [List.getElem?_map, List.getElem?_zipIdx]
    by_cases hi : i < dim
    · simp [List.getElem?_range hi, Nat.add_assoc]
    · simp [List.getElem?_eq_none (show (List.range dim).length ≤ i by simp; omega)]

/-! ## radii -/

section radii
variable [Field K] [LinearOrder K] {V : Type} [AddCommGroup V] [SMul K V]

/-- what one rank knows about particle `u` after visiting `pre` -/
structure RadiusAt (E : CellExt V K) (ids : Nat → Option Nat) (pre : List Nat) (u : Nat) (r : K)
    (x : Option V) : Prop where
  nonneg : 0 ≤ r
  bound : ∀ c ∈ pre, ids c = some u → E.dist c ≤ r
  attained : (r = 0 ∧ x = some 0) ∨ (0 < r ∧ ∃ c ∈ pre, ids c = some u ∧ E.dist c = r ∧ x = E.vec c)

theorem rankRadii_ok (E : CellExt V K) {ids : Nat → Option Nat} {cells : List Nat} {n : Nat}
    (hr : ∀ c ∈ cells, ∀ u, ids c = some u → u < n) :
    ∃ s, rankRadii E ids cells n = .ok s ∧ s.1.length = n ∧ s.2.length = n ∧
      ∀ u < n, ∃ r x, s.1[u]? = some r ∧ s.2[u]? = some x ∧ RadiusAt E ids cells u r x := by
  have h := Res.foldlM_inv_prefix (radiiStep E ids)
    (fun pre (s : List K × List (Option V)) => s.1.length = n ∧ s.2.length = n ∧
      ∀ u < n, ∃ r x, s.1[u]? = some r ∧ s.2[u]? = some x ∧ RadiusAt E ids pre u r x)
    cells [] (List.replicate n 0, List.replicate n (some 0))
    ⟨by simp, by simp, fun u hu => ⟨0, some 0, by simp [hu], by simp [hu],
      le_refl _, by simp, Or.inl ⟨rfl, rfl⟩⟩⟩
    (by
      rintro pre c post ⟨R, X⟩ hpre ⟨h1, h2, h3⟩
      simp only at h1 h2 h3
      have hc : c ∈ cells := by
        have : c ∈ [] ++ cells := by rw [hpre]; simp
        simpa using this
      cases hi : ids c with
      | none =>
        refine ⟨(R, X), by rw [radiiStep, hi], h1, h2, fun u hu => ?_⟩
        obtain ⟨r, x, e1, e2, e3⟩ := h3 u hu
        refine ⟨r, x, e1, e2, e3.nonneg, ?_, ?_⟩
        · intro c' hc' hu'
          rcases List.mem_append.1 hc' with hc' | hc'
          · exact e3.bound c' hc' hu'
          · rw [List.mem_singleton] at hc'; subst hc'; rw [hi] at hu'; simp at hu'
        · rcases e3.attained with h | ⟨h, c', hc', h'⟩
          · exact Or.inl h
          · exact Or.inr ⟨h, c', by simp [hc'], h'⟩
      | some w =>
        have hw := hr c hc w hi
        obtain ⟨r, x, e1, e2, e3⟩ := h3 w hw
        refine ⟨(R.set w (max r (E.dist c)), if E.dist c > r then X.set w (E.vec c) else X), ?_, ?_,
          ?_, ?_⟩
        · simp only [radiiStep, hi, Res.index, e1, Res.ok_bind]; rfl
        · simpa using h1
        · dsimp only; split <;> simpa using h2
        · intro u hu
          by_cases huw : u = w
          · subst huw
            refine ⟨max r (E.dist c), if E.dist c > r then E.vec c else x, ?_, ?_, ?_, ?_, ?_⟩
            · rw [List.getElem?_set_self (by omega)]
            · dsimp only
              split
              · rw [List.getElem?_set_self (by omega)]
              · exact e2
            · exact le_max_of_le_left e3.nonneg
            · intro c' hc' hu'
              rcases List.mem_append.1 hc' with hc' | hc'
              · exact le_max_of_le_left (e3.bound c' hc' hu')
              · rw [List.mem_singleton] at hc'; subst hc'; exact le_max_right _ _
            · by_cases hd : E.dist c > r
              · right
                rw [if_pos hd, max_eq_right (le_of_lt hd)]
                exact ⟨lt_of_le_of_lt e3.nonneg hd, c, by simp, hi, rfl, rfl⟩
              · rw [if_neg hd, max_eq_left (not_lt.1 hd)]
                rcases e3.attained with h | ⟨h, c', hc', h'⟩
                · exact Or.inl h
                · exact Or.inr ⟨h, c', by simp [hc'], h'⟩
          · obtain ⟨r', x', f1, f2, f3⟩ := h3 u hu
            refine ⟨r', x', ?_, ?_, f3.nonneg, ?_, ?_⟩
            · rw [List.getElem?_set_ne (by omega)]; exact f1
            · dsimp only
              split
              · rw [List.getElem?_set_ne (by omega)]; exact f2
              · exact f2
            · intro c' hc' hu'
              rcases List.mem_append.1 hc' with hc' | hc'
              · exact f3.bound c' hc' hu'
              · rw [List.mem_singleton] at hc'; subst hc'; rw [hi] at hu'
                simp at hu'; omega
            · rcases f3.attained with h | ⟨h, c', hc', h'⟩
              · exact Or.inl h
              · exact Or.inr ⟨h, c', by simp [hc'], h'⟩)
  simpa [rankRadii] using h

theorem sumRemotes_length {n : Nat} : ∀ (vs : List (List (Option V))), vs ≠ [] →
    (∀ v ∈ vs, v.length = n) → (sumRemotes vs).length = n
  | [], h, _ => absurd rfl h
  | [v], _, h => h v (by simp)
  | v :: w :: vs, _, h => by
    have := sumRemotes_length (w :: vs) (by simp) (fun z hz => h z (by simp [hz]))
    simp only [sumRemotes, List.length_zipWith, this, h v (by simp), Nat.min_self]

theorem sumRemotes_zero {u : Nat} : ∀ (vs : List (List (Option V))), vs ≠ [] →
    (∀ v ∈ vs, v[u]? = some (some 0)) → (sumRemotes vs)[u]? = some (some 0)
  | [], h, _ => absurd rfl h
  | [v], _, h => h v (by simp)
  | v :: w :: vs, _, h => by
    have := sumRemotes_zero (w :: vs) (by simp) (fun z hz => h z (by simp [hz]))
    simp [sumRemotes, List.getElem?_zipWith, this, h v (by simp), addNan]

theorem sumRemotes_single {u : Nat} {x : Option V} : ∀ (vs : List (List (Option V))) (k : Nat),
    (∃ v, vs[k]? = some v ∧ v[u]? = some x) →
    (∀ (j : Nat) (v : List (Option V)), vs[j]? = some v → j ≠ k → v[u]? = some (some 0)) →
    (sumRemotes vs)[u]? = some x
  | [], _, h, _ => by obtain ⟨v, h, -⟩ := h; simp at h
  | [v], k, h, _ => by
    obtain ⟨w, h1, h2⟩ := h
    cases k with
    | zero => simp at h1; subst h1; exact h2
    | succ k => simp at h1
  | v :: w :: vs, k, h, h0 => by
    cases k with
    | zero =>
      obtain ⟨v', h1, h2⟩ := h
      simp at h1; subst h1
      have := sumRemotes_zero (u := u) (w :: vs) (by simp) (by
        intro z hz
        obtain ⟨i, hi⟩ := List.mem_iff_getElem?.1 hz
        exact h0 (i + 1) z (by simpa using hi) (by omega))
      simp only [sumRemotes, List.getElem?_zipWith, this, h2]
      cases x <;> simp [addNan]
    | succ k =>
      have := sumRemotes_single (u := u) (x := x) (w :: vs) k (by simpa using h)
        (fun j z hz hj => h0 (j + 1) z (by simpa using hz) (by omega))
      have hv := h0 0 v rfl (by omega)
      simp only [sumRemotes, List.getElem?_zipWith, this, hv]
      cases x <;> simp [addNan]

end radii
end Verif
