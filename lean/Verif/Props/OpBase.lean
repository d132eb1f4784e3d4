/-
C78: constraints in the application of an operator.
C79: vectors with blocks and with interleaved components.
C80: constraints of the coupled operator.
C81: integrals over the domain.
-/
import Verif.Lemmas.OpBase
import Mathlib.Algebra.Field.Rat
import Mathlib.Algebra.Order.Ring.Rat
import Mathlib.Tactic.NormNum
import Mathlib.Algebra.BigOperators.Group.List.Lemmas

namespace Verif.Props

open Verif.OpBase Verif.Spec.OpBase

variable {K : Type}

/-! ### C78 -/

/-- **C78** (block vectors).  For every operator and all distinct constrained indices, constrained entries are copied, the other
ones are those of the operator applied to the source without constrained entries, and the source is left as it was. -/
theorem C78_block [Zero K] (A : (Nat × Nat → K) → Nat × Nat → K) (n : Nat) {idx : List Nat} (h : idx.Nodup)
    (src : Nat × Nat → K) :
    (vmultBlock A n idx src).1 = src ∧
    Constrained (fun k => k.1 < n ∧ k.2 ∈ idx) A src (vmultBlock A n idx src).2 := by
  have hz : (saveZero (blockKeys n idx) src).2 = fun k => if k.1 < n ∧ k.2 ∈ idx then 0 else src k := by
    funext k; rw [saveZero_snd]; simp only [mem_blockKeys]
  have hv := saveZero_fst (blockKeys n idx) src (blockKeys_nodup h)
  constructor
  · funext k
    unfold vmultBlock
    dsimp only
    rw [hv, restore_fst, hz]
    simp only [mem_blockKeys]
    split <;> rfl
  · intro k
    unfold vmultBlock
    dsimp only
    rw [hv, restore_snd, hz]
    simp only [mem_blockKeys]

/-- **C78** (one component).  The same holds for vectors with a single component per degree of freedom. -/
theorem C78_vector_partial [Zero K] (A : (Nat → K) → Nat → K) {idx : List Nat} (h : idx.Nodup) (src : Nat → K) :
    (vmultVec A 1 idx src).1 = src ∧ Constrained (fun k => k ∈ idx) A src (vmultVec A 1 idx src).2 := by
  have hz : (saveZero idx src).2 = fun k => if k ∈ idx then 0 else src k := by
    funext k; rw [saveZero_snd]
  have hv := saveZero_fst idx src h
  constructor
  · funext k
    unfold vmultVec
    dsimp only
    rw [vecKeys_one, hv, writeAll_map, restore_fst, hz]
    dsimp only
    split
    · rfl
    · rfl
  · intro k
    unfold vmultVec
    dsimp only
    rw [vecKeys_one, hv, writeAll_map, restore_snd, hz]
    split <;> rfl

/-- **C78** (interleaved components, violated).  With several components per degree of freedom the last loop overwrites entries
of the source and of the destination: the entry whose number is the p-th constrained index gets the p-th stored value, which
belongs to another degree of freedom. -/
theorem C78_interleaved_violated [Zero K] (A : (Nat → K) → Nat → K) {u : Nat} (hu : 0 < u) {idx : List Nat} (h : idx.Nodup)
    (src : Nat → K) :
    (∀ (p : Nat) (hp : p < idx.length),
      (vmultVec A u idx src).1 idx[p] = src (idx[p / u]'(lt_of_le_of_lt (Nat.div_le_self p u) hp) * u + p % u) ∧
      (vmultVec A u idx src).2 idx[p] = src (idx[p / u]'(lt_of_le_of_lt (Nat.div_le_self p u) hp) * u + p % u)) ∧
    ∀ k, k ∉ idx → (vmultVec A u idx src).1 k = src k := by
  have hv := saveZero_fst (vecKeys u idx) src (vecKeys_nodup h)
  have hlen : (vecKeys u idx).length = idx.length * u := by
    simp [vecKeys, List.length_flatMap]
  have hget : ∀ (l : List Nat) (p : Nat) (hp : p < l.length * u),
      (vecKeys u l)[p]? = some (l[p / u]'(by rw [Nat.div_lt_iff_lt_mul hu]; exact hp) * u + p % u) := by
    intro l
    induction l with
    | nil => intro p hp; simp at hp
    | cons a l ih =>
      intro p hp
      have e : vecKeys u (a :: l) = (List.range u).map (fun b => a * u + b) ++ vecKeys u l := by
        simp [vecKeys]
      rw [e, List.getElem?_append]
      simp only [List.length_map, List.length_range]
      by_cases hpu : p < u
      · rw [if_pos hpu, List.getElem?_map, List.getElem?_range hpu]
        simp [Nat.div_eq_of_lt hpu, Nat.mod_eq_of_lt hpu]
      · rw [if_neg hpu]
        have hp' : p - u < l.length * u := by
          rw [List.length_cons, Nat.add_mul, Nat.one_mul] at hp; omega
        rw [ih (p - u) hp']
        have e1 : p / u = (p - u) / u + 1 := by
          rw [Nat.div_eq_sub_div hu (by omega)]
        have e2 : (p - u) % u = p % u := by
          rw [Nat.mod_eq_sub_mod (a := p) (by omega)]
        simp only [e1, List.getElem_cons_succ, e2]
  constructor
  · intro p hp
    have hlt : p < idx.length * u := lt_of_lt_of_le hp (Nat.le_mul_of_pos_right _ hu)
    have hvp : p < (saveZero (vecKeys u idx) src).1.length := by rw [hv, List.length_map, hlen]; exact hlt
    have key : (saveZero (vecKeys u idx) src).1[p] =
        src (idx[p / u]'(lt_of_le_of_lt (Nat.div_le_self p u) hp) * u + p % u) := by
      have h1 := hget idx p hlt
      have h2 : (saveZero (vecKeys u idx) src).1[p]? = some (src (idx[p / u]'(lt_of_le_of_lt (Nat.div_le_self p u) hp) * u + p % u)) := by
        rw [hv, List.getElem?_map, h1]; rfl
      rw [List.getElem?_eq_getElem hvp] at h2
      exact Option.some.inj h2
    unfold vmultVec
    dsimp only
    rw [writeAll_get _ _ _ h p hp hvp, writeAll_get _ _ _ h p hp hvp, key]
    exact ⟨rfl, rfl⟩
  · intro k hk
    unfold vmultVec
    dsimp only
    rw [writeAll_not_mem _ _ _ hk, hv, restore_fst, saveZero_snd]
    split <;> simp_all

namespace Ex78

/-- The sum of all entries of two blocks with three entries, at every place. -/
def A : (Nat × Nat → ℚ) → Nat × Nat → ℚ := fun s _ => s (0, 0) + s (0, 1) + s (0, 2) + s (1, 0) + s (1, 1) + s (1, 2)

def src : Nat × Nat → ℚ := fun k => 10 * k.1 + k.2 + 1

/-- Entry 1 is constrained: copied; the others see the sum without it. -/
example : (vmultBlock A 2 [1] src).2 (1, 1) = 12 ∧ (vmultBlock A 2 [1] src).2 (0, 0) = 1 + 3 + 11 + 13 ∧
    (vmultBlock A 2 [1] src).1 (1, 1) = 12 := by
  obtain ⟨h1, h2⟩ := C78_block A 2 (idx := [1]) (by simp) src
  refine ⟨?_, ?_, ?_⟩
  · rw [h2]; norm_num [src]
  · rw [h2]; norm_num [src, A]
  · rw [h1]; norm_num [src]

example : [1].Nodup ∧ [0, 2].Nodup := by decide

/-- Interleaved with two components: constrained degree of freedom 1 (entries 2 and 3); entry 1 of the source, which belongs to the
unconstrained degree of freedom 0, is overwritten by the value of entry 2. -/
example (A : (Nat → ℚ) → Nat → ℚ) : (vmultVec A 2 [1] fun i => (i : ℚ)).1 1 = 2 := by
  have := ((C78_interleaved_violated A (u := 2) (by decide) (idx := [1]) (by simp) (fun i => (i : ℚ))).1 0 (by simp)).1
  simpa using this

end Ex78

/-! ### C79 -/

/-- **C79** (split up).  Splitting a vector whose size is a multiple of the number of entries per point succeeds and puts every
entry to its place. -/
theorem C79_split (gs : List Nat) (hn : 0 < gs.sum) (r : Nat) {sizes : Nat → Nat}
    (hs : ∀ t < gs.length, r * gs.getD t 0 ≤ sizes t) (vec : Nat → K) (dst : Nat × Nat → K) :
    ∃ d, splitUp gs (r * gs.sum) sizes vec dst = .ok d ∧
      Interleaved (fun t => gs.getD t 0) (before gs) gs.length gs.sum r vec d := by
  unfold splitUp
  rw [rounds_mul hn]
  have hb : ∀ p ∈ assignments gs r, decide (p.1.2 < sizes p.1.1) = true ∧ decide (p.2 < r * gs.sum) = true := by
    rintro ⟨⟨t, q⟩, i⟩ h
    obtain ⟨j, hj, m, ht, hm, e1, e2⟩ := mem_assignments.1 h
    dsimp only at ht hm e1 e2 ⊢
    have hb := before_lt gs ht hm
    have h3 : (j + 1) * gs.getD t 0 ≤ r * gs.getD t 0 := Nat.mul_le_mul_right _ hj
    have h4 : (j + 1) * gs.sum ≤ r * gs.sum := Nat.mul_le_mul_right _ hj
    rw [Nat.add_mul, Nat.one_mul] at h3 h4
    have := hs t ht
    simp only [decide_eq_true_eq]
    constructor <;> omega
  have hc : ∀ p ∈ assignments gs r, ∀ q ∈ assignments gs r, p.1 = q.1 → p.2 = q.2 := by
    rintro ⟨a, i⟩ h ⟨a', i'⟩ h' e
    exact (assignments_functional h h').1 e
  obtain ⟨d, h1, h2, _⟩ := copyAll_ok (fun a : Nat × Nat => decide (a.2 < sizes a.1)) (fun i => decide (i < r * gs.sum)) vec
    (assignments gs r) dst hb hc
  refine ⟨d, h1, ?_⟩
  intro j hj t ht m hm
  have := h2 ((t, j * gs.getD t 0 + m), j * gs.sum + (before gs t + m)) (mem_assignments.2 ⟨j, hj, m, ht, hm, rfl, rfl⟩)
  rw [this, Nat.add_assoc]

/-- **C79** (merge).  Merging succeeds and puts every entry to its place. -/
theorem C79_merge (gs : List Nat) (hn : 0 < gs.sum) (r : Nat) {sizes : Nat → Nat}
    (hs : ∀ t < gs.length, r * gs.getD t 0 ≤ sizes t) (parts : Nat × Nat → K) (dst : Nat → K) :
    ∃ v, merge gs (r * gs.sum) sizes parts dst = .ok v ∧
      Interleaved (fun t => gs.getD t 0) (before gs) gs.length gs.sum r v parts := by
  unfold merge
  rw [rounds_mul hn]
  have hb : ∀ p ∈ (assignments gs r).map fun a => (a.2, a.1),
      decide (p.1 < r * gs.sum) = true ∧ decide (p.2.2 < sizes p.2.1) = true := by
    intro p hp
    obtain ⟨⟨⟨t, q⟩, i⟩, h, rfl⟩ := List.mem_map.1 hp
    obtain ⟨j, hj, m, ht, hm, e1, e2⟩ := mem_assignments.1 h
    dsimp only at ht hm e1 e2 ⊢
    have hb := before_lt gs ht hm
    have h3 : (j + 1) * gs.getD t 0 ≤ r * gs.getD t 0 := Nat.mul_le_mul_right _ hj
    have h4 : (j + 1) * gs.sum ≤ r * gs.sum := Nat.mul_le_mul_right _ hj
    rw [Nat.add_mul, Nat.one_mul] at h3 h4
    have := hs t ht
    simp only [decide_eq_true_eq]
    constructor <;> omega
  have hc : ∀ p ∈ (assignments gs r).map (fun a => (a.2, a.1)), ∀ q ∈ (assignments gs r).map (fun a => (a.2, a.1)),
      p.1 = q.1 → p.2 = q.2 := by
    intro p hp q hq e
    obtain ⟨⟨a, i⟩, h, rfl⟩ := List.mem_map.1 hp
    obtain ⟨⟨a', i'⟩, h', rfl⟩ := List.mem_map.1 hq
    exact (assignments_functional h h').2 e
  obtain ⟨d, h1, h2, _⟩ := copyAll_ok (fun i => decide (i < r * gs.sum)) (fun a : Nat × Nat => decide (a.2 < sizes a.1)) parts
    ((assignments gs r).map fun a => (a.2, a.1)) dst hb hc
  refine ⟨d, h1, ?_⟩
  intro j hj t ht m hm
  have := h2 (j * gs.sum + (before gs t + m), (t, j * gs.getD t 0 + m))
    (List.mem_map.2 ⟨((t, j * gs.getD t 0 + m), j * gs.sum + (before gs t + m)),
      mem_assignments.2 ⟨j, hj, m, ht, hm, rfl, rfl⟩, rfl⟩)
  rw [← this, Nat.add_assoc]

/-- **C79** (round trip).  Splitting up and merging again gives back every entry of the vector; merging and splitting up gives
back every entry of the parts. -/
theorem C79_round_trip (gs : List Nat) (hn : 0 < gs.sum) (r : Nat) {sizes : Nat → Nat}
    (hs : ∀ t < gs.length, sizes t = r * gs.getD t 0) :
    (∀ (vec vec' : Nat → K) (dst : Nat × Nat → K), ∃ d v, splitUp gs (r * gs.sum) sizes vec dst = .ok d ∧
      merge gs (r * gs.sum) sizes d vec' = .ok v ∧ ∀ i < r * gs.sum, v i = vec i) ∧
    (∀ (parts dst : Nat × Nat → K) (vec : Nat → K), ∃ v d, merge gs (r * gs.sum) sizes parts vec = .ok v ∧
      splitUp gs (r * gs.sum) sizes v dst = .ok d ∧ ∀ t < gs.length, ∀ q < sizes t, d (t, q) = parts (t, q)) := by
  have hs' : ∀ t < gs.length, r * gs.getD t 0 ≤ sizes t := fun t ht => (hs t ht).ge
  constructor
  · intro vec vec' dst
    obtain ⟨d, h1, h2⟩ := C79_split gs hn r hs' vec dst
    obtain ⟨v, h3, h4⟩ := C79_merge gs hn r hs' d vec'
    refine ⟨d, v, h1, h3, ?_⟩
    intro i hi
    have hp : i % gs.sum < gs.sum := Nat.mod_lt _ hn
    obtain ⟨t, m, ht, hm, e⟩ := exists_slot gs hp
    have hj : i / gs.sum < r := by rw [Nat.div_lt_iff_lt_mul hn]; exact hi
    have hi' : i = i / gs.sum * gs.sum + before gs t + m := by
      have := Nat.div_add_mod i gs.sum
      rw [Nat.mul_comm] at this
      omega
    rw [hi', h4 _ hj t ht m hm, h2 _ hj t ht m hm]
  · intro parts dst vec
    obtain ⟨v, h1, h2⟩ := C79_merge gs hn r hs' parts vec
    obtain ⟨d, h3, h4⟩ := C79_split gs hn r hs' v dst
    refine ⟨v, d, h1, h3, ?_⟩
    intro t ht q hq
    rw [hs t ht] at hq
    have hg : 0 < gs.getD t 0 := by
      rcases Nat.eq_zero_or_pos (gs.getD t 0) with h | h
      · rw [h] at hq; simp at hq
      · exact h
    have hj : q / gs.getD t 0 < r := by rw [Nat.div_lt_iff_lt_mul hg]; exact hq
    have hm : q % gs.getD t 0 < gs.getD t 0 := Nat.mod_lt _ hg
    have e : q = q / gs.getD t 0 * gs.getD t 0 + q % gs.getD t 0 := by
      have := Nat.div_add_mod q (gs.getD t 0)
      rw [Nat.mul_comm] at this
      omega
    have a1 := h2 _ hj t ht _ hm
    have a2 := h4 _ hj t ht _ hm
    dsimp only at a1 a2
    rw [← e] at a1 a2
    rw [← a2, a1]

/-- **C79** (sizes that do not match).  If the size is not a multiple of the number of entries per point, or there are no entries
per point at all, the loops leave the vectors. -/
theorem C79_undefined (gs : List Nat) {size : Nat} (h : ¬ gs.sum ∣ size) (sizes : Nat → Nat) (vec : Nat → K)
    (parts : Nat × Nat → K) : splitUp gs size sizes vec parts = .ub ∧ merge gs size sizes parts vec = .ub := by
  have h0 : size ≠ 0 := by rintro rfl; exact h (Nat.dvd_zero _)
  unfold splitUp merge
  by_cases hn : gs.sum = 0
  · have : rounds gs.sum size = none := by unfold rounds; rw [if_neg h0, if_pos hn]
    rw [this]
    exact ⟨rfl, rfl⟩
  · have hn' : 0 < gs.sum := by omega
    have e : rounds gs.sum size = some ((size + gs.sum - 1) / gs.sum) := by unfold rounds; rw [if_neg h0, if_neg hn]
    rw [e]
    dsimp only
    obtain ⟨q, hq⟩ : ∃ q, q = (size + gs.sum - 1) / gs.sum := ⟨_, rfl⟩
    rw [← hq]
    have hdiv := Nat.div_add_mod (size + gs.sum - 1) gs.sum
    have hmod := Nat.mod_lt (size + gs.sum - 1) hn'
    rw [← hq] at hdiv
    have hqpos : 0 < q := by
      rcases Nat.eq_zero_or_pos q with h | h
      · rw [h] at hdiv; simp at hdiv; omega
      · exact h
    have hge : size < gs.sum * q := by
      have : size ≤ gs.sum * q := by omega
      rcases Nat.lt_or_eq_of_le this with h' | h'
      · exact h'
      · exact absurd ⟨q, h'⟩ h
    obtain ⟨t, m, ht, hm, hp⟩ := exists_slot gs (p := gs.sum - 1) (by omega)
    have hmem : ((t, (q - 1) * gs.getD t 0 + m), (q - 1) * gs.sum + (before gs t + m)) ∈ assignments gs q :=
      mem_assignments.2 ⟨q - 1, by omega, m, ht, hm, rfl, rfl⟩
    have hidx : size ≤ (q - 1) * gs.sum + (before gs t + m) := by
      rw [← hp]
      have : (q - 1) * gs.sum + gs.sum = gs.sum * q := by
        rw [← Nat.succ_mul, Nat.mul_comm]; congr 1; omega
      omega
    constructor
    · exact copyAll_ub _ _ _ _ _ ⟨_, hmem, Or.inr (by simpa using hidx)⟩
    · exact copyAll_ub _ _ _ _ _ ⟨_, List.mem_map.2 ⟨_, hmem, rfl⟩, Or.inl (by simpa using hidx)⟩

namespace Ex79

/-- Two points, three blocks. -/
example : ∃ d, splitUp [1, 1, 1] 6 (fun _ => 2) (fun i => i + 1) (fun _ => 0) = .ok d ∧ d (0, 0) = 1 ∧ d (2, 0) = 3 ∧ d (1, 1) = 5 :=
  ⟨_, rfl, by decide, by decide, by decide⟩

/-- Two entries for the first, three for the second vector, two points. -/
example : ∃ v, merge [2, 3] 10 (fun t => if t = 0 then 4 else 6) (fun k => 100 * (k.1 + 1) + k.2) (fun _ => 0) = .ok v ∧ v 5 = 102 ∧
    v 4 = 202 ∧ v 9 = 205 := ⟨_, rfl, by decide, by decide, by decide⟩

example : (0 < [2, 3].sum) ∧ (∀ t < [2, 3].length, 2 * [2, 3].getD t 0 ≤ (fun t => if t = 0 then 4 else 6) t) ∧ ¬ [2, 3].sum ∣ 9 := by
  decide

end Ex79

/-! ### C80 -/

section
variable [Zero K]

/-- **C80** (destination, without matrix).  Constrained displacements are copied, the other entries are those of the operator applied
to the source without the constrained ones, provided that no displacement is listed twice. -/
theorem C80_destination_partial (o : Coupled K) (A : (Nat × Nat → K) → Nat × Nat → K) (hz : o.zeroKeys.Nodup)
    (hd : o.displKeys.Nodup) (src : Nat × Nat → K) :
    Constrained (fun k => k ∈ o.zeroKeys ∨ k ∈ o.displKeys) A src (o.vmultFree A src).2 := by
  intro k
  have e1 : (saveZero o.zeroKeys src).2 = fun k => if k ∈ o.zeroKeys then 0 else src k := by
    funext k; rw [saveZero_snd]; congr
  have e2 : (saveZero o.displKeys (saveZero o.zeroKeys src).2).2 =
      fun j => if j ∈ o.zeroKeys ∨ j ∈ o.displKeys then 0 else src j := by
    funext j
    rw [saveZero_snd, e1]
    dsimp only
    split_ifs <;> simp_all
  show writeAll o.zeroKeys (saveZero o.zeroKeys src).1
    (restore o.displKeys (saveZero o.displKeys (saveZero o.zeroKeys src).2).1
      (saveZero o.displKeys (saveZero o.zeroKeys src).2).2
      (A (saveZero o.displKeys (saveZero o.zeroKeys src).2).2)).2 k = _
  rw [saveZero_fst _ _ hz, saveZero_fst _ _ hd, writeAll_map, restore_snd, e2, e1]
  dsimp only
  by_cases h1 : k ∈ o.zeroKeys
  · rw [if_pos h1, if_pos (Or.inl h1)]
  · rw [if_neg h1]
    by_cases h2 : k ∈ o.displKeys
    · rw [if_pos h2, if_neg h1, if_pos (Or.inr h2)]
    · rw [if_neg h2, if_neg (by simp [h1, h2])]

/-- **C80** (source, violated).  The entries at points with small concentration are not restored: the source has lost them after the
call, whatever the operator. -/
theorem C80_source_violated (o : Coupled K) (A : (Nat × Nat → K) → Nat × Nat → K) (hd : o.displKeys.Nodup) (src : Nat × Nat → K) (k : Nat × Nat) :
    (o.vmultFree A src).1 k = if k ∈ o.zeroKeys then 0 else src k := by
  have e1 : (saveZero o.zeroKeys src).2 = fun k => if k ∈ o.zeroKeys then 0 else src k := by
    funext k; rw [saveZero_snd]; congr
  show (restore o.displKeys (saveZero o.displKeys (saveZero o.zeroKeys src).2).1
      (saveZero o.displKeys (saveZero o.zeroKeys src).2).2
      (A (saveZero o.displKeys (saveZero o.zeroKeys src).2).2)).1 k = _
  rw [saveZero_fst _ _ hd, restore_fst, e1, saveZero_snd]
  split_ifs <;> simp_all

/-- **C80** (displacement listed twice, violated).  If a displacement is listed twice, as by `clamp_domain` for all degrees of freedom
shared by two faces, its row is zero for every source, and the source loses the entry. -/
theorem C80_twice_violated (o : Coupled K) (A : (Nat × Nat → K) → Nat × Nat → K) (src : Nat × Nat → K) {k : Nat × Nat}
    (hk : 2 ≤ o.displKeys.count k) (hz : k ∉ o.zeroKeys) : (o.vmultFree A src).2 k = 0 ∧ (o.vmultFree A src).1 k = 0 := by
  have h := restore_twice o.displKeys (saveZero o.zeroKeys src).2 (saveZero o.displKeys (saveZero o.zeroKeys src).2).2
    (A (saveZero o.displKeys (saveZero o.zeroKeys src).2).2) hk
  constructor
  · show writeAll o.zeroKeys (saveZero o.zeroKeys src).1 _ k = 0
    rw [writeAll_not_mem _ _ _ hz]
    exact h.2
  · exact h.1

/-- **C80** (interleaved, violated).  The operator for interleaved components has zero rows at the constrained displacements, and the
source loses them. -/
theorem C80_interleaved_violated (o : Coupled K) (M : (Nat → K) → Nat → K) (src : Nat → K) {k : Nat × Nat}
    (hk : k ∈ o.displKeys) : (o.vmultMatrixVec M src).2.2 (o.flat k) = 0 ∧ (o.vmultMatrixVec M src).2.1 (o.flat k) = 0 := by
  have e : (o.displKeys.map fun _ => (0 : K)) = (o.displKeys.map o.flat).map fun _ => 0 := by
    rw [List.map_map]; rfl
  have hm : o.flat k ∈ o.displKeys.map o.flat := List.mem_map_of_mem hk
  constructor
  · show writeAll (o.displKeys.map o.flat) (o.displKeys.map fun _ => 0) _ (o.flat k) = 0
    rw [e, writeAll_map, if_pos hm]
  · show writeAll (o.displKeys.map o.flat) (o.displKeys.map fun _ => 0) _ (o.flat k) = 0
    rw [e, writeAll_map, if_pos hm]

/-- **C80** (with matrix, violated).  With a matrix the hooks of the interleaved vectors store the entries at points with small
concentration again, after they have been set to zero: the rows of these entries are zero for every source and every matrix. -/
theorem C80_matrix_violated (o : Coupled K) (M : (Nat → K) → Nat → K) (src : Nat × Nat → K)
    (hn : ∀ k ∈ o.zeroKeys, k.1 < o.n) {k : Nat × Nat} (hk : k ∈ o.zeroKeys) : (o.vmultMatrix M src).2 k = 0 := by
  obtain ⟨p, hp⟩ : ∃ p, p = o.preBlock src := ⟨_, rfl⟩
  have hs : ∀ j ∈ o.zeroKeys, p.2 j = 0 := by
    intro j hj
    rw [hp]
    show (saveZero o.displKeys (saveZero o.zeroKeys src).2).2 j = 0
    rw [saveZero_snd, saveZero_snd, if_pos hj]
    split <;> rfl
  have hv : (saveZero (o.zeroKeys.map o.flat) (fun i => p.2 (i % o.n, i / o.n))).1 = o.zeroKeys.map fun _ => 0 := by
    rw [saveZero_zero]
    · rw [List.map_map]; rfl
    · intro i hi
      obtain ⟨j, hj, rfl⟩ := List.mem_map.1 hi
      have hjn := hn j hj
      have h1 : (o.n * j.2 + j.1) % o.n = j.1 := by rw [Nat.mul_add_mod, Nat.mod_eq_of_lt hjn]
      have h2 : (o.n * j.2 + j.1) / o.n = j.2 := by
        rw [Nat.mul_add_div (by omega), Nat.div_eq_of_lt hjn, Nat.add_zero]
      show p.2 ((o.n * j.2 + j.1) % o.n, (o.n * j.2 + j.1) / o.n) = 0
      rw [h1, h2]
      exact hs j hj
  have hq : ∀ d : Nat × Nat → K, writeAll o.zeroKeys (saveZero (o.zeroKeys.map o.flat) (fun i => p.2 (i % o.n, i / o.n))).1 d k = 0 := by
    intro d
    rw [hv, writeAll_map, if_pos hk]
  have e : (o.vmultMatrix M src).2 k = writeAll o.zeroKeys (saveZero (o.zeroKeys.map o.flat) (fun i => p.2 (i % o.n, i / o.n))).1
      (restore o.displKeys p.1.displValues p.2
        (fun k => ((o.preBlock src).1.vmultMatrixVec M (fun i => p.2 (i % o.n, i / o.n))).2.2 (o.flat k))).2 k := by
    rw [hp]; rfl
  rw [e, hq]

end

/-- The list of points without material contains exactly the owned points with a concentration below the limit, each once. -/
theorem C80_zero_indices {K : Type} [LT K] [DecidableLT K] (cZero : K) (owned : Nat) (c : Nat → K) :
    (∀ i, i ∈ zeroIndices cZero owned c ↔ i < owned ∧ c i < cZero) ∧ (zeroIndices cZero owned c).Nodup :=
  ⟨fun i => by simp [zeroIndices], List.nodup_range.filter _⟩

namespace Ex80

/-- Two displacements behind three other blocks; point 0 has small concentration, the first displacement is fixed at point 1. -/
def o : Coupled ℚ :=
  { dim := 2, offset := 3, n := 5, zeroC := [0], displ := fun d => if d = 0 then [1] else [], zeroValues := [], displValues := [] }

example : o.zeroKeys = [(3, 0), (4, 0)] ∧ o.displKeys = [(3, 1)] := by decide

example : o.zeroKeys.Nodup ∧ o.displKeys.Nodup ∧ ∀ k ∈ o.zeroKeys, k.1 < o.n := by decide

/-- The source loses the value 7 of block 3 at point 0. -/
example (A : (Nat × Nat → ℚ) → Nat × Nat → ℚ) : (o.vmultFree A fun _ => 7).1 (3, 0) = 0 ∧ (o.vmultFree A fun _ => 7).2 (3, 0) = 7 := by
  constructor
  · rw [C80_source_violated o A (by decide)]
    exact if_pos (by decide)
  · rw [C80_destination_partial o A (by decide) (by decide)]
    exact if_pos (by decide)

/-- Point 1 listed twice. -/
def o2 : Coupled ℚ := { o with displ := fun d => if d = 0 then [1, 1] else [] }

example (A : (Nat × Nat → ℚ) → Nat × Nat → ℚ) : (o2.vmultFree A fun _ => 7).2 (3, 1) = 0 :=
  (C80_twice_violated o2 A _ (by decide) (by decide)).1

example : zeroIndices (1 / 10 : ℚ) 3 (fun i => if i = 1 then 0 else 1) = [1] := by decide +kernel

end Ex80

/-! ### C81 -/

/-- **C81**.  The quantity computed from batches of cells and summed over the ranks is the sum over all cells, whatever the
distribution of the cells to ranks and batches and whatever the unused lanes contain. -/
theorem C81_domain [AddCommMonoid K] (ranks : List (List (Batch K))) (cells : List K)
    (h : (ranks.flatMap fun bs => bs.flatMap fun b => b.lanes.take b.active).Perm cells) :
    domainQuantity ranks = cells.sum := by
  rw [← h.sum_eq]
  have h1 : ∀ l : List K, l.foldl (· + ·) 0 = l.sum := fun l => List.sum_eq_foldl.symm
  have h2 : ∀ (bs : List (Batch K)) (a : K),
      bs.foldl (fun acc b => acc + (b.lanes.take b.active).foldl (· + ·) 0) a =
        a + (bs.flatMap fun b => b.lanes.take b.active).sum := by
    intro bs
    induction bs with
    | nil => intro a; simp
    | cons b bs ih => intro a; simp only [List.foldl_cons, List.flatMap_cons, List.sum_append]; rw [ih, h1, add_assoc]
  unfold domainQuantity
  rw [h1]
  induction ranks generalizing cells with
  | nil => simp
  | cons bs ranks ih =>
    rw [List.map_cons, List.sum_cons, List.flatMap_cons, List.sum_append, h2, zero_add, ih _ (List.Perm.refl _)]

/-- **C81** (one cell).  The value of a cell is the sum over its quadrature points, each weighted by the filter. -/
theorem C81_cell [Semiring K] (points : List (K × K × K)) :
    cellIntegral points = (points.map fun p => p.1 * p.2.1 * p.2.2).sum := by
  have : ∀ (l : List (K × K × K)) (a : K),
      l.foldl (fun acc p => acc + p.1 * p.2.1 * p.2.2) a = a + (l.map fun p => p.1 * p.2.1 * p.2.2).sum := by
    intro l
    induction l with
    | nil => intro a; simp
    | cons p l ih => intro a; simp only [List.foldl_cons, List.map_cons, List.sum_cons]; rw [ih, add_assoc]
  rw [cellIntegral, this, zero_add]

namespace Ex81

/-- Five cells on two ranks, batches of two lanes; the unused lane contains garbage. -/
example : domainQuantity [[⟨[1, 2], 2⟩, ⟨[3, 1000], 1⟩], [⟨[4, 5], 2⟩]] = (15 : Nat) :=
  C81_domain _ [1, 2, 3, 4, 5] (List.Perm.refl _)

end Ex81

end Verif.Props
