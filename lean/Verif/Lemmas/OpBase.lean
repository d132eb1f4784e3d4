import Verif.Model.OpBase
import Verif.Spec.OpBase
import Mathlib.Data.List.Nodup
import Mathlib.Tactic.Ring
import Mathlib.Algebra.Order.Group.Nat
import Mathlib.Algebra.Order.Ring.Nat

namespace Verif.OpBase

variable {κ K : Type}

section
variable [DecidableEq κ]

theorem put_same (v : κ → K) (k : κ) (x : K) : put v k x k = x := by simp [put]

theorem put_other (v : κ → K) {k j : κ} (x : K) (h : j ≠ k) : put v k x j = v j := by simp [put, h]

theorem saveZero_snd [Zero K] (ks : List κ) (s : κ → K) (k : κ) :
    (saveZero ks s).2 k = if k ∈ ks then 0 else s k := by
  induction ks generalizing s with
  | nil => simp [saveZero]
  | cons a ks ih =>
    rw [saveZero, ih]
    by_cases h : k ∈ ks
    · simp [h]
    · by_cases e : k = a
      · subst e; simp [put_same]
      · simp [h, e, put_other]

theorem saveZero_fst [Zero K] (ks : List κ) (s : κ → K) (h : ks.Nodup) : (saveZero ks s).1 = ks.map s := by
  induction ks generalizing s with
  | nil => rfl
  | cons a ks ih =>
    rw [List.nodup_cons] at h
    rw [saveZero]
    dsimp only
    rw [ih _ h.2, List.map_cons]
    congr 1
    refine List.map_congr_left ?_
    intro k hk
    rw [put_other]
    rintro rfl
    exact h.1 hk

theorem saveZero_length [Zero K] (ks : List κ) (s : κ → K) : (saveZero ks s).1.length = ks.length := by
  induction ks generalizing s with
  | nil => rfl
  | cons a ks ih => simp [saveZero, ih]

theorem saveZero_zero [Zero K] (ks : List κ) (s : κ → K) (h : ∀ k ∈ ks, s k = 0) : (saveZero ks s).1 = ks.map fun _ => 0 := by
  induction ks generalizing s with
  | nil => rfl
  | cons a ks ih =>
    rw [saveZero, ih, List.map_cons, h a (by simp)]
    intro k hk
    by_cases e : k = a
    · subst e; exact put_same _ _ _
    · rw [put_other _ _ e, h k (by simp [hk])]

theorem restore_fst (ks : List κ) (f : κ → K) (s d : κ → K) (k : κ) :
    (restore ks (ks.map f) s d).1 k = if k ∈ ks then f k else s k := by
  induction ks generalizing s d with
  | nil => simp [restore]
  | cons a ks ih =>
    rw [List.map_cons, restore, ih]
    by_cases h : k ∈ ks
    · simp [h]
    · by_cases e : k = a
      · subst e; simp [put_same]
      · simp [h, e, put_other]

theorem restore_snd (ks : List κ) (f : κ → K) (s d : κ → K) (k : κ) :
    (restore ks (ks.map f) s d).2 k = if k ∈ ks then f k else d k := by
  induction ks generalizing s d with
  | nil => simp [restore]
  | cons a ks ih =>
    rw [List.map_cons, restore, ih]
    by_cases h : k ∈ ks
    · simp [h]
    · by_cases e : k = a
      · subst e; simp [put_same]
      · simp [h, e, put_other]

theorem restore_not_mem (ks : List κ) (vs : List K) (s d : κ → K) {k : κ} (h : k ∉ ks) :
    (restore ks vs s d).1 k = s k ∧ (restore ks vs s d).2 k = d k := by
  induction ks generalizing vs s d with
  | nil => cases vs <;> simp [restore]
  | cons a ks ih =>
    cases vs with
    | nil => simp [restore]
    | cons v vs =>
      rw [List.mem_cons, not_or] at h
      rw [restore, (ih _ _ _ h.2).1, (ih _ _ _ h.2).2, put_other _ _ h.1, put_other _ _ h.1]
      exact ⟨rfl, rfl⟩

theorem restore_zero [Zero K] (ks : List κ) (s0 s d : κ → K) {k : κ} (h : k ∈ ks) (h0 : s0 k = 0) :
    (restore ks (saveZero ks s0).1 s d).1 k = 0 ∧ (restore ks (saveZero ks s0).1 s d).2 k = 0 := by
  induction ks generalizing s0 s d with
  | nil => simp at h
  | cons a ks ih =>
    rw [saveZero, restore]
    by_cases hk : k ∈ ks
    · refine ih _ _ _ hk ?_
      by_cases e : k = a
      · subst e; exact put_same _ _ _
      · rw [put_other _ _ e, h0]
    · have e : k = a := by simpa [hk] using h
      subst e
      rw [(restore_not_mem _ _ _ _ hk).1, (restore_not_mem _ _ _ _ hk).2, put_same, put_same]
      exact ⟨h0, h0⟩

/-- An entry which is listed twice ends up as zero. -/
theorem restore_twice [Zero K] [BEq κ] [LawfulBEq κ] (ks : List κ) (s0 s d : κ → K) {k : κ} (h : 2 ≤ ks.count k) :
    (restore ks (saveZero ks s0).1 s d).1 k = 0 ∧ (restore ks (saveZero ks s0).1 s d).2 k = 0 := by
  induction ks generalizing s0 s d with
  | nil => simp at h
  | cons a ks ih =>
    rw [saveZero, restore]
    by_cases e : a = k
    · subst e
      rw [List.count_cons_self] at h
      exact restore_zero ks _ _ _ (List.count_pos_iff.1 (by omega)) (put_same _ _ _)
    · rw [List.count_cons_of_ne e] at h
      exact ih _ _ _ h

theorem writeAll_map (ks : List κ) (f : κ → K) (d : κ → K) (k : κ) :
    writeAll ks (ks.map f) d k = if k ∈ ks then f k else d k := by
  induction ks generalizing d with
  | nil => simp [writeAll]
  | cons a ks ih =>
    rw [List.map_cons, writeAll, ih]
    by_cases h : k ∈ ks
    · simp [h]
    · by_cases e : k = a
      · subst e; simp [put_same]
      · simp [h, e, put_other]

theorem writeAll_not_mem (ks : List κ) (vs : List K) (d : κ → K) {k : κ} (h : k ∉ ks) : writeAll ks vs d k = d k := by
  induction ks generalizing vs d with
  | nil => cases vs <;> simp [writeAll]
  | cons a ks ih =>
    cases vs with
    | nil => simp [writeAll]
    | cons v vs =>
      rw [List.mem_cons, not_or] at h
      rw [writeAll, ih _ _ h.2, put_other _ _ h.1]

/-- Distinct entries get their values. -/
theorem writeAll_get (ks : List κ) (vs : List K) (d : κ → K) (h : ks.Nodup) (p : Nat) (hp : p < ks.length)
    (hv : p < vs.length) : writeAll ks vs d ks[p] = vs[p] := by
  induction ks generalizing vs d p with
  | nil => simp at hp
  | cons a ks ih =>
    rw [List.nodup_cons] at h
    cases vs with
    | nil => simp at hv
    | cons v vs =>
      rw [writeAll]
      cases p with
      | zero => simp [writeAll_not_mem _ _ _ h.1, put_same]
      | succ p => simpa using ih vs _ h.2 p (by simpa using hp) (by simpa using hv)

end

theorem mem_blockKeys {n : Nat} {idx : List Nat} {k : Nat × Nat} : k ∈ blockKeys n idx ↔ k.1 < n ∧ k.2 ∈ idx := by
  obtain ⟨b, i⟩ := k
  simp only [blockKeys, List.mem_flatMap, List.mem_range, List.mem_map, Prod.mk.injEq]
  constructor
  · rintro ⟨_, h, _, hi, rfl, rfl⟩; exact ⟨h, hi⟩
  · rintro ⟨h, hi⟩; exact ⟨b, h, i, hi, rfl, rfl⟩

theorem blockKeys_nodup {n : Nat} {idx : List Nat} (h : idx.Nodup) : (blockKeys n idx).Nodup := by
  rw [blockKeys, List.nodup_flatMap]
  refine ⟨fun b _ => h.map fun x y e => by simpa using e, ?_⟩
  refine (List.nodup_range).imp fun {a b} hab => ?_
  simp only [Function.onFun, List.disjoint_left, List.mem_map, not_exists, not_and]
  rintro _ ⟨i, _, rfl⟩ j _ e
  exact hab (by simpa using congrArg Prod.fst e.symm)

theorem mem_vecKeys {u : Nat} {idx : List Nat} {k : Nat} : k ∈ vecKeys u idx ↔ ∃ i ∈ idx, ∃ b < u, k = i * u + b := by
  simp only [vecKeys, List.mem_flatMap, List.mem_map, List.mem_range]
  constructor
  · rintro ⟨i, hi, b, hb, rfl⟩; exact ⟨i, hi, b, hb, rfl⟩
  · rintro ⟨i, hi, b, hb, rfl⟩; exact ⟨i, hi, b, hb, rfl⟩

theorem flat_injective {u i j b c : Nat} (hb : b < u) (hc : c < u) (h : i * u + b = j * u + c) : i = j ∧ b = c := by
  have hu : 0 < u := by omega
  have h1 : (i * u + b) / u = i := by rw [Nat.mul_comm, Nat.mul_add_div hu, Nat.div_eq_of_lt hb, Nat.add_zero]
  have h2 : (j * u + c) / u = j := by rw [Nat.mul_comm, Nat.mul_add_div hu, Nat.div_eq_of_lt hc, Nat.add_zero]
  have e : i = j := by rw [← h1, ← h2, h]
  subst e
  exact ⟨rfl, by omega⟩

theorem vecKeys_nodup {u : Nat} {idx : List Nat} (h : idx.Nodup) : (vecKeys u idx).Nodup := by
  rw [vecKeys, List.nodup_flatMap]
  refine ⟨fun i _ => (List.nodup_range).map fun x y e => by simpa using e, ?_⟩
  refine h.imp fun {a b} hab => ?_
  simp only [Function.onFun, List.disjoint_left, List.mem_map, List.mem_range, not_exists, not_and]
  rintro _ ⟨i, hi, rfl⟩ j hj e
  exact hab (flat_injective hj hi e).1.symm

theorem vecKeys_one (idx : List Nat) : vecKeys 1 idx = idx := by
  simp [vecKeys, List.flatMap_singleton']

/-! Copies -/

theorem copyAll_ok {α β : Type} [DecidableEq α] (okD : α → Bool) (okS : β → Bool) (src : β → K) (l : List (α × β))
    (d : α → K) (hb : ∀ p ∈ l, okD p.1 = true ∧ okS p.2 = true)
    (hc : ∀ p ∈ l, ∀ q ∈ l, p.1 = q.1 → p.2 = q.2) :
    ∃ d', copyAll okD okS src l d = .ok d' ∧ (∀ p ∈ l, d' p.1 = src p.2) ∧ ∀ a, (∀ p ∈ l, p.1 ≠ a) → d' a = d a := by
  induction l generalizing d with
  | nil => exact ⟨d, rfl, by simp, fun _ _ => rfl⟩
  | cons p l ih =>
    obtain ⟨a, b⟩ := p
    obtain ⟨d', h1, h2, h3⟩ := ih (put d a (src b)) (fun p hp => hb p (by simp [hp]))
      (fun p hp q hq => hc p (by simp [hp]) q (by simp [hq]))
    refine ⟨d', ?_, ?_, ?_⟩
    · rw [copyAll, if_pos (by simpa using hb (a, b) (by simp)), h1]
    · intro p hp
      rcases List.mem_cons.1 hp with rfl | hp
      · by_cases h : ∃ q ∈ l, q.1 = a
        · obtain ⟨q, hq, e⟩ := h
          have := h2 q hq
          rw [e] at this
          rw [this, hc q (by simp [hq]) (a, b) (by simp) e]
        · rw [h3 a fun q hq e => h ⟨q, hq, e⟩, put_same]
      · exact h2 p hp
    · intro c hcne
      rw [h3 c fun p hp => hcne p (by simp [hp]), put_other]
      exact (hcne (a, b) (by simp)).symm

theorem copyAll_ub {α β : Type} [DecidableEq α] (okD : α → Bool) (okS : β → Bool) (src : β → K) (l : List (α × β))
    (d : α → K) (h : ∃ p ∈ l, okD p.1 = false ∨ okS p.2 = false) : copyAll okD okS src l d = .ub := by
  induction l generalizing d with
  | nil => simp at h
  | cons p l ih =>
    obtain ⟨a, b⟩ := p
    rw [copyAll]
    split
    · next hok =>
      refine ih _ ?_
      obtain ⟨q, hq, hq'⟩ := h
      rcases List.mem_cons.1 hq with rfl | hq
      · simp only [Bool.and_eq_true] at hok
        rcases hq' with h | h <;> simp_all
      · exact ⟨q, hq, hq'⟩
    · rfl

/-! Slots -/

/-- Number of entries in front of group `t`. -/
def before (gs : List Nat) (t : Nat) : Nat := (gs.take t).sum

theorem slotsFrom_spec (gs : List Nat) (o : Nat) (p : Nat) (x : Nat × Nat) :
    ((gs.zipIdx o).flatMap fun g => (List.range g.1).map fun m => (g.2, m))[p]? = some x ↔
      o ≤ x.1 ∧ x.1 < o + gs.length ∧ x.2 < gs.getD (x.1 - o) 0 ∧ p = before gs (x.1 - o) + x.2 := by
  induction gs generalizing o p with
  | nil => simp
  | cons g gs ih =>
    obtain ⟨t, m⟩ := x
    rw [List.zipIdx_cons, List.flatMap_cons, List.getElem?_append]
    simp only [List.length_map, List.length_range, List.length_cons]
    by_cases hp : p < g
    · rw [if_pos hp, List.getElem?_map, List.getElem?_range hp]
      simp only [Option.map_some, Option.some.injEq, Prod.mk.injEq]
      constructor
      · rintro ⟨rfl, rfl⟩
        refine ⟨le_refl _, by omega, ?_, ?_⟩
        · simpa using hp
        · simp [before]
      · rintro ⟨h1, h2, h3, h4⟩
        by_cases e : t = o
        · subst e
          simp [before] at h4
          exact ⟨rfl, h4⟩
        · exfalso
          obtain ⟨k, hk⟩ : ∃ k, t - o = k + 1 := ⟨t - o - 1, by omega⟩
          rw [hk] at h4
          simp only [before, List.take_succ_cons, List.sum_cons] at h4
          omega
    · rw [if_neg hp, ih]
      constructor
      · rintro ⟨h1, h2, h3, h4⟩
        obtain ⟨k, hk⟩ : ∃ k, t - o = k + 1 := ⟨t - o - 1, by omega⟩
        have hk' : t - (o + 1) = k := by omega
        rw [hk'] at h3 h4
        refine ⟨by omega, by omega, ?_, ?_⟩
        · rw [hk]; simpa using h3
        · rw [hk]
          simp only [before, List.take_succ_cons, List.sum_cons] at h4 ⊢
          omega
      · rintro ⟨h1, h2, h3, h4⟩
        have hto : t ≠ o := by
          rintro rfl
          simp [before] at h3 h4
          omega
        obtain ⟨k, hk⟩ : ∃ k, t - o = k + 1 := ⟨t - o - 1, by omega⟩
        have hk' : t - (o + 1) = k := by omega
        rw [hk] at h3 h4
        refine ⟨by omega, by omega, ?_, ?_⟩
        · rw [hk']; simpa using h3
        · rw [hk']
          simp only [before, List.take_succ_cons, List.sum_cons] at h4 ⊢
          omega

theorem slots_spec (gs : List Nat) (p : Nat) (t m : Nat) :
    (slots gs)[p]? = some (t, m) ↔ t < gs.length ∧ m < gs.getD t 0 ∧ p = before gs t + m := by
  have := slotsFrom_spec gs 0 p (t, m)
  simpa [slots] using this

theorem before_lt (gs : List Nat) {t m : Nat} (ht : t < gs.length) (hm : m < gs.getD t 0) : before gs t + m < gs.sum := by
  induction gs generalizing t with
  | nil => simp at ht
  | cons g gs ih =>
    cases t with
    | zero => simp [before] at hm ⊢; omega
    | succ t =>
      have := ih (t := t) (by simpa using ht) (by simpa using hm)
      simp only [before, List.take_succ_cons, List.sum_cons] at this ⊢
      omega

theorem exists_slot (gs : List Nat) {p : Nat} (hp : p < gs.sum) :
    ∃ t m, t < gs.length ∧ m < gs.getD t 0 ∧ p = before gs t + m := by
  induction gs generalizing p with
  | nil => simp at hp
  | cons g gs ih =>
    by_cases h : p < g
    · exact ⟨0, p, by simp, by simpa using h, by simp [before]⟩
    · obtain ⟨t, m, h1, h2, h3⟩ := ih (p := p - g) (by simp at hp; omega)
      refine ⟨t + 1, m, by simpa using h1, by simpa using h2, ?_⟩
      simp only [before, List.take_succ_cons, List.sum_cons] at h3 ⊢
      omega

theorem mem_assignments {gs : List Nat} {r : Nat} {a : Nat × Nat} {i : Nat} :
    (a, i) ∈ assignments gs r ↔
      ∃ j < r, ∃ m, a.1 < gs.length ∧ m < gs.getD a.1 0 ∧ a.2 = j * gs.getD a.1 0 + m ∧
        i = j * gs.sum + (before gs a.1 + m) := by
  obtain ⟨t, q⟩ := a
  simp only [assignments, List.mem_flatMap, List.mem_range, List.mem_map, Prod.mk.injEq]
  constructor
  · rintro ⟨j, hj, ⟨⟨t', m⟩, p⟩, hs, ⟨h1, h2⟩, h3⟩
    rw [List.mem_zipIdx_iff_getElem?, slots_spec] at hs
    dsimp only at h1 h2 h3 hs
    subst h1
    exact ⟨j, hj, m, hs.1, hs.2.1, h2.symm, by rw [← h3, hs.2.2]⟩
  · rintro ⟨j, hj, m, h1, h2, h3, h4⟩
    refine ⟨j, hj, ((t, m), before gs t + m), ?_, ⟨rfl, h3.symm⟩, h4.symm⟩
    rw [List.mem_zipIdx_iff_getElem?, slots_spec]
    exact ⟨h1, h2, rfl⟩

theorem assignments_functional {gs : List Nat} {r : Nat} {a a' : Nat × Nat} {i i' : Nat}
    (h : (a, i) ∈ assignments gs r) (h' : (a', i') ∈ assignments gs r) : (a = a' → i = i') ∧ (i = i' → a = a') := by
  obtain ⟨t, q⟩ := a
  obtain ⟨t', q'⟩ := a'
  rw [mem_assignments] at h h'
  obtain ⟨j, _, m, h1, h2, h3, h4⟩ := h
  obtain ⟨j', _, m', h1', h2', h3', h4'⟩ := h'
  dsimp only at h1 h2 h3 h4 h1' h2' h3' h4'
  constructor
  · rintro e
    obtain ⟨rfl, rfl⟩ := Prod.mk.inj e
    rw [h3] at h3'
    obtain ⟨rfl, rfl⟩ := flat_injective h2 h2' h3'
    rw [h4, h4']
  · rintro rfl
    rw [h4] at h4'
    obtain ⟨rfl, e⟩ := flat_injective (before_lt gs h1 h2) (before_lt gs h1' h2') h4'
    have s1 := (slots_spec gs (before gs t + m) t m).2 ⟨h1, h2, rfl⟩
    have s2 := (slots_spec gs (before gs t + m) t' m').2 ⟨h1', h2', e⟩
    rw [s1] at s2
    obtain ⟨rfl, rfl⟩ := Prod.mk.inj (Option.some.inj s2)
    rw [h3, h3']

theorem rounds_mul {n r : Nat} (hn : 0 < n) : rounds n (r * n) = some r := by
  unfold rounds
  by_cases h : r * n = 0
  · rw [if_pos h]
    rcases Nat.mul_eq_zero.1 h with h | h
    · rw [h]
    · omega
  · rw [if_neg h, if_neg (by omega)]
    congr 1
    have : r * n + n - 1 = n * r + (n - 1) := by rw [Nat.mul_comm]; omega
    rw [this, Nat.mul_add_div hn, Nat.div_eq_of_lt (by omega), Nat.add_zero]

end Verif.OpBase
