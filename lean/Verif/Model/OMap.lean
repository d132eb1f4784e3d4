/-!
# `std::map<unsigned int, T>`

An association list sorted strictly by key; iteration order is ascending key order.
-/
namespace Verif

abbrev OMap (α : Type _) := List (Nat × α)

namespace OMap
variable {α : Type _} {β : Type _}

/-- `find` / guarded `at` -/
def get? : OMap α → Nat → Option α
  | [], _ => none
  | (k', v) :: m, k => if k' = k then some v else get? m k

/-- `emplace` / `try_emplace`: does nothing if the key is present. -/
def emplace : OMap α → Nat → α → OMap α
  | [], k, v => [(k, v)]
  | (k', v') :: m, k, v =>
    if k < k' then (k, v) :: (k', v') :: m
    else if k' = k then (k', v') :: m
    else (k', v') :: emplace m k v

/-- `operator[]=` / `insert_or_assign` -/
def set : OMap α → Nat → α → OMap α
  | [], k, v => [(k, v)]
  | (k', v') :: m, k, v =>
    if k < k' then (k, v) :: (k', v') :: m
    else if k' = k then (k', v) :: m
    else (k', v') :: set m k v

/-- keys in iteration order -/
def keys (m : OMap α) : List Nat := m.map Prod.fst

/-- the representation invariant of `std::map` -/
def Sorted (m : OMap α) : Prop := m.Pairwise (fun a b => a.1 < b.1)

instance (m : OMap α) : Decidable (Sorted m) := by unfold Sorted; infer_instance

theorem sorted_nil : Sorted ([] : OMap α) := List.Pairwise.nil

@[simp] theorem get?_nil (k : Nat) : get? ([] : OMap α) k = none := rfl

theorem get?_cons (k' : Nat) (v : α) (m : OMap α) (k : Nat) :
    get? ((k', v) :: m) k = if k' = k then some v else get? m k := rfl

theorem get?_eq_none_of_lt : ∀ {m : OMap α} {k : Nat}, (∀ p ∈ m, k < p.1) → get? m k = none
  | [], _, _ => rfl
  | (k', v) :: m, k, h => by
    have h1 := h (k', v) (by simp)
    rw [get?_cons, if_neg (by simp at h1; omega)]
    exact get?_eq_none_of_lt (fun p hp => h p (by simp [hp]))

theorem mem_of_get? : ∀ {m : OMap α} {k : Nat} {v : α}, get? m k = some v → (k, v) ∈ m
  | (k', v') :: m, k, v, h => by
    rw [get?_cons] at h
    split at h
    · simp_all
    · exact List.mem_cons_of_mem _ (mem_of_get? h)

theorem get?_of_mem : ∀ {m : OMap α} {k : Nat} {v : α}, Sorted m → (k, v) ∈ m → get? m k = some v
  | (k', v') :: m, k, v, hs, h => by
    rw [Sorted, List.pairwise_cons] at hs
    rw [get?_cons]
    rcases List.mem_cons.1 h with h | h
    · simp at h; simp [h]
    · have := hs.1 _ h
      rw [if_neg (by simp at this; omega)]
      exact get?_of_mem hs.2 h

theorem get?_iff_mem {m : OMap α} (hs : Sorted m) {k : Nat} {v : α} :
    get? m k = some v ↔ (k, v) ∈ m := ⟨mem_of_get?, get?_of_mem hs⟩

theorem get?_isSome_iff_mem_keys : ∀ {m : OMap α} {k : Nat}, (get? m k).isSome ↔ k ∈ keys m
  | [], k => by simp [keys]
  | (k', v') :: m, k => by
    rw [get?_cons]
    have ih := get?_isSome_iff_mem_keys (m := m) (k := k)
    simp only [keys, List.map_cons, List.mem_cons] at *
    by_cases h : k' = k
    · simp [h]
    · simp [h, ih, Ne.symm h]

theorem get?_eq_none_iff {m : OMap α} {k : Nat} : get? m k = none ↔ k ∉ keys m := by
  rw [← get?_isSome_iff_mem_keys]; simp

theorem mem_emplace : ∀ {m : OMap α} {k : Nat} {v : α} {p : Nat × α},
    p ∈ emplace m k v → p ∈ m ∨ p = (k, v)
  | [], k, v, p, h => by simp [emplace] at h; simp [h]
  | (k', v') :: m, k, v, p, h => by
    rw [emplace] at h
    split at h
    · simp at h ⊢; grind
    · split at h
      · exact Or.inl h
      · rcases List.mem_cons.1 h with h | h
        · simp [h]
        · rcases mem_emplace h with h | h <;> simp [h]

theorem mem_set : ∀ {m : OMap α} {k : Nat} {v : α} {p : Nat × α},
    p ∈ set m k v → p ∈ m ∨ p = (k, v)
  | [], k, v, p, h => by simp [set] at h; simp [h]
  | (k', v') :: m, k, v, p, h => by
    rw [set] at h
    split at h
    · simp at h ⊢; grind
    · split at h
      · simp at h ⊢; grind
      · rcases List.mem_cons.1 h with h | h
        · simp [h]
        · rcases mem_set h with h | h <;> simp [h]

theorem sorted_emplace : ∀ {m : OMap α} {k : Nat} {v : α}, Sorted m → Sorted (emplace m k v)
  | [], k, v, _ => by simp [emplace, Sorted]
  | (k', v') :: m, k, v, h => by
    rw [Sorted, List.pairwise_cons] at h
    rw [emplace, Sorted]
    split
    · rename_i hk
      rw [List.pairwise_cons, List.pairwise_cons]
      refine ⟨?_, h.1, h.2⟩
      intro p hp
      rcases List.mem_cons.1 hp with hp | hp
      · simp [hp, hk]
      · have := h.1 p hp; simp at this ⊢; omega
    · split
      · exact List.pairwise_cons.2 h
      · refine List.pairwise_cons.2 ⟨?_, sorted_emplace h.2⟩
        intro p hp
        rcases mem_emplace hp with hp | hp
        · exact h.1 p hp
        · simp [hp]; omega

theorem sorted_set : ∀ {m : OMap α} {k : Nat} {v : α}, Sorted m → Sorted (set m k v)
  | [], k, v, _ => by simp [set, Sorted]
  | (k', v') :: m, k, v, h => by
    rw [Sorted, List.pairwise_cons] at h
    rw [set, Sorted]
    split
    · rename_i hk
      rw [List.pairwise_cons, List.pairwise_cons]
      refine ⟨?_, h.1, h.2⟩
      intro p hp
      rcases List.mem_cons.1 hp with hp | hp
      · simp [hp, hk]
      · have := h.1 p hp; simp at this ⊢; omega
    · split
      · exact List.pairwise_cons.2 h
      · refine List.pairwise_cons.2 ⟨?_, sorted_set h.2⟩
        intro p hp
        rcases mem_set hp with hp | hp
        · exact h.1 p hp
        · simp [hp]; omega

/-- key-value semantics of `emplace` -/
theorem get?_emplace : ∀ {m : OMap α} {k : Nat} {v : α}, Sorted m → ∀ k',
    get? (emplace m k v) k' = if k' = k then some ((get? m k).getD v) else get? m k'
  | [], k, v, _, j => by simp [emplace, get?_cons, eq_comm]
  | (k', v') :: m, k, v, h, j => by
    have h' := h
    rw [Sorted, List.pairwise_cons] at h
    rw [emplace]
    split
    · rename_i hk
      have hn : get? ((k', v') :: m) k = none := get?_eq_none_of_lt (by
        intro p hp
        rcases List.mem_cons.1 hp with hp | hp
        · simp [hp, hk]
        · have := h.1 p hp; simp at this; omega)
      rw [get?_cons, hn]
      by_cases hj : k = j
      · simp [hj]
      · simp [hj, Ne.symm hj]
    · split
      · rename_i hk hk2
        subst hk2
        simp only [get?_cons]
        by_cases hj : k' = j <;> simp [hj, eq_comm]
      · rename_i hk hk2
        simp only [get?_cons, if_neg hk2]
        rw [get?_emplace h.2 j]
        by_cases hj : k' = j
        · have : ¬ j = k := by omega
          simp [hj, this]
        · simp [hj]

/-- key-value semantics of `insert_or_assign` -/
theorem get?_set : ∀ {m : OMap α} {k : Nat} {v : α}, Sorted m → ∀ k',
    get? (set m k v) k' = if k' = k then some v else get? m k'
  | [], k, v, _, j => by simp [set, get?_cons, eq_comm]
  | (k', v') :: m, k, v, h, j => by
    have h' := h
    rw [Sorted, List.pairwise_cons] at h
    rw [set]
    split
    · rename_i hk
      rw [get?_cons]
      by_cases hj : k = j
      · simp [hj]
      · simp [hj, Ne.symm hj]
    · split
      · rename_i hk hk2
        subst hk2
        simp only [get?_cons]
        by_cases hj : k' = j <;> simp [hj, eq_comm]
      · rename_i hk hk2
        simp only [get?_cons]
        rw [get?_set h.2 j]
        by_cases hj : k' = j
        · have : ¬ j = k := by omega
          simp [hj, this]
        · simp [hj]

theorem keys_nodup {m : OMap α} (h : Sorted m) : (keys m).Nodup := by
  induction m with
  | nil => simp [keys]
  | cons p m ih =>
    rw [Sorted, List.pairwise_cons] at h
    simp only [keys, List.map_cons, List.nodup_cons, List.mem_map, not_exists, not_and]
    refine ⟨fun q hq he => ?_, ih h.2⟩
    have := h.1 q hq
    omega

/-- two sorted maps with the same lookups are equal -/
theorem ext : ∀ {m m' : OMap α}, Sorted m → Sorted m' → (∀ k, get? m k = get? m' k) → m = m'
  | [], [], _, _, _ => rfl
  | [], (k, v) :: m', _, _, h => by simpa [get?_cons] using h k
  | (k, v) :: m, [], _, _, h => by simpa [get?_cons] using h k
  | (k, v) :: m, (k', v') :: m', hs, hs', h => by
    have hs0 := hs; have hs0' := hs'
    rw [Sorted, List.pairwise_cons] at hs hs'
    have e1 := h k
    have e2 := h k'
    simp only [get?_cons] at e1 e2
    have hk : k = k' := by
      by_cases hkk : k = k'
      · exact hkk
      · exfalso
        rcases Nat.lt_or_gt_of_ne hkk with hlt | hlt
        · rw [if_pos trivial, if_neg (Ne.symm hkk)] at e1
          have := hs'.1 _ (mem_of_get? e1.symm)
          simp at this; omega
        · rw [if_neg hkk, if_pos trivial] at e2
          have := hs.1 _ (mem_of_get? e2)
          simp at this; omega
    subst hk
    simp at e1
    subst e1
    congr 1
    refine ext hs.2 hs'.2 (fun j => ?_)
    have := h j
    simp only [get?_cons] at this
    by_cases hj : k = j
    · subst hj
      rw [get?_eq_none_of_lt (fun p hp => hs.1 p hp), get?_eq_none_of_lt (fun p hp => hs'.1 p hp)]
    · simpa [hj] using this

theorem length_emplace_absent : ∀ {m : OMap α} {k : Nat} {v : α}, get? m k = none →
    (emplace m k v).length = m.length + 1
  | [], _, _, _ => rfl
  | (k', v') :: m, k, v, h => by
    rw [get?_cons] at h
    rw [emplace]
    split
    · rfl
    · split
      · rename_i h2; simp [h2] at h
      · rename_i h2
        rw [if_neg h2] at h
        simp [length_emplace_absent h]

theorem length_set_present : ∀ {m : OMap α} {k : Nat} {v : α}, Sorted m → (get? m k).isSome →
    (set m k v).length = m.length
  | (k', v') :: m, k, v, hs, h => by
    have hs' := hs
    rw [Sorted, List.pairwise_cons] at hs
    rw [get?_cons] at h
    rw [set]
    split
    · rename_i hlt
      rw [if_neg (by omega), get?_eq_none_of_lt (by
        intro p hp; have := hs.1 p hp; simp at this; omega)] at h
      simp at h
    · split
      · rfl
      · rename_i h2
        rw [if_neg h2] at h
        simp [length_set_present hs.2 h]

end OMap
end Verif
