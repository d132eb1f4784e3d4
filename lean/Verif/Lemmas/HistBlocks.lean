import Verif.Model.HistBlocks
import Verif.Lemmas.Cutoff

set_option linter.unusedSectionVars false

namespace Verif.HistBlocks

variable {B : Type}

theorem index_or (l : List B) (i : Nat) : (∃ b, Res.index l i = .ok b) ∨ Res.index l i = .ub := by
  unfold Res.index
  cases l[i]? with
  | none => exact .inr rfl
  | some b => exact .inl ⟨b, rfl⟩

theorem view_ok (l : List B) (s n : Nat) (h : s + n ≤ l.length) : view l s n = .ok ((l.drop s).take n) := by
  induction n generalizing s with
  | zero => simp [view]
  | succ n ih =>
    have h1 := ih (s + 1) (by omega)
    have hs : s < l.length := by omega
    unfold view at h1 ⊢
    rw [List.range_succ_eq_map, List.mapM_cons, Nat.add_zero, Res.index_ok hs, Res.ok_bind, List.mapM_map]
    have he2 : (List.range n).mapM ((fun j => Res.index l (s + j)) ∘ Nat.succ) = (List.range n).mapM fun j => Res.index l (s + 1 + j) := by
      congr 1
      funext j
      simp only [Function.comp]
      congr 1
      omega
    rw [he2, h1, Res.ok_bind, List.drop_eq_getElem_cons hs]
    rfl

theorem view_ub (l : List B) (s n : Nat) (h : l.length < s + n) (hn : 0 < n) : view l s n = .ub := by
  refine Res.mapM_ub _ _ (fun j _ => index_or l (s + j)) ⟨n - 1, List.mem_range.mpr (by omega), ?_⟩
  unfold Res.index
  rw [List.getElem?_eq_none (by omega)]

theorem view_or (l : List B) (s n : Nat) : (∃ b, view l s n = .ok b) ∨ view l s n = .ub := by
  by_cases h : s + n ≤ l.length
  · exact .inl ⟨_, view_ok l s n h⟩
  · rcases Nat.eq_zero_or_pos n with rfl | hn
    · exact .inl ⟨[], rfl⟩
    · exact .inr (view_ub l s n (by omega) hn)

theorem div_up (n total : Nat) (hn : 0 < n) (hd : n ∣ total) : (total + n - 1) / n = total / n := by
  obtain ⟨k, rfl⟩ := hd
  rw [Nat.mul_div_cancel_left k hn]
  refine Nat.div_eq_of_lt_le ?_ ?_
  · rw [Nat.mul_comm]; omega
  · rw [Nat.succ_mul, Nat.mul_comm]; omega

theorem mem_starts {n total s : Nat} (hn : 0 < n) (hd : n ∣ total) (h : s ∈ starts n total) : s + n ≤ total := by
  unfold starts at h
  rw [div_up n total hn hd] at h
  obtain ⟨k, hk, rfl⟩ := List.mem_map.mp h
  have hk := List.mem_range.mp hk
  obtain ⟨m, rfl⟩ := hd
  rw [Nat.mul_div_cancel_left m hn] at hk
  calc k * n + n = (k + 1) * n := by rw [Nat.succ_mul]
    _ ≤ m * n := Nat.mul_le_mul_right n hk
    _ = n * m := Nat.mul_comm _ _

theorem views_ok (l : List B) (n : Nat) (hn : 0 < n) (hd : n ∣ l.length) :
    ∃ v, (starts n l.length).mapM (fun s => view l s n) = .ok v := by
  refine ⟨_, Res.mapM_eq _ _ (fun s => (l.drop s).take n) ?_⟩
  intro s hs
  exact view_ok l s n (mem_starts hn hd hs)

theorem views_ub (l : List B) (n : Nat) (hn : 0 < n) (hd : ¬ n ∣ l.length) :
    (starts n l.length).mapM (fun s => view l s n) = .ub := by
  have hm : l.length % n ≠ 0 := fun h => hd (Nat.dvd_of_mod_eq_zero h)
  have he := Nat.div_add_mod l.length n
  have hlt := Nat.mod_lt l.length hn
  refine Res.mapM_ub _ _ (fun s _ => view_or l s n) ⟨l.length / n * n, ?_, ?_⟩
  · refine List.mem_map.mpr ⟨l.length / n, List.mem_range.mpr ?_, rfl⟩
    refine (Nat.le_div_iff_mul_le hn).mpr ?_
    rw [Nat.succ_mul, Nat.mul_comm]
    omega
  · refine view_ub l _ n ?_ hn
    rw [Nat.mul_comm]
    omega

theorem mem_covered (n total p : Nat) (hn : 0 < n) (h : p < total) : p ∈ covered n total := by
  have he := Nat.div_add_mod p n
  have hlt := Nat.mod_lt p hn
  refine List.mem_flatMap.mpr ⟨p / n * n, ?_, List.mem_map.mpr ⟨p % n, List.mem_range.mpr hlt, ?_⟩⟩
  · refine List.mem_map.mpr ⟨p / n, List.mem_range.mpr ?_, rfl⟩
    refine (Nat.le_div_iff_mul_le hn).mpr ?_
    rw [Nat.succ_mul, Nat.mul_comm]
    omega
  · rw [Nat.mul_comm]; omega

theorem split_flatten (f : B → B) (h : List (List B)) : split (h.map List.length) (h.flatten.map f) = h.map (List.map f) := by
  induction h with
  | nil => rfl
  | cons v h ih =>
    rw [List.map_cons, List.flatten_cons, List.map_append, split, List.map_cons]
    have hl : v.length = (v.map f).length := by simp
    congr 1
    · rw [hl, List.take_left]
    · rw [hl, List.drop_left]; exact ih

theorem interpolate_ok (T : B → B) (n : Nat) (hn : 0 < n) (l : List B) :
    l.zipIdx.mapM (interpolate T (covered n l.length)) = .ok (l.map T) := by
  have := Res.mapM_eq l.zipIdx (interpolate T (covered n l.length)) (fun p => T p.1) (by
    intro p hp
    unfold interpolate
    rw [if_pos (mem_covered n _ _ hn ?_)]
    obtain ⟨x, i⟩ := p
    have := List.mem_zipIdx hp
    simpa using this.2.1)
  rw [this]
  congr 1
  have : l.zipIdx.map (fun p => T p.1) = (l.zipIdx.map Prod.fst).map T := by rw [List.map_map]; rfl
  rw [this, List.zipIdx_map_fst]

end Verif.HistBlocks
