import Verif.Model.Cutoff
import Mathlib.Data.List.Induction
import Mathlib.Algebra.BigOperators.Group.List.Basic
import Mathlib.Algebra.Order.Group.Unbundled.Abs
/-! # Lemmas about the cut-off storage -/

theorem Verif.Res.mapM_eq {α β : Type} (l : List α) (f : α → Verif.Res β) (g : α → β)
    (h : ∀ a ∈ l, f a = .ok (g a)) : l.mapM f = .ok (l.map g) := by
  induction l with
  | nil => rfl
  | cons a l ih =>
    rw [List.mapM_cons, h a (by simp), Verif.Res.ok_bind, ih (fun b hb => h b (by simp [hb]))]
    rfl

theorem Verif.Res.mapM_ub {α β : Type} (l : List α) (f : α → Verif.Res β)
    (h : ∀ a ∈ l, (∃ b, f a = .ok b) ∨ f a = .ub) (hu : ∃ a ∈ l, f a = .ub) : l.mapM f = .ub := by
  induction l with
  | nil => simp at hu
  | cons a l ih =>
    rw [List.mapM_cons]
    rcases h a (by simp) with ⟨b, hb⟩ | hb
    · rw [hb, Verif.Res.ok_bind]
      have : l.mapM f = .ub := by
        refine ih (fun c hc => h c (by simp [hc])) ?_
        obtain ⟨c, hc, hcu⟩ := hu
        rcases List.mem_cons.1 hc with rfl | hc
        · rw [hb] at hcu; cases hcu
        · exact ⟨c, hc, hcu⟩
      rw [this]; rfl
    · rw [hb]; rfl

theorem Verif.Res.mapM_ok_or_ub {α β : Type} (l : List α) (f : α → Verif.Res β)
    (h : ∀ a ∈ l, (∃ b, f a = .ok b) ∨ f a = .ub) : (∃ b, l.mapM f = .ok b) ∨ l.mapM f = .ub := by
  by_cases hu : ∃ a ∈ l, f a = .ub
  · exact .inr (Verif.Res.mapM_ub l f h hu)
  · left
    induction l with
    | nil => exact ⟨_, rfl⟩
    | cons a l ih =>
      rcases h a (by simp) with ⟨b, hb⟩ | hb
      · obtain ⟨c, hc⟩ := ih (fun c hc => h c (by simp [hc])) (fun ⟨c, hc, hcu⟩ => hu ⟨c, by simp [hc], hcu⟩)
        exact ⟨b :: c, by rw [List.mapM_cons, hb, Verif.Res.ok_bind, hc]; rfl⟩
      · exact absurd ⟨a, by simp, hb⟩ hu

namespace Verif.Cutoff

section lists
variable {α : Type}

theorem flatten_get (L : List (List α)) (i : Nat) (row : List α) (h : L[i]? = some row) (k : Nat) (hk : k < row.length) :
    L.flatten[((L.map List.length).take i).sum + k]? = row[k]? := by
  induction L generalizing i with
  | nil => simp at h
  | cons a L ih =>
    cases i with
    | zero =>
      simp at h; subst h
      simp [List.getElem?_append, hk]
    | succ i =>
      rw [List.getElem?_cons_succ] at h
      rw [List.flatten_cons, List.map_cons, List.take_succ_cons, List.sum_cons, Nat.add_assoc,
        List.getElem?_append_right (by omega), Nat.add_sub_cancel_left]
      exact ih i h

theorem take_sum_const (L : List Nat) (w : Nat) (h : ∀ a ∈ L, a = w) (i : Nat) (hi : i ≤ L.length) :
    (L.take i).sum = i * w := by
  have : L = List.replicate L.length w := List.eq_replicate_iff.2 ⟨rfl, h⟩
  rw [this, List.take_replicate, List.sum_replicate]
  rw [Nat.min_eq_left hi]; simp

/-- Running sums. -/
def ptrs (ws : List Nat) : List Nat := (List.range (ws.length + 1)).map fun i => (ws.take i).sum

theorem ptrs_get (ws : List Nat) (i : Nat) (h : i ≤ ws.length) : (ptrs ws)[i]? = some (ws.take i).sum := by
  simp only [ptrs, List.getElem?_map]
  rw [List.getElem?_range (by omega)]; rfl

theorem ptrs_append (ws : List Nat) (w : Nat) : ptrs (ws ++ [w]) = ptrs ws ++ [ws.sum + w] := by
  have h : (ws ++ [w]).length + 1 = ws.length + 1 + 1 := by simp
  rw [ptrs, h, List.range_succ, List.map_append, ptrs]
  congr 1
  · refine List.map_congr_left fun i hi => ?_
    have : i ≤ ws.length := by have := List.mem_range.1 hi; omega
    rw [List.take_append_of_le_length this]
  · simp [List.take_of_length_le]

theorem ptrs_last (ws : List Nat) : (ptrs ws).getLastD 0 = ws.sum := by
  rcases List.eq_nil_or_concat ws with rfl | ⟨l, w, rfl⟩
  · rfl
  · rw [List.concat_eq_append, ptrs_append]; simp [List.getLastD_eq_getLast?]

end lists

set_option linter.unusedSectionVars false

variable {X : Type} [Zero X]

theorem writeSeq_eq (xs : List X) (arr : List X) (start : Nat) (h : start + xs.length ≤ arr.length) :
    writeSeq arr start xs = .ok (arr.take start ++ xs ++ arr.drop (start + xs.length)) := by
  induction xs generalizing arr start with
  | nil => simp [writeSeq]
  | cons x xs ih =>
    simp only [List.length_cons] at h
    have hs : start < arr.length := by omega
    rw [writeSeq, writeAt, if_pos hs, Res.ok_bind, ih _ _ (by rw [List.length_set]; omega)]
    congr 1
    rw [List.take_add_one, List.take_set_of_le (by omega), List.getElem?_set_self hs, List.drop_set_of_lt (by omega)]
    simp [Nat.add_comm, Nat.add_left_comm]

theorem compressLoop_eq (cf : Conf) (n : Nat) (ptr : List Nat) (rows : List (List Bool)) (tabs : List (List (List X)))
    (hlen : tabs.length = rows.length) (arr : List X) (cell P : Nat)
    (hptr : ∀ i < rows.length, ptr[cell + i]? =
      some (P + ((((rows.zip tabs).map fun t => (compressed cf t.1 n t.2).length)).take i).sum))
    (hsz : P + (((rows.zip tabs).map fun t => (compressed cf t.1 n t.2).length)).sum ≤ arr.length) :
    compressLoop cf n ptr cell rows tabs arr = .ok (arr.take P ++
      ((rows.zip tabs).map fun t => compressed cf t.1 n t.2).flatten ++
      arr.drop (P + (((rows.zip tabs).map fun t => (compressed cf t.1 n t.2).length)).sum)) := by
  induction rows generalizing tabs arr cell P with
  | nil => simp [compressLoop]
  | cons r rows ih =>
    cases tabs with
    | nil => simp at hlen
    | cons t tabs =>
      simp only [List.zip_cons_cons, List.map_cons, List.sum_cons, List.length_cons] at *
      have h0 := hptr 0 (by omega)
      simp at h0
      rw [compressLoop, Res.index_eq_ok.2 h0, Res.ok_bind, writeSeq_eq _ _ _ (by omega), Res.ok_bind]
      rw [ih tabs (by omega) _ (cell + 1) (P + (compressed cf r n t).length)]
      · congr 1
        have hP : P ≤ arr.length := by omega
        have e1 : (arr.take P ++ compressed cf r n t).length = P + (compressed cf r n t).length := by
          simp [hP]
        rw [List.take_left' e1, List.drop_append, ← e1]
        have e2 : ∀ s, (arr.take P ++ compressed cf r n t).drop ((arr.take P ++ compressed cf r n t).length + s) = [] :=
          fun s => List.drop_eq_nil_of_le (by omega)
        rw [e2, Nat.add_sub_cancel_left, List.nil_append, List.drop_drop, e1]
        simp [Nat.add_assoc]
      · intro i hi
        have := hptr (i + 1) (by omega)
        rw [show cell + 1 + i = cell + (i + 1) by omega, this]
        simp [Nat.add_assoc]
      · simp; omega

theorem keep_filter (cf : Conf) (row : List Bool) :
    (List.range (cf.offset + cf.nGrains)).filter (keep cf row) =
      List.range cf.offset ++ ((List.range cf.nGrains).filter fun j => row.getD j false).map (cf.offset + ·) := by
  rw [List.range_add, List.filter_append, List.filter_map]
  congr 1
  · rw [List.filter_eq_self]
    intro c hc
    simp [keep, List.mem_range.1 hc]
  · congr 1
    refine List.filter_congr fun j hj => ?_
    have := List.mem_range.1 hj
    simp [keep, this]

theorem keep_filter_offset (cf : Conf) (row : List Bool) :
    (List.range cf.offset).filter (keep cf row) = List.range cf.offset := by
  rw [List.filter_eq_self]
  intro c hc
  simp [keep, List.mem_range.1 hc]

/-- Closed form of the data set by `set_component_mask`. -/
theorem mask_eq (cf : Conf) (rows : List (List Bool)) :
    rows.foldl (pushCell cf) ⟨[], [], [0], [0], [0]⟩ =
      let sel := fun row : List Bool => (List.range cf.nGrains).filter fun j => row.getD j false
      { table := rows
        relevant := (rows.map fun r => (sel r).map (· % 256)).flatten
        relPtr := ptrs (rows.map fun r => (sel r).length)
        valuePtr := ptrs (rows.map fun r => cf.nq * (cf.nSaveV - cf.nGrains + (sel r).length))
        gradPtr := ptrs (rows.map fun r => cf.nq *
          (if cf.tensorial || cf.gradMask then cf.nSaveV - cf.nGrains + (sel r).length else cf.offset)) } := by
  induction rows using List.reverseRecOn with
  | nil => rfl
  | append_singleton rows r ih =>
    rw [List.foldl_append, ih]
    simp only [List.foldl_cons, List.foldl_nil, pushCell, List.map_append, List.map_cons, List.map_nil, ptrs_append,
      ptrs_last, List.flatten_append, List.flatten_cons, List.flatten_nil, List.append_nil]
    congr 1
    congr 1
    simp [List.length_flatten, Function.comp_def]

theorem plain_keep (cf : Conf) (m : Mask) (val : Nat → Nat → Nat → X) (hrow : ∀ r ∈ m.table, r.length = cf.nGrains)
    (cell q c : Nat) (row : List Bool) (hc : m.table[cell]? = some row) (hcn : c < cf.offset + cf.nGrains) :
    plain cf (some m) val cell q c = .ok (if keep cf row c then val cell q c else 0) := by
  have hcell : cell < m.table.length := (List.getElem?_eq_some_iff.1 hc).1
  rw [plain]
  by_cases h : cf.offset ≤ c
  · rw [if_pos ⟨by omega, h⟩]
    have hr : row.length = cf.nGrains := hrow row (List.mem_of_getElem? hc)
    have hk : c - cf.offset < row.length := by omega
    have := flatten_get m.table cell row hc (c - cf.offset) hk
    rw [take_sum_const _ cf.nGrains (by simpa using hrow) cell (by simp; omega)] at this
    rw [Res.index_eq_ok.2 (this.trans (List.getElem?_eq_getElem hk)), Res.ok_bind]
    have h1 : ¬ c < cf.offset := by omega
    have h2 : ¬ cf.offset + cf.nGrains ≤ c := by omega
    simp [keep, h1, h2, List.getD_eq_getElem?_getD, List.getElem?_eq_getElem hk]
  · rw [if_neg (fun h' => h h'.2)]
    have h1 : c < cf.offset := by omega
    simp [keep, h1]

/-- What `fill_quadrature_point_values` stores with a mask. -/
theorem fillField_eq (cf : Conf) (m : Mask) (n : Nat) (ptr : Mask → List Nat) (val : Nat → Nat → Nat → X)
    (hrow : ∀ r ∈ m.table, r.length = cf.nGrains) (hn : n ≤ cf.offset + cf.nGrains)
    (hptr : ptr m = ptrs (m.table.map fun r => cf.nq * ((List.range n).filter (keep cf r)).length)) :
    ∃ f, fillField cf (some m) n ptr val m.table.length = .ok f ∧
      f.compact.length = (ptr m).getLastD 0 ∧
      ∀ (cell : Nat) (row : List Bool), m.table[cell]? = some row → ∃ p, (ptr m)[cell]? = some p ∧
        (ptr m)[cell + 1]? = some (p + cf.nq * ((List.range n).filter (keep cf row)).length) ∧
        ∀ q k, q < cf.nq → k < ((List.range n).filter (keep cf row)).length →
          f.compact[p + q * ((List.range n).filter (keep cf row)).length + k]? =
            (((List.range n).filter (keep cf row))[k]?).map fun c => val cell q c := by
  have hmem : ∀ cell ∈ List.range m.table.length, m.table[cell]? = some (m.table.getD cell []) := by
    intro cell hc
    rw [List.getD_eq_getElem?_getD, List.getElem?_eq_getElem (List.mem_range.1 hc)]; rfl
  have htab : plainTable cf (some m) n val m.table.length = .ok ((List.range m.table.length).map fun cell =>
      (List.range cf.nq).map fun q => (List.range n).map fun c =>
        if keep cf (m.table.getD cell []) c then val cell q c else 0) := by
    refine Res.mapM_eq _ _ _ fun cell hcell => Res.mapM_eq _ _ _ fun q _ => Res.mapM_eq _ _ _ fun c hc => ?_
    exact plain_keep cf m val hrow cell q c _ (hmem cell hcell) (by have := List.mem_range.1 hc; omega)
  have hcomp : ∀ cell, compressed cf (m.table.getD cell []) n ((List.range cf.nq).map fun q => (List.range n).map fun c =>
        if keep cf (m.table.getD cell []) c then val cell q c else 0) =
      (List.range cf.nq).flatMap fun q => ((List.range n).filter (keep cf (m.table.getD cell []))).map (val cell q) := by
    intro cell
    rw [compressed, List.flatMap_map]
    congr 1
    funext q
    refine List.map_congr_left fun c hc => ?_
    obtain ⟨h1, h2⟩ := List.mem_filter.1 hc
    rw [List.getD_eq_getElem?_getD, List.getElem?_map, List.getElem?_range (List.mem_range.1 h1), Option.map_some,
      Option.getD_some, if_pos h2]
  have hzip : (m.table.zip ((List.range m.table.length).map fun cell =>
      (List.range cf.nq).map fun q => (List.range n).map fun c =>
        if keep cf (m.table.getD cell []) c then val cell q c else 0)).map (fun t => compressed cf t.1 n t.2) =
      (List.range m.table.length).map fun cell =>
        (List.range cf.nq).flatMap fun q => ((List.range n).filter (keep cf (m.table.getD cell []))).map (val cell q) := by
    have e : m.table = (List.range m.table.length).map fun cell => m.table.getD cell [] := by
      refine List.ext_getElem? fun i => ?_
      rw [List.getElem?_map]
      by_cases hi : i < m.table.length
      · rw [List.getElem?_range hi, hmem i (List.mem_range.2 hi)]; rfl
      · rw [List.getElem?_eq_none (by omega), List.getElem?_eq_none (by simp; omega)]; rfl
    conv_lhs => arg 2; arg 1; rw [e]
    rw [List.zip_map', List.map_map]
    exact List.map_congr_left fun cell _ => hcomp cell
  have hlens : (m.table.zip ((List.range m.table.length).map fun cell =>
      (List.range cf.nq).map fun q => (List.range n).map fun c =>
        if keep cf (m.table.getD cell []) c then val cell q c else 0)).map (fun t => (compressed cf t.1 n t.2).length) =
      m.table.map fun r => cf.nq * ((List.range n).filter (keep cf r)).length := by
    have := congrArg (List.map List.length) hzip
    rw [List.map_map] at this
    rw [show (fun t : List Bool × List (List X) => (compressed cf t.1 n t.2).length) =
      List.length ∘ fun t => compressed cf t.1 n t.2 from rfl, this, List.map_map]
    refine List.ext_getElem? fun i => ?_
    rw [List.getElem?_map, List.getElem?_map]
    by_cases hi : i < m.table.length
    · rw [List.getElem?_range hi, hmem i (List.mem_range.2 hi)]
      simp [List.length_flatMap]
    · rw [List.getElem?_eq_none (by simp; omega), List.getElem?_eq_none (by omega)]; rfl
  have hloop := compressLoop_eq cf n (ptr m) m.table ((List.range m.table.length).map fun cell =>
      (List.range cf.nq).map fun q => (List.range n).map fun c =>
        if keep cf (m.table.getD cell []) c then val cell q c else 0) (by simp) (List.replicate ((ptr m).getLastD 0) (0 : X)) 0 0
    (by
      intro i hi
      rw [hlens, hptr, Nat.zero_add, Nat.zero_add, ptrs_get _ _ (by simp; omega)])
    (by rw [hlens, hptr, ptrs_last]; simp)
  rw [hlens] at hloop
  rw [hzip] at hloop
  have hdrop : ((List.replicate ((ptr m).getLastD 0) (0 : X)).drop
      (0 + (m.table.map fun r => cf.nq * ((List.range n).filter (keep cf r)).length).sum)) = [] := by
    rw [hptr, ptrs_last]; simp
  rw [hdrop, List.take_zero, List.nil_append, List.append_nil] at hloop
  refine ⟨_, by rw [fillField, htab, Res.ok_bind]; dsimp only; rw [hloop]; rfl, ?_, ?_⟩
  · rw [← hzip, List.length_flatten, List.map_map,
      show (List.length ∘ fun t : List Bool × List (List X) => compressed cf t.1 n t.2) =
        fun t => (compressed cf t.1 n t.2).length from rfl, hlens, hptr, ptrs_last]
  · intro cell row hc
    have hcell : cell < m.table.length := (List.getElem?_eq_some_iff.1 hc).1
    have hget : m.table.getD cell [] = row := by rw [List.getD_eq_getElem?_getD, hc]; rfl
    refine ⟨((m.table.map fun r => cf.nq * ((List.range n).filter (keep cf r)).length).take cell).sum, ?_, ?_, ?_⟩
    · rw [hptr, ptrs_get _ _ (by simp; omega)]
    · rw [hptr, ptrs_get _ _ (by simp; omega), List.take_add_one, List.getElem?_map, hc]
      simp
    · intro q k hq hk
      have h1 := flatten_get ((List.range m.table.length).map fun cell =>
        (List.range cf.nq).flatMap fun q => ((List.range n).filter (keep cf (m.table.getD cell []))).map (val cell q))
        cell _ (by rw [List.getElem?_map, List.getElem?_range hcell, Option.map_some])
        (q * ((List.range n).filter (keep cf row)).length + k) (by
          rw [hget]
          simp only [List.length_flatMap, List.length_map, List.map_const', List.sum_replicate, List.length_range]
          calc _ < (q + 1) * ((List.range n).filter (keep cf row)).length := by rw [Nat.add_mul]; omega
            _ ≤ _ := Nat.mul_le_mul_right _ hq)
      have hl : (List.map List.length ((List.range m.table.length).map fun cell =>
          (List.range cf.nq).flatMap fun q => ((List.range n).filter (keep cf (m.table.getD cell []))).map (val cell q))) =
          m.table.map fun r => cf.nq * ((List.range n).filter (keep cf r)).length := by
        rw [← hlens, ← hzip, List.map_map]; rfl
      rw [hl] at h1
      simp only [Nat.add_assoc]
      rw [h1, hget, List.flatMap_def]
      have h2 := flatten_get ((List.range cf.nq).map fun q => ((List.range n).filter (keep cf row)).map (val cell q))
        q _ (by rw [List.getElem?_map, List.getElem?_range hq, Option.map_some]) k (by simpa using hk)
      rw [take_sum_const _ ((List.range n).filter (keep cf row)).length (by simp) q (by simp; omega)] at h2
      rw [h2, List.getElem?_map]

/-- What `fill_quadrature_point_values` stores without a mask. -/
theorem fillField_none (cf : Conf) (n : Nat) (ptr : Mask → List Nat) (val : Nat → Nat → Nat → X) (nCells : Nat) :
    ∃ f, fillField cf none n ptr val nCells = .ok f ∧
      ∀ cell q k, cell < nCells → q < cf.nq → k < n → f.full[cell * (cf.nq * n) + q * n + k]? = some (val cell q k) := by
  have htab : plainTable cf none n val nCells = .ok ((List.range nCells).map fun cell =>
      (List.range cf.nq).map fun q => (List.range n).map fun c => val cell q c) :=
    Res.mapM_eq _ _ _ fun cell _ => Res.mapM_eq _ _ _ fun q _ => Res.mapM_eq _ _ _ fun c _ => rfl
  refine ⟨_, by rw [fillField, htab]; rfl, ?_⟩
  intro cell q k hc hq hk
  dsimp only
  have h2 := flatten_get ((List.range cf.nq).map fun q => (List.range n).map fun c => val cell q c)
    q _ (by rw [List.getElem?_map, List.getElem?_range hq, Option.map_some]) k (by simpa using hk)
  rw [take_sum_const _ n (by simp) q (by simp; omega)] at h2
  have h1 := flatten_get (((List.range nCells).map fun cell =>
      (List.range cf.nq).map fun q => (List.range n).map fun c => val cell q c).map List.flatten)
    cell _ (by rw [List.map_map, List.getElem?_map, List.getElem?_range hc, Option.map_some, Function.comp_apply]) (q * n + k) (by
      simp only [List.length_flatten, List.map_map, Function.comp_def, List.length_map, List.length_range,
        List.map_const', List.sum_replicate]
      calc _ < (q + 1) * n := by rw [Nat.add_mul]; omega
        _ ≤ _ := Nat.mul_le_mul_right _ hq)
  rw [take_sum_const _ (cf.nq * n) (by
    simp [List.length_flatten, Function.comp_def]) cell (by simp; omega)] at h1
  rw [Nat.add_assoc, h1, h2, List.getElem?_map, List.getElem?_range hk]; rfl

end Verif.Cutoff
