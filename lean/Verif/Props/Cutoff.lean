/-
C40: the cut-off storage addresses exactly the relevant components.
C55: the Jacobian kernels read the linearisation point that has been stored.
-/
import Verif.Lemmas.Cutoff
import Mathlib.Algebra.Order.Ring.Int

namespace Verif.Props

open Verif.Cutoff

section
variable {K : Type} [LinearOrder K] [AddCommGroup K]

/-- Specification: an order parameter is relevant on a cell batch if one of its dof values on one of the active
lanes exceeds the tolerance. -/
def Relevant (tol : K) (lanes : List (Nat → List K)) (block : Nat) : Prop :=
  ∃ v ∈ lanes, ∃ x ∈ v block, tol < |x|

/-- Specification: the components stored on a cell batch whose relevant grains are `rel`. -/
def storedComponents (offset : Nat) (rel : List Nat) : List Nat := List.range offset ++ rel.map (offset + ·)

private theorem linfty_lt (tol : K) (h0 : 0 ≤ tol) (l : List K) : tol < linfty l ↔ ∃ x ∈ l, tol < |x| := by
  have : ∀ (l : List K) (a : K), tol < l.foldl (fun m x => max m |x|) a ↔ tol < a ∨ ∃ x ∈ l, tol < |x| := by
    intro l
    induction l with
    | nil => simp
    | cons y l ih => intro a; simp [ih, lt_max_iff, or_assoc]
  rw [linfty, this]
  constructor
  · rintro (h | h)
    · exact absurd h (not_lt.2 h0)
    · exact h
  · exact .inr

private theorem markLanes (cf : Conf) (tol : K) (lanes : List (Nat → List K)) (row : List Bool) :
    (lanes.foldl (markLane cf tol) row).length = row.length ∧
    ∀ b, (lanes.foldl (markLane cf tol) row).getD b false = true ↔
      row.getD b false = true ∨ (b < row.length ∧ ∃ v ∈ lanes, tol < linfty (v (b + cf.offset))) := by
  induction lanes generalizing row with
  | nil => simp
  | cons v lanes ih =>
    obtain ⟨h1, h2⟩ := ih (markLane cf tol row v)
    have hl : (markLane cf tol row v).length = row.length := by simp [markLane]
    refine ⟨by rw [List.foldl_cons, h1, hl], fun b => ?_⟩
    rw [List.foldl_cons, h2, hl]
    have hg : (markLane cf tol row v).getD b false = true ↔
        row.getD b false = true ∨ (b < row.length ∧ tol < linfty (v (b + cf.offset))) := by
      by_cases hb : b < row.length
      · simp only [markLane, List.getD_eq_getElem?_getD, List.getElem?_mapIdx, List.getElem?_eq_getElem hb,
          Option.map_some, Option.getD_some]
        by_cases ht : tol < linfty (v (b + cf.offset))
        · simp [ht, hb]
        · simp [ht]
      · simp [markLane, List.getD_eq_getElem?_getD, hb]
    rw [hg]
    simp only [List.mem_cons, exists_eq_or_imp]
    tauto

private theorem initLanes_ok (nCells nLanes nGrains : Nat) (h : nGrains ≤ nLanes) :
    ∃ t, initLanes nCells nLanes nGrains = .ok t := by
  obtain ⟨t, h1, _⟩ := Res.foldlM_inv (fun t : List (Option Nat) => t.length = nCells * nLanes)
    (fun t k => writeAt t k none)
    ((List.range nCells).flatMap fun i => (List.range nGrains).map fun j => i * nLanes + j)
    (List.replicate (nCells * nLanes) (some 0)) (by simp) (by
      intro s k hk hs
      simp only [List.mem_flatMap, List.mem_range, List.mem_map] at hk
      obtain ⟨i, hi, j, hj, rfl⟩ := hk
      have : i * nLanes + j < s.length := by
        rw [hs]
        calc i * nLanes + j < (i + 1) * nLanes := by rw [Nat.add_mul]; omega
          _ ≤ _ := Nat.mul_le_mul_right _ hi
      exact ⟨_, by rw [writeAt, if_pos this], by simpa using hs⟩)
  exact ⟨t, h1⟩

private theorem writes_ub (ks : List Nat) (t : List (Option Nat)) (h : ∃ k ∈ ks, t.length ≤ k) :
    ks.foldlM (fun t k => writeAt t k none) t = .ub := by
  induction ks generalizing t with
  | nil => simp at h
  | cons a ks ih =>
    rw [List.foldlM_cons, writeAt]
    by_cases ha : a < t.length
    · rw [if_pos ha, Res.ok_bind]
      refine ih _ ?_
      obtain ⟨k, hk, hl⟩ := h
      rcases List.mem_cons.1 hk with rfl | hk
      · omega
      · exact ⟨k, hk, by simpa using hl⟩
    · rw [if_neg ha]; rfl

private theorem invertLoop_spec (gs : List Nat) (i : Nat) (r : List Nat) (hg : ∀ g ∈ gs, g < r.length) (hn : gs.Nodup) :
    ∃ r', invertLoop gs i r = .ok r' ∧ r'.length = r.length ∧
      (∀ (j b : Nat), gs[j]? = some b → r'[b]? = some ((i + j) % 256)) ∧ (∀ b, b ∉ gs → r'[b]? = r[b]?) := by
  induction gs generalizing i r with
  | nil => exact ⟨r, rfl, rfl, by simp, by simp⟩
  | cons g gs ih =>
    obtain ⟨hgn, hn⟩ := List.nodup_cons.1 hn
    obtain ⟨r', h1, h2, h3, h4⟩ := ih (i + 1) (r.set g (i % 256)) (by simpa using fun a ha => hg a (by simp [ha])) hn
    refine ⟨r', by rw [invertLoop, writeAt, if_pos (hg g (by simp)), Res.ok_bind, h1], by simpa using h2, ?_, ?_⟩
    · intro j b hj
      cases j with
      | zero =>
        simp at hj; subst hj
        rw [h4 g hgn, List.getElem?_set_self (hg g (by simp))]; rfl
      | succ j =>
        rw [h3 j b (by simpa using hj)]
        congr 2; omega
    · intro b hb
      simp only [List.mem_cons, not_or] at hb
      rw [h4 b hb.2, List.getElem?_set_ne (fun h => hb.1 h.symm)]

private theorem flatten_slice {α : Type} (L : List (List α)) (i : Nat) (row : List α) (h : L[i]? = some row) :
    (L.flatten.drop ((L.map List.length).take i).sum).take row.length = row := by
  induction L generalizing i with
  | nil => simp at h
  | cons a L ih =>
    cases i with
    | zero => simp at h; subst h; simp
    | succ i =>
      rw [List.getElem?_cons_succ] at h
      rw [List.flatten_cons, List.map_cons, List.take_succ_cons, List.sum_cons, List.drop_append,
        List.drop_eq_nil_of_le (by omega), List.nil_append, Nat.add_sub_cancel_left]
      exact ih i h

/-- The table has a row of `nGrains` entries for every cell batch, an entry is true iff the grain is relevant. -/
private theorem table_spec (cf : Conf) (tol : K) (h0 : 0 ≤ tol) (cells : List (List (Nat → List K))) :
    (∀ r ∈ componentTable cf tol cells, r.length = cf.nGrains) ∧
    ∀ (cell : Nat) (lanes : List (Nat → List K)), cells[cell]? = some lanes →
      ∃ row, (componentTable cf tol cells)[cell]? = some row ∧
        ∀ b, row.getD b false = true ↔ b < cf.nGrains ∧ Relevant tol lanes (cf.offset + b) := by
  constructor
  · intro r hr
    obtain ⟨lanes, _, rfl⟩ := List.mem_map.1 hr
    rw [(markLanes cf tol lanes _).1]; simp
  · intro cell lanes hc
    refine ⟨_, by rw [componentTable, List.getElem?_map, hc, Option.map_some], fun b => ?_⟩
    rw [(markLanes cf tol lanes _).2 b]
    have : (List.replicate cf.nGrains false).getD b false = false := by
      rw [List.getD_eq_getElem?_getD, List.getElem?_replicate]; split <;> rfl
    rw [this]
    simp only [Bool.false_eq_true, false_or, List.length_replicate, Relevant, linfty_lt tol h0, Nat.add_comm b]

private theorem setMask_ok (cf : Conf) (tol : K) (cells : List (List (Nat → List K))) (hl : cf.nGrains ≤ cf.nLanes)
    (hb : cf.nComponents ≤ cf.nBlocks) (hne : cells ≠ []) :
    setMask cf tol cells = .ok ((componentTable cf tol cells).foldl (pushCell cf) ⟨[], [], [0], [0], [0]⟩) := by
  obtain ⟨t, ht⟩ := initLanes_ok cells.length cf.nLanes cf.nGrains hl
  rw [setMask, ht, Res.ok_bind, if_neg (by omega), if_neg (by simpa using hne)]

/-- **C40** (for at most as many order parameters as lanes, without additional blocks, and equal flags).  The mask marks
exactly the relevant order parameters, the compressed storage holds on every cell batch and quadrature point
the values of the other components followed by those of the relevant order parameters in order, the offsets are
the extents, and the inverse table gives the position of the relevant order parameters and 255 for all others. -/
theorem C40_storage_partial {X Y : Type} [Zero X] [Zero Y] (cf : Conf) (tol : K) (h0 : 0 ≤ tol)
    (cells : List (List (Nat → List K))) (hne : cells ≠ []) (hl : cf.nGrains ≤ cf.nLanes) (h255 : cf.nGrains ≤ 255)
    (hb : cf.nComponents ≤ cf.nBlocks) (hs : cf.saveAll = true → cf.nBlocks = cf.nComponents)
    (hg : cf.gradMask = cf.gradFill) (val : Nat → Nat → Nat → X) (grad : Nat → Nat → Nat → Y) :
    ∃ (m : Mask) (v : Field X) (g : Field Y), setMask cf tol cells = .ok m ∧
      fill cf (some m) val grad cells.length = .ok (v, g) ∧
      v.compact.length = m.valuePtr.getLastD 0 ∧ g.compact.length = m.gradPtr.getLastD 0 ∧
      ∀ (cell : Nat) (lanes : List (Nat → List K)), cells[cell]? = some lanes →
        ∃ rel : List Nat, rel.Pairwise (· < ·) ∧
          (∀ b, b ∈ rel ↔ b < cf.nGrains ∧ Relevant tol lanes (cf.offset + b)) ∧
          relevantGrains m cell = .ok rel ∧
          (∃ inv, grainToRelevant cf (some m) cell = .ok inv ∧ inv.length = cf.nGrains ∧
            (∀ (i b : Nat), rel[i]? = some b → inv[b]? = some i) ∧
            (∀ b < cf.nGrains, b ∉ rel → inv[b]? = some 255)) ∧
          (∃ p, m.valuePtr[cell]? = some p ∧
            m.valuePtr[cell + 1]? = some (p + cf.nq * (storedComponents cf.offset rel).length) ∧
            ∀ q k c, q < cf.nq → (storedComponents cf.offset rel)[k]? = some c →
              v.compact[p + q * (storedComponents cf.offset rel).length + k]? = some (val cell q c)) ∧
          (∀ comps, comps = storedComponents cf.offset
              (if cf.tensorial = true ∨ cf.gradFill = true then rel else []) →
            ∃ p, m.gradPtr[cell]? = some p ∧ m.gradPtr[cell + 1]? = some (p + cf.nq * comps.length) ∧
              ∀ q k c, q < cf.nq → comps[k]? = some c →
                g.compact[p + q * comps.length + k]? = some (grad cell q c)) := by
  have hm := setMask_ok cf tol cells hl hb hne
  obtain ⟨hrow, htab⟩ := table_spec cf tol h0 cells
  have hlen : (componentTable cf tol cells).length = cells.length := by simp [componentTable]
  have hV : cf.nSaveV = cf.offset + cf.nGrains := by
    rw [Conf.nSaveV]
    split
    · rename_i h; exact hs h
    · rfl
  have hVsub : cf.nSaveV - cf.nGrains = cf.offset := by omega
  have hmask := mask_eq cf (componentTable cf tol cells)
  generalize (componentTable cf tol cells).foldl (pushCell cf) ⟨[], [], [0], [0], [0]⟩ = m at hm hmask
  have e_table : m.table = componentTable cf tol cells := by rw [hmask]
  have e_val : m.valuePtr = ptrs (m.table.map fun r => cf.nq * ((List.range cf.nSaveV).filter (keep cf r)).length) := by
    rw [hmask]
    dsimp only
    congr 1
    refine List.map_congr_left fun r _ => ?_
    rw [hVsub, hV, keep_filter]; simp
  have e_grad : m.gradPtr = ptrs (m.table.map fun r => cf.nq * ((List.range cf.nSaveG).filter (keep cf r)).length) := by
    rw [hmask]
    dsimp only
    congr 1
    refine List.map_congr_left fun r _ => ?_
    rw [Conf.nSaveG, hg]
    by_cases hf : (cf.tensorial || cf.gradFill) = true
    · rw [if_pos hf, if_pos hf, hVsub, hV, keep_filter]; simp
    · rw [if_neg hf, if_neg hf, keep_filter_offset]; simp
  have hG : cf.nSaveG ≤ cf.offset + cf.nGrains := by
    rw [Conf.nSaveG]; split <;> omega
  obtain ⟨v, hv1, hv2, hv3⟩ := fillField_eq cf m cf.nSaveV Mask.valuePtr val (by rw [e_table]; exact hrow) (by omega) e_val
  obtain ⟨g, hg1, hg2, hg3⟩ := fillField_eq cf m cf.nSaveG Mask.gradPtr grad (by rw [e_table]; exact hrow) hG e_grad
  have hml : m.table.length = cells.length := by rw [e_table, hlen]
  rw [hml] at hv1 hg1
  refine ⟨m, v, g, hm, ?_, hv2, hg2, ?_⟩
  · rw [fill, hv1, hg1]
    simp [Res.assertThrow, hb]
  · intro cell lanes hc
    obtain ⟨row, hr1, hr2⟩ := htab cell lanes hc
    have hcell : cell < cells.length := (List.getElem?_eq_some_iff.1 hc).1
    have hmr : m.table[cell]? = some row := by rw [e_table]; exact hr1
    have hsel : ∀ r : List Bool, ((List.range cf.nGrains).filter fun j => r.getD j false).map (· % 256) =
        (List.range cf.nGrains).filter fun j => r.getD j false := by
      intro r
      conv_rhs => rw [← List.map_id ((List.range cf.nGrains).filter fun j => r.getD j false)]
      refine List.map_congr_left fun j hj => ?_
      have := List.mem_range.1 (List.mem_filter.1 hj).1
      simp; omega
    have hmem : ∀ b, b ∈ (List.range cf.nGrains).filter (fun j => row.getD j false) ↔
        b < cf.nGrains ∧ Relevant tol lanes (cf.offset + b) := by
      intro b
      rw [List.mem_filter, hr2, List.mem_range]
      tauto
    have hpair : ((List.range cf.nGrains).filter fun j => row.getD j false).Pairwise (· < ·) :=
      List.Pairwise.filter _ List.pairwise_lt_range
    have hrelg : relevantGrains m cell = .ok ((List.range cf.nGrains).filter fun j => row.getD j false) := by
      have e1 : m.relPtr = ptrs (((componentTable cf tol cells).map fun r =>
          (List.range cf.nGrains).filter fun j => r.getD j false).map List.length) := by
        rw [hmask]; dsimp only; rw [List.map_map]; rfl
      have e2 : m.relevant = ((componentTable cf tol cells).map fun r =>
          (List.range cf.nGrains).filter fun j => r.getD j false).flatten := by
        rw [hmask]; dsimp only; simp only [hsel]
      have hL : ((componentTable cf tol cells).map fun r =>
          (List.range cf.nGrains).filter fun j => r.getD j false)[cell]? =
          some ((List.range cf.nGrains).filter fun j => row.getD j false) := by
        rw [List.getElem?_map, hr1]; rfl
      generalize ((componentTable cf tol cells).map fun r =>
          (List.range cf.nGrains).filter fun j => r.getD j false) = L at e1 e2 hL
      have hLl : cell < L.length := (List.getElem?_eq_some_iff.1 hL).1
      have hsum : ((L.map List.length).take (cell + 1)).sum = ((L.map List.length).take cell).sum +
          ((List.range cf.nGrains).filter fun j => row.getD j false).length := by
        rw [List.take_add_one, List.getElem?_map, hL]; simp
      have hle : ((L.map List.length).take (cell + 1)).sum ≤ L.flatten.length := by
        rw [List.length_flatten]
        conv_rhs => rw [← List.take_append_drop (cell + 1) (L.map List.length), List.sum_append]
        omega
      rw [relevantGrains, e1, Res.index_eq_ok.2 (ptrs_get _ _ (by simp; omega)), Res.ok_bind,
        Res.index_eq_ok.2 (ptrs_get _ _ (by simp; omega)), Res.ok_bind, e2, if_pos ⟨by omega, hle⟩, hsum,
        Nat.add_sub_cancel_left, flatten_slice L cell _ hL]
    obtain ⟨p, hp1, hp2, hp3⟩ := hv3 cell row hmr
    obtain ⟨p', hp1', hp2', hp3'⟩ := hg3 cell row hmr
    rw [hV, keep_filter] at hp2 hp3
    refine ⟨(List.range cf.nGrains).filter fun j => row.getD j false, hpair, hmem, hrelg, ?_, ⟨p, hp1, hp2, ?_⟩, ?_⟩
    · obtain ⟨inv, h1, h2, h3, h4⟩ := invertLoop_spec _ 0 (List.replicate cf.nGrains 255)
        (fun g hg => by rw [List.length_replicate]; exact ((hmem g).1 hg).1)
        (hpair.imp (fun h => Nat.ne_of_lt h))
      refine ⟨inv, by rw [grainToRelevant, hrelg, Res.ok_bind, h1], by simpa using h2, ?_, ?_⟩
      · intro i b hi
        rw [h3 i b hi]
        have : i < ((List.range cf.nGrains).filter fun j => row.getD j false).length :=
          (List.getElem?_eq_some_iff.1 hi).1
        have := List.length_filter_le (fun j => row.getD j false) (List.range cf.nGrains)
        rw [List.length_range] at this
        congr 1; omega
      · intro b hb hbn
        rw [h4 b hbn, List.getElem?_replicate, if_pos hb]
    · intro q k c hq hk
      have := hp3 q k hq (List.getElem?_eq_some_iff.1 hk).1
      rw [storedComponents] at hk ⊢
      rw [this, hk]; rfl
    · intro comps hcomps
      have hfil : (List.range cf.nSaveG).filter (keep cf row) = comps := by
        rw [Conf.nSaveG, hcomps, storedComponents]
        by_cases hf : cf.tensorial = true ∨ cf.gradFill = true
        · rw [if_pos (by simpa using hf), if_pos hf, hV, keep_filter]
        · rw [if_neg (by simpa using hf), if_neg hf, keep_filter_offset]; simp
      rw [hfil] at hp2' hp3'
      refine ⟨p', hp1', hp2', fun q k c hq hk => ?_⟩
      rw [hp3' q k hq (List.getElem?_eq_some_iff.1 hk).1, hk]; rfl

/-- With more order parameters than lanes the initialisation of `table_lanes` always writes beyond the table. -/
theorem C40_lanes_ub (cf : Conf) (tol : K) (cells : List (List (Nat → List K))) (hne : cells ≠ [])
    (hl : cf.nLanes < cf.nGrains) : setMask cf tol cells = .ub := by
  have hpos : 0 < cells.length := List.length_pos_iff.2 hne
  have : initLanes cells.length cf.nLanes cf.nGrains = .ub := by
    refine writes_ub _ _ ⟨(cells.length - 1) * cf.nLanes + (cf.nGrains - 1), ?_, ?_⟩
    · simp only [List.mem_flatMap, List.mem_range, List.mem_map]
      exact ⟨cells.length - 1, by omega, cf.nGrains - 1, by omega, rfl⟩
    · rw [List.length_replicate]
      calc cells.length * cf.nLanes = (cells.length - 1 + 1) * cf.nLanes := by rw [Nat.sub_add_cancel hpos]
        _ = (cells.length - 1) * cf.nLanes + cf.nLanes := by rw [Nat.add_mul, Nat.one_mul]
        _ ≤ _ := by omega
  rw [setMask, this]; rfl

/-- A rank without cells runs into undefined behaviour (maximum of an empty range). -/
theorem C40_empty_ub (cf : Conf) (tol : K) : setMask cf tol [] = .ub := by
  rw [setMask, initLanes]
  by_cases h : cf.nBlocks < cf.nComponents <;> simp [h]

/-- If all blocks are saved and there are blocks behind the order parameters, filling always reads beyond the mask. -/
theorem C40_all_blocks_ub {X Y : Type} [Zero X] [Zero Y] (cf : Conf) (tol : K) (cells : List (List (Nat → List K)))
    (hne : cells ≠ []) (hl : cf.nGrains ≤ cf.nLanes) (hb : cf.nComponents < cf.nBlocks) (hs : cf.saveAll = true)
    (hq : 0 < cf.nq) (val : Nat → Nat → Nat → X) (grad : Nat → Nat → Nat → Y) :
    ∃ m, setMask cf tol cells = .ok m ∧ fill cf (some m) val grad cells.length = .ub := by
  have hm := setMask_ok cf tol cells hl (by omega) hne
  rw [mask_eq] at hm
  have hpos : 0 < cells.length := List.length_pos_iff.2 hne
  refine ⟨_, hm, ?_⟩
  have hrow : ∀ r ∈ componentTable cf tol cells, r.length = cf.nGrains := by
    intro r hr
    obtain ⟨lanes, _, rfl⟩ := List.mem_map.1 hr
    rw [(markLanes cf tol lanes _).1]; simp
  have hflat : (componentTable cf tol cells).flatten.length = cells.length * cf.nGrains := by
    rw [List.length_flatten]
    have := take_sum_const ((componentTable cf tol cells).map List.length) cf.nGrains (by simpa using hrow)
      cells.length (by simp [componentTable])
    rw [List.take_of_length_le (by simp [componentTable])] at this
    exact this
  have hor : ∀ (mk : Mask) cell q c, (∃ b, plain cf (some mk) val cell q c = .ok b) ∨ plain cf (some mk) val cell q c = .ub := by
    intro mk cell q c
    rw [plain]
    split
    · rw [Res.index]
      split
      · exact .inl ⟨_, rfl⟩
      · exact .inr rfl
    · exact .inl ⟨_, rfl⟩
  have hf : ∀ mk : Mask, mk.table = componentTable cf tol cells →
      fillField cf (some mk) cf.nSaveV Mask.valuePtr val cells.length = .ub := by
    intro mk hmk
    rw [fillField]
    have : plainTable cf (some mk) cf.nSaveV val cells.length = .ub := by
      refine Res.mapM_ub _ _ (fun cell _ => Res.mapM_ok_or_ub _ _ fun q _ => Res.mapM_ok_or_ub _ _ fun c _ => hor mk cell q c)
        ⟨cells.length - 1, List.mem_range.2 (by omega), ?_⟩
      refine Res.mapM_ub _ _ (fun q _ => Res.mapM_ok_or_ub _ _ fun c _ => hor mk _ q c) ⟨0, List.mem_range.2 hq, ?_⟩
      refine Res.mapM_ub _ _ (fun c _ => hor mk _ _ c) ⟨cf.nComponents, List.mem_range.2 (by
        rw [Conf.nSaveV, if_pos hs]; exact hb), ?_⟩
      have hlt : 0 < mk.table.length := by rw [hmk]; simpa [componentTable] using hpos
      have ho : cf.offset ≤ cf.nComponents := Nat.le_add_right _ _
      have hsub : cf.nComponents - cf.offset = cf.nGrains := Nat.add_sub_cancel_left ..
      rw [plain, if_pos ⟨hlt, ho⟩, Res.index, hmk, hsub]
      have e : (cells.length - 1) * cf.nGrains + cf.nGrains = cells.length * cf.nGrains := by
        conv_rhs => rw [← Nat.sub_add_cancel hpos, Nat.add_mul, Nat.one_mul]
      rw [e, List.getElem?_eq_none (by omega)]; rfl
    rw [this]; rfl
  rw [fill, hf _ rfl]
  simp [Res.assertThrow, show cf.nComponents ≤ cf.nBlocks by omega]

end

section
variable {X Y : Type} [Zero X] [Zero Y]

private theorem ptrAfter_eq (b s q : Nat) : ptrAfter b s q = b + q * s := by
  induction q with
  | zero => simp [ptrAfter]
  | succ q ih => rw [ptrAfter, ih, Nat.add_mul]; omega

/-- **C55** (values; gradients if they are stored as the kernel expects): without cut-off, the kernel for all order
parameters reads at every cell and quadrature point the stored values and gradients of that point. -/
theorem C55_read_partial (cf : Conf) (h2 : cf.offset = 2) (hb : cf.nComponents ≤ cf.nBlocks)
    (hs : cf.saveAll = true → cf.nBlocks = cf.nComponents)
    (val : Nat → Nat → Nat → X) (grad : Nat → Nat → Nat → Y) (nCells : Nat) :
    ∃ v g, fill cf none val grad nCells = .ok (v, g) ∧
      (∀ cell q k, cell < nCells → q < cf.nq → k < 2 + cf.nGrains →
        linValue cf none v cell q cf.nGrains k = .ok (val cell q k)) ∧
      (cf.tensorial = true → ∀ cell q k, cell < nCells → q < cf.nq → k < 2 + cf.nGrains →
        linGradient cf none g cell q cf.nGrains k = .ok (grad cell q k)) ∧
      (cf.tensorial = false → cf.gradFill = false → ∀ cell q k, cell < nCells → q < cf.nq → k < 2 →
        linGradient cf none g cell q cf.nGrains k = .ok (grad cell q k)) := by
  have hV : cf.nSaveV = 2 + cf.nGrains := by
    rw [Conf.nSaveV]
    split
    · rename_i h; rw [hs h, Conf.nComponents, h2]
    · rw [Conf.nComponents, h2]
  obtain ⟨v, hv1, hv2⟩ := fillField_none cf cf.nSaveV Mask.valuePtr val nCells
  obtain ⟨g, hg1, hg2⟩ := fillField_none cf cf.nSaveG Mask.gradPtr grad nCells
  refine ⟨v, g, by rw [fill, hv1, hg1]; simp [Res.assertThrow, hb], ?_, ?_, ?_⟩
  · intro cell q k hc hq hk
    rw [linValue, linBase, Res.ok_bind, ptrAfter_eq]
    refine Res.index_eq_ok.2 ?_
    have := hv2 cell q k hc hq (by omega)
    rwa [hV] at this ⊢
  · intro ht cell q k hc hq hk
    rw [linGradient, linBase, Res.ok_bind, ptrAfter_eq, if_pos ht]
    refine Res.index_eq_ok.2 ?_
    have hG : cf.nSaveG = 2 + cf.nGrains := by rw [Conf.nSaveG, ht]; exact hV
    have := hg2 cell q k hc hq (by omega)
    rwa [hG] at this ⊢
  · intro ht hf cell q k hc hq hk
    have hG : cf.nSaveG = 2 := by rw [Conf.nSaveG, ht, hf]; exact h2
    rw [linGradient, linBase, Res.ok_bind, ptrAfter_eq, ht, hG]
    refine Res.index_eq_ok.2 ?_
    have := hg2 cell q k hc hq (by omega)
    rwa [hG] at this

/-- **C55** is violated: with scalar mobility and saved gradients of the order parameters (as the driver requests if
advection is enabled), the gradients of the concentration and of the chemical potential read at quadrature point
`q` are those of another quadrature point or component: reading advances by two, storing by `2 + nGrains`. -/
theorem C55_shifted (cf : Conf) (h2 : cf.offset = 2) (hb : cf.nComponents ≤ cf.nBlocks) (hs : cf.saveAll = true → cf.nBlocks = cf.nComponents)
    (ht : cf.tensorial = false) (hf : cf.gradFill = true)
    (val : Nat → Nat → Nat → X) (grad : Nat → Nat → Nat → Y) (nCells : Nat) :
    ∃ v g, fill cf none val grad nCells = .ok (v, g) ∧
      ∀ cell q k, cell < nCells → q < cf.nq → k < 2 →
        linGradient cf none g cell q cf.nGrains k =
          .ok (grad cell ((2 * q + k) / (2 + cf.nGrains)) ((2 * q + k) % (2 + cf.nGrains))) := by
  have hV : cf.nSaveV = 2 + cf.nGrains := by
    rw [Conf.nSaveV]
    split
    · rename_i h; rw [hs h, Conf.nComponents, h2]
    · rw [Conf.nComponents, h2]
  have hG : cf.nSaveG = 2 + cf.nGrains := by rw [Conf.nSaveG, ht, hf]; exact hV
  obtain ⟨v, hv1, hv2⟩ := fillField_none cf cf.nSaveV Mask.valuePtr val nCells
  obtain ⟨g, hg1, hg2⟩ := fillField_none cf cf.nSaveG Mask.gradPtr grad nCells
  refine ⟨v, g, by rw [fill, hv1, hg1]; simp [Res.assertThrow, hb], ?_⟩
  intro cell q k hc hq hk
  rw [linGradient, linBase, Res.ok_bind, ptrAfter_eq, ht, hG]
  refine Res.index_eq_ok.2 ?_
  have hlt : (2 * q + k) / (2 + cf.nGrains) < cf.nq := by
    rw [Nat.div_lt_iff_lt_mul (by omega)]
    calc 2 * q + k < 2 * (q + 1) := by omega
      _ ≤ 2 * cf.nq := by omega
      _ ≤ cf.nq * (2 + cf.nGrains) := by rw [Nat.mul_comm]; exact Nat.mul_le_mul_left _ (by omega)
  have := hg2 cell _ ((2 * q + k) % (2 + cf.nGrains)) hc hlt (by rw [hG]; exact Nat.mod_lt _ (by omega))
  rw [hG, Nat.add_assoc, Nat.div_add_mod'] at this
  rw [← this]
  congr 1
  simp [Nat.mul_comm 2 q, Nat.add_assoc]

end

namespace Ex40

/-- Two cells, three order parameters with values 0, 1 and 2 on the first, the third one only on the second cell. -/
def cf : Conf :=
  { nLanes := 4, nq := 2, offset := 2, nGrains := 3, nBlocks := 5, saveAll := true, gradMask := true, gradFill := true,
    tensorial := false }

def cells : List (List (Nat → List Int)) := [[fun b => [0, (b : Int) - 2]], [fun b => [if b = 4 then -3 else 0], fun _ => [0, 0]]]

example : setMask cf 0 cells = .ok
    { table := [[false, true, true], [false, false, true]], relevant := [1, 2, 2], relPtr := [0, 2, 3],
      valuePtr := [0, 8, 14], gradPtr := [0, 8, 14] } := by decide +kernel

example : (do
    let m ← setMask cf 0 cells
    let r ← fill cf (some m) (fun cell q c => (100 * cell + 10 * q + c : Int)) (fun cell q c => (100 * cell + 10 * q + c : Int)) 2
    pure r.1.compact) = .ok [0, 1, 3, 4, 10, 11, 13, 14, 100, 101, 104, 110, 111, 114] := by decide +kernel

/-- The flags of the two functions differ if the free energy requests gradients and advection is disabled: the
gradients are then written beyond the array. -/
theorem C40_flags_violated :
    ∃ m, setMask { cf with gradMask := false } 0 cells = .ok m ∧
      fill { cf with gradMask := false } (some m) (fun cell q c => (100 * cell + 10 * q + c : Int))
        (fun cell q c => (100 * cell + 10 * q + c : Int)) 2 = .ub :=
  ⟨_, by rfl, by decide +kernel⟩

example : cells ≠ [] ∧ cf.nGrains ≤ cf.nLanes ∧ cf.nGrains ≤ 255 ∧ cf.nComponents ≤ cf.nBlocks ∧
    (cf.saveAll = true → cf.nBlocks = cf.nComponents) ∧ cf.gradMask = cf.gradFill := by
  refine ⟨by simp [cells], ?_⟩; decide

/-- Three order parameters and two lanes, as with SSE2. -/
example : setMask { cf with nLanes := 2 } 0 cells = .ub := by decide +kernel

/-- Displacements behind the order parameters. -/
example : ∃ m, setMask { cf with nBlocks := 7 } 0 cells = .ok m ∧
    fill { cf with nBlocks := 7 } (some m) (fun cell q c => (100 * cell + 10 * q + c : Int))
      (fun cell q c => (100 * cell + 10 * q + c : Int)) 2 = .ub :=
  ⟨_, by rfl, by decide +kernel⟩

end Ex40

namespace Ex55

open Ex40

/-- Advection enabled, scalar mobility, no cut-off, three order parameters: the gradient of the chemical potential
read at the second quadrature point is that of the second order parameter at the first one. -/
theorem C55_violated : ∃ v g, fill cf none (fun cell q c => (100 * cell + 10 * q + c : Int))
      (fun cell q c => (100 * cell + 10 * q + c : Int)) 1 = .ok (v, g) ∧
    linGradient cf none g 0 1 3 1 = .ok 3 ∧ linValue cf none v 0 1 3 1 = .ok 11 :=
  ⟨_, _, by rfl, by decide +kernel, by decide +kernel⟩

end Ex55

end Verif.Props
