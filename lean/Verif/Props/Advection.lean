/-
C41: a velocity read by a kernel belongs to the order parameter it is asked for.
C50: the rotation of a grain does not oppose the torque.
C53: rotation about the centre of the grain.
C54: the advection data produced can be read by the kernels.
C56: forces between grains are equal and opposite.
-/
import Verif.Lemmas.Advection
import Mathlib.Algebra.Order.Ring.Int
import Mathlib.Algebra.Field.Rat
import Mathlib.Algebra.Order.Ring.Rat
import Mathlib.Algebra.Module.Rat
import Mathlib.Tactic.Ring
import Mathlib.Tactic.NormNum
import Mathlib.Tactic.Positivity
import Mathlib.Tactic.FieldSimp
import Mathlib.Algebra.Order.Field.Basic

set_option linter.unusedSectionVars false

namespace Verif.Props

open Verif.Advection

/-! ### C54, C53: tables written and read -/

section
variable {V D : Type} [AddCommMonoid V] [AddCommMonoid D]

/-- Specification: the order parameters relevant on a cell batch. -/
def advRelevant (nGrains : Nat) (g2r : List Nat) : List Nat :=
  (List.range nGrains).filter fun ig => g2r[ig]? ≠ some 255

/-- Specification: all pairs (segment, integrals) found on a rank, i.e. for every cell batch, every order parameter
relevant there and every active lane that belongs to a segment. -/
def advHits (nGrains : Nat) (cells : List (List (Lane D) × List Nat)) : List (Nat × D) :=
  cells.flatMap fun c => (advRelevant nGrains c.2).flatMap fun ig =>
    c.1.filterMap fun l => (l.seg ig).map fun s => (s, l.data ig)

/-- Specification: the input of the operator is consistent. -/
structure AdvInput (nLanes nGrains nSeg : Nat) (cells : List (List (Lane D) × List Nat)) : Prop where
  table : ∀ c ∈ cells, c.2.length = nGrains
  lanes : ∀ c ∈ cells, c.1.length ≤ nLanes
  segs : ∀ c ∈ cells, ∀ l ∈ c.1, ∀ ig < nGrains, ∀ s, l.seg ig = some s → s < nSeg

private theorem advRelevant_eq (nGrains : Nat) (g2r : List Nat) (h : g2r.length = nGrains) :
    advRelevant nGrains g2r = relevantOps nGrains g2r := by
  unfold advRelevant relevantOps
  refine List.filter_congr fun ig hig => ?_
  have : ig < g2r.length := by rw [h]; exact List.mem_range.1 hig
  rw [List.getD_eq_getElem?_getD, List.getElem?_eq_getElem this]; simp

private theorem advHits_eq (nGrains : Nat) (cells : List (List (Lane D) × List Nat))
    (h : ∀ c ∈ cells, c.2.length = nGrains) : advHits nGrains cells = cells.flatMap (cellHits nGrains) := by
  unfold advHits
  refine List.flatMap_congr fun c hc => ?_
  rw [advRelevant_eq _ _ (h c hc)]; rfl

private theorem cells_ok (nLanes nGrains nSeg : Nat) (center : Nat → V) (cells : List (List (Lane D) × List Nat))
    (h : AdvInput nLanes nGrains nSeg cells) :
    ∃ m, cellLoop nLanes nGrains center cells (nullify nSeg) = .ok m ∧
      m.indexPtr = Verif.Cutoff.ptrs (cells.map fun c => (cellEntries nLanes nGrains c).length) ∧
      m.indexValues = (cells.map (cellEntries nLanes nGrains)).flatten ∧
      m.center.length = nSeg ∧ m.data.length = nSeg ∧
      (∀ s < nSeg, m.center[s]? = some (((advHits nGrains cells).map (·.1)).count s • center s)) ∧
      (∀ s < nSeg, m.data[s]? = some (((advHits nGrains cells).filter fun p => p.1 == s).map (·.2)).sum) := by
  obtain ⟨m, h1, h2, h3, h4⟩ := cellLoop_spec nLanes nGrains nSeg center cells h.table h.segs (nullify nSeg) [] rfl rfl
    (by simp [nullify]) (by simp [nullify])
  rw [← advHits_eq nGrains cells h.table] at h4
  refine ⟨m, h1, by simpa using h2, by simpa [nullify] using h3, ?_, ?_, ?_, ?_⟩
  · rw [h4.lc]; simp [nullify]
  · rw [h4.ld]; simp [nullify]
  · intro s hs
    rw [h4.c s 0 (by simp [nullify, hs]), zero_add]
  · intro s hs
    rw [h4.d s 0 (by simp [nullify, hs]), zero_add]

private theorem mapM_cells (nLanes nGrains nSeg : Nat) (center : Nat → V)
    (ranks : List (List (List (Lane D) × List Nat))) (h : ∀ cs ∈ ranks, AdvInput nLanes nGrains nSeg cs) :
    ∃ ms : List (Mech V D),
      ranks.mapM (fun cs => cellLoop nLanes nGrains center cs (nullify nSeg)) = .ok ms ∧ ms.length = ranks.length ∧
      ∀ (r : Nat) cs, ranks[r]? = some cs → ∃ m, ms[r]? = some m ∧
        cellLoop nLanes nGrains center cs (nullify nSeg) = .ok m := by
  induction ranks with
  | nil => exact ⟨[], rfl, rfl, by simp⟩
  | cons cs rs ih =>
    obtain ⟨m, hm, -⟩ := cells_ok nLanes nGrains nSeg center cs (h cs (by simp))
    obtain ⟨ms, a1, a2, a3⟩ := ih (fun c hc => h c (by simp [hc]))
    refine ⟨m :: ms, ?_, by simp [a2], ?_⟩
    · rw [List.mapM_cons, hm, Res.ok_bind, a1, Res.ok_bind]; rfl
    · intro r c hr
      cases r with
      | zero => simp only [List.getElem?_cons_zero, Option.some.injEq] at hr ⊢; subst hr; exact ⟨m, rfl, hm⟩
      | succ r => simp only [List.getElem?_cons_succ] at hr ⊢; exact a3 r c hr

/-- C54 and C53, generic operator: the evaluation of the forces succeeds on every rank; the data of a segment are the
sum over all ranks of the integrals over its cells, the centre on a rank is the centre of the segment multiplied with the
number of hits on this rank; and for every cell batch `reinit` of the kernels succeeds and finds, for every order
parameter relevant on the batch in order, and every active lane, centre and data of the segment the lane belongs to. -/
theorem C54_tables_partial {K : Type} [Field K] [LinearOrder K] (vol : D → K) (nLanes nGrains nSeg : Nat) (hl : 0 < nLanes)
    (center : Nat → V) (ranks : List (List (List (Lane D) × List Nat)))
    (h : ∀ cs ∈ ranks, AdvInput nLanes nGrains nSeg cs) :
    ∃ ms, evaluateForces nLanes nGrains nSeg center ranks = .ok ms ∧ ms.length = ranks.length ∧
      ∀ (r : Nat) cs m, ranks[r]? = some cs → ms[r]? = some m →
        (∀ s < nSeg, m.data[s]? = some (ranks.map fun cs =>
          (((advHits nGrains cs).filter fun p => p.1 == s).map (·.2)).sum).sum) ∧
        (∀ s < nSeg, m.center[s]? = some (((advHits nGrains cs).map (·.1)).count s • center s)) ∧
        ∀ (cell : Nat) lanes g2r, cs[cell]? = some (lanes, g2r) → ∀ g : List Nat, ∃ x,
          reinit vol nLanes m g cell = .ok x ∧ x.g2r = g ∧ x.has = x.slots.map (hasNonZero vol) ∧
          x.slots = (advRelevant nGrains g2r).map fun ig =>
            lanes.map (fun l => (l.seg ig).bind fun s => m.center[s]?.bind fun c => m.data[s]?.map fun d => (c, d)) ++
              List.replicate (nLanes - lanes.length) none := by
  obtain ⟨ms, h1, h2, h3⟩ := mapM_cells nLanes nGrains nSeg center ranks h
  let total := (List.range nSeg).map fun s => (ms.map fun m => m.data.getD s 0).sum
  have htot : ∀ s < nSeg, total[s]? = some (ranks.map fun cs =>
      (((advHits nGrains cs).filter fun p => p.1 == s).map (·.2)).sum).sum := by
    intro s hs
    simp only [total, List.getElem?_map, List.getElem?_range hs, Option.map_some]
    congr 2
    refine List.ext_getElem? fun r => ?_
    rw [List.getElem?_map, List.getElem?_map]
    cases hr : ranks[r]? with
    | none =>
      have : ms[r]? = none := by
        rw [List.getElem?_eq_none_iff] at hr ⊢; omega
      rw [this]; rfl
    | some cs =>
      obtain ⟨m, hm, hc⟩ := h3 r cs hr
      obtain ⟨m', c1, -, -, -, -, -, c7⟩ := cells_ok nLanes nGrains nSeg center cs (h cs (List.mem_of_getElem? hr))
      rw [c1] at hc; cases hc
      rw [hm, Option.map_some, Option.map_some, List.getD_eq_getElem?_getD, c7 s hs]; rfl
  refine ⟨ms.map fun m => { m with data := total }, ?_, by simp [h2], ?_⟩
  · rw [evaluateForces, h1, Res.ok_bind]
  · intro r cs m hr hm
    obtain ⟨m0, hm0, hc⟩ := h3 r cs hr
    have hin := h cs (List.mem_of_getElem? hr)
    obtain ⟨m1, c1, c2, c3, c4, c5, c6, c7⟩ := cells_ok nLanes nGrains nSeg center cs hin
    rw [c1] at hc; cases hc
    rw [List.getElem?_map, hm0, Option.map_some] at hm
    cases hm
    refine ⟨htot, c6, ?_⟩
    intro cell lanes g2r hcell g
    have hmem := List.mem_of_getElem? hcell
    have hlt : cell < cs.length := (List.getElem?_eq_some_iff.1 hcell).1
    set es := cellEntries nLanes nGrains (lanes, g2r) with hes
    let ws := cs.map fun c => (cellEntries nLanes nGrains c).length
    have hws : ws[cell]? = some es.length := by simp [ws, hcell, es]
    have pa : m0.indexPtr[cell]? = some (ws.take cell).sum := by
      rw [c2]; exact Verif.Cutoff.ptrs_get _ _ (by simp; omega)
    have pb : m0.indexPtr[cell + 1]? = some ((ws.take cell).sum + es.length) := by
      rw [c2, Verif.Cutoff.ptrs_get _ _ (by simp; omega)]
      rw [List.take_add_one, List.sum_append]
      show some (_ + (ws[cell]?.toList).sum) = _
      rw [hws]; simp [ws]
    let f : Option Nat → Option (V × D) := fun o =>
      o.bind fun s => m0.center[s]?.bind fun c => total[s]?.map fun d => (c, d)
    have hsegs : ∀ o ∈ es, ∀ s, o = some s → s < nSeg := by
      intro o ho s hos
      subst hos
      rw [hes, cellEntries, List.mem_flatMap] at ho
      obtain ⟨ig, hig, ho⟩ := ho
      rw [entry, List.mem_append] at ho
      rcases ho with ho | ho
      · obtain ⟨l, hl, hls⟩ := List.mem_map.1 ho
        have : ig < nGrains := by
          rw [relevantOps, List.mem_filter] at hig; exact List.mem_range.1 hig.1
        exact hin.segs _ hmem l hl ig this s hls
      · simp at ho
    have hread : ∀ o ∈ es, readEntry { m0 with data := total } o = .ok (f o) := by
      intro o ho
      cases o with
      | none => rfl
      | some s =>
        have hs := hsegs _ ho s rfl
        have e1 : m0.center[s]? = some _ := c6 s hs
        have e2 : total[s]? = some _ := htot s hs
        rw [readEntry]
        rw [Res.index_eq_ok.2 e1, Res.ok_bind]
        rw [Res.index_eq_ok.2 e2, Res.ok_bind]
        simp only [f, Option.bind_some, e1, e2, Option.map_some]
    have hvals : ((List.range es.length).mapM fun i => do
        let x ← Res.index m0.indexValues ((ws.take cell).sum + i)
        readEntry { m0 with data := total } x) = .ok (es.map f) := by
      rw [Res.mapM_eq (g := fun i => f (es.getD i none))]
      · congr 1
        refine List.ext_getElem? fun i => ?_
        rw [List.getElem?_map, List.getElem?_map]
        by_cases hi : i < es.length
        · rw [List.getElem?_range hi, List.getElem?_eq_getElem hi, Option.map_some, Option.map_some,
            List.getD_eq_getElem?_getD, List.getElem?_eq_getElem hi]; rfl
        · rw [List.getElem?_eq_none (by simpa using hi), List.getElem?_eq_none (by omega)]; rfl
      · intro i hi
        have hi' := List.mem_range.1 hi
        have e : m0.indexValues[(ws.take cell).sum + i]? = some es[i] := by
          rw [c3]
          have := Verif.Cutoff.flatten_get (cs.map (cellEntries nLanes nGrains)) cell es (by simp [hcell, es]) i hi'
          rw [List.map_map] at this
          rw [← List.getElem?_eq_getElem hi', ← this]; rfl
        rw [Res.index_eq_ok.2 e, Res.ok_bind, hread _ (List.getElem_mem hi'), List.getD_eq_getElem?_getD,
          List.getElem?_eq_getElem hi']; rfl
    let rows : List (List (Option (V × D))) := (relevantOps nGrains g2r).map fun ig => (entry nLanes lanes ig).map f
    have hrows : es.map f = rows.flatten := by
      simp only [hes, cellEntries, List.flatMap, rows, List.map_flatten, List.map_map]; rfl
    have hlen : ∀ l ∈ rows, l.length = nLanes := by
      intro l hlr
      obtain ⟨ig, -, rfl⟩ := List.mem_map.1 hlr
      have := hin.lanes _ hmem
      simp only [entry, List.length_map, List.length_append, List.length_replicate]
      dsimp only at this; omega
    have hel : es.length = rows.length * nLanes := by
      have : es.length = (es.map f).length := by simp
      rw [this, hrows, List.length_flatten]
      have := Verif.Cutoff.take_sum_const (rows.map List.length) nLanes
        (by intro a ha; obtain ⟨l, hl, rfl⟩ := List.mem_map.1 ha; exact hlen l hl) rows.length (by simp)
      rw [List.take_of_length_le (by simp)] at this
      exact this
    refine ⟨⟨rows, rows.map (hasNonZero vol), g⟩, ?_, rfl, rfl, ?_⟩
    · unfold reinit
      dsimp only
      rw [Res.index_eq_ok.2 pb, Res.ok_bind, Res.index_eq_ok.2 pa, Res.ok_bind, Nat.add_sub_cancel_left, hvals, Res.ok_bind,
        hrows, hel, Nat.mul_div_cancel _ hl, chunks_flatten nLanes rows hlen]
    · rw [advRelevant_eq _ _ (hin.table _ hmem)]
      refine List.map_congr_left fun ig _ => ?_
      rw [entry, List.map_append, List.map_map, List.map_replicate]; rfl

/-- C54 fails for the weighted operator (operator_advection.h:481 discards the index tables): whatever has been
evaluated, `reinit` reads behind the end of `index_ptr` for every cell. -/
theorem C54_weighted_ub {K : Type} [Field K] [LinearOrder K] (vol : D → K) (nLanes nGrains nSeg : Nat)
    (cells : List (List (Lane D) × List Nat)) (result : List D) (m : Mech V D)
    (h : evaluateWeighted nLanes nGrains nSeg cells result = .ok m) (g : List Nat) (cell : Nat) :
    reinit vol nLanes m g cell = .ub := by
  rw [evaluateWeighted] at h
  cases hc : (cellLoopWeighted nLanes nGrains cells (nullify nSeg) : Res (Mech V D)) with
  | ok m0 =>
    rw [hc, Res.ok_bind] at h
    cases h
    rw [reinit]
    have : Res.index (nullify nSeg : Mech V D).indexPtr (cell + 1) = .ub := by
      simp [Res.index, nullify]
    simp only [this]
    rfl
  | exc e => rw [hc] at h; cases h
  | ub => rw [hc] at h; cases h

/-- C53, part: on a rank that finds exactly one pair (relevant order parameter, cell) of the segment, the centre is
the centre of the segment. -/
theorem C53_partial (nLanes nGrains nSeg : Nat) (center : Nat → V)
    (ranks : List (List (List (Lane D) × List Nat))) (h : ∀ cs ∈ ranks, AdvInput nLanes nGrains nSeg cs) (hl : 0 < nLanes) :
    ∃ ms, evaluateForces nLanes nGrains nSeg center ranks = .ok ms ∧
      ∀ (r : Nat) cs m s, ranks[r]? = some cs → ms[r]? = some m → s < nSeg →
        ((advHits nGrains cs).map (·.1)).count s = 1 → m.center[s]? = some (center s) := by
  obtain ⟨ms, h1, -, h3⟩ := C54_tables_partial (K := Rat) (fun _ => 0) nLanes nGrains nSeg hl center ranks h
  refine ⟨ms, h1, fun r cs m s hr hm hs hc => ?_⟩
  rw [(h3 r cs m hr hm).2.1 s hs, hc, one_nsmul]
end

namespace Ex53

/-- Two cells of the segment 0 (order parameter 0) and one cell of the segment 1 (order parameter 1), on one rank;
volume 1 per cell. -/
def lane (s ig : Nat) : Lane Rat := ⟨fun j => if j = ig then some s else none, fun _ => 1⟩
def cells : List (List (Lane Rat) × List Nat) := [([lane 0 0, lane 0 0], [0, 255]), ([lane 1 1], [255, 0])]
def centers : Nat → Rat × Rat := fun s => if s = 0 then (3, 0) else (5, 1)

theorem input : AdvInput 2 2 2 cells :=
  ⟨by decide +kernel, by decide +kernel, by
    intro c hc l hl ig hig s hs
    simp only [cells, List.mem_cons, List.not_mem_nil, or_false] at hc
    rcases hc with rfl | rfl
    · simp only [List.mem_cons, List.not_mem_nil, or_false] at hl
      rcases hl with rfl | rfl <;> (simp only [lane] at hs; split at hs <;> simp_all) <;> omega
    · simp only [List.mem_cons, List.not_mem_nil, or_false] at hl
      subst hl
      simp only [lane] at hs; split at hs <;> simp_all; omega⟩

example : ((advHits 2 cells).map (·.1)).count 1 = 1 ∧ ((advHits 2 cells).map (·.1)).count 0 = 2 := by decide +kernel

/-- C53 is violated: the centre stored for the segment 0 is twice its centre. -/
theorem C53_violated :
    (do let ms ← evaluateForces 2 2 2 centers [cells]; Res.ok (ms.map Mech.center)) = .ok [[(6, 0), (5, 1)]] ∧
      centers 0 = (3, 0) := by decide +kernel

example : (do let ms ← evaluateForces 2 2 2 centers [cells]; Res.ok (ms.map Mech.data)) = .ok [[2, 1]] := by decide +kernel

example : (do
    let ms ← evaluateForces 2 2 2 centers [cells]
    let m ← Res.index ms 0
    reinit (fun d : Rat => d) 2 m [] 1) = .ok ⟨[[some ((5, 1), 1), none]], [true], []⟩ := by decide +kernel

example : (do
    let m ← (evaluateWeighted 2 2 2 cells [2, 1] : Res (Mech (Rat × Rat) Rat))
    reinit (fun d : Rat => d) 2 m [] 0) = .ub := by decide +kernel

end Ex53

/-! ### C41: reading the velocity of an order parameter -/

section
variable {V D : Type} [Zero V]

/-- Specification: velocities of the lanes of a slot. -/
def slotVelocities (vel : V → D → V) (slot : List (Option (V × D))) : List V :=
  slot.map fun l => l.elim 0 fun p => vel p.1 p.2

private theorem slotVelocity_eq (vel : V → D → V) (x : VelData V D) (op r : Nat) (slot : List (Option (V × D)))
    (h1 : relevantId x op = .ok r) (h2 : x.slots[r]? = some slot) :
    slotVelocity vel x op = .ok (slotVelocities vel slot) := by
  rw [slotVelocity, h1, Res.ok_bind, h2]
  show Res.ok _ = _
  congr 1
  refine List.map_congr_left fun l _ => ?_
  cases l <;> rfl

/-- C41 without cut-off: the data of an order parameter are those of its slot. -/
theorem C41_no_cutoff (vel : V → D → V) (x : VelData V D) (hg : x.g2r = []) (hh : x.has.length = x.slots.length)
    (hn : x.slots.length ≤ 255) (op : Nat) (slot : List (Option (V × D))) (b : Bool)
    (hs : x.slots[op]? = some slot) (hb : x.has[op]? = some b) :
    hasVelocity x op = .ok b ∧ getVelocity vel x op = .ok (slotVelocities vel slot) := by
  have hlt : op < x.slots.length := (List.getElem?_eq_some_iff.1 hs).1
  have hr : relevantId x op = .ok op := by rw [relevantId, hg]; simp; omega
  have hne : x.has ≠ [] := by intro h0; rw [h0] at hh; simp at hh; omega
  constructor
  · rw [hasVelocity, if_neg (by simpa using hne), hr, Res.ok_bind, if_neg (by omega), Res.index_eq_ok.2 hb]
  · rw [getVelocity, hr, Res.ok_bind, slotVelocity_eq vel x op op slot hr hs]

/-- C41 with cut-off, exact description: slots are numbered by `grain_to_relevant_grain`, which is applied twice.  If
`op` is at the position `i` among the relevant grains, the velocity is that of the slot which belongs to the order
parameter `i`; if the order parameter `i` is not relevant, an exception is thrown. -/
theorem C41_cutoff_read (vel : V → D → V) (x : VelData V D) (hn : x.slots.length ≤ 255) (op i j : Nat)
    (hop : x.g2r[op]? = some i) (hi : x.g2r[i]? = some j) :
    (∀ slot, x.slots[j]? = some slot → getVelocity vel x op = .ok (slotVelocities vel slot)) ∧
      (j = 255 → getVelocity vel x op = .exc .outOfRange) := by
  have hne : x.g2r.isEmpty = false := by
    cases hx : x.g2r with
    | nil => rw [hx] at hop; simp at hop
    | cons a l => rfl
  have h1 : relevantId x op = .ok i := by rw [relevantId, hne]; exact Res.index_eq_ok.2 hop
  have h2 : relevantId x i = .ok j := by rw [relevantId, hne]; exact Res.index_eq_ok.2 hi
  constructor
  · intro slot hs
    rw [getVelocity, h1, Res.ok_bind, slotVelocity_eq vel x i j slot h2 hs]
  · rintro rfl
    rw [getVelocity, h1, Res.ok_bind, slotVelocity, h2, Res.ok_bind, List.getElem?_eq_none (by omega)]
    rfl

/-- C41, part: with cut-off the result is that of the right slot if the relevant grains are the first `r` ones; the
position among the relevant grains and the order parameter are then the same number. -/
theorem C41_prefix_partial (vel : V → D → V) (x : VelData V D) (nGrains r : Nat) (hr : r ≤ 255) (hrn : r ≤ nGrains) (h0 : 0 < r)
    (hs : x.slots.length = r) (hh : x.has.length = r)
    (hg : x.g2r = (List.range nGrains).map fun ig => if ig < r then ig else 255) (op : Nat) (hop : op < nGrains) :
    (∀ slot b, x.slots[op]? = some slot → x.has[op]? = some b →
      hasVelocity x op = .ok b ∧ getVelocity vel x op = .ok (slotVelocities vel slot)) ∧
    (r ≤ op → hasVelocity x op = .ok false) := by
  have hget : ∀ op < nGrains, x.g2r[op]? = some (if op < r then op else 255) := by
    intro op h
    rw [hg, List.getElem?_map, List.getElem?_range h, Option.map_some]
  have hne : x.g2r.isEmpty = false := by
    cases hx : x.g2r with
    | nil => have := hget op hop; rw [hx] at this; simp at this
    | cons a l => rfl
  have hid : ∀ op < nGrains, relevantId x op = .ok (if op < r then op else 255) := by
    intro op h
    rw [relevantId, hne]; exact Res.index_eq_ok.2 (hget op h)
  have hhe : x.has.isEmpty = false := by
    cases hx : x.has with
    | nil => rw [hx] at hh; simp at hh; omega
    | cons a l => rfl
  constructor
  · intro slot b h1 h2
    have hlt : op < r := by rw [← hs]; exact (List.getElem?_eq_some_iff.1 h1).1
    have e := hid op hop
    rw [if_pos hlt] at e
    constructor
    · rw [hasVelocity, hhe, if_neg (by simp), e, Res.ok_bind, if_neg (by omega), Res.index_eq_ok.2 h2]
    · rw [getVelocity, e, Res.ok_bind, slotVelocity_eq vel x op op slot e h1]
  · intro h
    rw [hasVelocity, hhe, if_neg (by simp), hid op hop, if_neg (by omega), Res.ok_bind, if_pos rfl]
end

namespace Ex41

/-- One cell of four order parameters, each with its own segment; order parameter 1 is cut off. -/
def lane : Lane Rat := ⟨some, fun j => j + 1⟩
def g2r : List Nat := [0, 255, 1, 2]

/-- The data read on the cell. -/
def read (g : List Nat) : Res (VelData Rat Rat) := do
  let ms ← evaluateForces 1 4 4 (fun _ => (0 : Rat)) [[([lane], g)]]
  let m ← Res.index ms 0
  reinit (fun d : Rat => d) 1 m g 0

example : read g2r = .ok ⟨[[some (0, 1)], [some (0, 3)], [some (0, 4)]], [true, true, true], g2r⟩ := by decide +kernel

/-- C41 is violated.  The kernels run over the relevant grains 0, 2, 3 with the positions 0, 1, 2: for position 1 (grain
2) they find no velocity, for position 2 (grain 3) there is one, but reading it throws an exception.  The CFL check uses
the numbers of the grains: for grain 3 it gets the velocity of grain 2. -/
theorem C41_violated : (do
    let x ← read g2r
    hasVelocity x 1) = .ok false ∧ (do
    let x ← read g2r
    hasVelocity x 2) = .ok true ∧ (do
    let x ← read g2r
    getVelocity (fun _ d => d) x 2) = .exc .outOfRange ∧ (do
    let x ← read g2r
    getVelocity (fun _ d => d) x 3) = .ok [3] := by decide +kernel

/-- Hypotheses of `C41_no_cutoff` and `C41_prefix_partial` are met: -/
example : (do
    let x ← read [0, 1, 2, 3]
    getVelocity (fun _ d => d) { x with g2r := [] } 2) = .ok [3] := by decide +kernel
example : (do
    let x ← read [0, 1, 2, 255]
    getVelocity (fun _ d => d) x 2) = .ok [3] := by decide +kernel

end Ex41

/-! ### C50: the rotation and the torque -/

section
variable {K : Type} [Field K] [LinearOrder K] [IsStrictOrderedRing K]

/-- Specification: scalar products. -/
def dot2 (a b : K × K) : K := a.1 * b.1 + a.2 * b.2
def dot3 (a b : K × K × K) : K := a.1 * b.1 + a.2.1 * b.2.1 + a.2.2 * b.2.2

/-- Specification: power of the forces (second components) acting at the points (first components) of a rigid body that
moves with the given velocity field. -/
def power2 (v : K × K → K × K) (l : List ((K × K) × (K × K))) : K := (l.map fun p => dot2 p.2 (v p.1)).sum
def power3 (v : K × K × K → K × K × K) (l : List ((K × K × K) × (K × K × K))) : K :=
  (l.map fun p => dot3 p.2 (v p.1)).sum

private theorem foldl_add_comm {A B : Type} [AddCommMonoid B] (f : A → B) (l : List A) (b : B) :
    l.foldl (fun t p => t + f p) b = b + l.foldl (fun t p => t + f p) 0 := by
  induction l generalizing b with
  | nil => simp
  | cons a l ih => rw [List.foldl_cons, ih, List.foldl_cons, ih (0 + f a), zero_add, add_assoc]

private theorem power3_eq (m : K) (T : K × K × K) (V : K) (l : List ((K × K × K) × (K × K × K))) :
    power3 (rotation3 m V T) l = m * (1 / V) * dot3 T (torque3 l) := by
  induction l with
  | nil => simp [power3, torque3, dot3]
  | cons p l ih =>
    have e : torque3 (p :: l) = cross3 p.1 p.2 + torque3 l := by
      rw [torque3, List.foldl_cons, foldl_add_comm, zero_add]; rfl
    rw [e]
    simp only [power3, List.map_cons, List.sum_cons] at ih ⊢
    rw [ih]
    simp only [dot3, rotation3, cross3, Prod.fst_add, Prod.snd_add]
    ring

private theorem power2_eq (m : K) (T : K) (V : K) (l : List ((K × K) × (K × K))) :
    power2 (rotation2 m V T) l = -(m * (1 / V) * (T * torque2 l)) := by
  induction l with
  | nil => simp [power2, torque2]
  | cons p l ih =>
    have e : torque2 (p :: l) = cross2 p.1 p.2 + torque2 l := by
      rw [torque2, List.foldl_cons, foldl_add_comm, zero_add]; rfl
    rw [e]
    simp only [power2, List.map_cons, List.sum_cons] at ih ⊢
    rw [ih]
    simp only [dot2, rotation2, cross2]
    ring

/-- C50 in three dimensions: with the torque computed from the forces, the power of the forces on the rotation is
`mr / volume * |torque|^2`, hence not negative. -/
theorem C50_3d_partial (mr vol : K) (hm : 0 ≤ mr) (hv : 0 < vol) (l : List ((K × K × K) × (K × K × K))) :
    power3 (rotation3 mr vol (torque3 l)) l = mr / vol * dot3 (torque3 l) (torque3 l) ∧
      0 ≤ power3 (rotation3 mr vol (torque3 l)) l := by
  have h := power3_eq mr (torque3 l) vol l
  refine ⟨by rw [h]; ring, ?_⟩
  rw [h]
  have h1 : 0 ≤ mr * (1 / vol) := by positivity
  have h2 : 0 ≤ dot3 (torque3 l) (torque3 l) := by
    simp only [dot3, ← pow_two]; positivity
  exact mul_nonneg h1 h2

/-- C50 is violated in two dimensions (tensor.h:61-66 has the opposite sign): the power is `-mr / volume * torque^2`, so
that the grain rotates against the torque. -/
theorem C50_2d_violated (mr vol : K) (hm : 0 < mr) (hv : 0 < vol) (l : List ((K × K) × (K × K))) :
    power2 (rotation2 mr vol (torque2 l)) l = -(mr / vol * (torque2 l) ^ 2) ∧
      (torque2 l ≠ 0 → power2 (rotation2 mr vol (torque2 l)) l < 0) := by
  have h := power2_eq mr (torque2 l) vol l
  refine ⟨by rw [h]; ring, fun ht => ?_⟩
  rw [h, neg_lt_zero]
  have h1 : 0 < mr * (1 / vol) := by positivity
  have h2 : 0 < torque2 l * torque2 l := by
    rcases lt_or_gt_of_ne ht with h | h
    · exact mul_pos_of_neg_of_neg h h
    · exact mul_pos h h
  exact mul_pos h1 h2

/-- For plane data, the rotation in two dimensions is the opposite of that in three dimensions. -/
theorem C50_2d_vs_3d (mr vol : K) (l : List ((K × K) × (K × K))) (r : K × K) :
    let emb : K × K → K × K × K := fun p => (p.1, p.2, 0)
    rotation3 mr vol (torque3 (l.map fun p => (emb p.1, emb p.2))) (emb r) =
      emb (-(rotation2 mr vol (torque2 l) r).1, -(rotation2 mr vol (torque2 l) r).2) := by
  intro emb
  have key : torque3 (l.map fun p => (emb p.1, emb p.2)) = (0, 0, -torque2 l) := by
    induction l with
    | nil => simp [torque3, torque2]; rfl
    | cons p l ih =>
      have e2 : torque2 (p :: l) = cross2 p.1 p.2 + torque2 l := by
        rw [torque2, List.foldl_cons, foldl_add_comm, zero_add]; rfl
      have e3 : torque3 ((p :: l).map fun p => (emb p.1, emb p.2)) =
          cross3 (emb p.1) (emb p.2) + torque3 (l.map fun p => (emb p.1, emb p.2)) := by
        rw [List.map_cons, torque3, List.foldl_cons, foldl_add_comm, zero_add]; rfl
      rw [e3, ih, e2]
      simp only [emb, cross3, cross2, Prod.mk_add_mk]
      refine Prod.ext (by ring) (Prod.ext (by ring) (by dsimp only; ring))
  rw [key]
  simp only [rotation3, cross3, emb, rotation2]
  refine Prod.ext (by ring) (Prod.ext (by dsimp only; ring) (by dsimp only; ring))
end

namespace Ex50
/-- A force in y direction at the point (1, 0): the true torque is 1, the body should turn counter-clockwise. -/
def forces : List ((Rat × Rat) × (Rat × Rat)) := [((1, 0), (0, 1))]
example : torque2 forces = -1 ∧ rotation2 1 1 (torque2 forces) (1, 0) = (0, -1) := by decide +kernel
example : torque3 [(((1 : Rat), 0, 0), (0, 1, 0))] = (0, 0, 1) ∧
    rotation3 1 1 (torque3 [(((1 : Rat), 0, 0), (0, 1, 0))]) (1, 0, 0) = (0, 1, 0) := by decide +kernel
end Ex50

/-! ### C56: forces between grains -/

section
variable {K : Type} [Field K] [LinearOrder K] {V : Type} [AddCommGroup V] [Module K V]

private theorem pairForce_antisymm (k cgb ceq : K) (smooth : Option (K → K)) (c : K) (i j : K × V) :
    pairForce k cgb ceq smooth c i j = -pairForce k cgb ceq smooth c j i := by
  simp only [pairForce, mul_comm j.1 i.1, ← smul_neg, neg_sub]

private theorem pairForce_self (k cgb ceq : K) (smooth : Option (K → K)) (c : K) (i : K × V) :
    pairForce k cgb ceq smooth c i i = 0 := by
  simp only [pairForce, sub_self, smul_zero]

private theorem pair_col (a : K × V → K × V → V) (h : ∀ i j, a i j = -a j i) (R : List (K × V)) (x : K × V) :
    (R.map fun i => a i x).sum = -(R.map fun j => a x j).sum := by
  induction R with
  | nil => simp
  | cons y R ih => simp only [List.map_cons, List.sum_cons, ih, neg_add, h y x]

private theorem pair_sum (a : K × V → K × V → V) (h0 : ∀ i, a i i = 0) (h : ∀ i j, a i j = -a j i) (R : List (K × V)) :
    (R.map fun i => (R.map fun j => a i j).sum).sum = 0 := by
  induction R with
  | nil => rfl
  | cons x R ih =>
    simp only [List.map_cons, List.sum_cons, h0, zero_add]
    rw [List.sum_map_add, ih, add_zero, pair_col a h]
    exact add_neg_cancel _

private theorem fold_force (k cgb ceq : K) (smooth : Option (K → K)) (c : K) (i : K × V) (ig : Nat)
    (gs : List (Option (K × V))) (n : Nat) (acc : V) (hi : ∀ (m : Nat) j, gs[m]? = some (some j) → n + m = ig → j = i) :
    (gs.zipIdx n).foldl (fun f p => match p.1 with
      | some j => if ig ≠ p.2 then f + pairForce k cgb ceq smooth c i j else f
      | none => f) acc = acc + ((gs.filterMap id).map fun j => pairForce k cgb ceq smooth c i j).sum := by
  induction gs generalizing n acc with
  | nil => simp
  | cons g gs ih =>
    rw [List.zipIdx_cons, List.foldl_cons, ih (n + 1) _ (fun m j hm he => hi (m + 1) j (by simpa using hm) (by omega))]
    cases g with
    | none => simp
    | some j =>
      rw [show (some j :: gs).filterMap id = j :: gs.filterMap id from rfl, List.map_cons, List.sum_cons]
      by_cases hn : ig = n
      · have : j = i := hi 0 j (by simp) (by omega)
        subst this
        simp [hn, pairForce_self]
      · simp only [ne_eq, hn, not_false_eq_true, if_true, add_assoc]

/-- C56: at a quadrature point the forces on all grains sum up to zero, whatever order parameters are relevant, with and
without filter. -/
theorem C56_balance (k cgb ceq : K) (smooth : Option (K → K)) (c : K) (gs : List (Option (K × V))) :
    ((List.range gs.length).map fun ig => forceOn k cgb ceq smooth c gs ig).sum = 0 := by
  have h1 : (List.range gs.length).map (fun ig => forceOn k cgb ceq smooth c gs ig) =
      gs.map fun g => g.elim 0 fun i => ((gs.filterMap id).map fun j => pairForce k cgb ceq smooth c i j).sum := by
    refine List.ext_getElem? fun ig => ?_
    rw [List.getElem?_map, List.getElem?_map]
    by_cases hi : ig < gs.length
    · rw [List.getElem?_range hi, Option.map_some, List.getElem?_eq_getElem hi, Option.map_some]
      congr 1
      unfold forceOn
      rw [List.getElem?_eq_getElem hi]
      cases hg : gs[ig] with
      | none => rfl
      | some i =>
        dsimp only
        refine (fold_force k cgb ceq smooth c i ig gs 0 0 (fun m j hm he => ?_)).trans ?_
        rotate_left
        · rw [zero_add]; rfl
        · have : m = ig := by omega
          subst this
          rw [List.getElem?_eq_getElem hi, hg] at hm
          simpa using hm.symm
    · rw [List.getElem?_eq_none (by simpa using hi), List.getElem?_eq_none (by omega)]; rfl
  have h2 : ∀ (F : K × V → V) (l : List (Option (K × V))),
      (l.map fun g => g.elim 0 F).sum = ((l.filterMap id).map F).sum := by
    intro F l
    induction l with
    | nil => rfl
    | cons g l ih =>
      cases g with
      | none => simpa using ih
      | some i => rw [List.map_cons, List.sum_cons, ih, show (some i :: l).filterMap id = i :: l.filterMap id from rfl, List.map_cons, List.sum_cons]; rfl
  rw [h1, h2]
  exact pair_sum _ (pairForce_self k cgb ceq smooth c) (pairForce_antisymm k cgb ceq smooth c) _
end

namespace Ex56
/-- Three grains, one of them cut off. -/
def gs : List (Option (Rat × Rat)) := [some (1/2, 3), none, some (1/3, -1), some (1/4, 2)]
example : ((List.range 4).map fun ig => forceOn (10 : Rat) 0 (9/10) none (4/5) gs ig) =
    [-19/6, 0, 11/3, -1/2] ∧ forceOn (10 : Rat) 0 (9/10) none (4/5) gs 0 ≠ 0 := by decide +kernel
example : forceOn (10 : Rat) (1/8) (9/10) none (4/5) gs 0 = -4 := by decide +kernel
end Ex56

end Verif.Props
