/-
C159: fields written per cell show the pores and the velocities of the grains.
-/
import Verif.Lemmas.CellFields
import Verif.Props.Advection
import Mathlib.Algebra.Field.Rat
import Mathlib.Algebra.Order.Ring.Rat

set_option linter.unusedSectionVars false

namespace Verif.Props

open Verif.CellFields Verif.Advection Verif.Spec.CellFields

/-- C159, pores: if the detection leaves on every cell owned an id that belongs to the rank, the file contains exactly
the cells owned that lie in a pore, each once and in the order of the triangulation, with the global id of the pore. -/
theorem C159_pores (ids : Nat → Option Nat) (l2g : List Nat) (offset nActive fuel : Nat) (cells : List OCell)
    (hn : Numbered nActive cells) (hfuel : cells.length < fuel)
    (h : ∀ c ∈ cells, c.owned = true → ∀ p, ids c.global = some p → offset ≤ p ∧ p - offset < l2g.length) :
    poreFile ids l2g offset nActive fuel cells = .ok (some ((cells.filter (inPore ids)).map fun c =>
      (c.global, (ids c.global).bind fun p => l2g[p - offset]?))) := by
  obtain ⟨w, a, -, c, -⟩ := cellToId_fold ids l2g offset nActive cells (fun c hc ho _ => h c hc ho) hn.bound hn.inj
    (List.replicate nActive (some 0)) (by simp)
  have a' : cellToId ids l2g offset nActive cells = .ok w := a
  unfold poreFile
  rw [a', Res.ok_bind]
  refine patches_ok ids (want ids l2g offset) w fuel cells hfuel c fun c hc ho _ => ?_
  unfold want
  cases e : ids c.global with
  | none => rfl
  | some p =>
    have := (h c hc ho p e).2
    simp [List.getElem?_eq_getElem this]

/-- C159, pores: an id below the offset of the rank or beyond its table is not noticed, the access leaves the table. -/
theorem C159_pores_undefined (ids : Nat → Option Nat) (l2g : List Nat) (offset nActive fuel : Nat) (c : OCell)
    (cells : List OCell) (i p : Nat) (hi : c.index = some i) (ho : c.owned = true) (hp : ids c.global = some p)
    (h : p < offset ∨ l2g.length ≤ p - offset) : poreFile ids l2g offset nActive fuel (c :: cells) = .ub := by
  have : cellId ids l2g offset c.global = .ub := by
    unfold cellId
    rw [hp]
    dsimp only
    split
    · rfl
    · rw [Res.index, List.getElem?_eq_none (by omega)]; rfl
  unfold poreFile cellToId
  rw [List.foldlM_cons, hi]
  simp only [ho, if_true]
  rw [this]
  rfl

section
variable {K D : Type} [Field K] [LinearOrder K] {dim : Nat}

/-- C159, velocities: with complete data and cells that are numbered without repetition there are `dim` fields for every
order parameter, one per component; in every cell of every batch they show the translation velocity of the grain that the
order parameter represents there, zero without grain, with and without cut-off. -/
theorem C159_velocities (vel : (Fin dim → K) → D → (Fin dim → K)) (vol : D → K) (nLanes nGrains nActive : Nat)
    (pre : String) (m : Mech (Fin dim → K) D) (batches : List (List Nat × List Nat)) (xs : List (VelData (Fin dim → K) D))
    (hlen : xs.length = batches.length)
    (hx : ∀ (b : Nat) g2r cells x, batches[b]? = some (g2r, cells) → xs[b]? = some x →
      reinit vol nLanes m g2r b = .ok x ∧ Complete vol nGrains cells.length g2r x)
    (hb : ∀ b ∈ batches, ∀ c ∈ b.2, c < nActive)
    (hu : ∀ (b b' : Nat) p p' (l l' c : Nat), batches[b]? = some p → batches[b']? = some p' → p.2[l]? = some c →
      p'.2[l']? = some c → b = b' ∧ l = l') :
    ∃ fs, velocityFields vel vol nLanes nGrains nActive pre m batches = .ok fs ∧ fs.length = nGrains * dim ∧
      ∀ ig < nGrains, ∀ d : Fin dim, ∃ row, fs[ig * dim + d.val]? = some (pre ++ toString ig, row) ∧ row.length = nActive ∧
        (∀ (b : Nat) p x (l c : Nat), batches[b]? = some p → xs[b]? = some x → p.2[l]? = some c →
          row[c]? = some (shown vel x ig l d)) ∧
        ∀ c < nActive, (∀ p ∈ batches, c ∉ p.2) → row[c]? = some 0 := by
  classical
  -- all writes
  let W : List (Nat × Nat × K) := batches.zipIdx.flatMap fun b => match xs[b.2]? with
    | none => []
    | some x => (List.range nGrains).flatMap fun ig => opWrites vel vol x b.1.2 ig
  have hW : ∀ v, writeBatches vel vol nLanes nGrains m batches v = W.foldlM step v := by
    intro v
    unfold writeBatches
    refine foldlM_flat _ _ _ _ (fun b hbm v => ?_) v
    have hbb : batches[b.2]? = some (b.1.1, b.1.2) := by
      have := List.mem_zipIdx_iff_getElem?.1 hbm
      simpa using this
    have hlt : b.2 < xs.length := by rw [hlen]; exact (List.getElem?_eq_some_iff.1 hbb).1
    obtain ⟨h1, h2⟩ := hx b.2 b.1.1 b.1.2 xs[b.2] hbb (List.getElem?_eq_getElem hlt)
    rw [h1, Res.ok_bind, List.getElem?_eq_getElem hlt]
    dsimp only
    exact foldlM_flat _ _ _ _ (fun ig hig v => writeOp_eq vel vol _ nGrains _ _ h2 ig (List.mem_range.1 hig) v) v
  have memW : ∀ w ∈ W, ∃ (b : Nat) (p : List Nat × List Nat) (x : VelData (Fin dim → K) D) (ig l c : Nat) (d : Fin dim),
      batches[b]? = some p ∧ xs[b]? = some x ∧ ig < nGrains ∧ p.2[l]? = some c ∧
      w = (dim * ig + d.val, c, shown vel x ig l d) := by
    intro w hw
    obtain ⟨b, hbm, hw⟩ := List.mem_flatMap.1 hw
    have hbb : batches[b.2]? = some b.1 := by simpa using List.mem_zipIdx_iff_getElem?.1 hbm
    cases e : xs[b.2]? with
    | none => rw [e] at hw; cases hw
    | some x =>
      rw [e] at hw
      obtain ⟨ig, hig, hw⟩ := List.mem_flatMap.1 hw
      rcases opWrites_cases vel vol x b.1.2 ig with h | h
      · rw [h] at hw; cases hw
      · rw [h] at hw
        obtain ⟨l, hl, hw⟩ := List.mem_flatMap.1 hw
        obtain ⟨d, -, hw⟩ := List.mem_map.1 hw
        have hl := List.mem_range.1 hl
        refine ⟨b.2, b.1, x, ig, l, b.1.2[l], d, hbb, e, List.mem_range.1 hig, List.getElem?_eq_getElem hl, ?_⟩
        rw [← hw, List.getD_eq_getElem?_getD, List.getElem?_eq_getElem hl]; rfl
  have key : ∀ (i j : Nat) (d e : Fin dim), dim * i + d.val = dim * j + e.val → i = j ∧ d = e := by
    intro i j d e h
    have h0 : 0 < dim := Nat.lt_of_le_of_lt (Nat.zero_le _) d.isLt
    have h1 : i = j := by
      have := congrArg (· / dim) h
      simpa [Nat.mul_add_div h0, Nat.div_eq_of_lt d.isLt, Nat.div_eq_of_lt e.isLt] using this
    subst h1
    exact ⟨rfl, Fin.ext (by omega)⟩
  have small : ∀ ig < nGrains, ∀ d : Fin dim, dim * ig + d.val < nGrains * dim := by
    intro ig hig d
    have : dim * (ig + 1) ≤ dim * nGrains := Nat.mul_le_mul_left _ hig
    rw [Nat.mul_comm nGrains dim]
    rw [Nat.mul_add, Nat.mul_one] at this
    have := d.isLt
    omega
  obtain ⟨v, a, vl, vr, vw, vf⟩ := writes_ok (nGrains * dim) nActive W
    (by
      intro w hw
      obtain ⟨b, p, x, ig, l, c, d, h1, h2, h3, h4, rfl⟩ := memW w hw
      exact ⟨small ig h3 d, hb p (List.mem_of_getElem? h1) c (List.mem_of_getElem? h4)⟩)
    (by
      intro w hw w' hw' e1 e2
      obtain ⟨b, p, x, ig, l, c, d, h1, h2, h3, h4, rfl⟩ := memW w hw
      obtain ⟨b', p', x', ig', l', c', d', h1', h2', h3', h4', rfl⟩ := memW w' hw'
      dsimp only at e1 e2 ⊢
      subst e2
      obtain ⟨rfl, rfl⟩ := key _ _ _ _ e1
      obtain ⟨rfl, rfl⟩ := hu b b' p p' l l' c h1 h1' h4 h4'
      rw [h2] at h2'; cases h2'; rfl)
    (List.replicate (nGrains * dim) (List.replicate nActive 0)) (by simp)
    (by intro r hr; rw [List.eq_of_mem_replicate hr]; simp)
  have hread : ∀ (l : List (Nat × Nat)), (∀ p ∈ l, dim * p.1 + p.2 < nGrains * dim) →
      (l.mapM fun p => do
        let x ← Res.index v (dim * p.1 + p.2)
        Res.ok (pre ++ toString p.1, x)) = .ok (l.map fun p => (pre ++ toString p.1, v.getD (dim * p.1 + p.2) [])) := by
    intro l
    induction l with
    | nil => intro _; rfl
    | cons p l ih =>
      intro h
      have hp : dim * p.1 + p.2 < v.length := by rw [vl]; exact h p (by simp)
      rw [List.mapM_cons, ih fun q hq => h q (List.mem_cons_of_mem _ hq), Res.index, List.getElem?_eq_getElem hp,
        List.map_cons, List.getD_eq_getElem?_getD, List.getElem?_eq_getElem hp]
      rfl
  have hflat : ∀ n, ((List.range n).flatMap fun ig => (List.range dim).map fun d => (ig, d)).length = n * dim := by
    intro n
    induction n with
    | zero => simp
    | succ n ih => rw [List.range_succ, List.flatMap_append, List.length_append, ih]; simp [Nat.succ_mul]
  have hget : ∀ n, ∀ ig < n, ∀ d : Fin dim,
      ((List.range n).flatMap fun ig => (List.range dim).map fun d => (ig, d))[ig * dim + d.val]? = some (ig, d.val) := by
    intro n
    induction n with
    | zero => intro ig h; omega
    | succ n ih =>
      intro ig hig d
      rw [List.range_succ, List.flatMap_append]
      by_cases h : ig < n
      · rw [List.getElem?_append_left, ih ig h d]
        rw [hflat]
        have : (ig + 1) * dim ≤ n * dim := Nat.mul_le_mul_right _ h
        rw [Nat.succ_mul] at this
        have := d.isLt
        omega
      · have : ig = n := by omega
        subst this
        rw [List.getElem?_append_right (by rw [hflat]; omega), hflat]
        simp
  refine ⟨((List.range nGrains).flatMap fun ig => (List.range dim).map fun d => (ig, d)).map fun p =>
    (pre ++ toString p.1, v.getD (dim * p.1 + p.2) []), ?_, ?_, ?_⟩
  · unfold velocityFields
    rw [hW, a, Res.ok_bind]
    refine hread _ ?_
    intro p hp
    obtain ⟨ig, hig, hp⟩ := List.mem_flatMap.1 hp
    obtain ⟨d, hd, rfl⟩ := List.mem_map.1 hp
    exact small ig (List.mem_range.1 hig) ⟨d, List.mem_range.1 hd⟩
  · rw [List.length_map, hflat]
  · intro ig hig d
    have hlt : dim * ig + d.val < v.length := by rw [vl]; exact small ig hig d
    refine ⟨v.getD (dim * ig + d.val) [], ?_, ?_, ?_, ?_⟩
    · rw [List.getElem?_map, hget nGrains ig hig d]; rfl
    · rw [List.getD_eq_getElem?_getD, List.getElem?_eq_getElem hlt]
      exact vr _ (List.getElem_mem hlt)
    · intro b p x l c h1 h2 h4
      have hent : ∀ c, (v.getD (dim * ig + d.val) [])[c]? = CellFields.entry v (dim * ig + d.val) c := by
        intro c
        rw [CellFields.entry, List.getD_eq_getElem?_getD, List.getElem?_eq_getElem hlt]; rfl
      rw [hent]
      obtain ⟨q1, q2⟩ := hx b p.1 p.2 x h1 h2
      have hl := (List.getElem?_eq_some_iff.1 h4).1
      rcases opWrites_cases vel vol x p.2 ig with h | h
      · rw [vf, shown_zero vel vol x nGrains p.1 p.2 q2 ig l h hl d, CellFields.entry,
          List.getElem?_replicate_of_lt (small ig hig d), Option.bind_some,
          List.getElem?_replicate_of_lt (hb p (List.mem_of_getElem? h1) c (List.mem_of_getElem? h4))]
        intro w hw hww
        obtain ⟨b', hbm, hw⟩ := List.mem_flatMap.1 hw
        have hbb : batches[b'.2]? = some b'.1 := by simpa using List.mem_zipIdx_iff_getElem?.1 hbm
        cases e : xs[b'.2]? with
        | none => rw [e] at hw; cases hw
        | some x' =>
          rw [e] at hw
          obtain ⟨ig', hig', hw⟩ := List.mem_flatMap.1 hw
          rcases opWrites_cases vel vol x' b'.1.2 ig' with h' | h'
          · rw [h'] at hw; cases hw
          · have hw0 := hw
            rw [h'] at hw
            obtain ⟨l', hl', hw⟩ := List.mem_flatMap.1 hw
            obtain ⟨d', -, hw⟩ := List.mem_map.1 hw
            have hl' := List.mem_range.1 hl'
            subst hw
            obtain ⟨k1, k2⟩ := hww
            obtain ⟨rfl, rfl⟩ := key _ _ _ _ k1
            have : b'.1.2[l']? = some c := by
              rw [List.getElem?_eq_getElem hl', k2, List.getD_eq_getElem?_getD, List.getElem?_eq_getElem hl']; rfl
            obtain ⟨hbe, -⟩ := hu b b'.2 p b'.1 l l' c h1 hbb h4 this
            rw [← hbe] at hbb e
            rw [h1] at hbb; cases hbb
            rw [h2] at e; cases e
            rw [h] at hw0; cases hw0
      · have : (dim * ig + d.val, c, shown vel x ig l d) ∈ W := by
          refine List.mem_flatMap.2 ⟨(p, b), List.mem_zipIdx_iff_getElem?.2 h1, ?_⟩
          rw [h2]
          refine List.mem_flatMap.2 ⟨ig, List.mem_range.2 hig, ?_⟩
          rw [h]
          refine List.mem_flatMap.2 ⟨l, List.mem_range.2 hl, List.mem_map.2 ⟨d, List.mem_finRange d, ?_⟩⟩
          rw [List.getD_eq_getElem?_getD, h4]; rfl
        exact vw _ this
    · intro c hc hno
      have hent : (v.getD (dim * ig + d.val) [])[c]? = CellFields.entry v (dim * ig + d.val) c := by
        rw [CellFields.entry, List.getD_eq_getElem?_getD, List.getElem?_eq_getElem hlt]; rfl
      rw [hent, vf, CellFields.entry, List.getElem?_replicate_of_lt (small ig hig d), Option.bind_some,
        List.getElem?_replicate_of_lt hc]
      intro w hw hww
      obtain ⟨b, p, x, ig', l, c', d', h1, h2, h3, h4, rfl⟩ := memW w hw
      exact hno p (List.mem_of_getElem? h1) (by rw [hww.2]; exact List.mem_of_getElem? h4)

/-- Specification: the table of a batch read by the output fits to the one used for the forces: none without cut-off, and
otherwise the same one, in which every relevant order parameter has its position among the relevant ones. -/
def FittingTable (nGrains : Nat) (g2r g : List Nat) : Prop :=
  (g = [] ∧ ∀ ig < nGrains, g2r[ig]? ≠ some 255) ∨
  (g = g2r ∧ ∀ ig < nGrains, ∀ r, g2r[ig]? = some r → r ≠ 255 → (advRelevant nGrains g2r)[r]? = some ig)

/-- C159, velocities of a run: the forces computed on all ranks give, on every rank, fields that show in the cell of every
lane the velocity of the segment found there, with the force summed over all ranks (and the centre of C53), and zero where
there is no segment or the order parameter is cut off. -/
theorem C159_forces [AddCommMonoid D] (vel : (Fin dim → K) → D → (Fin dim → K)) (vol : D → K)
    (nLanes nGrains nSeg nActive : Nat) (hl : 0 < nLanes) (hn : nGrains ≤ 255) (pre : String) (center : Nat → Fin dim → K)
    (ranks : List (List (List (Lane D) × List Nat))) (h : ∀ cs ∈ ranks, AdvInput nLanes nGrains nSeg cs)
    (hv : ∀ s < nSeg, 0 ≤ vol (ranks.map fun cs => (((advHits nGrains cs).filter fun p => p.1 == s).map (·.2)).sum).sum)
    (r : Nat) (cs : List (List (Lane D) × List Nat)) (hr : ranks[r]? = some cs)
    (batches : List (List Nat × List Nat)) (hlen : batches.length = cs.length)
    (hfit : ∀ (b : Nat) p q, batches[b]? = some p → cs[b]? = some q → p.2.length = q.1.length ∧ FittingTable nGrains q.2 p.1)
    (hb : ∀ b ∈ batches, ∀ c ∈ b.2, c < nActive)
    (hu : ∀ (b b' : Nat) p p' (l l' c : Nat), batches[b]? = some p → batches[b']? = some p' → p.2[l]? = some c →
      p'.2[l']? = some c → b = b' ∧ l = l') :
    ∃ ms m fs, evaluateForces nLanes nGrains nSeg center ranks = .ok ms ∧ ms[r]? = some m ∧
      velocityFields vel vol nLanes nGrains nActive pre m batches = .ok fs ∧
      ∀ ig < nGrains, ∀ d : Fin dim, ∃ row, fs[ig * dim + d.val]? = some (pre ++ toString ig, row) ∧
        ∀ (b : Nat) p q (l c : Nat) lane, batches[b]? = some p → cs[b]? = some q → p.2[l]? = some c → q.1[l]? = some lane →
          row[c]? = some (if ig ∈ advRelevant nGrains q.2 then (lane.seg ig).elim 0 fun s =>
            vel (((advHits nGrains cs).map (·.1)).count s • center s)
              (ranks.map fun cs => (((advHits nGrains cs).filter fun p => p.1 == s).map (·.2)).sum).sum d else 0) := by
  classical
  obtain ⟨ms, h1, h2, h3⟩ := C54_tables_partial vol nLanes nGrains nSeg hl center ranks h
  have hrl := (List.getElem?_eq_some_iff.1 hr).1
  have hmr : ms[r]? = some (ms[r]'(by omega)) := List.getElem?_eq_getElem (by omega)
  generalize ms[r]'(by omega) = m at hmr
  obtain ⟨hd, hc, hx⟩ := h3 r cs m hr hmr
  have hin := h cs (List.mem_of_getElem? hr)
  -- the data read for every batch
  let P : Nat → VelData (Fin dim → K) D → Prop := fun b x => ∀ p q, batches[b]? = some p → cs[b]? = some q →
    reinit vol nLanes m p.1 b = .ok x ∧ x.g2r = p.1 ∧ x.has = x.slots.map (hasNonZero vol) ∧
      x.slots = (advRelevant nGrains q.2).map fun ig =>
        q.1.map (fun l => (l.seg ig).bind fun s => m.center[s]?.bind fun c => m.data[s]?.map fun d => (c, d)) ++
          List.replicate (nLanes - q.1.length) none
  have hP : ∀ b, ∃ x, P b x := by
    intro b
    cases e1 : batches[b]? with
    | none => exact ⟨⟨[], [], []⟩, fun p q hp => by rw [e1] at hp; cases hp⟩
    | some p =>
      cases e2 : cs[b]? with
      | none => exact ⟨⟨[], [], []⟩, fun p q _ hq => by rw [e2] at hq; cases hq⟩
      | some q =>
        obtain ⟨x, a1, a2, a3, a4⟩ := hx b q.1 q.2 e2 p.1
        refine ⟨x, fun p' q' hp hq => ?_⟩
        rw [e1] at hp; rw [e2] at hq; cases hp; cases hq
        exact ⟨a1, a2, a3, a4⟩
  choose f hf using hP
  have hxs : ∀ (b : Nat) x, ((List.range batches.length).map f)[b]? = some x → x = f b := by
    intro b x hbx
    rw [List.getElem?_map] at hbx
    obtain ⟨a, ha, rfl⟩ := Option.map_eq_some_iff.1 hbx
    obtain ⟨_, ha⟩ := List.getElem?_eq_some_iff.1 ha
    rw [List.getElem_range] at ha
    rw [ha]
  have hq : ∀ (b : Nat) p, batches[b]? = some p → ∃ q, cs[b]? = some q := by
    intro b p hp
    have := (List.getElem?_eq_some_iff.1 hp).1
    exact ⟨_, List.getElem?_eq_getElem (by omega)⟩
  -- relevant order parameters and their slots
  have hslot : ∀ (b : Nat) p q, batches[b]? = some p → cs[b]? = some q → ∀ ig < nGrains,
      (ig ∈ advRelevant nGrains q.2 → ∃ r, slotOf p.1 ig = some r ∧ (advRelevant nGrains q.2)[r]? = some ig) ∧
      (ig ∉ advRelevant nGrains q.2 → slotOf p.1 ig = none) := by
    intro b p q hp hq ig hig
    have hlen2 := hin.table q (List.mem_of_getElem? hq)
    have hget : q.2[ig]? = some (q.2[ig]'(by omega)) := List.getElem?_eq_getElem (by omega)
    have hmem : ig ∈ advRelevant nGrains q.2 ↔ q.2[ig]? ≠ some 255 := by
      unfold advRelevant
      rw [List.mem_filter, List.mem_range]
      simp [hig]
    rcases (hfit b p q hp hq).2 with ⟨g0, hall⟩ | ⟨g1, hpos⟩
    · refine ⟨fun _ => ⟨ig, by rw [slotOf, if_pos g0], ?_⟩, fun hno => absurd (hmem.2 (hall ig hig)) hno⟩
      have : advRelevant nGrains q.2 = List.range nGrains := by
        unfold advRelevant
        refine List.filter_eq_self.2 fun a ha => ?_
        simpa using hall a (List.mem_range.1 ha)
      rw [this, List.getElem?_range hig]
    · have hne : p.1 ≠ [] := by intro e; rw [g1] at e; rw [e] at hlen2; simp at hlen2; omega
      constructor
      · intro hm
        have h255 : q.2[ig]'(by omega) ≠ 255 := by
          have := hmem.1 hm; rw [hget] at this; simpa using this
        refine ⟨q.2[ig]'(by omega), ?_, hpos ig hig _ hget h255⟩
        rw [slotOf, if_neg hne, g1, hget, Option.bind_some, if_neg h255]
      · intro hno
        have : q.2[ig]? = some 255 := by
          by_contra hcon; exact hno (hmem.2 hcon)
        rw [slotOf, if_neg hne, g1, this]
        rfl
  obtain ⟨fs, v1, -, v3⟩ := C159_velocities vel vol nLanes nGrains nActive pre m batches
    ((List.range batches.length).map f) (by simp)
    (by
      intro b g2r cells x hp hxb
      obtain ⟨q, hq⟩ := hq b _ hp
      rw [hxs b x hxb]
      obtain ⟨a1, a2, a3, a4⟩ := hf b _ q hp hq
      obtain ⟨l1, l2⟩ := hfit b _ q hp hq
      refine ⟨a1, a2, ?_, a3, ?_, ?_, ?_⟩
      · rcases l2 with ⟨g0, -⟩ | ⟨g1, -⟩
        · exact .inl g0
        · right; dsimp only at g1; rw [g1]; exact hin.table q (List.mem_of_getElem? hq)
      · rw [a4, List.length_map]
        exact le_trans (List.length_filter_le _ _) (by simpa using hn)
      · intro ig hig r' hr'
        have hs := hslot b _ q hp hq ig hig
        by_cases hm : ig ∈ advRelevant nGrains q.2
        · obtain ⟨r2, e1, e2⟩ := hs.1 hm
          dsimp only at e1
          rw [hr'] at e1; cases e1
          refine ⟨_, by rw [a4, List.getElem?_map, e2]; rfl, ?_⟩
          dsimp only at l1
          rw [List.length_append, List.length_map, l1]; omega
        · have := hs.2 hm
          dsimp only at this
          rw [hr'] at this; cases this
      · intro sl hsl p' hp'
        rw [a4] at hsl
        obtain ⟨ig, hig, rfl⟩ := List.mem_map.1 hsl
        have hig := List.mem_range.1 (List.mem_filter.1 hig).1
        rcases List.mem_append.1 hp' with hp' | hp'
        · obtain ⟨lane, hlane, hp'⟩ := List.mem_map.1 hp'
          obtain ⟨s, hseg, hp'⟩ := Option.bind_eq_some_iff.1 hp'
          obtain ⟨c, -, hp'⟩ := Option.bind_eq_some_iff.1 hp'
          obtain ⟨d, hdd, hp'⟩ := Option.map_eq_some_iff.1 hp'
          subst hp'
          have hs := hin.segs q (List.mem_of_getElem? hq) lane hlane ig hig s hseg
          rw [hd s hs] at hdd; cases hdd; exact hv s hs
        · cases List.eq_of_mem_replicate hp')
    hb hu
  refine ⟨ms, m, fs, h1, hmr, v1, fun ig hig d => ?_⟩
  obtain ⟨row, w1, -, w3, -⟩ := v3 ig hig d
  refine ⟨row, w1, fun b p q l c lane hp hq' hc' hlane => ?_⟩
  have hblt := (List.getElem?_eq_some_iff.1 hp).1
  rw [w3 b p (f b) l c hp (by rw [List.getElem?_map, List.getElem?_range hblt]; rfl) hc']
  obtain ⟨-, a2, -, a4⟩ := hf b p q hp hq'
  have hs := hslot b p q hp hq' ig hig
  congr 1
  unfold shown grainAt
  rw [a2]
  by_cases hm : ig ∈ advRelevant nGrains q.2
  · obtain ⟨r2, e1, e2⟩ := hs.1 hm
    have hll := (List.getElem?_eq_some_iff.1 hlane).1
    rw [if_pos hm, e1, Option.bind_some, a4, List.getElem?_map, e2, Option.map_some, Option.bind_some,
      List.getElem?_append_left (by simpa using hll), List.getElem?_map, hlane]
    simp only [Option.map_some, Option.join_some]
    cases hseg : lane.seg ig with
    | none => rfl
    | some s =>
      have hsn := hin.segs q (List.mem_of_getElem? hq') lane (List.mem_of_getElem? hlane) ig hig s hseg
      rw [Option.bind_some, hc s hsn, hd s hsn]
      rfl
  · rw [if_neg hm, hs.2 hm]; rfl

/-- C159, violated: the components of a velocity have the same name.  Whenever the fields can be written at all, two of
them agree in the name as soon as there are a grain and two dimensions. -/
theorem C159_names_violation (vel : (Fin dim → K) → D → (Fin dim → K)) (vol : D → K) (nLanes nGrains nActive : Nat)
    (pre : String) (m : Mech (Fin dim → K) D) (batches : List (List Nat × List Nat)) (fs : List (String × List K))
    (h : velocityFields vel vol nLanes nGrains nActive pre m batches = .ok fs) (hg : 0 < nGrains) (hd : 1 < dim) :
    ¬ (fs.map (·.1)).Nodup := by
  unfold velocityFields at h
  obtain ⟨v, -, h⟩ := Res.bind_eq_ok.1 h
  have hn : ∀ (l : List (Nat × Nat)) (fs : List (String × List K)),
      (l.mapM fun p => do
        let x ← Res.index v (dim * p.1 + p.2)
        Res.ok (pre ++ toString p.1, x)) = .ok fs → fs.map (·.1) = l.map fun p => pre ++ toString p.1 := by
    intro l
    induction l with
    | nil => intro fs h; cases h; rfl
    | cons p l ih =>
      intro fs h
      rw [List.mapM_cons] at h
      obtain ⟨q, h1, h⟩ := Res.bind_eq_ok.1 h
      obtain ⟨qs, h2, h⟩ := Res.bind_eq_ok.1 h
      obtain ⟨y, -, h3⟩ := Res.bind_eq_ok.1 h1
      cases h; cases h3
      rw [List.map_cons, List.map_cons, ih qs h2]
  rw [hn _ fs h]
  obtain ⟨n, rfl⟩ : ∃ n, nGrains = n + 1 := ⟨nGrains - 1, by omega⟩
  obtain ⟨e, rfl⟩ : ∃ e, dim = e + 2 := ⟨dim - 2, by omega⟩
  rw [List.range_succ_eq_map (n := n), List.flatMap_cons, List.range_succ_eq_map (n := e + 1),
    List.range_succ_eq_map (n := e)]
  simp
end

namespace Ex159

/-- a coarse cell with four children (two in pores) and a ghost cell -/
def cells : List OCell := [⟨none, true, 0⟩, ⟨some 0, true, 10⟩, ⟨some 1, true, 11⟩, ⟨some 2, true, 12⟩, ⟨some 3, false, 13⟩]
def ids (g : Nat) : Option Nat := if g = 10 then some 4 else if g = 12 then some 5 else if g = 13 then some 0 else none

example : Numbered 4 cells := ⟨by decide, by decide⟩
example : poreFile ids [7, 2] 4 4 6 cells = .ok (some [(10, some 7), (12, some 2)]) := by decide
example : ∀ c ∈ cells, c.owned = true → ∀ p, ids c.global = some p → 4 ≤ p ∧ p - 4 < [7, 2].length := by decide

/-- two order parameters on one batch of two lanes; the second one is the only relevant one and has a grain in the first
lane -/
def mech : Mech (Fin 2 → ℚ) ℚ := ⟨[5], [fun _ => 0], [0, 2], [some 0, none]⟩
def vel (_ : Fin 2 → ℚ) (x : ℚ) (d : Fin 2) : ℚ := if d = 0 then x else -x

example : (velocityFields vel id 2 2 3 "trans" mech [([255, 0], [2, 0])]) =
    .ok [("trans0", [0, 0, 0]), ("trans0", [0, 0, 0]), ("trans1", [0, 0, 5]), ("trans1", [0, 0, -5])] := by decide +kernel

/-- one batch of two lanes, the first with a grain of the second order parameter, which is the only relevant one -/
def cs : List (List (Lane ℚ) × List Nat) :=
  [([⟨fun ig => if ig = 1 then some 0 else none, fun _ => 3⟩, ⟨fun _ => none, fun _ => 7⟩], [255, 0])]

example : FittingTable 2 [255, 0] [255, 0] := by
  refine .inr ⟨rfl, fun ig hig r h1 h2 => ?_⟩
  have : ig = 0 ∨ ig = 1 := by omega
  rcases this with rfl | rfl
  · simp at h1; exact absurd h1.symm h2
  · simp at h1; subst h1; decide
example : AdvInput 2 2 1 cs := by
  refine ⟨by decide, by decide, ?_⟩
  intro c hc l hl ig _ s hs
  simp only [cs, List.mem_singleton] at hc
  subst hc
  simp only [List.mem_cons, List.not_mem_nil, or_false] at hl
  rcases hl with rfl | rfl
  · dsimp only at hs
    split at hs
    · cases hs; omega
    · cases hs
  · cases hs
example : ((evaluateForces 2 2 1 (fun _ _ => (1 : ℚ)) [cs, cs]) >>= fun ms => Res.index ms 0 >>= fun m =>
    velocityFields vel id 2 2 3 "trans" m [([255, 0], [2, 0])]) =
    .ok [("trans0", [0, 0, 0]), ("trans0", [0, 0, 0]), ("trans1", [0, 0, 6]), ("trans1", [0, 0, -6])] := by decide +kernel
end Ex159

end Verif.Props
