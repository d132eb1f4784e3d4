import Mathlib.Algebra.Field.Rat
import Mathlib.Algebra.Order.Ring.Rat
import Verif.Lemmas.Reassign
import Verif.Spec.Reassign
import Verif.Props.Detect
/-!
# Order parameter reassignment (C08, C09)
-/
namespace Verif.Props
open Verif Spec
variable {P K : Type} [Field K] [LinearOrder K] {G : Geometry P K} {cfg : ReassignCfg K}

omit [Field K] [LinearOrder K] in
theorem positions {gs : OMap (Grain P K)} {k : Nat} {a : Grain P K}
    (h : gs.get? k = some a) : ∃ i : Nat, gs[i]? = some (k, a) :=
  List.mem_iff_getElem?.1 (OMap.mem_of_get? h)

omit [Field K] [LinearOrder K] in
theorem sorted_pos_lt {gs : OMap (Grain P K)} (hs : gs.Sorted) {i j k l : Nat} {a b : Grain P K}
    (h1 : gs[i]? = some (k, a)) (h2 : gs[j]? = some (l, b)) : i < j ↔ k < l := by
  obtain ⟨x1, y1⟩ := List.getElem?_eq_some_iff.1 h1
  obtain ⟨x2, y2⟩ := List.getElem?_eq_some_iff.1 h2
  have hp := List.pairwise_iff_getElem.1 hs
  constructor
  · intro h
    have := hp i j x1 x2 h
    rw [y1, y2] at this; exact this
  · intro h
    rcases Nat.lt_trichotomy i j with h' | h' | h'
    · exact h'
    · subst h'; rw [y1] at y2; simp at y2; omega
    · have := hp j i x2 x1 h'
      rw [y1, y2] at this; simp at this; omega

/-- The relation between the table before and after a successful call, by key. -/
theorem reassign_by_key {gs : OMap (Grain P K)} (hs : gs.Sorted) {c e : Nat → Nat}
    {r : Reassigned P K} (h : CallSpec G cfg gs c e r) :
    r.grains.Sorted ∧ (∀ k, (r.grains.get? k).isSome ↔ (gs.get? k).isSome) ∧
    ∀ k a', r.grains.get? k = some a' → ∃ (i : Nat) (a : Grain P K), gs[i]? = some (k, a) ∧
      r.grains[i]? = some (k, a') ∧ a' = { a with op := e (c i), nearest := a'.nearest } := by
  have hk : OMap.keys r.grains = OMap.keys gs := by
    apply List.ext_getElem?
    intro i
    simp only [OMap.keys, List.getElem?_map]
    cases hg : gs[i]? with
    | none =>
      rw [List.getElem?_eq_none_iff] at hg
      rw [List.getElem?_eq_none (by rw [h.len]; exact hg)]
    | some p =>
      obtain ⟨d, hd, -⟩ := h.grain i p hg
      rw [hd]; rfl
  have hsr : r.grains.Sorted := by
    have e1 : (OMap.keys gs).Pairwise (· < ·) := by
      rw [OMap.keys, List.pairwise_map]; exact hs
    rw [← hk, OMap.keys, List.pairwise_map] at e1
    exact e1
  refine ⟨hsr, fun k => by rw [OMap.get?_isSome_iff_mem_keys, OMap.get?_isSome_iff_mem_keys, hk], ?_⟩
  intro k a' ha
  obtain ⟨i, hi⟩ := positions ha
  have hil : i < gs.length := by rw [← h.len]; exact (List.getElem?_eq_some_iff.1 hi).1
  obtain ⟨d, hd, -⟩ := h.grain i gs[i] (List.getElem?_eq_getElem hil)
  have hd' := hd
  rw [hi] at hd
  simp only [Option.some.injEq, Prod.mk.injEq] at hd
  refine ⟨i, gs[i].2, ?_, hi, ?_⟩
  · rw [List.getElem?_eq_getElem hil, hd.1]
  · rw [hd.2]

/-! ## C08 -/

/-- **C08.** Whenever reassignment returns, in every mode, no two grains that are too close to each
other share an order parameter. -/
theorem C08_safe (hcol : ColorContract cfg.color) (hsort : SortContract cfg.sortBy)
    {force fast : Bool} {gs : OMap (Grain P K)} (hs : gs.Sorted) {r : Reassigned P K}
    (h : reassignGrains G cfg force fast gs = .ok r) :
    SafeOps (Grain.overlaps G cfg.ratio cfg.fixed) r.grains ∧ SameGrains gs r.grains := by
  by_cases hne : 0 < gs.length
  · obtain ⟨c, e, hc, -⟩ := reassign_core hcol hsort hne h
    obtain ⟨k1, k2, k3⟩ := reassign_by_key hs hc
    constructor
    · intro i j a b ha hb hij hov heq
      obtain ⟨pi, a0, g1, -, ea⟩ := k3 i a ha
      obtain ⟨pj, b0, g2, -, eb⟩ := k3 j b hb
      have hlt : pi < pj := (sorted_pos_lt hs g1 g2).2 hij
      have hpi := (List.getElem?_eq_some_iff.1 g1).1
      have hpj := (List.getElem?_eq_some_iff.1 g2).1
      have hov0 : ovPair G cfg gs pi pj = true := by
        unfold ovPair
        rw [g1, g2]
        simp only [hlt, decide_true, Bool.true_and]
        rw [ea, eb] at hov
        exact hov
      have hne := hc.safe pi pj hov0
      rw [ea, eb] at heq
      simp only at heq
      rcases Nat.lt_or_gt_of_ne hne with h' | h'
      · have := hc.mono pi pj hpi hpj h'; omega
      · have := hc.mono pj pi hpj hpi h'; omega
    · refine ⟨k1, k2, ?_⟩
      intro k a a' ha ha'
      obtain ⟨i, a0, g1, -, ea⟩ := k3 k a' ha'
      have := OMap.get?_of_mem hs (List.mem_of_getElem? g1)
      rw [ha] at this
      simp only [Option.some.injEq] at this
      subst this
      have e2 : a'.op = e (c i) := by rw [ea]
      rw [e2]; exact ea
  · exfalso
    have : gs = [] := List.eq_nil_of_length_eq_zero (by omega)
    subst this
    unfold reassignGrains at h
    obtain ⟨⟨gs1, f1, act, nOps⟩, h1, h⟩ := Res.bind_eq_ok.1 h
    obtain ⟨gs2, h2, h⟩ := Res.bind_eq_ok.1 h
    obtain ⟨⟨gs3, f2, act'⟩, h3, h⟩ := Res.bind_eq_ok.1 h
    have hact : act = [] := by
      have hf : ∀ r, fullColor G cfg [] = .ok r → r.2.2.1 = [] := by
        intro r hr
        rw [fullColor_eq] at hr
        split at hr
        · simp only [Res.ok.injEq] at hr
          subst hr; rfl
        · simp at hr
      have hcn : candidates G cfg ([] : OMap (Grain P K)) = [] := rfl
      have hsn : cfg.sortBy (fun i => (spRow G cfg ([] : OMap (Grain P K)) i).length) [] = [] :=
        List.Perm.eq_nil (hsort _ _).1
      unfold recolor at h1
      dsimp only at h1
      split at h1
      · split at h1
        · split at h1
          · exact hf _ h1
          · simp only [Res.ok.injEq, Prod.mk.injEq] at h1
            rw [← h1.2.2.1, hcn, hsn]; rfl
        · exact hf _ h1
      · simp only [Res.ok.injEq, Prod.mk.injEq] at h1
        rw [← h1.2.2.1]; rfl
    subst hact
    simp [removeDangling] at h3

/-- **C08, failure branch.** On a non-empty table the call either returns, or throws because the
colouring needs more order parameters than allowed; it throws only if a reassignment was due. -/
theorem C08_total (hcol : ColorContract cfg.color) (hsort : SortContract cfg.sortBy)
    {force fast : Bool} {gs : OMap (Grain P K)} (hne : 0 < gs.length)
    (hreg : cfg.diag = true ∨ fast = false ∨
      extractActive gs = List.range (extractActive gs).length) :
    (∃ r, reassignGrains G cfg force fast gs = .ok r) ∨
    (reassignGrains G cfg force fast gs = .exc .assertThrow ∧
      cfg.maxOps < (cfg.color gs.length (spRow G cfg gs)).2 ∧
      (candidates G cfg gs ≠ [] ∨ force = true)) :=
  reassign_total hcol hsort hne (by
    rcases hreg with h | h | h
    · exact Or.inr (Or.inl h)
    · exact Or.inr (Or.inr h)
    · exact Or.inl h)

/-- **C08, limit.** After a due reassignment the number of order parameters in use respects the
configured maximum (with deal.II's sparsity pattern, or without the fast strategy). -/
theorem C08_limit (hcol : ColorContract cfg.color) (hsort : SortContract cfg.sortBy)
    {force fast : Bool} {gs : OMap (Grain P K)} (hne : 0 < gs.length) {r : Reassigned P K}
    (h : reassignGrains G cfg force fast gs = .ok r) (hreg : cfg.diag = true ∨ fast = false)
    (hdue : r.nCollisions ≠ 0 ∨ force = true) : r.active.length ≤ cfg.maxOps := by
  obtain ⟨c, e, hc, -, -, hm, -⟩ := reassign_core hcol hsort hne h
  refine hm ?_ hreg
  rcases hdue with h | h
  · left
    intro h0
    exact h (by rw [hc.ncoll, h0]; rfl)
  · exact Or.inr h

/-- **C08, limit, all strategies.** If the limit holds before the call it holds after it, also if the
fast strategy is effective. -/
theorem C08_limit_kept (hcol : ColorContract cfg.color) (hsort : SortContract cfg.sortBy)
    {force fast : Bool} {gs : OMap (Grain P K)} (hne : 0 < gs.length) {r : Reassigned P K}
    (h : reassignGrains G cfg force fast gs = .ok r)
    (hini : (extractActive gs).length ≤ cfg.maxOps) : r.active.length ≤ cfg.maxOps := by
  obtain ⟨c, e, -, -, -, -, hm⟩ := reassign_core hcol hsort hne h
  exact hm hini

/-- The number of collisions is zero exactly if the initial assignment is safe. -/
theorem C08_collisions (hcol : ColorContract cfg.color) (hsort : SortContract cfg.sortBy)
    {force fast : Bool} {gs : OMap (Grain P K)} (hs : gs.Sorted) (hne : 0 < gs.length)
    {r : Reassigned P K} (h : reassignGrains G cfg force fast gs = .ok r) :
    r.nCollisions = 0 ↔ SafeOps (Grain.overlaps G cfg.ratio cfg.fixed) gs := by
  obtain ⟨c, e, hc, -⟩ := reassign_core hcol hsort hne h
  rw [hc.ncoll, List.length_eq_zero_iff]
  constructor
  · intro h0 i j a b ha hb hij hov heq
    obtain ⟨pi, g1⟩ := positions ha
    obtain ⟨pj, g2⟩ := positions hb
    refine safe_of_no_candidates h0 pi pj ?_ ?_
    · unfold ovPair
      rw [g1, g2]
      simp [(sorted_pos_lt hs g1 g2).2 hij, hov]
    · rw [opAt_of_getElem? g1, opAt_of_getElem? g2]; exact heq
  · intro hsafe
    rw [List.eq_nil_iff_forall_not_mem]
    intro j hj
    obtain ⟨hjl, i, h1, h2⟩ := mem_candidates.1 hj
    have hlt := ovPair_lt h1
    have gi : gs[i]? = some gs[i] := List.getElem?_eq_getElem (by omega)
    have gj : gs[j]? = some gs[j] := List.getElem?_eq_getElem hjl
    rw [opAt_of_getElem? gi, opAt_of_getElem? gj] at h2
    unfold ovPair at h1
    rw [gi, gj] at h1
    simp only [Bool.and_eq_true, decide_eq_true_eq] at h1
    exact hsafe gs[i].1 gs[j].1 gs[i].2 gs[j].2 (OMap.get?_of_mem hs (List.getElem_mem _))
      (OMap.get?_of_mem hs (List.getElem_mem _))
      ((sorted_pos_lt hs (k := gs[i].1) (a := gs[i].2) (l := gs[j].1) (b := gs[j].2) gi gj).1 hlt.1)
      h1.2 h2

/-- **Finding.** With deal.II's square sparsity patterns, which always contain the diagonal, the
validation of the fast strategy compares every grain with itself, always reports a conflict, and the
call behaves exactly as if the fast strategy had been switched off. -/
theorem C08_fast_strategy_never_used (hd : cfg.diag = true) {force : Bool} {gs : OMap (Grain P K)}
    (hne : 0 < gs.length) :
    reassignGrains G cfg force true gs = reassignGrains G cfg force false gs := by
  have : recolor G cfg force true gs = recolor G cfg force false gs := by
    unfold recolor
    dsimp only
    split
    · have hc : ∀ c, anyConflict (spRow G cfg gs) gs.length c = true := by
        intro c
        simp only [anyConflict, List.any_eq_true, List.mem_range, beq_iff_eq]
        exact ⟨0, hne, 0, mem_spRow.2 ⟨hne, Or.inr (Or.inr ⟨hd, rfl⟩)⟩, rfl⟩
      simp [hc]
    · rfl
  unfold reassignGrains
  rw [this]

/-- **Finding.** An empty grain table dereferences `rbegin()` of an empty set. -/
theorem C08_empty_table_ub (fast : Bool) :
    reassignGrains G cfg false fast ([] : OMap (Grain P K)) = .ub := by
  have : recolor G cfg false fast ([] : OMap (Grain P K)) = .ok ([], false, [], 0) := rfl
  unfold reassignGrains
  rw [this]
  rfl

/-! ## C09 -/

/-- **C09.** After reassignment the order parameters in use are `0..k-1`, `k` being the number of
active order parameters, and the reassignment flag is set if any grain changed. -/
theorem C09_gap_free (hcol : ColorContract cfg.color) (hsort : SortContract cfg.sortBy)
    {force fast : Bool} {gs : OMap (Grain P K)} (hs : gs.Sorted) (hne : 0 < gs.length)
    (hreg : cfg.diag = true ∨ fast = false ∨
      extractActive gs = List.range (extractActive gs).length)
    {r : Reassigned P K} (h : reassignGrains G cfg force fast gs = .ok r) :
    GapFree r.grains r.active.length ∧ r.active = List.range r.active.length := by
  obtain ⟨c, e, hc, hgap, -⟩ := reassign_core hcol hsort hne h
  obtain ⟨k1, k2, k3⟩ := reassign_by_key hs hc
  have hr := hgap (by
    rcases hreg with h | h | h
    · exact Or.inr (Or.inl h)
    · exact Or.inr (Or.inr h)
    · exact Or.inl h)
  refine ⟨?_, hr⟩
  intro o
  have : o < r.active.length ↔ o ∈ r.active := by rw [hr]; simp
  rw [this, hc.active]
  constructor
  · rintro ⟨g, a, h1, rfl⟩
    obtain ⟨i, a0, g1, -, ea⟩ := k3 g a h1
    exact ⟨i, (List.getElem?_eq_some_iff.1 g1).1, by rw [ea]⟩
  · rintro ⟨i, hi, rfl⟩
    obtain ⟨d, hd, -⟩ := hc.grain i gs[i] (List.getElem?_eq_getElem hi)
    exact ⟨_, _, OMap.get?_of_mem k1 (List.mem_of_getElem? hd), rfl⟩

/-- **C09, flag.** In every mode: if the flag is not set, no grain changed its order parameter. -/
theorem C09_flag (hcol : ColorContract cfg.color) (hsort : SortContract cfg.sortBy)
    {force fast : Bool} {gs : OMap (Grain P K)} (hs : gs.Sorted) (hne : 0 < gs.length)
    {r : Reassigned P K} (h : reassignGrains G cfg force fast gs = .ok r) (hf : r.flag = false)
    {k : Nat} {a a' : Grain P K} (ha : gs.get? k = some a) (ha' : r.grains.get? k = some a') :
    a'.op = a.op := by
  obtain ⟨c, e, hc, -⟩ := reassign_core hcol hsort hne h
  obtain ⟨k1, k2, k3⟩ := reassign_by_key hs hc
  obtain ⟨i, a0, g1, -, ea⟩ := k3 k a' ha'
  have := OMap.get?_of_mem hs (List.mem_of_getElem? g1)
  rw [ha] at this
  simp only [Option.some.injEq] at this
  subst this
  rw [ea]
  simp only
  rw [hc.flag hf i (List.getElem?_eq_some_iff.1 g1).1, opAt_of_getElem? g1]

/-- **C09, renumbering.** Without collisions and without force, the renumbering that closes gaps
keeps the relative order of order parameters, hence never merges two of them. -/
theorem C09_order_kept (hcol : ColorContract cfg.color) (hsort : SortContract cfg.sortBy)
    {fast : Bool} {gs : OMap (Grain P K)} (hs : gs.Sorted) (hne : 0 < gs.length)
    {r : Reassigned P K} (h : reassignGrains G cfg false fast gs = .ok r) (h0 : r.nCollisions = 0)
    {k l : Nat} {a b a' b' : Grain P K} (ha : gs.get? k = some a) (hb : gs.get? l = some b)
    (ha' : r.grains.get? k = some a') (hb' : r.grains.get? l = some b') :
    (a.op < b.op ↔ a'.op < b'.op) ∧ (a.op = b.op ↔ a'.op = b'.op) := by
  obtain ⟨c, e, hc, -, hnone, -⟩ := reassign_core hcol hsort hne h
  obtain ⟨k1, k2, k3⟩ := reassign_by_key hs hc
  have hcand : candidates G cfg gs = [] := by
    rw [hc.ncoll] at h0; exact List.eq_nil_of_length_eq_zero h0
  have hceq := hnone hcand rfl
  subst hceq
  obtain ⟨i, a0, g1, -, ea⟩ := k3 k a' ha'
  obtain ⟨j, b0, g2, -, eb⟩ := k3 l b' hb'
  have e1 := OMap.get?_of_mem hs (List.mem_of_getElem? g1)
  have e2 := OMap.get?_of_mem hs (List.mem_of_getElem? g2)
  rw [ha] at e1; rw [hb] at e2
  simp only [Option.some.injEq] at e1 e2
  subst e1; subst e2
  have hil := (List.getElem?_eq_some_iff.1 g1).1
  have hjl := (List.getElem?_eq_some_iff.1 g2).1
  have oa : a'.op = e a.op := by rw [ea]; simp [opAt_of_getElem? g1]
  have ob : b'.op = e b.op := by rw [eb]; simp [opAt_of_getElem? g2]
  have m1 := hc.mono i j hil hjl
  have m2 := hc.mono j i hjl hil
  rw [opAt_of_getElem? g1, opAt_of_getElem? g2] at m1 m2
  simp only at m1 m2
  rw [oa, ob]
  rcases Nat.lt_trichotomy a.op b.op with h | h | h
  · have := m1 h; omega
  · rw [h]; simp
  · have := m2 h; omega

/-- Nearest neighbour distances after reassignment bound the distance to every grain sharing the new
or the previous order parameter. -/
theorem C09_nearest (hcol : ColorContract cfg.color) (hsort : SortContract cfg.sortBy)
    {force fast : Bool} {gs : OMap (Grain P K)} (hs : gs.Sorted) (hne : 0 < gs.length)
    {r : Reassigned P K} (h : reassignGrains G cfg force fast gs = .ok r)
    {k l : Nat} {a b : Grain P K} (ha : r.grains.get? k = some a) (hb : r.grains.get? l = some b)
    (hid : a.grainId ≠ b.grainId) (hop : a.op = b.op ∨ a.oldOp = b.oldOp) :
    a.nearest ≤ Grain.distanceLowerBound G a b := by
  obtain ⟨c, e, hc, -⟩ := reassign_core hcol hsort hne h
  obtain ⟨k1, k2, k3⟩ := reassign_by_key hs hc
  obtain ⟨i, a0, g1, ra, ea⟩ := k3 k a ha
  obtain ⟨j, b0, g2, rb, eb⟩ := k3 l b hb
  have hil := (List.getElem?_eq_some_iff.1 g1).1
  have hjl := (List.getElem?_eq_some_iff.1 g2).1
  obtain ⟨d, hd, -, hd3⟩ := hc.grain i _ g1
  rw [ra] at hd
  simp only [Option.some.injEq, Prod.mk.injEq, true_and] at hd
  have hdn : a.nearest = d := by rw [hd]
  have hcc : c i = c j ∨ a0.oldOp = b0.oldOp := by
    rcases hop with hop | hop
    · left
      rw [ea, eb] at hop
      simp only at hop
      rcases Nat.lt_trichotomy (c i) (c j) with h' | h' | h'
      · have := hc.mono i j hil hjl h'; omega
      · exact h'
      · have := hc.mono j i hjl hil h'; omega
    · right; rw [ea, eb] at hop; exact hop
  have := hd3 j _ g2 (by rw [ea, eb] at hid; exact hid) hcc
  rw [hdn]
  rw [ea, eb]
  exact this

/-! ## Concrete cases -/
namespace Ex08
open Ex06
def gr (id op : Nat) (c : Rat) : Grain Rat Rat :=
  Grain.addSegment (Grain.mk2 gQ id op) (segQ c)
/-- grains on a line: 0 and 1 overlap and share op 0; 1 and 2 overlap; 5 is far away on op 3 -/
def gs : OMap (Grain Rat Rat) := [(0, gr 0 0 0), (1, gr 1 0 1), (2, gr 2 1 2), (5, gr 5 3 100)]
def cfgQ (diag : Bool) (mx : Nat) : ReassignCfg Rat :=
  { ratio := 1/10, fixed := 0, maxOps := mx, diag := diag, color := greedyColor, sortBy := sortDesc }
example : ColorContract (cfgQ true 5).color ∧ SortContract (cfgQ true 5).sortBy :=
  ⟨greedyColor_contract, sortDesc_contract⟩
/-- one collision, recoloured; the far grain moves to op 0 in the full colouring -/
example : ((reassignGrains gQ (cfgQ true 5) false true gs) >>= fun r =>
    Res.ok (r.grains.map (·.2.op), r.active, r.nCollisions, r.flag)) =
    .ok ([0, 1, 2, 0], [0, 1, 2], 1, true) := by decide +kernel
/-- the limit is respected by an exception -/
example : ((reassignGrains gQ (cfgQ true 2) false true gs) >>= fun r =>
    Res.ok (r.grains.map (·.2.op), r.active, r.nCollisions, r.flag)) =
    .exc .assertThrow := by decide +kernel
/-- without the diagonal entry the fast strategy is effective and stays within the limit -/
example : ((reassignGrains gQ (cfgQ false 4) false true
    [(0, gr 0 0 0), (1, gr 1 0 1), (2, gr 2 1 2)]) >>= fun r =>
    Res.ok (r.grains.map (·.2.op), r.active, r.nCollisions, r.flag)) =
    .ok ([0, 2, 1], [0, 1, 2], 1, true) ∧
    (extractActive [(0, gr 0 0 0), (1, gr 1 0 1), (2, gr 2 1 2)]).length ≤ (cfgQ false 4).maxOps := by
  decide +kernel
/-- gaps are closed without collision -/
example : ((reassignGrains gQ (cfgQ true 5) false true
    [(0, gr 0 4 0), (1, gr 1 1 1), (7, gr 7 4 50)]) >>= fun r =>
    Res.ok (r.grains.map (·.2.op), r.active, r.nCollisions, r.flag)) =
    .ok ([1, 0, 1], [0, 1], 0, true) := by decide +kernel
end Ex08

end Verif.Props
