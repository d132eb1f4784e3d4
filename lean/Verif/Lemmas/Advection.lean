import Verif.Model.Advection
import Verif.Lemmas.Cutoff
/-! # Lemmas about the advection tables -/

namespace Verif.Advection

open Verif.Cutoff (ptrs ptrs_append ptrs_get flatten_get take_sum_const)

variable {V D : Type} [AddCommMonoid V] [AddCommMonoid D]

/-- Segment and data for every lane that belongs to a segment of the order parameter. -/
def laneHits (lanes : List (Lane D)) (ig : Nat) : List (Nat × D) :=
  lanes.filterMap fun l => (l.seg ig).map fun s => (s, l.data ig)

/-- The relevant order parameters according to a table `grain_to_relevant_grain`. -/
def relevantOps (nGrains : Nat) (g2r : List Nat) : List Nat :=
  (List.range nGrains).filter fun ig => g2r.getD ig 255 ≠ 255

/-- Index entries of one order parameter. -/
def entry (nLanes : Nat) (lanes : List (Lane D)) (ig : Nat) : List (Option Nat) :=
  lanes.map (fun l => l.seg ig) ++ List.replicate (nLanes - lanes.length) none

/-- Centres and data of `m'` are those of `m` plus the hits. -/
structure Adds (center : Nat → V) (ev : List (Nat × D)) (m m' : Mech V D) : Prop where
  lc : m'.center.length = m.center.length
  ld : m'.data.length = m.data.length
  c : ∀ (s : Nat) (c : V), m.center[s]? = some c → m'.center[s]? = some (c + (ev.map (·.1)).count s • center s)
  d : ∀ (s : Nat) (d : D), m.data[s]? = some d → m'.data[s]? = some (d + ((ev.filter fun p => p.1 == s).map (·.2)).sum)

theorem Adds.refl (center : Nat → V) (m m' : Mech V D) (hc : m'.center = m.center) (hd : m'.data = m.data) :
    Adds center [] m m' :=
  ⟨by rw [hc], by rw [hd], fun s c h => by rw [hc, h]; simp, fun s d h => by rw [hd, h]; simp⟩

theorem Adds.trans {center : Nat → V} {e1 e2 : List (Nat × D)} {m m1 m2 : Mech V D} (h1 : Adds center e1 m m1)
    (h2 : Adds center e2 m1 m2) : Adds center (e1 ++ e2) m m2 := by
  refine ⟨h2.lc.trans h1.lc, h2.ld.trans h1.ld, fun s c h => ?_, fun s d h => ?_⟩
  · rw [h2.c s _ (h1.c s c h), List.map_append, List.count_append, add_nsmul, add_assoc]
  · rw [h2.d s _ (h1.d s d h), List.filter_append, List.map_append, List.sum_append, add_assoc]

theorem addTo_eq {α : Type} [Add α] (l : List α) (i : Nat) (a b : α) (h : l[i]? = some b) :
    addTo l i a = .ok (l.set i (b + a)) := by rw [addTo, h]

theorem addLanes_spec (center : Nat → V) (ig nSeg : Nat) (lanes : List (Lane D))
    (hs : ∀ l ∈ lanes, ∀ s, l.seg ig = some s → s < nSeg) (m : Mech V D) (hc : m.center.length = nSeg)
    (hd : m.data.length = nSeg) :
    ∃ m', addLanes center ig lanes m = .ok m' ∧ m'.indexPtr = m.indexPtr ∧ m'.indexValues = m.indexValues ∧
      Adds center (laneHits lanes ig) m m' := by
  induction lanes generalizing m with
  | nil => exact ⟨m, rfl, rfl, rfl, Adds.refl center m m rfl rfl⟩
  | cons l ls ih =>
    have hs' : ∀ l ∈ ls, ∀ s, l.seg ig = some s → s < nSeg := fun l hl => hs l (by simp [hl])
    cases hl : l.seg ig with
    | none =>
      obtain ⟨m', h1, h2, h3, h4⟩ := ih hs' m hc hd
      refine ⟨m', by rw [addLanes, hl]; exact h1, h2, h3, ?_⟩
      have : laneHits (l :: ls) ig = laneHits ls ig := by simp [laneHits, hl]
      rw [this]; exact h4
    | some s =>
      have hsl : s < nSeg := hs l (by simp) s hl
      have e1 : m.center[s]? = some m.center[s] := List.getElem?_eq_getElem (by omega)
      have e2 : m.data[s]? = some m.data[s] := List.getElem?_eq_getElem (by omega)
      obtain ⟨m', h1, h2, h3, h4⟩ := ih hs'
        (Mech.mk (m.data.set s (m.data[s] + l.data ig)) (m.center.set s (m.center[s] + center s))
          m.indexPtr m.indexValues) (by simpa using hc) (by simpa using hd)
      refine ⟨m', ?_, h2, h3, ?_⟩
      · rw [addLanes, hl]; dsimp only
        rw [addTo_eq _ _ _ _ e1, Res.ok_bind, addTo_eq _ _ _ _ e2, Res.ok_bind]; exact h1
      · have : laneHits (l :: ls) ig = [(s, l.data ig)] ++ laneHits ls ig := by simp [laneHits, hl]
        rw [this]
        refine Adds.trans ⟨by simp, by simp, fun t c h => ?_, fun t d h => ?_⟩ h4
        · by_cases ht : s = t
          · subst ht
            rw [e1] at h; cases h
            rw [List.getElem?_set_self (by omega)]; simp [one_nsmul]
          · rw [List.getElem?_set_ne ht, h]; simp [ht]
        · by_cases ht : s = t
          · subst ht
            rw [e2] at h; cases h
            rw [List.getElem?_set_self (by omega)]; simp
          · rw [List.getElem?_set_ne ht, h]; simp [ht]

theorem opLoop_spec (nLanes nSeg : Nat) (center : Nat → V) (lanes : List (Lane D)) (g2r : List Nat) (igs : List Nat)
    (hi : ∀ ig ∈ igs, ig < g2r.length) (hs : ∀ l ∈ lanes, ∀ ig ∈ igs, ∀ s, l.seg ig = some s → s < nSeg)
    (m : Mech V D) (hc : m.center.length = nSeg) (hd : m.data.length = nSeg) :
    ∃ m', opLoop nLanes center lanes g2r igs m = .ok m' ∧ m'.indexPtr = m.indexPtr ∧
      m'.indexValues = m.indexValues ++ (igs.filter fun ig => g2r.getD ig 255 ≠ 255).flatMap (entry nLanes lanes) ∧
      Adds center ((igs.filter fun ig => g2r.getD ig 255 ≠ 255).flatMap (laneHits lanes)) m m' := by
  induction igs generalizing m with
  | nil => exact ⟨m, rfl, rfl, by simp, Adds.refl center m m rfl rfl⟩
  | cons ig igs ih =>
    have hig := hi ig (by simp)
    have hget : g2r.getD ig 255 = g2r[ig] := by
      rw [List.getD_eq_getElem?_getD, List.getElem?_eq_getElem hig]; rfl
    have hi' : ∀ ig ∈ igs, ig < g2r.length := fun i h => hi i (by simp [h])
    have hs' : ∀ l ∈ lanes, ∀ ig ∈ igs, ∀ s, l.seg ig = some s → s < nSeg := fun l hl i h => hs l hl i (by simp [h])
    rw [opLoop, Res.index_ok hig, Res.ok_bind]
    by_cases h255 : g2r[ig] = 255
    · rw [if_pos h255]
      have : (ig :: igs).filter (fun ig => g2r.getD ig 255 ≠ 255) = igs.filter fun ig => g2r.getD ig 255 ≠ 255 := by
        rw [List.filter_cons_of_neg (by rw [hget, h255]; simp)]
      rw [this]
      exact ih hi' hs' m hc hd
    · rw [if_neg h255]
      have : (ig :: igs).filter (fun ig => g2r.getD ig 255 ≠ 255) = ig :: igs.filter fun ig => g2r.getD ig 255 ≠ 255 := by
        rw [List.filter_cons_of_pos (by rw [hget]; simpa using h255)]
      rw [this]
      obtain ⟨m1, a1, a2, a3, a4⟩ := addLanes_spec center ig nSeg lanes (fun l hl => hs l hl ig (by simp))
        (pushIndices nLanes lanes ig m) hc hd
      obtain ⟨m2, b1, b2, b3, b4⟩ := ih hi' hs' m1 (a4.lc.trans hc) (a4.ld.trans hd)
      refine ⟨m2, by rw [a1, Res.ok_bind, b1], by rw [b2, a2]; rfl, ?_, ?_⟩
      · rw [b3, a3]; simp [pushIndices, entry]
      · rw [List.flatMap_cons]
        refine Adds.trans ?_ b4
        exact Adds.trans (e1 := []) (Adds.refl center m (pushIndices nLanes lanes ig m) rfl rfl) a4

/-- All index entries of a cell batch. -/
def cellEntries (nLanes nGrains : Nat) (c : List (Lane D) × List Nat) : List (Option Nat) :=
  (relevantOps nGrains c.2).flatMap (entry nLanes c.1)

/-- All hits of a cell batch. -/
def cellHits (nGrains : Nat) (c : List (Lane D) × List Nat) : List (Nat × D) :=
  (relevantOps nGrains c.2).flatMap (laneHits c.1)

theorem cellLoop_spec (nLanes nGrains nSeg : Nat) (center : Nat → V) (cs : List (List (Lane D) × List Nat))
    (hi : ∀ c ∈ cs, c.2.length = nGrains)
    (hs : ∀ c ∈ cs, ∀ l ∈ c.1, ∀ ig < nGrains, ∀ s, l.seg ig = some s → s < nSeg)
    (m : Mech V D) (ws : List Nat) (hp : m.indexPtr = ptrs ws) (hv : m.indexValues.length = ws.sum)
    (hc : m.center.length = nSeg) (hd : m.data.length = nSeg) :
    ∃ m', cellLoop nLanes nGrains center cs m = .ok m' ∧
      m'.indexPtr = ptrs (ws ++ cs.map fun c => (cellEntries nLanes nGrains c).length) ∧
      m'.indexValues = m.indexValues ++ (cs.map (cellEntries nLanes nGrains)).flatten ∧
      Adds center (cs.flatMap (cellHits nGrains)) m m' := by
  induction cs generalizing m ws with
  | nil => exact ⟨m, rfl, by simpa using hp, by simp, Adds.refl center m m rfl rfl⟩
  | cons c cs ih =>
    obtain ⟨m1, a1, a2, a3, a4⟩ := opLoop_spec nLanes nSeg center c.1 c.2 (List.range nGrains)
      (fun ig h => by rw [hi c (by simp)]; exact List.mem_range.1 h)
      (fun l hl ig h => hs c (by simp) l hl ig (List.mem_range.1 h)) m hc hd
    obtain ⟨m2, b1, b2, b3, b4⟩ := ih (fun c h => hi c (by simp [h])) (fun c h => hs c (by simp [h]))
      { m1 with indexPtr := m1.indexPtr ++ [m1.indexValues.length] }
      (ws ++ [(cellEntries nLanes nGrains c).length])
      (by
        show m1.indexPtr ++ [m1.indexValues.length] = _
        rw [ptrs_append, a2, hp, a3, List.length_append, hv]; rfl)
      (by
        show m1.indexValues.length = _
        rw [a3, List.length_append, hv, List.sum_append]; simp [cellEntries, relevantOps])
      (a4.lc.trans hc) (a4.ld.trans hd)
    refine ⟨m2, ?_, ?_, ?_, ?_⟩
    · rcases c with ⟨lanes, g2r⟩
      rw [cellLoop, a1, Res.ok_bind, b1]
    · rw [b2]; simp
    · rw [b3]
      show m1.indexValues ++ _ = _
      rw [a3, List.append_assoc]; rfl
    · rw [List.flatMap_cons]
      refine Adds.trans a4 ?_
      exact Adds.trans (e1 := []) (m1 := { m1 with indexPtr := m1.indexPtr ++ [m1.indexValues.length] })
        (Adds.refl center m1 _ rfl rfl) b4

theorem chunks_flatten {α : Type} (n : Nat) (L : List (List α)) (h : ∀ l ∈ L, l.length = n) :
    chunks n L.length L.flatten = L := by
  induction L with
  | nil => rfl
  | cons a L ih =>
    have ha := h a (by simp)
    rw [List.length_cons, chunks, List.flatten_cons, List.take_left' ha, List.drop_left' ha,
      ih (fun l hl => h l (by simp [hl]))]

end Verif.Advection
