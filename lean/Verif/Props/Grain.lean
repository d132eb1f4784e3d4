import Mathlib.Algebra.Order.Field.Basic
import Mathlib.Tactic.Linarith
import Verif.Lemmas.Grain
import Verif.Props.Reassign
/-!
# Grain geometry (C16)
-/
namespace Verif.Props
open Verif
variable {P K : Type} [Field K] [LinearOrder K] {G : Geometry P K}

/-- **C16, aggregates.** For every list of segments (with non-negative radii and representable values)
added in any order, the grain holds exactly these segments, its measure is the sum, its maximum radius
and value are the maxima over the segments. -/
theorem C16_aggregates (id op oldOp : Nat) {segs : List (Segment P K)} (hne : segs ≠ [])
    (hr : ∀ s ∈ segs, 0 ≤ s.radius) (hv : ∀ s ∈ segs, G.dlowest ≤ s.maxValue) :
    let g := segs.foldl Grain.addSegment (Grain.mk3 G id op oldOp)
    g.segments = segs ∧ g.measure = (segs.map (·.measure)).sum ∧
    ((∀ s ∈ segs, s.radius ≤ g.maxRadius) ∧ ∃ s ∈ segs, s.radius = g.maxRadius) ∧
    ((∀ s ∈ segs, s.maxValue ≤ g.maxValue) ∧ ∃ s ∈ segs, s.maxValue = g.maxValue) ∧
    g.grainId = id ∧ g.op = op ∧ g.oldOp = oldOp ∧ g.nearest = G.dmax := by
  obtain ⟨h1, h2, ⟨h3, h4, h5⟩, ⟨h6, h7, h8⟩, h9, h10, h11, h12, -⟩ :=
    addSegments_spec segs (Grain.mk3 G id op oldOp)
  obtain ⟨a, ha⟩ := List.exists_mem_of_ne_nil _ hne
  refine ⟨by rw [h1]; rfl, by rw [h2]; simp [Grain.mk3], ⟨h4, ?_⟩, ⟨h7, ?_⟩, h9, h10, h11, h12⟩
  · rcases h5 with h5 | ⟨s, hs, h5⟩
    · refine ⟨a, ha, le_antisymm (h4 a ha) ?_⟩
      rw [h5]; exact hr a ha
    · exact ⟨s, hs, h5.symm⟩
  · rcases h8 with h8 | ⟨s, hs, h8⟩
    · refine ⟨a, ha, le_antisymm (h7 a ha) ?_⟩
      rw [h8]; exact hv a ha
    · exact ⟨s, hs, h8.symm⟩

/-- **C16, order.** The aggregates do not depend on the order of adding segments. -/
theorem C16_order (id op oldOp : Nat) {segs segs' : List (Segment P K)} (hp : segs.Perm segs') :
    let g := segs.foldl Grain.addSegment (Grain.mk3 G id op oldOp)
    let g' := segs'.foldl Grain.addSegment (Grain.mk3 G id op oldOp)
    g.maxRadius = g'.maxRadius ∧ g.maxValue = g'.maxValue ∧ g.measure = g'.measure ∧
      g.segments.Perm g'.segments := by
  obtain ⟨h1, h2, ⟨h3, h4, h5⟩, ⟨h6, h7, h8⟩, -⟩ := addSegments_spec segs (Grain.mk3 G id op oldOp)
  obtain ⟨k1, k2, ⟨k3, k4, k5⟩, ⟨k6, k7, k8⟩, -⟩ := addSegments_spec segs' (Grain.mk3 G id op oldOp)
  simp only at *
  refine ⟨le_antisymm ?_ ?_, le_antisymm ?_ ?_, by rw [h2, k2, (hp.map _).sum_eq],
    by rw [h1, k1]; exact hp.append_left _⟩
  · rcases h5 with h | ⟨s, hs, h⟩
    · rw [h]; exact k3
    · rw [h]; exact k4 s (hp.mem_iff.1 hs)
  · rcases k5 with h | ⟨s, hs, h⟩
    · rw [h]; exact h3
    · rw [h]; exact h4 s (hp.mem_iff.2 hs)
  · rcases h8 with h | ⟨s, hs, h⟩
    · rw [h]; exact k6
    · rw [h]; exact k7 s (hp.mem_iff.1 hs)
  · rcases k8 with h | ⟨s, hs, h⟩
    · rw [h]; exact h6
    · rw [h]; exact h7 s (hp.mem_iff.2 hs)

omit [Field K] in
/-- **C16, distance.** `distance` is the smallest distance over pairs of segments (`DBL_MAX` if there is
no closer pair). -/
theorem C16_distance (a b : Grain P K) :
    Grain.distance G a b ≤ G.dmax ∧
    (∀ s ∈ a.segments, ∀ t ∈ b.segments, Grain.distance G a b ≤ G.segDist s t) ∧
    (Grain.distance G a b = G.dmax ∨
      ∃ s ∈ a.segments, ∃ t ∈ b.segments, Grain.distance G a b = G.segDist s t) :=
  minOverPairs_spec G.segDist b.segments a.segments G.dmax

/-- **C16, symmetry.** Distances and the overlap test do not depend on the order of the grains. -/
theorem C16_symmetric (hd : ∀ p q, G.dist p q = G.dist q p) (hs : ∀ s t, G.segDist s t = G.segDist t s)
    (ratio fixed : K) (a b : Grain P K) :
    Grain.distance G a b = Grain.distance G b a ∧
    Grain.distanceCenters G a b = Grain.distanceCenters G b a ∧
    Grain.distanceLowerBound G a b = Grain.distanceLowerBound G b a ∧
    Grain.overlaps G ratio fixed a b = Grain.overlaps G ratio fixed b a := by
  have h1 : Grain.distance G a b = Grain.distance G b a := minOverPairs_symm hs _ _ _
  have h3 : Grain.distanceLowerBound G a b = Grain.distanceLowerBound G b a :=
    minOverPairs_symm (fun s t => by simp only [Grain.sphereDist, hd s.center t.center, add_comm]) _ _ _
  refine ⟨h1, minOverPairs_symm (fun s t => hd s.center t.center) _ _ _, h3, ?_⟩
  unfold Grain.overlaps
  dsimp only
  rw [h1, h3, Bool.or_comm, add_comm (ratio * a.maxRadius)]

/-- **C16, safety of the overlap test.** If the bounding spheres give a lower bound of the distance of
segments, the answer "no overlap" implies that all segments are at least the buffer apart. -/
theorem C16_no_overlap_sound (hlb : ∀ s t, Grain.sphereDist G s t ≤ G.segDist s t)
    {ratio fixed : K} {a b : Grain P K} (h : Grain.overlaps G ratio fixed a b = false) :
    ∀ s ∈ a.segments, ∀ t ∈ b.segments,
      ratio * a.maxRadius + ratio * b.maxRadius + fixed ≤ G.segDist s t := by
  intro s hs t ht
  unfold Grain.overlaps at h
  dsimp only at h
  split at h
  · rename_i hgt
    have := (minOverPairs_spec (Grain.sphereDist G) b.segments a.segments G.dmax).2.1 s hs t ht
    exact le_trans (le_of_lt hgt) (le_trans this (hlb s t))
  · split at h
    · simp only [decide_eq_false_iff_not, not_lt] at h
      exact h.trans ((C16_distance a b).2.1 s hs t ht)
    · simp at h

/-- **C16, no false alarm.** If the answer is "overlap", two segments are no further apart than the
buffer (strictly closer for non-trivial shapes), unless the buffer reaches `DBL_MAX`. -/
theorem C16_overlap_complete
    (hsph : ∀ s t : Segment P K, s.trivial = true → t.trivial = true →
      G.segDist s t = Grain.sphereDist G s t)
    {ratio fixed : K} {a b : Grain P K}
    (hmax : ratio * a.maxRadius + ratio * b.maxRadius + fixed < G.dmax)
    (h : Grain.overlaps G ratio fixed a b = true) :
    ∃ s ∈ a.segments, ∃ t ∈ b.segments,
      G.segDist s t ≤ ratio * a.maxRadius + ratio * b.maxRadius + fixed ∧
      ((∃ x ∈ a.segments ++ b.segments, x.trivial = false) →
        G.segDist s t < ratio * a.maxRadius + ratio * b.maxRadius + fixed) := by
  unfold Grain.overlaps at h
  dsimp only at h
  split at h
  · simp at h
  · rename_i hle
    split at h
    · simp only [decide_eq_true_eq] at h
      rcases (C16_distance (G := G) a b).2.2 with h0 | ⟨s, hs, t, ht, h0⟩
      · rw [h0] at h; exact absurd (lt_trans h hmax) (lt_irrefl _)
      · rw [h0] at h
        exact ⟨s, hs, t, ht, le_of_lt h, fun _ => h⟩
    · rename_i htriv
      simp only [Grain.hasNonTrivial, Bool.or_eq_true, List.any_eq_true, Bool.not_eq_true', not_or,
        not_exists, not_and, Bool.not_eq_false] at htriv
      rw [not_lt] at hle
      rcases (minOverPairs_spec (Grain.sphereDist G) b.segments a.segments G.dmax).2.2 with
        h0 | ⟨s, hs, t, ht, h0⟩
      · change Grain.distanceLowerBound G a b = _ at h0
        rw [h0] at hle; exact absurd hmax (not_lt.2 hle)
      · change Grain.distanceLowerBound G a b = _ at h0
        refine ⟨s, hs, t, ht, by rw [hsph s t (htriv.1 s hs) (htriv.2 t ht), ← h0]; exact hle, ?_⟩
        rintro ⟨x, hx, hxt⟩
        rcases List.mem_append.1 hx with hx | hx
        · rw [htriv.1 x hx] at hxt; simp at hxt
        · rw [htriv.2 x hx] at hxt; simp at hxt

/-- the zone around a grain moved with it: the points within the radius of a segment plus the transfer
buffer (`alter_dof_values_for_grain` of `remap_old`, tracker.h:664-700, and `Grain::transfer_buffer`,
grain.h:313-317) -/
def InZone (G : Geometry P K) (g : Grain P K) (p : P) : Prop :=
  ∃ s ∈ g.segments, G.dist s.center p < s.radius + Grain.transferBuffer g

/-- **C16, transfer zones (partial).** After reassignment, the zones of two grains that share their old
or new order parameter have no point in common, provided their bounding spheres do not overlap.

Full statement (violated, see `C16_zones_overlap`): without the condition on the bounding spheres. -/
theorem C16_zones_partial [IsStrictOrderedRing K] {cfg : ReassignCfg K}
    (hsym : ∀ p q, G.dist p q = G.dist q p) (htri : ∀ p q r, G.dist p r ≤ G.dist p q + G.dist q r)
    (hcol : ColorContract cfg.color) (hsort : SortContract cfg.sortBy)
    {force fast : Bool} {gs : OMap (Grain P K)} (hs : gs.Sorted) (hne : 0 < gs.length)
    {r : Reassigned P K} (h : reassignGrains G cfg force fast gs = .ok r)
    {k l : Nat} {a b : Grain P K} (ha : r.grains.get? k = some a) (hb : r.grains.get? l = some b)
    (hid : a.grainId ≠ b.grainId) (hop : a.op = b.op ∨ a.oldOp = b.oldOp)
    (hsep : ∀ s ∈ a.segments, ∀ t ∈ b.segments, 0 ≤ Grain.sphereDist G s t) (p : P) :
    ¬ (InZone G a p ∧ InZone G b p) := by
  rintro ⟨⟨s, hs1, hs2⟩, t, ht1, ht2⟩
  have h1 := C09_nearest hcol hsort hs hne h ha hb hid hop
  have h2 := C09_nearest hcol hsort hs hne h hb ha (Ne.symm hid)
    (by rcases hop with h | h; exact Or.inl h.symm; exact Or.inr h.symm)
  have hl1 := (minOverPairs_spec (Grain.sphereDist G) b.segments a.segments G.dmax).2.1 s hs1 t ht1
  have hl2 := (minOverPairs_spec (Grain.sphereDist G) a.segments b.segments G.dmax).2.1 t ht1 s hs1
  have e1 : a.nearest ≤ Grain.sphereDist G s t := le_trans h1 hl1
  have e2 : b.nearest ≤ Grain.sphereDist G s t := by
    have : Grain.sphereDist G t s = Grain.sphereDist G s t := by
      simp only [Grain.sphereDist, hsym t.center s.center, add_comm]
    rw [← this]; exact le_trans h2 hl2
  have e0 := hsep s hs1 t ht1
  have b1 : Grain.transferBuffer a ≤ Grain.sphereDist G s t / 2 := by
    unfold Grain.transferBuffer
    exact max_le (by linarith) (by linarith)
  have b2 : Grain.transferBuffer b ≤ Grain.sphereDist G s t / 2 := by
    unfold Grain.transferBuffer
    exact max_le (by linarith) (by linarith)
  have htr := htri s.center p t.center
  rw [hsym p t.center] at htr
  unfold Grain.sphereDist at b1 b2
  linarith

/-! ## Concrete cases -/
namespace Ex16
open Ex06 Ex08
def ell (c : Rat) : Segment Rat Rat := ⟨c, 1/2, 1, 1, false⟩
def grE (id op : Nat) (c : Rat) : Grain Rat Rat := Grain.addSegment (Grain.mk2 gQ id op) (ell c)
example : (∀ p q, gQ.dist p q = gQ.dist q p) ∧ (∀ p q r, gQ.dist p r ≤ gQ.dist p q + gQ.dist q r) :=
  ⟨fun p q => by simp only [gQ]; split <;> split <;> linarith,
    fun p q r => by simp only [gQ]; split <;> split <;> split <;> linarith⟩
/-- two segments, aggregates -/
example : (Grain.addSegment (Grain.addSegment (Grain.mk2 gQ 3 1) ⟨0, 2, 5, 1/2, true⟩)
    ⟨9, 1, 7, 3/4, true⟩) = ⟨3, 1, 1, [⟨0, 2, 5, 1/2, true⟩, ⟨9, 1, 7, 3/4, true⟩], 2, gQ.dmax, .none,
      3/4, 12⟩ := by decide +kernel
/-- exactly at the buffer distance: spherical grains overlap, other shapes do not -/
theorem C16_equality_differs :
    Grain.overlaps gQ 0 1 (gr 0 0 0) (gr 1 0 3) = true ∧
    Grain.overlaps gQ 0 1 (grE 0 0 0) (grE 1 0 2) = false ∧
    gQ.segDist (segQ 0) (segQ 3) = 1 ∧ gQ.segDist (ell 0) (ell 2) = 1 := by decide +kernel
/-- **violation**: grains with overlapping bounding spheres have overlapping zones although they get
different new order parameters, since they share the old one. Point 1/4 belongs to both zones. -/
theorem C16_zones_overlap :
    ((reassignGrains gQ (cfgQ true 5) false true
      [(0, gr 0 0 0), (1, gr 1 0 (1/2))]) >>= fun r => Res.ok (r.grains.map fun p =>
        (p.2.op, p.2.oldOp, p.2.segments.map fun s => decide (gQ.dist s.center (1/4) <
          s.radius + Grain.transferBuffer p.2)))) =
    .ok [(0, 0, [true]), (1, 0, [true])] := by decide +kernel
end Ex16

end Verif.Props
