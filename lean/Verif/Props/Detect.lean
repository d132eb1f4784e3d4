import Mathlib.Data.List.Nodup
import Mathlib.Algebra.Field.Rat
import Mathlib.Algebra.Order.Ring.Rat
import Verif.Lemmas.Detect
import Verif.Lemmas.Inverse
import Verif.Props.Tracking
/-!
# Grain detection and segment numbering (C06, C07)
-/
namespace Verif.Props
open Verif Spec
variable {P K : Type}

/-! ## C06 -/

/-- **C06.** For all numbers of order parameters and particles and all periodic contacts between
existing particles, detection completes (the check on the number of grains never fires, no unchecked
access fails), and its result numbers grains without gaps, merges exactly the particles linked by
periodic contacts, and numbers the segments of each grain without gaps. -/
theorem C06_detection [Field K] [LinearOrder K] (G : Geometry P K) {cc : CCFun}
    (hcc : CCContract cc) (assign : Bool) {ops : List (OpParticles P K)}
    (hx : ∀ x ∈ ops, ∀ c ∈ x.conns, c.1 < x.parts.length ∧ c.2 < x.parts.length) :
    ∃ d, detectGrains G cc assign ops = .ok d ∧ IsDetection ops d :=
  detect_core G hcc assign hx

/-- **C06 delivers what tracking needs**: the lookup table refers to detected grains of the same order
parameter, and the order parameters are in range. -/
theorem C06_establishes_track_precondition [LinearOrder K] {ops : List (OpParticles P K)}
    {d : Detection P K}
    (h : IsDetection ops d) {t : Tracker P K} (hs : t.grains.Sorted)
    (ho : ∀ p ∈ t.grains, p.2.op < ops.length) : TrackPre t d ops.length := by
  have hopl : ∀ g G, d.grains.get? g = some G → G.op < ops.length := by
    intro g G hG
    have hne := h.nonempty g G hG
    have h0 : 0 < G.segments.length := List.length_pos_iff.2 hne
    obtain ⟨op, i, row, h1, h2⟩ := h.segment g 0 G G.segments[0] hG (by simp [h0])
    obtain ⟨a1, -⟩ := List.getElem?_eq_some_iff.1 h1
    obtain ⟨a2, -⟩ := List.getElem?_eq_some_iff.1 h2
    have hop : op < ops.length := by rw [← h.rows]; exact a1
    have hc := h.cols op ops[op] row (by simp [hop]) h1
    obtain ⟨g', s', G', q1, q2, q3, -⟩ := h.entry op i ops[op] row (ops[op].parts[i]'(by omega))
      (by simp [hop]) h1 (List.getElem?_eq_getElem _)
    rw [h2] at q1
    simp only [Option.some.injEq, Prod.mk.injEq] at q1
    rw [q1.1.symm] at q2
    rw [hG] at q2; simp at q2; subst q2
    rw [q3]; exact hop
  refine ⟨hs, h.sorted, ho, ?_, by rw [h.rows], ?_⟩
  · intro p hp
    exact hopl p.1 p.2 (OMap.get?_of_mem h.sorted hp)
  · intro op es hes e he
    obtain ⟨i, hi⟩ := List.mem_iff_getElem?.1 he
    obtain ⟨a1, -⟩ := List.getElem?_eq_some_iff.1 hes
    obtain ⟨a2, -⟩ := List.getElem?_eq_some_iff.1 hi
    have hop : op < ops.length := by rw [← h.rows]; exact a1
    have hc := h.cols op ops[op] es (by simp [hop]) hes
    obtain ⟨g', s', G', q1, q2, q3, -⟩ := h.entry op i ops[op] es (ops[op].parts[i]'(by omega))
      (by simp [hop]) hes (List.getElem?_eq_getElem _)
    rw [hi] at q1
    simp only [Option.some.injEq] at q1
    subst q1
    exact ⟨g', G', rfl, q2, q3⟩

namespace Ex06
def segQ (c : Rat) : Segment Rat Rat := { center := c, radius := 1, measure := 2, maxValue := 1 }
def gQ : Geometry Rat Rat where
  dist a b := if a ≤ b then b - a else a - b
  segDist s t := if s.center ≤ t.center then t.center - s.center - s.radius - t.radius
    else s.center - t.center - s.radius - t.radius
  dmax := 1000000
  dlowest := -1000000
/-- op 0: four particles, 1 and 3 joined periodically; op 1: two separate particles -/
def ops : List (OpParticles Rat Rat) :=
  [⟨[segQ 0, segQ 10, segQ 20, segQ 30], [(3, 1)]⟩, ⟨[segQ 5, segQ 15], []⟩]
example : ∀ x ∈ ops, ∀ c ∈ x.conns, c.1 < x.parts.length ∧ c.2 < x.parts.length := by decide
example : CCContract ccExec := ccExec_contract
/-- grain 0 is the periodic pair, then the free particles in order -/
example : (detectGrains gQ ccExec true ops >>= fun d => Res.ok d.lookup) =
    .ok [[(some 1, 0), (some 0, 0), (some 2, 0), (some 0, 1)], [(some 3, 0), (some 4, 0)]] := by
  decide +kernel
end Ex06

/-! ## C07 -/

/-- Specification: `n` segments, `idx` numbers the particles of the lookup table bijectively by
`0..n-1`. -/
structure IsSegmentIndexing (lookup : Lookup) (n : Nat) (idx : Nat → Nat → Res Nat) : Prop where
  total : n = (lookup.map List.length).sum
  lt : ∀ (op i g s : Nat) (row : List (Option Nat × Nat)), lookup[op]? = some row →
    row[i]? = some (some g, s) → ∃ k, idx g s = .ok k ∧ k < n
  inj : ∀ (op i op' i' g s g' s' k : Nat) (row row' : List (Option Nat × Nat)),
    lookup[op]? = some row → lookup[op']? = some row' → row[i]? = some (some g, s) →
    row'[i']? = some (some g', s') → idx g s = .ok k → idx g' s' = .ok k → op = op' ∧ i = i'
  surj : ∀ k, k < n → ∃ (op i g s : Nat) (row : List (Option Nat × Nat)), lookup[op]? = some row ∧
    row[i]? = some (some g, s) ∧ idx g s = .ok k

/-- **C07.** If every lookup entry names a grain and different particles have different entries, the
global segment index is a bijection between the particles and `0..n_segments-1`. -/
theorem C07_segment_index {lookup : Lookup}
    (hv : ∀ row ∈ lookup, ∀ e ∈ row, ∃ g, e.1 = some g ∧ g < invalidUInt)
    (hinj : ∀ (op i op' i' : Nat) (row row' : List (Option Nat × Nat)) (e : Option Nat × Nat),
      lookup[op]? = some row → lookup[op']? = some row' → row[i]? = some e → row'[i']? = some e →
      op = op' ∧ i = i') :
    IsSegmentIndexing lookup (buildInverse lookup).2 (segmentIndex (buildInverse lookup).1) := by
  obtain ⟨-, -, h3, h4⟩ := buildInverse_ok lookup
  have hnd : lookup.flatten.Nodup := by
    rw [List.nodup_flatten]
    constructor
    · intro row hrow
      obtain ⟨op, hop⟩ := List.mem_iff_getElem?.1 hrow
      rw [List.nodup_iff_getElem?_ne_getElem?]
      intro i j hij hj heq
      have := hinj op i op j row row row[j] hop hop (by rw [heq]; simp [hj]) (by simp [hj])
      omega
    · rw [List.pairwise_iff_getElem]
      intro a b ha hb hab
      intro e h1 h2
      obtain ⟨i, hi⟩ := List.mem_iff_getElem?.1 h1
      obtain ⟨j, hj⟩ := List.mem_iff_getElem?.1 h2
      have := hinj a i b j _ _ e (List.getElem?_eq_getElem ha) (List.getElem?_eq_getElem hb) hi hj
      omega
  have hvf : ∀ e ∈ lookup.flatten, ∃ g, e.1 = some g ∧ g < invalidUInt := by
    intro e he
    obtain ⟨row, hr, he'⟩ := List.mem_flatten.1 he
    exact hv row hr e he'
  have key : ∀ (k : Nat) (g s : Nat), lookup.flatten[k]? = some (some g, s) →
      segmentIndex (buildInverse lookup).1 g s = .ok k := by
    intro k g s hk
    refine h4 k (some g, s) hk ?_
    intro j hj e' he' ⟨c1, c2⟩
    obtain ⟨g', hg', hlt'⟩ := hvf e' (List.mem_of_getElem? he')
    simp [gridKey, hg'] at c1
    have : e' = (some g, s) := Prod.ext (by rw [hg', c1]) c2
    subst this
    obtain ⟨x1, y1⟩ := List.getElem?_eq_some_iff.1 hk
    obtain ⟨x2, y2⟩ := List.getElem?_eq_some_iff.1 he'
    have := (List.Nodup.getElem_inj_iff hnd).1 (y1.trans y2.symm)
    omega
  have pos : ∀ (op i : Nat) (row : List (Option Nat × Nat)) (e : Option Nat × Nat),
      lookup[op]? = some row → row[i]? = some e →
      ∃ k : Nat, lookup.flatten[k]? = some e := by
    intro op i row e h1 h2
    exact List.mem_iff_getElem?.1
      (List.mem_flatten.2 ⟨row, List.mem_of_getElem? h1, List.mem_of_getElem? h2⟩)
  refine ⟨by rw [h3, List.length_flatten], ?_, ?_, ?_⟩
  · intro op i g s row h1 h2
    obtain ⟨k, hk⟩ := pos op i row _ h1 h2
    exact ⟨k, key k g s hk, by rw [h3]; exact (List.getElem?_eq_some_iff.1 hk).1⟩
  · intro op i op' i' g s g' s' k row row' h1 h2 e1 e2 k1 k2
    obtain ⟨a, ha⟩ := pos op i row _ h1 e1
    obtain ⟨b, hb⟩ := pos op' i' row' _ h2 e2
    have ka := key a g s ha
    have kb := key b g' s' hb
    rw [k1] at ka; rw [k2] at kb
    simp at ka kb
    rw [← ka] at ha; rw [← kb, ha] at hb
    simp only [Option.some.injEq] at hb
    rw [← hb] at e2
    exact hinj op i op' i' row row' _ h1 h2 e1 e2
  · intro k hk
    rw [h3] at hk
    have hm : lookup.flatten[k] ∈ lookup.flatten := List.getElem_mem _
    obtain ⟨g, hg, -⟩ := hvf _ hm
    obtain ⟨row, hr, he⟩ := List.mem_flatten.1 hm
    obtain ⟨op, hop⟩ := List.mem_iff_getElem?.1 hr
    obtain ⟨i, hi⟩ := List.mem_iff_getElem?.1 he
    have e : lookup.flatten[k] = (some g, lookup.flatten[k].2) := Prod.ext hg rfl
    refine ⟨op, i, g, lookup.flatten[k].2, row, hop, by rw [hi, ← e], ?_⟩
    refine key k g _ ?_
    rw [List.getElem?_eq_getElem hk]
    exact congrArg some e

/-- **C07 after initial detection.** -/
theorem C07_after_detection {ops : List (OpParticles P K)} {d : Detection P K}
    (h : IsDetection ops d) (hsmall : d.grains.length ≤ invalidUInt) :
    IsSegmentIndexing d.lookup (buildInverse d.lookup).2
      (segmentIndex (buildInverse d.lookup).1) := by
  refine C07_segment_index ?_ h.inj
  intro row hr e he
  obtain ⟨op, hop⟩ := List.mem_iff_getElem?.1 hr
  obtain ⟨i, hi⟩ := List.mem_iff_getElem?.1 he
  obtain ⟨a1, -⟩ := List.getElem?_eq_some_iff.1 hop
  obtain ⟨a2, -⟩ := List.getElem?_eq_some_iff.1 hi
  have hop' : op < ops.length := by rw [← h.rows]; exact a1
  have hc := h.cols op ops[op] row (by simp [hop']) hop
  obtain ⟨g', s', G', q1, q2, q3, -⟩ := h.entry op i ops[op] row (ops[op].parts[i]'(by omega))
    (by simp [hop']) hop (List.getElem?_eq_getElem _)
  rw [hi] at q1
  simp only [Option.some.injEq] at q1
  subst q1
  refine ⟨g', rfl, ?_⟩
  have := (h.contiguous g').1 (by rw [q2]; rfl)
  omega

/-- **C07 after tracking** with a renaming `φ` that drops no grain (as provided by
`C03_lookup_follows_renaming`). -/
theorem C07_after_tracking {ops : List (OpParticles P K)} {d : Detection P K}
    (h : IsDetection ops d) {φ : Nat → Option Nat}
    (hφ : ∀ g G, d.grains.get? g = some G → ∃ k, φ g = some k ∧ k < invalidUInt)
    (hinj : ∀ g g' G1 G2 k, d.grains.get? g = some G1 → d.grains.get? g' = some G2 →
      φ g = some k → φ g' = some k → g = g') :
    IsSegmentIndexing (renamed φ d.lookup) (buildInverse (renamed φ d.lookup)).2
      (segmentIndex (buildInverse (renamed φ d.lookup)).1) := by
  have hent : ∀ (op i : Nat) (row : List (Option Nat × Nat)) (e : Option Nat × Nat),
      d.lookup[op]? = some row → row[i]? = some e → ∃ g G, e.1 = some g ∧ d.grains.get? g = some G := by
    intro op i row e hop hi
    obtain ⟨a1, -⟩ := List.getElem?_eq_some_iff.1 hop
    obtain ⟨a2, -⟩ := List.getElem?_eq_some_iff.1 hi
    have hop' : op < ops.length := by rw [← h.rows]; exact a1
    have hc := h.cols op ops[op] row (by simp [hop']) hop
    obtain ⟨g', s', G', q1, q2, q3, -⟩ := h.entry op i ops[op] row (ops[op].parts[i]'(by omega))
      (by simp [hop']) hop (List.getElem?_eq_getElem _)
    rw [hi] at q1
    simp only [Option.some.injEq] at q1
    subst q1
    exact ⟨g', G', rfl, q2⟩
  refine C07_segment_index ?_ ?_
  · intro row hr e he
    obtain ⟨row0, hr0, rfl⟩ := List.mem_map.1 hr
    obtain ⟨e0, he0, rfl⟩ := List.mem_map.1 he
    obtain ⟨op, hop⟩ := List.mem_iff_getElem?.1 hr0
    obtain ⟨i, hi⟩ := List.mem_iff_getElem?.1 he0
    obtain ⟨g, G, h1, h2⟩ := hent op i row0 e0 hop hi
    obtain ⟨k, hk, hlt⟩ := hφ g G h2
    exact ⟨k, by simp [h1, hk], hlt⟩
  · intro op i op' i' row row' e h1 h2 h3 h4
    simp only [renamed, List.getElem?_map, Option.map_eq_some_iff] at h1 h2
    obtain ⟨r, hr, rfl⟩ := h1
    obtain ⟨r', hr', rfl⟩ := h2
    simp only [List.getElem?_map, Option.map_eq_some_iff] at h3 h4
    obtain ⟨e0, he0, rfl⟩ := h3
    obtain ⟨e1, he1, heq⟩ := h4
    obtain ⟨g, G, q1, q2⟩ := hent op i r e0 hr he0
    obtain ⟨g', G', q1', q2'⟩ := hent op' i' r' e1 hr' he1
    obtain ⟨k, hk, -⟩ := hφ g G q2
    obtain ⟨k', hk', -⟩ := hφ g' G' q2'
    simp only [q1, q1', Option.bind_some, Prod.mk.injEq, hk, hk', Option.some.injEq] at heq
    obtain ⟨rfl, hs⟩ := heq
    have hgg := hinj g g' G G' k' q2 q2' hk hk'
    subst hgg
    have : e0 = e1 := Prod.ext (q1.trans q1'.symm) hs.symm
    subst this
    exact h.inj op i op' i' r r' e0 hr hr' he0 he1

example : (buildInverse [[(some 1, 0), (some 0, 0), (some 2, 0), (some 0, 1)], [(some 3, 0)]]) =
    ([(0, [(0, 1), (1, 3)]), (1, [(0, 0)]), (2, [(0, 2)]), (3, [(0, 4)])], 5) := by decide +kernel

/-- Without the hypothesis the claim fails: two dropped grains share the key of "no grain", so the
first particle is no longer addressed by any index. -/
theorem C07_dropped_grains_alias :
    segmentIndex (buildInverse [[(none, 0), (none, 0)]]).1 invalidUInt 0 = .ok 1 ∧
    (buildInverse [[(none, 0), (none, 0)]]).2 = 2 := by decide +kernel

end Verif.Props
