import Mathlib.Algebra.Order.Group.Unbundled.Int
import Mathlib.Order.Basic
import Verif.Lemmas.Tracking
import Verif.Lemmas.Track
/-!
# Properties of grain tracking (C01-C05)
-/
namespace Verif.Props
open Verif Spec
variable {P K : Type} [LinearOrder K]

/-! ## A small concrete geometry used in the examples: points and radii are integers -/

def gI : Geometry Int Int where
  dist a b := if a ≤ b then b - a else a - b
  segDist s t := if s.center ≤ t.center then t.center - s.center - s.radius - t.radius
    else s.center - t.center - s.radius - t.radius
  dmax := 1000000
  dlowest := -1000000

/-- two boxes on the line intersect -/
def interI (a b : Int × Int) : Prop := a.1 - a.2 ≤ b.1 + b.2 ∧ b.1 - b.2 ≤ a.1 + a.2
instance (a b : Int × Int) : Decidable (interI a b) := by unfold interI; infer_instance

def queryI (boxes : List (Int × Int)) (b : Int × Int) : List Nat :=
  (List.range boxes.length).filter (fun i => match boxes[i]? with
    | some bx => decide (interI bx b)
    | none => false)

theorem queryI_contract : QueryContract interI queryI := by
  intro boxes b i
  simp only [queryI, List.mem_filter, List.mem_range]
  constructor
  · rintro ⟨h1, h2⟩
    rw [List.getElem?_eq_getElem h1] at h2 ⊢
    exact ⟨_, rfl, by simpa using h2⟩
  · rintro ⟨bx, h1, h2⟩
    rw [h1]
    obtain ⟨h, -⟩ := List.getElem?_eq_some_iff.1 h1
    exact ⟨h, by simpa using h2⟩

def segI (c r : Int) (mx : Int := 10) : Segment Int Int :=
  { center := c, radius := r, measure := 2 * r, maxValue := mx }

def grainI (id op : Nat) (segs : List (Segment Int Int)) : Grain Int Int :=
  { grainId := id, op := op, oldOp := op, segments := segs, maxRadius := 0, nearest := gI.dmax,
    maxValue := segs.foldl (fun a s => max a s.maxValue) gI.dlowest,
    measure := segs.foldl (fun a s => a + s.measure) 0 }

/-! ## C01 -/

/-- **C01.** For all grain tables whose order parameters lie in range, the transfer of identities
terminates normally (no exception, no undefined behaviour) and yields a matching: total on the
detected grains, sound (previous grain exists, same order parameter, touching), injective, and
unmatched only for a reason. -/
theorem C01_transfer (G : Geometry P K) {inter : P × K → P × K → Prop}
    {query : List (P × K) → P × K → List Nat} (hq : QueryContract inter query)
    {new old : OMap (Grain P K)} (hsn : new.Sorted) (hso : old.Sorted) {n : Nat}
    (hn : ∀ p ∈ new, p.2.op < n) (ho : ∀ p ∈ old, p.2.op < n) :
    ∃ m, transferGrainIds G query new old n = .ok m ∧
      IsMatching G.dist inter (Grain.distanceCenters G) new old m := by
  obtain ⟨m, h1, -, h2⟩ := transfer_core (G := G) hq hsn hso hn ho
  exact ⟨m, h1, h2⟩

/-- **C01, precondition is necessary.** If some grain carries an order parameter outside the given
range the unchecked vector access is undefined behaviour. -/
theorem C01_transfer_ub (G : Geometry P K) (query : List (P × K) → P × K → List Nat)
    {new old : OMap (Grain P K)} {n : Nat}
    (h : (∃ p ∈ new, n ≤ p.2.op) ∨ (∃ p ∈ old, n ≤ p.2.op)) :
    transferGrainIds G query new old n = .ub := by
  unfold transferGrainIds
  by_cases ho : ∃ p ∈ old, n ≤ p.2.op
  · rw [extractPerOp_ub ho]; rfl
  · have ho' : ∀ p ∈ old, p.2.op < n := by
      intro p hp
      by_contra hc
      exact ho ⟨p, hp, Nat.not_lt.1 hc⟩
    obtain ⟨l, hl, -⟩ := extractPerOp_ok ho'
    rw [hl, Res.ok_bind, extractPerOp_ub (h.resolve_right ho)]; rfl

namespace Ex01
/-- two old grains on op 0, one on op 1 -/
def old : OMap (Grain Int Int) :=
  [(0, grainI 0 0 [segI 0 5]), (3, grainI 3 0 [segI 20 5]), (7, grainI 7 1 [segI 0 5])]
/-- new grains: 0 and 1 compete for old grain 3, 2 is on op 1, 4 touches nothing -/
def new : OMap (Grain Int Int) :=
  [(0, grainI 0 0 [segI 26 3]), (1, grainI 1 0 [segI 19 4]), (2, grainI 2 1 [segI 1 5]),
   (4, grainI 4 1 [segI 100 5])]

example : transferGrainIds gI queryI new old 2 =
    .ok [(0, none), (1, some 3), (2, some 7), (4, none)] := by decide +kernel
example : new.Sorted ∧ old.Sorted ∧ (∀ p ∈ new, p.2.op < 2) ∧ (∀ p ∈ old, p.2.op < 2) := by
  decide
/-- too few order parameters -/
example : transferGrainIds gI queryI new old 1 = .ub := by decide +kernel
end Ex01

/-- Finding recorded in DESIGN.md: for a grain with several segments the chosen predecessor need not
be the nearest one. The first segment has a single hit, whose distance is not remembered, so any hit
of the second segment overrides it. Old grain 1 is at distance 0, old grain 2 at distance 9, and 2
is chosen. -/
theorem C01_multi_segment_not_nearest :
    transferGrainIds gI queryI
      [(0, grainI 0 0 [segI 0 5, segI 50 5])]
      [(1, grainI 1 0 [segI 0 5]), (2, grainI 2 0 [segI 59 5])] 1 = .ok [(0, some 2)] := by
  decide +kernel

/-! ## C02, C03, C04 -/

/-- hypotheses under which `track` is called: ordered maps, order parameters in range, lookup table
as filled by the detection -/
structure TrackPre (t : Tracker P K) (d : Detection P K) (n : Nat) : Prop where
  oldSorted : t.grains.Sorted
  newSorted : d.grains.Sorted
  oldOps : ∀ p ∈ t.grains, p.2.op < n
  newOps : ∀ p ∈ d.grains, p.2.op < n
  lookupSize : n ≤ d.lookup.length
  consistent : LookupConsistent d.grains d.lookup

/-- what the bookkeeping part of a tracking call does, for all inputs -/
theorem trackMatch_spec (G : Geometry P K) {inter : P × K → P × K → Prop}
    {query : List (P × K) → P × K → List Nat} (hq : QueryContract inter query) (cfg : TrackCfg K)
    {t : Tracker P K} {d : Detection P K} {n : Nat} (h : TrackPre t d n) :
    ∃ m φ, IsMatching G.dist inter (Grain.distanceCenters G) d.grains t.grains m ∧
      (trackMatch G query cfg t d n).1.grains.Sorted ∧
      (trackMatch G query cfg t d n).1.oldGrains = t.grains ∧
      (trackMatch G query cfg t d n).1.lookup = renamed φ d.lookup ∧
      ((cfg.allowNew = true ∨ ∀ g G', d.grains.get? g = some G' → m.get? g = some none →
          ¬ cfg.thresholdNew < G'.maxValue) →
        (trackMatch G query cfg t d n).2 = .ok () ∧
        IsTracking cfg.thresholdNew t.grains d.grains m (trackMatch G query cfg t d n).1.grains φ) ∧
      ((cfg.allowNew = false ∧ ∃ g G', d.grains.get? g = some G' ∧ m.get? g = some none ∧
          cfg.thresholdNew < G'.maxValue) →
        (trackMatch G query cfg t d n).2 = .exc .grainsInconsistency) := by
  obtain ⟨m, hm1, -, hm2⟩ := transfer_core (G := G) hq h.newSorted h.oldSorted h.newOps h.oldOps
  obtain ⟨s, φ, hl, hI⟩ := track_core (cfg := cfg) h.oldSorted h.newSorted hm2
    (fun p hp => Nat.lt_of_lt_of_le (h.newOps p hp) h.lookupSize)
  have hmem : ∀ g G', (g, G') ∈ d.grains ↔ d.grains.get? g = some G' := fun g G' =>
    (OMap.get?_iff_mem h.newSorted).symm
  have hres : trackMatch G query cfg t d n =
      ({ grains := s.grains, oldGrains := t.grains, lookup := s.lookup },
        if s.nInvalid ≠ 0 then .exc .grainsInconsistency
        else if d.grains.length = s.grains.length + s.nSkipped then .ok ()
        else .exc .grainsInconsistency) := by
    unfold trackMatch
    rw [hm1]
    simp only [trackWith, hl]
    split
    · rfl
    · split <;> rfl
  refine ⟨m, φ, hm2, ?_, ?_, ?_, ?_, ?_⟩
  · rw [hres]; exact hI.sorted
  · rw [hres]
  · rw [hres]
    simp only
    apply List.ext_getElem?
    intro op
    by_cases hop : op < d.lookup.length
    · obtain ⟨h1, -⟩ := hI.look.2.2 op d.lookup[op] (by simp [hop])
      rw [h1]
      simp only [renamed, List.getElem?_map, List.getElem?_eq_getElem hop, Option.map_some]
      refine congrArg some (List.map_congr_left ?_)
      intro e he
      obtain ⟨g, G', e1, e2, e3⟩ := h.consistent op _ (List.getElem?_eq_getElem hop) e he
      have : d.grains.any (fun p => p.1 == g && p.2.op == op) = true := by
        rw [List.any_eq_true]
        exact ⟨(g, G'), (hmem g G').2 e2, by simp [e3]⟩
      simp [renPre, e1, this]
    · rw [List.getElem?_eq_none (by rw [hI.look.1]; omega),
        List.getElem?_eq_none (by simp [renamed]; omega)]
  · intro hc
    have hz : s.nInvalid = 0 := by
      by_contra hne
      obtain ⟨g, G', h1, h2, h3, h4⟩ := hI.nInv.1 hne
      rcases hc with hc | hc
      · rw [h4] at hc; exact absurd hc (by decide)
      · exact hc g G' ((hmem g G').1 h1) h2 h3
    rw [hres]
    constructor
    · have := hI.count
      simp only [hz, ne_eq, not_true_eq_false, if_false]
      rw [if_pos (by rw [this, hz]; omega)]
    · refine ⟨?_, ?_, ?_, ?_, ?_⟩
      · intro g o hgo
        obtain ⟨G', O, h1, -⟩ := hm2.sound g o hgo
        exact hI.matched g G' o ((hmem g G').2 h1) hgo
      · intro g G' h1 h2 h3
        cases ha : cfg.allowNew with
        | true =>
          obtain ⟨k, k1, k2, k3⟩ := hI.fresh g G' ((hmem g G').2 h1) h2 h3 ha
          exact ⟨k, k1, fun o O hO => Nat.lt_of_lt_of_le (lt_firstFree h.oldSorted hO) k2⟩
        | false =>
          rcases hc with hc | hc
          · rw [ha] at hc; exact absurd hc (by decide)
          · exact absurd h3 (hc g G' h1 h2)
      · intro g G' h1 h2 h3
        exact hI.skipped g G' ((hmem g G').2 h1) h2 h3
      · intro g g' G1 G2 k h1 h2 h3 h4
        exact hI.inj g g' G1 G2 k ((hmem g G1).2 h1) ((hmem g' G2).2 h2) h3 h4
      · intro k R
        rw [hI.table]
        simp only [hmem]
  · rintro ⟨ha, g, G', h1, h2, h3⟩
    have hne : s.nInvalid ≠ 0 := hI.nInv.2 ⟨g, G', (hmem g G').2 h1, h2, h3, ha⟩
    rw [hres, if_pos hne]

/-- **C02.** After a successful tracking call every grain carries the identifier it is stored under
(so identifiers are pairwise distinct), and every grain that is not the continuation of a previous
grain carries an identifier larger than all previous ones. -/
theorem C02_unique_fresh_ids (G : Geometry P K) {inter : P × K → P × K → Prop}
    {query : List (P × K) → P × K → List Nat} (hq : QueryContract inter query) (cfg : TrackCfg K)
    {t t' : Tracker P K} {d : Detection P K} {n : Nat} (h : TrackPre t d n)
    (hok : trackMatch G query cfg t d n = (t', .ok ())) :
    t'.grains.Sorted ∧ (∀ k R, t'.grains.get? k = some R → R.grainId = k) ∧
    ∀ k R, t'.grains.get? k = some R →
      (∃ O, t.grains.get? k = some O ∧ O.op = R.op ∧ Touch inter O R) ∨
      (R.dynamics = .none ∧ cfg.thresholdNew < R.maxValue ∧
        ∀ o O, t.grains.get? o = some O → o < k) := by
  obtain ⟨m, φ, hm, hs, -, -, h1, h2⟩ := trackMatch_spec G hq cfg h
  rw [hok] at h1 h2 hs
  have hT : IsTracking cfg.thresholdNew t.grains d.grains m t'.grains φ := by
    refine (h1 ?_).2
    cases ha : cfg.allowNew with
    | true => exact Or.inl rfl
    | false =>
      right
      intro g G' e1 e2 e3
      have := h2 ⟨ha, g, G', e1, e2, e3⟩
      simp at this
  refine ⟨hs, ?_, ?_⟩
  · intro k R hR
    obtain ⟨g, G', -, -, rfl⟩ := (hT.table k R).1 hR
    rfl
  · intro k R hR
    obtain ⟨g, G', e1, e2, rfl⟩ := (hT.table k R).1 hR
    obtain ⟨v, hv⟩ := Option.isSome_iff_exists.1 ((hm.total g).2 (by simp [e1]))
    cases v with
    | some o =>
      left
      have := hT.matched g o hv
      rw [e2] at this; simp at this; subst this
      obtain ⟨G1, O, q1, q2, q3, q4⟩ := hm.sound g k hv
      rw [e1] at q1; injection q1 with q1; subst q1
      exact ⟨O, q2, q3, q4.1⟩
    | none =>
      right
      by_cases ht : cfg.thresholdNew < G'.maxValue
      · obtain ⟨k', q1, q2⟩ := hT.fresh g G' e1 hv ht
        rw [e2] at q1; simp at q1; subst q1
        exact ⟨by simp [hv, dynamicsOf], ht, q2⟩
      · have := hT.skipped g G' e1 hv ht
        rw [e2] at this; simp at this

/-- **C03.** After a successful tracking call the lookup of every particle is its previous entry with
the grain id replaced by the id under which exactly that detected grain is now stored, or by "no
grain" if that grain was dropped; segment numbers stay. -/
theorem C03_lookup_follows_renaming (G : Geometry P K) {inter : P × K → P × K → Prop}
    {query : List (P × K) → P × K → List Nat} (hq : QueryContract inter query) (cfg : TrackCfg K)
    {t t' : Tracker P K} {d : Detection P K} {n : Nat} (h : TrackPre t d n)
    (hok : trackMatch G query cfg t d n = (t', .ok ())) :
    ∃ φ : Nat → Option Nat, t'.lookup = renamed φ d.lookup ∧
      (∀ g G' k, d.grains.get? g = some G' → φ g = some k →
        ∃ dyn, t'.grains.get? k = some { G' with grainId := k, dynamics := dyn }) ∧
      (∀ g G', d.grains.get? g = some G' → φ g = none → ¬ cfg.thresholdNew < G'.maxValue) ∧
      (∀ g g' G1 G2 k, d.grains.get? g = some G1 → d.grains.get? g' = some G2 → φ g = some k →
        φ g' = some k → g = g') := by
  obtain ⟨m, φ, hm, -, -, hl, h1, h2⟩ := trackMatch_spec G hq cfg h
  rw [hok] at h1 h2 hl
  have hT : IsTracking cfg.thresholdNew t.grains d.grains m t'.grains φ := by
    refine (h1 ?_).2
    cases ha : cfg.allowNew with
    | true => exact Or.inl rfl
    | false =>
      right
      intro g G' e1 e2 e3
      have := h2 ⟨ha, g, G', e1, e2, e3⟩
      simp at this
  refine ⟨φ, hl, ?_, ?_, hT.inj⟩
  · intro g G' k e1 e2
    exact ⟨_, (hT.table k _).2 ⟨g, G', e1, e2, rfl⟩⟩
  · intro g G' e1 e2 ht
    obtain ⟨v, hv⟩ := Option.isSome_iff_exists.1 ((hm.total g).2 (by simp [e1]))
    cases v with
    | some o =>
      have := hT.matched g o hv
      rw [e2] at this; simp at this
    | none =>
      obtain ⟨k, q1, -⟩ := hT.fresh g G' e1 hv ht
      rw [e2] at q1; simp at q1

/-- **C04.** Decision logic of a tracking call: it either succeeds and keeps every matched grain
(flagged growing exactly if its measure strictly increased), registers every unmatched grain above
the threshold and drops the others; or it raises the inconsistency exception, exactly if new grains
are forbidden and some unmatched grain exceeds the threshold. No other outcome exists; in particular
the runtime checks on order parameters and on the number of grains never fire. -/
theorem C04_accounting (G : Geometry P K) {inter : P × K → P × K → Prop}
    {query : List (P × K) → P × K → List Nat} (hq : QueryContract inter query) (cfg : TrackCfg K)
    {t : Tracker P K} {d : Detection P K} {n : Nat} (h : TrackPre t d n) :
    ∃ m, IsMatching G.dist inter (Grain.distanceCenters G) d.grains t.grains m ∧
      ((trackMatch G query cfg t d n).2 = .ok () ∨
        (trackMatch G query cfg t d n).2 = .exc .grainsInconsistency) ∧
      ((trackMatch G query cfg t d n).2 = .exc .grainsInconsistency ↔
        cfg.allowNew = false ∧ ∃ g G', d.grains.get? g = some G' ∧ m.get? g = some none ∧
          cfg.thresholdNew < G'.maxValue) ∧
      ((trackMatch G query cfg t d n).2 = .ok () →
        ∃ φ, IsTracking cfg.thresholdNew t.grains d.grains m
          (trackMatch G query cfg t d n).1.grains φ) := by
  obtain ⟨m, φ, hm, -, -, -, h1, h2⟩ := trackMatch_spec G hq cfg h
  have dich : (cfg.allowNew = true ∨ ∀ g G', d.grains.get? g = some G' → m.get? g = some none →
          ¬ cfg.thresholdNew < G'.maxValue) ∨ (cfg.allowNew = false ∧ ∃ g G',
          d.grains.get? g = some G' ∧ m.get? g = some none ∧ cfg.thresholdNew < G'.maxValue) := by
    by_cases hx : ∃ g G', d.grains.get? g = some G' ∧ m.get? g = some none ∧
        cfg.thresholdNew < G'.maxValue
    · cases ha : cfg.allowNew with
      | true => exact Or.inl (Or.inl rfl)
      | false => exact Or.inr ⟨rfl, hx⟩
    · left; right
      intro g G' e1 e2 e3
      exact hx ⟨g, G', e1, e2, e3⟩
  refine ⟨m, hm, ?_, ?_, ?_⟩
  · rcases dich with hd | hd
    · exact Or.inl (h1 hd).1
    · exact Or.inr (h2 hd)
  · constructor
    · intro he
      rcases dich with hd | hd
      · rw [(h1 hd).1] at he; simp at he
      · exact hd
    · exact h2
  · intro he
    rcases dich with hd | hd
    · exact ⟨φ, (h1 hd).2⟩
    · rw [h2 hd] at he; simp at he

namespace Ex02
/-- previous grains 0, 1, 2 on one order parameter -/
def t : Tracker Int Int :=
  { grains := [(0, grainI 0 0 [segI 0 5]), (1, grainI 1 0 [segI 20 5]), (2, grainI 2 0 [segI 40 5])],
    oldGrains := [], lookup := [[(some 0, 0), (some 1, 0), (some 2, 0)]] }
/-- detected: 0 and 1 are swapped, 2 is new and strong, 3 is weak, 4 continues 2 -/
def d : Detection Int Int :=
  { grains := [(0, grainI 0 0 [segI 20 6]), (1, grainI 1 0 [segI 0 5]), (2, grainI 2 0 [segI 80 5]),
      (3, grainI 3 0 [segI 100 5 1]), (4, grainI 4 0 [segI 41 4])],
    lookup := [[(some 0, 0), (some 1, 0), (some 2, 0), (some 3, 0), (some 4, 0)]] }
def cfg (allow : Bool) : TrackCfg Int := { thresholdNew := 5, allowNew := allow }

example : TrackPre t d 1 := by
  refine ⟨by decide, by decide, by decide, by decide, by decide, ?_⟩
  intro op es h e he
  have hop : op < 1 := by
    obtain ⟨h, -⟩ := List.getElem?_eq_some_iff.1 h
    exact h
  have : op = 0 := by omega
  subst this
  simp [d] at h
  subst h
  simp only [List.mem_cons, List.not_mem_nil, or_false] at he
  rcases he with rfl | rfl | rfl | rfl | rfl <;> exact ⟨_, _, rfl, rfl, rfl⟩

/-- the swap 0↔1, the new grain 3, the dropped grain and the continued one -/
example : (trackMatch gI queryI (cfg true) t d 1).1.lookup =
    [[(some 1, 0), (some 0, 0), (some 3, 0), (none, 0), (some 2, 0)]] := by decide +kernel
example : ((trackMatch gI queryI (cfg true) t d 1).1.grains.map fun p => (p.1, p.2.dynamics)) =
    [(0, .shrinking), (1, .growing), (2, .shrinking), (3, .none)] := by decide +kernel
example : (trackMatch gI queryI (cfg true) t d 1).2 = .ok () := by decide +kernel
example : (trackMatch gI queryI (cfg false) t d 1).2 = .exc .grainsInconsistency := by
  decide +kernel
end Ex02

/-- Finding: identifiers are unique among the present grains but not over the history. Grain 1 of the
first call vanishes; a later new grain gets the identifier 1 again. -/
theorem C02_ids_reused_over_history :
    ∃ (t : Tracker Int Int) (d1 d2 : Detection Int Int) (cfg : TrackCfg Int),
      TrackPre t d1 1 ∧
      (t.grains.get? 1).map (·.segments) = some [segI 20 5] ∧
      (trackMatch gI queryI cfg t d1 1).2 = .ok () ∧
      (trackMatch gI queryI cfg t d1 1).1.grains.get? 1 = none ∧
      (trackMatch gI queryI cfg (trackMatch gI queryI cfg t d1 1).1 d2 1).2 = .ok () ∧
      ((trackMatch gI queryI cfg (trackMatch gI queryI cfg t d1 1).1 d2 1).1.grains.get? 1).map
        (·.segments) = some [segI 90 5] := by
  refine ⟨{ grains := [(0, grainI 0 0 [segI 0 5]), (1, grainI 1 0 [segI 20 5])], oldGrains := [],
            lookup := [] },
          { grains := [(0, grainI 0 0 [segI 0 5])], lookup := [[(some 0, 0)]] },
          { grains := [(0, grainI 0 0 [segI 0 5]), (1, grainI 1 0 [segI 90 5])],
            lookup := [[(some 0, 0), (some 1, 0)]] },
          { thresholdNew := 5, allowNew := true }, ?_, by decide +kernel, by decide +kernel,
          by decide +kernel, by decide +kernel, by decide +kernel⟩
  refine ⟨by decide, by decide, by decide, by decide, by decide, ?_⟩
  intro op es h e he
  have hop : op < 1 := by
    obtain ⟨h, -⟩ := List.getElem?_eq_some_iff.1 h
    exact h
  have : op = 0 := by omega
  subst this
  simp at h
  subst h
  simp only [List.mem_cons, List.not_mem_nil, or_false] at he
  subst he
  exact ⟨_, _, rfl, rfl, rfl⟩

/-! ## C05 -/

/-- **C05 is violated.** A tracking call that raises the inconsistency exception leaves the table of
grains changed: grains that were not re-detected are lost, and a retry on the very configuration the
old table describes (which succeeds from the state before the failed call) fails as well. -/
theorem C05_violated :
    ∃ (t : Tracker Int Int) (bad good : Detection Int Int) (cfg : TrackCfg Int),
      (trackMatch gI queryI cfg t bad 1).2 = .exc .grainsInconsistency ∧
      (trackMatch gI queryI cfg t bad 1).1.grains ≠ t.grains ∧
      (trackMatch gI queryI cfg t good 1).2 = .ok () ∧
      (trackMatch gI queryI cfg (trackMatch gI queryI cfg t bad 1).1 good 1).2 =
        .exc .grainsInconsistency := by
  refine ⟨{ grains := [(0, grainI 0 0 [segI 0 5]), (1, grainI 1 0 [segI 20 5])], oldGrains := [],
            lookup := [] },
          { grains := [(0, grainI 0 0 [segI 0 5]), (1, grainI 1 0 [segI 90 5])],
            lookup := [[(some 0, 0), (some 1, 0)]] },
          { grains := [(0, grainI 0 0 [segI 0 5]), (1, grainI 1 0 [segI 20 5])],
            lookup := [[(some 0, 0), (some 1, 0)]] },
          { thresholdNew := 5, allowNew := false }, ?_⟩
  decide +kernel

/-- **C05, what holds.** On every outcome, also the exceptional one, the previous table is available as
`old_grains`. Missing with respect to C05: `grains` itself is not restored (see `C05_violated`). -/
theorem C05_old_grains_kept_partial (G : Geometry P K) (query : List (P × K) → P × K → List Nat)
    (cfg : TrackCfg K) (t : Tracker P K) (d : Detection P K) (n : Nat) :
    (trackMatch G query cfg t d n).1.oldGrains = t.grains := by
  unfold trackMatch
  cases transferGrainIds G query d.grains t.grains n with
  | ok m =>
    simp only [trackWith]
    split
    · split
      · rfl
      · split <;> rfl
    · rfl
  | exc e => rfl
  | ub => rfl

example : (trackMatch gI queryI (Ex02.cfg false) Ex02.t Ex02.d 1).1.oldGrains = Ex02.t.grains :=
  C05_old_grains_kept_partial _ _ _ _ _ _

end Verif.Props
