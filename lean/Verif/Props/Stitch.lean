import Mathlib.Algebra.Order.Ring.Rat
import Mathlib.Tactic.IntervalCases
import Verif.Lemmas.MaxVal
import Verif.Props.Flood
/-!
# Stitching over the ranks (C13) and particle maxima (C14)
-/
namespace Verif.Props
open Verif Spec

/-- **C13.** The iterative stitching ends (at most `N² + 1` exchanges for `N` local particles), without
undefined behaviour and without violating its assertion, for every number of ranks, every distribution
of the particles and every order of message delivery; the numbers are `0..n-1` and equal exactly for
particles joined by chains of contacts. -/
theorem C13_stitching {sizes : List Nat} {input : List (List GId)} (hC : ContactLists sizes input)
    {order : Nat → List (GId × List GId) → List (GId × List GId)} (ho : ∀ k l, (order k l).Perm l)
    {orderN : List (GId × Nat) → List (GId × Nat)} (hN : ∀ l, (orderN l).Perm l) {fuel : Nat}
    (hf : sizes.sum * sizes.sum < fuel) :
    ∃ labels n, stitch sizes order orderN fuel input = some (.ok (labels.map some)) ∧
      IsStitching input labels n := by
  obtain ⟨st, e, I, B, F⟩ := fpLoop_ok (same_equiv input) ho fuel 0 input (init_inv hC) (by omega)
  obtain ⟨labels, n, e2, h⟩ := numberCliques_ok hC I B F hN
  exact ⟨labels, n, by rw [stitch, e]; simp [e2], h⟩

/-- **C13**, variant with a graph on rank 0, for every routine computing connected components: every
rank gets as many numbers as it has particles, and together they form a correct numbering. -/
theorem C13_graph {cc : CCFun} (hcc : CCContract cc) {edgesIn : List (List (List GId))}
    (hpos : 0 < edgesIn.flatten.length)
    (hE : ∀ g q, Touches edgesIn.flatten g q → q < edgesIn.flatten.length) :
    ∃ cols n, stitchGraph cc edgesIn = .ok cols ∧ cols.map List.length = edgesIn.map List.length ∧
      IsStitching edgesIn.flatten cols.flatten n := by
  obtain ⟨h1, h2⟩ := gather_spec edgesIn
  have hc := hcc (gatherEdges edgesIn).1 (gatherEdges edgesIn).2 (by
    intro e he
    have ht := (h2 e).1 he
    rw [h1]
    obtain ⟨l, x, hl, -, -⟩ := ht
    exact ⟨(List.getElem?_eq_some_iff.1 hl).1, hE _ _ ((h2 e).1 he)⟩)
  refine ⟨(List.range edgesIn.length).map fun r =>
    (((cc (gatherEdges edgesIn).1 (gatherEdges edgesIn).2).1).drop
      (offsetOf (edgesIn.map List.length) r)).take ((edgesIn.map List.length).getD r 0),
    (cc (gatherEdges edgesIn).1 (gatherEdges edgesIn).2).2, ?_, ?_, ?_⟩
  · rw [stitchGraph]
    simp only
    rw [if_neg (by omega)]
  · apply List.ext_getElem?
    intro r
    rw [List.getElem?_map, List.getElem?_map, List.getElem?_map]
    by_cases hr : r < edgesIn.length
    · rw [List.getElem?_range hr]
      simp only [Option.map_some, List.length_take, List.length_drop, hc.length,
        List.getD_eq_getElem?_getD, List.getElem?_map, List.getElem?_eq_getElem hr, Option.getD_some,
        Option.some.injEq]
      have h3 : offsetOf (edgesIn.map List.length) r + edgesIn[r].length ≤ edgesIn.flatten.length := by
        have e1 : offsetOf (edgesIn.map List.length) (r + 1) =
            offsetOf (edgesIn.map List.length) r + edgesIn[r].length := by
          rw [offsetOf_succ]; simp [List.getD, hr]
        rw [← e1, offsetOf, List.length_flatten]
        conv => rhs; rw [← List.take_append_drop (r + 1) (edgesIn.map List.length), List.sum_append]
        omega
      rw [h1]
      omega
    · rw [List.getElem?_eq_none (by simpa using hr), List.getElem?_eq_none (by simpa using hr)]
      rfl
  · rw [show edgesIn.length = (edgesIn.map List.length).length by simp, slices_flatten]
    have : offsetOf (edgesIn.map List.length) (edgesIn.map List.length).length =
        edgesIn.flatten.length := by
      rw [offsetOf, List.take_length, List.length_flatten]
    rw [this, List.take_of_length_le (by rw [hc.length, h1])]
    have hlink : ∀ v w, Linked (gatherEdges edgesIn).2 v w ↔ SameParticle edgesIn.flatten v w := by
      intro v w
      have : (fun a b => (a, b) ∈ (gatherEdges edgesIn).2) = Touches edgesIn.flatten := by
        funext a b; exact propext (h2 (a, b))
      rw [Linked, SameParticle, this]
    refine ⟨by rw [hc.length, h1], hc.lt, hc.surj, ?_⟩
    intro v w a b hv hw
    rw [← hlink]
    exact hc.iff v w a b hv hw

/-- **C13**, the default variant when no rank has any particle: `connected_components` evaluates `c[0]`
of an empty vector. -/
theorem C13_graph_empty_ub (cc : CCFun) {edgesIn : List (List (List GId))}
    (h : edgesIn.flatten.length = 0) : stitchGraph cc edgesIn = .ub := by
  rw [stitchGraph]
  simp only
  rw [if_pos (by rw [(gather_spec edgesIn).1]; exact h)]

/-- **C13.** The number of particles computed from the numbers is the number of groups. -/
theorem C13_count {input : List (List GId)} {ids : List (List Nat)} {n : Nat}
    (h : IsStitching input ids.flatten n) : nStitched ids = n := by
  have hmax : ∀ (l : List Nat) (a : Nat), (∀ x ∈ l, x ≤ l.foldl max a) ∧ a ≤ l.foldl max a ∧
      (l.foldl max a = a ∨ l.foldl max a ∈ l) := by
    intro l
    induction l with
    | nil => intro a; simp
    | cons x l ih =>
      intro a
      obtain ⟨h1, h2, h3⟩ := ih (max a x)
      rw [List.foldl_cons]
      refine ⟨?_, by omega, ?_⟩
      · intro y hy
        rcases List.mem_cons.1 hy with rfl | hy
        · omega
        · exact h1 y hy
      · rcases h3 with h3 | h3
        · rcases Nat.le_total a x with h | h
          · right; rw [h3]; simp [Nat.max_eq_right h]
          · left; rw [h3]; exact Nat.max_eq_left h
        · right; simp [h3]
  unfold nStitched
  rw [← List.length_flatten]
  split
  · rename_i h0
    by_contra hn
    obtain ⟨v, hv⟩ := h.surj 0 (by omega)
    have := (List.getElem?_eq_some_iff.1 hv).1
    omega
  · rename_i h0
    have hmem : ∀ x, x ∈ ids.flatten ↔ x < n := by
      intro x
      constructor
      · intro hx
        obtain ⟨v, hv, he⟩ := List.mem_iff_getElem.1 hx
        exact h.lt v x (by rw [List.getElem?_eq_getElem hv, he])
      · intro hx
        obtain ⟨v, hv⟩ := h.surj x hx
        exact List.mem_of_getElem? hv
    have hne : 0 < n := by
      cases hids : ids.flatten with
      | nil => rw [hids] at h0; simp at h0
      | cons x l =>
        have : x < n := (hmem x).1 (by rw [hids]; simp)
        omega
    obtain ⟨g1, g2, g3⟩ := hmax (ids.map (fun l => l.foldl max 0)) 0
    have hup : n - 1 ≤ (ids.map (fun l => l.foldl max 0)).foldl max 0 := by
      obtain ⟨l, hl, hx⟩ := List.mem_flatten.1 ((hmem (n - 1)).2 (by omega))
      have := (hmax l 0).1 _ hx
      have := g1 (l.foldl max 0) (List.mem_map.2 ⟨l, hl, rfl⟩)
      omega
    have hlo : (ids.map (fun l => l.foldl max 0)).foldl max 0 < n := by
      rcases g3 with g3 | g3
      · omega
      · obtain ⟨l, hl, he⟩ := List.mem_map.1 g3
        rw [← he]
        rcases (hmax l 0).2.2 with h4 | h4
        · omega
        · exact (hmem _).1 (List.mem_flatten.2 ⟨l, hl, h4⟩)
    omega

variable {K : Type} [LinearOrder K] {M : FMesh K} {thr : K} {active : List Nat} {P : Partition}
  {L : List (LocalParticles K)}

/-- **C13, partition independence.** Whatever the partition of the mesh, local detection followed by
stitching gives two cells of the mesh the same number exactly when they lie in the same connected region
of the whole mesh; exactly the cells exceeding the threshold get a number and the numbers are
`0..n-1`. -/
theorem C13_partition_independent (S : ParallelSetup M thr active P L)
    {order : Nat → List (GId × List GId) → List (GId × List GId)} (ho : ∀ k l, (order k l).Perm l)
    {orderN : List (GId × Nat) → List (GId × Nat)} (hN : ∀ l, (orderN l).Perm l) {fuel : Nat}
    (hf : (localCounts L).sum * (localCounts L).sum < fuel) :
    ∃ labels n, detectParallel P L order orderN fuel = some (.ok (labels.map some)) ∧
      (∀ c ∈ active, Inside (whole M) thr c ↔ ∃ k < n, globalId P L labels c = some k) ∧
      (∀ k < n, ∃ c ∈ active, globalId P L labels c = some k) ∧
      (∀ a ∈ active, ∀ b ∈ active, Inside (whole M) thr a → Inside (whole M) thr b →
        (globalId P L labels a = globalId P L labels b ↔ Connected (whole M) thr a b)) := by
  obtain ⟨conns, e1, e2, e3, hC, hT⟩ := connectivity_ok S
  obtain ⟨labels, n, e4, hS⟩ := C13_stitching hC ho hN hf
  have hlen : labels.length = (localCounts L).sum := by rw [hS.length, hC.length]
  have hid : ∀ c ∈ active, ∀ g, shiftedId P L c = some g → ∃ k, labels[g]? = some k ∧ k < n ∧
      globalId P L labels c = some k := by
    intro c hc g hg
    have hlt : g < labels.length := by rw [hlen]; exact (holds_iff.1 (shiftedId_holds S hc hg)).1
    have := List.getElem?_eq_getElem hlt
    exact ⟨_, this, hS.lt _ _ this, by rw [globalId, hg]; exact this⟩
  refine ⟨labels, n, by rw [detectParallel, e1]; exact e4, ?_, ?_, ?_⟩
  · intro c hc
    rw [shiftedId_ne_none S hc]
    constructor
    · rintro ⟨g, hg⟩
      obtain ⟨k, -, h2, h3⟩ := hid c hc g hg
      exact ⟨k, h2, h3⟩
    · rintro ⟨k, -, hk⟩
      cases hg : shiftedId P L c with
      | none => rw [globalId, hg] at hk; simp at hk
      | some g => exact ⟨g, rfl⟩
  · intro k hk
    obtain ⟨v, hv⟩ := hS.surj k hk
    have hvlt : v < (localCounts L).sum := by rw [← hlen]; exact (List.getElem?_eq_some_iff.1 hv).1
    obtain ⟨h1, h2, h3⟩ := holds_iff.2 (show v < (localCounts L).sum ∧ _ from ⟨hvlt, rfl⟩)
    have hr : rankOf (localCounts L) v < L.length := by simpa [localCounts] using h1
    have hlp := List.getElem?_eq_getElem hr
    have hR := S.regions _ _ hlp
    rw [offsetOf_succ, localCounts_get hlp] at h3
    obtain ⟨c, hc, hcid⟩ := hR.used (v - offsetOf (localCounts L) (rankOf (localCounts L) v)) (by omega)
    have hin : Inside (onRank M P (rankOf (localCounts L) v)) thr c := by
      by_contra hn
      rw [hR.outside c (Or.inl hn)] at hcid
      simp at hcid
    have hown := (inside_onRank.1 hin).2
    have hsh : shiftedId P L c = some v := by
      rw [shiftedId, hown, hlp]
      simp only [hcid, Option.map_some, Option.some.injEq]
      omega
    exact ⟨c, hc, by rw [globalId, hsh]; exact hv⟩
  · intro a ha b hb hia hib
    obtain ⟨g, hg⟩ := (shiftedId_ne_none S ha).1 hia
    obtain ⟨q, hq⟩ := (shiftedId_ne_none S hb).1 hib
    obtain ⟨k, k1, k2, k3⟩ := hid a ha g hg
    obtain ⟨j, j1, j2, j3⟩ := hid b hb q hq
    rw [k3, j3, ← same_iff_connected S hT ha hb hg hq, ← hS.iff g q k j k1 j1]
    simp

namespace Ex13

/-- three ranks with 2, 0 and 3 particles; 0, 1 and 2 belong together -/
def lists : List (List GId) := [[(2, 2)], [(2, 2)], [(0, 0), (0, 1)], [], []]

example : ContactLists [2, 0, 3] lists where
  length := by decide
  sorted := by
    intro g l h
    have : g < 5 := (List.getElem?_eq_some_iff.1 h).1
    interval_cases g <;> (simp [lists] at h; subst h; simp)
  entry := by
    intro g l h
    have : g < 5 := (List.getElem?_eq_some_iff.1 h).1
    interval_cases g <;> (simp [lists] at h; subst h; decide)
  other := by
    intro g l h
    have : g < 5 := (List.getElem?_eq_some_iff.1 h).1
    interval_cases g <;> (simp [lists] at h; subst h; decide)

/-- particles 0, 1 (both on rank 0) are joined through particle 2 on rank 2; messages in reverse order -/
example : stitch [2, 0, 3] (fun _ => List.reverse) List.reverse 26 lists =
    some (.ok [some 0, some 0, some 0, some 1, some 2]) := by decide +kernel

example : stitchGraph ccExec [[[(2, 2)], [(2, 2)]], [], [[(0, 0), (0, 1)], [], []]] =
    .ok [[0, 0], [], [0, 1, 2]] := by decide +kernel

example : nStitched [[0, 0], [], [0, 1, 2]] = 3 := by decide

/-- The condition that lists name particles of other ranks is needed: contacts on the same rank are
not exchanged and the assertion on repeated notification fires. -/
example : stitch [2] (fun _ => id) id 10 [[(0, 1)], []] = some (.exc .assertThrow) := by decide +kernel

/-- four cells in a row; ranks 0, 1, 0, 0 -/
def row4 : FMesh Rat where
  children := fun _ => []
  owned := fun _ => true
  nbrs := fun c => (if c = 0 then [] else [c - 1]) ++ (if c < 3 then [c + 1] else [])
  cellMax := fun c => [5, 4, 2, 0].getD c 0

def part4 : Partition where
  owner := fun c => [0, 1, 0, 0].getD c 0
  faces := fun r => if r = 0 then [(1, 0), (1, 2)] else [(0, 1), (2, 1), (2, 3)]

/-- the local detection on both ranks -/
def local4 : List (LocalParticles Rat) :=
  [⟨fun c => [some 0, none, some 1, none].getD c none, [5, 2]⟩,
   ⟨fun c => [none, some 0, none, none].getD c none, [4]⟩]

/-- `local4` is what the flooding computes -/
example : (detectLocal (onRank row4 part4 0) 0 (-100) 10 (List.range 4)).map
      (fun r => ((List.range 4).map r.ids, r.maxs)) =
    some ([some 0, none, some 1, none], [5, 2]) ∧
  (detectLocal (onRank row4 part4 1) 0 (-100) 10 (List.range 4)).map
      (fun r => ((List.range 4).map r.ids, r.maxs)) = some ([none, some 0, none, none], [4]) := by
  decide +kernel

theorem across4 {a b : Nat} : Across row4 a b ↔ (a ≠ 0 ∧ b = a - 1) ∨ (a < 3 ∧ b = a + 1) := by
  constructor
  · rintro ⟨n, hn, hl⟩
    rw [leafOf_leaf rfl] at hl
    subst hl
    simpa [row4] using hn
  · intro h
    exact ⟨b, by simpa [row4] using h, .leaf rfl⟩

/-- the hypotheses of `C13_partition_independent` are met -/
example : ∃ L, ParallelSetup row4 0 (List.range 4) part4 L := by
  have hreach : ∀ c ∈ List.range 4, ∀ b, Across row4 c b → b ∈ List.range 4 := by
    intro c hc b hb
    rw [across4] at hb
    simp only [List.mem_range] at hc ⊢
    omega
  have hM : ∀ r, MeshOk (onRank row4 part4 r) (List.range 4) (fun _ => 0) 0 := by
    intro r
    refine ⟨List.nodup_range, fun _ _ => rfl, ?_, by simp [row4, onRank], by simp⟩
    intro c hc b hb
    exact hreach c hc b (across_onRank.1 hb)
  have hsym : ∀ a b, Across row4 a b → a < 4 → Across row4 b a := by
    intro a b h
    rw [across4] at h ⊢
    omega
  have hR : ∀ r, ∃ lp, LocalRegions (onRank row4 part4 r) 0 (List.range 4) lp := by
    intro r
    obtain ⟨lp, -, h⟩ := C12_regions (thr := 0) (lowest := 0) (fuel := 5) (hM r) (by
        intro c hc; exact hc.2.2.le) (by
        intro a b ha _ hab
        refine across_onRank.2 (hsym a b (across_onRank.1 hab) ?_)
        by_contra h
        have := ha.2.2
        have e : (onRank row4 part4 r).cellMax a = 0 := by
          simp only [onRank, row4]
          rw [List.getD_eq_getElem?_getD, List.getElem?_eq_none (by simpa using h)]; rfl
        rw [e] at this
        exact lt_irrefl _ this) (by simp)
    exact ⟨lp, h⟩
  obtain ⟨l0, h0⟩ := hR 0
  obtain ⟨l1, h1⟩ := hR 1
  refine ⟨[l0, l1], fun _ _ => rfl, hreach, ?_, ?_, ?_, ?_, ?_⟩
  · intro c hc
    simp only [List.mem_range] at hc
    interval_cases c <;> simp [part4]
  · intro r lp h
    match r with
    | 0 => simp at h; subst h; exact h0
    | 1 => simp at h; subst h; exact h1
    | r + 2 => simp at h
  · intro a ha b _ hab
    exact hsym a b hab (by simpa using ha)
  · intro r p hp
    unfold part4 at hp ⊢
    simp only at hp
    split at hp
    · subst r
      simp only [List.mem_cons, List.not_mem_nil, or_false] at hp
      rcases hp with rfl | rfl <;> decide
    · simp only [List.mem_cons, List.not_mem_nil, or_false] at hp
      rename_i hr
      rcases hp with rfl | rfl | rfl <;> exact ⟨fun h => hr h.symm, by decide, by decide⟩
  · intro g hg c hc hne
    rw [across4]
    simp only [List.mem_range] at hg hc
    interval_cases g <;> interval_cases c <;> simp_all [part4]

/-- The two pieces on rank 0 and the piece on rank 1 are one particle. -/
example : detectParallel part4 local4 (fun _ => id) id 10 = some (.ok [some 0, some 0, some 0]) := by
  decide +kernel

end Ex13

/-! ## C14 -/

/-- the cell values of one rank and the results of its local detection -/
structure RankData (K : Type) where
  ids : Nat → Option Nat
  /-- global numbers of the local particles -/
  l2g : List Nat
  maxs : List K
  owned : List Nat
  val : Nat → K

/-- correct local data (C12) with global numbers below `n` -/
structure RankData.Ok (d : RankData K) (n : Nat) : Prop where
  ids : ∀ c ∈ d.owned, ∀ i, d.ids c = some i → i < d.l2g.length
  length : d.maxs.length = d.l2g.length
  lt : ∀ u ∈ d.l2g, u < n
  maxs : ∀ (i : Nat) (m : K), d.maxs[i]? = some m → (∃ c ∈ d.owned, d.ids c = some i ∧ d.val c = m) ∧
    ∀ c ∈ d.owned, d.ids c = some i → d.val c ≤ m

/-- cell `c` of rank data `d` belongs to particle `u` -/
def RankData.In (d : RankData K) (c u : Nat) : Prop :=
  c ∈ d.owned ∧ ∃ i, d.ids c = some i ∧ d.l2g[i]? = some u

/-- the arguments handed over to `particleMax` -/
def RankData.args (d : RankData K) : (Nat → Option Nat) × List Nat × List K × List Nat :=
  (d.ids, d.l2g, d.maxs, d.owned)

/-- **C14, what holds.** If on every rank different local particles have different global numbers and the
values of particles are not negative, the reported value is the maximum over all cells of the particle
on all ranks. Missing with respect to C14: particles with several pieces on one rank
(`C14_violated`) and negative values (`C14_negative`). -/
theorem C14_max_partial [Zero K] {n : Nat} {ds : List (RankData K)} (hne : ds ≠ [])
    (hok : ∀ d ∈ ds, d.Ok n) (hinj : ∀ d ∈ ds, d.l2g.Nodup)
    (hpos : ∀ d ∈ ds, ∀ c u, d.In c u → 0 ≤ d.val c) :
    ∃ v, particleMax n (ds.map RankData.args) = .ok v ∧ v.length = n ∧
      ∀ (u : Nat) (x : K), v[u]? = some x → (∃ d ∈ ds, ∃ c, d.In c u) →
        (∃ d ∈ ds, ∃ c, d.In c u ∧ d.val c = x) ∧ ∀ d ∈ ds, ∀ c, d.In c u → d.val c ≤ x := by
  have hex : ∀ d : RankData K, ∃ v : List K, d ∈ ds →
      (rankMax d.ids d.l2g d.maxs d.owned (List.replicate n 0) = .ok v ∧ v.length = n ∧
      (∀ u, (∀ c ∈ d.owned, ∀ i, d.ids c = some i → d.l2g[i]? ≠ some u) →
        v[u]? = (List.replicate n (0 : K))[u]?) ∧
      (∀ c ∈ d.owned, ∀ i u, d.ids c = some i → d.l2g[i]? = some u → v[u]? = d.maxs[i]?)) := by
    intro d
    by_cases hd : d ∈ ds
    · obtain ⟨v, h1, h2, h3, h4⟩ := rankMax_ok (init := List.replicate n (0 : K)) (hok d hd).ids
        (hok d hd).length (by simpa using (hok d hd).lt)
      exact ⟨v, fun _ => ⟨h1, by simpa using h2, h3, h4 (hinj d hd)⟩⟩
    · exact ⟨[], fun h => absurd h hd⟩
  choose F hF using hex
  have hmap : (ds.map RankData.args).mapM (fun r => rankMax r.1 r.2.1 r.2.2.1 r.2.2.2
      (List.replicate n 0)) = .ok (ds.map F) := by
    rw [List.mapM_map]
    exact Res.mapM_ok ds (fun d hd => (hF d hd).1)
  obtain ⟨hl, hspec⟩ := allMax_spec (n := n) (ds.map F) (by simpa using hne) (by
    intro v hv
    obtain ⟨d, hd, rfl⟩ := List.mem_map.1 hv
    exact (hF d hd).2.1)
  refine ⟨allMax (ds.map F), ?_, hl, ?_⟩
  · rw [particleMax, hmap]; rfl
  · intro u x hx hex
    obtain ⟨⟨v, hv, hvu⟩, hub⟩ := hspec u x hx
    have hub' : ∀ d ∈ ds, ∀ c, d.In c u → d.val c ≤ x := by
      intro d hd c ⟨hc, i, hi, hu⟩
      have h4 := (hF d hd).2.2.2 c hc i u hi hu
      have him : i < d.maxs.length := by rw [(hok d hd).length]; exact (hok d hd).ids c hc i hi
      rw [List.getElem?_eq_getElem him] at h4
      exact (((hok d hd).maxs i _ (List.getElem?_eq_getElem him)).2 c hc hi).trans
        (hub _ (List.mem_map.2 ⟨d, hd, rfl⟩) _ h4)
    refine ⟨?_, hub'⟩
    obtain ⟨d, hd, rfl⟩ := List.mem_map.1 hv
    by_cases hin : ∃ c, d.In c u
    · obtain ⟨c, hc, i, hi, hu⟩ := hin
      have h4 := (hF d hd).2.2.2 c hc i u hi hu
      rw [hvu] at h4
      obtain ⟨⟨c', hc', hi', hval⟩, -⟩ := (hok d hd).maxs i x h4.symm
      exact ⟨d, hd, c', ⟨hc', i, hi', hu⟩, hval⟩
    · have h3 := (hF d hd).2.2.1 u (by
        intro c hc i hi hu
        exact hin ⟨c, hc, i, hi, hu⟩)
      have hun : u < n := by rw [← hl]; exact (List.getElem?_eq_some_iff.1 hx).1
      rw [hvu, List.getElem?_replicate, if_pos hun] at h3
      have hx0 : x = 0 := by simpa using h3
      obtain ⟨d', hd', c, hc⟩ := hex
      refine ⟨d', hd', c, hc, le_antisymm (hub' d' hd' c hc) ?_⟩
      rw [hx0]
      exact hpos d' hd' c u hc

namespace Ex14
open Ex13

/-- two ranks sharing particle 1 -/
def d0 : RankData Rat := ⟨fun c => [some 0, some 1, some 1].getD c none, [0, 1], [7, 4], [0, 1, 2],
  fun c => [7, 3, 4].getD c 0⟩
def d1 : RankData Rat := ⟨fun c => if c = 3 then some 0 else none, [1], [9], [3, 4],
  fun c => if c = 3 then 9 else 1⟩

example : d1.Ok 2 := by
  refine ⟨?_, rfl, by simp [d1], ?_⟩
  · intro c hc i hi
    simp [d1] at hi ⊢
    omega
  · intro i m hm
    cases i with
    | zero =>
      simp [d1] at hm
      subst hm
      refine ⟨⟨3, by simp [d1]⟩, ?_⟩
      intro c hc hi
      simp [d1] at hc hi ⊢
      simp [hi]
    | succ i => simp [d1] at hm

example : particleMax 2 ([d0, d1].map RankData.args) = .ok [7, 9] := by decide +kernel

/-- rank 0 of the example for C13 -/
def r0 : RankData Rat := ⟨fun c => [some 0, none, some 1, none].getD c none, [0, 0], [5, 2], [0, 2, 3],
  row4.cellMax⟩
def r1 : RankData Rat := ⟨fun c => [none, some 0, none, none].getD c none, [0], [4], [1], row4.cellMax⟩

end Ex14

/-- **C14 is violated.** One particle (cells 0, 1, 2 with values 5, 4, 2) is cut such that rank 0 owns
the two ends. The value reported is 4 instead of 5, since on rank 0 the maximum of the last piece
overwrites that of the first one. On a single rank the value is 5. -/
theorem C14_violated :
    (∃ l, detectParallel Ex13.part4 Ex13.local4 (fun _ => id) id 10 = some (.ok l) ∧
      l = [some 0, some 0, some 0]) ∧
    particleMax 1 ([Ex14.r0, Ex14.r1].map RankData.args) = .ok [4] ∧
    Ex13.row4.cellMax 0 = 5 ∧
    particleMax 1 [((fun c => [some 0, some 0, some 0, none].getD c none), [0], [5], List.range 4)] =
      .ok [(5 : Rat)] := by
  refine ⟨⟨_, ?_, rfl⟩, ?_, ?_, ?_⟩ <;> decide +kernel

/-- **C14.** The vectors to be reduced start with zeros: a particle with negative values is
reported with 0. -/
theorem C14_negative :
    particleMax 1 [((fun c => if c = 0 then some 0 else none), [0], [-1], [0]),
      ((fun _ => none), [], [], [1])] = .ok [(0 : Rat)] := by
  decide +kernel

end Verif.Props
