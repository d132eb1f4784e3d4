import Verif.Lemmas.Neighbors
import Mathlib.Algebra.Field.Rat
import Mathlib.Algebra.Order.Ring.Rat
import Mathlib.Tactic.NormNum
/-!
# Properties C111–C113: direct neighbours and distances of particles
-/
namespace Verif.Props
open Verif Verif.Wavefront

section
variable {K : Type} [Field K] [LinearOrder K]

/-- **C112 (partial).** The fronts always come to an end, whatever the partition; every void cell connected to
a particle ends in the region of one particle, at a distance that is the length of a chain of cells; a distance
is recorded for exactly the pairs of particles whose regions share a face between two cells of one owner, and
it is the smallest over these faces. If all cells have the same size every cell belongs to a particle nearest
to it. Missing: faces between cells of different owners count as well (false, see
`C112_partition_violated`). -/
theorem C112_partial {M : WMesh} (hM : MeshOk M) {toU : K → Nat} (hU : ∀ n : Nat, toU (n : K) = n) (h : K)
    (pid : Nat → Option Nat) {fuel : Nat} (hf : (M.levels + 1) * (M.cells.length + 1) ≤ fuel) :
    ∃ m marker dist, estimate M toU h pid fuel = some (.ok m) ∧ Coloured M pid marker dist ∧
      (∀ k, Shortest (Meets M h pid marker dist) k (lookup m k)) ∧
      (Uniform M → ∀ q c d, c ∈ M.cells → Front M pid q c d → marker c ≠ none ∧ dist c ≤ d) := by
  have hf1 : M.cells.length < fuel := by
    have : 1 * (M.cells.length + 1) ≤ (M.levels + 1) * (M.cells.length + 1) := Nat.mul_le_mul_right _ (by omega)
    omega
  obtain ⟨marker, aggl, e1, hP⟩ := prepRanks_ok hM pid fuel hf1 M.ranks
  have hG := start_ok (h := h) hM hP
  obtain ⟨s, e2, hG', _, hE⟩ := loop_ok hM fuel M.levels (startState M marker aggl) hG (le_refl _)
    (fun r hr k x hx => by
      have := ((hP.front r hr k x).1 hx).2.2.2
      have hl := hM.levels
      omega)
    (by
      have h1 : unm M (startState (K := K) M marker aggl).marker ≤ M.cells.length := List.countP_le_length
      have h2 := Nat.mul_le_mul_left (M.levels + 1) h1
      have h3 : (M.levels + 1) * (M.cells.length + 1) = (M.levels + 1) * M.cells.length + (M.levels + 1) := by
        rw [Nat.mul_add, Nat.mul_one]
      omega)
  obtain ⟨hC, hK⟩ := coloured_of_end hG' hE hM
  have e3 := merge_ok toU hU ((List.range M.ranks).map fun r => s.found r) []
  rw [List.map_map] at e3
  refine ⟨((List.range M.ranks).map fun r => s.found r).foldl
      (fun m l => l.foldl (fun m e => record m e.1 e.2) m) [], s.marker, s.dist, ?_, hC, fun k => ?_, fun hun q c d hc hF => ?_⟩
  · unfold estimate prepRanks
    rw [e1]
    show (loop M h fuel (startState M marker aggl) >>= _) = _
    rw [e2]
    show some _ = some _
    rw [← e3]; rfl
  · obtain ⟨k1, k2⟩ := hK k
    obtain ⟨g1, g2⟩ := recordss_spec ((List.range M.ranks).map fun r => s.found r) [] k
    refine ⟨fun v hv => ⟨?_, fun v' hv' => ?_⟩, fun hn v hv => ?_⟩
    · rcases g1 v hv with h0 | ⟨l, hl, h0⟩
      · simp [lookup] at h0
      · rw [List.mem_map] at hl
        obtain ⟨r, hr, rfl⟩ := hl
        exact k1 r (List.mem_range.1 hr) v h0
    · obtain ⟨r, hr, w, hw, hle⟩ := k2 v' hv'
      obtain ⟨w', hle', hw'⟩ := g2 w (.inr ⟨s.found r, by
        rw [List.mem_map]; exact ⟨r, List.mem_range.2 hr, rfl⟩, mem_of_lookup hw⟩)
      rw [hv] at hw'
      cases hw'
      exact le_trans hle' hle
    · obtain ⟨r, hr, w, hw, hle⟩ := k2 v hv
      obtain ⟨w', hle', hw'⟩ := g2 w (.inr ⟨s.found r, by
        rw [List.mem_map]; exact ⟨r, List.mem_range.2 hr, rfl⟩, mem_of_lookup hw⟩)
      rw [hn] at hw'
      simp at hw'
  · obtain ⟨k', hI⟩ := loopU_ok hM hun fuel 0 _ s hG (startU_ok hM hun hP) e2
    exact nearest_of_end hM hun hG' hI hC hF hc

/-- **C112.** A recorded distance is the length of an existing way through the void between the two particles
(the particles being separated by void, as flooding makes them). -/
theorem C112_way {M : WMesh} (hM : MeshOk M) {toU : K → Nat} (hU : ∀ n : Nat, toU (n : K) = n) (h : K)
    (pid : Nat → Option Nat) (hsep : ∀ c n p q, Adj M c n → pid c = some p → pid n = some q → p = q)
    {fuel : Nat} (hf : (M.levels + 1) * (M.cells.length + 1) ≤ fuel) :
    ∃ m, estimate M toU h pid fuel = some (.ok m) ∧ ∀ p q v, lookup m (p, q) = some v →
      p < q ∧ ∃ c n d1 d2, Adj M c n ∧ Front M pid p c d1 ∧ Front M pid q n d2 ∧
        v = h * ((d1 + d2 : Int) : K) := by
  obtain ⟨m, marker, dist, e, hC, hS, _⟩ := C112_partial hM hU h pid hf
  refine ⟨m, e, fun p q v hv => ?_⟩
  obtain ⟨c, n, p', q', hc, hmv, ha, ho, hp, hq, hne, hk, hv⟩ := ((hS (p, q)).1 v hv).1
  have hn := hM.closed c hc n ha
  have ha' := hM.symm c hc n ha
  have fc : Front M pid p' c (dist c) := by
    rcases hpc : pid c with _ | x
    · exact hC.reached c hc p' hpc hp
    · have := hC.particle c hc x hpc
      rw [hp] at this; cases this
      rcases hmv with h0 | hs
      · rw [h0] at hpc; simp at hpc
      · rw [hC.zero c hc hs]; exact .start c hpc hs
  have fn : Front M pid q' n (dist n) := by
    rcases hpn : pid n with _ | x
    · exact hC.reached n hn q' hpn hq
    · have := hC.particle n hn x hpn
      rw [hq] at this; cases this
      have hv0 : pid c = none := by
        rcases hpc : pid c with _ | y
        · rfl
        · have h1 := hC.particle c hc y hpc
          rw [hp] at h1; cases h1
          exact absurd (hsep c n _ _ ha hpc hpn) hne
      have hs : Starts M pid n := by
        rcases ha' with h1 | ⟨ch, lv, x, h1, hx, hxa, hxt, hxn⟩
        · exact .same _ c hpn h1 hv0
        · subst hxn; exact .child _ ch lv x hpn h1 hx hxa hxt ho.symm hv0
      rw [hC.zero n hn hs]; exact .start n hpn hs
  rcases Nat.lt_or_ge p' q' with hlt | hge
  · rw [Nat.min_eq_left (by omega), Nat.max_eq_right (by omega)] at hk
    cases hk
    exact ⟨hlt, c, n, _, _, ha, fc, fn, hv⟩
  · rw [Nat.min_eq_right (by omega), Nat.max_eq_left (by omega)] at hk
    cases hk
    exact ⟨by omega, n, c, _, _, ha', fn, fc, by rw [hv, Int.add_comm]⟩

/-- **C112 (one rank).** Without partition every two regions sharing a face are recorded. -/
theorem C112_serial {M : WMesh} (hM : MeshOk M) (h1 : M.ranks = 1) {toU : K → Nat}
    (hU : ∀ n : Nat, toU (n : K) = n) (h : K) (pid : Nat → Option Nat) {fuel : Nat}
    (hf : (M.levels + 1) * (M.cells.length + 1) ≤ fuel) :
    ∃ m marker dist, estimate M toU h pid fuel = some (.ok m) ∧ Coloured M pid marker dist ∧
      ∀ c n p q, c ∈ M.cells → Moves M pid c → Adj M c n → marker c = some p → marker n = some q → p ≠ q →
        ∃ v, lookup m (min p q, max p q) = some v ∧ v ≤ h * ((dist c + dist n : Int) : K) := by
  obtain ⟨m, marker, dist, e, hC, hS, _⟩ := C112_partial hM hU h pid hf
  refine ⟨m, marker, dist, e, hC, fun c n p q hc hmv ha hp hq hne => ?_⟩
  have ho : M.owner n = M.owner c := by
    have := hM.owner c hc
    have := hM.owner n (hM.closed c hc n ha)
    omega
  have hm : Meets M h pid marker dist (min p q, max p q) (h * ((dist c + dist n : Int) : K)) :=
    ⟨c, n, p, q, hc, hmv, ha, ho, hp, hq, hne, rfl, rfl⟩
  rcases hl : lookup m (min p q, max p q) with _ | v
  · exact absurd hm ((hS _).2 hl _)
  · exact ⟨v, rfl, ((hS _).1 v hl).2 _ hm⟩

end

/-! ## Direct neighbours -/

/-- **C111 (partial).** The exchange of neighbours between ranks never reads behind the end of a message; the
relation is symmetric, relates only particles of different order parameters, contains every two particles that
share a cell or a face, and only particles that share a cell, a face or a refined neighbour. Missing: particles
in children of a refined neighbour that do not share the face are not neighbours (false, see
`C111_far_child_violated`). -/
theorem C111_partial {M : WMesh} (hM : MeshOk M) (nOp : Nat) (ids : Nat → Nat → Option Nat) :
    ∃ m, directNeighbors M nOp ids = .ok m ∧
      (∀ a b, Recorded m a b → Recorded m b a) ∧
      (∀ a b, Contact M nOp ids a b → Recorded m a b) ∧
      (∀ a b, Recorded m a b → NearContact M nOp ids a b ∨ NearContact M nOp ids b a) := by
  obtain ⟨m, e, hR⟩ := directNeighbors_ok M nOp ids
  have hswap : ∀ a b, Recorded m a b → Recorded m b a := by
    intro a b hab
    rw [hR] at hab ⊢
    obtain ⟨r, hr, c, hc, ho, i, j, p, q, n, hij, hj, hp, hn, hq, hb⟩ := hab
    refine ⟨r, hr, c, hc, ho, i, j, p, q, n, hij, hj, hp, hn, hq, ?_⟩
    rcases hb with ⟨h1, h2⟩ | ⟨h1, h2⟩
    · exact .inr ⟨h2, h1⟩
    · exact .inl ⟨h2, h1⟩
  have hex : ∀ c ∈ M.cells, ∀ n, (n = c ∨ Adj M c n) → Examined M (M.owner c) c n := by
    rintro c hc n (rfl | ha)
    · exact .inl rfl
    · have hg := hM.ghost c hc n ha
      rcases ha with h | ⟨ch, lv, x, h, hx, hxa, hxt, hxn⟩
      · exact .inr (.inl h)
      · subst hxn; exact .inr (.inr ⟨ch, lv, x, h, hx, hxa, hg, rfl⟩)
  have hone : ∀ a b : Part, a.1 < b.1 → Contact M nOp ids a b → Recorded m a b := by
    rintro ⟨i, p⟩ ⟨j, q⟩ hlt ⟨_, _, hj, c, hc, n, hn, hp, hq⟩
    rw [hR]
    exact ⟨M.owner c, hM.owner c hc, c, hc, rfl, i, j, p, q, n, hlt, hj, hp, hex c hc n hn, hq, .inl ⟨rfl, rfl⟩⟩
  refine ⟨m, e, hswap, fun a b hab => ?_, fun a b hab => ?_⟩
  · rcases Nat.lt_or_ge a.1 b.1 with hlt | hge
    · exact hone a b hlt hab
    · obtain ⟨h1, h2, h3, c, hc, n, hn, hp, hq⟩ := hab
      refine hswap _ _ (hone b a (by omega) ⟨h1.symm, h3, h2, n, ?_, c, ?_, hq, hp⟩)
      · rcases hn with rfl | ha
        · exact hc
        · exact hM.closed c hc n ha
      · rcases hn with rfl | ha
        · exact .inl rfl
        · exact .inr (hM.symm c hc n ha)
  · rw [hR] at hab
    obtain ⟨r, hr, c, hc, ho, i, j, p, q, n, hij, hj, hp, hn, hq, hb⟩ := hab
    have : NearContact M nOp ids (i, p) (j, q) := by
      refine ⟨by simp only [ne_eq]; omega, by simp only; omega, hj, c, hc, n, ?_, hp, hq⟩
      rcases hn with h | h | ⟨ch, lv, x, h, hx, hxa, _, hxn⟩
      · exact .inl h
      · exact .inr (.inl h)
      · exact .inr (.inr ⟨ch, lv, x, h, hx, hxa, hxn⟩)
    rcases hb with ⟨rfl, rfl⟩ | ⟨rfl, rfl⟩
    · exact .inl this
    · exact .inr this

/-- **C111 (meshes without refinement).** The relation is exactly contact, whatever the partition. -/
theorem C111_uniform {M : WMesh} (hM : MeshOk M) (hun : Uniform M) (nOp : Nat) (ids : Nat → Nat → Option Nat) :
    ∃ m, directNeighbors M nOp ids = .ok m ∧ ∀ a b, Recorded m a b ↔ Contact M nOp ids a b := by
  obtain ⟨m, e, h1, h2, h3⟩ := C111_partial hM nOp ids
  have hnc : ∀ a b, NearContact M nOp ids a b → Contact M nOp ids a b := by
    rintro a b ⟨h1, h2, h3, c, hc, n, hn, hp, hq⟩
    refine ⟨h1, h2, h3, c, hc, n, ?_, hp, hq⟩
    rcases hn with h | h | ⟨ch, lv, x, h, _⟩
    · exact .inl h
    · exact .inr (.same h)
    · exact absurd h ((hun c hc).2 ch lv)
  refine ⟨m, e, fun a b => ⟨fun hab => ?_, h2 a b⟩⟩
  rcases h3 a b hab with h | h
  · exact hnc a b h
  · obtain ⟨h1, h2, h3, c, hc, n, hn, hp, hq⟩ := hnc b a h
    refine ⟨h1.symm, h3, h2, n, ?_, c, ?_, hq, hp⟩
    · rcases hn with rfl | ha
      · exact hc
      · exact hM.closed c hc n ha
    · rcases hn with rfl | ha
      · exact .inl rfl
      · exact .inr (hM.symm c hc n ha)

/-! ## Representations -/

section
variable {K : Type} [Field K] [LinearOrder K]

/-- distance of the representations of two particles -/
def repDistance (big : K) (l : Nat → List (PMap K)) (a b : Nat × Nat) : K :=
  Rep.distance big ⟨a, (l a.1).getD a.2 []⟩ ⟨b, (l b.1).getD b.2 []⟩

theorem lookup_ne_none {α : Type} {m : List ((Nat × Nat) × α)} {e : (Nat × Nat) × α} (he : e ∈ m) :
    lookup m e.1 ≠ none := by
  induction m with
  | nil => simp at he
  | cons a m ih =>
    obtain ⟨k, v⟩ := a
    unfold lookup
    by_cases h : k = e.1
    · simp [h]
    · rw [if_neg h]
      rcases List.mem_cons.1 he with rfl | he
      · exact absurd rfl h
      · exact ih he

theorem front_particle {M : WMesh} (hM : MeshOk M) {pid : Nat → Option Nat} {p c : Nat} {d : Int}
    (hF : Front M pid p c d) : ∃ c' ∈ M.cells, pid c' = some p := by
  induction hF with
  | start c hp hs =>
    refine ⟨c, hM.inside c fun e => ?_, hp⟩
    rcases hs with ⟨_, _, _, h, _⟩ | ⟨_, _, _, _, _, h, _, _, _, _, _⟩ <;> rw [e] at h <;> simp at h
  | grow _ _ _ _ _ _ ih => exact ih
  | across c n hp hs ha hn ho => exact ⟨c, adj_inside hM ha, hp⟩

theorem marker_bound {M : WMesh} (hM : MeshOk M) {pid marker : Nat → Option Nat} {dist : Nat → Int}
    (hC : Coloured M pid marker dist) {b : Nat} (hb : ∀ c ∈ M.cells, ∀ p, pid c = some p → p < b) {c p : Nat}
    (hc : c ∈ M.cells) (hp : marker c = some p) : p < b := by
  rcases hpc : pid c with _ | q
  · obtain ⟨c', hc', h'⟩ := front_particle hM (hC.reached c hc p hpc hp)
    exact hb c' hc' p h'
  · have := hC.particle c hc q hpc
    rw [hp] at this; cases this
    exact hb c hc p hpc

open Classical in
/-- **C113 (partial).** For the distances and neighbours found by the two functions the tables of the
representations are filled without writing behind their ends; the distance of two representations is symmetric;
it is the estimated distance within an order parameter, 0 for direct neighbours of different order parameters,
and infinite otherwise. Missing: it is finite for all close particles (false, see
`C113_gap_violated`). -/
theorem C113_partial {M : WMesh} (hM : MeshOk M) {toU : K → Nat} (hU : ∀ n : Nat, toU (n : K) = n) (h big : K)
    (nOp : Nat) (ids : Nat → Nat → Option Nat) (cnt : Nat → Nat)
    (hcnt : ∀ op, ∀ c ∈ M.cells, ∀ p, ids op c = some p → p < cnt op)
    {fuel : Nat} (hf : (M.levels + 1) * (M.cells.length + 1) ≤ fuel) :
    ∃ (est : Nat → PMap K) (dn : NMap) (l : Nat → List (PMap K)),
      (∀ op, estimate M toU h (ids op) fuel = some (.ok (est op))) ∧ directNeighbors M nOp ids = .ok dn ∧
      (∀ op, buildDistances op (cnt op) (est op) dn = .ok (l op) ∧ (l op).length = cnt op) ∧
      (∀ a b, repDistance big l a b = repDistance big l b a) ∧
      (∀ op i j, i ≠ j → repDistance big l (op, i) (op, j) = (lookup (est op) (min i j, max i j)).getD big) ∧
      (∀ a b, a.1 ≠ b.1 → repDistance big l a b = if Recorded dn a b then 0 else big) := by
  obtain ⟨dn, e2, hs, _, hn⟩ := C111_partial hM nOp ids
  have hne : ∀ a b, Recorded dn a b → a.1 ≠ b.1 ∧ a.2 < cnt a.1 := by
    have aux : ∀ a b, NearContact M nOp ids a b → a.1 ≠ b.1 ∧ a.2 < cnt a.1 := by
      rintro a b ⟨h1, _, _, c, hc, n, _, hp, _⟩
      exact ⟨h1, hcnt _ c hc _ hp⟩
    have aux' : ∀ a b, NearContact M nOp ids b a → a.1 ≠ b.1 ∧ a.2 < cnt a.1 := by
      rintro a b ⟨h1, _, _, c, hc, n, hnn, _, hq⟩
      refine ⟨h1.symm, hcnt _ n ?_ _ hq⟩
      rcases hnn with rfl | hs | ⟨ch, lv, x, hs, hx, hxa, rfl⟩
      · exact hc
      · exact hM.closed c hc n (.same hs)
      · exact hM.children c hc ch lv hs x hx hxa
    intro a b hab
    rcases hn a b hab with h | h
    · exact aux a b h
    · exact aux' a b h
  have hest : ∀ op, ∃ m : PMap K, estimate M toU h (ids op) fuel = some (.ok m) ∧
      ∀ e ∈ m, e.1.1 < e.1.2 ∧ e.1.2 < cnt op := by
    intro op
    obtain ⟨m, marker, dist, e, hC, hS, _⟩ := C112_partial hM hU h (ids op) hf
    refine ⟨m, e, fun e he => ?_⟩
    rcases hl : lookup m e.1 with _ | v
    · exact absurd hl (lookup_ne_none he)
    · obtain ⟨c, n, p, q, hc, _, ha, _, hp, hq, hpq, hk, _⟩ := ((hS e.1).1 v hl).1
      have h1 : p < cnt op := marker_bound hM hC (hcnt op) hc hp
      have h2 : q < cnt op := marker_bound hM hC (hcnt op) (hM.closed c hc n ha) hq
      rw [hk]
      simp only
      omega
  choose est hest1 hest2 using hest
  have hb : ∀ op, ∃ l, buildDistances op (cnt op) (est op) dn = .ok l ∧ l.length = cnt op ∧
      ∀ i k, entry l i k = if Recorded dn (op, i) k then some 0 else
        if k.1 = op ∧ i ≠ k.2 then lookup (est op) (pairKey i k.2) else none := by
    intro op
    obtain ⟨l1, a1, n1, p1⟩ := putBoths_ok op (cnt op) (est op) (List.replicate (cnt op) []) (by simp) (hest2 op)
    obtain ⟨l2, a2, n2, p2⟩ := putDirects_ok op (cnt op) dn l1 n1 (fun i b hb => (hne _ _ hb).2)
    have hrep : ∀ i k, entry (List.replicate (cnt op) ([] : PMap K)) i k = none := by
      intro i k
      unfold entry
      rw [List.getD_eq_getElem?_getD, List.getElem?_replicate]
      by_cases hi : i < cnt op <;> simp [hi, lookup]
    refine ⟨l2, ?_, n2, fun i k => ?_⟩
    · unfold buildDistances
      rw [a1]
      exact a2
    · rw [p2, p1, hrep]
      dsimp only
      by_cases hr : Recorded dn (op, i) k
      · rw [if_pos hr, if_pos hr]
        have := (hne _ _ hr).1
        rw [if_neg (fun h => this h.1.symm)]
        rfl
      · rw [if_neg hr, if_neg hr]
  choose l hl1 hl2 hl3 using hb
  have hd : ∀ a b : Nat × Nat, repDistance big l a b = (entry (l a.1) a.2 b).getD big := fun a b => rfl
  refine ⟨est, dn, l, hest1, e2, fun op => ⟨hl1 op, hl2 op⟩, fun a b => ?_, fun op i j hij => ?_, fun a b hab => ?_⟩
  · rw [hd, hd, hl3, hl3]
    by_cases hr : Recorded dn a b
    · rw [if_pos hr, if_pos (hs a b hr)]
    · rw [if_neg hr, if_neg (fun h => hr (hs b a h))]
      obtain ⟨o, i⟩ := a
      obtain ⟨o', j⟩ := b
      by_cases ho : o' = o
      · subst ho
        unfold pairKey
        rw [Nat.min_comm, Nat.max_comm]
        simp only [ne_comm]
      · rw [if_neg (fun h => ho h.1), if_neg (fun h => ho h.1.symm)]
  · rw [hd, hl3, if_neg (fun h => (hne (op, i) (op, j) h).1 rfl), if_pos ⟨rfl, hij⟩]; rfl
  · rw [hd, hl3, if_neg (c := _ ∧ _) (fun h => hab h.1.symm)]
    by_cases hr : Recorded dn a b
    · rw [if_pos hr, if_pos hr]; rfl
    · rw [if_neg hr, if_neg hr]; rfl

/-- **C113 (offset in the output).** The radius printed for a particle is half of the smallest distance to a
particle of the same order parameter, or half of the largest number if there is none. -/
theorem C113_offset (big : K) (a : Rep K) : ∃ m, Rep.offset big a = m / 2 ∧ m ≤ big ∧
    (∀ e ∈ a.distances, e.1.1 = a.key.1 → m ≤ e.2) ∧
    (m = big ∨ ∃ e ∈ a.distances, e.1.1 = a.key.1 ∧ e.2 = m) := by
  refine ⟨_, rfl, ?_⟩
  obtain ⟨key, l⟩ := a
  simp only []
  generalize big = b
  induction l generalizing b with
  | nil => exact ⟨le_refl _, by simp, .inl rfl⟩
  | cons e l ih =>
    rw [List.foldl_cons]
    by_cases h : e.1.1 = key.1 ∧ e.2 < b
    · rw [if_pos h]
      obtain ⟨h1, h2, h3⟩ := ih e.2
      refine ⟨le_trans h1 (le_of_lt h.2), fun x hx hk => ?_, ?_⟩
      · rcases List.mem_cons.1 hx with rfl | hx
        · exact h1
        · exact h2 x hx hk
      · rcases h3 with h3 | ⟨x, hx, h4⟩
        · exact .inr ⟨e, by simp, h.1, h3.symm⟩
        · exact .inr ⟨x, by simp [hx], h4⟩
    · rw [if_neg h]
      obtain ⟨h1, h2, h3⟩ := ih b
      refine ⟨h1, fun x hx hk => ?_, ?_⟩
      · rcases List.mem_cons.1 hx with rfl | hx
        · exact le_trans h1 (not_lt.1 fun hh => h ⟨hk, hh⟩)
        · exact h2 x hx hk
      · rcases h3 with h3 | ⟨x, hx, h4⟩
        · exact .inl h3
        · exact .inr ⟨x, by simp [hx], h4⟩

omit [LinearOrder K] in
/-- **C113 (undefined behaviour).** A particle id that is not below the number of particles makes the loop write
behind the end of the table. -/
theorem C113_id_ub (op : Nat) (p q : Nat) (v : K) (n : Nat) (hp : n ≤ p) (dn : NMap) :
    buildDistances op n [((p, q), v)] dn = .ub := by
  unfold buildDistances
  rw [List.foldlM_cons]
  unfold putBoth putAt
  rw [if_neg (by simp; omega)]
  rfl

end

/-! ## Examples and violations -/

namespace Ex111

/-- conversion of a `double` -/
def toU (x : Rat) : Nat := x.num.toNat

theorem toU_nat (n : Nat) : toU (n : Rat) = n := by simp [toU]

/-- a row of four cells -/
def row : List (List Side) :=
  [[.boundary, .active 1], [.active 0, .active 2], [.active 1, .active 3], [.active 2, .boundary]]

/-- the row on one rank -/
def row1 : WMesh := tableMesh row [0, 0, 0, 0] 1 [0, 0, 0, 0] 1

/-- the row on two ranks -/
def row2 : WMesh := tableMesh row [0, 0, 0, 0] 1 [0, 0, 1, 1] 2

theorem row1_ok : MeshOk row1 := tableMesh_ok _ _ _ _ _ (by decide +kernel)
theorem row2_ok : MeshOk row2 := tableMesh_ok _ _ _ _ _ (by decide +kernel)

theorem row_uniform (own : List Nat) (k : Nat) : Uniform (tableMesh row [0, 0, 0, 0] 1 own k) := by
  intro c hc
  have hc : c < 4 := List.mem_range.1 hc
  have : c = 0 ∨ c = 1 ∨ c = 2 ∨ c = 3 := by omega
  rcases this with rfl | rfl | rfl | rfl <;> refine ⟨rfl, fun ch lv => ?_⟩ <;> simp [tableMesh, row]

/-- particles 0 and 1 at the ends of the row -/
def ends : Nat → Option Nat := fun c => if c = 0 then some 0 else if c = 3 then some 1 else none

/-- result of an estimate as a number -/
def get (r : Option (Res (PMap Rat))) (k : Nat × Nat) : Option (Option Rat) :=
  match r with
  | some (.ok m) => some (lookup m k)
  | _ => none

theorem get_some {r : Option (Res (PMap Rat))} {k : Nat × Nat} {v : Option Rat} (h : get r k = some v) :
    ∃ m, r = some (.ok m) ∧ lookup m k = v := by
  unfold get at h
  split at h
  · exact ⟨_, rfl, by injection h⟩
  · simp at h

example : (row1.levels + 1) * (row1.cells.length + 1) ≤ 10 := by decide
/-- two void cells of size 3 lie between the two particles -/
example : get (estimate row1 toU 3 ends 10) (0, 1) = some (some 6) := by decide +kernel
/-- nothing is recorded for a single particle -/
example : get (estimate row1 toU 3 (fun c => if c = 0 then some 0 else none) 10) (0, 1) = some none := by
  decide +kernel
example : ∀ c n p q, Adj row1 c n → ends c = some p → ends n = some q → p = q := by
  intro c n p q ha hc hn
  have hc' : c = 0 ∨ c = 3 := by unfold ends at hc; split at hc <;> [omega; (split at hc <;> [omega; simp at hc])]
  have := (mem_nbrs (M := row1)).2 ha
  rcases hc' with rfl | rfl
  · have h1 : nbrs row1 0 = [1] := rfl
    rw [h1] at this; simp at this; subst this; simp [ends] at hn
  · have h1 : nbrs row1 3 = [2] := rfl
    rw [h1] at this; simp at this; subst this; simp [ends] at hn

/-- a coarse cell 0 and, to its right, a refined cell with children 1, 2 (lower) and 3, 4 (upper) -/
def mixed : List (List Side) :=
  [[.boundary, .refined [⟨1, true, true⟩, ⟨2, true, false⟩, ⟨3, true, true⟩, ⟨4, true, false⟩] [1, 2, 3, 4],
      .boundary, .boundary],
   [.active 0, .active 2, .boundary, .active 3], [.active 1, .boundary, .boundary, .active 4],
   [.active 0, .active 4, .active 1, .boundary], [.active 3, .boundary, .active 2, .boundary]]

/-- all on one rank -/
def mixed1 : WMesh := tableMesh mixed [0, 1, 1, 1, 1] 2 [0, 0, 0, 0, 0] 1

/-- the coarse cell on another rank than the children -/
def mixed2 : WMesh := tableMesh mixed [0, 1, 1, 1, 1] 2 [0, 1, 1, 1, 1] 2

theorem mixed1_ok : MeshOk mixed1 := tableMesh_ok _ _ _ _ _ (by decide +kernel)
theorem mixed2_ok : MeshOk mixed2 := tableMesh_ok _ _ _ _ _ (by decide +kernel)

/-- a particle of order parameter 0 in the coarse cell, one of order parameter 1 in child 2 -/
def apart : Nat → Nat → Option Nat := fun op c =>
  if op = 0 ∧ c = 0 then some 0 else if op = 1 ∧ c = 2 then some 0 else none

/-- the second particle in child 1 -/
def together : Nat → Nat → Option Nat := fun op c =>
  if op = 0 ∧ c = 0 then some 0 else if op = 1 ∧ c = 1 then some 0 else none

example : Contact mixed1 2 together (0, 0) (1, 0) :=
  ⟨by decide, by decide, by decide, 0, by decide, 1, .inr (mem_nbrs.1 (by decide)), rfl, rfl⟩
example : directNeighbors mixed1 2 together = .ok [((0, 0), [(1, 0)]), ((1, 0), [(0, 0)])] := by decide +kernel
example : directNeighbors mixed2 2 together = .ok [((0, 0), [(1, 0)]), ((1, 0), [(0, 0)])] := by decide +kernel

theorem apart_not_contact (own : List Nat) (k : Nat) :
    ¬ Contact (tableMesh mixed [0, 1, 1, 1, 1] 2 own k) 2 apart (0, 0) (1, 0) := by
  rintro ⟨_, _, _, c, hc, n, hn, hp, hq⟩
  have h1 : c = 0 := by
    unfold apart at hp; by_contra h; simp [h] at hp
  have h2 : n = 2 := by
    unfold apart at hq; by_contra h; simp [h] at hq
  subst h1 h2
  rcases hn with h | h
  · simp at h
  · have := mem_nbrs.2 h
    revert this
    show 2 ∈ [1, 3] → False
    simp

end Ex111

/-- **C111 (violated).** Two particles are direct neighbours although they share neither a cell nor a face: all
active children of a refined neighbour are examined. -/
theorem C111_far_child_violated : ∃ (M : WMesh) (ids : Nat → Nat → Option Nat) (m : NMap), MeshOk M ∧
    directNeighbors M 2 ids = .ok m ∧ Recorded m (0, 0) (1, 0) ∧ ¬ Contact M 2 ids (0, 0) (1, 0) :=
  ⟨Ex111.mixed1, Ex111.apart, [((0, 0), [(1, 0)]), ((1, 0), [(0, 0)])], Ex111.mixed1_ok, by decide +kernel,
    ⟨[(1, 0)], by simp, by simp⟩, Ex111.apart_not_contact _ _⟩

/-- **C111 (violated).** The direct neighbours depend on the partition: such children are skipped if they are
artificial. -/
theorem C111_partition_violated : ∃ (M M' : WMesh) (ids : Nat → Nat → Option Nat) (m m' : NMap),
    MeshOk M ∧ MeshOk M' ∧ M.cells = M'.cells ∧ M.sides = M'.sides ∧ M.level = M'.level ∧
    directNeighbors M 2 ids = .ok m ∧ directNeighbors M' 2 ids = .ok m' ∧
    Recorded m (0, 0) (1, 0) ∧ ¬ Recorded m' (0, 0) (1, 0) :=
  ⟨Ex111.mixed1, Ex111.mixed2, Ex111.apart, [((0, 0), [(1, 0)]), ((1, 0), [(0, 0)])], [], Ex111.mixed1_ok,
    Ex111.mixed2_ok, rfl, rfl, rfl, by decide +kernel, by decide +kernel, ⟨[(1, 0)], by simp, by simp⟩, recorded_nil⟩

/-- **C112 (violated).** Fronts that meet at the boundary between two ranks are never recorded: the same mesh
and the same two particles have a distance on one rank and none on two. -/
theorem C112_partition_violated : ∃ (M M' : WMesh) (pid : Nat → Option Nat) (m m' : PMap Rat),
    MeshOk M ∧ MeshOk M' ∧ Uniform M ∧ M.cells = M'.cells ∧ M.sides = M'.sides ∧ M.level = M'.level ∧
    estimate M Ex111.toU 1 pid 10 = some (.ok m) ∧ estimate M' Ex111.toU 1 pid 10 = some (.ok m') ∧
    lookup m (0, 1) = some 2 ∧ lookup m' (0, 1) = none := by
  have h1 : Ex111.get (estimate Ex111.row1 Ex111.toU 1 Ex111.ends 10) (0, 1) = some (some 2) := by decide +kernel
  have h2 : Ex111.get (estimate Ex111.row2 Ex111.toU 1 Ex111.ends 10) (0, 1) = some none := by decide +kernel
  obtain ⟨m, e1, l1⟩ := Ex111.get_some h1
  obtain ⟨m', e2, l2⟩ := Ex111.get_some h2
  exact ⟨_, _, _, m, m', Ex111.row1_ok, Ex111.row2_ok, Ex111.row_uniform _ _, rfl, rfl, rfl, e1, e2, l1, l2⟩

namespace Ex113

/-- both particles at the ends of the row: of order parameter 0, or of order parameters 0 and 1 -/
def same : Nat → Nat → Option Nat := fun op c => if op = 0 then Ex111.ends c else none
def other : Nat → Nat → Option Nat := fun op c =>
  if op = 0 ∧ c = 0 then some 0 else if op = 1 ∧ c = 3 then some 0 else none

/-- distance of two particles computed by all steps -/
def dist (M : WMesh) (ids : Nat → Nat → Option Nat) (cnt : Nat → Nat) (a b : Nat × Nat) : Option Rat :=
  match estimate M Ex111.toU 1 (ids a.1) 10, directNeighbors M 2 ids with
  | some (.ok est), .ok dn =>
    match buildDistances a.1 (cnt a.1) est dn with
    | .ok l => some (Rep.distance 1000 ⟨a, l.getD a.2 []⟩ ⟨b, []⟩)
    | _ => none
  | _, _ => none

example : ∀ op, ∀ c ∈ Ex111.row1.cells, ∀ p, same op c = some p → p < if op = 0 then 2 else 0 := by
  intro op c _ p hp
  unfold same at hp
  by_cases h : op = 0
  · simp only [h, if_true, Ex111.ends] at hp ⊢
    split at hp
    · cases hp; omega
    · split at hp
      · cases hp; omega
      · simp at hp
  · simp [h] at hp

example : dist Ex111.row1 same (fun op => if op = 0 then 2 else 0) (0, 0) (0, 1) = some 2 := by decide +kernel
example : dist Ex111.mixed1 Ex111.together (fun _ => 1) (0, 0) (1, 0) = some 0 := by decide +kernel
example : (buildDistances 0 1 [((0, 1), (5 : Rat))] []) = .ub := by decide +kernel

/-- offset in the output: half the distance to the nearest particle of the same order parameter -/
example : Rep.offset 1000 (⟨(0, 0), [((1, 0), 0), ((0, 1), 7), ((0, 2), 4)]⟩ : Rep Rat) = 2 := by decide +kernel

end Ex113

/-- **C113 (violated).** Two particles two cells apart have a finite distance if they have the same order
parameter on one rank, but an infinite one if they have different order parameters or if a boundary between
ranks lies between them. -/
theorem C113_gap_violated :
    Ex113.dist Ex111.row1 Ex113.same (fun op => if op = 0 then 2 else 0) (0, 0) (0, 1) = some 2 ∧
    Ex113.dist Ex111.row1 Ex113.other (fun _ => 1) (0, 0) (1, 0) = some 1000 ∧
    Ex113.dist Ex111.row2 Ex113.same (fun op => if op = 0 then 2 else 0) (0, 0) (0, 1) = some 1000 := by
  refine ⟨?_, ?_, ?_⟩ <;> decide +kernel

end Verif.Props
