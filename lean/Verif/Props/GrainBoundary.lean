import Verif.Lemmas.GrainBoundary
import Mathlib.Algebra.Field.Rat
import Mathlib.Algebra.Order.Ring.Rat
import Mathlib.Tactic.NormNum
/-!
# C119: grain boundaries and their area; C120: the estimate of the overhead
-/
namespace Verif.Props
open Verif.GrainBoundary Verif.GrainBoundary.Spec

section C119
variable {K : Type} [Field K] [LinearOrder K] [IsStrictOrderedRing K]

/-- C119 (partial): the tests made before the marching cubes lose nothing. The mesh of the grain boundaries of a rank
consists of exactly those pieces of the level surfaces of the grains at whose centroid the indicator, the value of the
grain times the sum of the values of the others, is above the limit. The shape functions have to be non-negative, as
those of linear elements. Missing: marching cubes, the map to the unit cell, coarsening and box of the mesh. -/
theorem C119_partial (iso lim : K) (n : Nat) (owned : List (Cell K)) (hs : ∀ c ∈ owned, Sized n c)
    (hl : ∀ c ∈ owned, Level iso c) (hc : ∀ c ∈ owned, ∀ i, ∀ p ∈ c.pieces i, Convex p) :
    boundaryMesh iso lim n owned = owned.flatMap (boundaries lim) :=
  boundaryMesh_spec iso lim n owned hs hl hc

/-- C119: the area is half of the measure of all such pieces whose centre lies in the box, over all ranks. -/
theorem C119_area (iso lim : K) (n : Nat) (filtered : Bool) (ranks : List (List (Cell K)))
    (hs : ∀ r ∈ ranks, ∀ c ∈ r, Sized n c) (hl : ∀ r ∈ ranks, ∀ c ∈ r, Level iso c)
    (hc : ∀ r ∈ ranks, ∀ c ∈ r, ∀ i, ∀ p ∈ c.pieces i, Convex p) :
    boundaryArea iso lim n filtered ranks = total filtered (ranks.flatten.flatMap (boundaries lim)) / 2 := by
  unfold boundaryArea
  rw [ranks_total filtered (boundaries lim) ranks (boundaryMesh iso lim n)
    (fun r hr => boundaryMesh_spec iso lim n r (hs r hr) (hl r hr) (hc r hr))]
  ring

/-- C119: the area does not grow with the limit. -/
theorem C119_antitone (iso lim lim' : K) (hlim : lim ≤ lim') (n : Nat) (filtered : Bool)
    (ranks : List (List (Cell K)))
    (hs : ∀ r ∈ ranks, ∀ c ∈ r, Sized n c) (hl : ∀ r ∈ ranks, ∀ c ∈ r, Level iso c)
    (hc : ∀ r ∈ ranks, ∀ c ∈ r, ∀ i, ∀ p ∈ c.pieces i, Convex p)
    (hm : ∀ r ∈ ranks, ∀ c ∈ r, ∀ i, ∀ p ∈ c.pieces i, 0 ≤ p.measure) :
    boundaryArea iso lim' n filtered ranks ≤ boundaryArea iso lim n filtered ranks := by
  rw [C119_area iso lim n filtered ranks hs hl hc, C119_area iso lim' n filtered ranks hs hl hc]
  refine div_le_div_of_nonneg_right (total_sublist _ _ _ (boundaries_sublist lim lim' hlim _) ?_) (by norm_num)
  intro p hp
  rw [List.mem_flatMap] at hp
  obtain ⟨c, hcm, hp⟩ := hp
  obtain ⟨r, hr, hcr⟩ := List.mem_flatten.mp hcm
  obtain ⟨i, _, hpi⟩ := boundaries_mem lim c p hp
  exact hm r hr c hcr i p hpi

omit [IsStrictOrderedRing K] in
/-- C119: a single grain has no boundaries, whatever the elements are. -/
theorem C119_alone (iso lim : K) (hlim : 0 ≤ lim) (n : Nat) (filtered : Bool) (ranks : List (List (Cell K)))
    (hs : ∀ r ∈ ranks, ∀ c ∈ r, Sized n c) (h1 : ∀ r ∈ ranks, ∀ c ∈ r, c.values.length ≤ 1) :
    boundaryArea iso lim n filtered ranks = 0 := by
  unfold boundaryArea
  rw [ranks_total filtered (fun _ => []) ranks (boundaryMesh iso lim n)]
  · have h : (ranks.flatten.flatMap fun _ => ([] : List (Piece K))) = [] := by rw [List.flatMap_eq_nil_iff]; simp
    rw [h]
    simp [total]
  · intro r hr
    unfold boundaryMesh
    rw [List.flatMap_def, List.flatMap_def]
    congr 1
    refine List.map_congr_left fun c hcm => ?_
    rw [List.flatMap_eq_nil_iff]
    intro i hi
    exact keptPieces_alone iso lim hlim n c (h1 r hr c hcm) i (List.mem_range.mp hi) (hs r hr c hcm).1

omit [LinearOrder K] [IsStrictOrderedRing K] in
/-- C119: the area of the free surface is the measure of all pieces of the level surface of the first block with
centre in the box, over all ranks. -/
theorem C119_surface (filtered : Bool) (ranks : List (List (Cell K))) :
    surfaceArea filtered ranks = total filtered (ranks.flatten.flatMap fun c => c.pieces 0) :=
  ranks_total filtered (fun c : Cell K => c.pieces 0) ranks _ (fun _ _ => rfl)

end C119

namespace Ex119

/-- a linear element with three nodes, two grains -/
def cell : Cell ℚ where
  values := [[9/10, 6/10, 1/10], [1/10, 4/10, 9/10]]
  pieces := fun i => if i = 0 then [⟨[1/10, 6/10, 3/10], 2, true⟩, ⟨[1, 0, 0], 3, true⟩]
    else if i = 1 then [⟨[0, 1/2, 1/2], 4, false⟩] else []

theorem cell_sized : Sized 3 cell := by
  constructor
  · decide +kernel
  · intro i p hp
    simp only [cell] at hp
    split at hp
    · revert p; decide +kernel
    · split at hp
      · revert p; decide +kernel
      · simp at hp

theorem cell_level : Level (1/2) cell := by
  intro i hi _
  have : i = 0 ∨ i = 1 := by simp [cell] at hi; omega
  rcases this with rfl | rfl
  · exact ⟨⟨9/10, by simp [cell], by norm_num⟩, ⟨1/10, by simp [cell], by norm_num⟩⟩
  · exact ⟨⟨9/10, by simp [cell], by norm_num⟩, ⟨1/10, by simp [cell], by norm_num⟩⟩

theorem cell_convex : ∀ i, ∀ p ∈ cell.pieces i, Convex p := by
  intro i p hp
  simp only [cell] at hp
  split at hp
  · simp only [List.mem_cons, List.not_mem_nil, or_false] at hp
    rcases hp with rfl | rfl <;> constructor <;> norm_num
  · split at hp
    · simp only [List.mem_cons, List.not_mem_nil, or_false] at hp
      subst hp
      constructor <;> norm_num
    · simp at hp

/-- one piece of every grain is kept; the area is half of `2 + 4`, with the box half of `2` -/
example : boundaryArea (1/2) (14/100) 3 false [[cell], []] = 3 ∧ boundaryArea (1/2) (14/100) 3 true [[cell], []] = 1 := by
  decide +kernel

example : boundaryMesh (1/2) (14/100) 3 [cell] = [cell].flatMap (boundaries (14/100)) :=
  C119_partial _ _ 3 [cell] (by simpa using cell_sized) (by simpa using cell_level) (by simpa using cell_convex)

example : boundaryArea (1/2) (2/10) 3 false [[cell]] ≤ boundaryArea (1/2) (14/100) 3 false [[cell]] := by
  decide +kernel

/-- an element with a negative value of a shape function at the centroid -/
def curved : Cell ℚ where
  values := [[7/10, 7/10, 1/10], [2/10, 2/10, 0]]
  pieces := fun i => if i = 0 then [⟨[6/10, 6/10, -2/10], 1, true⟩] else []

/-- a single grain -/
def single : Cell ℚ where
  values := [[9/10, 6/10, 1/10]]
  pieces := fun i => if i = 0 then [⟨[1/10, 6/10, 3/10], 2, true⟩] else []

example : boundaryArea (1/2) 0 3 false [[single]] = 0 ∧ surfaceArea false [[single], [cell]] = 7 := by decide +kernel

end Ex119

/-- C119 is violated for elements with negative shape functions: a piece with the indicator above the limit at its
centroid is not found if no nodal value is above the limit. -/
theorem C119_negative_violated :
    ∃ (c : Cell ℚ), Sized 3 c ∧ Level (1/2) c ∧ (∀ i, ∀ p ∈ c.pieces i, p.shape.sum = 1) ∧
      (∃ p ∈ c.pieces 0, 14/100 < valueAt p (boundaryAt c 0)) ∧ boundaryMesh (1/2) (14/100) 3 [c] = [] := by
  refine ⟨Ex119.curved, ⟨by decide +kernel, ?_⟩, ?_, ?_, ?_, ?_⟩
  · intro i p hp
    simp only [Ex119.curved] at hp
    split at hp
    · revert p; decide +kernel
    · simp at hp
  · intro i hi hne
    have h0 : i = 0 := by
      by_contra h
      exact hne (by simp [Ex119.curved, h])
    subst h0
    exact ⟨⟨7/10, by simp [Ex119.curved], by norm_num⟩, ⟨1/10, by simp [Ex119.curved], by norm_num⟩⟩
  · intro i p hp
    simp only [Ex119.curved] at hp
    split at hp
    · simp only [List.mem_cons, List.not_mem_nil, or_false] at hp
      subst hp
      norm_num
    · simp at hp
  · refine ⟨⟨[6/10, 6/10, -2/10], 1, true⟩, by simp [Ex119.curved], ?_⟩
    decide +kernel
  · have h : (boundaryMesh (1/2) (14/100) 3 [Ex119.curved]).length = 0 := by decide +kernel
    exact List.length_eq_zero_iff.mp h

section C120

/-- C120 (partial): the largest number of grains in a cell and the histogram. Entry `k` is the number of cells over all
ranks with exactly `k + 1` grains. Some cell has to contain a grain. Missing: the values of the blocks in a cell,
overflow of the counters. -/
theorem C120_partial (nBlocks : Nat) (hb : 2 ≤ nBlocks) (ranks : List (List (List Bool)))
    (hne : ∀ r ∈ ranks, r ≠ []) (hg : ∃ r ∈ ranks, ∃ c ∈ r, 0 < grainsIn c) :
    ∃ m hist, overheadHistogram nBlocks ranks = .ok (m, hist) ∧
      (∀ r ∈ ranks, ∀ c ∈ r, grainsIn c ≤ m) ∧ (∃ r ∈ ranks, ∃ c ∈ r, grainsIn c = m) ∧ hist.length = m ∧
      ∀ k < m, hist.getD k 0 = (ranks.flatten.filter fun c => grainsIn c = k + 1).length := by
  have hcount : ∀ cells : List (List Bool), cells.map counter = cells.map grainsIn := fun cells =>
    List.map_congr_left fun c _ => counter_spec c
  let cs : List (List Nat) := ranks.map fun cells => cells.map grainsIn
  have hmax : cs.mapM rankLargest = .ok (cs.map fun l => l.foldl max 0) := by
    refine Res.mapM_ok _ fun l hl => ?_
    obtain ⟨r, hr, rfl⟩ := List.mem_map.mp hl
    cases r with
    | nil => exact absurd rfl (hne [] hr)
    | cons c r => simp [rankLargest]
  let m : Nat := (cs.map fun l => l.foldl max 0).foldl max 0
  have hmle : ∀ l ∈ cs, ∀ x ∈ l, x ≤ m := fun l hl x hx =>
    le_trans ((foldl_max_spec l 0).2.1 x hx)
      ((foldl_max_spec (cs.map fun l => l.foldl max 0) 0).2.1 _ (List.mem_map.mpr ⟨l, hl, rfl⟩))
  have hle : ∀ r ∈ ranks, ∀ c ∈ r, grainsIn c ≤ m := fun r hr c hc =>
    hmle _ (List.mem_map.mpr ⟨r, hr, rfl⟩) _ (List.mem_map.mpr ⟨c, hc, rfl⟩)
  have hpos : 0 < m := by
    obtain ⟨r, hr, c, hc, h⟩ := hg
    exact lt_of_lt_of_le h (hle r hr c hc)
  have hatt : ∃ r ∈ ranks, ∃ c ∈ r, grainsIn c = m := by
    rcases (foldl_max_spec (cs.map fun l => l.foldl max 0) 0).2.2 with h | h
    · exact absurd h hpos.ne'
    · obtain ⟨l, hl, he⟩ := List.mem_map.mp h
      obtain ⟨r, hr, rfl⟩ := List.mem_map.mp hl
      rcases (foldl_max_spec (r.map grainsIn) 0).2.2 with h2 | h2
      · exact absurd (he.symm.trans h2) hpos.ne'
      · obtain ⟨c, hc, hce⟩ := List.mem_map.mp h2
        exact ⟨r, hr, c, hc, hce.trans he⟩
  let H : List Nat → List Nat := fun l => (List.range m).map fun k => l.count (k + 1)
  have hH : ∀ l, (H l).length = m := fun l => by simp [H]
  have hHk : ∀ l, ∀ k < m, (H l).getD k 0 = l.count (k + 1) := fun l k hk => by
    rw [List.getD_eq_getElem _ _ (by rw [hH]; exact hk)]; simp [H]
  have hhist : cs.mapM (fun l => l.foldlM tally (List.replicate m 0)) = .ok (cs.map H) := by
    refine Res.mapM_ok _ fun l hl => ?_
    obtain ⟨h', e, hl', hk'⟩ := tally_fold m l (hmle l hl) (List.replicate m 0) (by simp)
    rw [e]
    congr 1
    refine List.ext_getElem (by rw [hl', hH]) fun k h1 h2 => ?_
    have hk : k < m := by rw [← hl']; exact h1
    have := hk' k hk
    rw [List.getD_eq_getElem _ _ h1, List.getD_eq_getElem _ _ (by simpa using hk), List.getElem_replicate,
      Nat.zero_add] at this
    rw [this]
    simp [H]
  obtain ⟨htl, htk⟩ := hist_sum m (cs.map H) (by intro h hh; obtain ⟨l, _, rfl⟩ := List.mem_map.mp hh; exact hH l)
    (List.replicate m 0) (by simp)
  refine ⟨m, (cs.map H).foldl (fun a b => List.zipWith (· + ·) a b) (List.replicate m 0), ?_, hle, hatt, htl, ?_⟩
  · unfold overheadHistogram
    rw [if_neg (by omega)]
    simp only [hcount]
    change (cs.mapM rankLargest >>= _) = _
    rw [hmax, Res.ok_bind]
    change (cs.mapM (fun l => l.foldlM tally (List.replicate m 0)) >>= _) = _
    rw [hhist, Res.ok_bind]
    rw [Res.index_ok (by rw [htl]; exact hpos)]
    rfl
  · intro k hk
    rw [htk k hk, List.getD_eq_getElem _ _ (by simpa using hk), List.getElem_replicate, Nat.zero_add, List.map_map]
    have h1 : (cs.map ((fun x => x.getD k 0) ∘ H)) = cs.map fun l => l.count (k + 1) :=
      List.map_congr_left fun l _ => hHk l k hk
    rw [h1]
    exact count_ranks k ranks

/-- C120: with no grain anywhere the first entry of an empty vector is read, and with fewer than two blocks the loop
runs over blocks that do not exist. -/
theorem C120_undefined (nBlocks : Nat) (ranks : List (List (List Bool))) (hne : ∀ r ∈ ranks, r ≠ [])
    (h : nBlocks < 2 ∨ ∀ r ∈ ranks, ∀ c ∈ r, grainsIn c = 0) : overheadHistogram nBlocks ranks = .ub := by
  unfold overheadHistogram
  by_cases hb : nBlocks < 2
  · rw [if_pos hb]
  rw [if_neg hb]
  have h0 := h.resolve_left hb
  have hcount : ranks.map (fun cells => cells.map counter) = ranks.map fun cells => cells.map fun _ => 0 :=
    List.map_congr_left fun r hr => List.map_congr_left fun c hc => (counter_spec c).trans (h0 r hr c hc)
  dsimp only
  rw [hcount]
  have hz : ∀ l : List (List Bool), (l.map fun _ => 0).foldl max 0 = 0 := fun l => by
    induction l with
    | nil => rfl
    | cons a l ih => simpa using ih
  have hmax : (ranks.map fun cells => cells.map fun _ => 0).mapM rankLargest =
      .ok ((ranks.map fun cells => cells.map fun _ => 0).map fun l => l.foldl max 0) := by
    refine Res.mapM_ok _ fun l hl => ?_
    obtain ⟨r, hr, rfl⟩ := List.mem_map.mp hl
    cases r with
    | nil => exact absurd rfl (hne [] hr)
    | cons c r => simp [rankLargest]
  rw [hmax, Res.ok_bind]
  have hm0 : ((ranks.map fun cells => cells.map fun _ => 0).map fun l => l.foldl max 0).foldl max 0 = 0 := by
    rw [List.map_map]
    clear hne h h0 hcount hmax
    induction ranks with
    | nil => rfl
    | cons r ranks ih =>
      rw [List.map_cons, List.foldl_cons]
      simp only [Function.comp]
      rw [hz]
      simpa using ih
  rw [hm0]
  have hhist : (ranks.map fun cells => cells.map fun _ => 0).mapM
      (fun cs => cs.foldlM tally (List.replicate 0 0)) =
      .ok ((ranks.map fun cells => cells.map fun _ => 0).map fun _ => []) := by
    refine Res.mapM_ok _ fun l hl => ?_
    obtain ⟨r, _, rfl⟩ := List.mem_map.mp hl
    clear hl
    rename_i hr
    clear hr
    induction r with
    | nil => rfl
    | cons c r ih => rw [List.map_cons, List.foldlM_cons]; exact ih
  rw [hhist, Res.ok_bind]
  have htot : ∀ hs : List (List Nat),
      (hs.foldl (fun a b => List.zipWith (· + ·) a b) (List.replicate 0 0) : List Nat) = [] := fun hs => by
    induction hs with
    | nil => rfl
    | cons h hs ih => rw [List.foldl_cons]; simpa using ih
  rw [htot]
  rfl

/-- C120 is violated for operators whose order parameters start at the first block: the first two grains are left
out. The driver calls it for every operator. -/
theorem C120_first_two_violated :
    ∃ ranks : List (List (List Bool)), (∃ r ∈ ranks, ∃ c ∈ r, (c.filter id).length = 3) ∧
      overheadHistogram 3 ranks = .ok (1, [1]) :=
  ⟨[[[true, true, true]]], by simp, rfl⟩

/-- C120: the estimate is the ratio of the numbers of cells, in percent above one, rounded down. It is not negative
if no mesh of a block is finer than the common mesh, and zero if they are all as fine. -/
theorem C120_overhead (n0 : Nat) (h0 : 0 < n0) (reduced : List Nat) :
    let total := reduced.sum + 2 * n0
    let nBlocks := reduced.length + 2
    (overhead n0 nBlocks reduced + 100) * total ≤ 100 * (n0 * nBlocks) ∧
    100 * ((n0 * nBlocks : Nat) : Int) < (overhead n0 nBlocks reduced + 101) * total ∧
    ((∀ x ∈ reduced, x ≤ n0) → 0 ≤ overhead n0 nBlocks reduced) ∧
    ((∀ x ∈ reduced, x = n0) → overhead n0 nBlocks reduced = 0) := by
  have hfold : ∀ (l : List Nat) (a : Nat), l.foldl (· + ·) a = a + l.sum := by
    intro l
    induction l with
    | nil => simp
    | cons x l ih => intro a; rw [List.foldl_cons, ih, List.sum_cons, Nat.add_assoc]
  have hsumle : ∀ l : List Nat, (∀ x ∈ l, x ≤ n0) → l.sum ≤ l.length * n0 := by
    intro l
    induction l with
    | nil => simp
    | cons x l ih =>
      intro h
      have h1 := h x List.mem_cons_self
      have h2 := ih fun y hy => h y (List.mem_cons_of_mem _ hy)
      rw [List.sum_cons, List.length_cons, Nat.succ_mul]
      omega
  have hsumeq : ∀ l : List Nat, (∀ x ∈ l, x = n0) → l.sum = l.length * n0 := by
    intro l
    induction l with
    | nil => simp
    | cons x l ih =>
      intro h
      have h1 := h x List.mem_cons_self
      have h2 := ih fun y hy => h y (List.mem_cons_of_mem _ hy)
      rw [List.sum_cons, List.length_cons, Nat.succ_mul]
      omega
  dsimp only
  have hov : overhead n0 (reduced.length + 2) reduced =
      ((n0 * (reduced.length + 2) * 100 / (reduced.sum + 2 * n0) : Nat) : Int) - 100 := by
    unfold overhead; rw [hfold, Nat.zero_add]
  have hpos : 0 < reduced.sum + 2 * n0 := by omega
  have hq1 := Nat.div_mul_le_self (n0 * (reduced.length + 2) * 100) (reduced.sum + 2 * n0)
  have hq2 := Nat.lt_div_mul_add (a := n0 * (reduced.length + 2) * 100) hpos
  rw [← Nat.succ_mul] at hq2
  have hmul : n0 * (reduced.length + 2) = reduced.length * n0 + 2 * n0 := by ring
  refine ⟨?_, ?_, ?_, ?_⟩
  · rw [hov, Int.sub_add_cancel]
    have : ((n0 * (reduced.length + 2) * 100 / (reduced.sum + 2 * n0) : Nat) : Int) *
        ((reduced.sum + 2 * n0 : Nat) : Int) ≤ ((n0 * (reduced.length + 2) * 100 : Nat) : Int) := by
      exact_mod_cast hq1
    push_cast at this ⊢
    linarith
  · rw [hov]
    have : ((n0 * (reduced.length + 2) * 100 : Nat) : Int) <
        (((n0 * (reduced.length + 2) * 100 / (reduced.sum + 2 * n0) : Nat) : Int) + 1) *
        ((reduced.sum + 2 * n0 : Nat) : Int) := by
      exact_mod_cast hq2
    push_cast at this ⊢
    linarith
  · intro h
    rw [hov]
    have hs := hsumle reduced h
    have : 100 ≤ n0 * (reduced.length + 2) * 100 / (reduced.sum + 2 * n0) := by
      rw [Nat.le_div_iff_mul_le hpos, hmul]
      omega
    omega
  · intro h
    rw [hov]
    have hs := hsumeq reduced h
    have : n0 * (reduced.length + 2) * 100 / (reduced.sum + 2 * n0) = 100 := by
      rw [hmul, hs, Nat.mul_comm, Nat.mul_div_cancel]
      omega
    omega

namespace Ex120

/-- two ranks, four blocks: concentration, chemical potential, two grains; the last cell of a rank is a ghost -/
def ranks : List (List (List Bool)) :=
  [[[true, true, true, false], [true, true, true, true], [false, false, false, false]], [[true, true, false, true]]]

example : overheadHistogram 4 ranks = .ok (2, [2, 1]) := by decide +kernel

example : overheadHistogram 4 [[[true, true, false, false]]] = .ub := by decide +kernel

/-- a hundred cells, two grains with meshes of forty cells -/
example : overhead 100 4 [40, 40] = 42 := by decide +kernel

end Ex120

end C120

end Verif.Props
