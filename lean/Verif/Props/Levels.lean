/-
C136: levels of the mesh, multigrid arrays and statistics of the mesh.
-/
import Verif.Lemmas.Levels
import Mathlib.Algebra.Order.Ring.Rat
import Mathlib.Algebra.Field.Rat
import Mathlib.Tactic.Linarith
import Mathlib.Data.List.Induction

namespace Verif.Props

open Verif.Mesh Verif.Levels Verif.Levels.Spec

section
variable {K : Type} [Field K] [LinearOrder K]

/-- In every run no cell becomes finer than allowed: the finest level is at most that of the initial mesh plus the maximum
depth of refinement plus the number of times the depth was increased for the quality of the mesh.
Missing: a mesh of one level with depth 0, see `C121`, where the limit wraps around. -/
theorem C136_levels_partial (vmin vmax : K) (levels0 maxD minD cur k : Nat) (ls : List Nat)
    (h : Reach K vmin vmax levels0 maxD minD cur k ls) (h1 : 1 ≤ levels0) (hw : 2 ≤ levels0 ∨ 1 ≤ maxD)
    (hs : levels0 + maxD + k < 4294967296) : ∀ l ∈ ls, l ≤ levels0 - 1 + maxD + k :=
  (reach_inv vmin vmax levels0 maxD minD cur k ls h h1 hw hs).2

/-- As long as the depth was increased at most once, the multigrid arrays have enough levels.
Missing: from the second increase on they do not, `C136_arrays_violated`. -/
theorem C136_arrays_partial (vmin vmax : K) (levels0 maxD minD cur k : Nat) (ls : List Nat)
    (h : Reach K vmin vmax levels0 maxD minD cur k ls) (h1 : 1 ≤ levels0) (hw : 2 ≤ levels0 ∨ 1 ≤ maxD)
    (hs : levels0 + maxD + 1 < 4294967296) (hk : k ≤ 1) (finest : Nat) (hf : finest ∈ ls) :
    initLevels levels0 maxD finest = .ok () := by
  have := C136_levels_partial vmin vmax levels0 maxD minD cur k ls h h1 hw (by omega) finest hf
  rw [initLevels_eq, if_pos (by omega)]

/-- A mesh of one cell in the interface can be refined as long as the limit allows. -/
theorem reach_refine (vmin vmax : K) (v : K) (hv : vmin < v ∧ v < vmax) (levels0 maxD minD cur k l : Nat)
    (h : Reach K vmin vmax levels0 maxD minD cur k [l]) (hl : l < Schedule.maxLevel levels0 cur) :
    Reach K vmin vmax levels0 maxD minD cur k [l + 1] := by
  refine Reach.amr [⟨l, true, false, false, [[v]]⟩] [l + 1] h rfl ?_
  intro m hm
  rw [List.mem_singleton] at hm
  subst hm
  refine .inr (.inr (.inl ⟨⟨l, true, true, false, [[v]]⟩, ?_, rfl, rfl⟩))
  rw [mark, List.map_map, List.map_singleton, List.mem_singleton]
  have hi : markInterface vmin vmax (⟨l, true, false, false, [[v]]⟩ : Cell K) = ⟨l, true, true, false, [[v]]⟩ := by
    unfold markInterface; simp [markBlocks, anyInside, hv.1, hv.2]
  rw [Function.comp, hi]
  unfold limitLevels
  have a : ¬(l = Schedule.maxLevel levels0 cur) := by omega
  have b : ¬(Schedule.maxLevel levels0 cur < l) := by omega
  simp [a, b]

/-- For all parameters there is a run with two increases of the depth in which the initialisation of the multigrid levels
accesses a level the arrays do not have. -/
theorem C136_arrays_violated (vmin vmax v : K) (hv : vmin < v ∧ v < vmax) (levels0 maxD minD : Nat) (h1 : 1 ≤ levels0)
    (hs : levels0 + maxD + 2 < 4294967296) :
    ∃ cur ls finest, Reach K vmin vmax levels0 maxD minD cur 2 ls ∧ finest ∈ ls ∧ initLevels levels0 maxD finest = .ub := by
  have base : Reach K vmin vmax levels0 maxD minD (maxD + 2) 2 [levels0 - 1] := by
    have h := Reach.more (Reach.more (Reach.start (K := K) (vmin := vmin) (vmax := vmax) (levels0 := levels0) (maxD := maxD)
      (minD := minD) [levels0 - 1] (by simp; omega)))
    have e : ((maxD + 1) % 4294967296 + 1) % 4294967296 = maxD + 2 := by omega
    rw [e] at h
    exact h
  have up : ∀ n, n ≤ maxD + 2 → Reach K vmin vmax levels0 maxD minD (maxD + 2) 2 [levels0 - 1 + n] := by
    intro n
    induction n with
    | zero => intro _; exact base
    | succ n ih =>
      intro hn
      refine reach_refine vmin vmax v hv levels0 maxD minD (maxD + 2) 2 (levels0 - 1 + n) (ih (by omega)) ?_
      unfold Schedule.maxLevel
      omega
  refine ⟨maxD + 2, _, levels0 - 1 + (maxD + 2), up (maxD + 2) (by omega), List.mem_singleton.2 rfl, ?_⟩
  rw [initLevels_eq, if_neg (by omega)]

end

/-- In 2D the theoretical number of fine cells is that of the uniformly refined mesh. -/
theorem C136_cells_partial (coarse levels : Nat) :
    theoreticalCells 2 coarse levels = uniformCells 2 coarse (levels - 1) := by
  rw [uniformCells_eq]; rfl

/-- In 3D it is that of the uniformly refined mesh only if there is one level (or nothing to refine). -/
theorem C136_cells_violated (coarse levels : Nat) :
    theoreticalCells 3 coarse levels = uniformCells 3 coarse (levels - 1) ↔ (coarse = 0 ∨ levels ≤ 1) := by
  rw [uniformCells_eq, theoreticalCells]
  constructor
  · intro h
    by_contra hc
    push Not at hc
    have hlt : (2 * 3) ^ (levels - 1) < (2 ^ 3) ^ (levels - 1) := Nat.pow_lt_pow_left (by norm_num) (by omega)
    have := Nat.mul_lt_mul_of_pos_left hlt (Nat.pos_of_ne_zero hc.1)
    omega
  · rintro (rfl | h)
    · simp
    · rw [show levels - 1 = 0 by omega]; simp

/-- A cell is counted as part of a fine batch exactly if its parent has only active and locally owned children. -/
theorem C136_batch (n : Nat) (parents : List (List Child)) (i : Nat) :
    (unrefined n parents).length = n ∧ ((unrefined n parents)[i]? = some true ↔ i < n ∧ Mergeable parents i) :=
  unrefined_spec n parents i

/-- The number printed for the batches is the number of cells that could be merged. -/
theorem C136_count (n : Nat) (parents : List (List Child)) (p : Nat → Bool) (hp : ∀ i, p i = true ↔ Mergeable parents i) :
    nUnrefined n parents = ((List.range n).filter p).length := by
  have key : ∀ l : List Bool, (l.filter id).length = ((List.range l.length).filter fun i => l[i]? == some true).length := by
    intro l
    induction l using List.reverseRecOn with
    | nil => rfl
    | append_singleton l b ih =>
      rw [List.filter_append, List.length_append, ih, List.length_append, List.length_singleton, List.range_succ,
        List.filter_append, List.length_append]
      congr 1
      · congr 1
        refine List.filter_congr fun i hi => ?_
        rw [List.getElem?_append_left (List.mem_range.1 hi)]
      · cases b <;> simp
  rw [nUnrefined, key, (C136_batch n parents 0).1]
  congr 1
  refine List.filter_congr fun i hi => ?_
  rw [Bool.eq_iff_iff, hp, beq_iff_eq, (C136_batch n parents i).2]
  simp [List.mem_range.1 hi]

section
variable {K : Type} [Field K] [LinearOrder K]

/-- A cell outside of the interface that is not too fine is marked for coarsening exactly if the error estimator wants it and the coarser cell is
allowed. -/
theorem C136_coarsen (vmin vmax : K) (levels0 minD cur : Nat) (c : Cell K) (hr : c.refine = false)
    (hm : markBlocks vmin vmax c.values = false) (hlo : levels0 - 1 ≤ c.level + minD) (hhi : c.level ≤ Schedule.maxLevel levels0 cur) :
    ∃ d, mark vmin vmax (minLevel levels0 minD) (Schedule.maxLevel levels0 cur) [c] = [d] ∧ d.level = c.level ∧
      (d.coarsen = true ↔ c.coarsen = true ∧ 0 < c.level ∧ levels0 - 1 < c.level + minD) := by
  have h1 : markInterface vmin vmax c = c := by
    unfold markInterface
    split
    · rfl
    · rw [if_neg (by simp [hm])]
  refine ⟨_, by rw [mark, List.map_singleton, List.map_singleton, h1], ?_⟩
  unfold limitLevels minLevel
  dsimp only
  have hx : ¬ (c.refine = true ∧ c.level = Schedule.maxLevel levels0 cur) := by simp [hr]
  rw [if_neg hx]
  by_cases h : c.coarsen = true ∧ c.level = levels0 - 1 - min (levels0 - 1) minD
  · rw [if_pos h, if_neg (by simp only; omega)]
    refine ⟨rfl, ?_⟩
    simp only [Bool.false_eq_true, false_iff, not_and, not_lt]
    intro _ h3
    omega
  · rw [if_neg h, if_neg (by omega)]
    refine ⟨rfl, ?_⟩
    constructor
    · intro hc
      refine ⟨hc, ?_⟩
      have : c.level ≠ levels0 - 1 - min (levels0 - 1) minD := fun e => h ⟨hc, e⟩
      omega
    · exact fun h => h.1

/-- One refinement: if no cell is coarser than allowed and none is marked both ways, no new cell is coarser than allowed. -/
theorem C136_coarsest_partial (vmin vmax : K) (levels0 minD cur : Nat) (cells : List (Cell K)) (new : List Nat)
    (hf : ∀ c ∈ cells, ¬ (c.refine = true ∧ c.coarsen = true)) (h : ∀ c ∈ cells, levels0 - 1 ≤ c.level + minD)
    (hw : levels0 + cur < 4294967296)
    (he : Executed (mark vmin vmax (minLevel levels0 minD) (Schedule.maxLevel levels0 cur) cells) new) :
    ∀ l ∈ new, levels0 - 1 ≤ l + minD := by
  have hlow : ∀ c ∈ mark vmin vmax (minLevel levels0 minD) (Schedule.maxLevel levels0 cur) cells,
      levels0 - 1 ≤ c.level + minD ∧ (c.coarsen = true → levels0 - 1 < c.level + minD ∨ c.level = 0) := by
    intro c hc
    rw [mark, List.mem_map] at hc
    obtain ⟨c1, hc1, rfl⟩ := hc
    rw [List.mem_map] at hc1
    obtain ⟨c0, hc0, rfl⟩ := hc1
    have hboth : ¬ ((markInterface vmin vmax c0).refine = true ∧ (markInterface vmin vmax c0).coarsen = true) := by
      unfold markInterface
      split
      · exact hf c0 hc0
      · split
        · simp
        · exact hf c0 hc0
    have hlev : (markInterface vmin vmax c0).level = c0.level := by
      unfold markInterface; split
      · rfl
      · split <;> rfl
    have h0 := h c0 hc0
    rw [← hlev] at h0
    generalize markInterface vmin vmax c0 = d at *
    have hM : Schedule.maxLevel levels0 cur = levels0 - 1 + cur := by unfold Schedule.maxLevel; omega
    unfold limitLevels minLevel
    dsimp only
    by_cases h1 : d.refine = true ∧ d.level = Schedule.maxLevel levels0 cur
    · have hnc : d.coarsen = false := by
        cases hd : d.coarsen
        · rfl
        · exact absurd ⟨h1.1, hd⟩ hboth
      rw [if_pos h1, if_neg (by simp only; omega)]
      exact ⟨h0, fun hc => by simp [hnc] at hc⟩
    · rw [if_neg h1]
      by_cases h2 : d.coarsen = true ∧ d.level = levels0 - 1 - min (levels0 - 1) minD
      · rw [if_pos h2, if_neg (by simp only; omega)]
        exact ⟨h0, fun hc => by simp at hc⟩
      · rw [if_neg h2]
        split
        · refine ⟨h0, fun _ => ?_⟩
          simp only
          omega
        · refine ⟨h0, fun hc => ?_⟩
          have : d.level ≠ levels0 - 1 - min (levels0 - 1) minD := fun e => h2 ⟨hc, e⟩
          omega
  intro l hl
  rcases he l hl with ⟨c, hc, rfl⟩ | ⟨c, hc, hcc, hlc⟩ | ⟨c, hc, _, rfl⟩ | ⟨⟨c, hc, rfl⟩, _⟩
  · exact (hlow c hc).1
  · have := (hlow c hc).2 hcc
    omega
  · have := (hlow c hc).1
    omega
  · have := (hlow c hc).1
    omega

/-- With one level and depth zero, extra coarsening makes the depth the largest number and a cell in the interface can be refined without limit. -/
theorem C136_levels_violated (vmin vmax v : K) (hv : vmin < v ∧ v < vmax) (minD : Nat) :
    ∀ n, n < 4294967296 → Reach K vmin vmax 1 0 minD 4294967295 0 [n] := by
  have h0 : Reach K vmin vmax 1 0 minD 4294967295 0 [0] := .less (.start [0] (by simp))
  intro n
  induction n with
  | zero => exact fun _ => h0
  | succ n ih =>
    intro hn
    exact reach_refine vmin vmax v hv 1 0 minD _ 0 n (ih (by omega)) (by unfold Schedule.maxLevel; omega)

end

namespace Ex136

/-- three cells of the second refined parent could be merged, the first parent has a cell of another rank -/
example : nUnrefined 7 [[some (0, true), some (1, false)], [some (3, true), some (4, true), some (5, true)]] = 3 := by decide

/-- two levels below the initial ones are allowed: a cell at the first of them keeps its mark, one at the second does not -/
example : (mark (1/20 : ℚ) (19/20) (minLevel 4 2) (Schedule.maxLevel 4 1) [⟨2, true, false, true, [[1]]⟩, ⟨1, true, false, true, [[1]]⟩]).map
    (·.coarsen) = [true, false] := by decide +kernel

/-- A run: an initial mesh of two levels is refined once, depth 1. -/
example : Reach ℚ (1/20) (19/20) 2 1 0 1 0 [2] :=
  reach_refine _ _ (1/2) (by norm_num) 2 1 0 1 0 1 (.start [1] (by simp)) (by decide)

/-- Without an increase the limit is kept and the arrays suffice. -/
example : initLevels 2 1 2 = .ok () :=
  C136_arrays_partial (K := ℚ) (1/20) (19/20) 2 1 0 1 0 [2]
    (reach_refine _ _ (1/2) (by norm_num) 2 1 0 1 0 1 (.start [1] (by simp)) (by decide))
    (by omega) (by omega) (by omega) (by omega) 2 (by simp)

/-- With two increases they do not. -/
example : ∃ cur ls finest, Reach ℚ (1/20) (19/20) 2 1 0 cur 2 ls ∧ finest ∈ ls ∧ initLevels 2 1 finest = .ub :=
  C136_arrays_violated (1/20) (19/20) (1/2) (by norm_num) 2 1 0 (by omega) (by omega)

example : theoreticalCells 3 10 3 = 360 ∧ uniformCells 3 10 2 = 640 := by decide

/-- Two refined cells, one with a refined child. -/
example : unrefined 7 [[none, some (0, true), some (1, true), some (2, true)],
    [some (3, true), some (4, true), some (5, true), some (6, true)]] = [false, false, false, true, true, true, true] := by
  decide

end Ex136

end Verif.Props
