/-
C141: the estimate of superfluous cells counts the order parameters in every cell, ends, and its percentage is not negative.
-/
import Verif.Lemmas.Overhead
import Mathlib.Algebra.Order.Ring.Rat
import Mathlib.Algebra.Field.Rat
import Mathlib.Data.Fin.VecNotation

namespace Verif.Props

open Verif.Overhead
open Verif.Overhead.Spec

variable {K : Type} [Field K] [LinearOrder K]

/-- With ghost values, for all distributions of the cells: the maximal number of order parameters in a cell and for every number the number of cells are
right; without any order parameter in any cell the access to the first entry is out of range. -/
theorem C141_histogram_partial (th : K) (owner : Nat → Nat) (blocks : List (Nat → K)) (ranks : List Rank) (hb : 2 ≤ blocks.length)
    (hne : ∀ r ∈ ranks, r.owned ≠ [] ∨ r.foreign ≠ 0) :
    ((∃ cell ∈ cells ranks, 0 < present th blocks cell) →
      ∃ m l, maxGrains th owner true blocks ranks = .ok (m, l) ∧ l.length = m ∧ (∃ cell ∈ cells ranks, present th blocks cell = m) ∧
        (∀ cell ∈ cells ranks, present th blocks cell ≤ m) ∧
        ∀ k < m, l[k]? = some ((cells ranks).countP fun cell => present th blocks cell == k + 1)) ∧
    ((∀ cell ∈ cells ranks, present th blocks cell = 0) → maxGrains th owner true blocks ranks = .ub) := by
  rw [maxGrains_ghosted th owner blocks ranks hb hne]
  generalize hm : ((ranks.map (trueCounters th blocks)).map (List.foldl max 0)).foldl max 0 = m
  have hub : ∀ cell ∈ cells ranks, present th blocks cell ≤ m := by
    intro cell hcell
    rcases Nat.eq_zero_or_pos (present th blocks cell) with h0 | h0
    · omega
    · obtain ⟨c, hc, hx⟩ := (mem_counters th blocks ranks _ h0).mpr ⟨cell, hcell, rfl⟩
      have h1 := (le_foldl_max c 0).2 _ hx
      have h2 := (le_foldl_max ((ranks.map (trueCounters th blocks)).map (List.foldl max 0)) 0).2 _ (List.mem_map.mpr ⟨c, hc, rfl⟩)
      omega
  have hat : 0 < m → ∃ cell ∈ cells ranks, present th blocks cell = m := by
    intro hpos
    refine (mem_counters th blocks ranks m hpos).mp ?_
    rcases foldl_max_mem ((ranks.map (trueCounters th blocks)).map (List.foldl max 0)) 0 with h | h
    · omega
    · rw [hm] at h
      obtain ⟨c, hc, hcm⟩ := List.mem_map.mp h
      refine ⟨c, hc, ?_⟩
      rcases foldl_max_mem c 0 with h3 | h3
      · omega
      · rw [hcm] at h3; exact h3
  constructor
  · rintro ⟨cell, hcell, hpos⟩
    have hm0 : 0 < m := lt_of_lt_of_le hpos (hub cell hcell)
    have hl : (histogram (ranks.map (trueCounters th blocks)) m).length = m := by simp [histogram]
    refine ⟨m, histogram (ranks.map (trueCounters th blocks)) m, ?_, hl, hat hm0, hub, ?_⟩
    · rw [Res.index_ok (by rw [hl]; exact hm0)]
      rfl
    · intro k hk
      unfold histogram
      rw [List.getElem?_map, List.getElem?_range hk, Option.map_some, sum_count]
  · intro h0
    have hm0 : m = 0 := by
      by_contra hne0
      obtain ⟨cell, hcell, he⟩ := hat (Nat.pos_of_ne_zero hne0)
      rw [h0 cell hcell] at he
      exact hne0 he.symm
    subst hm0
    rfl

/-- Without ghost values, as the function is called after a refinement: no counter is too large. -/
theorem C141_ghosts [IsStrictOrderedRing K] (th : K) (hth : 0 ≤ th) (owner : Nat → Nat) (ghosted : Bool) (blocks : List (Nat → K)) (i : Nat) (r : Rank) (k : Nat) (cell : List Nat)
    (hk : r.owned[k]? = some cell) : ∃ x, (counters th owner ghosted blocks i r)[k]? = some x ∧ x ≤ present th blocks cell ∧
      ((∀ d ∈ cell, owner d = i) → x = present th blocks cell) := by
  obtain ⟨hlt, he⟩ := List.getElem?_eq_some_iff.mp hk
  refine ⟨(blocks.drop 2).countP fun b => above th owner ghosted i b cell, ?_, ?_, ?_⟩
  · unfold counters
    rw [List.getElem?_append_left (by simpa using hlt), List.getElem?_map, hk]
    rfl
  · refine List.countP_mono_left ?_
    intro b _ h
    unfold above at h
    obtain ⟨d, hd, h⟩ := List.any_eq_true.mp h
    refine List.any_eq_true.mpr ⟨d, hd, ?_⟩
    have h := of_decide_eq_true h
    refine decide_eq_true ?_
    unfold Verif.Overhead.read at h
    split at h
    · exact h
    · rw [abs_zero] at h
      exact absurd h (not_lt.mpr hth)
  · intro hown
    refine List.countP_congr ?_
    intro b _
    unfold above
    have : ∀ d ∈ cell, decide (th < |read owner ghosted i b d|) = decide (th < |b d|) := by
      intro d hd
      simp [Verif.Overhead.read, hown d hd]
    rw [List.any_eq_true, List.any_eq_true]
    constructor
    · rintro ⟨d, hd, h⟩; exact ⟨d, hd, by rw [← this d hd]; exact h⟩
    · rintro ⟨d, hd, h⟩; exact ⟨d, hd, by rw [this d hd]; exact h⟩

/-- The loop ends for every mesh, balance and interpolation: no family is left that could be coarsened, there are not more cells than before, and the number of
passes is bounded by the number of cells removed. -/
theorem C141_loop {n : Nat} (hn : 2 ≤ n) (th : K) (merge : (Fin n → K) → K) (veto : (Fin n → Tree K n) → Bool) (t : Tree K n) :
    ∃ t' k, loop (Tree.coarsen th merge veto) Tree.count (t.count + 1) t = some (t', k) ∧ Stable th veto t' ∧
      0 < t'.count ∧ t'.count ≤ t.count ∧ k ≤ t.count - t'.count + 1 := by
  obtain ⟨t', k, h1, h2, h3, h4⟩ := loop_spec (Tree.coarsen th merge veto) Tree.count (coarsen_le th merge veto (by omega))
    (coarsen_eq th merge veto hn) (t.count + 1) t (by omega)
  exact ⟨t', k, h1, stable_of_fix th merge veto t' h2, count_pos (by omega) t', h3, by omega⟩

/-- The percentage: the cells of all blocks on the common mesh, compared to those on meshes of their own (two of them the common mesh), rounded down; it is not
negative. -/
theorem C141_percentage (n0 : Nat) (h0 : 0 < n0) (ns : List Nat) (hns : ∀ x ∈ ns, x ≤ n0) :
    ∃ p, percentage n0 (ns.sum : Nat) (ns.length + 2) = .ok p ∧ 0 ≤ p ∧
      p * ((ns.sum : Nat) + 2 * n0) ≤ 100 * (n0 * (ns.length + 2) - ((ns.sum : Nat) + 2 * n0)) ∧
      100 * (n0 * (ns.length + 2) - ((ns.sum : Nat) + 2 * n0)) < (p + 1) * ((ns.sum : Nat) + 2 * n0 : Int) := by
  have hsum : ns.sum ≤ n0 * ns.length := by
    clear h0
    induction ns with
    | nil => simp
    | cons x l ih =>
      have h1 := ih fun y hy => hns y (by simp [hy])
      have h2 := hns x (by simp)
      rw [List.sum_cons, List.length_cons, Nat.mul_succ]
      omega
  generalize hA : ns.sum = A at hsum ⊢
  generalize ns.length = L at hsum ⊢
  have hpos : (0 : Int) < (A : Int) + 2 * n0 := by omega
  have hN : ((n0 : Int) * ((L + 2 : Nat) : Int) * 100).tdiv ((A : Int) + 2 * n0) = ((n0 : Int) * ((L + 2 : Nat) : Int) * 100) / ((A : Int) + 2 * n0) := by
    refine Int.tdiv_eq_ediv_of_nonneg ?_
    have h1 : (0 : Int) ≤ n0 := by omega
    have h2 : (0 : Int) ≤ ((L + 2 : Nat) : Int) := by omega
    exact Int.mul_nonneg (Int.mul_nonneg h1 h2) (by omega)
  refine ⟨((n0 : Int) * ((L + 2 : Nat) : Int) * 100) / ((A : Int) + 2 * n0) - 100, ?_, ?_, ?_, ?_⟩
  · unfold percentage
    rw [if_neg (by omega), hN]
  · have h1 : (A : Int) ≤ (n0 : Int) * L := by exact_mod_cast hsum
    have : 100 ≤ ((n0 : Int) * ((L + 2 : Nat) : Int) * 100) / ((A : Int) + 2 * n0) := by
      refine (Int.le_ediv_iff_mul_le hpos).mpr ?_
      have : (n0 : Int) * ((L + 2 : Nat) : Int) = (n0 : Int) * L + 2 * n0 := by push_cast; rw [Int.mul_add]; omega
      rw [this]
      omega
    omega
  · have h1 := Int.ediv_mul_le ((n0 : Int) * ((L + 2 : Nat) : Int) * 100) (ne_of_gt hpos)
    rw [Int.sub_mul]
    push_cast at h1 ⊢
    omega
  · have h1 := Int.lt_ediv_add_one_mul_self ((n0 : Int) * ((L + 2 : Nat) : Int) * 100) hpos
    have h2 : ((n0 : Int) * ((L + 2 : Nat) : Int) * 100) / ((A : Int) + 2 * n0) - 100 + 1 = (((n0 : Int) * ((L + 2 : Nat) : Int) * 100) / ((A : Int) + 2 * n0) + 1) - 100 := by omega
    rw [h2, Int.sub_mul]
    push_cast at h1 ⊢
    omega

namespace Ex141

/-- Two cells of two ranks with a common degree of freedom that belongs to the first one; concentration, potential and two order parameters. -/
def ranks : List Rank := [⟨[[0, 1]], 1⟩, ⟨[[1, 2]], 1⟩]

def owner (d : Nat) : Nat := if d = 2 then 1 else 0

def eta1 (d : Nat) : ℚ := if d = 1 then 1 else 0

def eta2 (d : Nat) : ℚ := if d = 2 then 1 else 0

def blocks : List (Nat → ℚ) := [fun _ => 1, fun _ => 1, eta1, eta2]

example : maxGrains (1 / 100) owner true blocks ranks = .ok (2, [1, 1]) := by decide +kernel

example : (∃ cell ∈ cells ranks, 0 < present (1 / 100) blocks cell) ∧ 2 ≤ blocks.length ∧ ∀ r ∈ ranks, r.owned ≠ [] ∨ r.foreign ≠ 0 := by
  refine ⟨⟨[0, 1], by decide, by decide +kernel⟩, by decide, by decide⟩

/-- Without ghost values the second rank does not see the first order parameter. -/
theorem C141_ghosts_violated : maxGrains (1 / 100) owner false blocks ranks = .ok (1, [2]) ∧
    present (1 / 100) blocks [1, 2] = 2 := by
  refine ⟨by decide +kernel, by decide +kernel⟩

/-- Without concentration and potential (grain growth) the first two blocks are order parameters that are not counted; here nothing is left and the access is
out of range. -/
theorem C141_offset_violated : maxGrains (1 / 100) owner true [eta1, eta2] ranks = .ub := by decide +kernel

/-- Bisection: the family on the left is coarsened in the first pass, its parent and sibling in the second. -/
def tree : Tree ℚ 2 := .node ![.node ![.node ![.leaf 0, .leaf 0], .leaf (1 / 100)], .leaf 1]

def merge (x : Fin 2 → ℚ) : ℚ := max (x 0) (x 1)

example : tree.count = 4 ∧ (loop (Tree.coarsen (1 / 20) merge fun _ => false) Tree.count 5 tree).map (fun r => (r.1.count, r.2)) = some (2, 3) := by
  refine ⟨by decide +kernel, by decide +kernel⟩

example : percentage 100 (60 + 40) 4 = .ok 33 := by decide

end Ex141

end Verif.Props
