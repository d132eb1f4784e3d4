/-
C71: mesh quality.  C72: box of the shrinkage.
-/
import Verif.Model.Quality
import Verif.Lemmas.Cutoff
import Mathlib.Tactic.Linarith
import Mathlib.Tactic.NormNum
import Mathlib.Algebra.Order.Ring.Rat
import Mathlib.Algebra.Field.Rat
import Mathlib.Data.Fin.VecNotation

set_option linter.unusedSectionVars false

namespace Verif.Props
open Verif.Quality

variable {K : Type} [Field K] [LinearOrder K] [IsStrictOrderedRing K]

section folds
variable {α : Type}

theorem foldl_min_spec (f : α → K) (l : List α) (a : K) :
    (l.foldl (fun m p => min m (f p)) a ≤ a ∧ ∀ p ∈ l, l.foldl (fun m p => min m (f p)) a ≤ f p)
    ∧ (l.foldl (fun m p => min m (f p)) a = a ∨ ∃ p ∈ l, l.foldl (fun m p => min m (f p)) a = f p) := by
  induction l generalizing a with
  | nil => simp
  | cons x l ih =>
    rw [List.foldl_cons]
    obtain ⟨⟨h1, h2⟩, h3⟩ := ih (min a (f x))
    refine ⟨⟨h1.trans (min_le_left _ _), ?_⟩, ?_⟩
    · intro p hp
      rcases List.mem_cons.mp hp with rfl | hp
      · exact h1.trans (min_le_right _ _)
      · exact h2 p hp
    · rcases h3 with h3 | ⟨p, hp, h3⟩
      · rcases min_choice a (f x) with h | h
        · exact Or.inl (h3.trans h)
        · exact Or.inr ⟨x, List.mem_cons_self, h3.trans h⟩
      · exact Or.inr ⟨p, List.mem_cons_of_mem _ hp, h3⟩

theorem foldl_max_spec (f : α → K) (l : List α) (a : K) :
    (a ≤ l.foldl (fun m p => max m (f p)) a ∧ ∀ p ∈ l, f p ≤ l.foldl (fun m p => max m (f p)) a)
    ∧ (l.foldl (fun m p => max m (f p)) a = a ∨ ∃ p ∈ l, l.foldl (fun m p => max m (f p)) a = f p) := by
  induction l generalizing a with
  | nil => simp
  | cons x l ih =>
    rw [List.foldl_cons]
    obtain ⟨⟨h1, h2⟩, h3⟩ := ih (max a (f x))
    refine ⟨⟨(le_max_left _ _).trans h1, ?_⟩, ?_⟩
    · intro p hp
      rcases List.mem_cons.mp hp with rfl | hp
      · exact (le_max_right _ _).trans h1
      · exact h2 p hp
    · rcases h3 with h3 | ⟨p, hp, h3⟩
      · rcases max_choice a (f x) with h | h
        · exact Or.inl (h3.trans h)
        · exact Or.inr ⟨x, List.mem_cons_self, h3.trans h⟩
      · exact Or.inr ⟨p, List.mem_cons_of_mem _ hp, h3⟩

end folds

theorem minOf_spec (l : List K) (hl : l ≠ []) : minOf l ∈ l ∧ ∀ a ∈ l, minOf l ≤ a := by
  obtain ⟨x, l, rfl⟩ := List.exists_cons_of_ne_nil hl
  obtain ⟨⟨h1, h2⟩, h3⟩ := foldl_min_spec (fun a : K => a) l x
  refine ⟨?_, ?_⟩
  · rcases h3 with h3 | ⟨p, hp, h3⟩
    · exact List.mem_cons.mpr (Or.inl h3)
    · have : minOf (x :: l) = p := h3
      rw [this]
      exact List.mem_cons_of_mem _ hp
  · intro a ha
    rcases List.mem_cons.mp ha with rfl | ha
    · exact h1
    · exact h2 a ha

theorem maxOf_spec (l : List K) (hl : l ≠ []) : maxOf l ∈ l ∧ ∀ a ∈ l, a ≤ maxOf l := by
  obtain ⟨x, l, rfl⟩ := List.exists_cons_of_ne_nil hl
  obtain ⟨⟨h1, h2⟩, h3⟩ := foldl_max_spec (fun a : K => a) l x
  refine ⟨?_, ?_⟩
  · rcases h3 with h3 | ⟨p, hp, h3⟩
    · exact List.mem_cons.mpr (Or.inl h3)
    · have : maxOf (x :: l) = p := h3
      rw [this]
      exact List.mem_cons_of_mem _ hp
  · intro a ha
    rcases List.mem_cons.mp ha with rfl | ha
    · exact h1
    · exact h2 a ha

/-! ### C71 -/

/-- Variation of a cell: bound for all pairs of values of a block, attained. -/
theorem deltaCell_spec (blocks : List (List K)) (hne : ∀ b ∈ blocks, b ≠ []) :
    (0 ≤ deltaCell blocks ∧ ∀ b ∈ blocks, ∀ x ∈ b, ∀ y ∈ b, x - y ≤ deltaCell blocks)
    ∧ (deltaCell blocks = 0 ∨ ∃ b ∈ blocks, ∃ x ∈ b, ∃ y ∈ b, deltaCell blocks = x - y) := by
  have e : deltaCell blocks = blocks.foldl (fun acc vals => max acc (maxOf vals - minOf vals)) 0 := by
    unfold deltaCell
    congr 1
    funext a b
    exact max_comm _ _
  rw [e]
  obtain ⟨⟨h1, h2⟩, h3⟩ := foldl_max_spec (fun vals : List K => maxOf vals - minOf vals) blocks 0
  refine ⟨⟨h1, fun b hb x hx y hy => le_trans ?_ (h2 b hb)⟩, ?_⟩
  · have a1 := (maxOf_spec b (hne b hb)).2 x hx
    have a2 := (minOf_spec b (hne b hb)).2 y hy
    linarith
  · rcases h3 with h3 | ⟨b, hb, h3⟩
    · exact Or.inl h3
    · exact Or.inr ⟨b, hb, _, (maxOf_spec b (hne b hb)).1, _, (minOf_spec b (hne b hb)).1, h3⟩

/-- The quality is the largest number that is at most one and at most one minus the difference of any two values of a
block in a cell of any rank. -/
theorem C71_quality (ranks : List (List (List (List K)))) (hr : ranks ≠ [])
    (hne : ∀ cells ∈ ranks, ∀ c ∈ cells, ∀ b ∈ c, b ≠ []) :
    (qualityMin ranks ≤ 1 ∧ ∀ c ∈ ranks.flatten, ∀ b ∈ c, ∀ x ∈ b, ∀ y ∈ b, qualityMin ranks ≤ 1 - (x - y))
    ∧ (qualityMin ranks = 1 ∨ ∃ c ∈ ranks.flatten, ∃ b ∈ c, ∃ x ∈ b, ∃ y ∈ b, qualityMin ranks = 1 - (x - y)) := by
  have hm : ranks.map (fun cells => cells.foldl (fun q c => min q (1 - deltaCell c)) 1) ≠ [] := by simpa using hr
  obtain ⟨g1, g2⟩ := minOf_spec _ hm
  have q : qualityMin ranks = minOf (ranks.map fun cells => cells.foldl (fun q c => min q (1 - deltaCell c)) 1) := rfl
  rw [← q] at g1 g2
  refine ⟨⟨?_, ?_⟩, ?_⟩
  · obtain ⟨cells, hc⟩ := List.exists_mem_of_ne_nil ranks hr
    exact (g2 _ (List.mem_map.mpr ⟨cells, hc, rfl⟩)).trans (foldl_min_spec _ cells 1).1.1
  · intro c hc b hb x hx y hy
    obtain ⟨cells, hcs, hc⟩ := List.mem_flatten.mp hc
    have h1 := (g2 _ (List.mem_map.mpr ⟨cells, hcs, rfl⟩)).trans ((foldl_min_spec (fun c => 1 - deltaCell c) cells 1).1.2 c hc)
    have h2 := (deltaCell_spec c (hne cells hcs c hc)).1.2 b hb x hx y hy
    linarith
  · obtain ⟨cells, hcs, e⟩ := List.mem_map.mp g1
    rcases (foldl_min_spec (fun c => 1 - deltaCell c) cells 1).2 with h | ⟨c, hc, h⟩
    · exact Or.inl (e.symm.trans h)
    · rcases (deltaCell_spec c (hne cells hcs c hc)).2 with h0 | ⟨b, hb, x, hx, y, hy, h0⟩
      · left
        rw [← e]
        refine h.trans ?_
        rw [h0, sub_zero]
      · right
        refine ⟨c, List.mem_flatten.mpr ⟨cells, hcs, hc⟩, b, hb, x, hx, y, hy, ?_⟩
        rw [← e]
        refine h.trans ?_
        rw [h0]

/-- The estimate does not depend on the distribution of the cells. -/
theorem C71_partition (ranks ranks' : List (List (List (List K)))) (hr : ranks ≠ []) (hr' : ranks' ≠ [])
    (hne : ∀ cells ∈ ranks, ∀ c ∈ cells, ∀ b ∈ c, b ≠ []) (hs : ∀ c, c ∈ ranks.flatten ↔ c ∈ ranks'.flatten) :
    qualityMin ranks = qualityMin ranks' := by
  have hne' : ∀ cells ∈ ranks', ∀ c ∈ cells, ∀ b ∈ c, b ≠ [] := by
    intro cells hcs c hc
    obtain ⟨cells', hcs', hc'⟩ := List.mem_flatten.mp ((hs c).mpr (List.mem_flatten.mpr ⟨cells, hcs, hc⟩))
    exact hne cells' hcs' c hc'
  have A := C71_quality ranks hr hne
  have B := C71_quality ranks' hr' hne'
  apply le_antisymm
  · rcases B.2 with h | ⟨c, hc, b, hb, x, hx, y, hy, h⟩
    · rw [h]; exact A.1.1
    · rw [h]; exact A.1.2 c ((hs c).mpr hc) b hb x hx y hy
  · rcases A.2 with h | ⟨c, hc, b, hb, x, hx, y, hy, h⟩
    · rw [h]; exact B.1.1
    · rw [h]; exact B.1.2 c ((hs c).mp hc) b hb x hx y hy

/-- For values between zero and one the quality is between zero and one. -/
theorem C71_range (ranks : List (List (List (List K)))) (hr : ranks ≠ [])
    (hne : ∀ cells ∈ ranks, ∀ c ∈ cells, ∀ b ∈ c, b ≠ [])
    (hv : ∀ c ∈ ranks.flatten, ∀ b ∈ c, ∀ x ∈ b, 0 ≤ x ∧ x ≤ 1) : 0 ≤ qualityMin ranks ∧ qualityMin ranks ≤ 1 := by
  have A := C71_quality ranks hr hne
  refine ⟨?_, A.1.1⟩
  rcases A.2 with h | ⟨c, hc, b, hb, x, hx, y, hy, h⟩
  · rw [h]; exact zero_le_one
  · have := (hv c hc b hb x hx).2
    have := (hv c hc b hb y hy).1
    rw [h]; linarith

/-- The output variant agrees with the estimate if every rank only sees cells of its own (a serial run). -/
theorem C71_output_partial (ranks : List (List (List (List K)))) (hr : ranks ≠ []) (hc : ∀ cells ∈ ranks, cells ≠ [])
    (hne : ∀ cells ∈ ranks, ∀ c ∈ cells, ∀ b ∈ c, b ≠ []) :
    qualityOutputMin (ranks.map fun cells => cells.map some) = .ok (qualityMin ranks) := by
  have h : (ranks.map fun cells => cells.map some).mapM rankOutputMin
      = .ok ((ranks.map fun cells => cells.map some).map fun cells => minOf (cells.map cellEntry)) := by
    apply Res.mapM_eq
    intro cells hcs
    obtain ⟨cs, hcs', rfl⟩ := List.mem_map.mp hcs
    unfold rankOutputMin
    rw [if_neg (by simpa using hc cs hcs')]
    rfl
  unfold qualityOutputMin
  rw [h, Res.ok_bind]
  show Res.ok _ = _
  congr 1
  unfold qualityMin
  rw [List.map_map]
  congr 1
  apply List.map_congr_left
  intro cells hcs
  simp only [Function.comp_apply, List.map_map]
  -- both are the minimum over the cells
  have hmap : cells.map (cellEntry ∘ some) = cells.map (fun c => 1 - deltaCell c) := rfl
  rw [hmap]
  have hn : cells.map (fun c => 1 - deltaCell c) ≠ [] := by simpa using hc cells hcs
  obtain ⟨a1, a2⟩ := minOf_spec _ hn
  obtain ⟨⟨b1, b2⟩, b3⟩ := foldl_min_spec (fun c : List (List K) => 1 - deltaCell c) cells 1
  apply le_antisymm
  · rcases b3 with b3 | ⟨c, hcc, b3⟩
    · rw [b3]
      obtain ⟨c, hcc, e⟩ := List.mem_map.mp a1
      rw [← e]
      have := (deltaCell_spec c (hne cells hcs c hcc)).1.1
      linarith
    · rw [b3]
      exact a2 _ (List.mem_map.mpr ⟨c, hcc, rfl⟩)
  · obtain ⟨c, hcc, e⟩ := List.mem_map.mp a1
    rw [← e]
    exact b2 c hcc

/-- Violated as soon as some rank stores a cell of another rank: the entry of that cell stays zero, so the reported
minimum is at most zero whatever the solution. -/
theorem C71_output_violated (ranks : List (List (Option (List (List K))))) (cells : List (Option (List (List K))))
    (hcs : cells ∈ ranks) (hn : none ∈ cells) {q : K} (h : qualityOutputMin ranks = .ok q) : q ≤ 0 := by
  have hne : ∀ c ∈ ranks, c ≠ [] := by
    intro c hc e
    subst e
    unfold qualityOutputMin at h
    obtain ⟨ms, hms, -⟩ := Res.bind_eq_ok.mp h
    have := Res.mapM_ub ranks rankOutputMin
      (by
        intro a _
        unfold rankOutputMin
        split
        · exact Or.inr rfl
        · exact Or.inl ⟨_, rfl⟩) ⟨[], hc, rfl⟩
    rw [this] at hms
    cases hms
  unfold qualityOutputMin at h
  rw [Res.mapM_eq ranks rankOutputMin (fun cells => minOf (cells.map cellEntry))
    (by
      intro c hc
      unfold rankOutputMin
      rw [if_neg (by simpa using hne c hc)]
      rfl), Res.ok_bind] at h
  cases h
  have hm : ranks.map (fun cells => minOf (cells.map cellEntry)) ≠ [] := by
    intro e
    rw [List.map_eq_nil_iff.mp e] at hcs
    cases hcs
  refine ((minOf_spec _ hm).2 _ (List.mem_map.mpr ⟨cells, hcs, rfl⟩)).trans ?_
  have hm' : cells.map (cellEntry (K := K)) ≠ [] := by
    simpa using hne cells hcs
  exact (minOf_spec _ hm').2 _ (List.mem_map.mpr ⟨none, hn, rfl⟩)

namespace Ex71
def ranks : List (List (List (List ℚ))) := [[[[0, 1 / 4], [1, 1]]], [[[1 / 2, 0], [1 / 4, 1 / 2]]]]
example : qualityMin ranks = 1 / 2 := by decide +kernel
example : ∀ cells ∈ ranks, ∀ c ∈ cells, ∀ b ∈ c, b ≠ [] := by decide +kernel
example : qualityOutputMin [[some [[0, 1 / 4], [1, 1]], none], [none, some [[(1 / 2 : ℚ), 0]]]] = .ok 0 := by decide +kernel
example : qualityOutputMin (ranks.map fun cells => cells.map some) = .ok (1 / 2) := by decide +kernel
end Ex71

/-! ### C72 -/

section shrink
variable {d : Nat}

theorem candidate_fold (relTol : K) (low : Bool) (i : Fin d) (cs : List (SCell K d)) (cur : Option (SCell K d)) (c : SCell K d)
    (h : cs.foldl (candidate relTol low i) cur = some c) : c ∈ cs ∨ cur = some c := by
  induction cs generalizing cur with
  | nil => exact Or.inr h
  | cons x cs ih =>
    rw [List.foldl_cons] at h
    rcases ih _ h with h | h
    · exact Or.inl (List.mem_cons_of_mem _ h)
    · unfold candidate at h
      cases cur with
      | none => cases h; exact Or.inl List.mem_cons_self
      | some m =>
        dsimp only at h
        by_cases hC : (|x.center i - m.center i| < relTol * x.diameter ∧ cNorm m < cNorm x
          ∨ relTol * x.diameter < |x.center i - m.center i|
            ∧ (if low then x.center i < m.center i else m.center i < x.center i))
        · rw [if_pos hC] at h
          cases h; exact Or.inl List.mem_cons_self
        · rw [if_neg hC] at h
          exact Or.inr h

/-- One rank: the interval covers all solid support points of the interface cells, and its ends are attained at solid
points of interface cells unless there are none. -/
theorem rankBounds_spec (thr relTol lo hi : K) (i : Fin d) (cells : List (SCell K d)) :
    ((rankBounds thr relTol lo hi i cells).1 ≤ hi
      ∧ ∀ c ∈ cells, interfaceCell thr c = true → ∀ p ∈ c.pts, thr < p.2 → (rankBounds thr relTol lo hi i cells).1 ≤ p.1 i)
    ∧ (lo ≤ (rankBounds thr relTol lo hi i cells).2
      ∧ ∀ c ∈ cells, interfaceCell thr c = true → ∀ p ∈ c.pts, thr < p.2 → p.1 i ≤ (rankBounds thr relTol lo hi i cells).2)
    ∧ ((rankBounds thr relTol lo hi i cells).1 = hi
      ∨ ∃ c ∈ cells, interfaceCell thr c = true ∧ ∃ p ∈ c.pts ++ c.refined, thr < p.2 ∧ (rankBounds thr relTol lo hi i cells).1 = p.1 i)
    ∧ ((rankBounds thr relTol lo hi i cells).2 = lo
      ∨ ∃ c ∈ cells, interfaceCell thr c = true ∧ ∃ p ∈ c.pts ++ c.refined, thr < p.2 ∧ (rankBounds thr relTol lo hi i cells).2 = p.1 i) := by
  unfold rankBounds
  dsimp only
  set cs := cells.filter (interfaceCell thr) with hcs
  have hmem : ∀ c, c ∈ cs ↔ c ∈ cells ∧ interfaceCell thr c = true := fun c => by rw [hcs, List.mem_filter]
  set pts := (cs.flatMap (·.pts)).filter (fun p => decide (thr < p.2)) with hpts
  have hpm : ∀ p, p ∈ pts ↔ (∃ c ∈ cs, p ∈ c.pts) ∧ thr < p.2 := fun p => by
    rw [hpts, List.mem_filter, List.mem_flatMap]; simp
  set cl := cs.foldl (candidate relTol true i) none with hcl
  set ch := cs.foldl (candidate relTol false i) none with hch
  set rl := ((cl.map (·.refined)).getD []).filter (fun p => decide (thr < p.2)) with hrl
  set rh := ((ch.map (·.refined)).getD []).filter (fun p => decide (thr < p.2)) with hrh
  have hrm : ∀ (cur : Option (SCell K d)) (low : Bool), cs.foldl (candidate relTol low i) none = cur →
      ∀ p, p ∈ ((cur.map (·.refined)).getD []).filter (fun p => decide (thr < p.2)) →
        (∃ c ∈ cs, p ∈ c.refined) ∧ thr < p.2 := by
    intro cur low he p hp
    rw [List.mem_filter] at hp
    cases hcur : cur with
    | none => rw [hcur] at hp; simp at hp
    | some c =>
      rw [hcur] at hp he
      rcases candidate_fold relTol low i cs none c he with h | h
      · exact ⟨⟨c, h, by simpa using hp.1⟩, by simpa using hp.2⟩
      · cases h
  obtain ⟨⟨a1, a2⟩, a3⟩ := foldl_min_spec (fun p : (Fin d → K) × K => p.1 i) pts hi
  obtain ⟨⟨b1, b2⟩, b3⟩ := foldl_max_spec (fun p : (Fin d → K) × K => p.1 i) pts lo
  obtain ⟨⟨c1, c2⟩, c3⟩ := foldl_min_spec (fun p : (Fin d → K) × K => p.1 i) rl
    (pts.foldl (fun m p => min m (p.1 i)) hi)
  obtain ⟨⟨d1, d2⟩, d3⟩ := foldl_max_spec (fun p : (Fin d → K) × K => p.1 i) rh
    (pts.foldl (fun m p => max m (p.1 i)) lo)
  refine ⟨⟨c1.trans a1, fun c hc hi' p hp hv => c1.trans (a2 p ((hpm p).mpr ⟨⟨c, (hmem c).mpr ⟨hc, hi'⟩, hp⟩, hv⟩))⟩,
    ⟨b1.trans d1, fun c hc hi' p hp hv => (b2 p ((hpm p).mpr ⟨⟨c, (hmem c).mpr ⟨hc, hi'⟩, hp⟩, hv⟩)).trans d1⟩, ?_, ?_⟩
  · rcases c3 with c3 | ⟨p, hp, c3⟩
    · rw [c3]
      rcases a3 with a3 | ⟨p, hp, a3⟩
      · exact Or.inl a3
      · obtain ⟨⟨c, hc, hpc⟩, hv⟩ := (hpm p).mp hp
        exact Or.inr ⟨c, ((hmem c).mp hc).1, ((hmem c).mp hc).2, p, List.mem_append_left _ hpc, hv, a3⟩
    · obtain ⟨⟨c, hc, hpc⟩, hv⟩ := hrm cl true hcl.symm p hp
      exact Or.inr ⟨c, ((hmem c).mp hc).1, ((hmem c).mp hc).2, p, List.mem_append_right _ hpc, hv, c3⟩
  · rcases d3 with d3 | ⟨p, hp, d3⟩
    · rw [d3]
      rcases b3 with b3 | ⟨p, hp, b3⟩
      · exact Or.inl b3
      · obtain ⟨⟨c, hc, hpc⟩, hv⟩ := (hpm p).mp hp
        exact Or.inr ⟨c, ((hmem c).mp hc).1, ((hmem c).mp hc).2, p, List.mem_append_left _ hpc, hv, b3⟩
    · obtain ⟨⟨c, hc, hpc⟩, hv⟩ := hrm ch false hch.symm p hp
      exact Or.inr ⟨c, ((hmem c).mp hc).1, ((hmem c).mp hc).2, p, List.mem_append_right _ hpc, hv, d3⟩

/-- The box covers every solid support point of an interface cell of any rank, and if there is such a point within the
triangulation both ends of the box are attained at solid (support or refined) points of interface cells. Solid points of
cells that are not crossed by the interface are not considered. -/
theorem C72_box_partial (thr relTol lo hi : K) (i : Fin d) (ranks : List (List (SCell K d))) (hr : ranks ≠ []) :
    let r := shrinkage thr relTol lo hi i ranks
    (∀ c ∈ ranks.flatten, interfaceCell thr c = true → ∀ p ∈ c.pts, thr < p.2 → r.1 ≤ p.1 i ∧ p.1 i ≤ r.2)
    ∧ (r.1 = hi ∨ ∃ c ∈ ranks.flatten, interfaceCell thr c = true ∧ ∃ p ∈ c.pts ++ c.refined, thr < p.2 ∧ r.1 = p.1 i)
    ∧ (r.2 = lo ∨ ∃ c ∈ ranks.flatten, interfaceCell thr c = true ∧ ∃ p ∈ c.pts ++ c.refined, thr < p.2 ∧ r.2 = p.1 i) := by
  have h1 : (ranks.map (rankBounds thr relTol lo hi i)).map (·.1) ≠ [] := by simpa using hr
  have h2 : (ranks.map (rankBounds thr relTol lo hi i)).map (·.2) ≠ [] := by simpa using hr
  obtain ⟨a1, a2⟩ := minOf_spec _ h1
  obtain ⟨b1, b2⟩ := maxOf_spec _ h2
  refine ⟨?_, ?_, ?_⟩
  · intro c hc hi' p hp hv
    obtain ⟨cells, hcs, hc⟩ := List.mem_flatten.mp hc
    have S := rankBounds_spec thr relTol lo hi i cells
    have m1 : (rankBounds thr relTol lo hi i cells).1 ∈ (ranks.map (rankBounds thr relTol lo hi i)).map (·.1) :=
      List.mem_map.mpr ⟨_, List.mem_map.mpr ⟨cells, hcs, rfl⟩, rfl⟩
    have m2 : (rankBounds thr relTol lo hi i cells).2 ∈ (ranks.map (rankBounds thr relTol lo hi i)).map (·.2) :=
      List.mem_map.mpr ⟨_, List.mem_map.mpr ⟨cells, hcs, rfl⟩, rfl⟩
    exact ⟨(a2 _ m1).trans (S.1.2 c hc hi' p hp hv), (S.2.1.2 c hc hi' p hp hv).trans (b2 _ m2)⟩
  · obtain ⟨x, hx, e⟩ := List.mem_map.mp a1
    obtain ⟨cells, hcs, rfl⟩ := List.mem_map.mp hx
    have S := (rankBounds_spec thr relTol lo hi i cells).2.2.1
    rw [e] at S
    rcases S with S | ⟨c, hc, r⟩
    · exact Or.inl S
    · exact Or.inr ⟨c, List.mem_flatten.mpr ⟨cells, hcs, hc⟩, r⟩
  · obtain ⟨x, hx, e⟩ := List.mem_map.mp b1
    obtain ⟨cells, hcs, rfl⟩ := List.mem_map.mp hx
    have S := (rankBounds_spec thr relTol lo hi i cells).2.2.2
    rw [e] at S
    rcases S with S | ⟨c, hc, r⟩
    · exact Or.inl S
    · exact Or.inr ⟨c, List.mem_flatten.mpr ⟨cells, hcs, hc⟩, r⟩

/-- Without any cell that is crossed by the interface the box is the inverted box of the triangulation. -/
theorem C72_no_interface_violated (thr relTol lo hi : K) (i : Fin d) (ranks : List (List (SCell K d))) (hr : ranks ≠ [])
    (h : ∀ c ∈ ranks.flatten, interfaceCell thr c = false) : shrinkage thr relTol lo hi i ranks = (hi, lo) := by
  obtain ⟨-, h1, h2⟩ := C72_box_partial thr relTol lo hi i ranks hr
  refine Prod.ext ?_ ?_
  · rcases h1 with h1 | ⟨c, hc, hi', -⟩
    · exact h1
    · rw [h c hc] at hi'; cases hi'
  · rcases h2 with h2 | ⟨c, hc, hi', -⟩
    · exact h2
    · rw [h c hc] at hi'; cases hi'

/-- The cell that is refined: if the centres of two interface cells either coincide in the direction or differ by more
than the tolerance, it is one with the smallest (largest) centre, and among those one with the largest value. -/
theorem C72_candidate (relTol : K) (low : Bool) (i : Fin d) (cs : List (SCell K d)) (hcs : cs ≠ [])
    (htol : ∀ c ∈ cs, 0 < relTol * c.diameter)
    (hsep : ∀ c ∈ cs, ∀ m ∈ cs, c.center i = m.center i ∨ relTol * c.diameter < |c.center i - m.center i|) :
    ∃ m ∈ cs, cs.foldl (candidate relTol low i) none = some m
      ∧ ∀ c ∈ cs, (if low then m.center i ≤ c.center i else c.center i ≤ m.center i)
        ∧ (c.center i = m.center i → cNorm c ≤ cNorm m) := by
  obtain ⟨x, l, rfl⟩ := List.exists_cons_of_ne_nil hcs
  rw [List.foldl_cons]
  show ∃ m ∈ x :: l, l.foldl (candidate relTol low i) (some x) = some m ∧ _
  -- induction over the remaining cells with the processed ones in `pre`
  have key : ∀ (l pre : List (SCell K d)) (m : SCell K d), m ∈ pre → (∀ c ∈ pre ++ l, 0 < relTol * c.diameter) →
      (∀ c ∈ pre ++ l, ∀ m ∈ pre ++ l, c.center i = m.center i ∨ relTol * c.diameter < |c.center i - m.center i|) →
      (∀ c ∈ pre, (if low then m.center i ≤ c.center i else c.center i ≤ m.center i)
        ∧ (c.center i = m.center i → cNorm c ≤ cNorm m)) →
      ∃ m' ∈ pre ++ l, l.foldl (candidate relTol low i) (some m) = some m'
        ∧ ∀ c ∈ pre ++ l, (if low then m'.center i ≤ c.center i else c.center i ≤ m'.center i)
          ∧ (c.center i = m'.center i → cNorm c ≤ cNorm m') := by
    intro l
    induction l with
    | nil => intro pre m hm _ _ hinv; exact ⟨m, by simpa using hm, rfl, by simpa using hinv⟩
    | cons c l ih =>
      intro pre m hm ht hs hinv
      rw [List.foldl_cons]
      have hcm : c ∈ pre ++ c :: l := by simp
      have hmm : m ∈ pre ++ c :: l := List.mem_append_left _ hm
      have happ : (pre ++ [c]) ++ l = pre ++ c :: l := by simp
      have htc := ht c hcm
      -- the cell chosen in this step
      have step : ∃ m2 ∈ pre ++ [c], candidate relTol low i (some m) c = some m2
          ∧ ∀ z ∈ pre ++ [c], (if low then m2.center i ≤ z.center i else z.center i ≤ m2.center i)
            ∧ (z.center i = m2.center i → cNorm z ≤ cNorm m2) := by
        unfold candidate
        dsimp only
        rcases hs c hcm m hmm with heq | hgt
        · have hd : |c.center i - m.center i| = 0 := by rw [heq, sub_self, abs_zero]
          rw [hd]
          by_cases hn : cNorm m < cNorm c
          · rw [if_pos (Or.inl ⟨htc, hn⟩)]
            refine ⟨c, by simp, rfl, ?_⟩
            intro z hz
            rcases List.mem_append.mp hz with hz | hz
            · have := hinv z hz
              rw [heq]
              exact ⟨this.1, fun e => (this.2 e).trans hn.le⟩
            · rw [List.mem_singleton.mp hz]
              exact ⟨by cases low <;> simp, fun _ => le_rfl⟩
          · rw [if_neg (by
              rintro (⟨-, h⟩ | ⟨h, -⟩)
              · exact hn h
              · exact absurd h (not_lt.mpr htc.le))]
            refine ⟨m, List.mem_append_left _ hm, rfl, ?_⟩
            intro z hz
            rcases List.mem_append.mp hz with hz | hz
            · exact hinv z hz
            · rw [List.mem_singleton.mp hz, heq]
              exact ⟨by cases low <;> simp, fun _ => le_of_not_gt hn⟩
        · have hne : c.center i ≠ m.center i := by
            intro e
            rw [e, sub_self, abs_zero] at hgt
            exact absurd hgt (not_lt.mpr htc.le)
          by_cases hlt : (if low then c.center i < m.center i else m.center i < c.center i)
          · rw [if_pos (Or.inr ⟨hgt, hlt⟩)]
            refine ⟨c, by simp, rfl, ?_⟩
            intro z hz
            rcases List.mem_append.mp hz with hz | hz
            · have := (hinv z hz).1
              cases low with
              | true =>
                simp only [if_true] at hlt this ⊢
                exact ⟨hlt.le.trans this, fun e => absurd (e ▸ this) (not_le.mpr hlt)⟩
              | false =>
                simp only [Bool.false_eq_true, if_false] at hlt this ⊢
                exact ⟨this.trans hlt.le, fun e => absurd (e ▸ this) (not_le.mpr hlt)⟩
            · rw [List.mem_singleton.mp hz]
              exact ⟨by cases low <;> simp, fun _ => le_rfl⟩
          · rw [if_neg (by
              rintro (⟨h, -⟩ | ⟨-, h⟩)
              · exact absurd h (not_lt.mpr hgt.le)
              · exact hlt h)]
            refine ⟨m, List.mem_append_left _ hm, rfl, ?_⟩
            intro z hz
            rcases List.mem_append.mp hz with hz | hz
            · exact hinv z hz
            · rw [List.mem_singleton.mp hz]
              cases low with
              | true =>
                simp only [if_true] at hlt ⊢
                exact ⟨le_of_not_gt hlt, fun e => absurd e hne⟩
              | false =>
                simp only [Bool.false_eq_true, if_false] at hlt ⊢
                exact ⟨le_of_not_gt hlt, fun e => absurd e hne⟩
      obtain ⟨m2, hm2, e2, hinv2⟩ := step
      rw [e2]
      obtain ⟨m', hm', e', h'⟩ := ih (pre ++ [c]) m2 hm2 (by rwa [happ]) (by rwa [happ]) hinv2
      rw [happ] at hm' h'
      exact ⟨m', hm', e', h'⟩
  obtain ⟨m', hm', e', h'⟩ := key l [x] x (by simp) (by simpa using htol) (by simpa using hsep)
    (by
      intro c hc
      rw [List.mem_singleton.mp hc]
      exact ⟨by cases low <;> simp, fun _ => le_rfl⟩)
  exact ⟨m', by simpa using hm', e', by simpa using h'⟩

end shrink

namespace Ex72
/-- interval `[a, a+1]` with values at its ends and refined point in the middle -/
def cell (a v0 v1 vm : ℚ) : SCell ℚ 1 :=
  ⟨[(fun _ => a, v0), (fun _ => a + 1, v1)], [(fun _ => a + 1 / 2, vm)], fun _ => a + 1 / 2, 1⟩
/-- a particle between 1.5 and 3.5 on [0, 5] -/
def cells : List (SCell ℚ 1) := [cell 0 0 0 0, cell 1 0 1 (3 / 4), cell 2 1 1 1, cell 3 1 0 (1 / 4), cell 4 0 0 0]
example : shrinkage (49 / 100) (1 / 1000) 0 5 (0 : Fin 1) [cells] = (3 / 2, 3) := by decide +kernel
example : interfaceCell (49 / 100) (cell 1 0 1 (3 / 4)) = true := by decide +kernel
end Ex72

/-- A particle that fills the cells up to the boundary of the domain is cut at its last interface cell. -/
theorem C72_solid_missed_violated : ∃ (ranks : List (List (SCell ℚ 1))) (c : SCell ℚ 1) (p : (Fin 1 → ℚ) × ℚ),
    c ∈ ranks.flatten ∧ p ∈ c.pts ∧ 49 / 100 < p.2 ∧ (shrinkage (49 / 100) (1 / 1000) 0 5 0 ranks).2 < p.1 0 := by
  refine ⟨[[Ex72.cell 0 0 0 0, Ex72.cell 1 0 1 1, Ex72.cell 2 1 1 1, Ex72.cell 3 1 1 1, Ex72.cell 4 1 1 1]],
    Ex72.cell 4 1 1 1, (fun _ => 5, 1), by simp, ?_, by norm_num, by decide +kernel⟩
  have : ((fun _ => 5, 1) : (Fin 1 → ℚ) × ℚ) = (fun _ => 4 + 1, 1) := by norm_num
  rw [this]
  exact List.mem_cons_of_mem _ List.mem_cons_self

/-- The result depends on the distribution of the cells: only one cell per rank is looked at more closely. -/
theorem C72_partition_violated : ∃ c1 c2 : SCell ℚ 1,
    shrinkage (49 / 100) (1 / 1000) 0 5 0 [[c1, c2]] ≠ shrinkage (49 / 100) (1 / 1000) 0 5 0 [[c1], [c2]] := by
  refine ⟨⟨[(fun _ => 2, 0), (fun _ => 3, 1)], [(fun _ => 5 / 2, 0)], fun _ => 2, 1⟩,
    ⟨[(fun _ => 2, 0), (fun _ => 4, 3 / 4)], [(fun _ => 5 / 2, 3 / 4)], fun _ => 3, 1⟩, by decide +kernel⟩

end Verif.Props
