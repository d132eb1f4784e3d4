import Verif.Lemmas.Grid
import Mathlib.Data.Rat.Floor

/-!
# C146: the grid at start and at restart
-/
namespace Verif.Props
open Verif.Grid Verif.Mesh Verif.Spec.Grid

section
variable {K : Type} [Field K] [LinearOrder K] [IsStrictOrderedRing K] [FloorSemiring K]

/-- Without custom box the domain leaves exactly `factor * rMax` around the packing on every side. -/
theorem C146_margin (p : Params K) (g : Packing K) (r : Refine) (m : Made K) (hp : p.custom = none)
    (h : createGrid p g r = .ok m) : Margin (p.factor * g.rMax) g.box m.coarse.domain := by
  rw [(createGrid_domain h).1]
  unfold domainOf
  rw [hp]
  unfold Margin
  rw [List.forall₂_map_right_iff, List.forall₂_same]
  intro b _
  exact ⟨by ring, by ring⟩

/-- Every grid that is made has at least one coarse cell in each direction. Its coarse part and the number of
levels `n_global_levels_0` do not depend on the kind of initial refinement. -/
theorem C146_independent (p : Params K) (g : Packing K) (r r' : Refine) (m : Made K) (L : Nat)
    (h : start p g r = .ok (m, L)) :
    (∀ n ∈ m.coarse.subs, 0 < n) ∧
    ∃ m', start p g r' = .ok (m', L) ∧ m'.coarse = m.coarse := by
  obtain ⟨m1, h1, h2⟩ := (Res.bind_eq_ok (x := createGrid p g r)).1 h
  cases h2
  refine ⟨fun n hn => Nat.pos_of_ne_zero fun e => (createGrid_domain h1).2.2 (e ▸ hn), ?_⟩
  by_cases hk : p.kind = .divisions
  · exact ⟨m, by unfold start; rw [(createGrid_divisions h1 hk r').1]; rfl, rfl⟩
  · obtain ⟨m0, h0, hc, hd, hr⟩ := createGrid_none h1 hk
    have back : ∃ m', createGrid p g r' = .ok m' ∧ m'.coarse = m0.coarse ∧
        m0.remaining = m'.done + m'.remaining := by
      have key : ∀ {a b : Res (List Nat × Nat × Nat)} {dom : List (K × K)} {per : Bool},
          Moved a b r' → b.bind (hyperRectangle dom per) = .ok m0 →
          ∃ m', a.bind (hyperRectangle dom per) = .ok m' ∧ m'.coarse = m0.coarse ∧
            m0.remaining = m'.done + m'.remaining := by
        intro a b dom per hm hb
        rcases hm with ⟨subs, nb, ni, rfl, rfl⟩ | ⟨_, rfl⟩ | ⟨e, _, rfl⟩
        · simp only [okb, hyperRectangle] at hb ⊢
          split at hb
          · cases hb
          · rename_i hz
            cases hb
            exact ⟨_, if_neg hz, rfl, (refines_sum r' nb ni).symm⟩
        · cases hb
        · cases hb
      unfold createGrid at h0 ⊢
      cases hk' : p.kind with
      | interface =>
        simp only [hk'] at h0 ⊢
        exact key (interface_moved _ _ _ _ r' _) h0
      | maxRadius =>
        simp only [hk'] at h0 ⊢
        exact key (radius_moved _ _ _ _ r' _) h0
      | divisions => exact absurd hk' hk
    obtain ⟨m', h', hc', hs⟩ := back
    refine ⟨m', ?_, hc'.trans hc⟩
    unfold start
    rw [h', okb]
    have : 1 + m'.done + m'.remaining = 1 + m.done + m.remaining := by omega
    rw [this]

/-- The files of a run are read by a run with the same parameters of the grid if and only if the vectors are
stored with the cells or the number of ranks is the same, the mesh is not made of divisions with initial
refinements, and the parameter of the new run says how the vectors in the *file* were stored. Then the coarse
grid and the number of levels are those of the run which wrote the files. -/
theorem C146_restart_partial (p q : Params K) (g : Packing K) (r : Refine) (m : Made K) (L n n' : Nat)
    (h : start p g r = .ok (m, L)) (hq : SameGrid p q) :
    ((∃ x, restart q n' (saveFile p g L n m.coarse) = .ok x) ↔
      (p.flexible = true ∨ n = n') ∧ CoarseOnly p ∧ q.flexible = p.flexible) ∧
    ∀ m' L', restart q n' (saveFile p g L n m.coarse) = .ok (m', L') →
      m'.coarse = m.coarse ∧ m'.done = 0 ∧ L' = L ∧ 1 + m'.done + m'.remaining = L := by
  obtain ⟨m1, h1, h2⟩ := (Res.bind_eq_ok (x := createGrid p g r)).1 h
  cases h2
  have hcg : createGrid q g .none = createGrid p g .none := by
    rw [← hq]; rfl
  obtain ⟨m0, h0, hc, hd, hr⟩ : ∃ m0, createGrid q g .none = .ok m0 ∧ m0.coarse = m.coarse ∧
      (m0.done = 0 ↔ CoarseOnly p) ∧ m0.done + m0.remaining = m.done + m.remaining := by
    rw [hcg]
    by_cases hk : p.kind = .divisions
    · obtain ⟨a, b, c⟩ := createGrid_divisions h1 hk .none
      exact ⟨m, a, rfl, by rw [b]; exact ⟨fun e _ => e, fun e => e hk⟩, rfl⟩
    · obtain ⟨m0, a, b, c, d⟩ := createGrid_none h1 hk
      exact ⟨m0, a, b, by rw [c]; exact ⟨fun _ e => absurd e hk, fun _ => rfl⟩, by rw [c, d]; omega⟩
  have hrun : restart q n' (saveFile p g (1 + m.done + m.remaining) n m.coarse) =
      (Res.assertThrow (p.flexible || n == n')).bind fun _ =>
        (if m0.done = 0 then Res.ok () else .ub).bind fun _ =>
          (if q.flexible = p.flexible then Res.ok () else .ub).bind fun _ =>
            .ok (m0, 1 + m.done + m.remaining) := by
    unfold restart saveFile
    simp only [h0, okb, loadTria, hc, and_true]
    congr 1; funext _; congr 1; funext _; congr 1
    unfold loadVectors afterLoad
    cases p.flexible <;> cases q.flexible <;> rfl
  rw [hrun]
  constructor
  · unfold Res.assertThrow
    rw [← hd]
    by_cases a : p.flexible = true ∨ n = n'
    · rw [if_pos (by simpa using a), okb]
      by_cases b : m0.done = 0
      · rw [if_pos b, okb]
        by_cases c : q.flexible = p.flexible
        · rw [if_pos c, okb]
          exact ⟨fun _ => ⟨a, b, c⟩, fun _ => ⟨_, rfl⟩⟩
        · rw [if_neg c]
          refine ⟨?_, fun e => absurd e.2.2 c⟩
          rintro ⟨x, hx⟩; cases hx
      · rw [if_neg b]
        refine ⟨?_, fun e => absurd e.2.1 b⟩
        rintro ⟨x, hx⟩; cases hx
    · rw [if_neg (by simpa using a)]
      refine ⟨?_, fun e => absurd e.1 a⟩
      rintro ⟨x, hx⟩; cases hx
  · intro m' L' hx
    obtain ⟨_, -, hx⟩ := (Res.bind_eq_ok (x := Res.assertThrow _)).1 hx
    obtain ⟨_, hy, hx⟩ := (Res.bind_eq_ok (x := ite _ _ _)).1 hx
    obtain ⟨_, -, hx⟩ := (Res.bind_eq_ok (x := ite _ _ _)).1 hx
    cases hx
    have b : m0.done = 0 := by
      by_contra e; rw [if_neg e] at hy; cases hy
    exact ⟨hc, b, rfl, by omega⟩

/-- With a coarse mesh of the size of the largest particle, without limit on primes and for domains no smaller
than half a particle, the finest cells are larger than a quarter of the wanted size and smaller than one and a
half times the wanted size. -/
theorem C146_radius_partial (sizes : List K) (width elements rad : K) (refine : Refine)
    (hw : 0 < width) (he : 0 < elements) (hr : 0 < rad) (hfine : width / elements < 4 * rad)
    (hs : ∀ x ∈ sizes, rad ≤ x) :
    ∃ subs g d, meshFromRadius sizes width elements rad refine 0 = .ok (subs, g, d) ∧
      List.Forall₂ (fun x m => 0 < m ∧ width / elements / 4 < cellSize x m (g + d) ∧
        cellSize x m (g + d) < 3 / 2 * (width / elements)) sizes subs := by
  have hhe : 0 < width / elements := div_pos hw he
  have hhr : 0 < 2 * rad := by linarith
  obtain ⟨s, hs1, hs2, hs3⟩ := ceilLog2_bounds (r := 2 * rad / (width / elements))
    (by rw [lt_div_iff₀ hhe]; linarith)
  obtain ⟨ns, hn, hb⟩ := roundAll_bounds (h := 2 * rad) (sizes := sizes)
    (fun x hx => by rw [le_div_iff₀ hhr]; have := hs x hx; linarith)
  refine ⟨ns, (initialRefines refine 0 s).1, (initialRefines refine 0 s).2, ?_, ?_⟩
  · unfold meshFromRadius
    simp only [hs1, okb, hn, adjust, gt_iff_lt, lt_irrefl, if_false]
  · rw [refines_sum, Nat.zero_add]
    refine hb.imp fun x n h => ⟨h.1, cell_bounds hhe hhr h.1 h.2.1 h.2.2 hs2 hs3⟩

/-- A domain thinner than half of the largest particle in some direction (possible with a custom box) gets no
coarse cell there: the grid is not defined. -/
theorem C146_thin (p : Params K) (g : Packing K) (r : Refine) (hk : p.kind = .maxRadius)
    (hm : p.maxPrime = 0) (hr : 0 < g.rMax) (hx : ∃ b ∈ domainOf p g, b.2 - b.1 < g.rMax) :
    createGrid p g r = .ub := by
  obtain ⟨b, hb, hlt⟩ := hx
  have h1 := roundAll_zero (h := 2 * g.rMax) (sizes := (domainOf p g).map fun b => b.2 - b.1)
    ⟨b.2 - b.1, List.mem_map.2 ⟨b, hb, rfl⟩, by rw [div_lt_iff₀ (by linarith)]; linarith⟩
  unfold createGrid
  simp only [hk]
  unfold meshFromRadius
  simp only [hm]
  have hc : ∀ x : K, ceilLog2 x = .ub ∨ ∃ s, ceilLog2 x = .ok s := by
    intro x
    unfold ceilLog2
    split
    · exact .inl rfl
    · exact .inr ⟨_, rfl⟩
  rcases hc (2 * g.rMax / (g.width / (p.divisionsPerInterface / p.divisionsPerElement))) with h | ⟨s, h⟩
  · rw [h]; rfl
  · rw [h, okb]
    rcases h1 with h1 | ⟨ns, h1, h0⟩
    · rw [h1]; rfl
    · simp only [h1, okb, adjust, gt_iff_lt, lt_irrefl, if_false, hyperRectangle]
      rw [if_pos h0]
end

namespace Ex146
/-- two particles of radius 10 -/
def pack : Packing Rat := ⟨[(0, 40), (0, 20)], 10, 2⟩
def par (k : Kind) : Params Rat := ⟨none, 1/2, k, 4, 1, 1, 0, [5, 3], 2, false, false⟩

example : start (par .interface) pack .full = .ok (⟨⟨[(-5, 45), (-5, 25)], [25, 15], false⟩, 2, 0⟩, 3) := by
  decide +kernel
example : start (par .maxRadius) pack .none = .ok (⟨⟨[(-5, 45), (-5, 25)], [3, 2], false⟩, 0, 6⟩, 7) := by
  decide +kernel
/-- the same files are read with the same parameters -/
example : restart (par .interface) 4 (saveFile (par .interface) pack 3 4 ⟨[(-5, 45), (-5, 25)], [25, 15], false⟩)
    = .ok (⟨⟨[(-5, 45), (-5, 25)], [25, 15], false⟩, 0, 2⟩, 3) := by decide +kernel
example : SameGrid (par .interface) { par .interface with flexible := true } := rfl
example : (par .maxRadius).custom = none ∧ CoarseOnly (par .interface) ∧ ¬ CoarseOnly (par .divisions) := by
  refine ⟨rfl, (fun h => nomatch h), fun h => absurd (h rfl) (by decide)⟩
/-- hypotheses of the bounds of cell sizes -/
example : (0 : Rat) < 2 ∧ (0 : Rat) < 4 ∧ (2 : Rat) / 4 < 4 * 10 ∧ ∀ x ∈ [(50 : Rat), 30], 10 ≤ x := by decide +kernel
example : meshFromRadius [(50 : Rat), 30] 2 4 10 .base 0 = .ok ([3, 2], 0, 6) := by decide +kernel

/-- A mesh of divisions with initial refinements cannot be restarted: the grid is refined before the saved
refinement is loaded. -/
theorem C146_divisions_violated :
    start (par .divisions) pack .none = .ok (⟨⟨[(-5, 45), (-5, 25)], [5, 3], false⟩, 2, 0⟩, 3) ∧
    restart (par .divisions) 4 (saveFile (par .divisions) pack 3 4 ⟨[(-5, 45), (-5, 25)], [5, 3], false⟩) = .ub := by
  decide +kernel

/-- Switching the way of saving at a restart loses the vectors, although the file says how they were stored. -/
theorem C146_switch_violated :
    restart (par .interface) 4 (saveFile { par .interface with flexible := true } pack 3 4
      ⟨[(-5, 45), (-5, 25)], [25, 15], false⟩) = .ub ∧
    restart { par .interface with flexible := true } 4 (saveFile (par .interface) pack 3 4
      ⟨[(-5, 45), (-5, 25)], [25, 15], false⟩) = .ub := by
  decide +kernel

/-- A change of the free space around the packing is not noticed before the saved refinement is loaded into
another coarse grid. -/
theorem C146_factor_violated :
    restart { par .interface with factor := 1 } 4 (saveFile (par .interface) pack 3 4
      ⟨[(-5, 45), (-5, 25)], [25, 15], false⟩) = .ub := by
  decide +kernel

/-- A custom box may cut the particles, which nothing checks. -/
theorem C146_custom_violated :
    createGrid { par .interface with custom := some [(0, 30), (0, 20)] } pack .none =
      .ok ⟨⟨[(0, 30), (0, 20)], [15, 10], false⟩, 0, 2⟩ ∧ ¬ Inside pack.box [((0 : Rat), 30), (0, 20)] := by
  refine ⟨by decide +kernel, fun h => ?_⟩
  cases h with
  | cons h _ => exact absurd h.2 (by decide +kernel)

/-- The wanted size of the cells is exceeded by nearly one half with a coarse mesh of the size of the largest
particle. -/
theorem C146_radius_violated : meshFromRadius [(29 : Rat)] 10 1 10 .base 0 = .ok ([1], 0, 1) ∧
    cellSize (29 : Rat) 1 1 = 29 / 2 ∧ ¬ cellSize (29 : Rat) 1 1 ≤ 10 / 1 := by decide +kernel

/-- a box thinner than half of the largest particle -/
example : ∃ b ∈ domainOf { par .maxRadius with custom := some [(0, 40), (8, 12)] } pack, b.2 - b.1 < pack.rMax := by
  decide +kernel
end Ex146
end Verif.Props
