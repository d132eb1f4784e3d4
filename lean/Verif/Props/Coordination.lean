/-
C70: average coordination number.
-/
import Verif.Lemmas.Coordination
import Mathlib.Algebra.Field.Rat
import Mathlib.Algebra.Order.Ring.Rat
import Mathlib.Tactic.NormNum
import Mathlib.Data.Set.Finite.Basic
import Mathlib.Data.Set.Finite.Lattice
import Mathlib.Data.Set.Finite.List

namespace Verif.Props
open Verif.Coordination

theorem averageCoordination_rep {K : Type} [Field K] (inside : Nat → Res Bool) (ins : Nat → Bool)
    (ranks : List (List (List Nat))) (hin : ∀ cells ∈ ranks, ∀ gs ∈ cells, ∀ g ∈ gs, inside g = .ok (ins g)) (r : Nat) :
    ∃ nb, averageCoordination (K := K) inside ranks r = .ok (average nb) ∧ Rep nb (Touch ins ranks.flatten) := by
  have hloc : ∀ cells ∈ ranks, ∃ nb, localNeighbors inside cells = .ok nb ∧ Rep nb (Touch ins cells) :=
    fun cells hc => rep_local inside ins cells (hin cells hc)
  let F : List (List Nat) → Neighbors := fun cells =>
    match localNeighbors inside cells with
    | .ok nb => nb
    | _ => []
  have hF : ∀ cells ∈ ranks, localNeighbors inside cells = .ok (F cells) ∧ Rep (F cells) (Touch ins cells) := by
    intro cells hc
    obtain ⟨nb, e, R⟩ := hloc cells hc
    have : F cells = nb := by simp only [F, e]
    rw [this]
    exact ⟨e, R⟩
  have hmap : ranks.mapM (localNeighbors inside) = .ok (ranks.map F) :=
    Res.mapM_eq ranks _ F (fun c hc => (hF c hc).1)
  -- relation of the start value: contained in the union
  have hstart : ∃ P, Rep ((ranks.map F).getD r []) P ∧ ∀ a b, P a b → Touch ins ranks.flatten a b := by
    rw [List.getD_eq_getElem?_getD, List.getElem?_map]
    cases h : ranks[r]? with
    | none => exact ⟨_, rep_nil, fun _ _ h => h.elim⟩
    | some cells =>
      have hc : cells ∈ ranks := List.mem_of_getElem? h
      refine ⟨_, (hF cells hc).2, ?_⟩
      rintro a b ⟨gs, hgs, rest⟩
      exact ⟨gs, List.mem_flatten.mpr ⟨cells, hc, hgs⟩, rest⟩
  obtain ⟨P, HP, hPsub⟩ := hstart
  obtain ⟨nb', e, R⟩ := rep_absorb_all (ranks.map F)
    (fun m a b => ∃ s, OMap.get? m a = some s ∧ b ∈ OMap.keys s)
    (by
      intro m hm
      obtain ⟨cells, hc, rfl⟩ := List.mem_map.mp hm
      have := (hF cells hc).2
      exact ⟨this.sorted, this.inner, fun _ _ => Iff.rfl⟩) HP
  refine ⟨nb', ?_, R.congr fun a b => ⟨?_, ?_⟩⟩
  · unfold averageCoordination
    rw [hmap, Res.ok_bind, e, Res.ok_bind]
    rfl
  · rintro (h | ⟨m, hm, h⟩)
    · exact hPsub a b h
    · obtain ⟨cells, hc, rfl⟩ := List.mem_map.mp hm
      obtain ⟨gs, hgs, rest⟩ := ((hF cells hc).2.rel a b).mp h
      exact ⟨gs, List.mem_flatten.mpr ⟨cells, hc, hgs⟩, rest⟩
  · rintro ⟨gs, hgs, rest⟩
    obtain ⟨cells, hc, hgs⟩ := List.mem_flatten.mp hgs
    exact Or.inr ⟨F cells, List.mem_map.mpr ⟨cells, hc, rfl⟩, ((hF cells hc).2.rel a b).mpr ⟨gs, hgs, rest⟩⟩

/-- The reported number is the sum of the numbers of neighbours of all counted grains that have a neighbour divided by
their number; it is the same on all ranks. -/
theorem C70_average {K : Type} [Field K] (inside : Nat → Res Bool) (ins : Nat → Bool) (ranks : List (List (List Nat)))
    (hin : ∀ cells ∈ ranks, ∀ gs ∈ cells, ∀ g ∈ gs, inside g = .ok (ins g)) (r : Nat)
    (D : Finset Nat) (N : Nat → Finset Nat) (hD : ∀ g, g ∈ D ↔ ∃ h, Touch ins ranks.flatten g h)
    (hN : ∀ g h, h ∈ N g ↔ Touch ins ranks.flatten g h) :
    averageCoordination inside ranks r = .ok ((∑ g ∈ D, ((N g).card : K)) / (D.card : K)) := by
  obtain ⟨nb, e, R⟩ := averageCoordination_rep (K := K) inside ins ranks hin r
  rw [e, average_eq R D N hD hN]

/-- ... and does not depend on the distribution of the cells. -/
theorem C70_partition {K : Type} [Field K] (inside : Nat → Res Bool) (ins : Nat → Bool)
    (ranks ranks' : List (List (List Nat)))
    (hin : ∀ cells ∈ ranks, ∀ gs ∈ cells, ∀ g ∈ gs, inside g = .ok (ins g))
    (hsame : ∀ gs, gs ∈ ranks.flatten ↔ gs ∈ ranks'.flatten) (r r' : Nat) :
    averageCoordination (K := K) inside ranks r = averageCoordination inside ranks' r' := by
  have hin' : ∀ cells ∈ ranks', ∀ gs ∈ cells, ∀ g ∈ gs, inside g = .ok (ins g) := by
    intro cells hc gs hgs g hg
    obtain ⟨c', hc', hgs'⟩ := List.mem_flatten.mp ((hsame gs).mpr (List.mem_flatten.mpr ⟨cells, hc, hgs⟩))
    exact hin c' hc' gs hgs' g hg
  obtain ⟨nb, e, R⟩ := averageCoordination_rep (K := K) inside ins ranks hin r
  obtain ⟨nb', e', R'⟩ := averageCoordination_rep (K := K) inside ins ranks' hin' r'
  have hT : ∀ a b, Touch ins ranks'.flatten a b ↔ Touch ins ranks.flatten a b := by
    intro a b
    unfold Touch
    exact ⟨fun ⟨gs, h, x⟩ => ⟨gs, (hsame gs).mpr h, x⟩, fun ⟨gs, h, x⟩ => ⟨gs, (hsame gs).mp h, x⟩⟩
  have R'' := R'.congr hT
  rw [e, e']
  -- both maps represent the same relation
  let D : Finset Nat := (OMap.keys nb).toFinset
  let N : Nat → Finset Nat := fun g => (OMap.keys ((nb.get? g).getD [])).toFinset
  have hN : ∀ g h, h ∈ N g ↔ Touch ins ranks.flatten g h := by
    intro g h
    rw [← R.rel, List.mem_toFinset]
    cases hg : OMap.get? nb g with
    | none => simp [OMap.keys]
    | some s => simp
  have hD : ∀ g, g ∈ D ↔ ∃ h, Touch ins ranks.flatten g h := by
    intro g
    rw [List.mem_toFinset, ← OMap.get?_isSome_iff_mem_keys]
    constructor
    · intro h
      obtain ⟨s, hs⟩ := Option.isSome_iff_exists.mp h
      obtain ⟨q, l, e⟩ := List.exists_cons_of_ne_nil (R.inner g s hs).2
      exact ⟨q.1, (R.rel g q.1).mp ⟨s, hs, by rw [e]; simp [OMap.keys]⟩⟩
    · rintro ⟨h, hP⟩
      obtain ⟨s, hs, -⟩ := (R.rel g h).mpr hP
      rw [hs]; rfl
  rw [average_eq R D N hD hN, average_eq R'' D N hD hN]

/-- A box with a grain that the tracker does not know stops the computation. -/
theorem C70_unknown_grain {K : Type} [Field K] [LinearOrder K] {d : Nat} (eps : K) (b : BoxFilter.Box K d)
    (grains : OMap (List ((Fin d → K) × K))) (g : Nat) :
    grainInside eps (some b) grains g = .exc .outOfRange ↔ grains.get? g = none := by
  unfold grainInside
  cases grains.get? g <;> simp

/-- Otherwise a grain is counted exactly if every segment has both opposite corners of its cube not outside. -/
theorem C70_inside {K : Type} [Field K] [LinearOrder K] {d : Nat} (eps : K) (b : BoxFilter.Box K d)
    (grains : OMap (List ((Fin d → K) × K))) (g : Nat) (segs : List ((Fin d → K) × K)) (h : grains.get? g = some segs) :
    grainInside eps (some b) grains g = .ok true ↔
      ∀ s ∈ segs, BoxFilter.position eps b (fun i => s.1 i - s.2) ≠ .outside
        ∧ BoxFilter.position eps b (fun i => s.1 i + s.2) ≠ .outside := by
  unfold grainInside
  rw [h]
  simp

/-- Grains listed for a cell: those of the valid particles of the order parameters. -/
theorem C70_grains_at (particle grainOf : Nat → Nat → Option Nat) (nOp cell g : Nat) :
    g ∈ grainsAt particle grainOf nOp cell ↔ ∃ op < nOp, ∃ p, particle op cell = some p ∧ grainOf op p = some g := by
  unfold grainsAt
  simp [List.mem_filterMap, Option.bind_eq_some_iff]

/-- Grains without neighbour are not counted: two touching grains and an isolated one give 1, not 2/3. -/
theorem C70_isolated_violated :
    averageCoordination (K := ℚ) (fun _ => .ok true) [[[0], [0, 1]], [[2], [1]]] 0 = .ok 1
    ∧ ((1 + 1 + 0 : ℚ)) / 3 ≠ 1 := by
  refine ⟨by decide +kernel, by norm_num⟩

/-- The relation is not symmetric when a box is used: a grain inside counts its neighbour outside, not vice versa. -/
theorem C70_box_asymmetric : ∃ (ins : Nat → Bool) (cells : List (List Nat)),
    Touch ins cells 0 1 ∧ ¬ Touch ins cells 1 0 := by
  refine ⟨fun g => g == 0, [[0, 1]], ⟨[0, 1], by simp, 0, 1, by simp, rfl, rfl, rfl⟩, ?_⟩
  rintro ⟨gs, -, i, j, -, -, -, h⟩
  simp at h

/-- Without a box the relation is symmetric. -/
theorem C70_symmetric (cells : List (List Nat)) (g h : Nat) (ht : Touch (fun _ => true) cells g h) :
    Touch (fun _ => true) cells h g := by
  obtain ⟨gs, hgs, i, j, hij, hi, hj, -⟩ := ht
  exact ⟨gs, hgs, j, i, fun e => hij e.symm, hj, hi, rfl⟩

namespace Ex70
-- chain of three grains over two ranks: (1 + 2 + 1) / 3
example : averageCoordination (K := ℚ) (fun _ => .ok true) [[[0], [0, 1]], [[2, 1], [1]]] 1 = .ok (4 / 3) := by
  decide +kernel
example : ∀ cells ∈ [[[0], [0, 1]], [[2, 1], [1]]], ∀ gs ∈ cells, ∀ g ∈ gs, (fun _ : Nat => Res.ok true) g = .ok true := by
  simp
example : grainsAt (fun op c => if c = op then some 5 else none) (fun op p => some (op + p)) 3 1 = [6] := by decide
end Ex70

end Verif.Props
