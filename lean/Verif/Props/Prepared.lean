import Verif.Lemmas.Prepared
import Mathlib.Data.Rat.Defs
import Mathlib.Algebra.Ring.Rat

/-!
# Life of the preconditioners (C145)

For all runs of the driver (solves, changes of mesh or of the number of components, failed steps): every application of the preconditioner works
with matrices of the present shape, computed from the data of the latest Newton step in which an update was due.
-/

namespace Verif.Props
open Verif Verif.Prepared Verif.Spec.Prepared

section
variable {S D M : Type} [DecidableEq S] [AddMonoid M]

/-- Preconditioner as constructed for shape `s`: items with their classes. -/
def C145start (ks : List (Item S D M × Kind)) (s : S) : St S D M :=
  ⟨s, ks.map fun ik => (ik.1, ⟨none, []⟩, Part.make ik.1.disc ik.2 s), 0, 0⟩

omit [DecidableEq S] [AddMonoid M] in
theorem C145start_inv (c : Newton) (ks : List (Item S D M × Kind)) (s : S) : RunInv c ks s [] (C145start ks s) := by
  refine ⟨?_, rfl, rfl, fun h => absurd rfl h⟩
  show AllInv ks s s (ks.map fun ik => (ik.1, ⟨none, []⟩, Part.make ik.1.disc ik.2 s))
  induction ks with
  | nil => exact .nil
  | cons a ks ih =>
    exact .cons ⟨rfl, ⟨fun m h => by simp at h, Or.inl rfl⟩, rfl, rfl, Or.inr (Or.inl rfl)⟩ ih

/-- All runs end without exception or undefined behaviour, and every Newton step applies the matrices of the data and of the shape it should. -/
theorem C145_run_partial (c : Newton) (hc : c.thresholdNewton ≠ 0) (ks : List (Item S D M × Kind)) (s0 : S) (es : List (Event S D))
    (hf : ∀ s ∈ s0 :: shapes (es.map toEv), ∀ ik ∈ ks, Fits ik.1.disc ik.2 ik.1.inner s0 s) :
    ∃ outs st, run c es (C145start ks s0) = .ok (outs, st) ∧
      List.Forall₂ (List.Forall₂ fun (sh : S × List (D × Nat)) out =>
          ∃ d, Source c.thresholdNewton c.thresholdLinear sh.2 d ∧ out = ks.map fun ik => wanted ik.1.disc ik.2 sh.1 d)
        (trace c.reuse (es.map toEv) s0 []) outs :=
  run_ok c hc ks s0 es [] (C145start ks s0) (C145start_inv c ks s0) hf

omit [DecidableEq S] [AddMonoid M] in
/-- These data are determined, and exist for every sequence of steps. -/
theorem C145_source (every limit : Nat) (past : List (D × Nat)) (hne : past ≠ []) :
    ∃ d, Source every limit past d ∧ ∀ d', Source every limit past d' → d' = d := by
  classical
  have hex : ∃ j, j < past.length ∧ Due every limit past j ∧ ∀ i, j < i → i < past.length → ¬ Due every limit past i := by
    by_contra hno
    have : ∀ k, ∀ j, j + k = past.length → ∀ i, j ≤ i → i < past.length → ¬ Due every limit past i := by
      intro k
      induction k with
      | zero => intro j hj i h1 h2; omega
      | succ k ih =>
        intro j hj i h1 h2 hd
        by_cases hij : i = j
        · subst hij
          exact hno ⟨i, h2, hd, fun i' h3 h4 => ih (i + 1) (by omega) i' h3 h4⟩
        · exact ih (j + 1) (by omega) i (by omega) h2 hd
    exact this past.length 0 (by omega) 0 (Nat.le_refl _) (List.length_pos_iff.2 hne) (Or.inl (by simp))
  obtain ⟨j, hj, hd, hl⟩ := hex
  refine ⟨past[j].1, ⟨j, past[j].2, by simp [hj], hd, hl⟩, ?_⟩
  rintro d' ⟨j', n', hj', hd', hl'⟩
  have hj'l : j' < past.length := by
    by_contra hc
    rw [List.getElem?_eq_none (by omega)] at hj'
    simp at hj'
  have : j' = j := by
    rcases Nat.lt_trichotomy j' j with h | h | h
    · exact absurd hd (hl' j h hj)
    · exact h
    · exact absurd hd' (hl j' h hj'l)
  subst this
  rw [List.getElem?_eq_getElem hj'l] at hj'
  injection hj' with hj'
  rw [hj']

/-- With a limit of one Newton step the data are those of the step itself. -/
theorem C145_every_step (limit : Nat) (past : List (D × Nat)) (it : D × Nat) (d : D) (h : Source 1 limit (past ++ [it]) d) : d = it.1 := by
  obtain ⟨j, n, hj, _, hl⟩ := h
  have hjl : j < (past ++ [it]).length := by
    by_contra hc
    rw [List.getElem?_eq_none (by omega)] at hj
    simp at hj
  have hlen : (past ++ [it]).length = past.length + 1 := by simp
  have : j = past.length := by
    by_contra hne
    exact hl past.length (by omega) (by omega) (Or.inl (Nat.one_dvd _))
  subst this
  simp at hj
  rw [hj]

omit [AddMonoid M] in
/-- An application before the first update is undefined, unless nothing is to be done. -/
theorem C145_unprepared (i : Item S D M) (k : Kind) (s : S) (hk : k ≠ .identity) (hg : k ≠ .gmg) (hc : 0 < i.disc.comps s) :
    applyPart i.disc s (Part.make i.disc k s) = .ub := by
  obtain ⟨m, hm⟩ : ∃ m, i.disc.comps s = m + 1 := ⟨i.disc.comps s - 1, by omega⟩
  cases k <;> simp_all [applyPart, Part.make, blockMatrix, Res.index, workShape, List.range_succ_eq_map, List.mapM_cons]

/-- Memory can be reported unless a class without the function is in use. -/
theorem C145_memory_partial (asked : Bool) (parts : List Kind)
    (h : ∀ k ∈ parts, k ≠ .componentBlocks ∧ k ≠ .cellBlocks ∧ k ≠ .gmg) : reportMemory asked parts = .ok () := by
  unfold reportMemory
  rw [if_neg]
  simp only [Bool.and_eq_true, Bool.not_eq_true', not_and]
  intro _
  rw [Bool.not_eq_false, List.all_eq_true]
  intro k hk
  obtain ⟨h1, h2, h3⟩ := h k (List.mem_of_mem_take hk)
  cases k <;> simp_all [reportsMemory]

end

namespace Ex145

/-- An operator whose shape is its number of components; matrices are numbers. -/
def op (own single : Bool) : Disc Nat ℚ ℚ where
  comps s := s
  unique s := if single then 1 else s
  implemented s := decide (s ≠ 1)
  own := own
  system s d := d * s
  block s d b := d + b / 10 + s / 100
  diagonal s d := d + s

/-- The matrices applied. -/
def matrices {α β : Type} (r : Res (α × β)) : Res α := r.bind fun x => .ok x.1

def cfg : Newton := ⟨2, 5, true⟩

/-- Two components for the first, the order parameters for the second part. -/
def ks : List (Item Nat ℚ ℚ × Kind) := [(⟨op false false, true⟩, .ilu), (⟨op true false, true⟩, .blockIlu)]

def es : List (Event Nat ℚ) := [.solve [(1, 3), (2, 9), (3, 1)], .reshape 3, .solve [(4, 2), (5, 2)], .failed, .solve [(6, 1)]]

/-- The run: the third step is computed anew as the second one took nine iterations. -/
example : matrices (run cfg es (C145start ks 2)) = .ok
    [[[[2], [102/100, 112/100]], [[2], [102/100, 112/100]], [[6], [302/100, 312/100]]], [],
     [[[12], [403/100, 413/100, 423/100]], [[12], [403/100, 413/100, 423/100]]], [], [[[18], [603/100, 613/100, 623/100]]]] := by
  decide +kernel

example : ∀ s ∈ 2 :: shapes (es.map toEv), ∀ ik ∈ ks, Fits ik.1.disc ik.2 ik.1.inner 2 s := by
  simp [es, ks, toEv, shapes, Fits, op]

example : ∃ outs st, run cfg es (C145start ks 2) = .ok (outs, st) := by
  obtain ⟨outs, st, h, _⟩ := C145_run_partial cfg (by decide) ks 2 es (by simp [es, ks, toEv, shapes, Fits, op])
  exact ⟨outs, st, h⟩

example : Source 2 5 [((1 : ℚ), 3), (2, 9), (3, 1)] 3 := ⟨2, 1, rfl, Or.inl (by decide), fun i h1 h2 => by simp at h2; omega⟩

/-- `BlockAMG` with one matrix for all order parameters (C88): the first application leaves the array. -/
theorem C145_one_matrix_violated :
    matrices (run cfg [.solve [(1, 3)]] (C145start [(⟨op true true, true⟩, .blockAmg)] 2)) = .ub := by
  decide +kernel

/-- `BlockILU` constructed for one component: after a change to two components the update throws. -/
theorem C145_first_shape_violated :
    matrices (run cfg [.reshape 2, .solve [(1, 3)]] (C145start [(⟨op true false, true⟩, .blockIlu)] 1)) = .exc .assertThrow := by
  decide +kernel

/-- One order parameter: the update throws for every class, as the matrix of `OperatorAllenCahn` is always computed, also if it is not used. -/
theorem C145_one_grain_violated :
    (∀ k ∈ [Kind.amg, .ilu, .ic, .inverseDiagonal, .blockAmg, .blockIlu],
      matrices (run cfg [.solve [(1, 3)]] (C145start [(⟨op true false, true⟩, k)] 1)) = .exc .assertThrow) := by
  decide +kernel

/-- A change of the number of components without `clear` is undefined. -/
theorem C145_no_clear_violated :
    matrices ((run cfg [.solve [(1, 3)]] (C145start ks 2)).bind fun r => run ⟨1, 5, true⟩ [.solve [(2, 3)]] { r.2 with shape := 3 }) = .ub := by
  decide +kernel

/-- "NewtonThresholdNewtonIterations" of zero: undefined in the first step. -/
theorem C145_threshold_violated : matrices (run ⟨0, 5, true⟩ [.solve [(1, 3)]] (C145start ks 2)) = .ub := by
  decide +kernel

/-- Report of the memory with preconditioners that do not know theirs. -/
theorem C145_memory_violated : ∀ k ∈ [Kind.componentBlocks, .cellBlocks, .gmg], reportMemory true [k] = .exc .assertThrow := by
  decide

/-- Blocks are counted twice, the data of the model not at all. -/
theorem C145_total_violated : ∃ b d : Nat, operatorMemory 0 0 [b] 0 0 0 0 ≠ b ∧ totalMemory 0 0 0 0 d 0 0 0 ≠ d :=
  ⟨1, 1, by decide, by decide⟩

end Ex145
end Verif.Props
