import Verif.Lemmas.MeshStats
import Mathlib.Data.Fin.VecNotation
/-!
# C122: coarsened copies and statistics of a mesh
-/
namespace Verif.Props
open Verif Verif.MeshStats Verif.MeshStats.Spec

variable {n : Nat} {K : Type}

/-- C122 (partial). The copy coarsened `k` times is the mesh without all cells of the `k` finest levels (but never
without the coarse cells); the values at the vertices of its coarse cells are those of the mesh. Missing: elements of
higher degree, the transfer between ranks. -/
theorem C122_partial [NeZero n] (k : Nat) (hk : 0 < k) (f : List (Tree n K)) :
    ∃ g, coarsen k f = some g ∧ g.map shape = f.map (fun t => cut (nLevels f - 1 - k) (shape t)) ∧
      g.map vertex = f.map vertex := by
  refine ⟨coarsenRounds k f, ?_, coarsenRounds_shape k f, coarsenRounds_vertex k f⟩
  unfold coarsen
  rw [if_neg (by omega)]

/-- no coarsening, no copy -/
theorem C122_none [NeZero n] (f : List (Tree n K)) : coarsen 0 f = none := rfl

/-- the copy has `k` levels less (at least one), and not more cells -/
theorem C122_levels [NeZero n] (k : Nat) (f g : List (Tree n K)) (hg : coarsen k f = some g) :
    nLevels g - 1 = nLevels f - 1 - k ∧ (g.flatMap Tree.leaves).length ≤ (f.flatMap Tree.leaves).length ∧
    g.length = f.length := by
  have hg' : g = coarsenRounds k f := by
    unfold coarsen at hg
    split at hg
    · simp at hg
    · injection hg with hg; exact hg.symm
  subst hg'
  have hs := coarsenRounds_shape k f
  refine ⟨?_, ?_, ?_⟩
  · have key : ∀ e, nLevels (coarsenRounds k f) ≤ e + 1 ↔ ∀ t ∈ f, nLevels f - 1 - k ≤ e ∨ sheight (shape t) ≤ e := by
      intro e
      rw [nLevels_shape, hs]
      simp only [List.mem_map, forall_exists_index, and_imp, forall_apply_eq_imp_iff₂, sheight_cut_le]
    have h1 := (key (nLevels f - 1 - k)).2 fun t _ => .inl (Nat.le_refl _)
    by_contra hne
    have hlt : nLevels (coarsenRounds k f) - 1 < nLevels f - 1 - k := by omega
    have h2 := (key (nLevels (coarsenRounds k f) - 1)).1 (by omega)
    have h3 := (nLevels_shape f (nLevels (coarsenRounds k f) - 1)).2 (by
      simp only [List.mem_map, forall_exists_index, and_imp, forall_apply_eq_imp_iff₂]
      intro t ht
      exact (h2 t ht).resolve_left (by omega))
    omega
  · rw [leaves_forest, leaves_forest, hs, List.map_map, List.map_map]
    have : ∀ l : List (Tree n K), ((l.map (scount ∘ fun t => cut (nLevels f - 1 - k) (shape t))).sum ≤
        (l.map (scount ∘ shape)).sum) := by
      intro l
      induction l with
      | nil => simp
      | cons t l ih =>
        simp only [List.map_cons, List.sum_cons, Function.comp_apply] at ih ⊢
        have := scount_cut (shape t) (nLevels f - 1 - k)
        omega
    exact this f
  · have := congrArg List.length hs
    simpa using this

/-- The numbers of cells with and without hanging nodes, summed over the ranks, are those of the mesh: they do not
depend on the partition, and together they are all active cells (the assertion in the code holds). -/
theorem C122_hanging (R : Nat) (f : List (Tree n K)) (hr : ∀ c ∈ f.flatMap Tree.leaves, c.rank < R) :
    (∀ w, sumRanks R (fun r => countHanging r w f) = ((f.flatMap Tree.leaves).filter fun c => c.hanging == w).length) ∧
    sumRanks R (fun r => countHanging r true f) + sumRanks R (fun r => countHanging r false f) =
      (f.flatMap Tree.leaves).length := by
  have h : ∀ w, sumRanks R (fun r => countHanging r w f) = ((f.flatMap Tree.leaves).filter fun c => c.hanging == w).length :=
    fun w => sum_filter_rank R (fun c => c.hanging == w) _ hr
  refine ⟨h, ?_⟩
  rw [h, h]
  generalize f.flatMap Tree.leaves = l
  induction l with
  | nil => rfl
  | cons c l ih =>
    rw [List.filter_cons, List.filter_cons, List.length_cons, ← ih]
    cases c.hanging
    · rw [if_neg (by decide), if_pos (by decide), List.length_cons]; omega
    · rw [if_pos (by decide), if_neg (by decide), List.length_cons]; omega

open Classical in
/-- "n cell fine batch": the cells of a rank in families of active cells that all belong to the rank; no mark is set
outside of the vector -/
theorem C122_unrefined (r N : Nat) (f : List (Tree n K)) (hN : Numbered N f) :
    unrefined r N f = .ok ((f.flatMap Tree.leaves).filter fun c => decide (∃ t ∈ f, InOwnFamily r c t)).length := by
  have hsub : ((f.flatMap Tree.families).flatMap (markCells r)).Sublist (f.flatMap Tree.leaves) := by
    rw [List.flatMap_assoc]
    have : ∀ l : List (Tree n K), (l.flatMap fun t => t.families.flatMap (markCells r)).Sublist (l.flatMap Tree.leaves) := by
      intro l
      induction l with
      | nil => simp
      | cons t l ih =>
        rw [List.flatMap_cons, List.flatMap_cons]
        exact (marks_sublist r t).append ih
    exact this f
  have hfold : (f.flatMap Tree.families).foldlM (markFamily r) (List.replicate N false) =
      ((f.flatMap Tree.families).flatMap (markCells r)).foldlM setMark (List.replicate N false) := by
    rw [← foldlM_flatMap (markCells r) setMark (f.flatMap Tree.families), show markFamily r = fun fl (ch : Fin n → Tree n K) => (markCells r ch).foldlM setMark fl from
      funext fun fl => funext fun ch => markFamily_eq r fl ch]
  obtain ⟨fl', h1, h2⟩ := setMark_count ((f.flatMap Tree.families).flatMap (markCells r)) (List.replicate N false)
    (hN.1.sublist (hsub.map _)) (by
      intro c hc
      have := hN.2 c (hsub.subset hc)
      simp [this])
  unfold unrefined
  rw [hfold, h1, Res.ok_bind, h2]
  congr 1
  rw [List.count_replicate]
  simp only [Bool.false_beq, Bool.not_true, Bool.false_eq_true, if_false, Nat.zero_add]
  refine List.Perm.length_eq ((List.perm_ext_iff_of_nodup ?_ ?_).2 ?_)
  · exact (hN.1.of_map _).sublist hsub
  · exact (hN.1.of_map _).filter _
  · intro c
    rw [List.mem_filter, decide_eq_true_iff]
    have hmem : c ∈ (f.flatMap Tree.families).flatMap (markCells r) ↔ ∃ t ∈ f, InOwnFamily r c t := by
      rw [List.flatMap_assoc, List.mem_flatMap]
      exact exists_congr fun t => and_congr_right fun _ => marks_mem r t c
    rw [hmem]
    exact ⟨fun h => ⟨hsub.subset (hmem.2 h), h⟩, fun h => h.2⟩

/-- in one and two dimensions the number of theoretical fine cells is that of the uniformly refined mesh with as many
levels, which no mesh exceeds -/
theorem C122_theoretical (dim : Nat) (h1 : 1 ≤ dim) (h2 : dim ≤ 2) (f : List (Tree (2 ^ dim) K)) :
    theoretical dim f = uniformCells (2 ^ dim) (nLevels f - 1) f.length ∧
    (f.flatMap Tree.leaves).length ≤ theoretical dim f := by
  have hb : 2 * dim = 2 ^ dim := by
    rcases (by omega : dim = 1 ∨ dim = 2) with rfl | rfl <;> rfl
  have he : theoretical dim f = uniformCells (2 ^ dim) (nLevels f - 1) f.length := by
    unfold theoretical uniformCells
    rw [hb]
  refine ⟨he, ?_⟩
  rw [he, leaves_forest]
  unfold uniformCells
  have : ∀ l : List (Tree (2 ^ dim) K), (∀ t ∈ l, t ∈ f) → ((l.map shape).map scount).sum ≤ l.length * (2 ^ dim) ^ (nLevels f - 1) := by
    intro l hl
    induction l with
    | nil => simp
    | cons t l ih =>
      have ih' := ih fun t ht => hl t (List.mem_cons_of_mem _ ht)
      have hlev := (nLevels_le f (nLevels f)).1 (Nat.le_refl _) t (hl t List.mem_cons_self)
      have := scount_le (shape t) (nLevels f - 1) (by rw [← height_shape]; omega)
      simp only [List.map_cons, List.sum_cons, List.length_cons, Nat.add_mul, Nat.one_mul]
      omega
  exact this f fun _ h => h

namespace Ex122
def cell (id rank : Nat) (h : Bool) : Tree 4 Nat := .leaf { id := id, rank := rank, hanging := h, value := fun i => 10 * id + i }
/-- a square refined once, one of its cells refined again; and a square that is not refined -/
def mesh : List (Tree 4 Nat) :=
  [.node ![cell 1 0 true, cell 2 0 true, cell 3 1 false, .node ![cell 4 1 true, cell 5 1 true, cell 6 1 true, cell 7 1 true]],
    cell 0 0 true]

example : nLevels mesh = 3 ∧ (mesh.flatMap Tree.leaves).length = 8 := by decide +kernel
example : ((coarsenRounds 1 mesh).flatMap Tree.leaves).map (fun c => (c.id, c.value 0, c.value 3)) =
    [(1, 10, 13), (2, 20, 23), (3, 30, 33), (4, 40, 73), (0, 0, 3)] := by decide +kernel
example : ((coarsenRounds 2 mesh).flatMap Tree.leaves).map (fun c => (c.id, c.value 0, c.value 1, c.value 3)) =
    [(1, 10, 21, 73), (0, 0, 1, 3)] := by decide +kernel
example : sumRanks 2 (fun r => countHanging r true mesh) = 7 ∧ sumRanks 2 (fun r => countHanging r false mesh) = 1 := by
  decide +kernel
example : Numbered 8 mesh := by
  constructor
  · decide +kernel
  · have : ∀ c ∈ (mesh.flatMap Tree.leaves).map ACell.id, c < 8 := by decide +kernel
    intro c hc
    exact this _ (List.mem_map_of_mem hc)
example : unrefined 1 8 mesh = .ok 4 ∧ unrefined 0 8 mesh = .ok 0 := by decide +kernel
example : theoretical 2 mesh = 32 := by decide +kernel
end Ex122

/-- in three dimensions the number of theoretical fine cells is too small: a cube refined once has eight cells, printed
are six -/
theorem C122_theoretical_violated : ¬ (∀ f : List (Tree (2 ^ 3) Unit),
    (f.flatMap Tree.leaves).length ≤ theoretical 3 f) ∧
    ¬ (∀ f : List (Tree (2 ^ 3) Unit), theoretical 3 f = uniformCells (2 ^ 3) (nLevels f - 1) f.length) := by
  constructor
  · intro h
    exact absurd (h [.node fun _ => .leaf ⟨0, 0, false, fun _ => ()⟩]) (by decide +kernel)
  · intro h
    exact absurd (h [.node fun _ => .leaf ⟨0, 0, false, fun _ => ()⟩]) (by decide +kernel)

/-- the number of cells in fine batches depends on the partition: a family divided between two ranks is not counted -/
theorem C122_partition_violated : ¬ (∀ (f g : List (Tree 4 Unit)), f.map shape = g.map shape → Numbered 4 f →
    Numbered 4 g → ∀ x y x' y', unrefined 0 4 f = .ok x → unrefined 1 4 f = .ok y → unrefined 0 4 g = .ok x' →
    unrefined 1 4 g = .ok y' → x + y = x' + y') := by
  intro h
  have hn : ∀ r : Fin 4 → Nat, Numbered 4 [.node fun i => .leaf ⟨i.val, r i, false, fun _ => ()⟩] := by
    intro r
    constructor
    · show [0, 1, 2, 3].Nodup
      decide
    · intro c hc
      have : c.id ∈ [0, 1, 2, 3] := List.mem_map_of_mem (f := ACell.id) hc
      revert this
      generalize c.id = i
      intro hi
      simp at hi
      omega
  have := h [.node fun i => .leaf ⟨i.val, 0, false, fun _ => ()⟩] [.node fun i => .leaf ⟨i.val, i.val / 2, false, fun _ => ()⟩]
    rfl (hn _) (hn _) 4 0 0 0 (by decide +kernel) (by decide +kernel) (by decide +kernel) (by decide +kernel)
  omega

end Verif.Props
