import Verif.Lemmas.Section
import Mathlib.Algebra.Field.Rat
import Mathlib.Algebra.Order.Ring.Rat
import Mathlib.Data.Fin.VecNotation
import Mathlib.Tactic.NormNum
/-!
# C118: sections of the mesh
-/
namespace Verif.Props
open BoxFilter Section Section.Spec

section C118
open Classical
variable {K : Type} [Field K] [LinearOrder K] [IsStrictOrderedRing K]

/-- The section: every cell that the plane meets gives one rectangle with four vertices of its own in lexicographic
order, and for every block the values of the trilinear function of the cell at these vertices. The other cells give
nothing. Without coarsening the rectangle carries the index of the cell, with coarsening it carries zero. -/
theorem C118_partial (eps tol t : K) (he : 0 ≤ eps) (ht : 0 ≤ t) (htol : t < tol) (dir : Fin 3) (loc : K)
    (nCoarsening nBlocks : Nat) (hb : 0 < nBlocks) (value : Nat → Nat → K) (owned : List (Cell K))
    (hp : ∀ c ∈ owned, Proper eps dir c.box) :
    ∃ P, build eps tol t dir loc nCoarsening nBlocks value owned = .ok P ∧
      P.vertices = (owned.filter fun c => Hit t dir loc c.box).flatMap (fun c => List.ofFn (corner dir c.box)) ∧
      P.cells = (owned.filter fun c => Hit t dir loc c.box).mapIdx (fun i c =>
        ([4 * i, 4 * i + 1, 4 * i + 2, 4 * i + 3], if nCoarsening = 0 then c.id else 0)) ∧
      P.solution = (List.range nBlocks).map fun b =>
        (owned.filter fun c => Hit t dir loc c.box).flatMap fun c => List.ofFn fun j =>
          trilinear c.box (fun i => value b (c.dofs i)) (point dir loc c.box j) := by
  let co := nCoarsening != 0
  have hco : ∀ c : Cell K, (if co then 0 else c.id) = if nCoarsening = 0 then c.id else 0 := by
    intro c
    by_cases h : nCoarsening = 0 <;> simp [co, h]
  have key : ∀ (todo done : List (Cell K)), (∀ c ∈ todo, Proper eps dir c.box) →
      todo.foldlM (cellStep eps tol t dir loc co value)
        ⟨done.flatMap (fun c => List.ofFn (corner dir c.box)),
         done.mapIdx (fun i c => ([4 * i, 4 * i + 1, 4 * i + 2, 4 * i + 3], if nCoarsening = 0 then c.id else 0)),
         (List.range nBlocks).map fun b => done.flatMap fun c => List.ofFn fun j =>
          trilinear c.box (fun i => value b (c.dofs i)) (point dir loc c.box j)⟩ =
      .ok ⟨(done ++ todo.filter fun c => Hit t dir loc c.box).flatMap (fun c => List.ofFn (corner dir c.box)),
         (done ++ todo.filter fun c => Hit t dir loc c.box).mapIdx (fun i c =>
           ([4 * i, 4 * i + 1, 4 * i + 2, 4 * i + 3], if nCoarsening = 0 then c.id else 0)),
         (List.range nBlocks).map fun b => (done ++ todo.filter fun c => Hit t dir loc c.box).flatMap fun c =>
          List.ofFn fun j => trilinear c.box (fun i => value b (c.dofs i)) (point dir loc c.box j)⟩ := by
    intro todo
    induction todo with
    | nil => intro done _; simp
    | cons c l ih =>
      intro done h
      rw [List.foldlM_cons]
      by_cases hh : Hit t dir loc c.box
      · rw [cellStep_hit eps tol t he ht htol dir loc co value c (h c (by simp)) hh _ _ _ nBlocks (4 * done.length) hb
          (by intro b; simp [List.length_flatMap, Nat.mul_comm]), Res.ok_bind]
        have := ih (done ++ [c]) (fun c' hc' => h c' (by simp [hc']))
        simp only [List.flatMap_append, List.flatMap_singleton, List.mapIdx_append, List.mapIdx_cons, List.mapIdx_nil,
          Nat.zero_add, List.append_assoc, List.singleton_append,
          List.filter_cons, hh, decide_true, if_true] at this ⊢
        rw [hco]
        exact this
      · rw [cellStep_miss eps tol t ht dir loc co value c (h c (by simp)) hh, Res.ok_bind,
          ih done (fun c' hc' => h c' (by simp [hc']))]
        simp [hh]
  have h0 := key owned [] hp
  simp only [List.flatMap_nil, List.mapIdx_nil, List.nil_append] at h0
  unfold build
  have hrep : List.replicate nBlocks ([] : List K) = (List.range nBlocks).map fun _ => [] := by
    rw [List.map_const']; simp
  rw [hrep]
  exact ⟨_, h0, rfl, rfl, rfl⟩

/-- The values of the section stay between the smallest and the largest value of the cell, if the plane really meets
the cell. -/
theorem C118_bounds (dir : Fin 3) (loc : K) (b : Box K 3) (hb : ∀ d, b.lower d < b.upper d) (hh : Hit 0 dir loc b)
    (v : Fin 8 → K) (lo hi : K) (hv : ∀ i, lo ≤ v i ∧ v i ≤ hi) (j : Fin 4) :
    lo ≤ trilinear b v (point dir loc b j) ∧ trilinear b v (point dir loc b j) ≤ hi := by
  rw [← trilinear_edge dir loc b hb v j]
  have hpos : 0 < b.upper dir - b.lower dir := sub_pos.2 (hb dir)
  obtain ⟨h1, h2⟩ := hh
  rw [zero_mul, sub_zero] at h1
  rw [zero_mul, add_zero] at h2
  have f0 : 0 ≤ frac b dir loc := div_nonneg (by linarith) hpos.le
  have f1 : frac b dir loc ≤ 1 := (div_le_one hpos).2 (by linarith)
  obtain ⟨a1, a2⟩ := hv (edge dir j).1
  obtain ⟨b1, b2⟩ := hv (edge dir j).2
  constructor
  · nlinarith [mul_nonneg f0 (sub_nonneg.2 b1), mul_nonneg (sub_nonneg.2 f1) (sub_nonneg.2 a1)]
  · nlinarith [mul_nonneg f0 (sub_nonneg.2 b2), mul_nonneg (sub_nonneg.2 f1) (sub_nonneg.2 a2)]

/-- A plane through the common face of two cells is covered twice: both cells give the same rectangle. -/
theorem C118_face_violated (eps tol t : K) (he : 0 ≤ eps) (ht : 0 ≤ t) (htol : t < tol) (dir : Fin 3)
    (value : Nat → Nat → K) (c1 c2 : Cell K) (h1 : Proper eps dir c1.box) (h2 : Proper eps dir c2.box)
    (hface : c1.box.upper dir = c2.box.lower dir)
    (hrest : ∀ k : Fin 2, c1.box.lower (dir.succAbove k) = c2.box.lower (dir.succAbove k) ∧
      c1.box.upper (dir.succAbove k) = c2.box.upper (dir.succAbove k)) :
    ∃ P, build eps tol t dir (c1.box.upper dir) 0 1 value [c1, c2] = .ok P ∧
      P.vertices = List.ofFn (corner dir c1.box) ++ List.ofFn (corner dir c1.box) ∧ P.cells.length = 2 := by
  have hs1 : 0 ≤ t * (c1.box.upper dir - c1.box.lower dir) := mul_nonneg ht (sub_nonneg.2 (h1.1 dir).le)
  have hs2 : 0 ≤ t * (c2.box.upper dir - c2.box.lower dir) := mul_nonneg ht (sub_nonneg.2 (h2.1 dir).le)
  have hit1 : Hit t dir (c1.box.upper dir) c1.box := ⟨by linarith [h1.1 dir], by linarith⟩
  have hit2 : Hit t dir (c1.box.upper dir) c2.box := ⟨by linarith, by rw [hface]; linarith [h2.1 dir]⟩
  obtain ⟨P, hP, hv, hc, -⟩ := C118_partial eps tol t he ht htol dir (c1.box.upper dir) 0 1 (by decide) value [c1, c2]
    (by intro c hc; simp at hc; rcases hc with rfl | rfl <;> assumption)
  refine ⟨P, hP, ?_, ?_⟩
  · rw [hv]
    have : corner dir c2.box = corner dir c1.box := by
      funext j k
      unfold corner
      rw [(hrest k).1, (hrest k).2]
    simp [hit1, hit2, this]
  · rw [hc]; simp [hit1, hit2]

/-- A cell thinner than the tolerance of the intersection of lines and planes has no vertices in the section although
the plane meets it: the rectangle refers to vertices that do not exist, and the four values are zero. -/
theorem C118_thin_violated (eps tol t : K) (he : 0 ≤ eps) (ht : 0 ≤ t) (dir : Fin 3) (loc : K) (value : Nat → Nat → K)
    (c : Cell K) (hc : ∀ d, c.box.lower d < c.box.upper d) (hthin : c.box.upper dir - c.box.lower dir ≤ eps)
    (hh : Hit t dir loc c.box) :
    build eps tol t dir loc 0 1 value [c] =
      .ok ⟨[], [(List.replicate 4 4294967295, 0)], [[0, 0, 0, 0]]⟩ := by
  unfold build
  rw [List.foldlM_cons]
  unfold cellStep
  dsimp only
  rw [if_pos ((pointInside_ref t ht dir loc c.box hc).2 hh)]
  have hstep : ∀ (s : Local K) (l : Fin 8 × Fin 8),
      lineStep eps tol dir loc (0 != 0) value c s l = .ok s := by
    intro s l
    unfold lineStep
    have : intersectLinePlane eps (vertex c.box l.1) (vertex c.box l.2) (fun d => if d = dir then loc else 0)
        (fun d => if d = dir then (1 : K) else 0) = none := by
      unfold intersectLinePlane
      dsimp only
      rw [unit_dot, if_neg]
      rw [not_lt]
      have hlt := hc dir
      simp only [Pi.sub_apply, vertex]
      split_ifs
      · simpa using he
      · rw [abs_of_pos (by linarith)]; exact hthin
      · rw [abs_sub_comm, abs_of_pos (by linarith)]; exact hthin
      · simpa using he
    rw [this]
  have hfold : ∀ (ls : List (Fin 8 × Fin 8)) (s : Local K),
      ls.foldlM (lineStep eps tol dir loc (0 != 0) value c) s = .ok s := by
    intro ls
    induction ls with
    | nil => intro s; rfl
    | cons l ls ih => intro s; rw [List.foldlM_cons, hstep, Res.ok_bind, ih]
  rw [hfold, Res.ok_bind]
  rfl

/-- With coarsening the numbers of the unknowns are those of the coarse mesh, but the values are read from the vector
of the fine mesh. Here the cube of side two is the coarse cell, its eight children are numbered from the lower corner
on, and the field is the first coordinate: the fine vector starts with the values 0, 1, 0, 1, ... of the first child,
the coarse one with 0, 2, 0, 2, .... In the section the field has the value 1 at the vertices with coordinate 2. -/
theorem C118_coarse_violated : ∃ (fine coarse : Nat → Nat → ℚ) (c : Section.Cell ℚ) (P : Proj ℚ),
    (∀ i : Fin 8, coarse 0 (c.dofs i) = vertex c.box i 0) ∧
    (∀ i : Fin 8, fine 0 (c.dofs i) = vertex (⟨c.box.lower, fun d => (c.box.lower d + c.box.upper d) / 2⟩ : Box ℚ 3) i 0) ∧
    build (1 / 1000000) (1 / 10000000000) 0 2 (1 / 4) 1 1 fine [c] = .ok P ∧
    ∃ p, P.vertices[1]? = some p ∧ p 0 = 2 ∧ P.solution = [[0, 1, 0, 1]] := by
  let c : Section.Cell ℚ := ⟨⟨fun _ => 0, fun _ => 2⟩, 0, fun i => i⟩
  have hp : Proper (1 / 1000000) 2 c.box := by
    constructor
    · intro d; norm_num [c]
    · norm_num [c]
  have hh : Hit 0 2 (1 / 4 : ℚ) c.box := by unfold Hit; norm_num [c]
  obtain ⟨P, hP, hv, -, hs⟩ := C118_partial (1 / 1000000 : ℚ) (1 / 10000000000) 0 (by norm_num) (by norm_num) (by norm_num) 2
    (1 / 4) 1 1 (by decide) (fun _ i => if i % 2 = 0 then 0 else 1) [c] (by simpa using hp)
  refine ⟨fun _ i => if i % 2 = 0 then 0 else 1, fun _ i => if i % 2 = 0 then 0 else 2, c, P, ?_, ?_, hP, ?_⟩
  · decide +kernel
  · decide +kernel
  · have hf : ([c].filter fun c => Hit 0 2 (1 / 4 : ℚ) c.box) = [c] := by
      rw [List.filter_cons, if_pos (decide_eq_true hh), List.filter_nil]
    rw [hf] at hv hs
    refine ⟨corner 2 c.box 1, ?_, ?_, ?_⟩
    · rw [hv]; simp [List.ofFn_succ]
    · decide +kernel
    · rw [hs]; decide +kernel

end C118

namespace Ex118

/-- two unit cells side by side along the first axis -/
def cell (x : ℚ) (id : Nat) (dofs : Fin 8 → Nat) : Cell ℚ := ⟨⟨![x, 0, 0], ![x + 1, 1, 1]⟩, id, dofs⟩
def left : Cell ℚ := cell 0 5 ![0, 1, 2, 3, 4, 5, 6, 7]
def right : Cell ℚ := cell 1 6 ![1, 8, 3, 9, 5, 10, 7, 11]

/-- the value of unknown `i` is `10 i` -/
def value (_ i : Nat) : ℚ := 10 * i

def summary (r : Res (Proj ℚ)) : Option (List (ℚ × ℚ) × List (List Nat × Nat) × List (List ℚ)) :=
  match r with
  | .ok P => some (P.vertices.map (fun p => (p 0, p 1)), P.cells, P.solution)
  | _ => none

example : summary (build (1 / 1000000) (1 / 1000) 0 2 (1 / 4) 0 1 value [left, right]) =
    some ([(0, 0), (1, 0), (0, 1), (1, 1), (1, 0), (2, 0), (1, 1), (2, 1)],
      [([0, 1, 2, 3], 5), ([4, 5, 6, 7], 6)],
      [[10, 20, 30, 40, 20, 85, 40, 95]]) := by decide +kernel

/-- the plane through the face between the cells -/
example : summary (build (1 / 1000000) (1 / 1000) 0 0 1 0 1 value [left, right]) =
    some ([(0, 0), (1, 0), (0, 1), (1, 1), (0, 0), (1, 0), (0, 1), (1, 1)],
      [([0, 1, 2, 3], 5), ([4, 5, 6, 7], 6)],
      [[10, 30, 50, 70, 10, 30, 50, 70]]) := by decide +kernel

example : Proper (1 / 1000000) 2 left.box := by
  constructor
  · intro d; fin_cases d <;> norm_num [left, cell]
  · simp only [left, cell]; decide +kernel

example : Hit 0 2 (1 / 4 : ℚ) left.box := by unfold Hit; decide +kernel

end Ex118

end Verif.Props
