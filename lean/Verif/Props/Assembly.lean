/-
Assembled matrices and application without matrix.
-/
import Verif.Lemmas.Assembly
import Verif.Props.OpBase
import Mathlib.Algebra.Field.Rat
import Mathlib.Algebra.Order.Ring.Rat
import Mathlib.Tactic.NormNum

namespace Verif.Props
open Verif.Assembly Verif.Assembly.Spec Verif.OpBase

section
variable {K : Type} [Field K] [LinearOrder K] [IsStrictOrderedRing K]

/-- What the model takes from `DoFHandler::distribute_dofs`. -/
def Placed (n : Nat) (place : Nat → Obj × Nat) (unplace : Nat → Nat × Nat) : Prop :=
  Numbering n (fun v => (((place v).1.offset, (place v).1.size), (place v).2))
    (fun v b => systemIndex n (place v).1 (place v).2 b) unplace

omit [Field K] [LinearOrder K] [IsStrictOrderedRing K] in
/-- **C133** (numbering).  If every vertex, line, quadrilateral and hexahedron carries one degree of freedom per component, or if there is
one component, then the constraints of the matrix are those of hanging nodes for components stored next to each other. -/
theorem C133_numbering {n : Nat} (hn : 0 < n) {place : Nat → Obj × Nat} {unplace : Nat → Nat × Nat} (h : Placed n place unplace)
    (h1 : n = 1 ∨ ∀ v, (place v).1.size = 1) (hanging : Lines K) :
    matrixLines n place unplace hanging = interleave n hanging := by
  have hs : ∀ v, ∀ b < n, systemIndex n (place v).1 (place v).2 b = v * n + b := by
    intro v b hb
    have hp := h.place v
    simp only at hp
    unfold systemIndex
    rcases h1 with rfl | h1
    · obtain rfl : b = 0 := by omega
      omega
    · rw [h1 v] at hp ⊢
      have h0 : (place v).2 = 0 := by omega
      rw [h0] at hp ⊢
      have hv : (place v).1.offset = v := by omega
      rw [hv]
      ring
  funext g
  have hg : unplace g = (g / n, g % n) := by
    have := h.unplace (g / n) (g % n) (Nat.mod_lt _ hn)
    rw [hs _ _ (Nat.mod_lt _ hn), Nat.mul_comm, Nat.div_add_mod] at this
    exact this
  unfold matrixLines interleave
  rw [hg]
  simp only
  congr 1
  funext l
  apply List.map_congr_left
  intro e _
  rw [hs _ _ (Nat.mod_lt _ hn)]

/-- **C133** (numbering, exactly).  The numbering of the matrix agrees with the one of its constraints if and only if the object carries at
most one degree of freedom per component or there is at most one component. -/
theorem C133_numbering_exact (n : Nat) (o : Obj) :
    (∀ l < o.size, ∀ b < n, systemIndex n o l b = (o.offset + l) * n + b) ↔ o.size ≤ 1 ∨ n ≤ 1 := by
  constructor
  · intro h
    by_contra hc
    have h1 := h 1 (by omega) 0 (by omega)
    unfold systemIndex at h1
    rw [Nat.add_mul] at h1
    omega
  · intro h l hl b hb
    unfold systemIndex
    rcases h with h | h
    · obtain rfl : l = 0 := by omega
      obtain hs : o.size = 1 := by omega
      rw [hs]; ring
    · obtain rfl : n = 1 := by omega
      obtain rfl : b = 0 := by omega
      omega

/-- **C133** (partial).  Without periodicity, with at most one degree of freedom per component on every object and if no entry of a local
matrix but zeros is dropped, the product of the assembled matrix with a vector is, in all rows of unconstrained unknowns, the result of the
operator without matrix, for every mesh, all linear local operators, all constraints by hanging nodes and whatever was in the matrix
before. -/
theorem C133_partial {tol : K} (htol : 0 ≤ tol) (diag : (Nat → Nat → K) → Nat → K) {n : Nat} (lex : List Nat)
    {place : Nat → Obj × Nat} {unplace : Nat → Nat × Nat} (hplace : Placed n place unplace)
    (hone : n = 1 ∨ ∀ v, (place v).1.size = 1) {hanging : Lines K} (periodic : Lines K) (batches : List (List (Cell K)))
    (hclosed : Closed hanging) {size : Nat} (hin : Inside size hanging)
    (hcells : ∀ c ∈ batches.flatten, (∀ i < lex.length, mf lex c i < size) ∧ Linear (n * lex.length) c.loc ∧
      NoSmall tol (n * lex.length) (localMatrix c))
    {idx : List Nat} (hnd : idx.Nodup) (hidx : ∀ i, i ∈ idx ↔ (problemLines false hanging periodic i).isSome)
    (old : Option (Nat → Nat → K)) (src : Nat × Nat → K) {r b : Nat} (hb : b < n) (hr : hanging r = none) :
    apply (size * n) (systemMatrix tol diag n lex (matrixLines n place unplace hanging) batches old) (interleaved n src) (r * n + b) =
      (vmultBlock (vmultInternal n lex (problemLines false hanging periodic) batches) n idx src).2 (b, r) := by
  have hpl : problemLines false hanging periodic = hanging := by
    funext i
    unfold problemLines
    cases hanging i <;> rfl
  rw [hpl] at hidx ⊢
  have hni : ¬ ((b, r).1 < n ∧ (b, r).2 ∈ idx) := by
    rintro ⟨_, h⟩
    have := (hidx r).1 h
    rw [hr] at this
    simp at this
  rw [(C78_block _ n hnd src).2 (b, r), if_neg hni, vmultInternal_eq _ _ _ _ _ _ hb,
    C133_numbering (Nat.lt_of_le_of_lt (Nat.zero_le _) hb) hplace hone]
  unfold apply
  rw [Finset.sum_congr rfl fun s _ => by rw [systemMatrix_eq]]
  rw [apply_list (size * n) batches.flatten (fun c r s => distribute diag (interleave n hanging) (index n lex c) (n * lex.length)
    (dropSmall tol (n * lex.length) (localMatrix c)) r s)]
  congr 1
  apply List.map_congr_left
  intro c hc
  obtain ⟨h1, h2, h3⟩ := hcells c hc
  rw [gather_zero lex hclosed c src n fun i hi => (hidx i).1 hi]
  exact cell_product diag n size lex hin c h1 h2 _ (fun i hi j hj => dropSmall_eq htol h3 hi hj) src hb hr

omit [IsStrictOrderedRing K] in
/-- **C133** (constrained rows).  In a row of a constrained unknown the matrix has entries on the diagonal only, and the same holds for its
column. -/
theorem C133_constrained (tol : K) (diag : (Nat → Nat → K) → Nat → K) (n : Nat) (lex : List Nat) {lines : Lines K} (hc : Closed lines)
    (batches : List (List (Cell K))) (old : Option (Nat → Nat → K)) {r s : Nat} (hrs : r ≠ s)
    (hr : (lines r).isSome ∨ (lines s).isSome) : systemMatrix tol diag n lex lines batches old r s = 0 := by
  rw [systemMatrix_eq]
  apply List.sum_eq_zero
  intro x hx
  obtain ⟨c, _, rfl⟩ := List.mem_map.1 hx
  unfold distribute
  rw [Finset.sum_eq_zero, Finset.sum_eq_zero, add_zero]
  · intro i _
    rw [if_neg]
    rintro ⟨_, h1, h2⟩
    exact hrs (h1.trans h2.symm)
  · intro i _
    apply Finset.sum_eq_zero
    intro j _
    rcases hr with hr | hr
    · rw [weight_zero hc hr]; ring
    · rw [weight_zero hc hr]; ring

/-- **C133** (dropped entries).  An entry of a local matrix is kept, or it is dropped and was smaller than `tol` times the greatest one. -/
theorem C133_dropped (tol : K) (N : Nat) (A : Nat → Nat → K) (i j : Nat) :
    dropSmall tol N A i j = A i j ∨
      (dropSmall tol N A i j = 0 ∧ ∃ m, |A i j| < tol * m ∧ ∀ M, 0 ≤ M → (∀ k < N, ∀ l < N, |A k l| ≤ M) → m ≤ M) := by
  unfold dropSmall
  split
  · rename_i h
    exact .inr ⟨rfl, maxAbs N A, h, fun M hM hA => maxAbs_le A hM hA⟩
  · exact .inl rfl

omit [IsStrictOrderedRing K] in
/-- **C133** (matrices of components).  For every component, the product of its matrix with a vector is the part of the operator without
matrix which acts in this component, in all rows of unconstrained unknowns; no entries are dropped and the constraints are those of the
problem, also with periodicity. -/
theorem C133_blocks (diag : (Nat → Nat → K) → Nat → K) (n : Nat) (lex : List Nat) {lines : Lines K} (batches : List (List (Cell K)))
    (hclosed : Closed lines) {size : Nat} (hin : Inside size lines)
    (hcells : ∀ c ∈ batches.flatten, (∀ i < lex.length, mf lex c i < size) ∧ Linear (n * lex.length) c.loc)
    {idx : List Nat} (hnd : idx.Nodup) (hidx : ∀ i, i ∈ idx ↔ (lines i).isSome) (x : Nat → K) {r b : Nat} (hb : b < n)
    (hr : lines r = none) :
    ∃ Ms, computeBlocks diag n lex lines batches (List.replicate n fun _ _ => 0) = .ok Ms ∧ ∃ M, Ms[b]? = some M ∧
      apply size M x r =
        (vmultBlock (vmultInternal n lex lines batches) n idx (fun k => if k.1 = b then x k.2 else 0)).2 (b, r) := by
  have hl : ¬ ((List.replicate n fun (_ _ : Nat) => (0 : K)).length < n ∧ batches.flatten ≠ []) := by
    rw [List.length_replicate]; omega
  refine ⟨_, by unfold computeBlocks; rw [if_neg hl], ?_⟩
  rw [List.getElem?_mapIdx, List.getElem?_replicate, if_pos hb]
  refine ⟨_, rfl, ?_⟩
  have hni : ¬ ((b, r).1 < n ∧ (b, r).2 ∈ idx) := by
    rintro ⟨_, h⟩
    have := (hidx r).1 h
    rw [hr] at this
    simp at this
  rw [(C78_block _ n hnd _).2 (b, r), if_neg hni, vmultInternal_eq _ _ _ _ _ _ hb]
  unfold apply
  beta_reduce
  rw [foldl_flatten]
  rw [Finset.sum_congr rfl fun s _ => by
    rw [foldl_add_apply₂ (fun c r s => if b < n then distribute diag lines (mf lex c) lex.length
      (block lex.length b (localMatrix c)) r s else 0), zero_add]]
  rw [apply_list size batches.flatten (fun c r s => if b < n then distribute diag lines (mf lex c) lex.length
      (block lex.length b (localMatrix c)) r s else 0)]
  congr 1
  apply List.map_congr_left
  intro c hc
  obtain ⟨h1, h2⟩ := hcells c hc
  rw [gather_zero lex hclosed c _ n fun i hi => (hidx i).1 hi]
  simp only [hb, if_true]
  exact block_product diag n size lex hin c h1 h2 x hb hr

omit [LinearOrder K] [IsStrictOrderedRing K] in
/-- **C133** (too few matrices).  With fewer matrices than components and at least one cell, `compute_matrix` writes past the end. -/
theorem C133_blocks_undefined (diag : (Nat → Nat → K) → Nat → K) (n : Nat) (lex : List Nat) (lines : Lines K)
    (batches : List (List (Cell K))) (Ms : List (Nat → Nat → K)) (h : Ms.length < n) (hb : batches.flatten ≠ []) :
    computeBlocks diag n lex lines batches Ms = .ub := by
  unfold computeBlocks
  rw [if_pos ⟨h, hb⟩]

end

namespace Ex133

/-- The diagonal as deal.II takes it. -/
def diag (A : Nat → Nat → ℚ) (i : Nat) : ℚ := |A i i|

/-- Stiffness of a bar. -/
def bar (x : Nat → ℚ) : Nat → ℚ := fun i => if i = 0 then x 0 - x 1 else x 1 - x 0

theorem bar_linear : Linear 2 bar := by
  constructor
  · intro x y i _; unfold bar; split <;> ring
  · intro a x i _; unfold bar; split <;> ring
  · intro x y h i _; unfold bar; rw [h 0 (by omega), h 1 (by omega)]

def cells : List (List (Cell ℚ)) := [[⟨[0, 1], bar⟩, ⟨[2, 1], bar⟩]]

/-- The node in the middle hangs on the other ones. -/
def hanging : Lines ℚ := fun i => if i = 1 then some [(0, 1/2), (2, 1/2)] else none

def place (v : Nat) : Obj × Nat := (⟨v, 1⟩, 0)

theorem placed : Placed 1 place fun g => (g, 0) := by
  constructor
  · intro v; simp [place]
  · intro v b hb
    obtain rfl : b = 0 := by omega
    simp [systemIndex, place]

/-- Two bars with a hanging node in the middle: the assembled matrix gives what the operator without matrix gives. -/
example (src : Nat × Nat → ℚ) (r : Nat) (hr : r ≠ 1) :
    apply (3 * 1) (systemMatrix (1/10^10) diag 1 [0, 1] (matrixLines 1 place (fun g => (g, 0)) hanging) cells none)
      (interleaved 1 src) (r * 1 + 0) =
    (vmultBlock (vmultInternal 1 [0, 1] (problemLines false hanging fun _ => none) cells) 1 [1] src).2 (0, r) := by
  refine C133_partial (by norm_num) diag [0, 1] placed (.inl rfl) _ cells ?_ ?_ ?_ (by simp) ?_ none src (by omega) (by simp [hanging, hr])
  · intro i l hl e he
    unfold hanging at hl ⊢
    split at hl
    · cases hl
      simp at he
      rcases he with rfl | rfl <;> simp
    · cases hl
  · intro i l hl e he
    unfold hanging at hl
    split at hl
    · cases hl
      simp at he
      rcases he with rfl | rfl <;> simp
    · cases hl
  · intro c hc
    have hc' : c = ⟨[0, 1], bar⟩ ∨ c = ⟨[2, 1], bar⟩ := by simpa [cells] using hc
    have hloc : c.loc = bar := by rcases hc' with rfl | rfl <;> rfl
    have key : ∀ i < 2, ∀ j < 2, |localMatrix c i j| = 1 := by
      intro i hi j hj
      unfold localMatrix
      rw [hloc]
      have hi' : i = 0 ∨ i = 1 := by omega
      have hj' : j = 0 ∨ j = 1 := by omega
      rcases hi' with rfl | rfl <;> rcases hj' with rfl | rfl <;> simp [bar, Verif.Assembly.unit]
    refine ⟨?_, hloc ▸ bar_linear, fun i hi j hj => .inr ⟨1, fun k hk l hl => (key k hk l hl).le, ?_⟩⟩
    · intro i hi
      have hi' : i = 0 ∨ i = 1 := by simp at hi; omega
      rcases hc' with rfl | rfl <;> rcases hi' with rfl | rfl <;> simp [mf]
    · rw [key i hi j hj]; norm_num
  · intro i
    unfold problemLines hanging
    by_cases hi : i = 1 <;> simp [hi]

/-- Two bars, the last node is the first one by periodicity. -/
def ring : List (List (Cell ℚ)) := [[⟨[0, 1], bar⟩, ⟨[1, 2], bar⟩]]

def last : Lines ℚ := fun i => if i = 2 then some [(0, 1)] else none

/-- **C133** (periodicity).  The assembled matrix knows nothing of periodic boundaries: for two bars in a ring, a displacement of the first
node costs 2 without matrix and 1 with the matrix. -/
theorem C133_periodic_violated :
    let src : Nat × Nat → ℚ := fun k => if k.2 = 0 then 1 else 0
    apply (3 * 1) (systemMatrix (1/10^10) diag 1 [0, 1] (matrixLines 1 place (fun g => (g, 0)) fun _ => none) ring none)
      (interleaved 1 src) 0 = 1 ∧
    (vmultBlock (vmultInternal 1 [0, 1] (problemLines true (fun _ => none) last) ring) 1 [2] src).2 (0, 0) = 2 := by
  decide +kernel

/-- The matrices of components know of it: cost 2. -/
example (x : Nat → ℚ) : ∃ Ms, computeBlocks diag 1 [0, 1] (problemLines true (fun _ => none) last) ring
    (List.replicate 1 fun _ _ => 0) = .ok Ms ∧ ∃ M, Ms[0]? = some M ∧ apply 3 M x 0 =
      (vmultBlock (vmultInternal 1 [0, 1] (problemLines true (fun _ => none) last) ring) 1 [2]
        (fun k => if k.1 = 0 then x k.2 else 0)).2 (0, 0) := by
  refine C133_blocks diag 1 [0, 1] ring ?_ ?_ ?_ (by simp) ?_ x (by omega) (by simp [problemLines, last])
  · intro i l hl e he
    simp only [problemLines, last, if_true] at hl ⊢
    split at hl
    · cases hl
      simp at he
      rw [he]; simp
    · cases hl
  · intro i l hl e he
    simp only [problemLines, last, if_true] at hl
    split at hl
    · cases hl
      simp at he
      rw [he]; simp
    · cases hl
  · intro c hc
    have hc' : c = ⟨[0, 1], bar⟩ ∨ c = ⟨[1, 2], bar⟩ := by simpa [ring] using hc
    have hloc : c.loc = bar := by rcases hc' with rfl | rfl <;> rfl
    refine ⟨?_, hloc ▸ bar_linear⟩
    intro i hi
    have hi' : i = 0 ∨ i = 1 := by simp at hi; omega
    rcases hc' with rfl | rfl <;> rcases hi' with rfl | rfl <;> simp [mf]
  · intro i
    by_cases hi : i = 2 <;> simp [problemLines, last, hi]

example : ((computeBlocks diag 1 [0, 1] (problemLines true (fun _ => none) last) ring [fun _ _ => 0]) |>
    fun r => match r with
      | .ok (M :: _) => decide (M 0 0 = 2 ∧ M 0 1 = -2 ∧ M 2 2 = 1 ∧ M 2 1 = 0)
      | _ => false) = true := by decide +kernel

/-- Two components of different magnitude at one node. -/
def scales (x : Nat → ℚ) : Nat → ℚ := fun i => if i = 0 then 100000000000 * x 0 else x 1

/-- **C133** (dropped entries).  A component whose entries are smaller than those of another one by more than ten orders of magnitude is
lost: its rows of the matrix are zero. -/
theorem C133_dropped_violated :
    let src : Nat × Nat → ℚ := fun _ => 1
    apply (1 * 2) (systemMatrix (1/10000000000) diag 2 [0] (interleave 2 fun _ => none) [[⟨[0], scales⟩]] none) (interleaved 2 src) 1 = 0 ∧
    (vmultBlock (vmultInternal 2 [0] (fun _ => none) [[⟨[0], scales⟩]]) 2 [] src).2 (1, 0) = 1 := by
  decide +kernel

/-- Two degrees of freedom on a line, one at a vertex. -/
def line (v : Nat) : Obj × Nat := if v < 2 then (⟨0, 2⟩, v) else (⟨v, 1⟩, 0)

def unline (g : Nat) : Nat × Nat := if g < 4 then (g % 2, g / 2) else (g / 2, g % 2)

theorem line_placed : Placed 2 line unline := by
  constructor
  · intro v
    unfold line
    split <;> simp_all
  · intro v b hb
    have hb' : b = 0 ∨ b = 1 := by omega
    by_cases hv : v < 2
    · have hv' : v = 0 ∨ v = 1 := by omega
      rcases hv' with rfl | rfl <;> rcases hb' with rfl | rfl <;> rfl
    · have h1 : line v = (⟨v, 1⟩, 0) := by unfold line; rw [if_neg hv]
      simp only [h1]
      unfold systemIndex unline
      rw [if_neg (by simp only; omega)]
      simp only
      congr 1 <;> omega

/-- Sum of the values of each component. -/
def sums (x : Nat → ℚ) : Nat → ℚ := fun i => if i < 3 then x 0 + x 1 + x 2 else x 3 + x 4 + x 5

/-- The second degree of freedom on the line hangs. -/
def hangs : Lines ℚ := fun i => if i = 1 then some [(2, 1)] else none

/-- **C133** (numbering).  With two degrees of freedom on a line and two components, constraints are applied to other unknowns than those
which are constrained: a free unknown gets the row of a constrained one. -/
theorem C133_numbering_violated :
    let src : Nat × Nat → ℚ := fun k => if k = (1, 2) then 1 else 0
    apply (3 * 2) (systemMatrix (1/10000000000) diag 2 [0, 1, 2] (matrixLines 2 line unline hangs) [[⟨[0, 1, 2], sums⟩]] none)
      (interleaved 2 src) (0 * 2 + 1) = 0 ∧
    (vmultBlock (vmultInternal 2 [0, 1, 2] (problemLines false hangs fun _ => none) [[⟨[0, 1, 2], sums⟩]]) 2 [1] src).2 (1, 0) = 2 := by
  decide +kernel

end Ex133

end Verif.Props
