/-
C155: the hand-written kernel of the benchmarks computes the weak form.
-/
import Verif.Lemmas.FastSums
import Mathlib.Tactic.FieldSimp

namespace Verif.Props

open Finset Verif.FastKernel Verif.FastKernel.Spec

variable {K M : Type} [Field K] [LinearOrder K] [IsStrictOrderedRing K] [AddCommGroup M] [Module K M]

/-- The kernel of a cell: for every operation at the points, every box, every number of parts and whatever the work arrays held before, the result at each node is the weak form tested
with the function of the node. The shape values are those of linear elements on the parts, at the first two points. -/
theorem C155_kernel_partial {xi : K} (h0 : 0 ≤ xi) (h1 : xi < 1 / 2) {n : Nat} (hn : 0 < n) (op : Nat → M → Grad M → M × Grad M) (o : Geo K) (old : Mem M × Mem M) (u : Mem M)
    {jz jy jx : Nat} (hz : jz < n + 1) (hy : jy < n + 1) (hx : jx < n + 1) :
    let s0 := hat n 0 (pos xi n 0); let s1 := hat n 0 (pos xi n 1); let g := n / (s0 - s1)
    (kernel s0 s1 g n (cell5 op g o (2 * n)) old u).1 (node n (jz, jy, jx)) = weak op xi n o u (jz, jy, jx) := by
  have h1' : xi ≤ 1 := by linarith
  have h2 : 1 - xi - xi ≠ 0 := by
    have : 0 < 1 - xi - xi := by linarith
    exact this.ne'
  obtain ⟨e0, e1⟩ := val_first h0 h1' hn
  unfold Spec.val at e0 e1
  dsimp only
  rw [e0, e1]
  exact kernel_weak h0 h1' h2 hn op o old u hz hy hx

/-- The whole product at level 5, three-dimensional: if all cells are the same box, each degree of freedom receives the contributions of all cells. -/
theorem C155_vmult_partial {xi : K} (h0 : 0 ≤ xi) (h1 : xi < 1 / 2) {n : Nat} (hn : 0 < n) (op : Nat → M → Grad M → M × Grad M) (o : Geo K) (cs : List (Geo K × (Nat → Nat)))
    (ho : ∀ c ∈ cs, c.1 = o) (src : Mem M) (i : Nat) :
    vmultFast 3 5 op n (hat n 0 (pos xi n 0)) (hat n 0 (pos xi n 1)) o (cs.map Prod.snd) src i = assembled op xi n cs src i := by
  have h1' : xi ≤ 1 := by linarith
  have h2 : 1 - xi - xi ≠ 0 := by
    have : 0 < 1 - xi - xi := by linarith
    exact this.ne'
  obtain ⟨e0, e1⟩ := val_first h0 h1' hn
  unfold Spec.val at e0 e1
  have ec : (cs.map Prod.snd).map (fun c => (o, c)) = cs := by
    rw [List.map_map]
    refine (List.map_congr_left fun c hc => ?_).trans (List.map_id cs)
    rw [← ho c hc]
    rfl
  have := fold_assembled h0 h1' h2 hn op o src (cs.map Prod.snd) (fun _ => 0, fun _ => 0, fun _ => 0) i
  rw [ec, zero_add] at this
  unfold vmultFast
  rw [if_neg (by omega), e0, e1]
  exact this

omit [LinearOrder K] [IsStrictOrderedRing K] in
/-- The variant with the operation written in by hand (level 4) is the general one with values and gradients passed on. -/
theorem C155_levels {n : Nat} (hn : 0 < n) (dim : Nat) (op : Nat → M → Grad M → M × Grad M) (s0 s1 : K) (o : Geo K) (cs : List (Nat → Nat)) (src : Mem M) :
    vmultFast dim 4 op n s0 s1 o cs src = vmultFast dim 5 (fun _ v g => (v, g)) n s0 s1 o cs src := by
  have e : ∀ g : K, (cell4 g o (2 * n) : Nat → Mem M × Mem M → Mem M × Mem M) = cell5 (fun _ v g => (v, g)) g o (2 * n) := by
    intro g
    funext idx s
    exact cell4_eq g o (by omega) idx s
  unfold vmultFast
  simp only [e]
  rfl

/-- So level 4 is the Helmholtz operator. -/
theorem C155_helmholtz_partial {xi : K} (h0 : 0 ≤ xi) (h1 : xi < 1 / 2) {n : Nat} (hn : 0 < n) (op : Nat → M → Grad M → M × Grad M) (o : Geo K) (cs : List (Geo K × (Nat → Nat)))
    (ho : ∀ c ∈ cs, c.1 = o) (src : Mem M) (i : Nat) :
    vmultFast 3 4 op n (hat n 0 (pos xi n 0)) (hat n 0 (pos xi n 1)) o (cs.map Prod.snd) src i = assembled (fun _ v g => (v, g)) xi n cs src i := by
  rw [C155_levels hn]
  exact C155_vmult_partial h0 h1 hn _ o cs ho src i

/-- Results of earlier cells left in the work arrays do not matter. -/
theorem C155_fresh {xi : K} (h0 : 0 ≤ xi) (h1 : xi < 1 / 2) {n : Nat} (hn : 0 < n) (op : Nat → M → Grad M → M × Grad M) (o : Geo K) (cs ds : List (Nat → Nat)) (src : Mem M) (i : Nat) :
    vmultFast 3 5 op n (hat n 0 (pos xi n 0)) (hat n 0 (pos xi n 1)) o (cs ++ ds) src i =
      vmultFast 3 5 op n (hat n 0 (pos xi n 0)) (hat n 0 (pos xi n 1)) o cs src i + vmultFast 3 5 op n (hat n 0 (pos xi n 0)) (hat n 0 (pos xi n 1)) o ds src i := by
  have h := fun cs : List (Nat → Nat) => C155_vmult_partial h0 h1 hn op o (cs.map fun c => (o, c)) (by
    intro c hc
    obtain ⟨d, _, rfl⟩ := List.mem_map.1 hc
    rfl) src i
  have e : ∀ cs : List (Nat → Nat), (cs.map fun c => (o, c)).map Prod.snd = cs := fun cs => by
    rw [List.map_map]
    exact List.map_id cs
  simp only [e] at h
  rw [h, h, h]
  unfold assembled
  rw [List.map_append, List.map_append, List.sum_append]

namespace Ex155

def o1 : Geo Rat := ⟨1, 1, 1, 1 / 8⟩
def o2 : Geo Rat := ⟨1, 1, 1 / 2, 1 / 4⟩
/-- Two cells above each other. -/
def mesh : List (Geo Rat × (Nat → Nat)) := [(o1, fun i => i), (o2, fun i => i + 4)]
def mass : Nat → Rat → Grad Rat → Rat × Grad Rat := fun _ v _ => (v, 0, 0, 0)

/-- Cells of equal shape: the constant one gives a quarter of the volume at the nodes between two cells. -/
example : vmultFast 3 5 mass 1 (hat 1 0 (pos (1 / 4) 1 0)) (hat 1 0 (pos (1 / 4) 1 1)) o1 [fun i => i, fun i => i + 4] (fun _ => 1) 5 = 1 / 4 := by
  refine (C155_vmult_partial (by norm_num) (by norm_num) (by omega) mass o1 [(o1, fun i => i), (o1, fun i => i + 4)] (by simp) (fun _ => 1) 5).trans ?_
  decide +kernel

/-- Not a trivial operator: gradients enter. -/
example : vmultFast 3 4 mass 1 (hat 1 0 (pos (1 / 4) 1 0)) (hat 1 0 (pos (1 / 4) 1 1)) o1 [fun i => i] (fun i => if i = 0 then 1 else 0) 0 ≠
    vmultFast 3 5 mass 1 (hat 1 0 (pos (1 / 4) 1 0)) (hat 1 0 (pos (1 / 4) 1 1)) o1 [fun i => i] (fun i => if i = 0 then 1 else 0) 0 := by
  rw [show [fun i : Nat => i] = [(o1, fun i : Nat => i)].map Prod.snd from rfl, C155_helmholtz_partial (by norm_num) (by norm_num) (by omega) mass o1 _ (by simp),
    C155_vmult_partial (by norm_num) (by norm_num) (by omega) mass o1 _ (by simp)]
  decide +kernel

end Ex155

open Ex155 in
/-- Not so for cells of different shape: the geometry of the first cell is used for all (operators.h:327-331). -/
theorem C155_shape_violation : ∃ (op : Nat → Rat → Grad Rat → Rat × Grad Rat) (xi : Rat) (n : Nat) (o : Geo Rat) (cs : List (Geo Rat × (Nat → Nat))) (src : Mem Rat) (i : Nat),
    0 ≤ xi ∧ xi < 1 / 2 ∧ 0 < n ∧ (cs.head?.map Prod.fst = some o) ∧
      vmultFast 3 5 op n (hat n 0 (pos xi n 0)) (hat n 0 (pos xi n 1)) o (cs.map Prod.snd) src i ≠ assembled op xi n cs src i := by
  refine ⟨mass, 1 / 4, 1, o1, mesh, fun _ => 1, 5, by norm_num, by norm_num, by omega, rfl, ?_⟩
  rw [show mesh.map Prod.snd = [(o1, fun i : Nat => i), (o1, fun i => i + 4)].map Prod.snd from rfl,
    C155_vmult_partial (by norm_num) (by norm_num) (by omega) mass o1 [(o1, fun i => i), (o1, fun i => i + 4)] (by simp) (fun _ => 1) 5]
  decide +kernel

open Ex155 in
/-- Nor in two dimensions (the default of the program): nothing is computed, without a message. -/
theorem C155_dim_violation : ∃ (op : Nat → Rat → Grad Rat → Rat × Grad Rat) (o : Geo Rat) (cs : List (Nat → Nat)), (∀ src i, vmultFast 2 5 op 1 (3 / 4) (1 / 4) o cs src i = 0) ∧
    ∃ src i, vmultFast 3 5 op 1 (hat 1 0 (pos (1 / 4) 1 0)) (hat 1 0 (pos (1 / 4) 1 1)) o cs src i ≠ 0 := by
  refine ⟨mass, o1, [fun i => i], fun _ _ => rfl, fun _ => 1, 0, ?_⟩
  rw [show [fun i : Nat => i] = [(o1, fun i : Nat => i)].map Prod.snd from rfl, C155_vmult_partial (by norm_num) (by norm_num) (by omega) mass o1 _ (by simp)]
  decide +kernel

end Verif.Props
