/-
C82: the material law. C83: the elastic operator with Dirichlet values.
-/
import Verif.Model.Structural
import Verif.Spec.Structural
import Verif.Lemmas.OpBase
import Mathlib.Tactic.FieldSimp
import Mathlib.Tactic.Ring
import Mathlib.Tactic.LinearCombination
import Mathlib.Tactic.FinCases
import Mathlib.Tactic.Linarith
import Mathlib.Tactic.Positivity
import Mathlib.Algebra.Order.Field.Basic
import Mathlib.Algebra.Field.Rat
import Mathlib.Algebra.Order.Ring.Rat

namespace Verif.Props

open Verif.Structural Verif.Spec.Structural Verif.OpBase Matrix

variable {K : Type} [Field K]

/-! ### C82 -/

/-- **C82** (Voigt notation).  The two maps are transposed to each other: the stress tensor does the same work as its components. -/
theorem C82_voigt (v : Fin 3 → K) (w : Fin 6 → K) (H : Matrix (Fin 2) (Fin 2) K) (G : Matrix (Fin 3) (Fin 3) K) :
    contract (unvoigt2 v) H = ∑ i, v i * voigt2 H i ∧ contract (unvoigt3 w) G = ∑ i, w i * voigt3 G i := by
  constructor
  · simp [contract, unvoigt2, voigt2, Fin.sum_univ_two, Fin.sum_univ_three]; ring
  · simp [contract, unvoigt3, voigt3, Fin.sum_univ_three, Fin.sum_univ_six]; ring

/-- **C82** (plane strain).  The stress is the plane part of the stress of an isotropic body in space without strain in normal
direction. -/
theorem C82_plane_strain {E nu : K} (hE : E ≠ 0) (h1 : 1 + nu ≠ 0) (h2 : 1 - 2 * nu ≠ 0) (h3 : (2 : K) ≠ 0)
    (H : Matrix (Fin 2) (Fin 2) K) :
    ∃ z, Hooke E nu (inSpace (strain H) 0) (inSpace (stress2 E nu .strain H) z) := by
  refine ⟨nu * (stress2 E nu .strain H 0 0 + stress2 E nu .strain H 1 1), ?_⟩
  intro i j
  fin_cases i <;> fin_cases j <;>
    simp [inSpace, strain, stress2, stiffness, coefficients, unvoigt2, voigt2, Matrix.mulVec, dotProduct,
      Fin.sum_univ_succ] <;> field_simp <;> ring

/-- **C82** (plane stress).  The stress is the plane part of the stress of an isotropic body in space without stress in normal
direction. -/
theorem C82_plane_stress {E nu : K} (hE : E ≠ 0) (h1 : 1 + nu ≠ 0) (h2 : 1 - nu ≠ 0) (h3 : (2 : K) ≠ 0)
    (H : Matrix (Fin 2) (Fin 2) K) :
    ∃ z, Hooke E nu (inSpace (strain H) z) (inSpace (stress2 E nu .stress H) 0) := by
  have h4 : 1 - nu * nu = (1 + nu) * (1 - nu) := by ring
  refine ⟨-(nu / E) * (stress2 E nu .stress H 0 0 + stress2 E nu .stress H 1 1), ?_⟩
  intro i j
  fin_cases i <;> fin_cases j <;>
    simp [h4, inSpace, strain, stress2, stiffness, coefficients, unvoigt2, voigt2, Matrix.mulVec, dotProduct,
      Fin.sum_univ_succ] <;> field_simp <;> ring

/-- **C82** (space).  For symmetric tensors the stress follows Hooke's law. -/
theorem C82_space_partial {E nu : K} (hE : E ≠ 0) (h1 : 1 + nu ≠ 0) (h2 : 1 - 2 * nu ≠ 0) (eps : Matrix (Fin 3) (Fin 3) K) :
    Hooke E nu eps (stress3 E nu eps) := by
  have hl : lambda 3 E nu = E * nu / (1 + nu) / (1 - 2 * nu) := by norm_num [lambda]
  have h2' : 1 - nu * 2 ≠ 0 := by rwa [mul_comm]
  intro i j
  fin_cases i <;> fin_cases j <;>
    simp [stress3, lame, hl, mu2, Fin.sum_univ_three] <;> field_simp <;> ring

/-- **C82** (no plane type).  In two dimensions without plane type the law is that of plane stress, for symmetric tensors. -/
theorem C82_none_partial {E nu : K} (h1 : 1 + nu ≠ 0) (h2 : 1 - nu ≠ 0) (h3 : (2 : K) ≠ 0)
    (H : Matrix (Fin 2) (Fin 2) K) (hs : H 0 1 = H 1 0) : stress2 E nu .none H = stress2 E nu .stress H := by
  have h4 : 1 - nu * nu = (1 + nu) * (1 - nu) := by ring
  ext i j
  fin_cases i <;> fin_cases j <;>
    simp [h4, stress2, lame, lambda, mu2, stiffness, coefficients, unvoigt2, voigt2, Matrix.mulVec, dotProduct,
      Fin.sum_univ_succ, hs] <;> field_simp <;> ring

/-- **C82** (rotations, violated).  The operators pass the displacement gradient itself. In space, and in two dimensions without plane
type, its skew part, i.e. an infinitesimal rotation, causes a stress. -/
theorem C82_rotation_violated {E nu : K} (h3 : (2 : K) ≠ 0) {n : Nat} (H : Matrix (Fin n) (Fin n) K) (i j : Fin n) :
    lame E nu H i j = lame E nu (strain H) i j + mu2 E nu * ((H i j - H j i) / 2) := by
  have : ∀ k, strain H k k = H k k := fun k => by simp only [strain]; field_simp; ring
  simp only [lame, this]
  simp only [strain]
  field_simp
  ring

/-- **C82** (rotations, plane types).  With a plane type a rotation causes no stress. -/
theorem C82_rotation_plane (E nu : K) {plane : Plane} (hp : plane ≠ .none) (w : K) :
    stress2 E nu plane !![0, w; -w, 0] = 0 := by
  ext i j
  fin_cases i <;> fin_cases j <;>
    simp [stress2, hp, stiffness, unvoigt2, voigt2, Matrix.mulVec, dotProduct, Fin.sum_univ_succ]

/-- **C82** (reciprocity).  The law is symmetric: the work of the stress of one tensor on another one does not depend on their
order. -/
theorem C82_reciprocal (E nu : K) (plane : Plane) (H G : Matrix (Fin 2) (Fin 2) K) (H3 G3 : Matrix (Fin 3) (Fin 3) K) :
    contract (stress2 E nu plane H) G = contract (stress2 E nu plane G) H ∧
    contract (stress3 E nu H3) G3 = contract (stress3 E nu G3) H3 := by
  constructor
  · by_cases hp : plane = .none
    · simp [contract, stress2, hp, lame, Fin.sum_univ_succ]; ring
    · simp [contract, stress2, hp, stiffness, unvoigt2, voigt2, Matrix.mulVec, dotProduct, Fin.sum_univ_succ]; ring
  · simp [contract, stress3, lame, Fin.sum_univ_succ]; ring

/-- **C82** (energy).  For admissible constants the stress does not do negative work, in space and in the plane. -/
theorem C82_energy [LinearOrder K] [IsStrictOrderedRing K] {E nu : K} (hE : 0 < E) (h1 : 0 ≤ nu) (h2 : 2 * nu < 1)
    (plane : Plane) (H : Matrix (Fin 2) (Fin 2) K) (G : Matrix (Fin 3) (Fin 3) K) :
    0 ≤ contract (stress2 E nu plane H) H ∧ 0 ≤ contract (stress3 E nu G) G := by
  have hm : 0 ≤ mu2 E nu := by unfold mu2; positivity
  have hl2 : 0 ≤ lambda 2 E nu := by
    unfold lambda
    have : (0 : K) < 1 - ((2 - 1 : Nat) : K) * nu := by norm_num; linarith
    positivity
  have hl3 : 0 ≤ lambda 3 E nu := by
    unfold lambda
    have : (0 : K) < 1 - ((3 - 1 : Nat) : K) * nu := by norm_num; linarith
    positivity
  constructor
  · by_cases hp : plane = .none
    · have e : contract (stress2 E nu plane H) H =
          mu2 E nu * (H 0 0 ^ 2 + H 0 1 ^ 2 + H 1 0 ^ 2 + H 1 1 ^ 2) + lambda 2 E nu * (H 0 0 + H 1 1) ^ 2 := by
        simp [contract, stress2, hp, lame, Fin.sum_univ_succ]; ring
      rw [e]; positivity
    · obtain ⟨f0, f1, f2, hf, hf0, hf1, hf2⟩ : ∃ f0 f1 f2, coefficients E nu plane = (f0, f1, f2) ∧ f1 ≤ f0 ∧ 0 ≤ f1 ∧ 0 ≤ f2 := by
        have ha : (0 : K) < 1 - 2 * nu := by linarith
        have hb : (0 : K) < 1 - nu * nu := by nlinarith
        have hc : (0 : K) < 1 - nu := by linarith
        unfold coefficients
        split
        · refine ⟨_, _, _, rfl, ?_, by positivity, by positivity⟩
          exact div_le_div_of_nonneg_right (mul_le_mul_of_nonneg_left (by linarith) hE.le) hb.le
        · refine ⟨_, _, _, rfl, ?_, by positivity, by positivity⟩
          exact div_le_div_of_nonneg_right (div_le_div_of_nonneg_right
            (mul_le_mul_of_nonneg_left (by linarith) hE.le) (by linarith)) ha.le
      have e : contract (stress2 E nu plane H) H =
          (f0 - f1) * (H 0 0 ^ 2 + H 1 1 ^ 2) + f1 * (H 0 0 + H 1 1) ^ 2 + f2 * (H 0 1 + H 1 0) ^ 2 := by
        simp [contract, stress2, hp, stiffness, hf, unvoigt2, voigt2, Matrix.mulVec, dotProduct, Fin.sum_univ_succ]; ring
      have : 0 ≤ f0 - f1 := by linarith
      rw [e]; positivity
  · have e : contract (stress3 E nu G) G =
        mu2 E nu * (∑ i, ∑ j, G i j ^ 2) + lambda 3 E nu * (∑ k, G k k) ^ 2 := by
      simp [contract, stress3, lame, Fin.sum_univ_succ]; ring
    rw [e]; positivity

/-- **C82** (weak phase).  The factor of the stress is the concentration, but at least the given minimum. -/
theorem C82_fraction {K : Type} [Field K] [LinearOrder K] (cMin c : K) : solidFraction cMin c = max c cMin := by
  unfold solidFraction
  split
  · next h => rw [max_eq_right h.le]
  · next h => rw [max_eq_left (not_lt.1 h)]

namespace Ex82

/-- Simple tension: strains 1 and -1/4, modulus 1, Poisson's ratio 1/4, plane stress. -/
example : stress2 (1 : ℚ) (1 / 4) .stress !![1, 0; 0, -1 / 4] = !![1, 0; 0, 0] := by
  ext i j
  fin_cases i <;> fin_cases j <;>
    simp [stress2, stiffness, coefficients, unvoigt2, voigt2, Matrix.mulVec, dotProduct, Fin.sum_univ_succ] <;> norm_num

example : (1 : ℚ) ≠ 0 ∧ (1 : ℚ) + 1 / 4 ≠ 0 ∧ (1 : ℚ) - 2 * (1 / 4) ≠ 0 ∧ (1 : ℚ) - 1 / 4 ≠ 0 ∧ (2 : ℚ) ≠ 0 := by norm_num

/-- A rotation about the third axis in space: shear stresses 4/5 and -4/5. -/
example : stress3 (1 : ℚ) (1 / 4) !![0, 1, 0; -1, 0, 0; 0, 0, 0] 0 1 = 4 / 5 ∧
    stress3 (1 : ℚ) (1 / 4) !![0, 1, 0; -1, 0, 0; 0, 0, 0] 1 0 = -4 / 5 := by
  constructor <;> norm_num [stress3, lame, lambda, mu2, Fin.sum_univ_succ]

end Ex82

/-! ### C83 -/

/-- **C83** (prescribed entries).  The application of the operator uses the prescribed values for the source, and writes them to the
destination; other entries are those of the operator. -/
theorem C83_applied_partial (A : (Nat × Nat → K) → Nat × Nat → K) (D : Dirichlet K) (src : Nat × Nat → K) (k : Nat × Nat) :
    (vmult A D src).2 k =
      if k ∈ D.keys then D.value k else A (fun j => if j ∈ D.keys then D.value j else src j) k := by
  have e : writeAll D.keys (D.keys.map D.value) src = fun j => if j ∈ D.keys then D.value j else src j := by
    funext j; rw [writeAll_map]; congr
  show writeAll D.keys (D.keys.map D.value) (A (writeAll D.keys (D.keys.map D.value) src)) k = _
  rw [writeAll_map, e]
  congr

/-- **C83** (not linear, violated).  With a prescribed value different from zero the operator is not linear, whatever the cells
contribute. -/
theorem C83_not_linear_violated (A : (Nat × Nat → K) → Nat × Nat → K) (D : Dirichlet K) {k : Nat × Nat} (hk : k ∈ D.keys)
    (hv : D.value k ≠ 0) (x y : Nat × Nat → K) :
    (vmult A D (fun j => x j + y j)).2 k ≠ (vmult A D x).2 k + (vmult A D y).2 k := by
  simp only [C83_applied_partial, if_pos hk]
  intro h
  exact hv (left_eq_add.1 h)

/-- **C83** (zero rows, violated).  With prescribed values zero the rows of the prescribed entries are zero, instead of those of the
identity. -/
theorem C83_zero_rows_violated (A : (Nat × Nat → K) → Nat × Nat → K) (D : Dirichlet K) {k : Nat × Nat} (hk : k ∈ D.keys)
    (hv : D.value k = 0) (x : Nat × Nat → K) : (vmult A D x).2 k = 0 ∧ (vmult A D x).1 k = 0 := by
  constructor
  · rw [C83_applied_partial, if_pos hk, hv]
  · show writeAll D.keys (D.keys.map fun _ => 0) _ k = 0
    rw [writeAll_map, if_pos hk]

omit [Field K] in
/-- **C83** (residual, violated).  The residual of a prescribed entry is the prescribed value, whatever the displacement: it vanishes
for no displacement if the value is not zero, and for every displacement otherwise. -/
theorem C83_residual_violated (R : (Nat × Nat → K) → Nat × Nat → K) (D : Dirichlet K) {k : Nat × Nat} (hk : k ∈ D.keys)
    (u : Nat × Nat → K) : residual R D u k = D.value k := by
  rw [residual, writeAll_map, if_pos hk]

omit [Field K] in
/-- **C83** (free entries).  The residual of the other entries is that of the cells. -/
theorem C83_residual_free (R : (Nat × Nat → K) → Nat × Nat → K) (D : Dirichlet K) {k : Nat × Nat} (hk : k ∉ D.keys)
    (u : Nat × Nat → K) : residual R D u k = R u k := by
  rw [residual, writeAll_map, if_neg hk]

/-- **C83** (attached entries).  The prescribed entries are exactly the constrained owned indices in the directions given, each once, with
their values. -/
theorem C83_attach (dim owned : Nat) (ac : Nat → Nat → Option K) :
    (attach dim owned ac).keys.Nodup ∧
    (∀ d i, (d, i) ∈ (attach dim owned ac).keys ↔ d < dim ∧ i < owned ∧ (ac d i).isSome) ∧
    ∀ d i v, ac d i = some v → (attach dim owned ac).value (d, i) = v := by
  refine ⟨?_, ?_, ?_⟩
  · show ((List.range dim).flatMap fun d => ((List.range owned).filter fun i => (ac d i).isSome).map fun i => (d, i)).Nodup
    rw [List.nodup_flatMap]
    refine ⟨fun d _ => ((List.nodup_range).filter _).map fun x y e => by simpa using e, ?_⟩
    refine (List.nodup_range).imp fun {a b} hab => ?_
    simp only [Function.onFun, List.disjoint_left, List.mem_map, not_exists, not_and]
    rintro _ ⟨i, _, rfl⟩ j _ e
    exact hab (by simpa using congrArg Prod.fst e.symm)
  · intro d i
    simp only [attach, List.mem_flatMap, List.mem_range, List.mem_map, List.mem_filter, Prod.mk.injEq]
    constructor
    · rintro ⟨_, hd, _, ⟨hi, h⟩, rfl, rfl⟩; exact ⟨hd, hi, h⟩
    · rintro ⟨hd, hi, h⟩; exact ⟨d, hd, i, ⟨hi, h⟩, rfl, rfl⟩
  · intro d i v h
    simp [attach, h]

omit [Field K] in
/-- **C83** (no load, violated).  Without external load the residual contains the displacements themselves; the stress part is
right. -/
theorem C83_load {n : Nat} (S : Matrix (Fin n) (Fin n) K → Matrix (Fin n) (Fin n) K) (load value : Fin n → K)
    (gradient : Matrix (Fin n) (Fin n) K) :
    submitted S (some load) value gradient = (load, S gradient) ∧ submitted S none value gradient = (value, S gradient) :=
  ⟨rfl, rfl⟩

namespace Ex83

/-- Two directions, three owned points; the first direction is prescribed at point 1. -/
def D : Dirichlet ℚ := attach 2 3 fun d i => if d = 0 ∧ i = 1 then some 5 else none

example : D.keys = [(0, 1)] ∧ D.value (0, 1) = 5 := by
  constructor
  · decide
  · simp [D, attach]

example (A : (Nat × Nat → ℚ) → Nat × Nat → ℚ) : (vmult A D fun _ => 2).2 (0, 1) = 5 := by
  rw [C83_applied_partial, if_pos (by decide)]
  simp [D, attach]

/-- The entry (1, 1) is not prescribed. -/
example : (1, 1) ∉ D.keys := by decide

end Ex83

end Verif.Props
