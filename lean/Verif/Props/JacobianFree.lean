/-
Property C92: product with the Jacobian by finite differences.
-/
import Verif.Lemmas.JacobianFree
import Mathlib.Data.Fin.VecNotation
import Mathlib.Tactic.FinCases
import Mathlib.Tactic.FieldSimp
import Mathlib.Algebra.Order.BigOperators.Group.Finset

namespace Verif.Props

open Verif Verif.JacobianFree

variable {nb n : Nat}

theorem dot_self_eq_zero_iff (v : Vec nb n) : dot v v = 0 ↔ v = 0 := by
  unfold dot
  rw [Finset.sum_eq_zero_iff_of_nonneg (fun b _ => Finset.sum_nonneg (fun i _ => mul_self_nonneg _))]
  constructor
  · intro h
    funext b i
    have h1 := (Finset.sum_eq_zero_iff_of_nonneg (fun i _ => mul_self_nonneg (v b i))).mp (h b (Finset.mem_univ b)) i (Finset.mem_univ i)
    exact mul_self_eq_zero.mp h1
  · rintro rfl b _
    simp

theorem dot_self_nonneg (v : Vec nb n) : 0 ≤ dot v v := Finset.sum_nonneg fun _ _ => Finset.sum_nonneg fun _ _ => mul_self_nonneg _

theorem l2_eq_zero_iff (v : Vec nb n) : l2 v = 0 ↔ v = 0 := by
  rw [l2, Real.sqrt_eq_zero (dot_self_nonneg v), dot_self_eq_zero_iff]

theorem l1_nonneg (v : Vec nb n) : 0 ≤ l1 v := Finset.sum_nonneg fun _ _ => Finset.sum_nonneg fun _ _ => abs_nonneg _

theorem l1_eq_zero_iff (v : Vec nb n) : l1 v = 0 ↔ v = 0 := by
  unfold l1
  rw [Finset.sum_eq_zero_iff_of_nonneg (fun b _ => Finset.sum_nonneg (fun i _ => abs_nonneg _))]
  constructor
  · intro h
    funext b i
    have h1 := (Finset.sum_eq_zero_iff_of_nonneg (fun i _ => abs_nonneg (v b i))).mp (h b (Finset.mem_univ b)) i (Finset.mem_univ i)
    exact abs_eq_zero.mp h1
  · rintro rfl b _
    simp

/-- C92: after `reinit`, the step length is defined for both methods and zero only for the zero vector; any other name is refused. -/
theorem C92_step (algo : String) {F : Type} [AddCommMonoid F] (w : Wrapper) (R : Residual nb n F) (f0 : F) (u src : Vec nb n) :
    ((algo = "bs" ∨ algo = "pw") → ∃ h, stepLength algo (reinit algo w R f0 u).2.1 u src = .ok h ∧ (h = 0 ↔ src = 0)) ∧
    (algo ≠ "bs" → algo ≠ "pw" → stepLength algo (reinit algo w R f0 u).2.1 u src = .exc .assertThrow) := by
  refine ⟨?_, fun h1 h2 => by simp [stepLength, h1, h2]⟩
  rintro (rfl | rfl)
  · by_cases h0 : src = 0
    · have hz := (l2_eq_zero_iff src).mpr h0
      exact ⟨0, by simp [stepLength, hz], by simp [h0]⟩
    · have hz : l2 src ≠ 0 := fun h => h0 ((l2_eq_zero_iff src).mp h)
      have hl : l1 src ≠ 0 := fun h => h0 ((l1_eq_zero_iff src).mp h)
      by_cases hu : 1 / 10 ^ 6 * l1 src < |dot u src|
      · refine ⟨_, by simp only [stepLength, if_pos, if_neg hz, if_pos hu]; rfl, ?_⟩
        have hd : dot u src ≠ 0 := by
          intro h
          rw [h, abs_zero] at hu
          have := l1_nonneg src
          have : 0 ≤ 1 / 10 ^ 6 * l1 src := by positivity
          linarith
        refine ⟨fun h => absurd h ?_, fun h => absurd h h0⟩
        have : (1 : ℝ) / 10 ^ 8 ≠ 0 := by positivity
        exact mul_ne_zero this (div_ne_zero hd (mul_ne_zero hz hz))
      · refine ⟨_, by simp only [stepLength, if_pos, if_neg hz, if_neg hu]; rfl, ?_⟩
        refine ⟨fun h => absurd h ?_, fun h => absurd h h0⟩
        have h8 : (1 : ℝ) / 10 ^ 8 ≠ 0 := by positivity
        have h6 : (1 : ℝ) / 10 ^ 6 ≠ 0 := by positivity
        have hs : (if 0 ≤ dot u src then (1 : ℝ) else -1) ≠ 0 := by split_ifs <;> norm_num
        exact mul_ne_zero h8 (div_ne_zero (mul_ne_zero (mul_ne_zero h6 hs) hl) (mul_ne_zero hz hz))
  · by_cases h0 : src = 0
    · have hz := (l2_eq_zero_iff src).mpr h0
      exact ⟨0, by simp [stepLength, hz], by simp [h0]⟩
    · have hz : l2 src ≠ 0 := fun h => h0 ((l2_eq_zero_iff src).mp h)
      refine ⟨1 / 10 ^ 8 * (Real.sqrt (1 + l2 u) / l2 src), by simp [stepLength, reinit, hz], ?_⟩
      refine ⟨fun h => absurd h ?_, fun h => absurd h h0⟩
      have h8 : (1 : ℝ) / 10 ^ 8 ≠ 0 := by positivity
      have hu : 0 ≤ l2 u := Real.sqrt_nonneg _
      have hs : Real.sqrt (1 + l2 u) ≠ 0 := by
        have : 0 < Real.sqrt (1 + l2 u) := Real.sqrt_pos.mpr (by linarith)
        exact this.ne'
      exact mul_ne_zero h8 (div_ne_zero hs hz)

/-- C92 (operators that take pre and post operations, without and with advection): for all loops that keep the contract, the product is the
difference quotient of the residual with a step that is not zero, zero for the zero vector, and the linearisation point is as before. -/
theorem C92_vmult_partial {F : Type} [AddCommMonoid F] (algo : String) (ha : algo = "bs" ∨ algo = "pw") (w : Wrapper)
    (hw : w = .generic ∨ w = .advection) (R : Residual nb n F) (f0 : F) (dofs : Nat → Fin n → Bool)
    (hl : ∀ f, LocalCells dofs (R.cellDst f) R.cellAcc) (acts1 acts2 : List Act) (h1 : Schedule n dofs R.cells acts1)
    (h2 : Schedule n dofs R.cells acts2) (u src dst : Vec nb n) :
    let J := reinit algo w R f0 u
    (src = 0 → vmult algo J.2.1 w R f0 acts1 acts2 J.1 J.2.2 src dst = .ok (u, 0)) ∧
    (src ≠ 0 → ∃ h, stepLength algo J.2.1 u src = .ok h ∧ h ≠ 0 ∧
      vmult algo J.2.1 w R f0 acts1 acts2 J.1 J.2.2 src dst = .ok (u, quotient (evaluatePlain w R f0) u src h)) := by
  intro J
  obtain ⟨h, hh, hz⟩ := (C92_step algo w R f0 u src).1 ha
  have hJ1 : J.1 = u := rfl
  have hl0 : ∀ f, LocalCells dofs (R.cellDst f) (fun _ _ => (0 : F)) :=
    fun f => ⟨(hl f).readsDst, fun _ _ _ _ => rfl, (hl f).writes⟩
  have hl1 : LocalCells (nb := nb) dofs (fun _ _ => 0) R.cellAcc := ⟨fun _ _ _ _ => rfl, (hl f0).readsAcc, fun _ _ _ _ _ => rfl⟩
  constructor
  · intro h0
    unfold vmult
    rw [hJ1, hh, Res.ok_bind, if_pos (hz.mpr h0)]
  · intro h0
    have hne : h ≠ 0 := fun e => h0 (hz.mp e)
    refine ⟨h, hh, hne, ?_⟩
    unfold vmult
    rw [hJ1, hh, Res.ok_bind, if_neg hne]
    rcases hw with rfl | rfl
    · simp only [evaluate]
      rw [loop_closed h src J.2.2 dofs _ _ R.cells acts2 h2 (hl0 f0)]
      simp only [Res.ok_bind]
      congr 2
      funext k i
      simp only [quotient, J, reinit, evaluatePlain, resid]
      ring
    · simp only [evaluate]
      rw [loop_closed h src J.2.2 dofs _ _ R.cells acts1 h1 hl1]
      simp only [Res.ok_bind]
      rw [loop_closed h src J.2.2 dofs _ _ R.cells acts2 h2 (hl0 _)]
      simp only [Res.ok_bind]
      congr 2
      funext k i
      simp only [quotient, J, reinit, evaluatePlain, resid, forces, zero_add]
      ring

/-- C92: for a residual that is affine the product is exact. -/
theorem C92_affine {F : Type} [AddCommMonoid F] (algo : String) (ha : algo = "bs" ∨ algo = "pw") (w : Wrapper)
    (hw : w = .generic ∨ w = .advection) (R : Residual nb n F) (f0 : F) (dofs : Nat → Fin n → Bool)
    (hl : ∀ f, LocalCells dofs (R.cellDst f) R.cellAcc) (acts1 acts2 : List Act) (h1 : Schedule n dofs R.cells acts1)
    (h2 : Schedule n dofs R.cells acts2) (u src dst : Vec nb n) (A : Vec nb n → Vec nb n) (hA0 : A 0 = 0)
    (haff : ∀ h : ℝ, evaluatePlain w R f0 (u + h • src) = evaluatePlain w R f0 u + h • A src) :
    let J := reinit algo w R f0 u
    vmult algo J.2.1 w R f0 acts1 acts2 J.1 J.2.2 src dst = .ok (u, A src) := by
  intro J
  obtain ⟨e1, e2⟩ := C92_vmult_partial algo ha w hw R f0 dofs hl acts1 acts2 h1 h2 u src dst
  by_cases h0 : src = 0
  · rw [e1 h0, h0, hA0]
  · obtain ⟨h, _, hne, e⟩ := e2 h0
    rw [e]
    congr 2
    funext k i
    rw [quotient, haff]
    simp [hne]

/-- C92: the other branch, for operators that take no pre and post operations, gives the same; it is not reached from the wrappers. -/
theorem C92_plain (algo : String) (ha : algo = "bs" ∨ algo = "pw") {F : Type} [AddCommMonoid F] (w : Wrapper) (R : Residual nb n F)
    (f0 : F) (u src : Vec nb n) :
    let J := reinit algo w R f0 u
    (src = 0 → vmultPlain algo J.2.1 (evaluatePlain w R f0) J.1 J.2.2 src = .ok (u, 0)) ∧
    (src ≠ 0 → ∃ h, stepLength algo J.2.1 u src = .ok h ∧ h ≠ 0 ∧
      vmultPlain algo J.2.1 (evaluatePlain w R f0) J.1 J.2.2 src = .ok (u, quotient (evaluatePlain w R f0) u src h)) := by
  intro J
  obtain ⟨h, hh, hz⟩ := (C92_step algo w R f0 u src).1 ha
  have hJ1 : J.1 = u := rfl
  constructor
  · intro h0
    unfold vmultPlain
    rw [hJ1, hh, Res.ok_bind, if_pos (hz.mpr h0)]
  · intro h0
    have hne : h ≠ 0 := fun e => h0 (hz.mp e)
    refine ⟨h, hh, hne, ?_⟩
    unfold vmultPlain
    rw [hJ1, hh, Res.ok_bind, if_neg hne]
    simp only [Res.ok.injEq, Prod.mk.injEq]
    constructor
    · funext k i
      simp only [Pi.add_apply, Pi.smul_apply, smul_eq_mul]
      ring
    · funext k i
      simp only [quotient, J, reinit, Pi.add_apply, Pi.smul_apply, smul_eq_mul]
      ring

/-- C92, what happens behind the wrapper for operators that take no pre and post operations: only the first `k` entries of each block, `k` the
number of cell batches, are perturbed and divided; the others keep the residual itself. With more batches than entries it is undefined. -/
theorem C92_fallback {F : Type} [AddCommMonoid F] (algo : String) (ha : algo = "bs" ∨ algo = "pw") (k : Nat) (R : Residual nb n F)
    (f0 : F) (acts1 acts2 : List Act) (u src dst : Vec nb n) (hs : src ≠ 0) :
    let J := reinit algo (.fallback k) R f0 u
    (n < k → vmult algo J.2.1 (.fallback k) R f0 acts1 acts2 J.1 J.2.2 src dst = .ub) ∧
    (k ≤ n → ∃ h d, stepLength algo J.2.1 u src = .ok h ∧ h ≠ 0 ∧
      vmult algo J.2.1 (.fallback k) R f0 acts1 acts2 J.1 J.2.2 src dst = .ok (u, d) ∧
      ∀ b i, d b i = if i.1 < k
        then quotient (resid R f0) u (fun b i => if i.1 < k then src b i else 0) h b i
        else resid R f0 (u + h • fun b (i : Fin n) => if i.1 < k then src b i else 0) b i) := by
  intro J
  obtain ⟨h, hh, hz⟩ := (C92_step algo (.fallback k) R f0 u src).1 ha
  have hJ1 : J.1 = u := rfl
  have hne : h ≠ 0 := fun e => hs (hz.mp e)
  constructor
  · intro hk
    unfold vmult
    rw [hJ1, hh, Res.ok_bind, if_neg hne]
    have : 0 < k ∧ n < k := ⟨by omega, hk⟩
    simp [evaluate, preOp, this]
  · intro hk
    have hb : ¬ (0 < k ∧ n < k) := by omega
    have hu1 : (fun (b : Fin nb) (i : Fin n) => if i.1 < k then u b i + h * src b i else u b i) =
        u + h • fun (b : Fin nb) (i : Fin n) => if i.1 < k then src b i else 0 := by
      funext b i
      by_cases hi : i.1 < k <;> simp [hi]
    have hrun : vmult algo J.2.1 (.fallback k) R f0 acts1 acts2 J.1 J.2.2 src dst = .ok (u, fun b i =>
        if i.1 < k then (resid R f0 (u + h • fun b (i : Fin n) => if i.1 < k then src b i else 0) b i - resid R f0 u b i) * (1 / h)
        else resid R f0 (u + h • fun b (i : Fin n) => if i.1 < k then src b i else 0) b i) := by
      unfold vmult
      rw [hJ1, hh, Res.ok_bind, if_neg hne]
      simp only [evaluate, preOp, postOp, if_neg hb, Res.ok_bind, Nat.zero_le, true_and]
      rw [hu1]
      simp only [Res.ok.injEq, Prod.mk.injEq]
      constructor
      · funext b i
        by_cases hi : i.1 < k <;> simp [hi]
      · funext b i
        by_cases hi : i.1 < k
        · simp [hi, J, reinit, evaluatePlain]
        · simp [hi]
    refine ⟨h, _, hh, hne, hrun, fun b i => ?_⟩
    by_cases hi : i.1 < k
    · simp only [if_pos hi, quotient]
      ring
    · simp only [if_neg hi]

/-- C92 does not hold behind that wrapper: one cell with two entries, resid `u`, one batch: the second entry is that of `u`. -/
theorem C92_violated (u src : Vec 1 2) (hs : src ≠ 0) (hd : u 0 1 ≠ src 0 1) :
    let R : Residual 1 2 Nat := ⟨[0], fun _ _ v => v, fun _ _ => 0⟩
    let J := reinit "pw" (.fallback 1) R 0 u
    ∃ d, vmult "pw" J.2.1 (.fallback 1) R 0 [] [] J.1 J.2.2 src 0 = .ok (u, d) ∧ d 0 1 = u 0 1 ∧ d ≠ src := by
  intro R J
  obtain ⟨h, d, hh, hne, hv, hd'⟩ := (C92_fallback "pw" (Or.inr rfl) 1 R 0 [] [] u src 0 hs).2 (by omega)
  have e : d 0 1 = u 0 1 := by
    rw [hd' 0 1]
    simp [resid, R]
  exact ⟨d, hv, e, fun h0 => hd (by rw [← e, h0])⟩

/-- C92: the Jacobian is that of the residual of the time step: if the mode for the residual (2) differs from the one for the Jacobian (1)
only by a term that does not depend on the current solution, their difference quotients agree. -/
theorem C92_modes (implicit : Bool) (G : Nat → Vec nb n → Vec nb n) (old : Vec nb n) (hold : ∀ u, G 2 u = G 1 u + old) :
    ∃ m1 m2, mode implicit 1 = some m1 ∧ mode implicit 2 = some m2 ∧
      ∀ (u v : Vec nb n) (h : ℝ), quotient (G m2) u v h = quotient (G m1) u v h := by
  cases implicit
  · exact ⟨0, 0, rfl, rfl, fun _ _ _ => rfl⟩
  · refine ⟨1, 2, rfl, rfl, fun u v h => ?_⟩
    funext k i
    simp [quotient, hold]

/-! A concrete case: two cells that share an entry, ranges interleaved with the cells. -/
namespace Ex92

/-- Cell 0 has the entries 0, 1, cell 1 the entries 1, 2. -/
def dofs (c : Nat) (i : Fin 3) : Bool := decide (i.1 = c ∨ i.1 = c + 1)

/-- Contributions `f u_i²` to the entries of the cell. -/
noncomputable def R : Residual 1 3 ℝ :=
  ⟨[0, 1], fun f c u => fun _ i => if dofs c i then (1 + f) * u 0 i ^ 2 else 0, fun c u => if h : c + 1 < 3 then u 0 ⟨c + 1, h⟩ else 0⟩

def acts : List Act := [.pre 0 2, .cell 0, .post 0 1, .pre 2 3, .cell 1, .post 1 3]

theorem acts_ok : Schedule 3 dofs R.cells acts where
  bounds b e h := by simp [acts] at h; omega
  visited := by
    have : acts.filterMap cellOf = [0, 1] := rfl
    rw [this]
    exact List.Perm.refl _
  order i := by
    fin_cases i
    · exact ⟨0, 2, [0], 0, 1, by decide⟩
    · exact ⟨0, 2, [0, 1], 1, 3, by decide⟩
    · exact ⟨2, 3, [1], 1, 3, by decide⟩

theorem local_ok (f : ℝ) : LocalCells dofs (R.cellDst f) R.cellAcc where
  readsDst c u v h := by
    funext k i
    simp only [R]
    by_cases hd : dofs c i = true
    · have := h 0 i hd
      simp [hd, this]
    · simp [hd]
  readsAcc c u v h := by
    simp only [R]
    by_cases hc : c + 1 < 3
    · simp only [dif_pos hc]
      exact h 0 ⟨c + 1, hc⟩ (by simp [dofs])
    · simp [hc]
  writes c u k i h := by simp [R, h]

example (u src dst : Vec 1 3) (hs : src ≠ 0) : ∃ h, stepLength "bs" none u src = .ok h ∧ h ≠ 0 ∧
    vmult "bs" none .advection R 0 acts acts u (evaluatePlain .advection R 0 u) src dst =
      .ok (u, quotient (evaluatePlain .advection R 0) u src h) :=
  (C92_vmult_partial "bs" (Or.inl rfl) .advection (Or.inr rfl) R 0 dofs local_ok acts acts acts_ok acts_ok u src dst).2 hs

example : ((fun _ _ => 1 : Vec 1 3)) ≠ 0 := fun h => by simpa using congrFun (congrFun h 0) 0

example : ∃ d, vmult "pw" (some (l2 ![![1, 2]])) (.fallback 1) (⟨[0], fun _ _ v => v, fun _ _ => 0⟩ : Residual 1 2 Nat) 0 [] []
    (![![1, 2]] : Vec 1 2) (evaluatePlain (.fallback 1) (⟨[0], fun _ _ v => v, fun _ _ => 0⟩ : Residual 1 2 Nat) 0 ![![1, 2]])
    ![![1, 1]] 0 = .ok (![![1, 2]], d) ∧ d 0 1 = 2 :=  by
  obtain ⟨d, h1, h2, _⟩ := C92_violated ![![1, 2]] ![![1, 1]] (fun h => by simpa using congrFun (congrFun h 0) 0) (by norm_num)
  exact ⟨d, h1, by simpa using h2⟩

end Ex92

end Verif.Props
