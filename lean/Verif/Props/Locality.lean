/-
C156: interactions have a finite range, pure phases are at rest.
-/
import Verif.Lemmas.Locality
import Mathlib.Algebra.Field.Rat
import Mathlib.Algebra.Order.Ring.Unbundled.Rat

set_option linter.unusedSectionVars false

namespace Verif.Props

open Finset Verif.Energy Verif.Relabel Verif.Relabel.Spec Verif.Locality Verif.Locality.Spec
open Verif.Apps (QPt value gradient)

variable {K : Type} [Field K] [LinearOrder K] {n m d : Nat}

/-- The equations of a node depend on the solution, the old ones and the velocities around the node only. -/
theorem C156_residual {p : SinteringKernel.Par K} {mode order : Nat} {weights : List K} {pts pts' : List (VPt K n m d)} {i : Fin n} {u u' r : Fields K n m}
    {olds olds' : List (Fields K n m)} (hp : SameMesh i pts pts') (hu : Agree pts i u u') (ho : List.Forall₂ (Agree pts i) olds olds')
    (h : residualAll p mode order weights pts u olds = .ok r) :
    ∃ r', residualAll p mode order weights pts' u' olds' = .ok r' ∧ r.c i = r'.c i ∧ r.mu i = r'.mu i ∧ ∀ g, r.eta g i = r'.eta g i := by
  rw [residualAll_eq] at h ⊢
  cases hw : Res.index weights 0 with
  | exc e => rw [hw] at h; exact nomatch h
  | ub => rw [hw] at h; exact nomatch h
  | ok w =>
    rw [hw] at h
    rw [Res.ok_bind] at h ⊢
    have hb : ∃ b b', (if mode = 2 then history order weights olds else .ok Fields.zero) = .ok b ∧
        (if mode = 2 then history order weights olds' else .ok Fields.zero) = .ok b' ∧ Agree pts i b b' := by
      by_cases hm : mode = 2
      · simp only [if_pos hm] at h ⊢
        cases hh : history order weights olds with
        | exc e => rw [hh] at h; exact nomatch h
        | ub => rw [hh] at h; exact nomatch h
        | ok b =>
          obtain ⟨b', h1, h2⟩ := history_agree ho hh
          exact ⟨b, b', rfl, h1, h2⟩
      · simp only [if_neg hm]
        exact ⟨_, _, rfl, rfl, agree_refl _ _ _⟩
    obtain ⟨b, b', hb1, hb2, hb3⟩ := hb
    rw [hb1, Res.ok_bind] at h
    rw [hb2, Res.ok_bind]
    obtain ⟨r1, k0, k1, k2, k3⟩ := loop_parts _ _ (fun q => rl_residual_eq { p with weight := w } mode (point q u b)) pts Fields.zero
    obtain ⟨r', l0, l1, l2, l3⟩ := loop_parts _ _ (fun q => rl_residual_eq { p with weight := w } mode (point q u' b')) pts' Fields.zero
    obtain rfl : r1 = r := Res.ok.inj (k0.symm.trans h)
    refine ⟨r', l0, ?_, ?_, fun g => ?_⟩
    · rw [k1, l1]
      exact congrArg _ (parts_same hp _ _ _ _ fun q hq q' e1 e2 hs => by rw [point_same hu hb3 hq e1 e2 hs]; exact ⟨rfl, rfl⟩)
    · rw [k2, l2]
      exact congrArg _ (parts_same hp _ _ _ _ fun q hq q' e1 e2 hs => by rw [point_same hu hb3 hq e1 e2 hs]; exact ⟨rfl, rfl⟩)
    · rw [k3, l3]
      exact congrArg _ (parts_same hp _ _ _ _ fun q hq q' e1 e2 hs => by rw [point_same hu hb3 hq e1 e2 hs]; exact ⟨rfl, rfl⟩)

/-- So do the rows of the tangent; an increment that is zero around a node gives nothing there (sparsity). -/
theorem C156_tangent {p : SinteringKernel.Par K} {w : K} {ws : List K} {pts pts' : List (VPt K n m d)} {i : Fin n} {u u' x x' : Fields K n m}
    (hp : SameMesh i pts pts') (hu : Agree pts i u u') (hx : Agree pts i x x') :
    ∃ r r', tangentAll p (w :: ws) pts u x = .ok r ∧ tangentAll p (w :: ws) pts' u' x' = .ok r' ∧ r.c i = r'.c i ∧ r.mu i = r'.mu i ∧ ∀ g, r.eta g i = r'.eta g i := by
  obtain ⟨r, k0, k1, k2, k3⟩ := loop_parts _ _ (fun q => rl_vmult_eq { p with weight := w } (point q u Fields.zero) (incr q x)) pts Fields.zero
  obtain ⟨r', l0, l1, l2, l3⟩ := loop_parts _ _ (fun q => rl_vmult_eq { p with weight := w } (point q u' Fields.zero) (incr q x')) pts' Fields.zero
  refine ⟨r, r', k0, l0, ?_, ?_, fun g => ?_⟩
  · rw [k1, l1]
    exact congrArg _ (parts_same hp _ _ _ _ fun q hq q' e1 e2 hs => by
      rw [point_same hu (agree_refl _ _ _) hq e1 e2 hs, incr_same hx hq e1 hs]; exact ⟨rfl, rfl⟩)
  · rw [k2, l2]
    exact congrArg _ (parts_same hp _ _ _ _ fun q hq q' e1 e2 hs => by
      rw [point_same hu (agree_refl _ _ _) hq e1 e2 hs, incr_same hx hq e1 hs]; exact ⟨rfl, rfl⟩)
  · rw [k3, l3]
    exact congrArg _ (parts_same hp _ _ _ _ fun q hq q' e1 e2 hs => by
      rw [point_same hu (agree_refl _ _ _) hq e1 e2 hs, incr_same hx hq e1 hs]; exact ⟨rfl, rfl⟩)

/-- Arrangements apart from each other evolve independently: if everywhere the surroundings are those in one of several solutions, it is a solution. -/
theorem C156_independent {p : SinteringKernel.Par K} {mode order : Nat} {weights : List K} {pts : List (VPt K n m d)} {u r : Fields K n m} {olds : List (Fields K n m)}
    (h : residualAll p mode order weights pts u olds = .ok r)
    (hs : ∀ i, ∃ pts' u' olds', SameMesh i pts pts' ∧ Agree pts i u u' ∧ List.Forall₂ (Agree pts i) olds olds' ∧ residualAll p mode order weights pts' u' olds' = .ok Fields.zero) :
    residualAll p mode order weights pts u olds = .ok Fields.zero := by
  have key : ∀ i, r.c i = 0 ∧ r.mu i = 0 ∧ ∀ g, r.eta g i = 0 := by
    intro i
    obtain ⟨pts', u', olds', h1, h2, h3, h4⟩ := hs i
    obtain ⟨r', k0, k1, k2, k3⟩ := C156_residual h1 h2 h3 h
    obtain rfl : r' = Fields.zero := Res.ok.inj (k0.symm.trans h4)
    exact ⟨k1, k2, k3⟩
  rw [h]
  congr 1
  cases r with
  | mk c mu eta =>
    simp only [Fields.zero, Fields.mk.injEq]
    exact ⟨funext fun i => (key i).1, funext fun i => (key i).2.1, funext fun g => funext fun i => (key i).2.2 g⟩

/-- Pure phases are at rest: with weights that vanish for constant histories, the equations of a node hold if its surroundings are void or the inside of one
grain and have been so; a grain may move if it carries as much in as out. -/
theorem C156_rest {p : SinteringKernel.Par K} {order : Nat} {weights : List K} {pts : List (VPt K n m d)} {i : Fin n} {u r : Fields K n m} {olds : List (Fields K n m)}
    (k : Option (Fin m)) (hw : ∑ j ∈ range (order + 1), weights.getD j 0 = 0) (h1 : Unity pts) (hf : k = none ∨ ∀ g, netFlux pts i g = 0)
    (hu : Agree pts i u (phase k)) (ho : ∀ o ∈ olds, Agree pts i o (phase k)) (h : residualAll p 2 order weights pts u olds = .ok r) :
    r.c i = 0 ∧ r.mu i = 0 ∧ ∀ g, r.eta g i = 0 := by
  have hmesh : SameMesh i pts pts := by
    unfold SameMesh
    induction pts with
    | nil => exact .nil
    | cons q pts _ => exact List.forall₂_same.2 fun q _ => ⟨rfl, fun _ => rfl⟩
  have hold : List.Forall₂ (Agree pts i) olds (olds.map fun _ => phase k) := by
    clear h
    induction olds with
    | nil => exact .nil
    | cons o olds ih => exact .cons (ho o (by simp)) (ih fun o ho' => ho o (by simp [ho']))
  obtain ⟨r', h', e1, e2, e3⟩ := C156_residual hmesh hu hold h
  rw [e1, e2]
  simp only [e3]
  clear e1 e2 e3 h hu ho hold hmesh
  rw [residualAll_eq] at h'
  cases hw0 : weights[0]? with
  | none => simp only [Res.index, hw0] at h'; exact nomatch h'
  | some w =>
    simp only [Res.index, hw0, Res.ok_bind, if_true] at h'
    cases hh : history order weights (olds.map fun _ => phase k) with
    | exc e => rw [hh] at h'; exact nomatch h'
    | ub => rw [hh] at h'; exact nomatch h'
    | ok b =>
      rw [hh, Res.ok_bind] at h'
      have hb := history_const (U := phase k) (by simp) hh
      rw [sum_range_succ', show weights.getD 0 0 = w by rw [List.getD_eq_getElem?_getD, hw0]; rfl] at hw
      have hS : ∑ j ∈ range order, weights.getD (j + 1) 0 = -w := eq_neg_of_add_eq_zero_left hw
      rw [hS] at hb
      subst hb
      obtain ⟨r1, k0, k1, k2, k3⟩ := loop_parts _ _ (fun q => rl_residual_eq { p with weight := w } 2 (point q (phase k) ((phase k).scale (-w)))) pts Fields.zero
      obtain rfl : r1 = r' := Res.ok.inj (k0.symm.trans h')
      have hg : ∀ q ∈ pts, ∀ (f : SinteringKernel.Grain K (Fin d → K) → K), ((point q (phase k) ((phase k).scale (-w))).grains.map f).sum =
          ∑ g, f ⟨if k = some g then 1 else 0, 0, q.2 g, (if k = some g then 1 else 0) * -w⟩ := by
        intro q hq f
        rw [point_grains, List.map_ofFn, List.sum_ofFn]
        refine sum_congr rfl fun g _ => ?_
        simp only [phase, Fields.scale, Function.comp, (value_const (h1 q hq).1 (h1 q hq).2 _).1, (value_const (h1 q hq).1 (h1 q hq).2 _).2]
      have hp : ∀ q ∈ pts, ∀ j, j ≠ 0 → ((point q (phase k) ((phase k).scale (-w))).grains.map fun g => g.eta ^ j).sum = if k = none then 0 else 1 := by
        intro q hq j hj
        rw [hg q hq]
        cases k with
        | none => simp [hj]
        | some g0 => simp [ite_pow, hj]
      have hpt : ∀ q ∈ pts, (point q (phase k) ((phase k).scale (-w))).c = (if k = none then 0 else 1) ∧ (point q (phase k) ((phase k).scale (-w))).mu = 0 ∧
          (point q (phase k) ((phase k).scale (-w))).gradC = 0 ∧ (point q (phase k) ((phase k).scale (-w))).gradMu = 0 ∧
          (point q (phase k) ((phase k).scale (-w))).bufC = (if k = none then 0 else 1) * -w := by
        intro q hq
        have v := fun a => value_const (h1 q hq).1 (h1 q hq).2 a
        refine ⟨(v _).1, (v _).1, (v _).2, (v _).2, (v ((if k = none then 0 else 1) * -w)).1⟩
      refine ⟨?_, ?_, fun g => ?_⟩
      · rw [k1]
        refine (congrArg _ (congrArg List.sum (List.map_congr_left (g := fun q => -(if k = none then 0 else 1) * ∑ g, q.1.w * ∑ e, (q.2 g).getD 0 e * q.1.G i e) fun q hq => ?_))).trans ?_
        · obtain ⟨a1, a2, a3, a4, a5⟩ := hpt q hq
          have hv : ((point q (phase k) ((phase k).scale (-w))).grains.map fun g => g.vel.getD 0).sum = ∑ g, (q.2 g).getD 0 := by
            rw [point_grains, List.map_ofFn, List.sum_ofFn]
            rfl
          dsimp only
          rw [a1, a4, a5, hv, if_pos rfl, if_pos (by omega), smul_zero, zero_sub]
          unfold part
          have : ∀ e, (-((if k = none then (0 : K) else 1) • ∑ g, (q.2 g).getD 0)) e = -(if k = none then 0 else 1) * ∑ g, (q.2 g).getD 0 e := by
            intro e
            rw [Pi.neg_apply, Pi.smul_apply, Finset.sum_apply, smul_eq_mul, neg_mul]
          simp only [this, mul_assoc]
          rw [mul_neg, add_neg_cancel, zero_mul, zero_add, ← mul_sum, mul_left_comm]
          congr 1
          simp only [sum_mul]
          rw [sum_comm, mul_sum]
        rcases hf with rfl | hf
        · simp [Fields.zero]
        · have : (pts.map fun q => ∑ g, q.1.w * ∑ e, (q.2 g).getD 0 e * q.1.G i e).sum = 0 := by
            have : ∀ l : List (VPt K n m d), (l.map fun q => ∑ g, q.1.w * ∑ e, (q.2 g).getD 0 e * q.1.G i e).sum = ∑ g, netFlux l i g := by
              intro l
              induction l with
              | nil => simp [netFlux]
              | cons q l ih =>
                rw [List.map_cons, List.sum_cons, ih, ← sum_add_distrib]
                rfl
            rw [this]
            exact sum_eq_zero fun g _ => hf g
          rw [List.sum_map_mul_left, this, mul_zero]
          exact add_zero _
      · rw [k2]
        refine (congrArg _ (congrArg List.sum (List.map_congr_left (g := fun q => 0) fun q hq => ?_))).trans ?_
        · obtain ⟨a1, a2, a3, a4, a5⟩ := hpt q hq
          show part q.1 (_ * _ - dfc _ _ _ _ _) (_ • _) i = _
          rw [a1, a2, a3, hp q hq 2 (by omega), hp q hq 3 (by omega), smul_zero]
          unfold part dfc
          by_cases hk : k = none
          · simp [hk]
          · simp only [if_neg hk, Pi.zero_apply, zero_mul, sum_const_zero, add_zero]
            ring
        simp [Fields.zero]
      · rw [k3]
        refine (congrArg _ (congrArg List.sum (List.map_congr_left (g := fun q => -(if k = some g then 1 else 0) * (q.1.w * ∑ e, (q.2 g).getD 0 e * q.1.G i e)) fun q hq => ?_))).trans ?_
        · obtain ⟨a1, a2, a3, a4, a5⟩ := hpt q hq
          have v := fun a => value_const (h1 q hq).1 (h1 q hq).2 a
          dsimp only
          rw [a1, hp q hq 2 (by omega), point_grains, getD_ofFn]
          unfold row
          simp only [phase, Fields.scale, (v _).1, (v _).2, if_true, if_pos (show 1 ≤ 2 by omega), smul_zero, zero_sub]
          unfold part
          by_cases hk : k = some g
          · rw [if_pos hk, if_neg (by rw [hk]; exact Option.some_ne_none g)]
            simp only [Pi.neg_apply, one_smul, neg_mul, one_mul, sum_neg_distrib]
            ring
          · rw [if_neg hk]
            simp
        rw [List.sum_map_mul_left]
        rcases hf with rfl | hf
        · simp [Fields.zero]
        · have := hf g
          unfold netFlux at this
          rw [this, mul_zero]
          exact add_zero _

/-- A pure phase everywhere stays as it is. -/
theorem C156_uniform {p : SinteringKernel.Par K} {order : Nat} {weights : List K} {pts : List (VPt K n m d)} {r : Fields K n m} {olds : List (Fields K n m)}
    (k : Option (Fin m)) (hw : ∑ j ∈ range (order + 1), weights.getD j 0 = 0) (h1 : Unity pts) (hf : k = none ∨ ∀ g i, netFlux pts i g = 0)
    (ho : ∀ o ∈ olds, o = phase k) (h : residualAll p 2 order weights pts (phase k) olds = .ok r) : r = Fields.zero := by
  have key := fun i => C156_rest (i := i) k hw h1 (hf.imp id fun hf g => hf g i) (agree_refl _ _ _) (fun o ho' => by rw [ho o ho']; exact agree_refl _ _ _) h
  cases r with
  | mk c mu eta =>
    simp only [Fields.zero, Fields.mk.injEq]
    exact ⟨funext fun i => (key i).1, funext fun i => (key i).2.1, funext fun g => funext fun i => (key i).2.2 g⟩

namespace Ex156

/-- A bar of four elements, one point each; the third element moves. One order parameter. -/
def bar : List (VPt Rat 5 1 1) :=
  [(⟨1, ![1/2, 1/2, 0, 0, 0], fun i _ => ![-1, 1, 0, 0, 0] i⟩, ![none]), (⟨1, ![0, 1/2, 1/2, 0, 0], fun i _ => ![0, -1, 1, 0, 0] i⟩, ![some ![3]]),
   (⟨1, ![0, 0, 1/2, 1/2, 0], fun i _ => ![0, 0, -1, 1, 0] i⟩, ![some ![3]]), (⟨1, ![0, 0, 0, 1/2, 1/2], fun i _ => ![0, 0, 0, -1, 1] i⟩, ![none])]

def par : SinteringKernel.Par Rat := ⟨16, 1, ⟨1, 1, 1, 1, 1⟩, 1, 1, 1, 1⟩

/-- A grain in the nodes 1 to 3, the surface in the last element. -/
def u : Fields Rat 5 1 := ⟨![0, 1, 1, 1, 1/2], ![0, 0, 0, 0, 0], ![![0, 1, 1, 1, 1/2]]⟩

example : Unity bar := by unfold Unity; decide +kernel
example : netFlux bar 2 0 = 0 ∧ netFlux bar 1 0 ≠ 0 := by decide +kernel
example : Agree bar 2 u (phase (some 0)) := by unfold Agree Near Seen; decide +kernel
example : ¬ Agree bar 3 u (phase (some 0)) := by unfold Agree Near Seen; decide +kernel
example : ∑ j ∈ range 2, ([1, -1] : List Rat).getD j 0 = 0 := by decide +kernel

/-- Node 2 is inside of the grain, which moves; node 4 is at the surface. -/
example : (match residualAll par 2 1 [1, -1] bar u [u] with | .ok r => some ([r.c 2, r.mu 2, r.eta 0 2], r.mu 4 = 0) | _ => none) = some ([0, 0, 0], False) := by
  have : (match residualAll par 2 1 [1, -1] bar u [u] with | .ok r => some ([r.c 2, r.mu 2, r.eta 0 2], decide (r.mu 4 = 0)) | _ => none) = some ([0, 0, 0], false) := by decide +kernel
  revert this
  cases residualAll par 2 1 [1, -1] bar u [u] <;> simp

/-- Other values far from node 0 do not matter. -/
def far : Fields Rat 5 1 := ⟨![0, 1, 7, 8, 9], ![0, 0, 1, 2, 3], ![![0, 1, 4, 5, 6]]⟩
example : Agree bar 0 u far ∧ ¬ Agree bar 1 u far := by unfold Agree Near Seen; decide +kernel

/-- Two elements apart from each other: void in the first one, a grain in the second one. -/
def two : List (VPt Rat 4 1 1) := [(⟨1, ![1/2, 1/2, 0, 0], fun i _ => ![-1, 1, 0, 0] i⟩, ![none]), (⟨1, ![0, 0, 1/2, 1/2], fun i _ => ![0, 0, -1, 1] i⟩, ![none])]
def both : Fields Rat 4 1 := ⟨![0, 0, 1, 1], ![0, 0, 0, 0], ![![0, 0, 1, 1]]⟩

theorem two_unity : Unity two := by unfold Unity; decide +kernel
theorem two_still : ∀ g i, netFlux two i g = 0 := by decide +kernel
theorem two_none : Agree two 0 both (phase none) ∧ Agree two 1 both (phase none) := by unfold Agree Near Seen; decide +kernel
theorem two_some : Agree two 2 both (phase (some 0)) ∧ Agree two 3 both (phase (some 0)) := by unfold Agree Near Seen; decide +kernel

theorem two_phase (k : Option (Fin 1)) : residualAll par 2 1 [1, -1] two (phase k) [phase k] = .ok Fields.zero := by
  obtain ⟨r, hr⟩ : ∃ r, residualAll par 2 1 [1, -1] two (phase k) [phase k] = .ok r := ⟨_, rfl⟩
  rw [hr, C156_uniform k (by decide +kernel) two_unity (Or.inr two_still) (by simp) hr]

theorem two_same (i : Fin 4) : SameMesh i two two := List.forall₂_same.2 fun _ _ => ⟨rfl, fun _ => rfl⟩

example : residualAll par 2 1 [1, -1] two both [both] = .ok Fields.zero := by
  obtain ⟨r, hr⟩ : ∃ r, residualAll par 2 1 [1, -1] two both [both] = .ok r := ⟨_, rfl⟩
  refine C156_independent hr fun i => ?_
  have key : ∃ k, Agree two i both (phase k) := by
    match i with
    | 0 => exact ⟨_, two_none.1⟩
    | 1 => exact ⟨_, two_none.2⟩
    | 2 => exact ⟨_, two_some.1⟩
    | 3 => exact ⟨_, two_some.2⟩
  obtain ⟨k, hk⟩ := key
  exact ⟨two, phase k, [phase k], two_same i, hk, .cons hk .nil, two_phase k⟩

end Ex156

end Verif.Props
