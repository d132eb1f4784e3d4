/-
C154: order parameters are interchangeable.
-/
import Verif.Lemmas.Relabel
import Verif.Spec.Energy
import Mathlib.Algebra.Field.Rat
import Mathlib.Algebra.Order.Ring.Unbundled.Rat

set_option linter.unusedSectionVars false

namespace Verif.Props

open Finset Verif.Energy Verif.Relabel Verif.Relabel.Spec
open Verif.Apps (QPt value gradient)

variable {K : Type} [Field K] [LinearOrder K] {n m d : Nat}

/-- Other numbers of order parameters, possibly different ones from place to place: the equations of concentration and chemical potential stay
the same, those of order parameters move along. -/
theorem C154_residual {p : SinteringKernel.Par K} {mode order : Nat} {weights : List K} {pts : List (VPt K n m d)} {s : VPt K n m d → Equiv.Perm (Fin m)}
    {u u' r : Fields K n m} {olds olds' : List (Fields K n m)} (hu : Same pts s u u') (ho : List.Forall₂ (Same pts s) olds olds')
    (h : residualAll p mode order weights pts u olds = .ok r) :
    ∃ r', residualAll p mode order weights (renumbered s pts) u' olds' = .ok r' ∧ r'.c = r.c ∧ r'.mu = r.mu ∧
      ∀ g h i, Was pts s (u :: olds) g h i → r'.eta g i = r.eta h i := by
  rw [residualAll_eq] at h ⊢
  cases hw : Res.index weights 0 with
  | exc e => rw [hw] at h; exact nomatch h
  | ub => rw [hw] at h; exact nomatch h
  | ok w =>
    rw [hw] at h
    rw [Res.ok_bind] at h ⊢
    have hb : ∃ b b', (if mode = 2 then history order weights olds else .ok Fields.zero) = .ok b ∧
        (if mode = 2 then history order weights olds' else .ok Fields.zero) = .ok b' ∧ Same pts s b b' ∧ ∀ (q : VPt K n m d) g, NoGrain q olds g → NoGrain q [b] g := by
      by_cases hm : mode = 2
      · simp only [if_pos hm] at h ⊢
        cases hh : history order weights olds with
        | exc e => rw [hh] at h; exact nomatch h
        | ub => rw [hh] at h; exact nomatch h
        | ok b =>
          obtain ⟨b', h1, h2⟩ := history_same ho hh
          exact ⟨b, b', rfl, h1, h2, fun q g hv => history_void hv hh⟩
      · simp only [if_neg hm]
        refine ⟨_, _, rfl, rfl, ⟨rfl, rfl, fun _ _ _ _ _ => rfl⟩, fun q g _ v hv j _ => ?_⟩
        obtain rfl := List.mem_singleton.1 hv
        rfl
    obtain ⟨b, b', hb1, hb2, hb3, hb4⟩ := hb
    rw [hb1, Res.ok_bind] at h
    rw [hb2, Res.ok_bind]
    obtain ⟨r1, r', k1, k2, k3, k4, k5⟩ := loop_rel s (fun q => SinteringKernel.residual { p with weight := w } mode (point q u b))
      (fun q => SinteringKernel.residual { p with weight := w } mode (point q u' b')) pts (u :: olds) (fun q hq => by
        obtain ⟨o, o', e1, e2, e3, e4⟩ := rel_residual { p with weight := w } mode (s q) _ _ _ (point_grains q u b) (point_grains' hu hb3 hq)
          (by simp only [point, hu.1]) (by simp only [point, hu.2.1]) (by simp only [point, hu.1]) (by simp only [point, hu.2.1]) (by simp only [point, hb3.1])
        refine ⟨o, o', e1, e2, e3, fun g hv => e4 g ?_ ?_ ?_⟩
        · exact (value_void hv (by simp)).1
        · exact (value_void hv (by simp)).2
        · exact (value_void (hb4 q g fun v hv' => hv v (by simp [hv'])) (by simp)).1) Fields.zero Fields.zero rfl rfl
    obtain rfl : r1 = r := Res.ok.inj (k1.symm.trans h)
    exact ⟨r', k2, k3, k4, fun g h i hs => k5 g i h rfl hs⟩

/-- A solution under other numbers is a solution. -/
theorem C154_solution {p : SinteringKernel.Par K} {mode order : Nat} {weights : List K} {pts : List (VPt K n m d)} {s : VPt K n m d → Equiv.Perm (Fin m)}
    {u u' : Fields K n m} {olds olds' : List (Fields K n m)} (hu : Same pts s u u') (ho : List.Forall₂ (Same pts s) olds olds')
    (hw : ∀ g i, ∃ h, Was pts s (u :: olds) g h i) (h : residualAll p mode order weights pts u olds = .ok Fields.zero) :
    residualAll p mode order weights (renumbered s pts) u' olds' = .ok Fields.zero := by
  obtain ⟨r', h1, h2, h3, h4⟩ := C154_residual hu ho h
  rw [h1]
  congr 1
  cases r' with
  | mk c mu eta =>
    simp only [Fields.zero] at h2 h3 h4 ⊢
    subst h2 h3
    congr 1
    funext g i
    obtain ⟨k, hk⟩ := hw g i
    exact h4 g k i hk

/-- The same for the tangent. -/
theorem C154_tangent {p : SinteringKernel.Par K} {weights : List K} {pts : List (VPt K n m d)} {s : VPt K n m d → Equiv.Perm (Fin m)}
    {u u' x x' y : Fields K n m} (hu : Same pts s u u') (hx : Same pts s x x') (h : tangentAll p weights pts u x = .ok y) :
    ∃ y', tangentAll p weights (renumbered s pts) u' x' = .ok y' ∧ y'.c = y.c ∧ y'.mu = y.mu ∧ ∀ g h i, Was pts s [u, x] g h i → y'.eta g i = y.eta h i := by
  unfold tangentAll at h ⊢
  cases hw : Res.index weights 0 with
  | exc e => rw [hw] at h; exact nomatch h
  | ub => rw [hw] at h; exact nomatch h
  | ok w =>
    rw [hw, Res.ok_bind] at h
    rw [Res.ok_bind]
    obtain ⟨r1, r', k1, k2, k3, k4, k5⟩ := loop_rel s (fun q => SinteringKernel.vmult { p with weight := w } (point q u Fields.zero) (incr q x))
      (fun q => SinteringKernel.vmult { p with weight := w } (point q u' Fields.zero) (incr q x')) pts [u, x] (fun q hq => by
        obtain ⟨o, o', e1, e2, e3, e4⟩ := rel_vmult { p with weight := w } (s q) _ (fun g => (value q.1 (x.eta g), gradient q.1 (x.eta g))) _ _ (incr q x) _
          (point_grains q u Fields.zero) (point_grains' hu (buf := Fields.zero) (buf' := Fields.zero) ⟨rfl, rfl, fun _ _ _ _ _ => rfl⟩ hq) rfl (incr_etas' hx hq)
          (by simp only [point, hu.1]) (by simp only [point, hu.2.1]) (by simp only [incr, hx.1]) (by simp only [incr, hx.2.1]) (by simp only [incr, hx.1]) (by simp only [incr, hx.2.1])
        refine ⟨o, o', e1, e2, e3, fun g hv => e4 g ?_ ?_⟩
        · exact (value_void hv (by simp)).1
        · exact Prod.ext (value_void hv (by simp)).1 (value_void hv (by simp)).2) Fields.zero Fields.zero rfl rfl
    obtain rfl : r1 = y := Res.ok.inj (k1.symm.trans h)
    exact ⟨r', k2, k3, k4, fun g h i hs => k5 g i h rfl hs⟩

private theorem more_zero : (more Fields.zero : Fields K n (m + 1)) = Fields.zero := by
  simp only [more, Fields.zero]
  congr 1
  funext g
  refine Fin.lastCases ?_ (fun g => ?_) g
  · exact Fin.snoc_last _ _
  · exact Fin.snoc_castSucc _ _ _

/-- An order parameter that is not in use has no influence, and its own equation holds. -/
theorem C154_unused {p : SinteringKernel.Par K} {mode order : Nat} {weights : List K} {pts : List (VPt K n m d)} {u r : Fields K n m}
    {olds : List (Fields K n m)} (h : residualAll p mode order weights pts u olds = .ok r) :
    residualAll p mode order weights (morePts pts) (more u) (olds.map more) = .ok (more r) := by
  rw [residualAll_eq] at h ⊢
  cases hw : Res.index weights 0 with
  | exc e => rw [hw] at h; exact nomatch h
  | ub => rw [hw] at h; exact nomatch h
  | ok w =>
    rw [hw, Res.ok_bind] at h
    rw [Res.ok_bind]
    have hb : ∃ b, (if mode = 2 then history order weights olds else .ok Fields.zero) = .ok b ∧
        (if mode = 2 then history order weights (olds.map more) else .ok Fields.zero) = .ok (more b) := by
      by_cases hm : mode = 2
      · simp only [if_pos hm] at h ⊢
        cases hh : history order weights olds with
        | exc e => rw [hh] at h; exact nomatch h
        | ub => rw [hh] at h; exact nomatch h
        | ok b => exact ⟨b, rfl, history_more hh⟩
      · simp only [if_neg hm]
        exact ⟨_, rfl, by rw [more_zero]⟩
    obtain ⟨b, hb1, hb2⟩ := hb
    rw [hb1, Res.ok_bind] at h
    rw [hb2, Res.ok_bind]
    obtain ⟨r1, k1, k2⟩ := loop_ext (fun q => SinteringKernel.residual { p with weight := w } mode (point q u b))
      (fun q => SinteringKernel.residual { p with weight := w } mode (point q (more u) (more b))) pts (fun q _ => by
        obtain ⟨o, o', e1, e2, e3⟩ := ext_residual { p with weight := w } mode (point q u b) _ (point_more q u b) rfl rfl rfl rfl rfl
        refine ⟨o, o', e1, e2, e3, ?_⟩
        rw [rl_residual_eq] at e1
        obtain rfl := Res.ok.inj e1
        simp [point]) Fields.zero
    obtain rfl : r1 = r := Res.ok.inj (k1.symm.trans h)
    rw [more_zero] at k2
    exact k2

/-- The same for the tangent. -/
theorem C154_unused_tangent {p : SinteringKernel.Par K} {weights : List K} {pts : List (VPt K n m d)} {u x y : Fields K n m}
    (h : tangentAll p weights pts u x = .ok y) : tangentAll p weights (morePts pts) (more u) (more x) = .ok (more y) := by
  unfold tangentAll at h ⊢
  cases hw : Res.index weights 0 with
  | exc e => rw [hw] at h; exact nomatch h
  | ub => rw [hw] at h; exact nomatch h
  | ok w =>
    rw [hw, Res.ok_bind] at h
    rw [Res.ok_bind]
    obtain ⟨r1, k1, k2⟩ := loop_ext (fun q => SinteringKernel.vmult { p with weight := w } (point q u Fields.zero) (incr q x))
      (fun q => SinteringKernel.vmult { p with weight := w } (point q (more u) Fields.zero) (incr q (more x))) pts (fun q _ => by
        obtain ⟨o, o', e1, e2, e3⟩ := ext_vmult { p with weight := w } (point q u Fields.zero) (point (q.1, Fin.snoc (α := fun _ => Option (Fin d → K)) q.2 none) (more u) Fields.zero)
          (incr q x) (incr (q.1, Fin.snoc (α := fun _ => Option (Fin d → K)) q.2 none) (more x)) (by simp [point, incr])
          (by rw [← more_zero]; exact point_more q u Fields.zero) (incr_more q x) rfl rfl rfl rfl rfl rfl
        refine ⟨o, o', e1, e2, e3, ?_⟩
        rw [rl_vmult_eq] at e1
        obtain rfl := Res.ok.inj e1
        simp [point, incr]) Fields.zero
    obtain rfl : r1 = y := Res.ok.inj (k1.symm.trans h)
    rw [more_zero] at k2
    exact k2

/-- The energy does not depend on the numbers. -/
theorem C154_energy {pts : List (VPt ℝ n m d)} {s : VPt ℝ n m d → Equiv.Perm (Fin m)} {u u' : Fields ℝ n m} (hu : Same pts s u u') (A B kC kP : ℝ) :
    Energy.Spec.energy A B kC kP (pts.map (·.1)) u' = Energy.Spec.energy A B kC kP (pts.map (·.1)) u ∧
      Energy.Spec.energy A B kC kP (pts.map (·.1)) (more u) = Energy.Spec.energy A B kC kP (pts.map (·.1)) u := by
  unfold Energy.Spec.energy
  rw [List.map_map, List.map_map, List.map_map]
  constructor
  · congr 1
    refine List.map_congr_left fun q hq => ?_
    have hv : ∀ g, Energy.Spec.valAt q.1 (u'.eta g) = Energy.Spec.valAt q.1 (u.eta (s q g)) := fun g => (value_same (q := q) _ _ fun i hi => hu.2.2 q hq i hi g).1
    have hg : ∀ g, Energy.Spec.grad2 q.1 (u'.eta g) = Energy.Spec.grad2 q.1 (u.eta (s q g)) := fun g =>
      sum_congr rfl fun e _ => congrArg (· ^ 2) (congrFun (value_same (q := q) _ _ fun i hi => hu.2.2 q hq i hi g).2 e)
    simp only [Function.comp, Energy.Spec.density, Energy.Spec.bulk, hu.1, hv, hg]
    rw [Equiv.sum_comp (s q) fun g => Energy.Spec.valAt q.1 (u.eta g) ^ 2, Equiv.sum_comp (s q) fun g => Energy.Spec.valAt q.1 (u.eta g) ^ 3,
      Equiv.sum_comp (s q) fun g => Energy.Spec.grad2 q.1 (u.eta g)]
  · congr 1
    refine List.map_congr_left fun q hq => ?_
    simp [Energy.Spec.density, Energy.Spec.bulk, more, Fin.sum_univ_castSucc, Energy.Spec.valAt, Energy.Spec.grad2]

namespace Ex154

/-- A bar of two elements with one point each, nodes 0 to 3, the elements are apart; two order parameters. -/
def bar : List (VPt Rat 4 2 1) :=
  [(⟨1, ![1/2, 1/2, 0, 0], fun i _ => ![-1, 1, 0, 0] i⟩, ![none, some ![1]]), (⟨1, ![0, 0, 1/2, 1/2], fun i _ => ![0, 0, -1, 1] i⟩, ![none, none])]

def swapSecond (q : VPt Rat 4 2 1) : Equiv.Perm (Fin 2) := if q.1.N 2 = 0 then 1 else Equiv.swap 0 1

def par : SinteringKernel.Par Rat := ⟨1, 1, ⟨1, 1, 1, 1, 1⟩, 1, 1, 1, 1⟩

def before : Fields Rat 4 2 := ⟨![1, 1, 1/2, 0], ![0, 1, 2, 3], ![![1, 1/2, 1, 0], ![0, 1/2, 0, 1/3]]⟩

/-- A grain of the second element changes its order parameter. -/
def after : Fields Rat 4 2 := ⟨![1, 1, 1/2, 0], ![0, 1, 2, 3], ![![1, 1/2, 0, 1/3], ![0, 1/2, 1, 0]]⟩

example : Same bar swapSecond before after := by
  unfold Same Seen
  decide +kernel

example : Was bar swapSecond [before] 0 1 2 := by
  have : ∀ q ∈ bar, (q.1.N 2 ≠ 0 ∨ ∃ e, q.1.G 2 e ≠ 0) → swapSecond q 0 = 1 := by decide +kernel
  exact fun q hq hi => Or.inl (this q hq hi)

def got {α : Type} : Res α → Option α
  | .ok a => some a
  | _ => none

example : (got (residualAll par 1 1 [1] bar before [])).map (fun r => ([r.c 0, r.c 2, r.mu 2], [r.eta 0 0, r.eta 0 2, r.eta 1 2])) =
    (got (residualAll par 1 1 [1] (renumbered swapSecond bar) after [])).map (fun r => ([r.c 0, r.c 2, r.mu 2], [r.eta 0 0, r.eta 1 2, r.eta 0 2])) ∧
    (got (residualAll par 1 1 [1] bar before [])).map (fun r => r.eta 0 2) ≠ (got (residualAll par 1 1 [1] bar before [])).map (fun r => r.eta 1 2) := by
  decide +kernel

end Ex154

end Verif.Props
