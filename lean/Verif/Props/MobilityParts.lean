/-
C127: contributions of the mechanisms to the mobility.
C128: divergences of the fluxes and the time loop.
-/
import Verif.Lemmas.MobilityParts
import Verif.Lemmas.TimeLoop
import Verif.Props.Mobility
import Verif.Props.TimeLoop
import Verif.Lemmas.Connect
import Mathlib.Tactic.NormNum
import Mathlib.Data.Fin.VecNotation

namespace Verif.Props

open Verif.Mobility Verif.Mobility.Parts

/-! ## Scalar mobility -/

private theorem scalar_sum {K : Type} [Field K] [LinearOrder K] [IsStrictOrderedRing K] (m : Coeff K) (c : K) (etas : List K) :
    volS m c + vapS m c + surfS m c + gbS m etas = scalarM m c etas := by
  simp only [volS, vapS, surfS, gbS, scalarM, phiMask_eq]
  ring

/-- **C127** (sum, scalar mobility).  The fluxes by volume, vapour, surface and grain boundary diffusion add up to the
flux of the equations. -/
theorem C127_scalar {K : Type} [Field K] [LinearOrder K] [IsStrictOrderedRing K] {d : Nat} (m : Coeff K) (x : Pt K d) :
    (mechs.map (fluxS m x)).sum = -applyM m x.c (x.grains.map (·.1)) x.gradMu := by
  simp only [mechs, List.map_cons, List.map_nil, List.sum_cons, List.sum_nil, fluxS, applyM, ← scalar_sum]
  module

private theorem pair_nonneg {K : Type} [Field K] [LinearOrder K] [IsStrictOrderedRing K] (a : K) (ha : 0 ≤ a) (pre l : List K)
    (hp : ∀ x ∈ pre, 0 ≤ x) (hl : ∀ x ∈ l, 0 ≤ x) : 0 ≤ pairLoop a pre l := by
  induction l generalizing a pre with
  | nil => exact ha
  | cons x l ih =>
    have hx := hl x (List.mem_cons_self ..)
    rw [pairLoop]
    refine ih _ ?_ _ ?_ fun y hy => hl y (List.mem_cons_of_mem _ hy)
    · clear ih
      induction pre generalizing a with
      | nil => exact ha
      | cons f pre ih =>
        rw [List.foldl_cons]
        refine ih _ ?_ fun y hy => hp y (List.mem_cons_of_mem _ hy)
        have := mul_nonneg hx (hp f (List.mem_cons_self ..))
        linarith
    · intro y hy
      rcases List.mem_append.1 hy with h | h
      · exact hp y h
      · simp only [List.mem_singleton] at h; rw [h]; exact hx

private theorem phi_in {K : Type} [Field K] [LinearOrder K] [IsStrictOrderedRing K] (c : K) : 0 ≤ phi c ∧ phi c ≤ 1 := by
  simp [phi]

private theorem dotp_self {K : Type} [Field K] [LinearOrder K] [IsStrictOrderedRing K] {d : Nat} (a : Fin d → K) :
    0 ≤ dot a a := by
  simp only [dot, dotProduct]; exact Finset.sum_nonneg fun i _ => mul_self_nonneg _

/-- **C127** (direction, scalar mobility).  No mechanism moves matter against the gradient of the chemical potential. -/
theorem C127_scalar_direction {K : Type} [Field K] [LinearOrder K] [IsStrictOrderedRing K] {d : Nat} (m : Coeff K) (x : Pt K d)
    (h1 : 0 ≤ m.Mvol) (h2 : 0 ≤ m.Mvap) (h3 : 0 ≤ m.Msurf) (h4 : 0 ≤ m.Mgb) (he : ∀ g ∈ x.grains, 0 ≤ g.1) (k : Mech) :
    dot x.gradMu (fluxS m x k) ≤ 0 := by
  have hp := phi_in x.c
  have hm := dotp_self x.gradMu
  cases k <;> simp only [fluxS, neg_smul, dotp_neg, dotp_smul, Left.neg_nonpos_iff, volS, vapS, surfS, gbS, phiMask_eq]
  · exact mul_nonneg (mul_nonneg h1 hp.1) hm
  · exact mul_nonneg (mul_nonneg h2 (sub_nonneg.2 hp.2)) hm
  · refine mul_nonneg ?_ hm
    have : m.Msurf * 4 * x.c * x.c * (1 - x.c) * (1 - x.c) = m.Msurf * 4 * (x.c * (1 - x.c)) ^ 2 := by ring
    rw [this]; positivity
  · refine mul_nonneg (mul_nonneg h4 (mul_nonneg (pair_nonneg 0 le_rfl [] _ (by simp) ?_) zero_le_two)) hm
    intro y hy
    obtain ⟨g, hg, rfl⟩ := List.mem_map.1 hy
    exact he g hg

/-- Derivative with respect to a shift of the argument. -/
private theorem at_shift {f : ℝ → ℝ} {c e : ℝ} (h : HasDerivAt (fun s : ℝ => f (c + s * 1)) e 0) : HasDerivAt f e c := by
  have h2 : HasDerivAt (fun t : ℝ => t - c) 1 c := (hasDerivAt_id c).sub_const c
  have h3 := HasDerivAt.comp (h₂ := fun s : ℝ => f (c + s * 1)) (h := fun t : ℝ => t - c) c (by simpa using h) h2
  have e2 : ((fun s : ℝ => f (c + s * 1)) ∘ fun t : ℝ => t - c) = f := by
    funext t; simp
  rw [e2, mul_one] at h3
  exact h3

/-- **C127** (derivatives, scalar mobility).  `dM_vol_dc` is the derivative of `M_vol` where the concentration is in
[0,1]. -/
theorem C127_scalar_volume (m : Coeff ℝ) {c : ℝ} (h0 : 0 ≤ c) (h1 : c ≤ 1) : HasDerivAt (volS m) (dVolS m c) c := by
  have h := C39_scalar (V := ℝ) ({ Mvol := m.Mvol, Mvap := 0, Msurf := 0, Mgb := 0, L := 0 }) h0 h1 [] 1 1 0
  refine at_shift ?_
  refine (h.congr_deriv ?_).congr_of_eventuallyEq (Filter.Eventually.of_forall fun s => ?_)
  · simp [applyMDerivative, dMdc, dVolS, factorLoop]
  · simp [applyM, scalarM, volS, phiMask_eq, shift, pairLoop]

/-- **C127** (derivatives, scalar mobility).  `dM_surf_dc` is the derivative of `M_surf` for every concentration. -/
theorem C127_scalar_surface (m : Coeff ℝ) (c : ℝ) : HasDerivAt (surfS m) (dSurfS m c) c := by
  have hc := hasDerivAt_id c
  have h := (((hc.const_mul (m.Msurf * 4)).mul hc).mul (hc.const_sub 1)).mul (hc.const_sub 1)
  refine (h.congr_deriv ?_).congr_of_eventuallyEq (Filter.Eventually.of_forall fun s => ?_)
  · simp [dSurfS]; ring
  · simp [surfS]

/-! ## Tensorial mobility -/

/-- The two ways to project along a vector agree, also where the vector is too short. -/
private theorem unit_filter {d : Nat} (v mu : Fin d → ℝ) :
    dot (unitVector Real.sqrt tol1 v) mu • unitVector Real.sqrt tol1 v = (unitFilter2 tol2 v * dot v mu) • v := by
  have ht : (0 : ℝ) < tol1 := by unfold tol1; positivity
  have ht2 : (tol2 : ℝ) = tol1 ^ 2 := by unfold tol1 tol2; norm_num
  have hv : 0 ≤ dot v v := dotp_self v
  by_cases h : tol1 < Real.sqrt (dot v v)
  · have h' : ¬ Real.sqrt (dot v v) < tol1 := by linarith
    have hp : 0 < Real.sqrt (dot v v) := by linarith
    have hq : tol2 < dot v v := by
      rw [ht2]; exact (Real.lt_sqrt ht.le).1 h
    have hq' : ¬ dot v v < tol2 := by linarith
    have hu : unitVector Real.sqrt tol1 v = (1 / Real.sqrt (dot v v)) • v := by
      unfold unitVector
      simp only [if_pos h, if_neg h']
      funext i
      simp [div_eq_inv_mul]
    rw [hu, dotp_comm, dotp_smul, dotp_comm mu v, smul_smul]
    unfold unitFilter2
    simp only [if_pos hq, if_neg hq']
    congr 1
    have : 1 / dot v v = (1 / Real.sqrt (dot v v)) * (1 / Real.sqrt (dot v v)) := by
      rw [div_mul_div_comm, Real.mul_self_sqrt hv, one_mul]
    rw [this]; ring
  · have hq : ¬ tol2 < dot v v := by
      rw [ht2]; exact fun hh => h ((Real.lt_sqrt ht.le).2 hh)
    have hu : unitVector Real.sqrt tol1 v = 0 := by
      unfold unitVector
      simp only [if_neg h]
      funext i; simp
    rw [hu]
    unfold unitFilter2
    simp [if_neg hq]

/-- The part of the mobility of a pair of grains, applied. -/
private noncomputable def pairFlux {d : Nat} (mu : Fin d → ℝ) (g f : ℝ × (Fin d → ℝ)) : Fin d → ℝ :=
  (g.1 * f.1) • (mu - (unitFilter2 tol2 (g.2 - f.2) * dot (g.2 - f.2) mu) • (g.2 - f.2))

private theorem filter_neg {d : Nat} (v : Fin d → ℝ) : unitFilter2 tol2 (-v) = unitFilter2 tol2 v := by
  have : dot (-v) (-v) = dot v v := by simp [dot]
  simp only [unitFilter2, this]

private theorem pairFlux_symm {d : Nat} (mu : Fin d → ℝ) (g f : ℝ × (Fin d → ℝ)) : pairFlux mu g f = pairFlux mu f g := by
  unfold pairFlux
  have e : f.2 - g.2 = -(g.2 - f.2) := by abel
  rw [e, filter_neg]
  generalize g.2 - f.2 = v
  have : dot (-v) mu = -dot v mu := by simp [dot]
  rw [this, mul_comm f.1]
  congr 2
  module

private theorem gbLoop_pairs {d : Nat} (mu acc : Fin d → ℝ) (pre l : List (ℝ × (Fin d → ℝ))) :
    gbLoop mu acc pre l = acc + pairs (pairFlux mu) pre l := by
  induction l generalizing acc pre with
  | nil => simp [gbLoop, pairs]
  | cons g l ih =>
    have hf : ∀ a : Fin d → ℝ, pre.foldl (fun a f =>
        let diff := g.2 - f.2
        let filter := unitFilter2 tol2 diff
        a + (g.1 * f.1) • (mu - (filter * dot diff mu) • diff)) a = a + (pre.map (pairFlux mu g)).sum := by
      intro a
      clear ih
      induction pre generalizing a with
      | nil => simp
      | cons f pre ih =>
        rw [List.foldl_cons, ih, List.map_cons, List.sum_cons, ← add_assoc]
        rfl
    rw [gbLoop, pairs]
    dsimp only
    rw [hf, ih, add_assoc]

private theorem app_pair {d : Nat} (f : ℝ) (v mu : Fin d → ℝ) :
    app (projector (unitVector Real.sqrt tol1 v) f 1) mu = f • (mu - (unitFilter2 tol2 v * dot v mu) • v) := by
  rw [app_projector, one_smul, unit_filter]

private theorem gbRow_app {d : Nat} (m : Coeff ℝ) (i : Nat) (g : ℝ × (Fin d → ℝ)) (acc : Mat ℝ d) (mu : Fin d → ℝ)
    (l : List ((ℝ × (Fin d → ℝ)) × Nat)) :
    app (gbRow Real.sqrt m i g acc l) mu =
      app acc mu + (l.map fun f => if i ≠ f.2 then m.Mgb • pairFlux mu g f.1 else 0).sum := by
  induction l generalizing acc with
  | nil => simp [gbRow]
  | cons f l ih =>
    rw [gbRow, ih, List.map_cons, List.sum_cons, ← add_assoc]
    congr 1
    by_cases h : i ≠ f.2
    · rw [if_pos h, if_pos h, app_add, app_pair]
      congr 1
      rw [pairFlux, smul_smul]
      congr 1
      ring
    · rw [if_neg h, if_neg h, add_zero]

private theorem zip_get {α : Type} {l : List α} {g : α × Nat} (h : g ∈ l.zipIdx) : l[g.2]? = some g.1 :=
  List.mem_zipIdx_iff_getElem?.1 h

private theorem map_sum {α : Type} {d : Nat} (r : ℝ) (h : α → (Fin d → ℝ)) (l : List α) :
    (l.map fun x => r • h x).sum = r • (l.map h).sum := by
  induction l with
  | nil => simp
  | cons x l ih => simp only [List.map_cons, List.sum_cons, ih, smul_add]

private theorem gbT_app {d : Nat} (m : Coeff ℝ) (grains : List (ℝ × (Fin d → ℝ))) (mu : Fin d → ℝ) :
    app (gbT Real.sqrt m grains) mu = (2 * m.Mgb) • gbLoop mu 0 [] grains := by
  have hfold : ∀ (l : List ((ℝ × (Fin d → ℝ)) × Nat)) (acc : Mat ℝ d), (∀ g ∈ l, grains[g.2]? = some g.1) →
      app (l.foldl (fun acc g => gbRow Real.sqrt m g.2 g.1 acc grains.zipIdx) acc) mu =
        app acc mu + (l.map fun g => m.Mgb • ((grains.map (pairFlux mu g.1)).sum - pairFlux mu g.1 g.1)).sum := by
    intro l
    induction l with
    | nil => intro acc _; simp
    | cons g l ih =>
      intro acc hl
      rw [List.foldl_cons, ih _ fun x hx => hl x (List.mem_cons_of_mem _ hx), gbRow_app, List.map_cons, List.sum_cons,
        add_assoc]
      congr 2
      have := skip_sum (fun f => m.Mgb • pairFlux mu g.1 f) g.2 0 grains
      rw [this, if_pos (Nat.zero_le _), Nat.sub_zero, hl g (List.mem_cons_self ..), map_sum, smul_sub]
      rfl
  have h := hfold grains.zipIdx 0 fun g hg => zip_get hg
  have hp := pairs_double (pairFlux mu) (pairFlux_symm mu) [] grains
  simp only [List.map_nil, List.sum_nil] at hp
  have e : (grains.zipIdx.map fun g => m.Mgb • ((grains.map (pairFlux mu g.1)).sum - pairFlux mu g.1 g.1)).sum =
      (grains.map fun g => m.Mgb • ((grains.map (pairFlux mu g)).sum - pairFlux mu g g)).sum := by
    have : (grains.zipIdx.map fun g => m.Mgb • ((grains.map (pairFlux mu g.1)).sum - pairFlux mu g.1 g.1)) =
        (grains.zipIdx.map Prod.fst).map fun g => m.Mgb • ((grains.map (pairFlux mu g)).sum - pairFlux mu g g) := by
      rw [List.map_map]; rfl
    rw [this, List.zipIdx_map_fst]
  unfold gbT
  rw [h, e, app_zero, zero_add, map_sum, gbLoop_pairs, zero_add, mul_comm, mul_smul, two_smul, hp]
  simp

private theorem gb_short {d : Nat} (mu : Fin d → ℝ) (grains : List (ℝ × (Fin d → ℝ))) (h : grains.length ≤ 1) :
    gbLoop mu 0 [] grains = 0 := by
  match grains, h with
  | [], _ => rfl
  | [g], _ => rfl

/-- Surface mobility. -/
noncomputable def fsurf (m : Coeff ℝ) (c : ℝ) : ℝ := m.Msurf * 4 * (c * c) * ((1 - c) * (1 - c))

private theorem tensorialM_eq {d : Nat} (m : Coeff ℝ) (c : ℝ) (gradC : Fin d → ℝ) (grains : List (ℝ × (Fin d → ℝ)))
    (mu : Fin d → ℝ) :
    tensorialM Real.sqrt m c gradC grains mu =
      app (volT m c) mu + app (vapT m c) mu + app (surfT Real.sqrt m c gradC) mu + app (gbT Real.sqrt m grains) mu +
        (fsurf m c / 1000) • mu := by
  have e : m.Msurf * 4 * (c * c) * (1 - c) * (1 - c) = fsurf m c := by unfold fsurf; ring
  have hs : (projectorScale : ℝ) = 1 + 1 / 1000 := by unfold projectorScale; norm_num
  rw [gbT_app, volT, vapT, surfT, app_diagonal, app_diagonal, app_projector, phiMask_eq, e]
  unfold tensorialM
  dsimp only
  have e2 : m.Msurf * 4 * (c * c) * ((1 - c) * (1 - c)) = fsurf m c := rfl
  rw [e2, hs]
  generalize unitVector Real.sqrt tol1 gradC = n
  split
  · rename_i h
    rw [gb_short mu grains h]
    module
  · module

/-- **C127** (sum, tensorial mobility).  The fluxes of the four mechanisms add up to the flux of the equations up to a
thousandth of the surface mobility. -/
theorem C127_tensorial {d : Nat} (m : Coeff ℝ) (x : Pt ℝ d) :
    (mechs.map (fluxT Real.sqrt m x)).sum =
      -tensorialM Real.sqrt m x.c x.gradC x.grains x.gradMu + (fsurf m x.c / 1000) • x.gradMu := by
  rw [tensorialM_eq]
  simp only [mechs, List.map_cons, List.map_nil, List.sum_cons, List.sum_nil, fluxT, app_neg]
  abel

private theorem unit_sq {d : Nat} (v : Fin d → ℝ) (h : tol1 < Real.sqrt (dot v v)) :
    dot v (unitVector Real.sqrt tol1 v) • unitVector Real.sqrt tol1 v = v := by
  have ht : (0 : ℝ) < tol1 := by unfold tol1; positivity
  have ht2 : (tol2 : ℝ) = tol1 ^ 2 := by unfold tol1 tol2; norm_num
  have hq : tol2 < dot v v := by rw [ht2]; exact (Real.lt_sqrt ht.le).1 h
  have hp : (0 : ℝ) < tol2 := by rw [ht2]; positivity
  rw [dotp_comm, unit_filter]
  have : unitFilter2 tol2 v * dot v v = 1 := by
    unfold unitFilter2
    simp only [if_pos hq, if_neg (not_lt.2 hq.le)]
    exact one_div_mul_cancel (by linarith)
  rw [this, one_smul]

/-- **C127** (surface).  The surface flux of the output is tangential to the surface, that is orthogonal to the gradient
of the concentration, unless the gradient is numerically zero. -/
theorem C127_tangential {d : Nat} (m : Coeff ℝ) (x : Pt ℝ d) (h : tol1 < Real.sqrt (dot x.gradC x.gradC)) :
    dot x.gradC (fluxT Real.sqrt m x .surf) = 0 := by
  simp only [fluxT, surfT, app_neg, app_projector, dotp_neg, dotp_smul, dotp_sub]
  have : dot (dot x.gradC (unitVector Real.sqrt tol1 x.gradC) • unitVector Real.sqrt tol1 x.gradC) x.gradMu =
      dot x.gradC x.gradMu := congrArg (fun w => dot w x.gradMu) (unit_sq x.gradC h)
  rw [dotp_comm (_ • _), dotp_smul, dotp_comm x.gradMu (unitVector _ _ _)] at this
  rw [← this]
  ring

/-- **C127** (surface, as used by the equations).  With surface diffusion alone the flux of the equations is not
tangential: a thousandth of the isotropic flux crosses the surface. -/
theorem C127_leak {d : Nat} (m : Coeff ℝ) (x : Pt ℝ d) (h : tol1 < Real.sqrt (dot x.gradC x.gradC)) (h1 : m.Mvol = 0)
    (h2 : m.Mvap = 0) (h4 : m.Mgb = 0) :
    dot x.gradC (tensorialM Real.sqrt m x.c x.gradC x.grains x.gradMu) = fsurf m x.c / 1000 * dot x.gradC x.gradMu := by
  have ht := C127_tangential m x h
  simp only [fluxT, app_neg, dotp_neg, neg_eq_zero] at ht
  rw [tensorialM_eq, gbT_app, volT, vapT, app_diagonal, app_diagonal, h1, h2, h4]
  simp only [zero_mul, zero_smul, mul_zero, add_zero, zero_add, dotp_add, ht, dotp_smul]

private theorem filter_pos {d : Nat} (v mu : Fin d → ℝ) :
    0 ≤ dot mu (mu - (unitFilter2 tol2 v * dot v mu) • v) := by
  have ht : (0 : ℝ) < tol2 := by unfold tol2; positivity
  have hm := dotp_self mu
  rw [dotp_sub, dotp_smul]
  unfold unitFilter2
  by_cases h : tol2 < dot v v
  · have h' : ¬ dot v v < tol2 := by linarith
    have hp : 0 < dot v v := by linarith
    simp only [if_pos h, if_neg h']
    have : dot v mu ^ 2 ≤ dot v v * dot mu mu := by
      have := Finset.sum_mul_sq_le_sq_mul_sq Finset.univ v mu
      simp only [dot, dotProduct, ← sq]
      exact this
    rw [dotp_comm mu v]
    have e : 1 / dot v v * dot v mu * dot v mu = dot v mu ^ 2 / dot v v := by ring
    rw [e, sub_nonneg, div_le_iff₀ hp]
    linarith
  · simp [if_neg h, hm]

private theorem sum_pos {d : Nat} {α : Type} (mu : Fin d → ℝ) (h : α → (Fin d → ℝ)) (l : List α)
    (hl : ∀ x ∈ l, 0 ≤ dot mu (h x)) : 0 ≤ dot mu (l.map h).sum := by
  induction l with
  | nil => simp [dot]
  | cons x l ih =>
    rw [List.map_cons, List.sum_cons, dotp_add]
    exact add_nonneg (hl x (List.mem_cons_self ..)) (ih fun y hy => hl y (List.mem_cons_of_mem _ hy))

private theorem pairs_pos {d : Nat} (mu : Fin d → ℝ) (pre l : List (ℝ × (Fin d → ℝ))) (hp : ∀ g ∈ pre, 0 ≤ g.1)
    (hl : ∀ g ∈ l, 0 ≤ g.1) : 0 ≤ dot mu (pairs (pairFlux mu) pre l) := by
  induction l generalizing pre with
  | nil => simp [pairs, dot]
  | cons g l ih =>
    have hg := hl g (List.mem_cons_self ..)
    rw [pairs, dotp_add]
    refine add_nonneg (sum_pos mu _ _ fun f hf => ?_) (ih _ ?_ fun y hy => hl y (List.mem_cons_of_mem _ hy))
    · rw [pairFlux, dotp_smul]
      exact mul_nonneg (mul_nonneg hg (hp f hf)) (filter_pos _ _)
    · intro y hy
      rcases List.mem_append.1 hy with h | h
      · exact hp y h
      · simp only [List.mem_singleton] at h; rw [h]; exact hg

/-- **C127** (direction, tensorial mobility).  No mechanism moves matter against the gradient of the chemical
potential. -/
theorem C127_tensorial_direction {d : Nat} (m : Coeff ℝ) (x : Pt ℝ d) (h1 : 0 ≤ m.Mvol) (h2 : 0 ≤ m.Mvap)
    (h3 : 0 ≤ m.Msurf) (h4 : 0 ≤ m.Mgb) (he : ∀ g ∈ x.grains, 0 ≤ g.1) (k : Mech) :
    dot x.gradMu (fluxT Real.sqrt m x k) ≤ 0 := by
  have hp := phi_in x.c
  have hm := dotp_self x.gradMu
  cases k <;> simp only [fluxT, app_neg, dotp_neg, Left.neg_nonpos_iff]
  · rw [volT, app_diagonal, dotp_smul, phiMask_eq]
    exact mul_nonneg (mul_nonneg h1 hp.1) hm
  · rw [vapT, app_diagonal, dotp_smul, phiMask_eq]
    exact mul_nonneg (mul_nonneg h2 (sub_nonneg.2 hp.2)) hm
  · rw [surfT, app_pair, dotp_smul]
    refine mul_nonneg ?_ (filter_pos _ _)
    have : m.Msurf * 4 * (x.c * x.c) * (1 - x.c) * (1 - x.c) = m.Msurf * 4 * (x.c * (1 - x.c)) ^ 2 := by ring
    rw [this]; positivity
  · rw [gbT_app, dotp_smul, gbLoop_pairs, zero_add]
    exact mul_nonneg (by positivity) (pairs_pos _ [] _ (by simp) he)

/-! ## Matrices of the derivatives -/

private theorem dgrad_app {d : Nat} (m : Coeff ℝ) (c : ℝ) (gradC mu w : Fin d → ℝ) :
    app (dgradT Real.sqrt m c gradC mu) w =
      (let nc := unitVector Real.sqrt tol1 gradC
       let f := if fsurf m c < 1 / 10 ^ 6 then 0 else fsurf m c
       let nrm := if Real.sqrt (dot gradC gradC) < 1 / 10 ^ 4 then 1 else Real.sqrt (dot gradC gradC)
       let temp := w - dot nc w • nc
       (-f / nrm) • (dot nc mu • temp + dot mu temp • nc)) := by
  unfold dgradT
  dsimp only
  have e2 : m.Msurf * 4 * (c * c) * ((1 - c) * (1 - c)) = fsurf m c := rfl
  rw [e2]
  generalize (if fsurf m c < 1 / 10 ^ 6 then 0 else fsurf m c) = f
  generalize (if Real.sqrt (dot gradC gradC) < 1 / 10 ^ 4 then 1 else Real.sqrt (dot gradC gradC)) = nrm
  generalize unitVector Real.sqrt tol1 gradC = n
  rw [app_mul, app_projector, one_smul]
  generalize w - dot n w • n = t
  have e3 : (fun i j => (diagonal (dot n mu) i j + outer n mu i j) * -f : Mat ℝ d) =
      fun i j => (diagonal (dot n mu) + outer n mu : Mat ℝ d) i j * -f := rfl
  rw [e3, app_scale, app_add, app_diagonal, app_outer, dotp_smul]
  have : -f / nrm = -f * (1 / nrm) := by ring
  rw [this]
  module

private theorem detaiLoop_app {d : Nat} (i : Nat) (g : Fin d → ℝ) (acc : Mat ℝ d) (mu : Fin d → ℝ)
    (l : List ((ℝ × (Fin d → ℝ)) × Nat)) :
    app (detaiLoop Real.sqrt i g acc l) mu =
      app acc mu + (l.map fun f => if i ≠ f.2 then pairFlux mu (1, g) f.1 else 0).sum := by
  induction l generalizing acc with
  | nil => simp [detaiLoop]
  | cons f l ih =>
    rw [detaiLoop, ih, List.map_cons, List.sum_cons, ← add_assoc]
    congr 1
    by_cases h : i ≠ f.2
    · rw [if_pos h, if_pos h.symm, app_add, app_pair]
      congr 1
      rw [pairFlux, one_mul]
    · rw [if_neg h, if_neg (fun hh => h hh.symm), add_zero]

/-- The increment belonging to a pair of grains. -/
private noncomputable def pairInc {d : Nat} (mu : Fin d → ℝ) (g f : ℝ × (Fin d → ℝ) × ℝ) : Fin d → ℝ :=
  (f.1 * g.2.2 + g.1 * f.2.2) • (mu - (unitFilter2 tol2 (g.2.1 - f.2.1) * dot (g.2.1 - f.2.1) mu) • (g.2.1 - f.2.1))

private theorem pairInc_symm {d : Nat} (mu : Fin d → ℝ) (g f : ℝ × (Fin d → ℝ) × ℝ) : pairInc mu g f = pairInc mu f g := by
  have h := pairFlux_symm mu (1, g.2.1) (1, f.2.1)
  simp only [pairFlux, mul_one, one_smul] at h
  unfold pairInc
  rw [h]
  congr 1
  ring

private theorem gbDeriv_pairs {d : Nat} (mu dmu acc : Fin d → ℝ) (pre l : List (ℝ × (Fin d → ℝ) × ℝ)) :
    gbDerivLoop mu dmu acc pre l =
      acc + pairs (fun g f => pairFlux dmu (g.1, g.2.1) (f.1, f.2.1) + pairInc mu g f) pre l := by
  induction l generalizing acc pre with
  | nil => simp [gbDerivLoop, pairs]
  | cons g l ih =>
    have hf : ∀ a : Fin d → ℝ, pre.foldl (fun a f =>
        let diff := g.2.1 - f.2.1
        let filter := unitFilter2 tol2 diff
        let a := a + (g.1 * f.1) • (dmu - (filter * dot diff dmu) • diff)
        a + (f.1 * g.2.2 + g.1 * f.2.2) • (mu - (dot diff mu) • (filter • diff))) a =
        a + (pre.map fun f => pairFlux dmu (g.1, g.2.1) (f.1, f.2.1) + pairInc mu g f).sum := by
      intro a
      clear ih
      induction pre generalizing a with
      | nil => simp
      | cons f pre ih =>
        rw [List.foldl_cons, ih, List.map_cons, List.sum_cons, ← add_assoc]
        congr 1
        simp only [pairFlux, pairInc]
        module
    rw [gbDerivLoop, pairs]
    dsimp only
    rw [hf, ih, add_assoc]

/-- The matrices `dM_detai` of all order parameters applied, times the increments. -/
noncomputable def etaTerms {d : Nat} (m : Coeff ℝ) (grains : List (ℝ × (Fin d → ℝ) × ℝ)) (mu : Fin d → ℝ) :
    Res (List (Fin d → ℝ)) :=
  grains.zipIdx.mapM fun g => do
    let M ← detaiT Real.sqrt m (grains.map fun g => (g.1, g.2.1)) g.2
    .ok (g.1.2.2 • app M mu)

/-- projection along the difference of two gradients, applied -/
private noncomputable def proj {d : Nat} (mu : Fin d → ℝ) (g f : ℝ × (Fin d → ℝ) × ℝ) : Fin d → ℝ :=
  pairFlux mu (1, g.2.1) (1, f.2.1)

private theorem proj_symm {d : Nat} (mu : Fin d → ℝ) (g f : ℝ × (Fin d → ℝ) × ℝ) : proj mu g f = proj mu f g :=
  pairFlux_symm mu _ _

private theorem etaTerms_ok {d : Nat} (m : Coeff ℝ) (grains : List (ℝ × (Fin d → ℝ) × ℝ)) (mu : Fin d → ℝ) :
    etaTerms m grains mu = .ok (grains.map fun g => (2 * m.Mgb) •
      ((grains.map fun f => (g.2.2 * f.1) • proj mu g f).sum - (g.2.2 * g.1) • proj mu g g)) := by
  unfold etaTerms
  have hF : ∀ g ∈ grains.zipIdx, (do
      let M ← detaiT Real.sqrt m (grains.map fun g => (g.1, g.2.1)) g.2
      Res.ok (g.1.2.2 • app M mu)) = Res.ok ((fun g : (ℝ × (Fin d → ℝ) × ℝ) × Nat => (2 * m.Mgb) •
      ((grains.map fun f => (g.1.2.2 * f.1) • proj mu g.1 f).sum - (g.1.2.2 * g.1.1) • proj mu g.1 g.1)) g) := by
    intro g hg
    have hget := zip_get hg
    have hget' : (grains.map fun g => (g.1, g.2.1))[g.2]? = some (g.1.1, g.1.2.1) := by
      rw [List.getElem?_map, hget]; rfl
    have hi : Res.index (grains.map fun g => (g.1, g.2.1)) g.2 = .ok (g.1.1, g.1.2.1) := by
      rw [Res.index, hget']
    rw [detaiT, hi, Res.ok_bind, Res.ok_bind, app_scale, detaiLoop_app, app_zero, zero_add]
    have := skip_sum (fun f => pairFlux mu (1, g.1.2.1) f) g.2 0 (grains.map fun g => (g.1, g.2.1))
    rw [this, if_pos (Nat.zero_le _), Nat.sub_zero, hget', List.map_map]
    dsimp only [Option.map_some, Option.getD_some]
    have e1 : ∀ f : ℝ × (Fin d → ℝ) × ℝ, pairFlux mu (1, g.1.2.1) (f.1, f.2.1) = f.1 • proj mu g.1 f := by
      intro f
      simp only [proj, pairFlux, one_mul, mul_one, one_smul]
    have e2 : (grains.map ((fun f => pairFlux mu (1, g.1.2.1) f) ∘ fun g => (g.1, g.2.1))) =
        grains.map fun f => f.1 • proj mu g.1 f := List.map_congr_left fun f _ => e1 f
    rw [e2, e1]
    have e3 : (grains.map fun f => (g.1.2.2 * f.1) • proj mu g.1 f).sum =
        g.1.2.2 • (grains.map fun f => f.1 • proj mu g.1 f).sum := by
      rw [← map_sum]
      refine congrArg List.sum (List.map_congr_left fun f _ => ?_)
      rw [smul_smul]
    rw [e3]
    congr 1
    module
  rw [Res.mapM_ok _ hF]
  have : ∀ h : (ℝ × (Fin d → ℝ) × ℝ) → (Fin d → ℝ), (grains.zipIdx.map fun g => h g.1) = grains.map h := by
    intro h
    have : (grains.zipIdx.map fun g => h g.1) = (grains.zipIdx.map Prod.fst).map h := by rw [List.map_map]; rfl
    rw [this, List.zipIdx_map_fst]
  rw [this fun g => (2 * m.Mgb) •
      ((grains.map fun f => (g.2.2 * f.1) • proj mu g f).sum - (g.2.2 * g.1) • proj mu g g)]

private theorem etaTerms_sum {d : Nat} (m : Coeff ℝ) (grains : List (ℝ × (Fin d → ℝ) × ℝ)) (mu : Fin d → ℝ) :
    (grains.map fun g => (2 * m.Mgb) •
      ((grains.map fun f => (g.2.2 * f.1) • proj mu g f).sum - (g.2.2 * g.1) • proj mu g g)).sum =
      (2 * m.Mgb) • pairs (pairInc mu) [] grains := by
  rw [map_sum]
  congr 1
  have h := pairs_both (fun g f => (g.2.2 * f.1) • proj mu g f) [] grains
  simp only [List.map_nil, List.sum_nil] at h
  rw [pairs_congr (pairInc mu) (fun g f => (g.2.2 * f.1) • proj mu g f + (f.2.2 * g.1) • proj mu f g) (fun g f => ?_), h]
  · simp
  · rw [proj_symm mu f g, ← add_smul]
    simp only [proj, pairInc, pairFlux, mul_one, one_smul]
    congr 1
    ring

private theorem deriv_short {d : Nat} (mu dmu : Fin d → ℝ) (grains : List (ℝ × (Fin d → ℝ) × ℝ)) (h : grains.length ≤ 1) :
    gbDerivLoop mu dmu 0 [] grains = 0 := by
  match grains, h with
  | [], _ => rfl
  | [g], _ => rfl

private theorem dc_app {d : Nat} (m : Coeff ℝ) (c : ℝ) (gradC mu : Fin d → ℝ) :
    app (dcT Real.sqrt m c gradC) mu = ((m.Mvol - m.Mvap) * (30 * (4 * c * c * (1 - c) * (1 - c)))) • mu +
      dfsurf m c • ((projectorScale : ℝ) • mu - dot (unitVector Real.sqrt tol1 gradC) mu • unitVector Real.sqrt tol1 gradC) := by
  unfold dcT
  dsimp only
  rw [app_add, app_diagonal, app_projector]

/-- **C127** (matrices of the derivatives, tensorial mobility).  The matrices `dM_dc`, `dM_dgrad_c` and `dM_detai` of the
preconditioner and of the grand potential model give the terms of the linearisation `apply_M_derivative`; the
mobility itself exceeds the one of the linearisation by a thousandth of the surface mobility. -/
theorem C127_matrices {d : Nat} (m : Coeff ℝ) (c : ℝ) (gradC mu dgradC dmu : Fin d → ℝ) (dc : ℝ)
    (grains : List (ℝ × (Fin d → ℝ) × ℝ)) :
    ∃ ts, etaTerms m grains mu = .ok ts ∧
      tensorialM Real.sqrt m c gradC (grains.map fun g => (g.1, g.2.1)) dmu + dc • app (dcT Real.sqrt m c gradC) mu +
          app (dgradT Real.sqrt m c gradC mu) dgradC + ts.sum =
        tensorialMDerivative Real.sqrt m c gradC grains mu dc dgradC dmu + (fsurf m c / 1000) • dmu := by
  refine ⟨_, etaTerms_ok m grains mu, ?_⟩
  have hs : (projectorScale : ℝ) = 1 + 1 / 1000 := by unfold projectorScale; norm_num
  have hp := pairs_add (fun g f : ℝ × (Fin d → ℝ) × ℝ => pairFlux dmu (g.1, g.2.1) (f.1, f.2.1)) (pairInc mu) [] grains
  rw [pairs_map (pairFlux dmu) (fun g : ℝ × (Fin d → ℝ) × ℝ => (g.1, g.2.1))] at hp
  have hg : gbDerivLoop mu dmu 0 [] grains =
      gbLoop dmu 0 [] (grains.map fun g => (g.1, g.2.1)) + pairs (pairInc mu) [] grains := by
    rw [gbDeriv_pairs, gbLoop_pairs, zero_add, zero_add]
    exact hp
  rw [etaTerms_sum, dc_app, dgrad_app, hs]
  unfold tensorialMDerivative tensorialM
  dsimp only
  have e2 : m.Msurf * 4 * (c * c) * ((1 - c) * (1 - c)) = fsurf m c := rfl
  have e3 : (if m.Msurf * (4 * c * c * (1 - c) * (1 - c)) < 1 / 10 ^ 6 then 0 else
      m.Msurf * 8 * c * (1 - c) * (1 - 2 * c)) = dfsurf m c := rfl
  rw [e2, e3, hs]
  generalize (if fsurf m c < 1 / 10 ^ 6 then 0 else fsurf m c) = f3
  generalize (if Real.sqrt (dot gradC gradC) < 1 / 10 ^ 4 then 1 else Real.sqrt (dot gradC gradC)) = nrm
  generalize unitVector Real.sqrt tol1 gradC = n
  rw [List.length_map]
  split
  · rename_i h
    have h1 := gb_short dmu (grains.map fun g => (g.1, g.2.1)) (by simpa using h)
    have h2 := deriv_short mu dmu grains h
    rw [h2, h1, zero_add] at hg
    rw [← hg]
    module
  · rw [hg]
    module

/-- **C127** (matrices of the derivatives, scalar mobility).  `apply_M` with the increment, `dM_dc` and `dM_detai` make up
the linearisation `apply_M_derivative`. -/
theorem C127_scalar_matrices {V : Type} [AddCommGroup V] [Module ℝ V] (m : Coeff ℝ) (c : ℝ) (etas : List (ℝ × ℝ)) (mu : V)
    (dc : ℝ) (dmu : V) :
    applyM m c (etas.map (·.1)) dmu + (dMdc m c * dc) • mu +
        (etas.zipIdx.map fun e => (dMdetai m (etas.map (·.1)) e.2 * e.1.2) • mu).sum =
      applyMDerivative m c etas mu dc dmu := by
  have hsum : ∀ (a : ℝ) (l : List (ℝ × Nat)) (i : Nat),
      l.foldl (fun a je => if je.2 ≠ i then a + je.1 else a) a = a + (l.map fun je => if i ≠ je.2 then je.1 else 0).sum := by
    intro a l i
    induction l generalizing a with
    | nil => simp
    | cons x l ih =>
      rw [List.foldl_cons, ih, List.map_cons, List.sum_cons]
      by_cases h : i ≠ x.2
      · rw [if_pos h, if_pos h.symm]; ring
      · rw [if_neg h, if_neg fun hh => h hh.symm]; ring
  have hd : ∀ e ∈ etas.zipIdx, (dMdetai m (etas.map (·.1)) e.2 * e.1.2) • mu =
      ((2 * m.Mgb) * (((etas.map (·.1)).sum - e.1.1) * e.1.2)) • mu := by
    intro e he
    have hget : (etas.map (·.1))[e.2]? = some e.1.1 := by rw [List.getElem?_map, zip_get he]; rfl
    have e1 : ((etas.map (·.1)).mapIdx fun j e => (j, e)).foldl (fun a je => if je.1 ≠ e.2 then a + je.2 else a) 0 =
        (etas.map (·.1)).sum - e.1.1 := by
      have h1 : ((etas.map (·.1)).mapIdx fun j e => (j, e)) = (etas.map (·.1)).zipIdx.map fun p => (p.2, p.1) := by
        rw [List.mapIdx_eq_zipIdx_map]
      rw [h1, List.foldl_map, hsum, zero_add]
      have := skip_sum (fun x : ℝ => x) e.2 0 (etas.map (·.1))
      rw [if_pos (Nat.zero_le _), Nat.sub_zero, hget] at this
      rw [this, List.map_id']
      rfl
    rw [dMdetai, e1, mul_assoc]
  rw [List.map_congr_left hd]
  have hz : (etas.zipIdx.map fun e => ((2 * m.Mgb) * (((etas.map (·.1)).sum - e.1.1) * e.1.2)) • mu) =
      (etas.zipIdx.map Prod.fst).map fun e => ((2 * m.Mgb) * (((etas.map (·.1)).sum - e.1) * e.2)) • mu := by
    rw [List.map_map]; rfl
  rw [hz, List.zipIdx_map_fst]
  unfold applyMDerivative
  dsimp only
  rw [foldl_fst, zero_add]
  generalize (etas.map (·.1)).sum = s
  have hl : ∀ (l : List (ℝ × ℝ)) (a : ℝ), (l.map fun e => ((2 * m.Mgb) * ((s - e.1) * e.2)) • mu).sum + (2 * m.Mgb * a) • mu =
      ((2 * m.Mgb) * factorLoop s a l) • mu := by
    intro l
    induction l with
    | nil => intro a; simp [factorLoop]
    | cons e l ih =>
      intro a
      rw [factorLoop, ← ih, List.map_cons, List.sum_cons]
      module
  have := hl etas 0
  rw [mul_zero, zero_smul, add_zero] at this
  rw [this, applyM]
  module

/-- **C127** (derivative by the concentration, tensorial mobility, violated).  For volume diffusion the matrix `dM_dc` is four
times `dM_vol_dc`. -/
theorem C127_dc_violated {d : Nat} (m : Coeff ℝ) (c : ℝ) (gradC : Fin d → ℝ) (h2 : m.Mvap = 0) (h3 : m.Msurf = 0) :
    dcT Real.sqrt m c gradC = fun i j => 4 * dVolT m c i j := by
  have hf : dfsurf m c = 0 := by
    unfold dfsurf
    dsimp only
    rw [h3, zero_mul, if_pos (by positivity)]
  unfold dcT dVolT
  dsimp only
  funext i j
  simp only [hf, h2, Pi.add_apply, diagonal, projector, mul_zero, add_zero, sub_zero]
  split
  · ring
  · rw [mul_zero]

/-- **C127** (derivative of the surface part, tensorial mobility).  Where the mobility of the surface is not small, the
matrix `dM_surf_dc` differs from the derivative of `M_surf` by a thousandth of the derivative of its factor. -/
theorem C127_surface_derivative {d : Nat} (m : Coeff ℝ) (c : ℝ) (gradC mu : Fin d → ℝ) (h : 1 / 10 ^ 6 ≤ fsurf m c) (i : Fin d) :
    HasDerivAt (fun t => app (surfT Real.sqrt m t gradC) mu i)
      (app (dSurfT Real.sqrt m c gradC) mu i - dSurfS m c / 1000 * mu i) c := by
  have hs : (projectorScale : ℝ) = 1 + 1 / 1000 := by unfold projectorScale; norm_num
  have hf : dfsurf m c = dSurfS m c := by
    have e : m.Msurf * (4 * c * c * (1 - c) * (1 - c)) = fsurf m c := by unfold fsurf; ring
    unfold dfsurf dSurfS
    dsimp only
    rw [e, if_neg (not_lt.2 h)]
    ring
  have h1 := (C127_scalar_surface m c).mul_const (mu i - dot (unitVector Real.sqrt tol1 gradC) mu * unitVector Real.sqrt tol1 gradC i)
  refine (h1.congr_deriv ?_).congr_of_eventuallyEq (Filter.Eventually.of_forall fun t => ?_)
  · rw [dSurfT, app_projector, hf, hs]
    simp only [Pi.smul_apply, Pi.sub_apply, smul_eq_mul]
    ring
  · simp only [surfT, app_projector, surfS, Pi.smul_apply, Pi.sub_apply, smul_eq_mul]
    ring

/-! ## Divergences -/

section divergences

variable {K : Type} [Field K] {d n : Nat}

private theorem rhs_sum (flux : Pt K d → Mech → (Fin d → K)) (M : Pt K d → (Fin d → K)) (qs : List (QPoint K d n))
    (h : ∀ x, (mechs.map (flux x)).sum = -M x) : (mechs.map (rhs flux qs)).sum = -fluxRow M qs := by
  have key : ∀ (qs : List (QPoint K d n)) (a b c e f : Fin n → K), a + (b + (c + e)) = -f →
      qs.foldl (fun acc q => fun i => acc i + dot (q.dphi i) (flux q.x .vol) * q.jxw) a +
      (qs.foldl (fun acc q => fun i => acc i + dot (q.dphi i) (flux q.x .vap) * q.jxw) b +
      (qs.foldl (fun acc q => fun i => acc i + dot (q.dphi i) (flux q.x .surf) * q.jxw) c +
      qs.foldl (fun acc q => fun i => acc i + dot (q.dphi i) (flux q.x .gb) * q.jxw) e)) =
      -qs.foldl (fun acc q => fun i => acc i + dot (q.dphi i) (M q.x) * q.jxw) f := by
    intro qs
    induction qs with
    | nil => intro a b c e f hh; exact hh
    | cons q qs ih =>
      intro a b c e f hh
      simp only [List.foldl_cons]
      refine ih _ _ _ _ _ ?_
      have hx := h q.x
      simp only [mechs, List.map_cons, List.map_nil, List.sum_cons, List.sum_nil, add_zero] at hx
      funext i
      have h1 := congrFun hh i
      have h2 := congrArg (dot (q.dphi i)) hx
      simp only [Pi.add_apply, Pi.neg_apply] at h1 ⊢
      rw [dotp_neg, dotp_add, dotp_add, dotp_add] at h2
      linear_combination h1 + q.jxw * h2
  simp only [mechs, List.map_cons, List.map_nil, List.sum_cons, List.sum_nil, add_zero, rhs, fluxRow]
  exact key qs _ _ _ _ _ (by funext i; simp)

private theorem divergences_mass (mass : (Fin n → K) →+ (Fin n → K)) (solve : (Fin n → K) → Option (Fin n → K))
    (hs : ∀ r u, solve r = some u → mass u = r) (r : Mech → Fin n → K) (ks : List Mech) (us : List (Fin n → K))
    (h : divergences solve r ks = some us) : us.map mass = ks.map r := by
  induction ks generalizing us with
  | nil => cases h; rfl
  | cons k ks ih =>
    rw [divergences] at h
    cases hk : solve (r k) with
    | none => rw [hk] at h; cases h
    | some u =>
      rw [hk] at h
      obtain ⟨vs, hv, rfl⟩ := Option.map_eq_some_iff.1 h
      rw [List.map_cons, List.map_cons, ih vs hv, hs _ _ hk]

private theorem mass_sum (mass : (Fin n → K) →+ (Fin n → K)) (us : List (Fin n → K)) : mass us.sum = (us.map mass).sum :=
  map_list_sum mass us

/-- **C127** (divergences, scalar mobility).  If all solvers converge, there are four fields in the order of the names, each of
which solves its system, and their sum is the rate of the concentration the equations give: with the mass matrix it
cancels the flux part of the residual. -/
theorem C127_divergences [LinearOrder K] [IsStrictOrderedRing K] (mass : (Fin n → K) →+ (Fin n → K))
    (solve : (Fin n → K) → Option (Fin n → K))
    (hs : ∀ r u, solve r = some u → mass u = r) (m : Coeff K) (qs : List (QPoint K d n)) (us : List (Fin n → K))
    (h : divergences solve (rhs (fluxS m) qs) mechs = some us) :
    us.map mass = mechs.map (rhs (fluxS m) qs) ∧
    mass us.sum + fluxRow (fun x => applyM m x.c (x.grains.map (·.1)) x.gradMu) qs = 0 ∧
    (Function.Injective mass → ∀ v, mass v + fluxRow (fun x => applyM m x.c (x.grains.map (·.1)) x.gradMu) qs = 0 →
      us.sum = v) := by
  have h1 := divergences_mass mass solve hs _ _ _ h
  have h2 : mass us.sum + fluxRow (fun x => applyM m x.c (x.grains.map (·.1)) x.gradMu) qs = 0 := by
    rw [mass_sum, h1, rhs_sum (fluxS m) (fun x => applyM m x.c (x.grains.map (·.1)) x.gradMu) qs (C127_scalar m)]
    abel
  refine ⟨h1, h2, fun hi v hv => hi ?_⟩
  have := h2.trans hv.symm
  exact add_right_cancel this

end divergences

namespace Ex127

/-- All mechanisms, two dimensions, three grains. -/
def co : Coeff ℝ := { Mvol := 1, Mvap := 2, Msurf := 3, Mgb := 5, L := 0 }

/-- A point at a surface with the normal in the first direction. -/
noncomputable def pt : Pt ℝ 2 := { c := 1/2, gradC := ![1, 0], gradMu := ![1, 1], grains := [(1/2, ![1, 0]), (1/2, ![-1, 0]), (1/4, ![0, 1])] }

example : 0 ≤ co.Mvol ∧ 0 ≤ co.Mvap ∧ 0 ≤ co.Msurf ∧ 0 ≤ co.Mgb := by norm_num [co]
example : ∀ g ∈ pt.grains, 0 ≤ g.1 := by intro g hg; simp [pt] at hg; rcases hg with rfl | rfl | rfl <;> norm_num

private theorem pt_norm : Real.sqrt (dot pt.gradC pt.gradC) = 1 := by
  simp [pt, dot, dotProduct, Fin.sum_univ_two]

example : tol1 < Real.sqrt (dot pt.gradC pt.gradC) := by
  rw [pt_norm]; unfold tol1; norm_num

/-- The four scalar contributions at the point. -/
example : [volS (m := ({ Mvol := 1, Mvap := 2, Msurf := 3, Mgb := 5, L := 0 } : Coeff ℚ)) (1/2),
    vapS { Mvol := 1, Mvap := 2, Msurf := 3, Mgb := 5, L := 0 } (1/2),
    surfS { Mvol := 1, Mvap := 2, Msurf := 3, Mgb := 5, L := 0 } (1/2),
    gbS { Mvol := 1, Mvap := 2, Msurf := 3, Mgb := 5, L := 0 } [1/2, 1/2, 1/4]] = [1/2, 1, 3/4, 5] := by
  decide +kernel

/-- **C127** (sum, tensorial mobility, violated).  The fluxes of the output do not add up to the flux of the equations. -/
theorem C127_sum_violated :
    (mechs.map (fluxT Real.sqrt co pt)).sum ≠ -tensorialM Real.sqrt co pt.c pt.gradC pt.grains pt.gradMu := by
  rw [C127_tensorial]
  intro h
  have := congrFun h 0
  simp [pt, co, fsurf] at this
  norm_num at this

example : 1 / 10 ^ 6 ≤ fsurf co (1/4) ∧ dSurfS co (1/4) ≠ 0 := by
  constructor <;> norm_num [fsurf, co, dSurfS]

/-- One quadrature point, two shape functions, mass matrix twice the identity. -/
def qp : QPoint ℚ 1 2 := ⟨1, ![![1], ![-1]], ⟨1/2, ![1], ![2], [(1/2, ![1]), (1/2, ![-1])]⟩⟩
def coq : Coeff ℚ := { Mvol := 1, Mvap := 2, Msurf := 3, Mgb := 5, L := 0 }
def half (r : Fin 2 → ℚ) : Option (Fin 2 → ℚ) := some ((1/2 : ℚ) • r)

example : divergences half (rhs (fluxS coq) [qp]) mechs =
    some [![-1/2, 1/2], ![-1, 1], ![-3/4, 3/4], ![-5/2, 5/2]] := by decide +kernel
example : fluxRow (fun x => applyM coq x.c (x.grains.map (·.1)) x.gradMu) [qp] = ![19/2, -19/2] := by decide +kernel
/-- A solver that fails for one block leaves no result. -/
example : divergences (fun r => if r 0 = -3/2 then none else half r) (rhs (fluxS coq) [qp]) mechs = none := by
  decide +kernel

end Ex127

/-! ## C128: the time loop with divergences of the fluxes -/

section loop

variable {K V : Type} [Field K] [LinearOrder K]

/-- **C128** (as long as the divergences are found).  In every reachable state the time advances exactly with the solution:
either the new solution is taken and the time moves by the step, or time, counter and solution are those of before. -/
theorem C128_partial {p : LoopParams K} {s : Option Scheme} {st0 st : RunState K V} {sols : List V} {dts : List K}
    (h : RunReach p s st0 st sols dts) (a : Attempt V) (st' : RunState K V) (hp : passDiv p st a true = .ok st') :
    (∃ sol good, a.outcome = .success sol good ∧ st'.t = st.t + st.dt ∧ st'.n = st.n + 1 ∧ st'.hist[0]? = some sol) ∨
    (∃ g, a.outcome = .failure g ∧ st'.t = st.t ∧ st'.n = st.n ∧
      st'.hist[0]? = (specPrep a st.converged sols)[0]?) := by
  have e : passDiv p st a true = pass p st a := by
    unfold passDiv pass
    cases a.outcome <;> rfl
  rw [e] at hp
  obtain ⟨c, tl, h1, h2, h3⟩ := prepare_ok a h.inv.hist
  cases ho : a.outcome with
  | success sol good =>
    refine .inl ⟨sol, good, rfl, ?_⟩
    obtain ⟨d, h4, _⟩ := accept_ok (p := p) h.inv.data (a.guess.getD c) c tl sol good h2
    simp only [pass, h3, Res.ok_bind, ho, h4] at hp
    cases hp
    exact ⟨rfl, rfl, rfl⟩
  | failure g =>
    refine .inr ⟨g, rfl, ?_⟩
    obtain ⟨d, _, h5⟩ := reject_eq p h.inv.data (a.guess.getD c) c (tl.take (depth s - 1)) g
    simp only [pass, h3, Res.ok_bind, ho, h5] at hp
    split at hp
    · cases hp
      rw [h1]
      exact ⟨rfl, rfl, rfl⟩
    · cases hp

/-- **C128** (a solver for the divergences does not converge).  The step was solved, yet its solution is discarded, while time
and counter have moved on: the run goes on from the new time with the solution of the old time, or stops because
of the step size. -/
theorem C128_lost {p : LoopParams K} {s : Option Scheme} {st0 st : RunState K V} {sols : List V} {dts : List K}
    (h : RunReach p s st0 st sols dts) (a : Attempt V) (sol : V) (good : Bool) (ho : a.outcome = .success sol good) :
    (¬ nextDt p good (st.t + st.dt) st.dt / 2 > p.dtMin → passDiv p st a false = .exc .assertThrow) ∧
    (nextDt p good (st.t + st.dt) st.dt / 2 > p.dtMin → ∃ st', passDiv p st a false = .ok st' ∧
      st'.t = st.t + st.dt ∧ st'.n = st.n + 1 ∧ st'.dt = nextDt p good (st.t + st.dt) st.dt / 2 ∧
      st'.hist[0]? = (specPrep a st.converged sols)[0]? ∧
      st'.hist.drop 1 = (specPrep a st.converged sols).take (depth s) ∧
      st'.data.dt = st'.dt :: st.data.dt.drop 1) := by
  have e : nextDt p good (st.t + st.dt) st.dt / 2 = nextDt p good (st.t + st.dt) st.dt * (1 / 2) := by
    rw [div_eq_mul_one_div]
  rw [e]
  obtain ⟨c, tl, h1, h2, h3⟩ := prepare_ok a h.inv.hist
  generalize hD : nextDt p good (st.t + st.dt) st.dt = D
  obtain ⟨d, h4, h5⟩ := h.inv.data.replace (D * (1 / 2))
  have hr : passDiv p st a false = if D * (1 / 2) > p.dtMin then
      .ok ⟨st.t + st.dt, D * (1 / 2), st.n + 1, c :: c :: tl.take (depth s - 1), d, false⟩ else .exc .assertThrow := by
    simp only [passDiv, h3, Res.ok_bind, ho, Bool.false_eq_true, if_false, hD, reject, setR, List.length_cons]
    rw [if_pos (by omega)]
    simp only [Res.ok_bind, List.set_cons_zero, getRecent, Res.index, List.getElem?_cons_succ,
      List.getElem?_cons_zero, List.length_cons]
    rw [if_pos (by omega)]
    simp only [Res.ok_bind, Res.assertThrow]
    by_cases hh : D * (1 / 2) > p.dtMin
    · simp only [hh, decide_true, if_true, Res.ok_bind, h4, Res.pure_def]
    · simp only [hh, decide_false, Bool.false_eq_true, if_false, Res.exc_bind]
  have hd : 1 ≤ depth s := by unfold depth; omega
  obtain ⟨k, hk⟩ : ∃ k, depth s = k + 1 := ⟨depth s - 1, by omega⟩
  refine ⟨fun hn => by rw [hr, if_neg hn], fun hy => ⟨_, by rw [hr, if_pos hy], rfl, rfl, rfl, ?_, ?_, ?_⟩⟩
  · rw [h1]; rfl
  · rw [h1, hk]; rfl
  · have h6 := h5.steps
    have h7 := h.inv.data.steps
    rw [h6, h7, hk]; rfl

end loop

namespace Ex128

open Ex26

example : passDiv p st0 (ok 11) true = .ok ⟨2, 4, 1, [11, 5, 5], ⟨some .bdf2, 2, [4, 2], computeWeights .bdf2 [4, 2], 1⟩, true⟩ := by
  decide +kernel

/-- **C128** (violated).  A run whose only step reaches the final time: the loop ends there with the initial solution. -/
theorem C128_violated : ∃ st' : RunState Rat Nat,
    passDiv p { st0 with dt := 10 } (ok 11) false = .ok st' ∧ st'.t = p.timeEnd ∧ loopCond p st'.t = false ∧
    st'.hist[0]? = st0.hist[0]? ∧ st'.n = 1 :=
  ⟨⟨10, 5, 1, [5, 5, 5], ⟨some .bdf2, 2, [5, 0], computeWeights .bdf2 [5, 0], 1⟩, false⟩, by decide +kernel⟩

end Ex128

end Verif.Props
