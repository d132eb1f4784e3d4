/-
C86: the operators of the block preconditioner are diagonal blocks of the linearised operator.
-/
import Verif.Lemmas.PrecondOperators
import Mathlib.Algebra.Field.Rat
import Mathlib.Algebra.Order.Ring.Rat

namespace Verif.Props

open Verif.FreeEnergy Verif.Mobility Verif.SinteringKernel Verif.Precond

section

variable {K : Type} [Field K] [LinearOrder K] {V : Type} [AddCommGroup V] [Module K V]

/-- Specification: an increment of concentration and chemical potential alone. -/
def incrCH (x : SinteringKernel.Point K V) (c mu : K) (gradC gradMu : V) : Incr K V :=
  { c := c, mu := mu, gradC := gradC, gradMu := gradMu, etas := x.grains.map fun _ => (0, 0) }

/-- Specification: an increment of the order parameters alone. -/
def incrAC (d : List (K × V)) : Incr K V := { c := 0, mu := 0, gradC := 0, gradMu := 0, etas := d }

/-- Specification: an increment of order parameter `b` alone. -/
def incrOne (n b : Nat) (v : K) (g : V) : Incr K V :=
  incrAC ((List.range n).map fun i => if i = b then (v, g) else (0, 0))

/-- **C86** (concentration and chemical potential).  The Cahn–Hilliard operator of the preconditioner is the diagonal block of the
linearised operator, with all terms, also those of the advection. -/
theorem C86_ch (p : Par K) (x : SinteringKernel.Point K V) (c mu : K) (gradC gradMu : V) :
    ∃ o, vmult p x (incrCH x c mu gradC gradMu) = .ok o ∧
      chKernel p x c mu gradC gradMu = .ok ((o.valC, o.gradC), (o.valMu, o.gradMu)) := by
  refine ⟨_, vmult_closed p x _, ?_⟩
  unfold chKernel
  simp only [eval_feAt, Res.ok_bind, incrCH, zip_map_right_self, List.map_map, Function.comp_def, velLoop]
  have h1 : ∀ l : List (Grain K V), (l.map fun t => p.B * 12 * t.eta * (t.eta - 1) * (0 : K)).sum = 0 := fun l => by simp
  rw [h1, sub_zero, mul_comm p.weightAlg]
  congr 4
  · simp only [applyMDerivative, List.map_map, Function.comp_def]
    rw [factorLoop_zero _ _ _ (by simp)]
    simp [applyM]

omit [LinearOrder K] in
private theorem ac_closed (p : Par K) (x : SinteringKernel.Point K V) (d : List (K × V)) (hn : 2 ≤ x.grains.length) :
    acKernel p x d = .ok ((x.grains.zip d).map fun t =>
      (t.2.1 * p.weight + p.mob.L * (feAt p x.c (x.grains.map (·.eta))).d2f_detai2 t.1.eta * t.2.1 +
        (p.mob.L * 24 * p.B) * t.1.eta * (((x.grains.zip d).map fun t => t.1.eta * t.2.1).sum - t.1.eta * t.2.1),
       (p.mob.L * p.kappaP) • t.2.2 - (d.headD (0, 0)).1 • t.1.vel.getD 0)) := by
  unfold acKernel
  rw [if_neg (by omega)]
  simp only [eval_feAt, Res.ok_bind]
  congr 1
  apply List.ext_getElem
  · simp
  · intro i h1 h2
    simp only [List.length_map, List.length_zipIdx] at h1
    simp only [List.getElem_map, List.getElem_zipIdx, Nat.zero_add]
    rw [offDiag (x.grains.zip d) (fun s => p.mob.L *
      (feAt p x.c (x.grains.map (·.eta))).d2f_detaidetaj (x.grains.zip d)[i].1.eta s.1.eta * s.2.1) i]
    have hi : (x.grains.zip d)[i]? = some (x.grains.zip d)[i] := List.getElem?_eq_getElem h1
    ext
    · simp only [Nat.zero_le, if_true, Nat.sub_zero, hi, Eval.d2f_detaidetaj]
      have : ((x.grains.zip d).map fun s : Grain K V × K × V =>
          p.mob.L * (24 * (feAt p x.c (x.grains.map (·.eta))).B * (x.grains.zip d)[i].1.eta * s.1.eta) * s.2.1).sum =
          (p.mob.L * 24 * p.B * (x.grains.zip d)[i].1.eta) * ((x.grains.zip d).map fun t => t.1.eta * t.2.1).sum := by
        rw [← List.sum_map_mul_left]
        congr 1
        apply List.map_congr_left
        intro s _
        simp only [feAt]
        ring
      rw [this]
      simp only [feAt]
      ring
    · simp only
      rcases h : (x.grains.zip d)[i].1.vel with _ | v
      · simp
      · simp

/-- **C86** (order parameters).  The rows of the Allen–Cahn operator: values as in the linearised operator, the gradient of row `i` is
off by the velocity times the difference of the increments of order parameters `i` and 0. -/
theorem C86_ac_rows (p : Par K) (x : SinteringKernel.Point K V) (d : List (K × V)) (hn : 2 ≤ x.grains.length)
    (hd : d.length = x.grains.length) :
    ∃ o rows, vmult p x (incrAC d) = .ok o ∧ acKernel p x d = .ok rows ∧ rows.length = x.grains.length ∧
      o.etas.length = x.grains.length ∧
      ∀ (i : Nat) (g : Grain K V) (e : K × V) (r s : K × V), x.grains[i]? = some g → d[i]? = some e → o.etas[i]? = some r →
        rows[i]? = some s → s.1 = r.1 ∧ s.2 = r.2 + (e.1 - (d.headD (0, 0)).1) • g.vel.getD 0 := by
  refine ⟨_, _, vmult_closed p x _, ac_closed p x d hn, by simp [hd], by simp [incrAC, hd], ?_⟩
  intro i g e r s hg he hr hs
  have hz : (x.grains.zip d)[i]? = some (g, e) := by
    rw [List.getElem?_zip_eq_some]
    exact ⟨hg, he⟩
  simp only [incrAC, List.getElem?_map, hz, Option.map_some, Option.some.injEq] at hr hs
  subst hr hs
  constructor
  · simp only [mul_zero, zero_add]
    ring
  · simp only [sub_smul]
    abel

/-- **C86** (order parameters), partial.  Without velocities the Allen–Cahn operator is the diagonal block of the linearised operator, for two
or more order parameters.  Missing: velocities (`C86_ac_violated`), one order parameter (`C86_single_violated`). -/
theorem C86_ac_partial (p : Par K) (x : SinteringKernel.Point K V) (d : List (K × V)) (hn : 2 ≤ x.grains.length)
    (hd : d.length = x.grains.length) (hv : ∀ g ∈ x.grains, g.vel = none) :
    ∃ o, vmult p x (incrAC d) = .ok o ∧ acKernel p x d = .ok o.etas := by
  obtain ⟨o, rows, h1, h2, h3, h4, h5⟩ := C86_ac_rows p x d hn hd
  refine ⟨o, h1, h2.trans ?_⟩
  congr 1
  apply List.ext_getElem (h3.trans h4.symm)
  intro i hi hj
  have hg : i < x.grains.length := h3 ▸ hi
  have := h5 i x.grains[i] (d[i]'(hd ▸ hg)) o.etas[i] rows[i] (List.getElem?_eq_getElem _) (List.getElem?_eq_getElem _)
    (List.getElem?_eq_getElem _) (List.getElem?_eq_getElem _)
  ext
  · exact this.1
  · rw [this.2, hv _ (List.getElem_mem _)]
    simp

/-- **C86** violated.  If an order parameter other than the first one moves, there is an increment for which the Allen–Cahn operator
differs from the diagonal block: the advection term of every order parameter takes the increment of the first one. -/
theorem C86_ac_violated (p : Par K) (x : SinteringKernel.Point K V) (i : Nat) (hi : 1 ≤ i) (g : Grain K V) (hg : x.grains[i]? = some g)
    (u : V) (hu : g.vel = some u) (hne : u ≠ 0) :
    ∃ d o rows, d.length = x.grains.length ∧ vmult p x (incrAC d) = .ok o ∧ acKernel p x d = .ok rows ∧ rows ≠ o.etas := by
  have hlt : i < x.grains.length := by
    rcases List.getElem?_eq_some_iff.1 hg with ⟨h, _⟩
    exact h
  let d : List (K × V) := (List.range x.grains.length).map fun j => if j = i then (1, 0) else (0, 0)
  have hd : d.length = x.grains.length := by simp [d]
  obtain ⟨o, rows, h1, h2, h3, h4, h5⟩ := C86_ac_rows p x d (by omega) hd
  refine ⟨d, o, rows, hd, h1, h2, fun hc => hne ?_⟩
  have he : d[i]? = some (1, 0) := by simp [d, hlt]
  have h0 : d.headD (0, 0) = (0, 0) := by
    have hl : x.grains.length = (x.grains.length - 1) + 1 := by omega
    simp only [d]
    rw [hl, List.range_succ_eq_map]
    simp only [List.map_cons, List.headD_cons]
    rw [if_neg (by omega)]
  obtain ⟨r, hr⟩ : ∃ r, o.etas[i]? = some r := ⟨_, List.getElem?_eq_getElem (h4 ▸ hlt)⟩
  have hs : rows[i]? = some r := by rw [hc]; exact hr
  have := (h5 i g (1, 0) r r hg he hr hs).2
  rw [h0, hu] at this
  simpa using this

omit [LinearOrder K] in
/-- **C86** violated.  With one order parameter the Allen–Cahn operator throws. -/
theorem C86_single_violated (p : Par K) (x : SinteringKernel.Point K V) (d : List (K × V)) (hn : x.grains.length = 1) :
    acKernel p x d = .exc .assertThrow := by
  unfold acKernel
  rw [if_pos (by omega)]

/-- **C86** (blocked).  With the approximation "all" block `b` of the blocked Allen–Cahn operator is row and column `b` of the linearised
operator, with the velocity, for any number of order parameters. -/
theorem C86_blocked (p : Par K) (x : SinteringKernel.Point K V) (b : Nat) (g : Grain K V) (hg : x.grains[b]? = some g) (v : K) (w : V) :
    ∃ o r, vmult p x (incrOne x.grains.length b v w) = .ok o ∧ blockRow p 0 true x b v w = .ok r ∧ o.etas[b]? = some r := by
  have hlt : b < x.grains.length := by
    rcases List.getElem?_eq_some_iff.1 hg with ⟨h, _⟩
    exact h
  refine ⟨_, blockedKernel p true true g.vel ((feAt p x.c (x.grains.map (·.eta))).d2f_detai2 g.eta) v w, vmult_closed p x _, ?_, ?_⟩
  · unfold blockRow
    simp only [eval_feAt, Res.ok_bind, scaling, List.getElem?_map, hg, Option.map_some]
    rfl
  · have he : ((List.range x.grains.length).map fun i => if i = b then (v, w) else ((0 : K), (0 : V)))[b]? = some (v, w) := by
      simp [hlt]
    have hz : (x.grains.zip ((List.range x.grains.length).map fun i => if i = b then (v, w) else ((0 : K), (0 : V))))[b]? =
        some (g, (v, w)) := by
      rw [List.getElem?_zip_eq_some]
      exact ⟨hg, he⟩
    have hsum := oneTerm x.grains b g hg ((0 : K), (0 : V)) (v, w) (fun t => t.1.eta * t.2.1) (by simp)
    simp only [incrOne, incrAC, List.getElem?_map, hz, Option.map_some, hsum, blockedKernel]
    rcases g.vel with _ | u
    · simp
      ring
    · simp
      ring

end

namespace Ex86

/-- Two order parameters, the second one moves. -/
def x : SinteringKernel.Point ℚ ℚ :=
  { c := 1 / 2, mu := 0, gradC := 1, gradMu := 2,
    grains := [⟨1, 0, none, 0⟩, ⟨1 / 2, 1, some 3, 0⟩], bufC := 0 }

def p : Par ℚ := { A := 16, B := 1, mob := ⟨1, 1, 1, 1, 2⟩, kappaC := 1, kappaP := 1, weight := 10, weightAlg := 1 }

example : ∃ o, vmult p x (incrCH x 1 2 3 4) = .ok o ∧ chKernel p x 1 2 3 4 = .ok ((o.valC, o.gradC), (o.valMu, o.gradMu)) :=
  C86_ch p x 1 2 3 4

example : ∃ d o rows, d.length = 2 ∧ vmult p x (incrAC d) = .ok o ∧ acKernel p x d = .ok rows ∧ rows ≠ o.etas :=
  C86_ac_violated p x 1 (by omega) _ rfl 3 rfl (by decide)

example : ∃ o r, vmult p x (incrOne 2 1 1 0) = .ok o ∧ blockRow p 0 true x 1 1 0 = .ok r ∧ o.etas[1]? = some r :=
  C86_blocked p x 1 _ rfl 1 0

/-- Without velocities. -/
def y : SinteringKernel.Point ℚ ℚ := { x with grains := [⟨1, 0, none, 0⟩, ⟨1 / 2, 1, none, 0⟩] }

example : ∃ o, vmult p y (incrAC [(0, 0), (1, 0)]) = .ok o ∧ acKernel p y [(0, 0), (1, 0)] = .ok o.etas :=
  C86_ac_partial p y _ (by decide) rfl (by decide)

example : acKernel p { x with grains := [⟨1, 0, none, 0⟩] } [(1, 0)] = .exc .assertThrow := C86_single_violated _ _ _ rfl

end Ex86

end Verif.Props
