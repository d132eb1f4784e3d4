import Verif.Lemmas.Guess
import Mathlib.Algebra.Field.Rat
import Mathlib.Algebra.Order.Ring.Rat
import Mathlib.Algebra.Module.Rat
import Mathlib.Tactic.Linarith
import Mathlib.Tactic.FieldSimp
import Mathlib.Tactic.NormNum

/-!
# C130: initial guess of a time step

The solution that the solver of a time step starts from is the one named by the predictor: the last solution, the straight line through the last two,
one step of the Euler method or of the midpoint rule. It is an initial guess only.
-/

namespace Verif.Props

open Verif.Guess
open Verif.Guess.Spec

variable {K L W : Type} [Field K] [LinearOrder K] [DecidableEq L] [AddCommGroup W] [Module K W]

/-- Linear predictor after an accepted step in any reachable state: the straight line through the last two solutions with the actual step sizes,
provided that refinement and tracker leave the solution before the last one alone. -/
theorem C130_linear_partial {p : LoopParams K} {s : Option Scheme} {st0 st st' : RunState K (Vec L W)} {sols : List (Vec L W)} {dts : List K}
    (hr : RunReach p s st0 st sols dts) (a b : Attempt (Vec L W)) (sol : Vec L W) (good : Bool) (ho : a.outcome = .success sol good)
    (hp : pass p st a = .ok st') (hs : 1 < (s.map Scheme.order).getD 0) (h0 : 0 < st.dt) (h1 : 0 < st'.dt) (ht : 0 < st'.t)
    (w : Vec L W) (tl : List (Vec L W)) (hw : specPrep a st.converged sols = w :: tl) (hb : b.remesh w = w)
    (hl : (b.remesh (b.limit sol)).layout = w.layout) (clip : Vec L W → Vec L W) (res : L → W → W) :
    ∃ v l, specPrep b st'.converged (specSols a st.converged sols) = v :: w :: l ∧
      guess .linear clip res st'.t st'.dt st'.data (adapted b st'.converged st'.hist) =
        .ok (some (clip ⟨v.layout, line st'.dt st.dt v.val w.val⟩)) := by
  have hi := hr.inv
  obtain ⟨c, tl', h2, h3, _⟩ := pass_hist hi a hp
  obtain ⟨hcv, l, hh⟩ := h3 sol good ho
  have hcw : c = w := by rw [h2] at hw; exact (List.cons.inj hw).1
  subst hcw
  obtain ⟨st'', e1, e2, e3, _, _, hi'⟩ := (pass_inv (p := p) hi a).1 sol good ho
  rw [hp] at e1
  obtain rfl := Res.ok.inj e1
  have hD : DataInv s st'.data st'.dt (st.dt :: dts) := by
    have := hi'.data
    simpa only [specDts, ho] using this
  refine ⟨b.remesh (b.limit sol), tl.map b.remesh, ?_, ?_⟩
  · have e : specSols a st.converged sols = sol :: c :: tl := by unfold specSols; rw [ho, hw]
    rw [e, hcv]
    show _ :: (c :: tl).map b.remesh = _
    rw [List.map_cons, hb]
  · obtain ⟨l', ha⟩ := adapted_cons b sol c l
    rw [hcv, hh, ha]
    have hord : st'.data.order > 1 := by rw [hD.order]; exact hs
    simp only [guess, ne_eq, reduceCtorEq, not_false_eq_true, gt_iff_lt, ht, and_self, if_true]
    rw [extrap_linear hD hord h1 h0, if_pos hl]
    rfl

omit [LinearOrder K] in
/-- It is exact for solutions that are linear in time. -/
theorem C130_linear_exact {dt d t : K} (hd : d ≠ 0) (α β : W) :
    line dt d (α + (t + d) • β) (α + t • β) = α + (t + d + dt) • β := by
  unfold line
  have : (α + (t + d) • β) - (α + t • β) = d • β := by module
  rw [this, smul_smul, div_mul_cancel₀ _ hd]
  module

/-- In general the solution before the last one is taken as it was before refinement and tracker: if they change the layout, the guess is undefined
and so is the pass; otherwise new and old numberings are mixed. -/
theorem C130_stale {p : LoopParams K} {s : Option Scheme} {st0 st st' : RunState K (Vec L W)} {sols : List (Vec L W)} {dts : List K}
    (hr : RunReach p s st0 st sols dts) (a b : Attempt (Vec L W)) (sol : Vec L W) (good : Bool) (ho : a.outcome = .success sol good)
    (hp : pass p st a = .ok st') (hs : 1 < (s.map Scheme.order).getD 0) (h0 : 0 < st.dt) (h1 : 0 < st'.dt) (ht : 0 < st'.t)
    (w : Vec L W) (tl : List (Vec L W)) (hw : specPrep a st.converged sols = w :: tl) (clip : Vec L W → Vec L W) (res : L → W → W) :
    ((b.remesh (b.limit sol)).layout ≠ w.layout → passGuess p .linear clip res st' b = .ub) ∧
    ((b.remesh (b.limit sol)).layout = w.layout →
      guess .linear clip res st'.t st'.dt st'.data (adapted b st'.converged st'.hist) =
        .ok (some (clip ⟨w.layout, line st'.dt st.dt (b.remesh (b.limit sol)).val w.val⟩))) := by
  have hi := hr.inv
  obtain ⟨c, tl', h2, h3, _⟩ := pass_hist hi a hp
  obtain ⟨hcv, l, hh⟩ := h3 sol good ho
  have hcw : c = w := by rw [h2] at hw; exact (List.cons.inj hw).1
  subst hcw
  obtain ⟨st'', e1, e2, e3, _, _, hi'⟩ := (pass_inv (p := p) hi a).1 sol good ho
  rw [hp] at e1
  obtain rfl := Res.ok.inj e1
  have hD : DataInv s st'.data st'.dt (st.dt :: dts) := by
    have := hi'.data
    simpa only [specDts, ho] using this
  have hord : st'.data.order > 1 := by rw [hD.order]; exact hs
  obtain ⟨l', ha⟩ := adapted_cons b sol c l
  refine ⟨fun hl => ?_, fun hl => ?_⟩
  · unfold passGuess
    rw [hcv, hh, ha]
    simp only [guess, ne_eq, reduceCtorEq, not_false_eq_true, gt_iff_lt, ht, and_self, if_true]
    rw [extrap_linear hD hord h1 h0, if_neg hl]
    rfl
  · rw [hcv, hh, ha]
    simp only [guess, ne_eq, reduceCtorEq, not_false_eq_true, gt_iff_lt, ht, and_self, if_true]
    rw [extrap_linear hD hord h1 h0, if_pos hl, hl]
    rfl

/-- After a failed attempt the linear predictor repeats the last solution. -/
theorem C130_retry {p : LoopParams K} {s : Option Scheme} {st0 st st' : RunState K (Vec L W)} {sols : List (Vec L W)} {dts : List K} {d1 : K}
    (hr : RunReach p s st0 st sols (d1 :: dts)) (a b : Attempt (Vec L W)) (g : Vec L W) (ho : a.outcome = .failure g)
    (hp : pass p st a = .ok st') (hs : 1 < (s.map Scheme.order).getD 0) (h0 : 0 < d1) (h1 : 0 < st'.dt) (ht : 0 < st'.t)
    (clip : Vec L W → Vec L W) (res : L → W → W) :
    ∃ c tl, specPrep b st'.converged (specSols a st.converged sols) = c :: tl ∧
      guess .linear clip res st'.t st'.dt st'.data (adapted b st'.converged st'.hist) = .ok (some (clip c)) := by
  have hi := hr.inv
  obtain ⟨c, tl, h2, _, h3⟩ := pass_hist hi a hp
  obtain ⟨hcv, l, hh⟩ := h3 g ho
  have hD : DataInv s st'.data st'.dt (d1 :: dts) := by
    obtain ⟨h4, h5⟩ := (pass_inv (p := p) hi a).2 g ho
    by_cases hd : st.dt * (1 / 2) > p.dtMin
    · obtain ⟨st'', e1, _, _, _, _, _, hi'⟩ := h5 hd
      rw [hp] at e1
      obtain rfl := Res.ok.inj e1
      have := hi'.data
      simpa only [specDts, ho] using this
    · rw [h4 hd] at hp; cases hp
  refine ⟨c, tl, ?_, ?_⟩
  · have e : specSols a st.converged sols = c :: tl := by unfold specSols; rw [ho, h2]
    rw [e, hcv]
    rfl
  · have hord : st'.data.order > 1 := by rw [hD.order]; exact hs
    rw [hcv, hh]
    simp only [adapted, Bool.false_eq_true, if_false, guess, ne_eq, reduceCtorEq, not_false_eq_true, gt_iff_lt, ht, and_self, if_true]
    rw [extrap_linear hD hord h1 h0, if_pos rfl]
    simp

/-- With the linear predictor and a scheme of order at most one (implicit Euler and the explicit schemes) every pass after time zero starts from the
zero vector, whatever the solution is. -/
theorem C130_lost {p : LoopParams K} {s : Option Scheme} {st0 st : RunState K (Vec L W)} {sols : List (Vec L W)} {dts : List K}
    (hr : RunReach p s st0 st sols dts) (b : Attempt (Vec L W)) (hs : (s.map Scheme.order).getD 0 ≤ 1) (ht : 0 < st.t)
    (clip : Vec L W → Vec L W) (res : L → W → W) :
    ∃ v tl, specPrep b st.converged sols = v :: tl ∧
      guess .linear clip res st.t st.dt st.data (adapted b st.converged st.hist) = .ok (some (clip ⟨v.layout, 0⟩)) := by
  have hi := hr.inv
  obtain ⟨c, r, tl, e1, e2, _, _⟩ := hi.hist
  have hord : st.data.order ≤ 1 := by rw [hi.data.order]; exact hs
  cases hc : st.converged with
  | true =>
    obtain ⟨l', ha⟩ := adapted_cons b c r (tl.take (depth s - 1))
    refine ⟨b.remesh (b.limit c), tl.map b.remesh, by rw [e2]; rfl, ?_⟩
    rw [e1, ha]
    simp only [guess, ne_eq, reduceCtorEq, not_false_eq_true, gt_iff_lt, ht, and_self, if_true]
    rw [extrap_zero _ _ (Or.inl hord)]
    rfl
  | false =>
    refine ⟨c, tl, by rw [e2]; rfl, ?_⟩
    rw [e1]
    simp only [adapted, Bool.false_eq_true, if_false, guess, ne_eq, reduceCtorEq, not_false_eq_true, gt_iff_lt, ht, and_self, if_true]
    rw [extrap_zero _ _ (Or.inl hord)]
    rfl

/-- The same with a scheme of higher order in the first pass of a run that starts after time zero: there is no earlier step. -/
theorem C130_start_lost {s : Option Scheme} {st : RunState K (Vec L W)} {sols : List (Vec L W)} {dts : List K} (h : Started s st sols (0 :: dts))
    (b : Attempt (Vec L W)) (hs : 1 < (s.map Scheme.order).getD 0) (ht : 0 < st.t) (clip : Vec L W → Vec L W) (res : L → W → W) :
    ∃ v tl, specPrep b st.converged sols = v :: tl ∧
      guess .linear clip res st.t st.dt st.data (adapted b st.converged st.hist) = .ok (some (clip ⟨v.layout, 0⟩)) := by
  have hi := h.inv
  obtain ⟨c, r, tl, e1, e2, _, _⟩ := hi.hist
  have hord : st.data.order > 1 := by rw [hi.data.order]; exact hs
  obtain ⟨i0, i1⟩ := dt_index hi.data hord
  rw [h.conv]
  obtain ⟨l', ha⟩ := adapted_cons b c r (tl.take (depth s - 1))
  refine ⟨b.remesh (b.limit c), tl.map b.remesh, by rw [e2]; rfl, ?_⟩
  rw [e1, ha]
  simp only [guess, ne_eq, reduceCtorEq, not_false_eq_true, gt_iff_lt, ht, and_self, if_true]
  rw [extrap_zero _ _ (Or.inr ⟨_, _, i0, i1, fun h => lt_irrefl _ h.2⟩)]
  rfl

/-- The Euler predictor adds the residual itself: it is the step of the Euler method exactly if the mass matrix does not change the residual. -/
theorem C130_euler (minv : W → W) (res : L → W → W) (dt : K) (hdt : dt ≠ 0) (data : TimeData K) (u : Vec L W) (l : List (Vec L W)) :
    extrap .euler res dt data (u :: l) = .ok ⟨u.layout, eulerStep minv (res u.layout) dt u.val⟩ ↔ minv (res u.layout u.val) = res u.layout u.val := by
  rw [extrap_euler]
  unfold eulerStep
  constructor
  · intro h
    have h' := congrArg Vec.val (Res.ok.inj h)
    have h2 : dt • res u.layout u.val = dt • minv (res u.layout u.val) := sub_right_injective h'
    have h3 := congrArg (fun x => dt⁻¹ • x) h2
    simpa [smul_smul, inv_mul_cancel₀ hdt] using h3.symm
  · intro h; rw [h]

/-- The midpoint predictor is the midpoint rule if there is no mass matrix. -/
theorem C130_midpoint (res : L → W → W) (dt : K) (data : TimeData K) (u : Vec L W) (l : List (Vec L W)) :
    extrap .midpoint res dt data (u :: l) = .ok ⟨u.layout, midpointStep id (res u.layout) dt u.val⟩ := by
  rw [extrap_midpoint]; rfl

/-- An explicit scheme starts from the guess as if it was the last solution: with the Euler predictor the explicit Euler scheme makes two steps in one
(one unknown, no mass matrix). -/
theorem C130_twice [DecidableEq K] (R : K → W → W) (t dt : K) (ht : t > 0) (u : Vec L W) (l : List (Vec L W)) (data : TimeData K) :
    ∃ g, guess .euler id (fun _ => R t) t dt data (u :: l) = .ok (some g) ∧
      (Explicit.makeStep (n := 1) ⟨fun _ => true, fun s v b => R s (v b), id⟩ false Explicit.euler t dt (fun _ => g.val)).1 0 =
        eulerStep id (R t) dt (eulerStep id (R t) dt u.val) := by
  refine ⟨⟨u.layout, u.val - dt • R t u.val⟩, ?_, ?_⟩
  · simp only [guess, ne_eq, reduceCtorEq, not_false_eq_true, ht, and_self, if_true]
    rw [extrap_euler]
    rfl
  · simp [Explicit.makeStep, Explicit.euler, Explicit.stage, Explicit.blockStep, Explicit.hasStationary, eulerStep, sub_eq_add_neg]

/-- The guess decides nothing but where the solver starts: accepted solutions and steps of a pass are those of the loop without predictor, and a failed
attempt leaves the solution as it was. -/
theorem C130_only {p : LoopParams K} {s : Option Scheme} {st0 st st' : RunState K (Vec L W)} {sols : List (Vec L W)} {dts : List K}
    (hr : RunReach p s st0 st sols dts) (hc : loopCond p st.t = true) (c : Kind) (clip : Vec L W → Vec L W) (res : L → W → W)
    (a : Attempt (Vec L W)) (hp : passGuess p c clip res st a = .ok st') :
    RunReach p s st0 st' (specSols a st.converged sols) (specDts a st.dt dts) := by
  unfold passGuess at hp
  obtain ⟨g, _, h⟩ := Res.bind_eq_ok.mp hp
  exact RunReach.pass { a with guess := g } hr hc h

namespace Ex130

/-- A run with BDF2 that has made a step from 1 to 3 with step size 1 and goes on with step size 2. -/
def st1 : RunState ℚ (Vec Nat ℚ) :=
  ⟨1, 2, 1, [⟨0, 3⟩, ⟨0, 1⟩, ⟨0, 1⟩], ⟨some .bdf2, 2, [2, 1], computeWeights .bdf2 [2, 1], 1⟩, true⟩

def keep : Attempt (Vec Nat ℚ) := ⟨id, id, none, .success ⟨0, 7⟩ true⟩
/-- The tracker swaps a sign. -/
def remap : Attempt (Vec Nat ℚ) := ⟨id, fun v => ⟨v.layout, -v.val⟩, none, .success ⟨0, 7⟩ true⟩
/-- The mesh is refined. -/
def refine : Attempt (Vec Nat ℚ) := ⟨id, fun v => ⟨v.layout + 1, v.val⟩, none, .success ⟨1, 7⟩ true⟩

def params : LoopParams ℚ := ⟨10, 1/1000, 100, 2, 1/1000⟩

def st0 : RunState ℚ (Vec Nat ℚ) :=
  ⟨0, 1, 0, [⟨0, 1⟩, ⟨0, 0⟩, ⟨0, 0⟩], ⟨some .bdf2, 2, [1, 0], computeWeights .bdf2 [1, 0], 1⟩, true⟩

def first : Attempt (Vec Nat ℚ) := ⟨id, id, none, .success ⟨0, 3⟩ true⟩

theorem started : Started (some .bdf2) st0 [⟨0, 1⟩, ⟨0, 0⟩] [0] :=
  ⟨⟨⟨0, 1⟩, ⟨0, 0⟩, [⟨0, 0⟩], rfl, rfl, rfl⟩, rfl, rfl, rfl, rfl, by intro k hk; cases hk; rfl, rfl⟩

theorem first_pass : pass params st0 first = .ok st1 := by decide +kernel

/-- The hypotheses of the theorems are met; the guess is 7. -/
example : guess .linear id (fun _ x => x) st1.t st1.dt st1.data (adapted keep true st1.hist) = .ok (some ⟨0, 7⟩) := by decide +kernel

/-- After a remap that turns 1 and 3 into -1 and -3 the guess should be -7. -/
theorem C130_remap_violated : ¬ ∀ (p : LoopParams ℚ) (s : Option Scheme) (st0 st st' : RunState ℚ (Vec Nat ℚ)) (sols : List (Vec Nat ℚ)) (dts : List ℚ)
    (a b : Attempt (Vec Nat ℚ)) (sol : Vec Nat ℚ) (good : Bool), RunReach p s st0 st sols dts → a.outcome = .success sol good →
    pass p st a = .ok st' → 1 < (s.map Scheme.order).getD 0 → 0 < st.dt → 0 < st'.dt → 0 < st'.t →
    ∃ v w l, specPrep b st'.converged (specSols a st.converged sols) = v :: w :: l ∧
      guess .linear id (fun _ x => x) st'.t st'.dt st'.data (adapted b st'.converged st'.hist) =
        .ok (some ⟨v.layout, line st'.dt st.dt v.val w.val⟩) := by
  intro h
  obtain ⟨v, w, l, h1, h2⟩ := h params (some .bdf2) st0 st0 st1 [⟨0, 1⟩, ⟨0, 0⟩] [0] first remap ⟨0, 3⟩ true (.start started) rfl first_pass
    (by decide) (by decide +kernel) (by decide +kernel) (by decide +kernel)
  have e1 : v = ⟨0, -3⟩ ∧ w = ⟨0, -1⟩ := by
    have : specPrep remap st1.converged (specSols first st0.converged [⟨0, 1⟩, ⟨0, 0⟩]) = [⟨0, -3⟩, ⟨0, -1⟩, ⟨0, 0⟩] := by decide +kernel
    rw [this] at h1
    injection h1 with h1 h1'
    injection h1' with h1' _
    exact ⟨h1.symm, h1'.symm⟩
  obtain ⟨rfl, rfl⟩ := e1
  have e2 : guess .linear id (fun _ x => x) st1.t st1.dt st1.data (adapted remap st1.converged st1.hist) = .ok (some ⟨0, -11⟩) := by decide +kernel
  rw [e2] at h2
  have h3 := congrArg Vec.val (Option.some.inj (Res.ok.inj h2))
  revert h3
  decide +kernel

/-- A failed attempt, the next guess is the last solution. -/
example : (passGuess params .linear id (fun _ x => x) st1 ⟨id, id, none, .failure ⟨0, 50⟩⟩).bind (fun st =>
    guess .linear id (fun _ x => x) st.t st.dt st.data (adapted keep st.converged st.hist)) = .ok (some ⟨0, 3⟩) := by decide +kernel

/-- With implicit Euler the guess is zero. -/
example : guess .linear id (fun _ x => x) (1 : ℚ) 2 ⟨some .bdf1, 1, [2], computeWeights .bdf1 [2], 1⟩
    (adapted keep true [⟨0, 3⟩, ⟨0, 1⟩]) = .ok (some ⟨0, 0⟩) := by decide +kernel

/-- After a refinement the pass is undefined. -/
example : passGuess params .linear id (fun _ x => x) st1 refine = .ub := by decide +kernel

/-- With a lumped mass of one half the Euler predictor is not the step of the Euler method. -/
example : extrap .euler (fun (_ : Nat) x => x) (1 : ℚ) st1.data st1.hist ≠ .ok ⟨0, eulerStep (fun x => 2 * x) (fun x => x) (1 : ℚ) 3⟩ := by
  decide +kernel

end Ex130

end Verif.Props
