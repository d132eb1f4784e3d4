/-
C152: the amount of material.
-/
import Verif.Lemmas.Amount
import Verif.Props.TimeLoop
import Mathlib.Algebra.Order.Ring.Rat
import Mathlib.Tactic.NormNum

set_option linter.unusedSectionVars false

namespace Verif.Props

open Finset Verif.Amount Verif.Amount.Spec
open Verif.Apps (QPt value gradient)

section
variable {K : Type} [Field K] [LinearOrder K] {n d : Nat}

/-- The entries of the residual of the concentration sum up to the time derivative of the amount of material, whatever the mobilities, the
chemical potential and the velocities of the grains are. -/
theorem C152_balance (p : SinteringKernel.Par K) {order : Nat} (ho : order ≠ 0) {weights : List K} (hw : order < weights.length)
    {pts : List (QPt K n d)} (hu : Unity pts) (vel : Nat → List (Option (Fin d → K))) (u : Sol K n) {olds : List (Sol K n)} (hl : order ≤ olds.length) :
    ∃ r, residualC p 2 order weights pts vel u olds = .ok r ∧
      ∑ i, r i = weights.getD 0 0 * amount pts u.c + past order weights (olds.map fun o => amount pts o.c) := by
  have h0 : weights[0]? = some weights[0] := List.getElem?_eq_getElem (by omega)
  obtain ⟨r, h1, h2⟩ := loop_ok hu (fun q j => SinteringKernel.residual { p with weight := weights[0] } 2 (point q (vel j) u
      fun j => ∑ i ∈ range order, (olds.map (·.c)).getD i (fun _ => 0) j * weights.getD (i + 1) 0))
    (fun q => value q u.c * weights[0] + value q fun j => ∑ i ∈ range order, (olds.map (·.c)).getD i (fun _ => 0) j * weights.getD (i + 1) 0)
    (fun q j => by
      obtain ⟨o, h1, h2⟩ := kernel_ok { p with weight := weights[0] } 2 (point q (vel j) u
        fun j => ∑ i ∈ range order, (olds.map (·.c)).getD i (fun _ => 0) j * weights.getD (i + 1) 0)
      exact ⟨o, h1, by rw [h2]; rfl⟩) 0 (fun _ => 0)
  refine ⟨r, ?_, ?_⟩
  · unfold residualC
    simp only [Res.index, h0, Res.ok_bind, if_true]
    rw [history_eq ho hw (by simpa using hl)]
    exact h1
  · rw [h2]
    have e1 : (pts.map fun q => q.w * (value q u.c * weights[0] + value q fun j => ∑ i ∈ range order, (olds.map (·.c)).getD i (fun _ => 0) j * weights.getD (i + 1) 0)).sum =
        weights[0] * amount pts u.c + amount pts (fun j => ∑ i ∈ range order, (olds.map (·.c)).getD i (fun _ => 0) j * weights.getD (i + 1) 0) := by
      rw [← amount_smul, ← amount_add, amount_eq]
      congr 1
      refine List.map_congr_left fun q _ => ?_
      congr 1
      unfold value
      rw [sum_mul, ← sum_add_distrib]
      exact sum_congr rfl fun i _ => by ring
    rw [e1, amount_sum, sum_const_zero, zero_add]
    congr 1
    · rw [List.getD_eq_getElem?_getD, h0]; rfl
    · unfold past
      refine sum_congr rfl fun i hi => ?_
      have hi' : i < olds.length := by have := mem_range.1 hi; omega
      have : amount pts (fun j => (olds.map (·.c)).getD i (fun _ => 0) j * weights.getD (i + 1) 0) =
          weights.getD (i + 1) 0 * amount pts ((olds.map (·.c)).getD i (fun _ => 0)) := by
        rw [← amount_smul]
        congr 1
        funext j
        ring
      rw [this]
      congr 1
      simp [hi']

/-- Without time derivative the entries of the residual sum up to zero. -/
theorem C152_rate (p : SinteringKernel.Par K) {order : Nat} {weights : List K} (hw : weights ≠ [])
    {pts : List (QPt K n d)} (hu : Unity pts) (vel : Nat → List (Option (Fin d → K))) (u : Sol K n) (olds : List (Sol K n)) :
    ∃ r, residualC p 0 order weights pts vel u olds = .ok r ∧ ∑ i, r i = 0 := by
  obtain ⟨w, ws, rfl⟩ := List.exists_cons_of_ne_nil hw
  obtain ⟨r, h1, h2⟩ := loop_ok hu (fun q j => SinteringKernel.residual { p with weight := w } 0 (point q (vel j) u fun _ => 0)) (fun _ => 0)
    (fun q j => by
      obtain ⟨o, h1, h2⟩ := kernel_ok { p with weight := w } 0 (point q (vel j) u fun _ => 0)
      exact ⟨o, h1, by rw [h2]; simp⟩) 0 (fun _ => 0)
  refine ⟨r, ?_, ?_⟩
  · unfold residualC
    simp only [Res.index, List.getElem?_cons_zero, Res.ok_bind, if_neg (show ¬ (0 : Nat) = 2 by omega)]
    exact h1
  · rw [h2]; simp

/-- The tangent: its entries sum up to the weighted amount of the increment. -/
theorem C152_tangent (p : SinteringKernel.Par K) {w : K} {ws : List K} {pts : List (QPt K n d)} (hu : Unity pts)
    (vel : Nat → List (Option (Fin d → K))) (u x : Sol K n) :
    ∃ y, tangentC p (w :: ws) pts vel u x = .ok y ∧ ∑ i, y i = w * amount pts x.c := by
  obtain ⟨r, h1, h2⟩ := loop_ok hu (fun q j => SinteringKernel.vmult { p with weight := w } (point q (vel j) u fun _ => 0)
      ⟨value q x.c, value q x.mu, gradient q x.c, gradient q x.mu, x.etas.map fun e => (value q e, gradient q e)⟩) (fun q => value q x.c * w)
    (fun q j => by
      obtain ⟨o, h1, h2⟩ := vmult_ok { p with weight := w } (point q (vel j) u fun _ => 0)
        ⟨value q x.c, value q x.mu, gradient q x.c, gradient q x.mu, x.etas.map fun e => (value q e, gradient q e)⟩
      exact ⟨o, h1, h2⟩) 0 (fun _ => 0)
  refine ⟨r, ?_, ?_⟩
  · unfold tangentC
    simp only [Res.index, List.getElem?_cons_zero, Res.ok_bind]
    exact h1
  · rw [h2, sum_const_zero, zero_add, ← amount_smul, amount_eq]
    congr 1
    refine List.map_congr_left fun q _ => ?_
    congr 1
    unfold value
    rw [sum_mul]
    exact sum_congr rfl fun i _ => by ring

/-- A step of Newton's method with the exact increment reduces the imbalance of the amount by the factor one minus the damping factor,
although the residual is not linear and the forces on the grains are evaluated anew: after a full step there is none. -/
theorem C152_newton (p : SinteringKernel.Par K) {order : Nat} (ho : order ≠ 0) {weights : List K} (hw : order < weights.length)
    {pts : List (QPt K n d)} (hu : Unity pts) (vel vel' : Nat → List (Option (Fin d → K))) (u x : Sol K n) {olds : List (Sol K n)} (hl : order ≤ olds.length)
    (omega : K) {r y r' : Fin n → K} (h : residualC p 2 order weights pts vel u olds = .ok r) (ht : tangentC p weights pts vel u x = .ok y)
    (hy : ∀ i, y i = -r i) (h' : residualC p 2 order weights pts vel' (moved omega u x) olds = .ok r') :
    ∑ i, r' i = (1 - omega) * ∑ i, r i := by
  obtain ⟨a, h1, h2⟩ := C152_balance p ho hw hu vel u hl
  obtain ⟨b, h3, h4⟩ := C152_balance p ho hw hu vel' (moved omega u x) hl
  match weights, hw with
  | w :: ws, _ =>
  obtain ⟨c, h5, h6⟩ := C152_tangent p (w := w) (ws := ws) hu vel u x
  obtain rfl := Res.ok.inj (h.symm.trans h1)
  obtain rfl := Res.ok.inj (h'.symm.trans h3)
  obtain rfl := Res.ok.inj (ht.symm.trans h5)
  have e : ∑ i, y i = -∑ i, r i := by rw [← sum_neg_distrib]; exact sum_congr rfl fun i _ => hy i
  have em : amount pts (moved omega u x).c = amount pts u.c + omega * amount pts x.c := by
    show amount pts (fun i => u.c i + omega * x.c i) = _
    rw [amount_add, amount_smul]
  rw [h4, em]
  simp only [List.getD_cons_zero] at h2 ⊢
  rw [h6] at e
  linear_combination omega * e - h2

/-- Explicit schemes: a rate computed with the mass matrix from the residual changes no amount, hence no combination of rates does. -/
theorem C152_explicit {pts : List (QPt K n d)} (hu : Unity pts) (u : Fin n → K) (ks : List (K × (Fin n → K)))
    (hk : ∀ k ∈ ks, ∃ p order weights vel v olds r, weights ≠ [] ∧ residualC (n := n) (d := d) p 0 order weights pts vel v olds = .ok r ∧
      ∀ i, massC pts k.2 i = -r i) :
    amount pts (ks.foldl (fun a k i => a i + k.1 * k.2 i) u) = amount pts u := by
  induction ks generalizing u with
  | nil => rfl
  | cons k ks ih =>
    rw [List.foldl_cons, ih _ fun k hk' => hk k (by simp [hk']), amount_add, amount_smul]
    obtain ⟨p, order, weights, vel, v, olds, r, h1, h2, h3⟩ := hk k (by simp)
    obtain ⟨r', h4, h5⟩ := C152_rate p h1 hu vel v olds (order := order)
    obtain rfl := Res.ok.inj (h2.symm.trans h4)
    have e : ∑ i, massC pts k.2 i = amount pts k.2 := by
      exact mass_sum hu k.2
    rw [← e, sum_congr rfl fun i _ => h3 i, sum_neg_distrib, h5]
    simp

/-- A solved step has the amount of the past. -/
theorem C152_step [IsStrictOrderedRing K] {s : Scheme} {td : TimeData K} {dt : K} {dts : List K} (hd : DataInv (some s) td dt dts) (hdt : 0 < dt)
    {m : K} {sols : List (Disc K)} (hp : Past m sols dts) {x : Disc K} (hl : s.order ≤ sols.length) (hs : Solved td (sols.take s.order) x) : amt x = m := by
  obtain ⟨pre, z, rfl, hpos, hm⟩ := hp
  obtain ⟨p, vel, us, r, hu, ho, hr, h0⟩ := hs
  have hord : td.order = s.order := hd.order
  have ho1 : 1 ≤ s.order := by cases s <;> simp [Scheme.order]
  have hdep : depth (some s) = s.order := by simp only [depth, Option.map_some, Option.getD_some]; omega
  have hsteps := hd.steps
  have hn := hd.ndts
  rw [hdep] at hsteps hn
  simp only [List.length_append, List.length_replicate] at hn
  have e : td.dt = dt :: pre.take (s.order - 1) ++ List.replicate (min (s.order - 1 - pre.length) z) 0 := by
    rw [hsteps]
    obtain ⟨k, hk⟩ : ∃ k, s.order = k + 1 := ⟨s.order - 1, by omega⟩
    rw [hk, List.take_succ_cons, List.take_append, List.take_replicate]
    rfl
  have hw := hd.weights s rfl
  have hlu : us.length = s.order := by
    have := congrArg List.length ho
    simp only [List.length_take, List.length_map] at this
    omega
  have hlw : ∀ l : List K, (computeWeights s l).length = l.length + 1 := by
    intro l
    unfold computeWeights setW1 setW2 setW3
    cases s <;> simp only <;> split <;> (try split) <;> (try split) <;> simp
  have hlt : td.dt.length = s.order := by
    rw [hsteps, List.length_take]
    simp only [List.length_cons, List.length_append, List.length_replicate]
    omega
  obtain ⟨r', h1, h2⟩ := C152_balance p (order := td.order) (by omega) (weights := td.weights) (by rw [hw, hlw]; omega) hu vel x.u (olds := us) (by omega)
  obtain rfl := Res.ok.inj (hr.symm.trans h1)
  rw [h0, hw, e, hord] at h2
  have hms : us.map (fun o => amount x.pts o.c) = (sols.map amt).take s.order := by
    rw [← List.map_take, ho, List.map_map]
    rfl
  refine weights_ok (pre := pre.take (s.order - 1)) hdt (fun y hy => hpos y (List.mem_of_mem_take hy)) ?_ _ m (fun i hi => ?_) _ h2.symm
  · simp only [List.length_take]
    omega
  · simp only [List.length_take] at hi
    rw [hms, List.getD_eq_getElem?_getD, List.getElem?_take_of_lt (by omega), ← List.getD_eq_getElem?_getD]
    exact hm i (by omega)

theorem prep_amounts {a : Attempt (Disc K)} (hl : ∀ x, amt (a.limit x) = amt x) (hr : ∀ x, amt (a.remesh x) = amt x) (conv : Bool) (sols : List (Disc K)) :
    (specPrep a conv sols).map amt = sols.map amt := by
  cases sols with
  | nil => rfl
  | cons u us =>
    cases conv
    · rfl
    · simp [specPrep, hl, hr]

theorem Run.reach {p : LoopParams K} {s : Scheme} {st0 st : RunState K (Disc K)} {sols : List (Disc K)} {dts : List K} (h : Run p s st0 st sols dts) :
    RunReach p (some s) st0 st sols dts := by
  induction h with
  | start h => exact .start h
  | pass a h hc hd hp hl hr hs ih => exact .pass a ih hc hp

/-- The amount of material does not change in a run, for all schemes, changing step sizes, rejected steps and moving grains. -/
theorem C152_run_partial [IsStrictOrderedRing K] {p : LoopParams K} {s : Scheme} {st0 st : RunState K (Disc K)} {sols : List (Disc K)} {dts : List K}
    {m : K} (h : Run p s st0 st sols dts) (h0 : ∀ sols0 dts0, Started (some s) st0 sols0 dts0 → Past m sols0 dts0) :
    (∃ x, st.hist[0]? = some x ∧ amt x = m) ∧ Past m sols dts := by
  have key : Past m sols dts := by
    induction h with
    | start h => exact h0 _ _ h
    | @pass st st' sols dts a h hc hd hp hl hr hs ih =>
      have hR := Run.reach h
      have ih' : Past m (specPrep a st.converged sols) dts := by
        obtain ⟨pre, z, h1, h2, h3⟩ := ih
        exact ⟨pre, z, h1, h2, by rw [prep_amounts hl hr]; exact h3⟩
      unfold specSols specDts
      cases ho : a.outcome with
      | failure g => exact ih'
      | success sol good =>
        obtain ⟨g, hg1, hg2, _, _, _⟩ := C20_step_input hR a
        have hsol := hs g sol good hg1 ho
        have ho1 : 1 ≤ s.order := by cases s <;> simp [Scheme.order]
        have hdep : depth (some s) = s.order := by simp only [depth, Option.map_some, Option.getD_some]; omega
        rw [hg2, hdep] at hsol
        have hlen : s.order ≤ (specPrep a st.converged sols).length := by
          obtain ⟨c, tl, e1, e2, _⟩ := prepare_ok a hR.inv.hist
          rw [e1, List.length_cons]
          omega
        have hm := C152_step hR.inv.data hd ih' hlen hsol
        obtain ⟨pre, z, h1, h2, h3⟩ := ih'
        refine ⟨st.dt :: pre, z, by rw [h1]; rfl, ?_, ?_⟩
        · intro x hx
          rcases List.mem_cons.1 hx with rfl | hx
          · exact hd
          · exact h2 x hx
        · intro i hi
          cases i with
          | zero => simpa using hm
          | succ i =>
            simp only [List.map_cons, List.getD_cons_succ]
            exact h3 i (by simp only [List.length_cons] at hi; omega)
  refine ⟨?_, key⟩
  obtain ⟨c, r, tl, e1, e2, _, _⟩ := (Run.reach h).inv.hist
  obtain ⟨pre, z, _, _, h3⟩ := key
  have := h3 0 (by omega)
  rw [e2] at this
  exact ⟨c, by rw [e1]; rfl, by simpa using this⟩

end

namespace Ex152

/-- The cell from 0 to 2, one point per half, two nodes. -/
def coarse : List (QPt ℚ 2 1) := [⟨1, ![3 / 4, 1 / 4], ![![-1 / 2], ![1 / 2]]⟩, ⟨1, ![1 / 4, 3 / 4], ![![-1 / 2], ![1 / 2]]⟩]

/-- The same refined: two cells of length one, three nodes. -/
def fine : List (QPt ℚ 3 1) := [⟨1, ![1 / 2, 1 / 2, 0], ![![-1], ![1], ![0]]⟩, ⟨1, ![0, 1 / 2, 1 / 2], ![![0], ![-1], ![1]]⟩]

theorem unity : Unity coarse ∧ Unity fine := by
  unfold Unity
  decide +kernel

/-- A peak in the middle, and the same amount spread over the domain. -/
def peak : Disc ℚ := ⟨3, 1, fine, ⟨![0, 1, 0], ![0, 0, 0], [![0, 1, 0]]⟩⟩

def spread : Disc ℚ := ⟨3, 1, fine, ⟨![1 / 2, 1 / 2, 1 / 2], ![0, 1, 2], [![1 / 3, 1 / 3, 1 / 3]]⟩⟩

example : amt peak = 1 ∧ amt spread = 1 := by decide +kernel

def td : TimeData ℚ := ⟨some .bdf1, 1, [1 / 2], [2, -2], 1⟩

def par : SinteringKernel.Par ℚ := ⟨1, 1, ⟨1, 1, 1, 1, 1⟩, 1, 1, 0, 0⟩

/-- The grain moves to the right. -/
theorem solved : Solved td [peak] spread := by
  obtain ⟨r, h1, h2⟩ := C152_balance par (order := 1) (by decide) (weights := [2, -2]) (by decide) unity.2 (fun _ => [some ![3]]) spread.u
    (olds := [peak.u]) (by decide)
  refine ⟨par, fun _ => [some ![3]], [peak.u], r, unity.2, rfl, h1, h2.trans ?_⟩
  decide +kernel

def params : LoopParams ℚ := ⟨2, 1 / 100, 1, 1, 1 / 1000⟩

def start : RunState ℚ (Disc ℚ) := ⟨0, 1 / 2, 0, [peak, peak], td, true⟩

theorem started : Started (some .bdf1) start [peak] [] :=
  ⟨⟨peak, peak, [], rfl, rfl, rfl⟩, rfl, rfl, rfl, rfl, fun k hk => by cases hk; decide +kernel, rfl⟩

def attempt : Attempt (Disc ℚ) := ⟨id, id, some spread, .success spread true⟩

/-- A run with a step. -/
theorem ran : ∃ st, Run params .bdf1 start st [spread, peak] [1 / 2] := by
  obtain ⟨st, h, _⟩ := (pass_inv (p := params) started.inv attempt).1 spread true rfl
  refine ⟨st, Run.pass attempt (.start started) (by decide +kernel) (by decide +kernel) h (fun _ => rfl) (fun _ => rfl) fun g sol good hg ho => ?_⟩
  have e : g = [spread, peak] := (Res.ok.inj (show Res.ok [spread, peak] = Res.ok g from hg)).symm
  have e2 : sol = spread := by
    have : Outcome.success spread true = Outcome.success sol good := ho
    cases this
    rfl
  subst e e2
  exact solved

example : ∃ st, Run params .bdf1 start st [spread, peak] [1 / 2] ∧ ∃ x, st.hist[0]? = some x ∧ amt x = 1 := by
  obtain ⟨st, h⟩ := ran
  refine ⟨st, h, (C152_run_partial h fun sols0 dts0 hs => ?_).1⟩
  obtain ⟨⟨u0, x, rest, h1, h2, h3⟩, _, _, h4, _⟩ := hs
  obtain ⟨rfl, rfl, rfl⟩ : peak = u0 ∧ peak = x ∧ [] = rest := by
    have : [peak, peak] = u0 :: x :: rest := h1
    simpa using this
  obtain rfl : [] = dts0 := (List.cons.inj (show [1 / 2] = 1 / 2 :: dts0 from h4)).2
  subst h2
  exact ⟨[], 0, rfl, by simp, fun i hi => by
    obtain rfl : i = 0 := by simpa using hi
    decide +kernel⟩

theorem of_check {r : Res (Fin 3 → ℚ)} {v : Fin 3 → ℚ} (h : (match r with | .ok r => decide (∀ i, r i = v i) | _ => false) = true) : r = .ok v := by
  cases r with
  | ok r =>
    rw [show r = v from funext (of_decide_eq_true h)]
  | exc e => cases h
  | ub => cases h

/-- A rate of the explicit scheme that is not zero: material flows from left to right. -/
example : amount fine (fun i => spread.u.c i + 1 / 100 * (![5, 0, -5] : Fin 3 → ℚ) i) = amount fine spread.u.c :=
  C152_explicit unity.2 spread.u.c [(1 / 100, ![5, 0, -5])] fun k hk => by
    obtain rfl := List.mem_singleton.1 hk
    exact ⟨par, 1, [2, -2], fun _ => [], spread.u, [], ![-5 / 4, 0, 5 / 4], by simp, of_check (by decide +kernel), by decide +kernel⟩

/-- A step of Newton's method on a mesh with one node: half a step leaves half of the imbalance. -/
example : ∃ r y r' : Fin 1 → ℚ, let pts : List (QPt ℚ 1 1) := [⟨1, ![1], ![![0]]⟩]
    let u : Sol ℚ 1 := ⟨![3], ![0], []⟩
    let x : Sol ℚ 1 := ⟨![-2], ![0], []⟩
    residualC par 2 1 [2, -2] pts (fun _ => []) u [⟨![1], ![0], []⟩] = .ok r ∧ tangentC par [2, -2] pts (fun _ => []) u x = .ok y ∧ (∀ i, y i = -r i) ∧
      residualC par 2 1 [2, -2] pts (fun _ => []) (moved (1 / 2) u x) [⟨![1], ![0], []⟩] = .ok r' ∧ ∑ i, r i = 4 ∧ ∑ i, r' i = 2 := by
  have hu : Unity ([⟨1, ![1], ![![0]]⟩] : List (QPt ℚ 1 1)) := by unfold Unity; decide +kernel
  obtain ⟨r, h1, h2⟩ := C152_balance par (order := 1) (by decide) (weights := [2, -2]) (by decide) hu (fun _ => []) ⟨![3], ![0], []⟩ (olds := [⟨![1], ![0], []⟩]) (by decide)
  obtain ⟨y, h3, h4⟩ := C152_tangent par (w := 2) (ws := [-2]) hu (fun _ => []) ⟨![3], ![0], []⟩ ⟨![-2], ![0], []⟩
  obtain ⟨r', h5, h6⟩ := C152_balance par (order := 1) (by decide) (weights := [2, -2]) (by decide) hu (fun _ => [])
    (moved (1 / 2) ⟨![3], ![0], []⟩ ⟨![-2], ![0], []⟩) (olds := [⟨![1], ![0], []⟩]) (by decide)
  have e1 : ∑ i, r i = 4 := h2.trans (by decide +kernel)
  have e2 : ∑ i, y i = -4 := h4.trans (by decide +kernel)
  have hy : ∀ i, y i = -r i := by
    intro i
    have hi : i = 0 := Subsingleton.elim _ _
    subst hi
    rw [Fin.sum_univ_one] at e1 e2
    rw [e1, e2]
  refine ⟨r, y, r', h1, h3, hy, h5, e1, ?_⟩
  rw [C152_newton par (order := 1) (by decide) (by decide) hu _ _ _ _ (by decide) (1 / 2) h1 h3 hy h5, e1]
  norm_num

/-- The sanity check takes away what is above one. -/
theorem C152_limit_violated : amount fine (limited ![0, 6 / 5, 0]) = 1 ∧ amount fine ![0, 6 / 5, 0] = 6 / 5 := by decide +kernel

/-- Coarsening keeps the values at the nodes that are left, and the peak in between is lost; refinement loses nothing. -/
theorem C152_coarsening_violated : (amount coarse ![0, 0] = 0 ∧ amount fine ![0, 1, 0] = 1) ∧
    ∀ a b : ℚ, amount fine ![a, (a + b) / 2, b] = amount coarse ![a, b] := by
  refine ⟨by decide +kernel, fun a b => ?_⟩
  simp only [amount, fine, coarse, List.map_cons, List.map_nil, List.sum_cons, List.sum_nil, Fin.sum_univ_two, Fin.sum_univ_three]
  show 1 * (1 / 2 * a + 1 / 2 * ((a + b) / 2) + 0 * b) + (1 * (0 * a + 1 / 2 * ((a + b) / 2) + 1 / 2 * b) + 0) =
    1 * (3 / 4 * a + 1 / 4 * b) + (1 * (1 / 4 * a + 3 / 4 * b) + 0)
  ring

end Ex152

end Verif.Props
