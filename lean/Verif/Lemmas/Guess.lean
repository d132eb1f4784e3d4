import Verif.Spec.Guess
import Verif.Lemmas.TimeLoop
import Mathlib.Tactic.Module
import Mathlib.Tactic.Abel

/-!
# Lemmas on the initial guess
-/

namespace Verif.Guess

variable {K L W : Type} [Field K] [LinearOrder K] [DecidableEq L] [AddCommGroup W] [Module K W]

/-- The history after a pass: the second entry is the solution before the step, as it was prepared. -/
theorem pass_hist {V : Type} {p : LoopParams K} {s : Option Scheme} {st st' : RunState K V} {sols : List V} {dts : List K}
    (h : LoopInv s st sols dts) (a : Attempt V) (hp : pass p st a = .ok st') :
    ∃ c tl, specPrep a st.converged sols = c :: tl ∧
      (∀ sol good, a.outcome = .success sol good → st'.converged = true ∧ ∃ l, st'.hist = sol :: c :: l) ∧
      (∀ g, a.outcome = .failure g → st'.converged = false ∧ ∃ l, st'.hist = c :: c :: l) := by
  obtain ⟨c, tl, h1, h2, h3⟩ := prepare_ok a h.hist
  refine ⟨c, tl, h1, fun sol good ho => ?_, fun garbage ho => ?_⟩
  · obtain ⟨d, h4, _⟩ := accept_ok (p := p) h.data (a.guess.getD c) c tl sol good h2
    simp only [pass, h3, Res.ok_bind, ho] at hp
    rw [h4] at hp
    obtain rfl := Res.ok.inj hp
    exact ⟨rfl, _, rfl⟩
  · obtain ⟨d, _, h5⟩ := reject_eq p h.data (a.guess.getD c) c (tl.take (depth s - 1)) garbage
    simp only [pass, h3, Res.ok_bind, ho] at hp
    rw [h5] at hp
    split at hp
    · obtain rfl := Res.ok.inj hp
      exact ⟨rfl, _, rfl⟩
    · cases hp

omit [DecidableEq L] [AddCommGroup W] in
theorem adapted_cons (a : Attempt (Vec L W)) (u r : Vec L W) (l : List (Vec L W)) :
    ∃ l', adapted a true (u :: r :: l) = a.remesh (a.limit u) :: r :: l' := by
  refine ⟨l.map a.remesh, ?_⟩
  unfold adapted
  rw [if_pos rfl, (histApply_cons a.limit u r l).2, (histApply_cons a.remesh _ r l).1]

omit [LinearOrder K] in
theorem extrapolate_eq (u r : Vec L W) (l : List (Vec L W)) (f : K) :
    extrapolate (u :: r :: l) f =
      if u.layout = r.layout then .ok ⟨u.layout, u.val + f • (u.val - r.val)⟩ else .ub := by
  simp only [extrapolate, Res.index, List.getElem?_cons_zero, List.getElem?_cons_succ, Res.ok_bind, add]
  by_cases h : u.layout = r.layout
  · rw [if_pos h, if_pos h, Res.ok_bind]
    simp only [sadd, if_true]
    congr 2
    module
  · rw [if_neg h, if_neg h]; rfl

/-- Steps of the time data of a state with the invariant. -/
theorem dt_index {s : Option Scheme} {data : TimeData K} {dt d1 : K} {dts : List K} (h : DataInv s data dt (d1 :: dts)) (ho : data.order > 1) :
    Res.index data.dt 0 = .ok dt ∧ Res.index data.dt 1 = .ok d1 := by
  have hd : 2 ≤ depth s := by
    unfold depth
    rw [h.order] at ho
    omega
  obtain ⟨m, hm⟩ : ∃ m, depth s = m + 2 := ⟨depth s - 2, by omega⟩
  rw [h.steps, hm]
  constructor <;> rfl

theorem extrap_linear {res : L → W → W} {data : TimeData K} {dt d1 : K} {dts : List K} {s : Option Scheme}
    (h : DataInv s data dt (d1 :: dts)) (ho : data.order > 1) (h0 : 0 < dt) (h1 : 0 < d1) (u r : Vec L W) (l : List (Vec L W)) :
    extrap .linear res dt data (u :: r :: l) =
      if u.layout = r.layout then .ok ⟨u.layout, u.val + (dt / d1) • (u.val - r.val)⟩ else .ub := by
  obtain ⟨e0, e1⟩ := dt_index h ho
  rw [← extrapolate_eq (f := dt / d1) u r l]
  simp only [extrap, getCurrent, Res.index, List.getElem?_cons_zero, Res.ok_bind]
  simp only [Res.index] at e0 e1
  rw [if_pos ⟨trivial, ho⟩, e0, e1]
  simp only [Res.ok_bind, gt_iff_lt, h0, h1, and_self, if_true]

theorem extrap_zero {res : L → W → W} {data : TimeData K} {dt : K} (u : Vec L W) (l : List (Vec L W))
    (h : data.order ≤ 1 ∨ ∃ d0 d1, Res.index data.dt 0 = .ok d0 ∧ Res.index data.dt 1 = .ok d1 ∧ ¬ (0 < d0 ∧ 0 < d1)) :
    extrap .linear res dt data (u :: l) = .ok ⟨u.layout, 0⟩ := by
  simp only [extrap, getCurrent, Res.index, List.getElem?_cons_zero, Res.ok_bind]
  by_cases ho : data.order > 1
  · rcases h with h | ⟨d0, d1, e0, e1, hn⟩
    · omega
    · rw [if_pos ⟨trivial, ho⟩]
      simp only [Res.index] at e0 e1
      rw [e0, e1]
      simp only [Res.ok_bind, gt_iff_lt, hn, if_false]
  · rw [if_neg (fun h => ho h.2)]

theorem extrap_euler {res : L → W → W} {data : TimeData K} {dt : K} (u : Vec L W) (l : List (Vec L W)) :
    extrap .euler res dt data (u :: l) = .ok ⟨u.layout, u.val - dt • res u.layout u.val⟩ := by
  simp only [extrap, getCurrent, Res.index, List.getElem?_cons_zero, Res.ok_bind, sadd, residualOf, if_true]
  congr 2
  module

theorem extrap_midpoint {res : L → W → W} {data : TimeData K} {dt : K} (u : Vec L W) (l : List (Vec L W)) :
    extrap .midpoint res dt data (u :: l) =
      .ok ⟨u.layout, u.val - dt • res u.layout (u.val - (dt / 2) • res u.layout u.val)⟩ := by
  simp only [extrap, getCurrent, Res.index, List.getElem?_cons_zero, Res.ok_bind, sadd, residualOf, if_true]
  have : (-dt / 2) • res u.layout u.val + u.val = u.val - (dt / 2) • res u.layout u.val := by
    rw [neg_div]; module
  rw [this]
  congr 2
  module

end Verif.Guess
