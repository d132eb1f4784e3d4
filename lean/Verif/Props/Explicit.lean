import Verif.Model.Explicit
import Mathlib.Algebra.Module.Basic
import Mathlib.Algebra.Module.Rat
import Mathlib.Algebra.CharZero.Defs
import Mathlib.Tactic.Module
import Mathlib.Tactic.Ring
import Mathlib.Tactic.FieldSimp
import Mathlib.Tactic.NormNum
import Mathlib.Algebra.Order.Ring.Rat
import Mathlib.Algebra.Field.Rat
import Mathlib.Data.Fintype.Basic
import Mathlib.Data.Fin.VecNotation
import Mathlib.Data.Nat.Cast.Basic
/-! # Explicit time stepping: C24 -/
set_option linter.unusedSectionVars false
namespace Verif.Props
open Verif Verif.Explicit
variable {K V : Type} {n : Nat} [Field K] [DecidableEq K] [AddCommGroup V] [Module K V]

/-- right hand side `-M⁻¹ R(t, u)` -/
def rhs (P : Problem K V n) (t : K) (u : Fin n → V) : Fin n → V := fun b => -P.minv (P.res t u b)

/-- replace the stationary blocks of `u` by those of `v` -/
def mix (P : Problem K V n) (u v : Fin n → V) : Fin n → V := fun b => if P.timeDep b then u b else v b

/-- the classical Runge-Kutta formula -/
def classicalRK4 (f : K → (Fin n → V) → Fin n → V) (t dt : K) (u : Fin n → V) : Fin n → V :=
  let k1 := f t u
  let k2 := f (t + dt / 2) (u + (dt / 2) • k1)
  let k3 := f (t + dt / 2) (u + (dt / 2) • k2)
  let k4 := f (t + dt) (u + dt • k3)
  u + (dt / 6) • (k1 + (2 : K) • k2 + (2 : K) • k3 + k4)

/-- The residual of the blocks selected by `q` does not depend on the stationary blocks. -/
def IndepStationary (P : Problem K V n) (q : Fin n → Bool) : Prop :=
  ∀ t u v b, q b = true → (∀ c, P.timeDep c = true → u c = v c) → P.res t u b = P.res t v b

private theorem foldl_or {α : Type} (f : α → Bool) (l : List α) (init : Bool) :
    l.foldl (fun h c => h || f c) init = (init || l.any f) := by
  induction l generalizing init with
  | nil => simp
  | cons a l ih => simp only [List.foldl_cons, ih, List.any_cons, Bool.or_assoc]

private theorem hasStationary_false {init : Bool} {timeDep : Fin n → Bool}
    (h : hasStationary init timeDep = false) (b : Fin n) : timeDep b = true := by
  unfold hasStationary at h
  rw [foldl_or] at h
  simp only [Bool.or_eq_false_iff, List.any_eq_false] at h
  simpa using h.2 b (List.mem_finRange b)

/-- the algebraic part, whatever the uninitialised flag was -/
private theorem alg_eq (P : Problem K V n) (init : Bool) (time : K) (cur : Fin n → V) :
    (if hasStationary init P.timeDep then algebraic P time cur else cur) =
      mix P cur (rhs P time cur) := by
  funext b
  cases h : hasStationary init P.timeDep with
  | true =>
    simp only [if_true, algebraic, mix, rhs, neg_smul, one_smul]
  | false =>
    simp only [Bool.false_eq_true, if_false, mix, hasStationary_false h b, if_true]

/-- Forward Euler: time dependent blocks advance by the formula, the new time is `t + dt`, and the
stationary blocks are the algebraic evaluation from the last state, in which the stationary blocks
have the values evaluated from the old state. Holds whatever the uninitialised member
`has_stationary_equations` contains. -/
theorem C24_euler (P : Problem K V n) (init : Bool) (t dt : K) (u : Fin n → V) :
    makeStep P init euler t dt u =
      (let w := mix P (u + dt • rhs P t u) (rhs P t u)
       mix P w (rhs P (t + dt) w), t + dt) := by
  have hs : (euler (K := K)).foldl (fun st s => stage P (decide ((euler (K := K)).length ≤ 1)) t dt s st)
      ⟨u, u, fun _ => 0, t⟩ =
      ⟨mix P u (rhs P t u), mix P u (rhs P t u), mix P (dt • rhs P t u) 0, t⟩ := by
    simp only [euler, List.foldl_cons, List.foldl_nil, stage, List.length_singleton, le_refl,
      decide_true, if_true, zero_mul, add_zero]
    congr 1
    · funext b
      by_cases hb : P.timeDep b <;> simp [blockStep, mix, rhs, hb]
    · funext b
      by_cases hb : P.timeDep b <;> simp [blockStep, mix, rhs, hb]
    · funext b
      by_cases hb : P.timeDep b <;> simp [blockStep, mix, rhs, hb]
  unfold makeStep
  rw [hs]
  dsimp only
  rw [alg_eq]
  have hw : (fun b => mix P u (rhs P t u) b + mix P (dt • rhs P t u) 0 b) =
      mix P (u + dt • rhs P t u) (rhs P t u) := by
    funext b
    by_cases hb : P.timeDep b <;> simp [mix, hb]
  rw [hw]

/-- If the residual of the stationary equations does not involve the stationary blocks, the stationary
blocks satisfy their equations at the new time and the new state exactly, for every table of stages. -/
theorem C24_algebraic (P : Problem K V n) (init : Bool) (stages : List (K × K)) (t dt : K)
    (u : Fin n → V) (hi : IndepStationary P (fun b => !P.timeDep b)) (b : Fin n)
    (hb : P.timeDep b = false) :
    let r := makeStep P init stages t dt u
    r.1 b = rhs P r.2 r.1 b := by
  unfold makeStep
  dsimp only
  rw [alg_eq]
  generalize hst : stages.foldl (fun st s => stage P (decide (stages.length ≤ 1)) t dt s st)
    (⟨u, u, fun _ => 0, t⟩ : St K V n) = st
  simp only [mix, hb, Bool.false_eq_true, if_false, rhs]
  congr 2
  refine hi _ _ _ b (by simp [hb]) ?_
  intro c hc
  simp [mix, hc]

/-- Runge-Kutta, exactly as computed: in the state of each later stage the stationary blocks are the
algebraic evaluation of the stage before. -/
theorem C24_rk4_exact [CharZero K] (P : Problem K V n) (init : Bool) (t dt : K) (u : Fin n → V) :
    makeStep P init rk4 t dt u =
      (let k1 := rhs P t u
       let k2 := rhs P (t + dt / 2) (mix P (u + (dt / 2) • k1) k1)
       let k3 := rhs P (t + dt / 2) (mix P (u + (dt / 2) • k2) k2)
       let k4 := rhs P (t + dt) (mix P (u + dt • k3) k3)
       let w := mix P (u + (dt / 6) • (k1 + (2 : K) • k2 + (2 : K) • k3 + k4)) u
       mix P w (rhs P (t + dt) w), t + dt) := by
  have hwork : ∀ (sdt sw : K) (c w i m : V), sdt ≠ 0 → sw ≠ 0 →
      blockStep true sdt sw dt c w i m = (c + (sw * dt) • -m, i + (sdt * dt) • -m) := by
    intro sdt sw c w i m h1 h2
    simp only [blockStep, if_true, if_pos h2]
    congr 1
    · rw [smul_smul, smul_neg, ← neg_smul]
      congr 2
      field_simp
    · rw [smul_neg, ← neg_smul]; congr 2; ring
  have hlast : ∀ (sdt : K) (c w i m : V),
      blockStep true sdt 0 dt c w i m = (w, i + (sdt * dt) • -m) := by
    intro sdt c w i m
    simp only [blockStep, if_true, ne_eq, not_true, if_false]
    congr 1
    rw [smul_neg, ← neg_smul]; congr 2; ring
  have hstat : ∀ (sdt sw : K) (c w i m : V), blockStep false sdt sw dt c w i m = (-m, i) := by
    intro sdt sw c w i m
    simp [blockStep]
  have h1 : ∀ (s : K × K) (c w i : Fin n → V) (τ : K), s.1 ≠ 0 → s.2 ≠ 0 →
      stage P false t dt s ⟨c, w, i, τ⟩ = ⟨c, mix P (c + (s.2 * dt) • rhs P τ w) (rhs P τ w),
        mix P (i + (s.1 * dt) • rhs P τ w) i, t + s.2 * dt⟩ := by
    intro s c w i τ ha hb
    simp only [stage, Bool.false_eq_true, if_false]
    congr 1
    · funext b
      cases hb' : P.timeDep b
      · simp [hstat, mix, hb', rhs]
      · simp only [hwork _ _ _ _ _ _ ha hb, mix, hb', if_true]; rfl
    · funext b
      cases hb' : P.timeDep b
      · simp [hstat, mix, hb']
      · simp only [hwork _ _ _ _ _ _ ha hb, mix, hb', if_true]; rfl
  have h2 : ∀ (x : K) (c w i : Fin n → V) (τ : K),
      stage P false t dt (x, 0) ⟨c, w, i, τ⟩ = ⟨c, mix P w (rhs P τ w),
        mix P (i + (x * dt) • rhs P τ w) i, t⟩ := by
    intro x c w i τ
    simp only [stage, Bool.false_eq_true, if_false, zero_mul, add_zero]
    congr 1
    · funext b
      cases hb' : P.timeDep b
      · simp [hstat, mix, hb', rhs]
      · simp only [hlast, mix, hb', if_true]
    · funext b
      cases hb' : P.timeDep b
      · simp [hstat, mix, hb']
      · simp only [hlast, mix, hb', if_true]; rfl
  have e2 : (2 : K) ≠ 0 := two_ne_zero
  have e3 : (3 : K) ≠ 0 := by
    simp
  have e6 : (6 : K) ≠ 0 := by
    have : (6 : K) = 2 * 3 := by norm_num
    rw [this]; exact mul_ne_zero e2 e3
  have hst : (rk4 (K := K)).foldl (fun st s => stage P (decide ((rk4 (K := K)).length ≤ 1)) t dt s st)
      ⟨u, u, fun _ => 0, t⟩ =
      (let k1 := rhs P t u
       let k2 := rhs P (t + dt / 2) (mix P (u + (dt / 2) • k1) k1)
       let k3 := rhs P (t + dt / 2) (mix P (u + (dt / 2) • k2) k2)
       let w3 := mix P (u + dt • k3) k3
       let k4 := rhs P (t + dt) w3
       ⟨u, mix P w3 k4, mix P ((dt / 6) • (k1 + (2 : K) • k2 + (2 : K) • k3 + k4)) 0, t⟩) := by
    have hl : decide ((rk4 (K := K)).length ≤ 1) = false := rfl
    rw [hl]
    have d2 : 1 / 2 * dt = dt / 2 := by ring
    simp only [rk4, List.foldl_cons, List.foldl_nil]
    rw [h1 (1 / 6, 1 / 2) _ _ _ _ (one_div_ne_zero e6) (one_div_ne_zero e2),
      h1 (1 / 3, 1 / 2) _ _ _ _ (one_div_ne_zero e3) (one_div_ne_zero e2),
      h1 (1 / 3, 1) _ _ _ _ (one_div_ne_zero e3) one_ne_zero, h2]
    simp only [d2, one_mul]
    congr 1
    funext b
    cases hb : P.timeDep b
    · simp [mix, hb]
    · simp only [mix, hb, if_true, Pi.add_apply, Pi.smul_apply]
      module
  unfold makeStep
  rw [hst]
  dsimp only
  rw [alg_eq]
  congr 2
  · funext b
    cases hb : P.timeDep b <;> simp [mix, hb]
  · congr 1
    funext b
    cases hb : P.timeDep b <;> simp [mix, hb]

/-- Runge-Kutta: if the time dependent equations do not involve stationary blocks, the time dependent
blocks follow the classical formula. Missing for the full claim: time dependent equations that involve
stationary blocks, see `C24_violated`. -/
theorem C24_rk4_partial [CharZero K] (P : Problem K V n) (init : Bool) (t dt : K) (u : Fin n → V)
    (hi : IndepStationary P P.timeDep) :
    (makeStep P init rk4 t dt u).2 = t + dt ∧
    ∀ b, P.timeDep b = true →
      (makeStep P init rk4 t dt u).1 b = classicalRK4 (rhs P) t dt u b := by
  rw [C24_rk4_exact]
  refine ⟨rfl, fun b hb => ?_⟩
  have hr : ∀ τ v w, (∀ c, P.timeDep c = true → v c = w c) → ∀ c, P.timeDep c = true →
      rhs P τ v c = rhs P τ w c := by
    intro τ v w h c hc
    unfold rhs
    rw [hi τ v w c hc h]
  have hm : ∀ (τ : K) (v w x : Fin n → V) (d : K) (k k' : Fin n → V),
      (∀ c, P.timeDep c = true → k c = k' c) → ∀ c, P.timeDep c = true →
      rhs P τ (mix P (v + d • k) x) c = rhs P τ (v + d • k') c := by
    intro τ v w x d k k' h c hc
    refine hr _ _ _ ?_ c hc
    intro c hc
    simp only [mix, hc, if_true, Pi.add_apply, Pi.smul_apply, h c hc]
  simp only [mix, hb, if_true, classicalRK4]
  have g2 := hm (t + dt / 2) u u (rhs P t u) (dt / 2) (rhs P t u) (rhs P t u) (fun _ _ => rfl)
  have g3 := hm (t + dt / 2) u u
    (rhs P (t + dt / 2) (mix P (u + (dt / 2) • rhs P t u) (rhs P t u))) (dt / 2) _ _ g2
  have g4 := hm (t + dt) u u (rhs P (t + dt / 2) (mix P (u + (dt / 2) • (rhs P (t + dt / 2)
    (mix P (u + (dt / 2) • rhs P t u) (rhs P t u)))) (rhs P (t + dt / 2)
    (mix P (u + (dt / 2) • rhs P t u) (rhs P t u))))) dt _ _ g3
  simp only [Pi.add_apply, Pi.smul_apply]
  rw [← g2 b hb, ← g3 b hb, ← g4 b hb]

/-- Without stationary equations the whole step is the classical formula. -/
theorem C24_rk4 [CharZero K] (P : Problem K V n) (init : Bool) (t dt : K) (u : Fin n → V)
    (h : ∀ b, P.timeDep b = true) :
    makeStep P init rk4 t dt u = (classicalRK4 (rhs P) t dt u, t + dt) := by
  have hi : IndepStationary P P.timeDep := by
    intro τ v w b _ hvw
    have : v = w := funext fun c => hvw c (h c)
    rw [this]
  obtain ⟨h1, h2⟩ := C24_rk4_partial P init t dt u hi
  exact Prod.ext (funext fun b => h2 b (h b)) h1

namespace Ex24

/-- `du/dt = 2 t u`, `dv/dt = -u + v` -/
def P1 : Problem Rat Rat 2 := ⟨fun _ => true, fun t u => ![-2 * t * u 0, u 0 - u 1], fun x => x⟩
example : makeStep P1 true rk4 0 1 ![1, 1] = (classicalRK4 (rhs P1) 0 1 ![1, 1], 1) :=
  by simpa using C24_rk4 P1 true 0 1 ![1, 1] (fun _ => rfl)
example : (makeStep P1 false rk4 0 1 ![1, 1]).1 0 = 8 / 3 := by decide +kernel

/-- `du/dt = v`, `v = u` (residual of the second equation `-u`), mass matrix 2 -/
def P2 : Problem Rat Rat 2 := ⟨![true, false], fun _ u => ![-2 * u 1, -2 * u 0], fun x => x / 2⟩
example : IndepStationary P2 (fun b => !P2.timeDep b) := by
  intro t u v b hb h
  have h0 := h 0 rfl
  match b with
  | 0 => cases hb
  | 1 => simp [P2, h0]

/-- the differential-algebraic system with the stationary blocks eliminated -/
def reduced (P : Problem K V n) (t : K) (u : Fin n → V) : Fin n → V := rhs P t (mix P u (rhs P t u))

/-- With a time dependent equation that involves a stationary block, the step differs from the classical
formula applied to the system with the stationary block eliminated, although the initial state is
consistent: the stationary blocks of a stage are those of the stage before. The exact factor is 65/24,
the code yields 9/4. -/
theorem C24_violated :
    (makeStep P2 false rk4 0 1 ![1, 1]).1 0 ≠ classicalRK4 (reduced P2) 0 1 ![1, 1] 0 ∧
    classicalRK4 (reduced P2) 0 1 ![1, 1] 0 = 65 / 24 ∧
    (makeStep P2 false rk4 0 1 ![1, 1]).1 0 = 9 / 4 ∧ ![(1 : Rat), 1] = mix P2 ![1, 1] (rhs P2 0 ![1, 1]) := by
  decide +kernel

/-- forward Euler with the same system, consistent at the end -/
example : makeStep P2 false euler 0 (1 / 2) ![1, 1] = (![3 / 2, 3 / 2], 1 / 2) := by decide +kernel

end Ex24
end Verif.Props
