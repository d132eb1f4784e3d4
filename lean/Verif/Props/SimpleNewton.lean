/-
C109: the damped Newton scheme of the small applications.
-/
import Verif.Spec.SimpleNewton
import Mathlib.Algebra.Order.Field.Basic
import Mathlib.Algebra.Order.Ring.Rat
import Mathlib.Tactic.Ring
import Mathlib.Tactic.NormNum

namespace Verif.Props

open Verif.SimpleNewton Verif.Spec.SimpleNewton

section
variable {K V σ : Type} [Field K] [LinearOrder K]

omit [LinearOrder K] in
private theorem half_omega (n : Nat) : (1 : K) / 2 ^ n / 2 = 1 / 2 ^ (n + 1) := by
  rw [div_div, pow_succ]

/-- Where the damping ends. -/
private theorem damp_end (E : Env K V σ) (tau : K) (max : Nat) (r : K) (x inc : V) (hr : resNorm E x = some r) (n : Nat) (hn : n < max)
    (hbig : ∀ i < n, TooLarge E tau x inc i) :
    ∃ j, j < max ∧ damp E tau max r x inc (1 / 2 ^ n) n = ⟨halved E x inc j, E.res (halved E x inc j), resNorm E (halved E x inc j), 1 / 2 ^ (j + 1), j + 1⟩ ∧
      (∀ i < j, TooLarge E tau x inc i) ∧ ¬(ge (resNorm E (halved E x inc j)) ((1 - tau * (1 / 2 ^ (j + 1))) * r) = true ∧ j + 1 < max) := by
  induction hk : max - n using Nat.strongRecOn generalizing n with
  | _ k ih =>
    have ht : tryStep E x inc (1 / 2 ^ n) n =
        ⟨halved E x inc n, E.res (halved E x inc n), resNorm E (halved E x inc n), 1 / 2 ^ (n + 1), n + 1⟩ := by
      unfold tryStep
      dsimp only
      rw [half_omega]
      rfl
    rw [damp, ht]
    dsimp only
    by_cases h : ge (resNorm E (halved E x inc n)) ((1 - tau * (1 / 2 ^ (n + 1))) * r) = true ∧ n + 1 < max
    · rw [dif_pos h]
      refine ih (max - (n + 1)) (by omega) (n + 1) h.2 (fun i hi => ?_) rfl
      rcases Nat.lt_or_ge i n with hi' | hi'
      · exact hbig i hi'
      · have : i = n := by omega
        subst this
        have h1 := h.1
        cases hh : resNorm E (halved E x inc i) with
        | none => rw [hh] at h1; cases h1
        | some r' =>
          rw [hh] at h1
          exact ⟨r, r', hr, hh, of_decide_eq_true h1⟩
    · rw [dif_neg h]
      exact ⟨n, hn, rfl, hbig, h⟩

private theorem damp_start (E : Env K V σ) (tau : K) (max : Nat) (r : K) (x inc : V) (hr : resNorm E x = some r) (hm : 0 < max) :
    ∃ j, j < max ∧ damp E tau max r x inc 1 0 = ⟨halved E x inc j, E.res (halved E x inc j), resNorm E (halved E x inc j), 1 / 2 ^ (j + 1), j + 1⟩ ∧
      (∀ i < j, TooLarge E tau x inc i) ∧ ¬(ge (resNorm E (halved E x inc j)) ((1 - tau * (1 / 2 ^ (j + 1))) * r) = true ∧ j + 1 < max) := by
  have := damp_end E tau max r x inc hr 0 hm (by omega)
  simpa using this

/-- What is known in every turn. -/
private structure Good (E : Env K V σ) (tau : K) (max : Nat) (d : Data K) (a : Args) (s0 : σ) (x0 : V) (s : St K V σ) : Prop where
  res : s.residual = E.res s.dst
  norm : s.normR = resNorm E s.dst
  path : Path E tau max d a s0 x0 s.newton s.linear s.sol s.dst

private theorem notYet_of_continues {E : Env K V σ} {d : Data K} {x0 : V} {s : St K V σ} (hs : s.normR = resNorm E s.dst)
    (h : continues d (resNorm E x0) s = true) : NotYet E d x0 s.dst ∧ s.newton < d.maxIter := by
  unfold continues at h
  rw [Bool.and_eq_true, Bool.and_eq_true] at h
  obtain ⟨⟨h1, h2⟩, h3⟩ := h
  refine ⟨?_, of_decide_eq_true h3⟩
  rw [hs] at h1 h2
  cases hr : resNorm E s.dst with
  | none => rw [hr] at h1; cases h1
  | some r =>
    cases hr0 : resNorm E x0 with
    | none => rw [hr, hr0] at h2; cases h2
    | some r0 =>
      rw [hr] at h1
      rw [hr, hr0] at h2
      unfold ratio at h2
      dsimp only at h2
      by_cases hz : r0 = 0
      · rw [if_pos hz] at h2; cases h2
      · rw [if_neg hz] at h2
        exact ⟨r, r0, hr, hr0, hz, of_decide_eq_true h1, of_decide_eq_true h2⟩

private theorem continues_of_notYet {E : Env K V σ} {d : Data K} {x0 : V} {s : St K V σ} (hs : s.normR = resNorm E s.dst)
    (h : NotYet E d x0 s.dst) (hn : s.newton < d.maxIter) : continues d (resNorm E x0) s = true := by
  obtain ⟨r, r0, hr, hr0, hz, h1, h2⟩ := h
  unfold continues ratio
  rw [hs, hr, hr0]
  simp [hz, gt, h1, h2, hn]

private theorem updates_eq (a : Args) (n : Nat) (_h : ¬(a.update = true ∧ a.every = 0)) :
    (a.update && decide (n % a.every = 0)) = updates a n := by
  unfold updates
  congr 1
  exact decide_eq_decide.2 (Nat.dvd_iff_mod_eq_zero).symm

private theorem body_ok (E : Env K V σ) (tau : K) (max : Nat) (hm : 0 < max) (d : Data K) (a : Args) (s0 : σ) (x0 : V) (s : St K V σ)
    (hg : Good E tau max d a s0 x0 s) (hn : NotYet E d x0 s.dst) (hlt : s.newton < d.maxIter) (r : K) (hr : s.normR = some r) :
    match body E tau max a r s with
    | .done s' => Good E tau max d a s0 x0 s' ∧ s'.newton = s.newton + 1
    | .thrown w s' => w ≠ .tolerance ∧ Fails E tau max d a s0 x0 w s'
    | .ub => a.update = true ∧ a.every = 0 := by
  have hr' : resNorm E s.dst = some r := by rw [← hg.norm, hr]
  unfold body
  by_cases hz : a.update = true ∧ a.every = 0
  · rw [if_pos hz]; exact hz
  · rw [if_neg hz, updates_eq a _ hz, hg.res]
    cases hl : E.lin s.sol s.dst (E.neg (E.res s.dst)) (updates a s.newton) with
    | none =>
      dsimp only
      exact ⟨by simp, hg.path, hn, hlt, hl⟩
    | some z =>
      obtain ⟨sol, inc, its⟩ := z
      dsimp only
      obtain ⟨j, hj, hd, hbig, hend⟩ := damp_start E tau max r s.dst inc hr' hm
      rw [hd]
      dsimp only
      by_cases hlt' : SimpleNewton.lt (resNorm E (halved E s.dst inc j)) ((1 - tau * (1 / 2 ^ (j + 1))) * r) = true
      · rw [if_pos hlt']
        dsimp only
        refine ⟨⟨rfl, rfl, ?_⟩, rfl⟩
        refine .step _ _ s.sol s.dst _ inc its _ j hg.path hn hl ⟨hj, rfl, ?_, hbig⟩
        cases hh : resNorm E (halved E s.dst inc j) with
        | none => rw [hh] at hlt'; cases hlt'
        | some r' =>
          rw [hh] at hlt'
          exact ⟨r, r', hr', rfl, of_decide_eq_true hlt'⟩
      · rw [if_neg hlt']
        dsimp only
        refine ⟨by simp, s.sol, s.linear, inc, its, hg.path, hn, hlt, hl, rfl, ?_⟩
        cases hh : resNorm E (halved E s.dst inc j) with
        | none => exact ⟨j, hbig, .inl ⟨hj, hh⟩⟩
        | some r' =>
          rw [hh] at hlt' hend
          have hge : (1 - tau * (1 / 2 ^ (j + 1))) * r ≤ r' := by
            by_contra hcon
            exact hlt' (decide_eq_true (not_le.1 hcon))
          have : ¬j + 1 < max := fun h => hend ⟨decide_eq_true hge, h⟩
          refine ⟨j + 1, fun i hi => ?_, .inr (by omega)⟩
          rcases Nat.lt_or_ge i j with hi' | hi'
          · exact hbig i hi'
          · have : i = j := by omega
            subst this
            exact ⟨r, r', hr', hh, hge⟩

private theorem loop_ok (E : Env K V σ) (tau : K) (max : Nat) (hm : 0 < max) (d : Data K) (a : Args) (s0 : σ) (x0 : V) :
    ∀ (k : Nat) (s : St K V σ), Good E tau max d a s0 x0 s → s.newton + k = d.maxIter →
    match loop E tau max d a (resNorm E x0) k s with
    | .done s' => Good E tau max d a s0 x0 s' ∧ s'.newton ≤ d.maxIter ∧ continues d (resNorm E x0) s' = false
    | .thrown w s' => w ≠ .tolerance ∧ Fails E tau max d a s0 x0 w s'
    | .ub => a.update = true ∧ a.every = 0 ∧ NotYet E d x0 s.dst ∧ 0 < k
  | 0, s, hg, hk => by
    rw [loop]
    refine ⟨hg, by omega, ?_⟩
    unfold continues
    have : decide (s.newton < d.maxIter) = false := decide_eq_false (by omega)
    rw [this, Bool.and_false]
  | k + 1, s, hg, hk => by
    rw [loop]
    by_cases hc : continues d (resNorm E x0) s = true
    · rw [if_pos hc]
      obtain ⟨hn, hlt⟩ := notYet_of_continues hg.norm hc
      obtain ⟨r, r0, hr, -⟩ := hn
      have hr' : s.normR = some r := by rw [hg.norm, hr]
      rw [hr']
      dsimp only
      have hb := body_ok E tau max hm d a s0 x0 s hg (notYet_of_continues hg.norm hc).1 hlt r hr'
      cases hbo : body E tau max a r s with
      | done s' =>
        rw [hbo] at hb
        dsimp only at hb ⊢
        have hrec := loop_ok E tau max hm d a s0 x0 k s' hb.1 (by omega)
        cases hl : loop E tau max d a (resNorm E x0) k s' with
        | done s'' => rw [hl] at hrec; exact hrec
        | thrown w s'' => rw [hl] at hrec; exact hrec
        | ub =>
          rw [hl] at hrec
          exact ⟨hrec.1, hrec.2.1, (notYet_of_continues hg.norm hc).1, by omega⟩
      | thrown w s' => rw [hbo] at hb; exact hb
      | ub => rw [hbo] at hb; exact ⟨hb.1, hb.2, (notYet_of_continues hg.norm hc).1, by omega⟩
    · rw [if_neg hc]
      exact ⟨hg, by omega, by simpa using hc⟩

private theorem good_start (E : Env K V σ) (tau : K) (max : Nat) (d : Data K) (a : Args) (s0 : σ) (x0 : V) :
    Good E tau max d a s0 x0 ⟨x0, E.res x0, resNorm E x0, 0, 0, s0⟩ := ⟨rfl, rfl, .start⟩

/-- C109: on return a tolerance is met by the vector, which is reached by accepted steps only, as many as are counted, and before each of them
neither tolerance was met. -/
theorem C109_return (E : Env K V σ) (tau : K) (max : Nat) (hm : 0 < max) (d : Data K) (a : Args) (s0 : σ) (x0 : V) (s : St K V σ)
    (h : solve E tau max d a s0 x0 = .done s) :
    Met E d x0 s.dst ∧ s.newton ≤ d.maxIter ∧ Path E tau max d a s0 x0 s.newton s.linear s.sol s.dst := by
  unfold solve at h
  have hl := loop_ok E tau max hm d a s0 x0 d.maxIter _ (good_start E tau max d a s0 x0) (by simp)
  unfold resNorm at hl
  dsimp only at h
  cases ho : loop E tau max d a (E.norm (E.res x0)) d.maxIter ⟨x0, E.res x0, E.norm (E.res x0), 0, 0, s0⟩ with
  | ub => rw [ho] at h; cases h
  | thrown w s' => rw [ho] at h; cases h
  | done s' =>
    rw [ho] at h hl
    dsimp only at h hl
    by_cases hc : (SimpleNewton.le s'.normR d.absTol || SimpleNewton.le (ratio s'.normR (E.norm (E.res x0))) d.relTol) = true
    · rw [if_pos hc] at h
      injection h with h
      subst h
      refine ⟨?_, hl.2.1, hl.1.path⟩
      rw [hl.1.norm, Bool.or_eq_true] at hc
      cases hr : resNorm E s'.dst with
      | none =>
        rw [hr] at hc
        rcases hc with hc | hc <;> cases hc
      | some r =>
        refine ⟨r, hr, ?_⟩
        rw [hr] at hc
        rcases hc with hc | hc
        · exact .inl (of_decide_eq_true hc)
        · right
          cases hr0 : E.norm (E.res x0) with
          | none => rw [hr0] at hc; cases hc
          | some r0 =>
            rw [hr0] at hc
            unfold ratio at hc
            dsimp only at hc
            by_cases hz : r0 = 0
            · rw [if_pos hz] at hc; cases hc
            · rw [if_neg hz] at hc
              exact ⟨r0, hr0, hz, of_decide_eq_true hc⟩
    · rw [if_neg hc] at h; cases h

private theorem path_start_norm {E : Env K V σ} {tau : K} {max : Nat} {d : Data K} {a : Args} {s0 : σ} {x0 : V} {n l : Nat} {s : σ} {x : V}
    (h : Path E tau max d a s0 x0 n l s x) : x = x0 ∨ ∃ r r0, resNorm E x = some r ∧ resNorm E x0 = some r0 ∧ r0 ≠ 0 := by
  cases h with
  | start => exact .inl rfl
  | step n l s x s' inc its x' j h hn hl ha =>
    obtain ⟨r, r0, -, h0, hz, -⟩ := hn
    obtain ⟨-, -, ⟨-, r', -, h', -⟩, -⟩ := ha
    exact .inr ⟨r', r0, h', h0, hz⟩

/-- C109: what an exception means and what is left in the vector: the last point of accepted steps. -/
theorem C109_thrown (E : Env K V σ) (tau : K) (max : Nat) (hm : 0 < max) (d : Data K) (htol : 0 ≤ d.absTol) (a : Args) (s0 : σ) (x0 : V) (w : Why)
    (s : St K V σ) (h : solve E tau max d a s0 x0 = .thrown w s) : Fails E tau max d a s0 x0 w s := by
  unfold solve at h
  have hl := loop_ok E tau max hm d a s0 x0 d.maxIter _ (good_start E tau max d a s0 x0) (by simp)
  unfold resNorm at hl
  dsimp only at h
  cases ho : loop E tau max d a (E.norm (E.res x0)) d.maxIter ⟨x0, E.res x0, E.norm (E.res x0), 0, 0, s0⟩ with
  | ub => rw [ho] at h; cases h
  | thrown w' s' =>
    rw [ho] at h hl
    injection h with h1 h2
    subst h1; subst h2
    exact hl.2
  | done s' =>
    rw [ho] at h hl
    dsimp only at h hl
    by_cases hc : (SimpleNewton.le s'.normR d.absTol || SimpleNewton.le (ratio s'.normR (E.norm (E.res x0))) d.relTol) = true
    · rw [if_pos hc] at h; cases h
    · rw [if_neg hc] at h
      injection h with h1 h2
      subst h1; subst h2
      refine ⟨hl.1.path, ?_⟩
      rw [hl.1.norm, Bool.or_eq_true, not_or] at hc
      cases hr : resNorm E s'.dst with
      | none =>
        left
        rcases path_start_norm hl.1.path with hx | ⟨r, r0, h1, -⟩
        · rw [hx] at hr; exact ⟨hr, hx⟩
        · rw [hr] at h1; cases h1
      | some r =>
        right
        rw [hr] at hc
        have ha : d.absTol < r := by
          by_contra hcon
          exact hc.1 (decide_eq_true (not_lt.1 hcon))
        have hne : ∃ r0, E.norm (E.res x0) = some r0 ∧ r0 ≠ 0 := by
          rcases path_start_norm hl.1.path with hx | ⟨-, r0, -, h2, h3⟩
          · rw [hx] at hr
            exact ⟨r, hr, ne_of_gt (lt_of_le_of_lt htol ha)⟩
          · exact ⟨r0, h2, h3⟩
        obtain ⟨r0, h0, hz⟩ := hne
        rw [h0] at hc
        have hc2 := hc.2
        unfold ratio at hc2
        dsimp only at hc2
        rw [if_neg hz] at hc2
        have hrel : d.relTol < r / r0 := by
          by_contra hcon
          exact hc2 (decide_eq_true (not_lt.1 hcon))
        have hny : NotYet E d x0 s'.dst := ⟨r, r0, hr, h0, hz, ha, hrel⟩
        refine ⟨?_, hny⟩
        by_contra hne
        have := continues_of_notYet hl.1.norm hny (by omega)
        unfold resNorm at this
        rw [this] at hl
        exact absurd hl.2.2 (by simp)

/-- C109: undefined exactly if the preconditioner is to be updated every zero steps and a step is made. -/
theorem C109_undefined (E : Env K V σ) (tau : K) (max : Nat) (hm : 0 < max) (d : Data K) (a : Args) (s0 : σ) (x0 : V) :
    solve E tau max d a s0 x0 = .ub ↔ a.update = true ∧ a.every = 0 ∧ NotYet E d x0 x0 ∧ 0 < d.maxIter := by
  have hl := loop_ok E tau max hm d a s0 x0 d.maxIter _ (good_start E tau max d a s0 x0) (by simp)
  unfold resNorm at hl
  constructor
  · intro h
    unfold solve at h
    dsimp only at h
    cases ho : loop E tau max d a (E.norm (E.res x0)) d.maxIter ⟨x0, E.res x0, E.norm (E.res x0), 0, 0, s0⟩ with
    | ub => rw [ho] at hl; exact hl
    | thrown w' s' => rw [ho] at h; cases h
    | done s' =>
      rw [ho] at h
      dsimp only at h
      split_ifs at h
  · rintro ⟨h1, h2, h3, h4⟩
    unfold solve
    dsimp only
    obtain ⟨k, hk⟩ : ∃ k, d.maxIter = k + 1 := ⟨d.maxIter - 1, by omega⟩
    have hc := continues_of_notYet (E := E) (d := d) (x0 := x0) (s := ⟨x0, E.res x0, resNorm E x0, 0, 0, s0⟩) rfl h3 h4
    obtain ⟨r, -, hr, -⟩ := h3
    have hr' : E.norm (E.res x0) = some r := hr
    have : loop E tau max d a (E.norm (E.res x0)) d.maxIter ⟨x0, E.res x0, E.norm (E.res x0), 0, 0, s0⟩ = .ub := by
      rw [hk, loop]
      unfold resNorm at hc
      rw [if_pos hc]
      dsimp only
      rw [hr']
      dsimp only
      unfold body
      rw [if_pos ⟨h1, h2⟩]
    rw [this]

/-- C109: the norm of the residual decreases in every step. -/
theorem C109_decrease [IsStrictOrderedRing K] (E : Env K V σ) (tau : K) (ht : 0 ≤ tau) (max : Nat) (d : Data K) (htol : 0 ≤ d.absTol) (a : Args)
    (s0 : σ) (x0 : V) (n l : Nat) (s : σ) (x : V) (h : Path E tau max d a s0 x0 n l s x) (hn : 0 < n) :
    ∃ r r0, resNorm E x = some r ∧ resNorm E x0 = some r0 ∧ r < r0 := by
  induction h with
  | start => omega
  | step n l s x s' inc its x' j h hn' hl ha ih =>
    obtain ⟨r, r0, h1, h2, -, h3, -⟩ := hn'
    obtain ⟨-, -, ⟨ra, rb, ha1, ha2, ha3⟩, -⟩ := ha
    rw [h1] at ha1
    injection ha1 with ha1
    subst ha1
    have hpos : 0 < r := lt_of_le_of_lt htol h3
    have hlt : rb < r := by
      refine lt_of_lt_of_le ha3 ?_
      have : (1 - tau * (1 / 2 ^ (j + 1))) * r ≤ 1 * r := by
        refine mul_le_mul_of_nonneg_right ?_ (le_of_lt hpos)
        have : 0 ≤ tau * (1 / 2 ^ (j + 1)) := by positivity
        exact sub_le_self _ this
      rwa [one_mul] at this
    refine ⟨rb, r0, ha2, h2, ?_⟩
    rcases Nat.eq_zero_or_pos n with hz | hp
    · subst hz
      cases h
      rw [h1] at h2
      injection h2 with h2
      rw [← h2]; exact hlt
    · obtain ⟨r', r0', e1, e2, e3⟩ := ih hp
      rw [h1] at e1; rw [h2] at e2
      injection e1 with e1; injection e2 with e2
      subst e1; subst e2
      exact lt_trans hlt e3

end

/-! ## Examples -/

namespace Ex109

/-- x² = 2 with the exact tangent; the state counts the updates. -/
def env : Env ℚ ℚ Nat where
  res x := x * x - 2
  norm r := some |r|
  neg r := -r
  add x w i := x + w * i
  lin s x r u := if x = 0 then none else some (if u then s + 1 else s, r / (2 * x), 1)

def data : Data ℚ := ⟨10, 1 / 1000000, 1 / 1000⟩

/-- Outcome, vector, counts and number of updates. -/
def get : Out ℚ ℚ Nat → Option (Option Why × ℚ × Nat × Nat × Nat)
  | .done s => some (none, s.dst, s.newton, s.linear, s.sol)
  | .thrown w s => some (some w, s.dst, s.newton, s.linear, s.sol)
  | .ub => none

/-- Two steps: 1, 3/2, 17/12; the preconditioner is updated in the first one. -/
example : get (solve env (1 / 10) 100 ⟨10, 1 / 1000000, 1 / 100⟩ ⟨true, 2⟩ 0 1) = some (none, 17 / 12, 2, 2, 1) := by decide +kernel

/-- Two halvings: the increment is four times too large. -/
example : get (solve { env with lin := fun s x r _ => some (s, 4 * (r / (2 * x)), 1) } (1 / 10) 100 ⟨10, 1 / 1000000, 1 / 2⟩ ⟨true, 2⟩ 0 1) =
    some (none, 3 / 2, 1, 1, 0) := by decide +kernel

/-- No damping succeeds: the direction is wrong. -/
example : get (solve { env with lin := fun s _ r _ => some (s, -r, 1) } (1 / 10) 5 data ⟨true, 1⟩ 0 1) = some (some .damping, 1, 0, 1, 0) := by
  decide +kernel

/-- The linear solver throws. -/
example : get (solve env (1 / 10) 5 data ⟨true, 1⟩ 0 0) = some (some .linear, 0, 0, 0, 0) := by decide +kernel

/-- Too few steps. -/
example : get (solve env (1 / 10) 5 ⟨1, 1 / 1000000, 1 / 1000⟩ ⟨true, 1⟩ 0 1) = some (some .tolerance, 3 / 2, 1, 1, 1) := by decide +kernel

/-- Not a number at the start. -/
example : get (solve { env with norm := fun _ => none } (1 / 10) 5 data ⟨true, 1⟩ 0 1) = some (some .tolerance, 1, 0, 0, 0) := by decide +kernel

/-- Division by zero. -/
example : get (solve env (1 / 10) 5 data ⟨true, 0⟩ 0 1) = none := by decide +kernel

end Ex109

end Verif.Props
