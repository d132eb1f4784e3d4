/-
C149: the clamped bar.
-/
import Verif.Lemmas.ClampedBar
import Verif.Props.Newton
import Mathlib.Tactic.LinearCombination
import Mathlib.Algebra.Order.Ring.Rat
import Mathlib.Algebra.Field.Rat

namespace Verif.Props

open Verif.ClampedBar Verif.ClampedBar.Spec Verif.OpBase Verif.Structural Verif.Newton

section
variable {K : Type} [Field K] [LinearOrder K]

/-- Conditions attached by hand: whatever is prescribed, entries with conditions keep the values they had at the start, with every linear solver that
builds its result of vectors the operator was applied to. -/
theorem C149_kept {o : Operator K} {norm : Vec K → Fl K} {lin : Nat → Vec K → Vec K → Res (Vec K × Nat)} (hk : Krylov o.vmult lin) {histN histL fuel : Nat}
    {x : Vec K} {st : NState K (Vec K)} (h : solve (newton o norm lin) histN histL x fuel = some (.ok st)) {k : Nat × Nat} (hg : k ∈ o.given.keys) :
    st.dst k = x k := by
  refine loop_keeps (newton o norm lin) (fun v => v k = x k) ?_ fuel _ st rfl h
  intro st st' hp hi
  obtain ⟨y, n, hl, hd⟩ := iteration_dst o norm lin hi
  rw [hd]
  show st.dst k + (1 : K) • y k = x k
  rw [combination_zero (hk _ _ _ _ _ hl) hg, hp]
  simp

variable [IsStrictOrderedRing K]

/-- A prescribed value that is not small: the Newton method never returns, since the residual of the entry is the value itself. -/
theorem C149_inhomogeneous_violated {o : Operator K} {norm : Vec K → Fl K} {lin : Nat → Vec K → Vec K → Res (Vec K × Nat)}
    {k : Nat × Nat} (hn : ∀ v, ∃ y, norm v = .fin y ∧ 0 ≤ y ∧ |v k| ≤ y) (hg : k ∈ o.given.keys) (x : Vec K) {v0 : K}
    (hv : norm (o.residual x) = .fin v0) (h1 : 1 / 1000000000 < |o.given.value k|) (h2 : 1 / 1000000 * v0 < |o.given.value k|) (histN histL fuel : Nat) :
    ∀ st, solve (newton o norm lin) histN histL x fuel ≠ some (.ok st) := by
  intro st h
  have hn' : ∀ v y, (newton o norm lin).norm v = .fin y → 0 ≤ y := by
    intro v y hy
    obtain ⟨z, hz, hz0, -⟩ := hn v
    rw [show (newton o norm lin).norm = norm from rfl, hz] at hy
    cases hy; exact hz0
  obtain ⟨v, w, hr, hw, ht, -⟩ := C25_converged (S := newton o norm lin) (by intro f hf; cases hf) hn' h
  obtain ⟨z, hz, hz0, hk⟩ := hn (o.residual st.dst)
  rw [show (newton o norm lin).norm = norm from rfl, show (newton o norm lin).residual = o.residual from rfl, hz] at hr
  rw [show (newton o norm lin).norm = norm from rfl, show (newton o norm lin).residual = o.residual from rfl, hv] at hw
  cases hr; cases hw
  have h3 := hk
  rw [show o.residual st.dst k = o.given.value k by unfold Operator.residual; rw [writeAll_map, if_pos hg]] at h3
  rcases ht with ht | ⟨-, ht⟩
  · exact absurd (lt_of_lt_of_le h1 h3) (not_lt.2 ht)
  · exact absurd (lt_of_lt_of_le h2 h3) (not_lt.2 ht)

variable {b : Bar K} {norm : Vec K → Fl K}

/-- What is assumed of the bar and of the norm. -/
structure BarOk (b : Bar K) (norm : Vec K → Fl K) : Prop where
  stiff : Stiff b.dim b.nodes b.left b.A
  left : ∀ i ∈ b.left, i < b.nodes
  once : b.left.Nodup
  load : ∀ k, ¬ (k.1 < b.dim ∧ k.2 < b.nodes) → b.load k = 0
  diagonal : ∀ k, b.diagonal k ≠ 0
  solvable : ∃ w, Equilibrium b.dim b.nodes b.left b.A b.load w
  norm0 : norm (fun _ => 0) = .fin 0
  finite : ∀ v, ∃ y, norm v = .fin y ∧ 0 ≤ y

/-- The bar ends in equilibrium, no matter how the conditions are imposed and whether there is a matrix; or it stays as it is if the load is within
the absolute tolerance. -/
theorem C149_equilibrium (hb : BarOk b norm) (manual mb : Bool) {lin : Nat → Vec K → Vec K → Res (Vec K × Nat)}
    (hk : Krylov (b.operator manual mb).vmult lin) (he : Exact (b.operator manual mb).vmult lin) :
    ∃ u, b.run manual mb norm lin = some (.ok u) ∧
      ((∃ v, norm (b.clamp b.load) = .fin v ∧ v ≤ 1 / 1000000000) → u = fun _ => 0) ∧
      ((∃ v, norm (b.clamp b.load) = .fin v ∧ 1 / 1000000000 < v) → Equilibrium b.dim b.nodes b.left b.A b.load u) := by
  have hA0 : b.A (fun _ => 0) = fun _ => 0 := by
    have h := hb.stiff.add (fun _ => 0) (fun _ => 0)
    simp only [add_zero] at h
    funext k
    have := congrFun h k
    simpa using this
  have hc0 : b.clamp (fun _ => 0) = fun _ => (0 : K) := by funext k; unfold Bar.clamp; split <;> rfl
  have hr0 : (b.operator manual mb).residual (fun _ => 0) = b.clamp b.load := by
    rw [residual_eq hb.left hc0, hA0]; simp
  obtain ⟨v, hv, hv0⟩ := hb.finite (b.clamp b.load)
  have hstart : start (newton (b.operator manual mb) norm lin) 0 0 (fun _ => 0) =
      ⟨0, fun _ => 0, b.clamp b.load, .fin v, .fin 0, 0, 0, [], []⟩ := by
    unfold start
    simp only [show (newton (b.operator manual mb) norm lin).residual = (b.operator manual mb).residual from rfl, hr0,
      show (newton (b.operator manual mb) norm lin).norm = norm from rfl, hv]
    simp [newton]
  by_cases hs : v ≤ 1 / 1000000000
  · refine ⟨fun _ => 0, ?_, fun _ => rfl, fun ⟨w, hw, h⟩ => ?_⟩
    · unfold Bar.run solve
      rw [hstart]
      unfold loop
      have : check (newton (b.operator manual mb) norm lin) ⟨0, fun _ => 0, b.clamp b.load, .fin v, .fin 0, 0, 0, [], []⟩ =
          (⟨0, fun _ => 0, b.clamp b.load, .fin v, .fin v, 0, 0, [.fin v], []⟩, .success) := by
        unfold check statCheck
        have ha : (Fl.fin v).gt (1 / 1000000000 : K) = false := by
          simp only [Fl.gt, decide_eq_false_iff_not]; exact not_lt.2 hs
        have hc : (Fl.fin v).le (1 / 1000000000 : K) = true := by
          simp only [Fl.le, decide_eq_true_eq]; exact hs
        simp only [newton, ha, hc, Bool.false_and, Bool.true_or]
        rfl
      rw [this]
      rfl
    · rw [hv] at hw; cases hw; exact absurd h (not_lt.2 hs)
  · have hs' := not_le.1 hs
    -- the system can be solved
    obtain ⟨w, hw⟩ := hb.solvable
    have hcc : ∀ u, b.clamp (b.clamp u) = b.clamp u := by
      intro u; funext k; unfold Bar.clamp; split <;> rfl
    have hcz : ∀ u k, b.Clamped k → b.clamp u k = 0 := by
      intro u k hk; unfold Bar.clamp; rw [if_pos hk]
    have hcn : ∀ u k, ¬ b.Clamped k → b.clamp u k = u k := by
      intro u k hk; unfold Bar.clamp; rw [if_neg hk]
    have hAw : b.A (b.clamp w) = b.A w := by
      refine hb.stiff.only _ _ fun d hd i hi => ?_
      by_cases hc : b.Clamped (d, i)
      · rw [hcz _ _ hc, (hw d hd i hi).1 hc.2]
      · rw [hcn _ _ hc]
    have hsolv : ∃ y, ((b.operator manual mb).vmult y).2 = (-1 : K) • b.clamp b.load := by
      refine ⟨b.clamp w, ?_⟩
      rw [vmult_eq hb.left hb.once]
      funext k
      by_cases hc : b.Clamped k
      · simp only [hc, if_true, hcz _ _ hc, mul_zero, Pi.smul_apply, smul_zero, ite_self]
      · simp only [hc, if_false, hcc, hAw, Pi.smul_apply, hcn _ _ hc]
        by_cases hin : k.1 < b.dim ∧ k.2 < b.nodes
        · have := (hw k.1 hin.1 k.2 hin.2).2 (fun q => hc ⟨hin.1, q⟩)
          have h2 : b.A w k = - b.load k := by linear_combination this
          rw [h2]; simp
        · rw [hb.stiff.outside _ _ hin, hb.load _ hin]; simp
    obtain ⟨x, n, hlin, hx⟩ := he 0 (fun _ => 0) _ hsolv
    have hxc : ∀ k, b.Clamped k → x k = 0 := by
      intro k hc
      have h := congrFun hx k
      rw [vmult_eq hb.left hb.once] at h
      simp only [hc, if_true, Pi.smul_apply, hcz _ _ hc, smul_zero] at h
      cases manual
      · cases mb
        · simpa using h
        · simpa [hb.diagonal] using h
      · exact combination_zero (hk _ _ _ _ _ hlin) ((keys_manual hb.left k).2 hc)
    have hxx : b.clamp x = x := by
      funext k
      by_cases hc : b.Clamped k
      · rw [hcz _ _ hc, hxc k hc]
      · rw [hcn _ _ hc]
    have hAx : ∀ k, ¬ b.Clamped k → b.A x k + b.load k = 0 := by
      intro k hc
      have h := congrFun hx k
      rw [vmult_eq hb.left hb.once] at h
      simp only [hc, if_false, hxx, Pi.smul_apply, hcn _ _ hc] at h
      rw [h]; simp
    have hrx : (b.operator manual mb).residual x = fun _ => 0 := by
      rw [residual_eq hb.left hxx]
      funext k
      by_cases hc : b.Clamped k
      · rw [hcz _ _ hc]
      · rw [hcn _ _ hc, hAx k hc]
    refine ⟨x, ?_, fun ⟨z, hz, h⟩ => ?_, fun _ => ?_⟩
    · unfold Bar.run solve
      rw [hstart]
      have hv1 : ¬ v / v ≤ 1 / 1000000 := by
        rw [div_self (ne_of_gt (lt_trans (by positivity) hs'))]
        norm_num
      have hvne : v ≠ 0 := ne_of_gt (lt_trans (by positivity) hs')
      have h1 : check (newton (b.operator manual mb) norm lin) ⟨0, fun _ => 0, b.clamp b.load, .fin v, .fin 0, 0, 0, [], []⟩ =
          (⟨0, fun _ => 0, b.clamp b.load, .fin v, .fin v, 0, 0, [.fin v], []⟩, .iterate) := by
        unfold check statCheck
        have ha : (Fl.fin v).gt (1 / 1000000000 : K) = true := by simpa [Fl.gt] using hs'
        have hc : ((Fl.fin v).div (Fl.fin v)).gt (1 / 1000000 : K) = true := by
          simp only [Fl.div, if_neg hvne, Fl.gt, decide_eq_true_eq]
          exact not_le.1 hv1
        simp only [newton, if_true, ha, hc, Bool.true_and]
        rfl
      have h2 : iteration (newton (b.operator manual mb) norm lin) ⟨0, fun _ => 0, b.clamp b.load, .fin v, .fin v, 0, 0, [.fin v], []⟩ =
          .ok ⟨1, x, fun _ => 0, .fin 0, .fin v, 1, n, [.fin v], [0]⟩ := by
        unfold iteration
        rw [if_neg (show (newton (b.operator manual mb) norm lin).thresholdNewton ≠ 0 from by simp [newton])]
        dsimp only
        rw [show (newton (b.operator manual mb) norm lin).lin 0 (fun _ => 0) ((-1 : K) • b.clamp b.load) = .ok (x, n) from hlin]
        dsimp only
        rw [if_neg (show ¬ (newton (b.operator manual mb) norm lin).damping = true from by simp [newton])]
        have hx0 : ((fun _ => 0 : Vec K) + (1 : K) • x) = x := by funext k; simp
        rw [hx0, show (newton (b.operator manual mb) norm lin).residual x = fun _ => 0 from hrx,
          show (newton (b.operator manual mb) norm lin).norm (fun _ => 0) = .fin 0 from hb.norm0]
        simp [newton]
      have h3 : check (newton (b.operator manual mb) norm lin) ⟨1, x, fun _ => 0, .fin 0, .fin v, 1, n, [.fin v], [0]⟩ =
          (⟨1, x, fun _ => 0, .fin 0, .fin v, 1, n, [.fin 0, .fin v], [0]⟩, .success) := by
        unfold check statCheck
        have ha : (Fl.fin (0 : K)).gt (1 / 1000000000 : K) = false := by
          simp only [Fl.gt, decide_eq_false_iff_not]; exact not_lt.2 (by positivity)
        have hc : (Fl.fin (0 : K)).le (1 / 1000000000 : K) = true := by
          simp only [Fl.le, decide_eq_true_eq]; positivity
        simp only [newton, ha, hc, Bool.false_and, Bool.true_or]
        rfl
      unfold loop
      rw [h1]
      dsimp only
      rw [h2]
      dsimp only
      unfold loop
      rw [h3]
      rfl
    · rw [hv] at hz; cases hz; exact absurd h hs
    · intro d hd i hi
      exact ⟨fun hm => hxc _ ⟨hd, hm⟩, fun hm => hAx _ (fun q => hm q.2)⟩

/-- Equilibrium is unique: all four ways of running the bar give the same displacement of the nodes. -/
theorem C149_same (hb : BarOk b norm) (m mb m' mb' : Bool) {lin lin' : Nat → Vec K → Vec K → Res (Vec K × Nat)}
    (hk : Krylov (b.operator m mb).vmult lin) (he : Exact (b.operator m mb).vmult lin)
    (hk' : Krylov (b.operator m' mb').vmult lin') (he' : Exact (b.operator m' mb').vmult lin') :
    ∃ u u', b.run m mb norm lin = some (.ok u) ∧ b.run m' mb' norm lin' = some (.ok u') ∧ ∀ d < b.dim, ∀ i < b.nodes, u (d, i) = u' (d, i) := by
  obtain ⟨u, h1, h2, h3⟩ := C149_equilibrium hb m mb hk he
  obtain ⟨u', h1', h2', h3'⟩ := C149_equilibrium hb m' mb' hk' he'
  refine ⟨u, u', h1, h1', ?_⟩
  obtain ⟨v, hv, -⟩ := hb.finite (b.clamp b.load)
  by_cases hs : v ≤ 1 / 1000000000
  · rw [h2 ⟨v, hv, hs⟩, h2' ⟨v, hv, hs⟩]; intros; rfl
  · have e := h3 ⟨v, hv, not_le.1 hs⟩
    have e' := h3' ⟨v, hv, not_le.1 hs⟩
    have hd := hb.stiff.definite (fun k => u k + - u' k) ?_
    · intro d hd' i hi
      have := hd d hd' i hi
      linear_combination this
    · intro d hd i hi
      refine ⟨fun hm => ?_, fun hm => ?_⟩
      · show u (d, i) + - u' (d, i) = 0
        rw [(e d hd i hi).1 hm, (e' d hd i hi).1 hm]; simp
      · rw [hb.stiff.add, hb.stiff.neg]
        have := (e d hd i hi).2 hm
        have := (e' d hd i hi).2 hm
        show b.A u (d, i) + - b.A u' (d, i) = 0
        linear_combination (e d hd i hi).2 hm - (e' d hd i hi).2 hm

end

namespace Ex149

/-- One spring between two nodes, the first one clamped, pulled at the second one. -/
def bar : Bar ℚ where
  dim := 1
  nodes := 2
  left := [0]
  A u := fun k => if k = (0, 0) then u (0, 0) - u (0, 1) else if k = (0, 1) then u (0, 1) - u (0, 0) else 0
  load := fun k => if k = (0, 1) then -1 / 2 else 0
  diagonal := fun _ => 1

def norm (v : Vec ℚ) : Fl ℚ := .fin (|v (0, 0)| + |v (0, 1)|)

/-- The solver. -/
def lin (m : Bool) (_ : Nat) (_ b : Vec ℚ) : Res (Vec ℚ × Nat) :=
  .ok (fun k => if k = (0, 1) then b (0, 1) else if k = (0, 0) ∧ m = false then b (0, 0) else 0, 1)

theorem clamped (k : Nat × Nat) : bar.Clamped k ↔ k = (0, 0) := by
  obtain ⟨d, i⟩ := k
  simp [Bar.Clamped, bar]

theorem ok : BarOk bar norm where
  stiff := by
    refine ⟨?_, ?_, ?_, ?_, ?_⟩
    · intro u v; funext k; simp only [bar]; split
      · ring
      · split <;> ring
    · intro u; funext k; simp only [bar]; split
      · ring
      · split <;> ring
    · intro u v h
      have h0 := h 0 (by decide) 0 (by decide)
      have h1 := h 0 (by decide) 1 (by decide)
      funext k; simp only [bar, h0, h1]
    · rintro u ⟨d, i⟩ hk
      have : (d, i) ≠ (0, 0) ∧ (d, i) ≠ (0, 1) := by
        simp only [bar, not_and, Nat.not_lt, Nat.lt_one_iff] at hk
        constructor <;> (intro h; cases h; have := hk rfl; omega)
      simp [bar, this.1, this.2]
    · intro u h d hd i hi
      have h0 := (h 0 (by decide) 0 (by decide)).1 (by decide)
      have h1 := (h 0 (by decide) 1 (by decide)).2 (by decide)
      have hd : d = 0 := by simpa [bar] using hd
      have hi : i = 0 ∨ i = 1 := by simp only [bar] at hi; omega
      subst hd
      have h2 : u (0, 1) - u (0, 0) = 0 := h1
      rcases hi with rfl | rfl
      · exact h0
      · rw [h0] at h2; simpa using h2
  left := by decide
  once := by decide
  load := by
    rintro ⟨d, i⟩ hk
    have : (d, i) ≠ (0, 1) := by
      simp only [bar, not_and, Nat.not_lt, Nat.lt_one_iff] at hk
      intro h; cases h; have := hk rfl; omega
    simp [bar, this]
  diagonal := by intro k; simp [bar]
  solvable := by
    refine ⟨fun k => if k = (0, 1) then 1 / 2 else 0, ?_⟩
    intro d hd i hi
    have hd : d = 0 := by simpa [bar] using hd
    have hi : i = 0 ∨ i = 1 := by simp only [bar] at hi; omega
    subst hd
    rcases hi with rfl | rfl
    · simp [bar]
    · refine ⟨by simp [bar], fun _ => ?_⟩
      simp only [bar]; norm_num
  norm0 := by simp [norm]
  finite := fun v => ⟨_, rfl, by positivity⟩

theorem clamp_eq {x : Vec ℚ} (h : x (0, 0) = 0) : bar.clamp x = x := by
  funext k
  unfold Bar.clamp
  simp only [clamped]
  split
  · next hk => rw [hk, h]
  · rfl

theorem krylov (m mb : Bool) : Krylov (bar.operator m mb).vmult (lin m) := by
  intro it u b x n h
  simp only [lin, Res.ok.injEq, Prod.mk.injEq] at h
  obtain ⟨rfl, -⟩ := h
  refine ⟨[(1, fun k => if k = (0, 1) then b (0, 1) else if k = (0, 0) ∧ m = false then b (0, 0) else 0)], ?_⟩
  funext k
  simp only [List.map_cons, List.map_nil, List.sum_cons, List.sum_nil, add_zero, one_mul]
  rw [vmult_fst (by decide) (by decide)]
  cases m
  · simp
  · rw [if_pos rfl, clamp_eq (by simp)]

theorem exact (m mb : Bool) : Exact (bar.operator m mb).vmult (lin m) := by
  rintro it u b ⟨y, rfl⟩
  refine ⟨_, _, rfl, ?_⟩
  rw [vmult_eq (by decide) (by decide), vmult_eq (by decide) (by decide)]
  have hd : ∀ k, bar.diagonal k = 1 := fun _ => rfl
  have hA : ∀ u k, bar.A u k = if k = (0, 0) then u (0, 0) - u (0, 1) else if k = (0, 1) then u (0, 1) - u (0, 0) else 0 := fun _ _ => rfl
  funext k
  by_cases h0 : k = (0, 0)
  · subst h0
    cases m <;> cases mb <;> simp [clamped, hd]
  · by_cases h1 : k = (0, 1)
    · subst h1
      simp [clamped, hA, Bar.clamp]
    · simp [clamped, hA, h0, h1]

/-- The end of the spring moves by one half. -/
example (m mb : Bool) : ∃ u, bar.run m mb norm (lin m) = some (.ok u) ∧ u (0, 0) = 0 ∧ u (0, 1) = 1 / 2 := by
  obtain ⟨u, h, -, he⟩ := C149_equilibrium ok m mb (krylov m mb) (exact m mb)
  have he := he ⟨1 / 2, by unfold norm Bar.clamp; simp only [clamped]; simp [bar]; norm_num, by norm_num⟩
  refine ⟨u, h, (he 0 (by decide) 0 (by decide)).1 (by decide), ?_⟩
  have h0 := (he 0 (by decide) 0 (by decide)).1 (by decide)
  have h1 : u (0, 1) - u (0, 0) + -1 / 2 = 0 := (he 0 (by decide) 1 (by decide)).2 (by decide)
  rw [h0] at h1
  linear_combination h1

/-- The same with the first node pulled by one instead of clamped. -/
def pulled : Operator ℚ := { bar.operator true false with given := attach 1 2 fun _ i => if i = 0 then some 1 else none }

theorem pulled_keys : (0, 0) ∈ pulled.given.keys := by
  show (0, 0) ∈ (attach 1 2 fun _ i => if i = 0 then some (1 : ℚ) else none).keys
  rw [mem_attach]; decide

/-- There is no result, whatever the linear solver does, although moving the first node by one and the second one by one and a half is an equilibrium. -/
example (lin : Nat → Vec ℚ → Vec ℚ → Res (Vec ℚ × Nat)) (fuel : Nat) :
    ∀ st, solve (newton pulled norm lin) 0 0 (fun _ => 0) fuel ≠ some (.ok st) := by
  have hv : pulled.given.value (0, 0) = 1 := by simp [pulled, attach]
  have hr : pulled.residual (fun _ => 0) (0, 0) = 1 ∧ pulled.residual (fun _ => 0) (0, 1) = -1 / 2 := by
    constructor
    · unfold Operator.residual; rw [writeAll_map, if_pos pulled_keys, hv]
    · have : (0, 1) ∉ pulled.given.keys := by
        show (0, 1) ∉ (attach 1 2 fun _ i => if i = 0 then some (1 : ℚ) else none).keys
        rw [mem_attach]; decide
      unfold Operator.residual; rw [writeAll_map, if_neg this]
      simp [Operator.read, pulled, Bar.operator, blockKeys, bar]
  refine C149_inhomogeneous_violated (k := (0, 0)) (fun v => ⟨_, rfl, by positivity, by simp⟩) pulled_keys _ rfl ?_ ?_ 0 0 fuel
  · rw [hv]; norm_num
  · rw [hv, hr.1, hr.2]; norm_num

/-- Entries keep what they had: the bar started with the clamped node at 3 ends with it at 3. -/
example {fuel : Nat} {st : NState ℚ (Vec ℚ)} (h : solve (newton (bar.operator true false) norm (lin true)) 0 0 (fun _ => 3) fuel = some (.ok st)) :
    st.dst (0, 0) = 3 :=
  C149_kept (krylov true false) h ((keys_manual (by decide) _).2 ((clamped _).2 rfl))

end Ex149

end Verif.Props
