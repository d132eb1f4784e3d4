import Verif.Model.Newton
import Mathlib.Tactic.Linarith
import Mathlib.Algebra.Order.Ring.Rat
import Mathlib.Algebra.Field.Rat
import Mathlib.Algebra.Module.Rat
/-! # Nonlinear solver: C25 -/
set_option linter.unusedSectionVars false
namespace Verif.Props
open Verif Verif.Newton
variable {K V : Type} [Field K] [LinearOrder K] [AddCommGroup V] [Module K V]

/-- `check_iteration_status` is absent or, as the one installed for this solver
(time_marching.h:330-340), always reports success. -/
def UserOk (S : Solver K V) : Prop := ∀ f, S.user = some f → ∀ a b c d, f a b c d = .success

private theorem check_eq {S : Solver K V} (hu : UserOk S) (st : NState K V) :
    check S st = ({ st with v0 := if st.it = 0 then st.norm else st.v0, log := st.norm :: st.log },
      statCheck S st.it st.norm (if st.it = 0 then st.norm else st.v0)) := by
  unfold check
  cases hs : S.user with
  | none => rfl
  | some f =>
    dsimp only
    rw [hu f hs]
    generalize statCheck S st.it st.norm (if st.it = 0 then st.norm else st.v0) = s
    cases s <;> simp

private theorem statCheck_iterate {S : Solver K V} {k : Nat} {v v0 : Fl K}
    (h : statCheck S k v v0 = .iterate) :
    v.gt S.absTol = true ∧ (v.div v0).gt S.relTol = true ∧ k < S.maxIter := by
  unfold statCheck at h
  split at h
  · rename_i hc; simpa [and_assoc] using hc
  · split at h <;> cases h

private theorem statCheck_success {S : Solver K V} {k : Nat} {v v0 : Fl K}
    (h : statCheck S k v v0 = .success) : v.le S.absTol = true ∨ (v.div v0).le S.relTol = true := by
  unfold statCheck at h
  split at h
  · cases h
  · split at h
    · rename_i hc; simpa using hc
    · cases h

/-- state before a check -/
private structure NInv (S : Solver K V) (x : V) (st : NState K V) : Prop where
  res : st.res = S.residual st.dst
  norm : st.norm = S.norm st.res
  len : st.log.length = st.it
  max : st.it ≤ S.maxIter
  zero : st.it = 0 → st.dst = x
  first : 0 < st.it → st.v0 = S.norm (S.residual x) ∧ st.log.getLast? = some st.v0 ∧
    ∃ a, st.v0 = .fin a ∧ a ≠ 0
  nonan : ∀ a ∈ st.log, a ≠ .nan
  decr : S.damping = true → (st.norm :: st.log).Pairwise (fun a b => a.lt b = true)

private theorem ge_false_lt {a b : Fl K} (hb : ∃ y, b = .fin y) (h : a.lt b = true) :
    ∃ x y, a = .fin x ∧ b = .fin y ∧ x < y := by
  obtain ⟨y, rfl⟩ := hb
  cases a with
  | fin x => exact ⟨x, y, rfl, rfl, by simpa [Fl.lt] using h⟩
  | inf => cases h
  | nan => cases h

private theorem flt_trans {a b c : Fl K} (h1 : a.lt b = true) (h2 : b.lt c = true) :
    a.lt c = true := by
  cases a <;> cases b <;> cases c <;> simp_all [Fl.lt]
  exact lt_trans h1 h2

private theorem damp_omega [IsStrictOrderedRing K] (S : Solver K V) (dst inc : V) (nrm : Fl K) :
    ∀ (n : Nat) (omega : K), 0 < omega → omega ≤ 1 →
      let d := damp S dst inc nrm n omega
      0 < d.2.2.2 ∧ d.2.2.2 ≤ 1 ∧ d.2.1 = S.residual d.1 ∧ d.2.2.1 = S.norm d.2.1 := by
  intro n
  induction n with
  | zero =>
    intro omega h1 h2
    simp only [damp]
    exact ⟨by linarith, by linarith, trivial, trivial⟩
  | succ n ih =>
    intro omega h1 h2
    simp only [damp]
    split_ifs with h
    · exact ih (omega / 2) (by linarith) (by linarith)
    · exact ⟨by linarith, by linarith, rfl, rfl⟩

variable [IsStrictOrderedRing K]

private theorem iteration_inv {S : Solver K V} {x : V} {st st' : NState K V}
    (hn : ∀ v y, S.norm v = .fin y → 0 ≤ y) (hi : NInv S x st)
    (hs : statCheck S st.it st.norm (if st.it = 0 then st.norm else st.v0) = .iterate)
    (h : iteration S { st with v0 := if st.it = 0 then st.norm else st.v0, log := st.norm :: st.log }
      = .ok st') : NInv S x st' ∧ st'.it = st.it + 1 := by
  obtain ⟨c1, c2, c3⟩ := statCheck_iterate hs
  have hv0 : ∃ a, (if st.it = 0 then st.norm else st.v0) = .fin a ∧ a ≠ 0 := by
    by_cases h0 : st.it = 0
    · rw [if_pos h0] at c2 ⊢
      cases hN : st.norm with
      | fin a =>
        refine ⟨a, rfl, fun ha => ?_⟩
        rw [hN, ha] at c2
        simp [Fl.div, Fl.gt] at c2
      | inf => rw [hN] at c2; simp [Fl.div, Fl.gt] at c2
      | nan => rw [hN] at c2; simp [Fl.div, Fl.gt] at c2
    · rw [if_neg h0]
      exact (hi.first (by omega)).2.2
  have hfirst : (if st.it = 0 then st.norm else st.v0) = S.norm (S.residual x) ∧
      (st.norm :: st.log).getLast? = some (if st.it = 0 then st.norm else st.v0) := by
    by_cases h0 : st.it = 0
    · rw [if_pos h0]
      refine ⟨by rw [hi.norm, hi.res, hi.zero h0], ?_⟩
      have : st.log = [] := List.length_eq_zero_iff.1 (by rw [hi.len, h0])
      rw [this]; rfl
    · rw [if_neg h0]
      obtain ⟨h1, h2, _⟩ := hi.first (by omega)
      refine ⟨h1, ?_⟩
      have hne : st.log ≠ [] := by intro e; rw [e] at h2; cases h2
      rw [List.getLast?_cons_of_ne_nil hne, h2]
  have hnn : ∀ a ∈ st.norm :: st.log, a ≠ .nan := by
    intro a ha
    rcases List.mem_cons.1 ha with rfl | ha
    · intro e; rw [e] at c1; cases c1
    · exact hi.nonan a ha
  unfold iteration at h
  split at h
  · cases h
  · dsimp only at h
    split at h
    · rename_i inc nl hlin
      by_cases hd : S.damping = true
      · rw [if_pos hd] at h
        obtain ⟨o1, o2, o3, o4⟩ := damp_omega S st.dst inc st.norm 99 1 one_pos le_rfl
        split at h
        · rename_i hlt
          obtain rfl := Res.ok.inj h
          refine ⟨⟨o3, by rw [o4], by simp [hi.len], Nat.succ_le_of_lt c3, by simp, ?_, hnn, ?_⟩, rfl⟩
          · intro _; exact ⟨hfirst.1, hfirst.2, hv0⟩
          · intro _
            dsimp only
            refine List.Pairwise.cons ?_ (hi.decr hd)
            have hlast : (damp S st.dst inc st.norm 99 1).2.2.1.lt st.norm = true := by
              cases hN : st.norm with
              | fin y =>
                rw [hN] at hlt
                simp only [Fl.scale] at hlt
                rw [hN] at o1 o2
                obtain ⟨a, b, ha, hb, hab⟩ := ge_false_lt ⟨_, rfl⟩ hlt
                have hy : 0 ≤ y := hn _ _ (by rw [← hi.norm]; exact hN)
                simp only [Fl.fin.injEq] at hb
                rw [ha]
                simp only [Fl.lt, decide_eq_true_eq]
                have : 0 ≤ 1 / 10 * (damp S st.dst inc (Fl.fin y) 99 1).2.2.2 * y :=
                  mul_nonneg (mul_nonneg (by norm_num) o1.le) hy
                nlinarith
              | inf =>
                rw [hN] at hlt
                simpa [Fl.scale] using hlt
              | nan => exact absurd hN (hnn _ (List.mem_cons_self ..))
            intro b hb
            rcases List.mem_cons.1 hb with rfl | hb
            · exact hlast
            · exact flt_trans hlast (List.rel_of_pairwise_cons (hi.decr hd) hb)
        · cases h
      · rw [if_neg hd] at h
        obtain rfl := Res.ok.inj h
        refine ⟨⟨rfl, rfl, by simp [hi.len], Nat.succ_le_of_lt c3, by simp, ?_, hnn,
          fun hd' => absurd hd' hd⟩, rfl⟩
        intro _; exact ⟨hfirst.1, hfirst.2, hv0⟩
    · cases h
    · cases h

private theorem loop_ok {S : Solver K V} {x : V} (hu : UserOk S)
    (hn : ∀ v y, S.norm v = .fin y → 0 ≤ y) :
    ∀ (fuel : Nat) (st st' : NState K V), NInv S x st → loop S fuel st = some (.ok st') →
      ∃ v v0, S.norm (S.residual st'.dst) = .fin v ∧ S.norm (S.residual x) = .fin v0 ∧
        (v ≤ S.absTol ∨ (0 < v0 ∧ v ≤ S.relTol * v0)) ∧ st'.it ≤ S.maxIter ∧
        st'.log.length = st'.it + 1 ∧ st'.log.head? = some (.fin v) ∧
        st'.log.getLast? = some (.fin v0) ∧
        (∀ a ∈ st'.log, a ≠ .nan) ∧
        (S.damping = true → st'.log.Pairwise (fun a b => a.lt b = true)) := by
  intro fuel
  induction fuel with
  | zero =>
    intro st st' hi h
    unfold loop at h
    rw [check_eq hu] at h
    cases hs : statCheck S st.it st.norm (if st.it = 0 then st.norm else st.v0) with
    | iterate => rw [hs] at h; cases h
    | failure => rw [hs] at h; cases h
    | success =>
      rw [hs] at h
      exact done hi hs (by simpa using h)
  | succ fuel ih =>
    intro st st' hi h
    unfold loop at h
    rw [check_eq hu] at h
    cases hs : statCheck S st.it st.norm (if st.it = 0 then st.norm else st.v0) with
    | iterate =>
      rw [hs] at h
      dsimp only at h
      split at h
      · rename_i st2 hit
        exact ih st2 st' (iteration_inv hn hi hs hit).1 h
      · cases h
      · cases h
    | failure => rw [hs] at h; cases h
    | success =>
      rw [hs] at h
      exact done hi hs (by simpa using h)
where
  done {st st' : NState K V} (hi : NInv S x st)
      (hs : statCheck S st.it st.norm (if st.it = 0 then st.norm else st.v0) = .success)
      (h : ({ st with v0 := if st.it = 0 then st.norm else st.v0, log := st.norm :: st.log }
        : NState K V) = st') :
      ∃ v v0, S.norm (S.residual st'.dst) = .fin v ∧ S.norm (S.residual x) = .fin v0 ∧
        (v ≤ S.absTol ∨ (0 < v0 ∧ v ≤ S.relTol * v0)) ∧ st'.it ≤ S.maxIter ∧
        st'.log.length = st'.it + 1 ∧ st'.log.head? = some (.fin v) ∧
        st'.log.getLast? = some (.fin v0) ∧
        (∀ a ∈ st'.log, a ≠ .nan) ∧
        (S.damping = true → st'.log.Pairwise (fun a b => a.lt b = true)) := by
    subst h
    dsimp only
    have hc := statCheck_success hs
    have hv : ∃ v v0, st.norm = .fin v ∧ (if st.it = 0 then st.norm else st.v0) = .fin v0 := by
      by_cases h0 : st.it = 0
      · rw [if_pos h0] at hc ⊢
        cases hN : st.norm with
        | fin v => exact ⟨v, v, rfl, rfl⟩
        | inf => rw [hN] at hc; simp [Fl.div, Fl.le] at hc
        | nan => rw [hN] at hc; simp [Fl.div, Fl.le] at hc
      · rw [if_neg h0] at hc ⊢
        obtain ⟨_, _, a, ha, _⟩ := hi.first (by omega)
        rw [ha] at hc ⊢
        cases hN : st.norm with
        | fin v => exact ⟨v, a, rfl, rfl⟩
        | inf => rw [hN] at hc; simp [Fl.div, Fl.le] at hc
        | nan => rw [hN] at hc; simp [Fl.div, Fl.le] at hc
    obtain ⟨v, v0, e1, e2⟩ := hv
    have hx : S.norm (S.residual x) = .fin v0 := by
      rw [← e2]
      by_cases h0 : st.it = 0
      · rw [if_pos h0, hi.norm, hi.res, hi.zero h0]
      · rw [if_neg h0, (hi.first (by omega)).1]
    refine ⟨v, v0, by rw [← e1, hi.norm, hi.res], hx, ?_, hi.max, by simp [hi.len], by simp [e1], ?_, ?_,
      hi.decr⟩
    · rw [e2, e1] at hc
      rcases hc with hc | hc
      · left; simpa [Fl.le] using hc
      · right
        by_cases hz : v0 = 0
        · simp only [Fl.div, if_pos hz] at hc
          split at hc <;> cases hc
        · have hpos : 0 < v0 := lt_of_le_of_ne (hn _ _ hx) (Ne.symm hz)
          simp only [Fl.div, if_neg hz, Fl.le, decide_eq_true_eq] at hc
          exact ⟨hpos, (div_le_iff₀ hpos).1 hc⟩
    · rw [← e2]
      by_cases h0 : st.it = 0
      · have : st.log = [] := List.length_eq_zero_iff.1 (by rw [hi.len, h0])
        rw [this, if_pos h0]; rfl
      · obtain ⟨h1, h2, _⟩ := hi.first (by omega)
        have hne : st.log ≠ [] := by intro e; rw [e] at h2; cases h2
        rw [List.getLast?_cons_of_ne_nil hne, h2, if_neg h0]
    · intro a ha
      rcases List.mem_cons.1 ha with rfl | ha
      · rw [e1]; intro e; cases e
      · exact hi.nonan a ha

private theorem start_inv (S : Solver K V) (hN hL : Nat) (x : V) : NInv S x (start S hN hL x) :=
  ⟨rfl, rfl, rfl, Nat.zero_le _, fun _ => rfl, fun h => absurd h (lt_irrefl 0), by simp [start],
    fun _ => by simp [start]⟩

/-- If the solver returns, the residual of the returned solution is finite and satisfies the absolute
tolerance or the relative tolerance with respect to the residual of the initial guess; at most the
maximum number of iterations was performed; no residual on the way was not-a-number. -/
theorem C25_converged {S : Solver K V} (hu : UserOk S) (hn : ∀ v y, S.norm v = .fin y → 0 ≤ y)
    {histN histL fuel : Nat} {x : V} {st : NState K V}
    (h : solve S histN histL x fuel = some (.ok st)) :
    ∃ v v0, S.norm (S.residual st.dst) = .fin v ∧ S.norm (S.residual x) = .fin v0 ∧
      (v ≤ S.absTol ∨ (0 < v0 ∧ v ≤ S.relTol * v0)) ∧ st.it ≤ S.maxIter ∧
      st.log.length = st.it + 1 ∧ st.log.head? = some (.fin v) ∧ st.log.getLast? = some (.fin v0) ∧
      (∀ a ∈ st.log, a ≠ .nan) := by
  obtain ⟨v, v0, h1, h2, h3, h4, h5, h6, h7, h8, _⟩ :=
    loop_ok hu hn fuel _ st (start_inv S histN histL x) h
  exact ⟨v, v0, h1, h2, h3, h4, h5, h6, h7, h8⟩

/-- With damping the residual norms strictly decrease from check to check (`log` is newest first). -/
theorem C25_decreasing {S : Solver K V} (hu : UserOk S) (hn : ∀ v y, S.norm v = .fin y → 0 ≤ y)
    (hd : S.damping = true) {histN histL fuel : Nat} {x : V} {st : NState K V}
    (h : solve S histN histL x fuel = some (.ok st)) :
    st.log.Pairwise (fun a b => a.lt b = true) := by
  obtain ⟨v, v0, _, _, _, _, _, _, _, _, h9⟩ :=
    loop_ok hu hn fuel _ st (start_inv S histN histL x) h
  exact h9 hd

private theorem loop_total {S : Solver K V} {x : V} (hu : UserOk S)
    (hn : ∀ v y, S.norm v = .fin y → 0 ≤ y) (ht : 0 < S.thresholdNewton)
    (hl : ∀ i u r, S.lin i u r ≠ .ub) :
    ∀ (fuel : Nat) (st : NState K V), NInv S x st → S.maxIter ≤ st.it + fuel →
      ∃ r, loop S fuel st = some r ∧ r ≠ .ub := by
  intro fuel
  induction fuel with
  | zero =>
    intro st hi hf
    unfold loop
    rw [check_eq hu]
    cases hs : statCheck S st.it st.norm (if st.it = 0 then st.norm else st.v0) with
    | iterate =>
      exfalso
      have := (statCheck_iterate hs).2.2
      omega
    | failure => exact ⟨_, rfl, by simp⟩
    | success => exact ⟨_, rfl, by simp⟩
  | succ fuel ih =>
    intro st hi hf
    unfold loop
    rw [check_eq hu]
    cases hs : statCheck S st.it st.norm (if st.it = 0 then st.norm else st.v0) with
    | iterate =>
      dsimp only
      split
      · rename_i st2 hit
        obtain ⟨i1, i2⟩ := iteration_inv hn hi hs hit
        exact ih st2 i1 (by omega)
      · exact ⟨_, rfl, by simp⟩
      · rename_i hit
        exfalso
        unfold iteration at hit
        rw [if_neg (by omega)] at hit
        dsimp only at hit
        split at hit
        · split at hit
          · split at hit <;> cases hit
          · cases hit
        · cases hit
        · rename_i h; exact hl _ _ _ h
    | failure => exact ⟨_, rfl, by simp⟩
    | success => exact ⟨_, rfl, by simp⟩

/-- The solver always ends within the maximum number of iterations, by returning or by an exception;
together with `C25_converged`: in all cases that are not converged an exception is raised. -/
theorem C25_total {S : Solver K V} (hu : UserOk S) (hn : ∀ v y, S.norm v = .fin y → 0 ≤ y)
    (ht : 0 < S.thresholdNewton) (hl : ∀ i u r, S.lin i u r ≠ .ub) (histN histL : Nat) (x : V) :
    ∃ r, solve S histN histL x S.maxIter = some r ∧ ((∃ st, r = .ok st) ∨ ∃ e, r = .exc e) := by
  obtain ⟨r, h1, h2⟩ := loop_total hu hn ht hl S.maxIter _ (start_inv S histN histL x) (by omega)
  refine ⟨r, h1, ?_⟩
  cases r with
  | ok st => exact Or.inl ⟨st, rfl⟩
  | exc e => exact Or.inr ⟨e, rfl⟩
  | ub => exact absurd rfl h2

/-- A residual that is not finite at the initial guess raises the exception at once. -/
theorem C25_nan {S : Solver K V} (hu : UserOk S) (histN histL fuel : Nat) (x : V)
    (h : S.norm (S.residual x) = .nan ∨ S.norm (S.residual x) = .inf) :
    solve S histN histL x fuel = some (.exc .newtonDidNotConverge) := by
  unfold solve loop
  rw [check_eq hu]
  have : statCheck S (start S histN histL x).it (start S histN histL x).norm
      (if (start S histN histL x).it = 0 then (start S histN histL x).norm
        else (start S histN histL x).v0) = .failure := by
    simp only [start, if_true]
    unfold statCheck
    rcases h with h | h <;> rw [h] <;> simp [Fl.div, Fl.gt, Fl.le]
  rw [this]

/-- With the parameter `newton_threshold_newton_iter` set to zero the first iteration divides by
zero. -/
theorem C25_zero_threshold_ub {S : Solver K V} (hu : UserOk S) (h0 : S.thresholdNewton = 0)
    (histN histL fuel : Nat) (x : V) (v : K) (hv : S.norm (S.residual x) = .fin v) (hv0 : v ≠ 0)
    (ha : S.absTol < v) (hr : S.relTol < 1) (hm : 0 < S.maxIter) :
    solve S histN histL x (fuel + 1) = some .ub := by
  unfold solve loop
  rw [check_eq hu]
  have : statCheck S (start S histN histL x).it (start S histN histL x).norm
      (if (start S histN histL x).it = 0 then (start S histN histL x).norm
        else (start S histN histL x).v0) = .iterate := by
    simp only [start, if_true]
    unfold statCheck
    rw [hv]
    simp [Fl.div, Fl.gt, hv0, ha, hr, hm]
  rw [this]
  simp only [iteration, h0, if_true]

/-- After a reset the preconditioner is set up in the first iteration. -/
theorem C25_precond_first (S : Solver K V) (st st' : NState K V) (h0 : st.histN = 0)
    (hp : S.hasPrecond = true) (hd : S.doUpdate = true) (h : iteration S st = .ok st') :
    st'.updates = st.it :: st.updates := by
  unfold iteration at h
  split at h
  · cases h
  · dsimp only at h
    rw [h0, Nat.zero_mod] at h
    simp only [hp, hd, true_or, and_self, if_true] at h
    split at h
    · split at h
      · split at h
        · obtain rfl := Res.ok.inj h; rfl
        · cases h
      · obtain rfl := Res.ok.inj h; rfl
    · cases h
    · cases h

/-- For an affine residual and an exact linear solver one iteration finds the zero of the residual, with and without
damping: the right hand side is the negative residual and the increment is added in full. -/
theorem C25_affine (S : Solver K V) (st : NState K V) (A : V → V)
    (hA : ∀ x y, S.residual (x + y) = S.residual x + A y) (ht : S.thresholdNewton ≠ 0)
    (hres : st.res = S.residual st.dst) (v : K) (hv : st.norm = .fin v) (hp : 0 < v) (h0 : S.norm 0 = .fin 0)
    (inc : V) (nl : Nat) (hl : S.lin st.it st.dst (-st.res) = .ok (inc, nl)) (hi : A inc = -st.res) :
    ∃ st', iteration S st = .ok st' ∧ st'.dst = st.dst + inc ∧ S.residual st'.dst = 0 ∧ st'.norm = .fin 0 ∧
      st'.it = st.it + 1 := by
  have hr : S.residual (st.dst + (1 : K) • inc) = 0 := by
    rw [one_smul, hA, hi, hres, add_neg_cancel]
  have h1 : (-1 : K) • st.res = -st.res := by rw [neg_smul, one_smul]
  unfold iteration
  rw [if_neg ht]
  simp only [h1, hl]
  by_cases hd : S.damping = true
  · have hdamp : damp S st.dst inc st.norm 99 1 = (st.dst + (1 : K) • inc, 0, .fin 0, 1 / 2) := by
      unfold damp
      simp only [hr, h0, hv, Fl.scale, Fl.ge]
      rw [if_neg]
      have : 0 < (1 - 1 / 10 * (1 / 2 : K)) * v := mul_pos (by linarith [show (0 : K) < 1 from one_pos]) hp
      simpa using this
    rw [if_pos hd, hdamp]
    have hlt : (Fl.fin (0 : K)).lt (st.norm.scale (1 - 1 / 10 * (1 / 2))) = true := by
      rw [hv]
      have : 0 < (1 - 1 / 10 * (1 / 2 : K)) * v := mul_pos (by linarith [show (0 : K) < 1 from one_pos]) hp
      simpa [Fl.scale, Fl.lt] using this
    simp only [hlt, if_true]
    exact ⟨_, rfl, by rw [one_smul], by simpa using hr, rfl, rfl⟩
  · rw [if_neg hd]
    exact ⟨_, rfl, by rw [one_smul], hr, by dsimp only; rw [hr, h0], rfl⟩

namespace Ex25

/-- `x² - 2` in one variable with norm `|r|`, exact Newton directions, scaled by `s` -/
def S (s : Rat) (damping : Bool) : Solver Rat Rat :=
  ⟨fun x => x * x - 2, fun r => .fin |r|, fun _ x r => .ok (s * r / (2 * x), 3), 10, 0, 1 / 50, damping, true,
    true, true, 5, 20, none⟩
example : UserOk (S 1 true) := by intro f h; cases h
example : ∀ v y, (S 1 true).norm v = .fin y → 0 ≤ y := by
  intro v y h
  simp only [S, Fl.fin.injEq] at h
  rw [← h]; exact abs_nonneg v
example : ∀ i u r, (S 1 true).lin i u r ≠ .ub := by intro i u r h; cases h

/-- convergence in two iterations, the residuals decrease -/
example : (solve (S 1 true) 0 0 3 10).map (fun r => match r with
    | .ok st => (st.it, st.dst, st.log, st.updates)
    | _ => (0, 0, [], [])) =
    some (2, 193 / 132, [.fin (2401 / 17424), .fin (49 / 36), .fin 7], [0]) := by decide +kernel

/-- a wrong direction cannot be damped: exception -/
example : solve (S (-1) true) 0 0 3 10 = some (.exc .newtonDidNotConverge) := by decide +kernel

/-- a residual that becomes not-a-number: exception with and without damping -/
def N (damping : Bool) : Solver Rat Rat :=
  ⟨id, fun r => if r > 3 then .fin |r| else .nan, fun _ _ r => .ok (r, 1), 10, 0, 1 / 100, damping, true,
    true, true, 5, 20, none⟩
example : solve (N true) 0 0 4 10 = some (.exc .newtonDidNotConverge) := by decide +kernel
example : solve (N false) 0 0 4 10 = some (.exc .newtonDidNotConverge) := by decide +kernel

/-- `2 x - 6` from 0: one iteration -/
def L (damping : Bool) : Solver Rat Rat :=
  ⟨fun x => 2 * x - 6, fun r => .fin |r|, fun _ _ r => .ok (r / 2, 1), 10, 0, 1 / 100, damping, true,
    true, true, 5, 20, none⟩
example : (solve (L true) 0 0 0 10).map (fun r => match r with
    | .ok st => (st.it, st.dst)
    | _ => (0, 0)) = some (1, 3) := by decide +kernel
example : (solve (L false) 0 0 0 10).map (fun r => match r with
    | .ok st => (st.it, st.dst)
    | _ => (0, 0)) = some (1, 3) := by decide +kernel
end Ex25
end Verif.Props
