/-
C101: the linear systems of Newton's method use the tangent that was asked for, at the current point.
C102: report of the residuals.
C103: wrappers of other nonlinear solvers.
-/
import Verif.Model.NewtonSetup
import Verif.Model.Newton
import Verif.Spec.NewtonSetup
import Verif.Lemmas.Connect
import Mathlib.Algebra.Field.Rat
import Mathlib.Algebra.Order.Ring.Rat
import Mathlib.Algebra.BigOperators.Group.List.Basic

namespace Verif.Props

open Verif.NewtonSetup Verif.Spec.NewtonSetup

/-! ## C101 -/

section C101
variable {P M : Type} [AddCommGroup M] (contrib : P → M) (tangent : P → M → M)

private theorem initMatrix_true (s : St P M) (u : P) (h : s.point = some u) :
    initMatrix contrib true s = .ok { s with matrix := some (contrib u) } := by
  unfold initMatrix
  rw [h]
  cases hm : s.matrix <;> simp

private theorem initMatrix_false (s : St P M) :
    initMatrix contrib false s = .ok { s with matrix := some (s.matrix.getD 0) } := rfl

private theorem jacobian_ok (c : Cfg) (u : P) (s : St P M) :
    setupJacobian contrib tangent c u s = .ok ⟨some u,
      (if c.fdmJacobian then some (tangent u ((if c.matrixBased then some (contrib u) else s.matrix).getD 0))
        else if c.matrixBased then some (contrib u) else s.matrix),
      if c.jacobiFree then some u else s.freePoint, s.precond⟩ := by
  rcases c with ⟨mb, jf, fj, fp, us, d⟩
  cases mb <;> cases jf <;> cases fj <;> cases hm : s.matrix <;> simp [setupJacobian, initMatrix, numeric, hm]

private theorem precond_ok (c : Cfg) (u : P) (s : St P M) (h : s.point = some u) :
    setupPreconditioner contrib tangent c u s = .ok
      (if c.usesSystem then { s with
          matrix := some (if c.fdmPrecond then tangent u (s.matrix.getD 0) else contrib u)
          precond := some (if c.fdmPrecond then tangent u (s.matrix.getD 0) else contrib u) } else s) := by
  rcases c with ⟨mb, jf, fj, fp, us, d⟩
  cases us
  · simp [setupPreconditioner]
  · cases fp <;> cases hm : s.matrix <;> simp [setupPreconditioner, initMatrix, numeric, hm, h]

/-- The state after the preparation of a linear system. -/
private def after (c : Cfg) (s : St P M) (e : P × Bool) : St P M :=
  let s₁ : St P M := ⟨some e.1,
      (if c.fdmJacobian then some (tangent e.1 ((if c.matrixBased then some (contrib e.1) else s.matrix).getD 0))
        else if c.matrixBased then some (contrib e.1) else s.matrix),
      if c.jacobiFree then some e.1 else s.freePoint, s.precond⟩
  if e.2 && !c.direct then
    (if c.usesSystem then { s₁ with
          matrix := some (if c.fdmPrecond then tangent e.1 (s₁.matrix.getD 0) else contrib e.1)
          precond := some (if c.fdmPrecond then tangent e.1 (s₁.matrix.getD 0) else contrib e.1) } else s₁)
  else s₁

private theorem prepare_ok (c : Cfg) (s : St P M) (e : P × Bool) :
    prepare contrib tangent c s e = .ok (after contrib tangent c s e) := by
  unfold prepare
  rw [jacobian_ok, Res.ok_bind]
  unfold after
  dsimp only
  cases e.2 && !c.direct with
  | false => rfl
  | true => exact precond_ok contrib tangent c e.1 _ rfl

private theorem prepares_ok (c : Cfg) : ∀ (l : List (P × Bool)) (s : St P M),
    l.foldlM (prepare contrib tangent c) s = .ok (l.foldl (after contrib tangent c) s)
  | [], _ => rfl
  | e :: l, s => by
    rw [List.foldlM_cons, prepare_ok, Res.ok_bind, prepares_ok c l, List.foldl_cons]

/-- C101, partial. For every state left behind by earlier solves and every sequence of preparations, with or without updates of the
preconditioner, the last of them at `u`: the linear system has the tangent at `u` that was asked for, provided the numerical tangent of the
preconditioner and the one of the linear system do not both live in the matrix of the operator with different content, and the matrix is there
if it is needed. If the preconditioner was updated it was made from a tangent at `u`. -/
theorem C101_partial (c : Cfg) (s : St P M) (l : List (P × Bool)) (u : P) (upd : Bool) :
    ∃ s', (l ++ [(u, upd)]).foldlM (prepare contrib tangent c) s = .ok s' ∧
      (c.jacobiFree = true → c.direct = false → used c s' = .ok (.differences u)) ∧
      (c.jacobiFree = false → c.direct = false → c.fdmJacobian = false → c.matrixBased = false → used c s' = .ok (.analytic u)) ∧
      (c.jacobiFree = false ∨ c.direct = true → c.fdmJacobian = false → c.matrixBased = true →
        (c.direct = false → upd = true → c.usesSystem = true → c.fdmPrecond = false) →
        ∃ m, used c s' = .ok (.matrix m) ∧ Is contrib tangent u .analytic m) ∧
      (c.jacobiFree = false ∨ c.direct = true → c.fdmJacobian = true → c.matrixBased = true ∨ c.direct = true →
        (c.direct = false → upd = true → c.usesSystem = true → c.fdmPrecond = true) →
        ∃ m, used c s' = .ok (.matrix m) ∧ Is contrib tangent u .numeric m) ∧
      (upd = true → c.direct = false → c.usesSystem = true →
        ∃ m, s'.precond = some m ∧ Is contrib tangent u (if c.fdmPrecond then .numeric else .analytic) m) := by
  refine ⟨_, prepares_ok contrib tangent c _ s, ?_, ?_, ?_, ?_, ?_⟩ <;>
    rw [List.foldl_append, List.foldl_cons, List.foldl_nil] <;>
    generalize l.foldl (after contrib tangent c) s = s₁
  · intro h1 h2
    rcases c with ⟨mb, jf, fj, fp, us, d⟩
    cases h1; cases h2
    cases upd <;> cases us <;> simp [used, after]
  · intro h1 h2 h3 h4
    rcases c with ⟨mb, jf, fj, fp, us, d⟩
    cases h1; cases h2; cases h3; cases h4
    cases upd <;> cases us <;> simp [used, after]
  · intro h1 h2 h3 h4
    rcases c with ⟨mb, jf, fj, fp, us, d⟩
    cases h2; cases h3
    refine ⟨contrib u, ?_, rfl⟩
    cases d
    · simp only [Bool.false_eq_true, or_false] at h1
      cases h1
      cases upd
      · simp [used, after]
      · cases us
        · simp [used, after]
        · have := h4 rfl rfl rfl
          cases this
          simp [used, after]
    · cases upd <;> simp [used, after]
  · intro h1 h2 h3 h4
    rcases c with ⟨mb, jf, fj, fp, us, d⟩
    cases h2
    cases d
    · simp only [Bool.false_eq_true, or_false] at h1 h3
      cases h1; cases h3
      cases upd
      · exact ⟨_, by simp [used, after]; rfl, _, rfl⟩
      · cases us
        · exact ⟨_, by simp [used, after]; rfl, _, rfl⟩
        · have := h4 rfl rfl rfl
          cases this
          exact ⟨_, by simp [used, after]; rfl, _, rfl⟩
    · cases upd <;> exact ⟨_, by simp [used, after]; rfl, _, rfl⟩
  · intro h1 h2 h3
    rcases c with ⟨mb, jf, fj, fp, us, d⟩
    cases h1; cases h2; cases h3
    cases fp
    · exact ⟨contrib u, by simp [after], rfl⟩
    · exact ⟨_, by simp [after]; rfl, _, rfl⟩

/-- C101 is violated: without the matrix of the operator a numerical tangent is computed but the analytic one is used, whatever the numerical
tangent is. -/
theorem C101_ignored_violated (c : Cfg) (s : St P M) (l : List (P × Bool)) (u : P) (upd : Bool)
    (h1 : c.jacobiFree = false) (h2 : c.direct = false) (h3 : c.matrixBased = false) :
    ∃ s', (l ++ [(u, upd)]).foldlM (prepare contrib tangent c) s = .ok s' ∧ used c s' = .ok (.analytic u) := by
  refine ⟨_, prepares_ok contrib tangent c _ s, ?_⟩
  rw [List.foldl_append, List.foldl_cons, List.foldl_nil]
  generalize l.foldl (after contrib tangent c) s = s₁
  rcases c with ⟨mb, jf, fj, fp, us, d⟩
  cases h1; cases h2; cases h3
  cases upd <;> cases us <;> simp [used, after]

/-- C101 is violated: an update of a preconditioner that uses the matrix replaces the tangent of the linear system: by the analytic one although
a numerical one was asked for, and the other way round. -/
theorem C101_replaced_violated (c : Cfg) (s : St P M) (l : List (P × Bool)) (u : P)
    (h1 : c.jacobiFree = false) (h2 : c.direct = false) (h3 : c.matrixBased = true) (h4 : c.usesSystem = true) :
    ∃ s', (l ++ [(u, true)]).foldlM (prepare contrib tangent c) s = .ok s' ∧
      (c.fdmJacobian = true → c.fdmPrecond = false → used c s' = .ok (.matrix (contrib u))) ∧
      (c.fdmJacobian = false → c.fdmPrecond = true → used c s' = .ok (.matrix (tangent u (contrib u)))) := by
  refine ⟨_, prepares_ok contrib tangent c _ s, ?_, ?_⟩ <;>
    rw [List.foldl_append, List.foldl_cons, List.foldl_nil] <;>
    generalize l.foldl (after contrib tangent c) s = s₁ <;>
    rcases c with ⟨mb, jf, fj, fp, us, d⟩ <;> cases h1 <;> cases h2 <;> cases h3 <;> cases h4 <;> intro h5 h6 <;> cases h5 <;> cases h6 <;>
    simp [used, after]

private theorem direct_matrix (c : Cfg) (h2 : c.direct = true) (h3 : c.matrixBased = false) (h4 : c.fdmJacobian = false) :
    ∀ (l : List (P × Bool)) (s : St P M), (l.foldl (after contrib tangent c) s).matrix = s.matrix
  | [], _ => rfl
  | e :: l, s => by
    rw [List.foldl_cons, direct_matrix c h2 h3 h4 l]
    simp [after, h2, h3, h4]

/-- C101 is violated: the direct solver without the matrix of the operator factorises a matrix that nobody has assembled, or one that was left
by something else. -/
theorem C101_direct_violated (c : Cfg) (s : St P M) (l : List (P × Bool))
    (h2 : c.direct = true) (h3 : c.matrixBased = false) (h4 : c.fdmJacobian = false) :
    ∃ s', l.foldlM (prepare contrib tangent c) s = .ok s' ∧ s'.matrix = s.matrix ∧ (s.matrix = none → used c s' = .ub) := by
  refine ⟨_, prepares_ok contrib tangent c _ s, direct_matrix contrib tangent c h2 h3 h4 l s, fun h => ?_⟩
  unfold used
  rw [h2, direct_matrix contrib tangent c h2 h3 h4 l s, h]
  rfl

end C101

namespace Ex101

/-- Numbers as matrices: the tangent of `x ^ 2`, and a difference quotient in its place. -/
def contrib (x : ℚ) : ℚ := 2 * x
def tangent (x _m : ℚ) : ℚ := 2 * x + 1 / 1000

def cfg : Cfg := ⟨true, false, true, false, true, false⟩

example : (([(1, true), (2, false)] : List (ℚ × Bool)).foldlM (prepare contrib tangent cfg) ⟨none, none, none, none⟩ >>= used cfg) =
    .ok (.matrix (4 + 1 / 1000)) := by decide +kernel

example : (([(1, true), (2, true)] : List (ℚ × Bool)).foldlM (prepare contrib tangent cfg) ⟨none, none, none, none⟩ >>= used cfg) =
    .ok (.matrix 4) := by decide +kernel

example := C101_partial contrib tangent ⟨true, false, false, false, true, false⟩ ⟨none, some 17, none, none⟩ [(1, true), (5, false)] 2 true
example := C101_replaced_violated contrib tangent cfg ⟨none, none, none, none⟩ [(1, true)] 2 rfl rfl rfl rfl
example := C101_ignored_violated contrib tangent ⟨false, false, true, false, true, false⟩ ⟨none, none, none, none⟩ [] 2 true rfl rfl rfl
example := C101_direct_violated contrib tangent ⟨false, false, false, false, true, true⟩ ⟨none, none, none, none⟩ [(3, true)] rfl rfl rfl

end Ex101

/-! ## C102 -/

section C102
variable {K : Type} [Field K] [LinearOrder K] (sqrt : K → K)

omit [LinearOrder K] in
private theorem partSum_ok (r : List K) (off : Nat) : ∀ k, off + k ≤ r.length → partSum r off k = .ok ((r.drop off).take k).sum
  | 0, _ => by simp [partSum]
  | k + 1, h => by
    have hk : off + k < r.length := by omega
    rw [partSum, partSum_ok r off k (by omega), Res.ok_bind, List.getElem?_eq_getElem hk]
    dsimp only
    rw [List.take_add_one, List.getElem?_drop, List.getElem?_eq_getElem hk, Option.toList_some, List.sum_append, List.sum_singleton]

omit [LinearOrder K] in
private theorem parts_ok (qs : List (String × Nat × Nat)) (r : List K) (h : Fits qs r) :
    (qs.mapM fun q => do
      let x ← partSum r q.2.1 q.2.2
      Res.ok (sqrt x)) = .ok (qs.map (norm sqrt r)) := by
  refine Res.mapM_ok qs fun q hq => ?_
  rw [partSum_ok r _ _ (h q hq), Res.ok_bind]
  rfl

private theorem report_zero (qs : List (String × Nat × Nat)) (s : Report K) (v : K) (r : List K) (n : Nat)
    (h : Fits qs r) (hn : n < 2 ^ 32) :
    report sqrt qs s 0 v r n = .ok (⟨v, qs.map (norm sqrt r), n⟩,
      ⟨0, v, none, qs.map fun q => (norm sqrt r q, none), n⟩) := by
  unfold report
  rw [parts_ok sqrt qs r h, Res.ok_bind]
  have : (qs.map (norm sqrt r)).zipIdx.mapM (relPart 0 (qs.map (norm sqrt r))) = .ok (qs.map fun q => (norm sqrt r q, none)) := by
    rw [Res.mapM_ok (f := relPart 0 (qs.map (norm sqrt r))) (F := fun x : K × Nat => (x.1, (none : Option K))) _ (fun _ _ => rfl)]
    congr 1
    apply List.ext_getElem?
    intro i
    simp only [List.getElem?_map, List.getElem?_zipIdx]
    cases qs[i]? <;> rfl
  simp only [lt_irrefl, if_true, if_false]
  rw [this, Res.ok_bind]
  have hl : (((n : Int) - ((0 : Nat) : Int)) % 2 ^ 32).toNat = n := by omega
  rw [hl]

private theorem report_succ (qs : List (String × Nat × Nat)) (v₀ : K) (r₀ : List K) (prev step : Nat) (v : K) (r : List K) (n : Nat)
    (h : Fits qs r) (hp : prev ≤ n) (hn : n < 2 ^ 32) :
    report sqrt qs ⟨v₀, qs.map (norm sqrt r₀), prev⟩ (step + 1) v r n = .ok (⟨v₀, qs.map (norm sqrt r₀), n⟩,
      ⟨step + 1, v, some (ratio v v₀), qs.map fun q => (norm sqrt r q, some (ratio (norm sqrt r q) (norm sqrt r₀ q))), n - prev⟩) := by
  unfold report
  rw [parts_ok sqrt qs r h, Res.ok_bind]
  have : (qs.map (norm sqrt r)).zipIdx.mapM (relPart (step + 1) (qs.map (norm sqrt r₀))) =
      .ok (qs.map fun q => (norm sqrt r q, some (ratio (norm sqrt r q) (norm sqrt r₀ q)))) := by
    rw [Res.mapM_ok (F := fun x : K × Nat => (x.1, some (ratio x.1 (((qs.map (norm sqrt r₀))[x.2]?).getD 0))))]
    · congr 1
      apply List.ext_getElem?
      intro i
      simp only [List.getElem?_map, List.getElem?_zipIdx]
      cases hq : qs[i]? <;> simp [hq]
    · rintro ⟨x, i⟩ hx
      rw [List.mem_zipIdx_iff_getElem?] at hx
      unfold relPart
      simp only [List.getElem?_map] at hx ⊢
      cases hq : qs[i]? with
      | none => rw [hq] at hx; cases hx
      | some q => simp [ratio]
  simp only [Nat.succ_ne_zero, Nat.zero_lt_succ, if_true, if_false]
  rw [this, Res.ok_bind]
  have hl : (((n : Int) - (prev : Int)) % 2 ^ 32).toNat = n - prev := by omega
  rw [hl]
  rfl

private theorem reports_succ (qs : List (String × Nat × Nat)) (v₀ : K) (r₀ : List K) : ∀ (runs : List (K × List K × Nat)) (prev step : Nat),
    (∀ x ∈ runs, Fits qs x.2.1 ∧ x.2.2 < 2 ^ 32) → Grows prev (runs.map (·.2.2)) →
    reports sqrt qs (step + 1) ⟨v₀, qs.map (norm sqrt r₀), prev⟩ runs = .ok (later sqrt qs v₀ r₀ (step + 1) prev runs)
  | [], _, _, _, _ => rfl
  | (v, r, n) :: runs, prev, step, h, hg => by
    have h1 := h (v, r, n) (by simp)
    have hg' : prev ≤ n ∧ Grows n (runs.map (·.2.2)) := hg
    rw [reports, report_succ sqrt qs v₀ r₀ prev step v r n h1.1 hg'.1 h1.2, Res.ok_bind]
    dsimp only
    rw [reports_succ qs v₀ r₀ runs n (step + 1) (fun x hx => h x (by simp [hx])) hg'.2, Res.ok_bind]
    rfl

/-- C102, partial: for every sequence of checks in one solve, in every state left by an earlier solve, the report has for every check the number
of the step, the norm, its ratio to the first norm, the same for every quantity, and the linear iterations of this step alone; the residual has
all blocks. -/
theorem C102_report_partial (qs : List (String × Nat × Nat)) (s : Report K) (v₀ : K) (r₀ : List K) (n₀ : Nat)
    (runs : List (K × List K × Nat)) (h : ∀ x ∈ (v₀, r₀, n₀) :: runs, Fits qs x.2.1 ∧ x.2.2 < 2 ^ 32)
    (hg : Grows n₀ (runs.map (·.2.2))) :
    reports sqrt qs 0 s ((v₀, r₀, n₀) :: runs) =
      .ok (⟨0, v₀, none, qs.map fun q => (norm sqrt r₀ q, none), n₀⟩ :: later sqrt qs v₀ r₀ 1 n₀ runs) := by
  have h0 := h (v₀, r₀, n₀) (by simp)
  rw [reports, report_zero sqrt qs s v₀ r₀ n₀ h0.1 h0.2, Res.ok_bind]
  dsimp only
  rw [reports_succ sqrt qs v₀ r₀ runs n₀ 0 (fun x hx => h x (by simp [hx])) hg]
  rfl

/-- C102: the quantities that are reported have every block of the residual exactly once, in order. -/
theorem C102_blocks (n off nOp dim : Nat) (h1 : off ≤ 2) (h2 : off ≤ n) (h3 : nOp = n ∨ 0 < dim ∧ nOp = n + dim) :
    ((quantities n off nOp dim).flatMap fun q => List.range' q.2.1 q.2.2) = List.range nOp := by
  have hoff : off = 0 ∨ off = 1 ∨ off = 2 := by omega
  have key : ((if 0 < off then [("ch", 0, 1)] else []) ++ (if 1 < off then [("mu", 1, 1)] else []) ++
      (if n - off ≠ 0 then [("ac", off, n - off)] else []) : List (String × Nat × Nat)).flatMap
      (fun q => List.range' q.2.1 q.2.2) = List.range' 0 n := by
    have e : List.range' 0 n = List.range' 0 off ++ List.range' off (n - off) := by
      have := @List.range'_append_1 0 off (n - off)
      rw [Nat.zero_add] at this
      rw [this]; congr 1; omega
    rw [e, List.flatMap_append]
    congr 1
    · rcases hoff with rfl | rfl | rfl <;> simp [List.range'_succ]
    · by_cases hz : n - off = 0
      · rw [hz]; simp
      · rw [if_pos hz]; simp
  unfold quantities
  rw [List.flatMap_append, key, List.range_eq_range']
  rcases h3 with rfl | ⟨hd, rfl⟩
  · simp
  · rw [if_pos (by omega)]
    have e : n + dim - dim = n := by omega
    simp only [List.flatMap_cons, List.flatMap_nil, List.append_nil, e]
    have := @List.range'_append_1 0 n dim
    rw [Nat.zero_add] at this
    exact this

/-- C102: the report has no influence on the end of the damped Newton solver. -/
theorem C102_neutral {V : Type} (S : Newton.Solver K V) (st : Newton.NState K V) (h : S.user = some fun _ _ _ _ => .success) :
    Newton.check S st = Newton.check { S with user := none } st := by
  unfold Newton.check
  rw [h]
  dsimp only
  have : Newton.statCheck { S with user := none } = Newton.statCheck S := rfl
  rw [this]
  congr 1
  generalize Newton.statCheck S _ _ _ = x
  cases x <;> simp

/-- C102 is violated with SNES: the monitor passes a residual without blocks, so the report reads blocks that do not exist, whenever the
operator has components. -/
theorem C102_snes_violated (n off nOp dim : Nat) (s : Report K) (step : Nat) (v : K) (k : Nat)
    (h : 0 < off ∨ off < n) : report sqrt (quantities n off nOp dim) s step v [] k = .ub := by
  have hq : ∃ q qs, quantities n off nOp dim = q :: qs ∧ 0 < q.2.2 := by
    unfold quantities
    by_cases h0 : 0 < off
    · rw [if_pos h0]; exact ⟨_, _, rfl, Nat.one_pos⟩
    · have h1 : off < n := by omega
      rw [if_neg h0, if_neg (by omega : ¬ 1 < off), if_pos (by omega : n - off ≠ 0)]
      exact ⟨_, _, rfl, by show 0 < n - off; omega⟩
  obtain ⟨q, qs, e, hp⟩ := hq
  have hs : partSum ([] : List K) q.2.1 q.2.2 = .ub := by
    obtain ⟨m, hm⟩ : ∃ m, q.2.2 = m + 1 := ⟨q.2.2 - 1, by omega⟩
    rw [hm]
    clear hm
    induction m with
    | zero => simp [partSum]
    | succ m ih => rw [partSum, ih]; rfl
  unfold report
  rw [e, List.mapM_cons, hs]
  rfl

end C102

namespace Ex102

def runs : List (ℚ × List ℚ × Nat) := [(5, [9, 16, 0], 0), (1, [1, 0, 0], 7), (0, [0, 0, 0], 12)]

/-- A square root on the squares that occur. -/
def root (x : ℚ) : ℚ := if x = 9 then 3 else if x = 16 then 4 else if x = 1 then 1 else 0

example : quantities 3 2 3 2 = [("ch", 0, 1), ("mu", 1, 1), ("ac", 2, 1)] := by decide

example : (reports root (quantities 3 2 3 2) 0 ⟨17, [], 4⟩ runs) =
    .ok [⟨0, 5, none, [(3, none), (4, none), (0, none)], 0⟩,
      ⟨1, 1, some (1 / 5), [(1, some (1 / 3)), (0, some 0), (0, some 0)], 7⟩,
      ⟨2, 0, some 0, [(0, some 0), (0, some 0), (0, some 0)], 5⟩] := by decide +kernel

example := C102_report_partial root (quantities 3 2 3 2) ⟨17, [], 4⟩ 5 [9, 16, 0] 0 [(1, [1, 0, 0], 7), (0, [0, 0, 0], 12)]
  (by decide) (by decide)

example := C102_snes_violated root 3 2 3 2 ⟨17, [], 4⟩ 0 5 0 (Or.inl (by decide))

example : ((quantities 4 2 6 2).flatMap fun q => List.range' q.2.1 q.2.2) = [0, 1, 2, 3, 4, 5] := by decide

end Ex102

/-! ## C103 -/

/-- C103, partial: if the wrapped solver converges before the limit, both wrappers return its vector and count its steps; if it fails, the
exception the time loop waits for is thrown. -/
theorem C103_wrappers_partial {V : Type} (solver : V → Outcome V) (x : V) (newton maxIter : Nat) :
    (∀ y k, solver x = .done y k → noxSolve solver x newton = (y, newton + k, .ok ()) ∧
      (k < maxIter → snesSolve maxIter solver x newton = (y, newton + k, .ok ()))) ∧
    (∀ y, solver x = .failed y → (noxSolve solver x newton).2.2 = .exc .newtonDidNotConverge ∧
      (snesSolve maxIter solver x newton).2.2 = .exc .newtonDidNotConverge) := by
  refine ⟨fun y k h => ⟨by rw [noxSolve, h], fun hk => ?_⟩, fun y h => ⟨by rw [noxSolve, h], by rw [snesSolve, h]⟩⟩
  rw [snesSolve, h]
  exact if_pos (Or.inr hk)

/-- C103 is violated: SNES that converges in the last step that is allowed is taken as failed, and the vector is changed nevertheless; steps of
solves that fail are counted by no wrapper. -/
theorem C103_last_violated {V : Type} (solver : V → Outcome V) (x y : V) (newton maxIter : Nat) (h0 : 0 < maxIter)
    (h : solver x = .done y maxIter) :
    snesSolve maxIter solver x newton = (y, newton, .exc .newtonDidNotConverge) := by
  rw [snesSolve, h]
  exact if_neg (by omega)

theorem C103_count_violated {V : Type} (solver : V → Outcome V) (x y : V) (newton maxIter : Nat) (h : solver x = .failed y) :
    (noxSolve solver x newton).2.1 = newton ∧ (snesSolve maxIter solver x newton).2.1 = newton := by
  rw [noxSolve, snesSolve, h]
  exact ⟨rfl, rfl⟩

private theorem updates_eq (thrN thrL : Nat) (h : 0 < thrN) : ∀ (ls : List Nat) (k l : Nat),
    ∃ k' l', dampedUpdates thrN thrL k l ls = .ok (snesUpdates thrN thrL k l ls, k', l')
  | [], k, l => ⟨k, l, rfl⟩
  | m :: ls, k, l => by
    obtain ⟨k', l', e⟩ := updates_eq thrN thrL h ls (k + 1) m
    refine ⟨k', l', ?_⟩
    rw [dampedUpdates, if_neg (by omega), e, Res.ok_bind]
    simp [snesUpdates, h]

/-- C103, partial: without reuse of the preconditioner SNES and the damped solver update it in the same steps, for every sequence of solves. -/
theorem C103_updates_partial (thrN thrL : Nat) (h : 0 < thrN) : ∀ (runs : List (List Nat)) (k l : Nat),
    dampedRuns thrN thrL false k l runs = .ok (snesRuns thrN thrL runs)
  | [], _, _ => rfl
  | r :: runs, k, l => by
    obtain ⟨k', l', e⟩ := updates_eq thrN thrL h r 0 0
    rw [dampedRuns]
    simp only [Bool.false_eq_true, if_false]
    rw [e, Res.ok_bind]
    dsimp only
    rw [C103_updates_partial thrN thrL h runs k' l', Res.ok_bind]
    rfl

/-- C103 is violated: SNES updates the preconditioner in the first step of every solve, also if it is to be reused. -/
theorem C103_reuse_violated (thrN thrL : Nat) (runs : List (List Nat)) (h : 0 < thrN) (r : List Nat) (hr : r ∈ runs) (hne : r ≠ []) :
    ∃ bs ∈ snesRuns thrN thrL runs, ∃ t, bs = true :: t ∧ bs = snesUpdates thrN thrL 0 0 r := by
  obtain ⟨m, ls, rfl⟩ := List.exists_cons_of_ne_nil hne
  exact ⟨_, List.mem_map_of_mem hr, snesUpdates thrN thrL 1 m ls, by simp [snesUpdates, h], rfl⟩

namespace Ex103

example := C103_wrappers_partial (fun x : ℚ => if x < 0 then .failed 0 else .done (x / 2) 3) 4 2 10
example : snesSolve 3 (fun x : ℚ => .done (x / 2) 3) 4 2 = (2, 2, .exc .newtonDidNotConverge) := by decide +kernel
example : snesRuns 100 20 [[5, 6], [7, 30, 8]] = [[true, false], [true, false, true]] := by decide
example : dampedRuns 100 20 false 0 0 [[5, 6], [7, 30, 8]] = .ok [[true, false], [true, false, true]] := by decide
example : dampedRuns 100 20 true 0 0 [[5, 6], [7, 30, 8]] = .ok [[true, false], [false, false, true]] := by decide
example := C103_reuse_violated 100 20 [[5, 6], [7, 30, 8]] (by decide) [7, 30, 8] (by decide) (by decide)

end Ex103

end Verif.Props
