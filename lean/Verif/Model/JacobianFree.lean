/-
Product with the Jacobian by finite differences and the numerical tangent matrix:
  include/pf-applications/lac/jacobian_operator.h
  include/pf-applications/lac/residual_wrapper.h
  include/pf-applications/lac/evaluation.h
  applications/sintering/include/pf-applications/sintering/residual_wrapper.h
  applications/sintering/include/pf-applications/sintering/operator_base.h:419-494 (what happens to the content of the matrix)

Simplifications: one rank; numbers are real; a vector has `nb` blocks of `n` entries each. A cell loop of deal.II is the list of the calls it
makes; its contract is in Spec/JacobianFree.lean. Contributions of cells are parameters.
-/
import Verif.Model.Res
import Mathlib.Analysis.Real.Sqrt

namespace Verif.JacobianFree

/-- Block vector: block and entry. -/
abbrev Vec (nb n : Nat) := Fin nb → Fin n → ℝ

section vmult

variable {nb n : Nat}

/-- `u * src`. -/
noncomputable def dot (u v : Vec nb n) : ℝ := ∑ b, ∑ i, u b i * v b i

/-- `l1_norm`. -/
noncomputable def l1 (v : Vec nb n) : ℝ := ∑ b, ∑ i, |v b i|

/-- `l2_norm`. -/
noncomputable def l2 (v : Vec nb n) : ℝ := Real.sqrt (dot v v)

/-- jacobian_operator.h:124-157: step length. `uNorm` is `u_l2_norm`, which `reinit` sets only for "pw". -/
noncomputable def stepLength (algo : String) (uNorm : Option ℝ) (u src : Vec nb n) : Res ℝ :=
  let h : ℝ := 1 / 10 ^ 8
  if algo = "bs" then
    let ua := dot u src
    let uMin : ℝ := 1 / 10 ^ 6
    if l2 src = 0 then .ok 0
    else if uMin * l1 src < |ua| then .ok (h * (ua / (l2 src * l2 src)))
    else .ok (h * (uMin * (if 0 ≤ ua then 1 else -1) * l1 src / (l2 src * l2 src)))
  else if algo = "pw" then
    if l2 src = 0 then .ok 0
    else
      match uNorm with
      | none => .ub
      | some un => .ok (h * (Real.sqrt (1 + un) / l2 src))
  else .exc .assertThrow

/-- What a loop works on: linearisation point (`tmp`), destination, and the sum of the forces (only for the advection). -/
structure St (nb n : Nat) (F : Type) where
  u : Vec nb n
  dst : Vec nb n
  acc : F

/-- Calls made by a cell loop with pre and post operations. -/
inductive Act where
  | pre (b e : Nat)
  | cell (c : Nat)
  | post (b e : Nat)
deriving DecidableEq

variable {F : Type} [Add F]

/-- jacobian_operator.h:175-197 `pre_op`. A range beyond the blocks is undefined. -/
noncomputable def preOp (h : ℝ) (src : Vec nb n) (b e : Nat) (s : St nb n F) : Res (St nb n F) :=
  if b < e ∧ n < e then .ub
  else .ok { s with
    dst := fun k i => if b ≤ i.1 ∧ i.1 < e then 0 else s.dst k i
    u := fun k i => if b ≤ i.1 ∧ i.1 < e then s.u k i + h * src k i else s.u k i }

/-- jacobian_operator.h:199-222 `post_op`; `res` is `residual_u`. -/
noncomputable def postOp (h : ℝ) (res src : Vec nb n) (b e : Nat) (s : St nb n F) : Res (St nb n F) :=
  if b < e ∧ n < e then .ub
  else .ok { s with
    dst := fun k i => if b ≤ i.1 ∧ i.1 < e then (s.dst k i - res k i) * (1 / h) else s.dst k i
    u := fun k i => if b ≤ i.1 ∧ i.1 < e then s.u k i - h * src k i else s.u k i }

/-- One call of a loop. A cell reads the linearisation point and adds to the destination and to the forces. -/
noncomputable def step (pre post : Nat → Nat → St nb n F → Res (St nb n F)) (cellDst : Nat → Vec nb n → Vec nb n)
    (cellAcc : Nat → Vec nb n → F) (s : St nb n F) : Act → Res (St nb n F)
  | .pre b e => pre b e s
  | .cell c => .ok { s with dst := s.dst + cellDst c s.u, acc := s.acc + cellAcc c s.u }
  | .post b e => post b e s

/-- `cell_loop` with pre and post operations, matrix_free/tools.h:430-460. -/
noncomputable def loop (pre post : Nat → Nat → St nb n F → Res (St nb n F)) (cellDst : Nat → Vec nb n → Vec nb n)
    (cellAcc : Nat → Vec nb n → F) (acts : List Act) (s : St nb n F) : Res (St nb n F) :=
  acts.foldlM (step pre post cellDst cellAcc) s

/-- A residual as the wrappers see it: contributions of the cells to the residual, given the forces, and to the forces. -/
structure Residual (nb n : Nat) (F : Type) where
  cells : List Nat
  cellDst : F → Nat → Vec nb n → Vec nb n
  cellAcc : Nat → Vec nb n → F

/-- The forces at `u`, operator_advection.h:88-121 without pre and post operations. -/
def forces [Zero F] (R : Residual nb n F) (u : Vec nb n) : F := (R.cells.map fun c => R.cellAcc c u).sum

/-- The residual at `u` for given forces; the destination is cleared before, operator_sintering_generic.h:405-416. -/
def resid (R : Residual nb n F) (f : F) (u : Vec nb n) : Vec nb n := (R.cells.map fun c => R.cellDst f c u).sum

/-- The wrappers that can be asked for a residual. -/
inductive Wrapper where
  /-- residual_wrapper.h:141-152: the operator takes pre and post operations. -/
  | generic
  /-- residual_wrapper.h:153-171: the operator takes none; the range is the one of the cell batches. -/
  | fallback (nBatches : Nat)
  /-- sintering/residual_wrapper.h:52-83: forces and residual, both with pre and post operations. -/
  | advection
deriving DecidableEq

/-- residual_wrapper.h:127-171 and sintering/residual_wrapper.h:68-83: evaluation for the Jacobian with pre and post operations. `acts1`,
`acts2`: calls of the loops over the forces and over the residual. Without advection the forces are `f0`, those stored before. -/
noncomputable def evaluate [Zero F] (w : Wrapper) (R : Residual nb n F) (f0 : F) (acts1 acts2 : List Act)
    (pre post : Nat → Nat → St nb n F → Res (St nb n F)) (s : St nb n F) : Res (St nb n F) :=
  match w with
  | .generic => loop pre post (R.cellDst f0) (fun _ _ => 0) acts2 s
  | .fallback k => do
    let s ← pre 0 k s
    let s : St nb n F := { s with dst := resid R f0 s.u }
    post 0 k s
  | .advection => do
    let s ← loop pre post (fun _ _ => 0) R.cellAcc acts1 { s with acc := 0 }
    loop pre post (R.cellDst s.acc) (fun _ _ => 0) acts2 s

/-- The residual without pre and post operations, as in `reinit`, jacobian_operator.h:272-273. -/
def evaluatePlain [Zero F] (w : Wrapper) (R : Residual nb n F) (f0 : F) (u : Vec nb n) : Vec nb n :=
  match w with
  | .advection => resid R (forces R u) u
  | _ => resid R f0 u

/-- jacobian_operator.h:119-252 `JacobianFree::vmult`; gives the linearisation point and the destination afterwards. -/
noncomputable def vmult [Zero F] (algo : String) (uNorm : Option ℝ) (w : Wrapper) (R : Residual nb n F) (f0 : F) (acts1 acts2 : List Act)
    (u res src dst : Vec nb n) : Res (Vec nb n × Vec nb n) := do
  let h ← stepLength algo uNorm u src
  if h = 0 then .ok (u, 0)
  else do
    let s ← evaluate w R f0 acts1 acts2 (preOp h src) (postOp h res src) ⟨u, dst, 0⟩
    .ok (s.u, s.dst)

/-- jacobian_operator.h:230-249: the branch for operators that take no pre and post operations; `eval` is the residual. -/
noncomputable def vmultPlain (algo : String) (uNorm : Option ℝ) (eval : Vec nb n → Vec nb n) (u res src : Vec nb n) :
    Res (Vec nb n × Vec nb n) := do
  let h ← stepLength algo uNorm u src
  if h = 0 then .ok (u, 0)
  else
    let u' : Vec nb n := u + h • src
    .ok (u' + (-h) • src, (1 / h) • (eval u' + (-1 : ℝ) • res))

/-- jacobian_operator.h:260-274 `reinit`: linearisation point, its norm and the residual there. -/
noncomputable def reinit [Zero F] (algo : String) (w : Wrapper) (R : Residual nb n F) (f0 : F) (u : Vec nb n) :
    Vec nb n × Option ℝ × Vec nb n :=
  (u, if algo = "pw" then some (l2 u) else none, evaluatePlain w R f0 u)

end vmult

/-- residual_wrapper.h:46-52, 94-112, 199-226: mode asked from the operator; `tpl` is the template argument of the wrapper (1: for the
Jacobian, 2: for the residual; others do not compile). -/
def mode (implicit : Bool) (tpl : Nat) : Option Nat :=
  if tpl = 2 then some (if implicit then 2 else 0)
  else if tpl = 1 then some (if implicit then 1 else 0)
  else none

section tangent

variable {K : Type} [Field K] [LinearOrder K]

/-- `b + i * n_blocks`: position of entry `i` of block `b` in the matrix. -/
def pos (nb : Nat) (p : Nat × Nat) : Nat := p.1 + p.2 * nb

/-- evaluation.h:66-86: one entry of a column. -/
def setEntry (pattern : Nat → Nat → Bool) (nb : Nat) (eps tol : K) (r0 r1 : Nat × Nat → K) (col : Nat × Nat)
    (T : Nat → Nat → K) (row : Nat × Nat) : Nat → Nat → K :=
  if pattern (pos nb row) (pos nb col) then
    let value := (r1 row - r0 row) / eps
    if tol < |value| then fun r c => if r = pos nb row ∧ c = pos nb col then value else T r c
    else if col.1 = row.1 ∧ col.2 = row.2 then fun r c => if r = pos nb row ∧ c = pos nb col then 1 else T r c
    else T
  else T

/-- All blocks and entries in the order of the loops. -/
def entries (nb n : Nat) : List (Nat × Nat) := (List.range nb).flatMap fun b => (List.range n).map fun i => (b, i)

/-- evaluation.h:51-86: one column; the state is perturbed and set back. -/
def column (R : (Nat × Nat → K) → Nat × Nat → K) (pattern : Nat → Nat → Bool) (nb n : Nat) (eps tol : K) (r0 : Nat × Nat → K)
    (s : (Nat × Nat → K) × (Nat → Nat → K)) (col : Nat × Nat) : (Nat × Nat → K) × (Nat → Nat → K) :=
  let st1 : Nat × Nat → K := fun p => if p = col then s.1 p + eps else s.1 p
  let r1 := R st1
  let st2 : Nat × Nat → K := fun p => if p = col then st1 p - eps else st1 p
  (st2, (entries nb n).foldl (setEntry pattern nb eps tol r0 r1 col) s.2)

/-- evaluation.h:30-88 `calc_numeric_tangent`: state at the end and matrix; `T` is the content of the matrix before. -/
def numericTangent (R : (Nat × Nat → K) → Nat × Nat → K) (pattern : Nat → Nat → Bool) (nb n : Nat) (eps tol : K) (u : Nat × Nat → K)
    (T : Nat → Nat → K) : (Nat × Nat → K) × (Nat → Nat → K) :=
  (entries nb n).foldl (column R pattern nb n eps tol (R u)) (u, T)

/-- operator_base.h:419-494 `initialize_system_matrix`: content of the matrix afterwards; `none`: the matrix is empty; `assembled` is what
`compute_matrix` adds up. -/
def initializeMatrix (compute : Bool) (assembled : Nat → Nat → K) (M : Option (Nat → Nat → K)) : Nat → Nat → K :=
  let M' : Nat → Nat → K := match M with
    | none => fun _ _ => 0
    | some m => m
  if compute then assembled else M'

/-- time_marching.h:155-165: matrix of the numerical tangent at `u`, after `initialize_system_matrix(false)`. -/
def fdmMatrix (R : (Nat × Nat → K) → Nat × Nat → K) (pattern : Nat → Nat → Bool) (nb n : Nat) (eps tol : K)
    (M : Option (Nat → Nat → K)) (u : Nat × Nat → K) : Nat → Nat → K :=
  (numericTangent R pattern nb n eps tol u (initializeMatrix false (fun _ _ => 0) M)).2

end tangent

end Verif.JacobianFree
