/-
Atomic mobility:
  applications/sintering/include/pf-applications/sintering/mobility.h
  include/pf-applications/base/tensor.h
(unit vectors and projections).

Simplifications: `VectorizedArray` is one lane, `double` is an ordered field.
-/
import Mathlib.Algebra.Order.Field.Basic
import Mathlib.Algebra.Module.Defs
import Mathlib.Data.Matrix.Mul

namespace Verif.Mobility

/-- mobility.h:29-36 (`MobilityCoefficients`) and mobility.h:236-243 (members of `Mobility`). -/
structure Coeff (K : Type) where
  Mvol : K
  Mvap : K
  Msurf : K
  Mgb : K
  L : K

section scalar

variable {K : Type} [Field K] [LinearOrder K]

/-- mobility.h:454-456: for every `i` the loop over `j < i`; `pre` are the entries before `i`. -/
def pairLoop (acc : K) (pre : List K) : List K → K
  | [] => acc
  | e :: r => pairLoop (pre.foldl (fun a f => a + e * f) acc) (pre ++ [e]) r

/-- mobility.h:458-463, 504-509: interpolation function, cut to [0,1]. -/
def phi (c : K) : K :=
  let p := c * c * c * (10 - 15 * c + 6 * c * c)
  let p := max 0 p
  min 1 p

/-- mobility.h:465-469, 511-515: the scalar mobility. -/
def scalarM (m : Coeff K) (c : K) (etas : List K) : K :=
  m.Mvol * phi c + m.Mvap * (1 - phi c) + m.Msurf * 4 * c * c * (1 - c) * (1 - c) +
    (2 * m.Mgb) * pairLoop 0 [] etas

variable {V : Type} [AddCommGroup V] [Module K V]

/-- mobility.h:439-472 (`MobilityScalar::apply_M`). -/
def applyM (m : Coeff K) (c : K) (etas : List K) (mu : V) : V := scalarM m c etas • mu

/-- mobility.h:527-529: the loop adding `(eta_sum - lin_etas_value[i]) * etas_value[i]`; one pair (order
parameter, increment) per grain. -/
def factorLoop (etaSum acc : K) : List (K × K) → K
  | [] => acc
  | (e, d) :: r => factorLoop etaSum (acc + (etaSum - e) * d) r

/-- mobility.h:388-391, 518-524: derivative with respect to the concentration. -/
def dMdc (m : Coeff K) (c : K) : K :=
  let dphidc := 30 * c * c * (1 - c) * (1 - c)
  m.Mvol * dphidc - m.Mvap * dphidc + m.Msurf * 8 * c * (1 - 3 * c + 2 * c * c)

/-- mobility.h:476-534 (`MobilityScalar::apply_M_derivative`): linearisation at concentration `c`, order
parameters and gradient `mu` of the chemical potential for increments `dc`, `d` and `dmu`. -/
def applyMDerivative (m : Coeff K) (c : K) (etas : List (K × K)) (mu : V) (dc : K) (dmu : V) : V :=
  let etaSum := etas.foldl (fun a e => a + e.1) 0
  let M := scalarM m c (etas.map (·.1))
  let factor := factorLoop etaSum 0 etas
  M • dmu + (dMdc m c * dc + (2 * m.Mgb) * factor) • mu

/-- mobility.h:414-435 (`dM_detai`): sum over all other order parameters. -/
def dMdetai (m : Coeff K) (etas : List K) (i : Nat) : K :=
  let sum := (etas.mapIdx fun j e => (j, e)).foldl (fun a je => if je.1 ≠ i then a + je.2 else a) 0
  2 * m.Mgb * sum

end scalar

section tensorial

variable {K : Type} [Field K] [LinearOrder K] {d : Nat}

/-- The root function used by `Tensor::norm`; a parameter so that the model is computable. -/
abbrev Root (K : Type) := K → K

/-- `a * b` of two rank one tensors. -/
def dot (a b : Fin d → K) : K := a ⬝ᵥ b

/-- tensor.h:137-154 (`unit_vector`). -/
def unitVector (root : Root K) (tol : K) (v : Fin d → K) : Fin d → K :=
  let nrm := root (dot v v)
  let filter : K := if tol < nrm then 1 else 0
  let filtered := if nrm < tol then 1 else nrm
  fun i => v i / filtered * filter

/-- tensor.h:156-174 (`unit_vector_filter_2`). -/
def unitFilter2 (tol : K) (v : Fin d → K) : K :=
  let nrm := dot v v
  let filter : K := if tol < nrm then 1 else 0
  let filtered := if nrm < tol then 1 else nrm
  filter / filtered

/-- mobility.h:960 (`projector_scale`). -/
def projectorScale : K := 1001 / 1000

/-- tensor.h:139: default tolerance of `unit_vector`. -/
def tol1 : K := 1 / 10 ^ 10
/-- tensor.h:159: default tolerance of `unit_vector_filter_2`. -/
def tol2 : K := 1 / 10 ^ 20

/-- mobility.h:791-801: loop over pairs; `pre` are the grains before the current one.  Every grain carries the
value and the gradient of its order parameter. -/
def gbLoop (mu : Fin d → K) (acc : Fin d → K) (pre : List (K × (Fin d → K))) :
    List (K × (Fin d → K)) → (Fin d → K)
  | [] => acc
  | g :: r =>
    let acc := pre.foldl (fun a f =>
      let diff := g.2 - f.2
      let filter := unitFilter2 tol2 diff
      a + (g.1 * f.1) • (mu - (filter * dot diff mu) • diff)) acc
    gbLoop mu acc (pre ++ [g]) r

/-- mobility.h:756-804 (`MobilityTensorial::apply_M`). -/
def tensorialM (root : Root K) (m : Coeff K) (c : K) (gradC : Fin d → K)
    (grains : List (K × (Fin d → K))) (mu : Fin d → K) : Fin d → K :=
  let fVolVap := m.Mvol * phi c + m.Mvap * (1 - phi c)
  let fsurf := m.Msurf * 4 * (c * c) * ((1 - c) * (1 - c))
  let nc := unitVector root tol1 gradC
  let out := (fVolVap + fsurf * projectorScale) • mu - (fsurf * dot nc mu) • nc
  if grains.length ≤ 1 then out
  else out + (2 * m.Mgb) • gbLoop mu 0 [] grains

/-- mobility.h:895-912: as `gbLoop` with the terms of the linearisation; every grain carries value, gradient and
increment of its order parameter. -/
def gbDerivLoop (mu dmu : Fin d → K) (acc : Fin d → K) (pre : List (K × (Fin d → K) × K)) :
    List (K × (Fin d → K) × K) → (Fin d → K)
  | [] => acc
  | g :: r =>
    let acc := pre.foldl (fun a f =>
      let diff := g.2.1 - f.2.1
      let filter := unitFilter2 tol2 diff
      let a := a + (g.1 * f.1) • (dmu - (filter * dot diff dmu) • diff)
      a + (f.1 * g.2.2 + g.1 * f.2.2) • (mu - (dot diff mu) • (filter • diff))) acc
    gbDerivLoop mu dmu acc (pre ++ [g]) r

/-- mobility.h:808-916 (`MobilityTensorial::apply_M_derivative`). -/
def tensorialMDerivative (root : Root K) (m : Coeff K) (c : K) (gradC : Fin d → K)
    (grains : List (K × (Fin d → K) × K)) (mu : Fin d → K)
    (dc : K) (dgradC dmu : Fin d → K) : Fin d → K :=
  let nc := unitVector root tol1 gradC
  -- 1)
  let fVolVap := m.Mvol * phi c + m.Mvap * (1 - phi c)
  let fsurf := m.Msurf * 4 * (c * c) * ((1 - c) * (1 - c))
  let out := (fVolVap + fsurf) • dmu - (fsurf * dot nc dmu) • nc
  -- 2)
  let c2 := 4 * c * c * (1 - c) * (1 - c)
  let dphidc := 30 * c2
  let fVolVap' := (m.Mvol - m.Mvap) * dphidc
  let fsurf2 := m.Msurf * c2
  let dfsurf := m.Msurf * 8 * c * (1 - c) * (1 - 2 * c)
  let dfsurf := if fsurf2 < 1 / 10 ^ 6 then 0 else dfsurf
  let out := out + dc • ((fVolVap' + dfsurf * projectorScale) • mu - (dfsurf * dot nc mu) • nc)
  -- 3)
  let fsurf3 := if fsurf < 1 / 10 ^ 6 then 0 else fsurf
  let nrm := root (dot gradC gradC)
  let nrm := if nrm < 1 / 10 ^ 4 then 1 else nrm
  let temp := dgradC - dot nc dgradC • nc
  let out := out + (-fsurf3 / nrm) • (dot nc mu • temp + dot mu temp • nc)
  if grains.length ≤ 1 then out
  else out + (2 * m.Mgb) • gbDerivLoop mu dmu 0 [] grains

end tensorial

end Verif.Mobility
