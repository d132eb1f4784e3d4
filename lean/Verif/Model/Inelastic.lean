/-
Inelastic strain rates of the coupled model and the check of the Courant condition:
  applications/sintering/include/pf-applications/sintering/inelastic.h
  applications/sintering/include/pf-applications/sintering/cfl_checker.h

Simplifications: one lane for the strains; `double` is an ordered field; `root` is the square root used by
`Tensor::norm`.  Every grain is given by the value and the gradient of its order parameter.
-/
import Verif.Model.Mobility
import Verif.Model.Res

namespace Verif.Inelastic

open Verif.Mobility (Root unitVector tol1)

variable {K : Type} [Field K] [LinearOrder K] {d : Nat}

/-- Value and gradient of an order parameter. -/
abbrev Grain (K : Type) (d : Nat) := K × (Fin d → K)

/-- A tensor of rank two. -/
abbrev Tensor2 (K : Type) (d : Nat) := Fin d → Fin d → K

/-- `outer_product`. -/
def outer (a b : Fin d → K) : Tensor2 K d := fun i j => a i * b j

/-- tensor.h (`diagonal_matrix`). -/
def diagonal (x : K) : Tensor2 K d := fun i j => if i = j then x else 0

/-- inelastic.h:288-297 (`v`). -/
def v (c : K) : K := let x := c * c; if 1 < x then 1 else x

/-- inelastic.h:299-303 (`dv_dc`). -/
def dv (c : K) : K := 2 * c

/-- inelastic.h:257-259: sum over pairs `i < j`. -/
def pairSum (acc : K) : List K → K
  | [] => acc
  | e :: r => pairSum (r.foldl (fun a f => a + e * f) acc) r

/-- inelastic.h:251-269 (`g`). -/
def g (etas : List K) : K :=
  let x := pairSum 0 etas
  let x := x * 4
  let x := if x < 0 then 0 else x
  if 1 < x then 1 else x

/-- inelastic.h:271-286 (`dg_detai`). -/
def dg (etas : List K) (i : Nat) : K :=
  (etas.mapIdx fun j e => (j, e)).foldl (fun a je => if je.1 ≠ i then a + je.2 else a) 0 * 4

/-- inelastic.h:233-249 (`gb_indicator`). -/
def indicator (etas : List K) : K :=
  let idx := etas.mapIdx fun j e => (j, e)
  let x : K := idx.foldl (fun a p => idx.foldl (fun a q => if p.1 ≠ q.1 then a + p.2 * q.2 else a) a) 0
  if x < 1 / 10 then 0 else x

/-- inelastic.h:196-207: sum of the unit vectors of the differences of the gradients over pairs `i < j`. -/
def normalSum (root : Root K) (acc : Fin d → K) : List (Fin d → K) → (Fin d → K)
  | [] => acc
  | e :: r => normalSum root (r.foldl (fun a f => a + unitVector root tol1 (e - f)) acc) r

/-- inelastic.h:190-212 (`gb_norm`). -/
def normal (root : Root K) (grains : List (Grain K d)) : Fin d → K :=
  indicator (grains.map (·.1)) • normalSum root 0 (grains.map (·.2))

/-- Parameters; `time_start` and the current time, inelastic.h:54. -/
structure Par (K : Type) where
  rho : K
  time : K
  start : K

/-- inelastic.h:165-188 (`chi`); `fac_gb = fac_vol = 1`, `volume_denominator = 3`. -/
def chi (root : Root K) (p : Par K) (grains : List (Grain K d)) (divGb divVol : K) : Tensor2 K d :=
  let n := normal root grains
  let gv := g (grains.map (·.1))
  (p.rho * divGb * gv * 1) • outer n n + diagonal (-divVol / 3 * (1 - gv) * 1)

/-- inelastic.h:45-63 (`flux_eps_dot`). -/
def flux (root : Root K) (p : Par K) (c : K) (grains : List (Grain K d)) (divGb divVol : K) : Tensor2 K d :=
  if p.time < p.start then 0 else v c • chi root p grains divGb divVol

/-- inelastic.h:65-86 (`flux_eps_dot_dc`). -/
def fluxDc (root : Root K) (p : Par K) (c : K) (grains : List (Grain K d)) (divGb divVol : K) : Tensor2 K d :=
  if p.time < p.start then 0 else dv c • chi root p grains divGb divVol

/-- inelastic.h:214-231 (`gb_norm_detai`): disabled, always zero. -/
def normalDetai (_ : List (Grain K d)) (_ : Nat) : Fin d → K := 0

/-- inelastic.h:88-124 (`flux_eps_dot_detai`). -/
def fluxDetai (root : Root K) (p : Par K) (c : K) (grains : List (Grain K d)) (divGb divVol : K) (i : Nat) :
    Tensor2 K d :=
  if p.time < p.start then 0
  else
    let dgi := dg (grains.map (·.1)) i
    let n := normal root grains
    let k := normalDetai grains i
    let knnk := outer k n + outer n k
    let gv := g (grains.map (·.1))
    let knnk := (p.rho * divGb * gv * 1) • knnk
    let nn := (p.rho * divGb * dgi * 1) • outer n n
    let D := diagonal (dgi * divVol / 3 * 1)
    v c • (knnk + nn + D)

/-- inelastic.h:126-145 (`flux_eps_dot_ddiv_gb`). -/
def fluxDdivGb (root : Root K) (p : Par K) (c : K) (grains : List (Grain K d)) : Tensor2 K d :=
  if p.time < p.start then 0
  else (v c * g (grains.map (·.1)) * p.rho) • outer (normal root grains) (normal root grains)

/-- inelastic.h:147-163 (`flux_eps_dot_ddiv_vol`). -/
def fluxDdivVol (p : Par K) (c : K) (etas : List K) : Tensor2 K d :=
  if p.time < p.start then 0 else diagonal (-v c * (1 - g etas) / 3)

/-! ### Courant condition -/

/-- The velocities of one order parameter at the quadrature points of a batch: one list of lanes per point, the
entries being the norms of the velocities; `none` is not a number. -/
abbrev Speeds (K : Type) := List (List (Option K))

/-- A batch of cells: diameters of its active cells and, per order parameter, the speeds (`none` if the batch has no
velocity for the order parameter). -/
structure Batch (K : Type) where
  diameters : List K
  grains : List (Option (Speeds K))

/-- cfl_checker.h:38-61 (`precompute_cell_diameters`) for one batch; `lanes` is the width of the vectorised array. -/
def precompute (maxK : K) (lanes : Nat) (b : Batch K) : List K :=
  b.diameters ++ List.replicate (lanes - b.diameters.length) maxK

/-- cfl_checker.h:109-115: no lane counts as violated.  A comparison with something that is not a number is false. -/
def lanesOk (dt : K) (diam : List K) (speed : List (Option K)) : Bool :=
  (speed.zip diam).all fun sd =>
    match sd.1 with
    | some s => decide (s * dt < sd.2)
    | none => false

/-- cfl_checker.h:103-120: loop over quadrature points with `break`. -/
def pointsOk (dt : K) (diam : List K) : Speeds K → Bool
  | [] => true
  | q :: r => if lanesOk dt diam q then pointsOk dt diam r else false

/-- cfl_checker.h:101-120: loop over order parameters while the status is true. -/
def grainsOk (dt : K) (diam : List K) : List (Option (Speeds K)) → Bool
  | [] => true
  | some s :: r => if pointsOk dt diam s then grainsOk dt diam r else false
  | none :: r => grainsOk dt diam r

/-- cfl_checker.h:88-121: loop over the batches, left as soon as the status is false. -/
def batchesOk (dt : K) : List (List K × Batch K) → Bool
  | [] => true
  | (diam, b) :: r => if grainsOk dt diam b.grains then batchesOk dt r else false

/-- cfl_checker.h:63-128 (`check_courant`) on all ranks; `stored` are the precomputed diameters of each rank.  The
results are combined by a minimum over the ranks. -/
def checkCourant (dt : K) (ranks : List (List (List K) × List (Batch K))) : Res Bool := do
  let l ← ranks.mapM fun r => do
    Res.assertThrow (r.1.length == r.2.length)
    pure (if batchesOk dt (r.1.zip r.2) then 1 else 0)
  pure (decide (l.foldl min 1 ≠ 0))

end Verif.Inelastic
