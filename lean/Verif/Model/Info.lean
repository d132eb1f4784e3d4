import Verif.Model.Connect
import Mathlib.Algebra.Field.Defs
import Mathlib.Algebra.Module.Defs
import Mathlib.Algebra.Order.Group.Unbundled.Abs
/-!
# Properties of particles

Models `compute_particles_info`, `compute_particles_radii` and `compute_particles_inertia`
(include/pf-applications/grain_tracker/distributed_stitching.h:261-437) together with
`evaluate_inertia_properties` (motion.h:67-101).

`ids c` is the global number of the particle of cell `c` (`none` = `invalid_particle_id`); the
locally owned cells are given as one list per rank, in the order of the loop over the active cells.
-/
namespace Verif
variable {K : Type}

/-- `v[i] += x` on a `std::vector<double>` -/
def addAt [Add K] (v : List K) (p : Nat × K) : Res (List K) :=
  if p.1 < v.length then .ok (v.modify p.1 (· + p.2)) else .ub

/-- one rank's loop over its cells: every cell adds its contributions to the flat array -/
def accumulate [Add K] (contrib : Nat → List (Nat × K)) (cells : List Nat) (init : List K) :
    Res (List K) :=
  cells.foldlM (fun v c => (contrib c).foldlM addAt v) init

/-- `MPI_Allreduce` with `MPI_SUM`: elementwise sum over the ranks -/
def allSum [Add K] : List (List K) → List K
  | [] => []
  | [v] => v
  | v :: vs => List.zipWith (· + ·) v (allSum vs)

/-- geometry of the cells: `cell->measure()` and `cell->center()[d]` -/
structure CellGeo (K : Type) where
  measure : Nat → K
  center : Nat → Nat → K

/-- the additions of one cell in `compute_particles_info` (distributed_stitching.h:279-292) -/
def infoContrib [Mul K] (dim : Nat) (geo : CellGeo K) (ids : Nat → Option Nat) (c : Nat) :
    List (Nat × K) :=
  match ids c with
  | none => []
  | some u =>
    ((1 + dim) * u + 0, geo.measure c) ::
      (List.range dim).map fun d => ((1 + dim) * u + 1 + d, geo.center c d * geo.measure c)

/-- result for one particle. A division by a zero measure gives no number (`none`). -/
structure ParticleInfo (K : Type) where
  center : List (Option K)
  measure : K
  deriving DecidableEq, Repr

/-- IEEE division, `none` for a zero denominator (infinity or not-a-number) -/
def fdiv [Field K] [DecidableEq K] (a b : K) : Option K := if b = 0 then none else some (a / b)

/-- one coordinate of a centre (distributed_stitching.h:309-310) -/
def readCoord [Field K] [DecidableEq K] (dim : Nat) (info : List K) (i : Nat) (m : K) (d : Nat) :
    Res (Option K) := do
  let x ← Res.index info (i * (1 + dim) + 1 + d)
  pure (fdiv x m)

/-- body of the loop over the particles (distributed_stitching.h:305-313) -/
def readInfo [Field K] [DecidableEq K] (dim : Nat) (info : List K) (i : Nat) : Res (ParticleInfo K) := do
  let m ← Res.index info (i * (1 + dim))
  let cs ← (List.range dim).mapM (readCoord dim info i m)
  pure ⟨cs, m⟩

/-- `compute_particles_info` (distributed_stitching.h:261-317) -/
def particlesInfo [Field K] [DecidableEq K] (dim : Nat) (geo : CellGeo K) (ids : Nat → Option Nat)
    (ranks : List (List Nat)) (n : Nat) : Res (List (ParticleInfo K)) := do
  let vs ← ranks.mapM fun cells =>
    accumulate (infoContrib dim geo ids) cells (List.replicate (n * (1 + dim)) 0)
  (List.range n).mapM (readInfo dim (allSum vs))

/-! ## Inertia -/

/-- `evaluate_inertia_properties` in 2D (motion.h:67-79): the amounts added to `data[0..2]` -/
def inertia2 [Field K] (x y m : K) : List K := [y * y * m, x * x * m, -x * y * m]

/-- `evaluate_inertia_properties` in 3D (motion.h:82-101) -/
def inertia3 [Field K] (x y z m : K) : List K :=
  [(y * y + z * z) * m, (x * x + z * z) * m, (x * x + y * y) * m, -x * y * m, -x * z * m, -y * z * m]

/-- the additions of one cell in `compute_particles_inertia` (distributed_stitching.h:412-426);
`f` gives the amounts for the cell relative to the centre of particle `u`, `k` is
`num_inertias<dim>` -/
def inertiaContrib (k : Nat) (f : Nat → Nat → List K) (ids : Nat → Option Nat) (c : Nat) :
    List (Nat × K) :=
  match ids c with
  | none => []
  | some u => (f u c).zipIdx.map fun p => (k * u + p.2, p.1)

/-- `compute_particles_inertia` (distributed_stitching.h:395-437) -/
def particlesInertia [Field K] (k : Nat) (f : Nat → Nat → List K) (ids : Nat → Option Nat)
    (ranks : List (List Nat)) (n : Nat) : Res (List K) := do
  let vs ← ranks.mapM fun cells =>
    accumulate (inertiaContrib k f ids) cells (List.replicate (n * k) 0)
  pure (allSum vs)

/-! ## Radii -/

section radii
variable [Field K] [LinearOrder K] {V : Type} [AddCommGroup V] [SMul K V]

/-- what the mesh tells about a cell relative to the centre of its particle: `cell->barycenter() -
center` and `cell->diameter()`; `norm` is the Euclidean norm -/
structure CellExt (V K : Type) where
  rel : Nat → V
  diam : Nat → K
  norm : V → K

/-- `dist` (distributed_stitching.h:352-353) -/
def CellExt.dist (E : CellExt V K) (c : Nat) : K := E.norm (E.rel c) + E.diam c / 2

/-- `dist_vec` (distributed_stitching.h:349-350); normalising the zero vector gives no number -/
def CellExt.vec (E : CellExt V K) (c : Nat) : Option V :=
  if E.norm (E.rel c) = 0 then none
  else some (E.rel c + (E.diam c / 2) • ((E.norm (E.rel c))⁻¹ • E.rel c))

/-- loop body of `compute_particles_radii` (distributed_stitching.h:335-359) -/
def radiiStep (E : CellExt V K) (ids : Nat → Option Nat) (s : List K × List (Option V)) (c : Nat) :
    Res (List K × List (Option V)) :=
  match ids c with
  | none => .ok s
  | some u => do
    let r ← Res.index s.1 u
    let rem := if E.dist c > r then s.2.set u (E.vec c) else s.2
    pure (s.1.set u (max r (E.dist c)), rem)

/-- the loop of one rank, starting with zeros -/
def rankRadii (E : CellExt V K) (ids : Nat → Option Nat) (cells : List Nat) (n : Nat) :
    Res (List K × List (Option V)) :=
  cells.foldlM (radiiStep E ids) (List.replicate n 0, List.replicate n (some 0))

/-- addition where not-a-number spreads -/
def addNan (a b : Option V) : Option V := a.bind fun x => b.map (x + ·)

/-- the ranks that do not own the furthest point nullify theirs (distributed_stitching.h:373-381) -/
def nullify (tol : K) (glob loc : List K) (rem : List (Option V)) : List (Option V) :=
  List.zipWith (fun (p : K × K) x => if |p.1 - p.2| > tol then some 0 else x) (glob.zip loc) rem

/-- `MPI_SUM` of the remote points (distributed_stitching.h:384-389) -/
def sumRemotes : List (List (Option V)) → List (Option V)
  | [] => []
  | [v] => v
  | v :: vs => List.zipWith addNan v (sumRemotes vs)

/-- `compute_particles_radii` with `evaluate_remotes` (distributed_stitching.h:319-393); `tol` is
`1e-16` -/
def particlesRadii (tol : K) (E : CellExt V K) (ids : Nat → Option Nat) (ranks : List (List Nat))
    (n : Nat) : Res (List K × List (Option V)) := do
  let rs ← ranks.mapM fun cells => rankRadii E ids cells n
  let glob := allMax (rs.map (·.1))
  pure (glob, sumRemotes (rs.map fun r => nullify tol glob r.1 r.2))

end radii
end Verif
