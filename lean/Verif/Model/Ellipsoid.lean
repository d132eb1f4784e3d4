/-
Ellipsoids and their distance, elliptical representations of particles, rotations.

/repo/include/pf-applications/grain_tracker/ellipsoid.h, motion.h, elliptical_helpers.h, representation.h,
tracker.h:1402-1460
-/
import Mathlib.Analysis.Real.Sqrt
import Mathlib.LinearAlgebra.Matrix.Notation
import Verif.Model.Res

namespace Verif.Ellipsoid

open Matrix

noncomputable section

/-- `Tensor<1, dim, Number>` and `Point<dim, Number>`, with real numbers. -/
abbrev Vec (n : Nat) := Fin n → ℝ

/-- `Tensor<1, dim>::norm`. -/
def length {n : Nat} (v : Vec n) : ℝ := Real.sqrt (v ⬝ᵥ v)

/-- motion.h:33-43 `rotation_tensor_from_axes(axes, axes0)`: sum of the outer products `axes0[d] axes[d]^T`. -/
def rotationFromAxes {n : Nat} (axes axes0 : Fin n → Vec n) : Matrix (Fin n) (Fin n) ℝ :=
  fun i j => ∑ d, axes0 d i * axes d j

/-- motion.h:51-53: axes of the global system. -/
def globalAxes {n : Nat} : Fin n → Vec n := fun d i => if i = d then 1 else 0

/-- motion.h:47-57 `rotation_tensor_from_axes(axes, transpose)`. -/
def rotationGlobal {n : Nat} (axes : Fin n → Vec n) (transpose : Bool) : Matrix (Fin n) (Fin n) ℝ :=
  if transpose then rotationFromAxes axes globalAxes else rotationFromAxes globalAxes axes

/-- motion.h:92-114 `rotation_via_quaternions`; `c` and `s` are the cosine and sine of half the angle. -/
def rotationViaQuaternions (axis : Vec 3) (c s : ℝ) : Matrix (Fin 3) (Fin 3) ℝ :=
  let q0 := c
  let q1 := s * axis 0
  let q2 := s * axis 1
  let q3 := s * axis 2
  !![1 - 2 * (q2 * q2 + q3 * q3), 2 * (q1 * q2 - q0 * q3), 2 * (q0 * q2 + q1 * q3);
     2 * (q1 * q2 + q0 * q3), 1 - 2 * (q1 * q1 + q3 * q3), 2 * (q2 * q3 - q0 * q1);
     2 * (q1 * q3 - q0 * q2), 2 * (q0 * q1 + q2 * q3), 1 - 2 * (q1 * q1 + q2 * q2)]

/-- ellipsoid.h:41-53 `get_radii_from_inertia` in two dimensions; `none` if a radius is not a number (division by zero or
square root of a negative number). -/
def radiiFromInertia2 (I : Vec 2) (measure : ℝ) : Option (Vec 2) :=
  let a := 4 / measure * I 1
  let b := 4 / measure * I 0
  if measure = 0 ∨ a < 0 ∨ b < 0 then none else some ![Real.sqrt a, Real.sqrt b]

/-- ellipsoid.h:63-77 `get_radii_from_inertia` in three dimensions. -/
def radiiFromInertia3 (I : Vec 3) (measure : ℝ) : Option (Vec 3) :=
  let a := 5 / 2 / measure * (I 1 + I 2 - I 0)
  let b := 5 / 2 / measure * (I 0 + I 2 - I 1)
  let c := 5 / 2 / measure * (I 0 + I 1 - I 2)
  if measure = 0 ∨ a < 0 ∨ b < 0 ∨ c < 0 then none else some ![Real.sqrt a, Real.sqrt b, Real.sqrt c]

/-- The quadratic form `1/2 x^T A x + b^T x + alpha` (ellipsoid.h:79-82, 292-295). -/
structure Form (n : Nat) where
  A : Matrix (Fin n) (Fin n) ℝ
  b : Vec n
  alpha : ℝ

/-- ellipsoid.h:275 -/
def Form.eval {n : Nat} (F : Form n) (p : Vec n) : ℝ := 1 / 2 * ((F.A *ᵥ p) ⬝ᵥ p) + F.b ⬝ᵥ p + F.alpha

/-- ellipsoid.h:297-298, `Tensor<2, dim>::norm`: Frobenius norm of A. -/
def Form.norm {n : Nat} (F : Form n) : ℝ := Real.sqrt (∑ i, ∑ j, F.A i j ^ 2)

/-- ellipsoid.h:280-299 `init_quadratic_form`; `basis_transformation(S, Q)` of deal.II is `Q S Q^T`. -/
def quadraticForm {n : Nat} (center radii : Vec n) (axes : Fin n → Vec n) : Form n :=
  let S : Matrix (Fin n) (Fin n) ℝ := Matrix.diagonal fun d => 1 / radii d ^ 2
  let Q := rotationGlobal axes false
  let A := Q * S * Qᵀ
  { A := A, b := -(A *ᵥ center), alpha := 1 / 2 * ((A *ᵥ center) ⬝ᵥ center) - 1 / 2 }

/-- ellipsoid.h:84-318 `Ellipsoid`. `radii = none`: not a number. `form = none`: the coefficients of the quadratic form are
not finite, because a radius is zero or not a number. -/
structure Ell (n : Nat) where
  center : Vec n
  radii : Option (Vec n)
  axes : Fin n → Vec n
  form : Option (Form n)

/-- ellipsoid.h:89-101: constructor from centre, radii and axes. -/
def mkEll {n : Nat} (center : Vec n) (radii : Option (Vec n)) (axes : Fin n → Vec n) : Ell n :=
  { center := center, radii := radii, axes := axes
    form := radii.bind fun r =>
      open Classical in if ∃ d, r d = 0 then none else some (quadraticForm center r axes) }

/-- ellipsoid.h:173-186: constructor which scales an ellipsoid. -/
def scaled {n : Nat} (E : Ell n) (s : ℝ) : Ell n := mkEll E.center (E.radii.map fun r d => r d * s) E.axes

/-- ellipsoid.h:116-170: radii of an ellipsoid built from its quadratic form; `ev` are the eigenvalues of A. The code scales A
by `1 / (2 alpha)` and takes the inverse square roots of the eigenvalues. -/
def radiiFromForm {n : Nat} (ev : Vec n) (alpha : ℝ) : Option (Vec n) :=
  open Classical in
  if alpha = 0 ∨ ∃ d, ev d * (1 / (2 * alpha)) ≤ 0 then none
  else some fun d => 1 / Real.sqrt (ev d * (1 / (2 * alpha)))

/-- ellipsoid.h:272-277 `point_inside`; false if not a number. -/
def pointInside {n : Nat} (E : Ell n) (p : Vec n) (tol : ℝ) : Bool :=
  match E.form with
  | none => false
  | some F => decide (F.eval p ≤ tol)

/-- ellipsoid.h:325-332 `solve_quadratic`; `none` if the solutions are not finite. -/
def solveQuadratic (a b c : ℝ) : Option (ℝ × ℝ) :=
  let D := b * b - 4 * a * c
  if a = 0 ∨ D < 0 then none else some ((-b - Real.sqrt D) / (2 * a), (-b + Real.sqrt D) / (2 * a))

/-- ellipsoid.h:380 -/
def inRange (v : ℝ) : Bool := decide (0 ≤ v ∧ v ≤ 1)

/-- ellipsoid.h:363-396 `find_ellipsoid_intersection`. -/
def intersection {n : Nat} (form : Option (Form n)) (c1 c2 : Vec n) : Res (ℝ × Bool) :=
  match form with
  | none => .ok (0, true)
  | some F =>
    let Ac1 := F.A *ᵥ c1
    let Ac2 := F.A *ᵥ c2
    let a := 1 / 2 * (Ac1 ⬝ᵥ c1 - 2 * (Ac1 ⬝ᵥ c2) + Ac2 ⬝ᵥ c2)
    let b := Ac2 ⬝ᵥ c1 - Ac1 ⬝ᵥ c1 + F.b ⬝ᵥ c2 - F.b ⬝ᵥ c1
    let c := 1 / 2 * (Ac1 ⬝ᵥ c1) + F.b ⬝ᵥ c1 + F.alpha
    match solveQuadratic a b c with
    | none => .ok (0, true)
    | some (s1, s2) =>
      if !inRange s1 && !inRange s2 then .ok (0, true)
      else if inRange s1 && inRange s2 then .exc .assertThrow
      else .ok (if inRange s1 then s1 else s2, false)

/-- ellipsoid.h:344-351 `crit` -/
def crit {n : Nat} (v w : Vec n) (eps : ℝ) : Bool :=
  decide ((v ⬝ᵥ w) ^ 2 > (1 - eps * eps / 2) ^ 2 * (v ⬝ᵥ v) * (w ⬝ᵥ w))

/-- Gradient of the form, ellipsoid.h:485-505. -/
def Form.grad {n : Nat} (F : Form n) (p : Vec n) : Vec n := F.A *ᵥ p + F.b

/-- ellipsoid.h:504-505: new reference point. -/
def Form.next {n : Nat} (F : Form n) (x : Vec n) : Vec n := x - (1 / F.norm) • F.grad x

/-- Options of `distance` (ellipsoid.h:416-419). -/
structure Options where
  testRelative : Bool
  testCollinear : Bool
  tol : ℝ

/-- ellipsoid.h:473-497: convergence; a division by zero is not smaller than the tolerance. -/
def converged {n : Nat} (o : Options) (epsD : ℝ) (F1 F2 : Form n) (dist distPrev : ℝ) (x1 x2 : Vec n) : Bool :=
  (!o.testRelative || decide (distPrev ≠ 0 ∧ |dist - distPrev| / distPrev < o.tol)) &&
  (!o.testCollinear || (crit (x2 - x1) (F1.grad x1) epsD && crit (x1 - x2) (F2.grad x2) epsD))

/-- ellipsoid.h:441-506: the loop of `distance`; the first argument is the number of iterations left. The result is the
distance, the number of iterations and whether the iteration has converged. Without quadratic forms the intersection reports an
overlap. -/
def iterate {n : Nat} (o : Options) (epsD : ℝ) (F1 F2 : Form n) :
    Nat → Nat → Vec n → Vec n → ℝ → Res (ℝ × Nat × Bool)
  | 0, iter, _, _, dist => .ok (dist, iter, false)
  | k + 1, iter, c1, c2, distPrev => do
    let (t1, overlap1) ← intersection (some F1) c1 c2
    if overlap1 then .ok (0, iter, true)
    else do
      let (t2, overlap2) ← intersection (some F2) c1 c2
      if overlap2 || decide (t2 < t1) then .ok (0, iter, true)
      else
        let x1 := c1 + t1 • (c2 - c1)
        let x2 := c1 + t2 • (c2 - c1)
        let dist := length (x1 - x2)
        if converged o epsD F1 F2 dist distPrev x1 x2 then .ok (dist, iter + 1, true)
        else iterate o epsD F1 F2 k (iter + 1) (F1.next x1) (F2.next x2) dist

/-- ellipsoid.h:93, 100: largest radius (of non-negative radii). -/
def rMax {n : Nat} (E : Ell n) : ℝ := (List.ofFn (E.radii.getD 0)).foldr max 0

/-- ellipsoid.h:412-509 `distance`. -/
def distance {n : Nat} (E1 E2 : Ell n) (o : Options) (maxIter : Nat) : Res (ℝ × Nat × Bool) :=
  if !(o.testRelative || o.testCollinear) then .exc .assertThrow
  else if ¬ length (E2.center - E1.center) > o.tol then .exc .assertThrow
  else
    let epsD := Real.sqrt (2 * o.tol / (rMax E1 + rMax E2))
    match E1.form, E2.form with
    | some F1, some F2 =>
      iterate o epsD F1 F2 maxIter 0 E1.center E2.center (length (E2.center - E1.center))
    | none, _ => if maxIter = 0 then .ok (length (E2.center - E1.center), 0, false) else .ok (0, 0, true)
    | some F1, none =>
      if maxIter = 0 then .ok (length (E2.center - E1.center), 0, false)
      else do
        let _ ← intersection (some F1) E1.center E2.center
        .ok (0, 0, true)

/-- A cell of a particle: barycentre and diameter. -/
structure Cell (n : Nat) where
  barycenter : Vec n
  diameter : ℝ

/-- elliptical_helpers.h:59-61: barycentre moved outwards by half of the diameter; `none` if not a number. -/
def extent {n : Nat} (center : Vec n) (cell : Cell n) : Option (Vec n) :=
  let d := cell.barycenter - center
  if length d = 0 then none else some (center + (d + (cell.diameter / 2) • ((1 / length d) • d)))

/-- elliptical_helpers.h:44-72: one cell; `acc` is the scale so far. A point that is not a number is not inside and the
intersection reports an overlap. -/
def scaleCell {n : Nat} (E : Ell n) (acc : ℝ) (cell : Cell n) : Res ℝ :=
  match extent E.center cell with
  | none => .ok acc
  | some p =>
    if pointInside E p (1 / 10 ^ 9) then .ok acc
    else do
      let (t, _) ← intersection E.form E.center p
      .ok (if 0 < t ∧ t < 1 then max (1 / t) acc else acc)

/-- elliptical_helpers.h:31-84 `scale_elliptical_representations` for one particle; the cells of the particle on all ranks. -/
def particleScale {n : Nat} (E : Ell n) (ranks : List (List (Cell n))) : Res ℝ := do
  let s ← ranks.mapM fun cells => cells.foldlM (scaleCell E) 1
  .ok (s.foldl max 1)

/-- tracker.h:1413-1440: the most remote point is to be covered; `none`: not a number. -/
def coverRemote {n : Nat} (E : Ell n) (remote : Option (Vec n)) : Res (Ell n) :=
  match remote with
  | none => .ok E
  | some r => do
    let (t, _) ← intersection E.form E.center (E.center + r)
    .ok (if 0 < t ∧ t < 1 then scaled E (1 / t) else E)

/-- tracker.h:1402-1460: the representation of one particle, from the ellipsoid of its inertia. -/
def represent {n : Nat} (E : Ell n) (remote : Option (Vec n)) (ranks : List (List (Cell n))) : Res (Ell n) := do
  let E1 ← coverRemote E remote
  let s ← particleScale E1 ranks
  .ok (if s > 1 + 1 / 10 ^ 9 then scaled E1 s else E1)

end

end Verif.Ellipsoid
