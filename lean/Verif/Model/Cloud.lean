/-
Initial values from a cloud of particles: contacts, order parameters, values in the contact regions.

/repo/applications/sintering/include/pf-applications/sintering/initial_values_cloud.h
-/
import Verif.Model.InitialValues
import Mathlib.Algebra.Module.Defs

namespace Verif.Cloud

open Verif.Initial

/-- particle.h:28-36; the neighbours are filled by the constructor of the cloud. -/
structure Part (K P : Type) where
  center : P
  radius : K
  id : Nat
  deriving DecidableEq, Repr

/-- initial_values_cloud.h:279-294. `frame` is the first row of the rotation matrix and the centre; `none` if they contain
NaN. Only the first row of the matrix is ever used (line 460). -/
structure Contact (P : Type) where
  primary : Nat
  secondary : Nat
  frame : Option (P × P)
  deriving DecidableEq, Repr

/-- External functions and the first row of the rotation matrix from the origin and the direction (see `row2`, `row3`
below). -/
structure CloudExt (K P : Type) extends Ext K P where
  sqrt : K → K
  dot : P → P → K
  row : P → P → Res (Option P)

section
variable {K P : Type} [Field K] [LinearOrder K] [AddCommGroup P] [Module K P]

/-- initial_values_cloud.h:128-132: neck radius by Heron's formula; `none` is NaN (square root of a negative number or
division by zero). -/
def neckRadius (sqrt : K → K) (r1 r2 distance : K) : Option K :=
  let s := (r1 + r2 + distance) / 2
  let q := s * (s - r1) * (s - r2) * (s - distance)
  if distance = 0 ∨ q < 0 then none else some (2 / distance * sqrt q)

/-- initial_values_cloud.h:136: distance from the centre of particle 1 to the centre of the neck. -/
def neckDistance (sqrt : K → K) (r1 r2 distance : K) : Option K :=
  match neckRadius sqrt r1 r2 distance with
  | none => none
  | some r0 => if r1 * r1 - r0 * r0 < 0 then none else some (sqrt (r1 * r1 - r0 * r0))

/-- initial_values_cloud.h:125 -/
def overlap (E : Ext K P) (p1 p2 : Part K P) : Bool :=
  E.dist p2.center p1.center ≤ (p1.radius + p2.radius) - 1 / 1000 * (p1.radius + p2.radius)

/-- initial_values_cloud.h:110-176 -/
def makeContact (E : CloudExt K P) (p1 p2 : Part K P) : Res (Contact P) := do
  let distance := E.dist p2.center p1.center
  if distance = 0 then .ok ⟨p1.id, p2.id, none⟩
  else do
    let ex := (1 / distance) • (p2.center - p1.center)
    let row ← E.row p1.center ex
    .ok ⟨p1.id, p2.id, match row, neckDistance E.sqrt p1.radius p2.radius distance with
      | some r, some dm => some (r, p1.center + dm • ex)
      | _, _ => none⟩

/-- Indices of the neighbours of particle `i` in the order of the loop. -/
def neighbours (E : Ext K P) (ps : List (Part K P)) (i : Nat) (p1 : Part K P) : List Nat :=
  (ps.zipIdx.filter fun (p2, j) => i ≠ j ∧ overlap E p1 p2).map Prod.snd

/-- initial_values_cloud.h:98-181: contacts by pairs of indices. -/
def contacts (E : CloudExt K P) (ps : List (Part K P)) : Res (List ((Nat × Nat) × Contact P)) := do
  let rows ← ps.zipIdx.mapM fun (p1, i) =>
    (ps.zipIdx.filter fun (p2, j) => i ≠ j ∧ overlap E.toExt p1 p2).mapM fun (p2, j) => do
      let c ← makeContact E p1 p2
      .ok ((i, j), c)
  .ok rows.flatten

/-- initial_values_cloud.h:186-196: particles which need different order parameters. -/
def close (E : Ext K P) (w interfaceRatio radiusRatio : K) (p1 p2 : Part K P) : Bool :=
  let buffer := w + interfaceRatio * w + radiusRatio * (if p1.radius < p2.radius then p2.radius else p1.radius)
  E.dist p2.center p1.center ≤ (p1.radius + p2.radius) + buffer

/-- initial_values_cloud.h:202-221; the colours are the result of `color_sparsity_pattern`, starting at 1. -/
def cloudTable (n : Nat) (minimize : Bool) (colours : List Nat) : OMap (List Nat) :=
  (List.range n).foldl (fun t i => push t (if minimize then colours.getD i 0 - 1 else i) i) []

/-- State of the loop 410-424: largest concentration and its particle. -/
def secondary (E : Ext K P) (d : Direction) (w : K) (ps : List (Part K P)) (p : P) :
    List Nat → K × Option Nat → Res (K × Option Nat)
  | [], s => .ok s
  | j :: js, (c, id) => do
    let q ← Res.index ps j
    let v := isInSphere E d w p q.center q.radius
    secondary E d w ps p js (if c < v then (v, some q.id) else (c, id))

/-- initial_values_cloud.h:445-492: value in the region of a contact; a comparison with NaN is false. -/
def contactValue (E : CloudExt K P) (w cMain cSec : K) (c : Contact P) (p : P) : K :=
  match c.frame with
  | none => 0
  | some (row, center) =>
    let xp := E.dot row (p - center)
    if xp < w / 2 then
      if 1 / 2 < cSec ∧ -w / 2 < xp then 1 / 2 - 1 / 2 * E.sinPi (xp / w) else cMain
    else 0

/-- initial_values_cloud.h:391-497 `value_for_particle`; `i` is the index of the particle. -/
def valueForParticle (E : CloudExt K P) (d : Direction) (w : K) (ps : List (Part K P))
    (cs : List ((Nat × Nat) × Contact P)) (p : P) (i : Nat) (cur : Part K P) : Res K := do
  let cMain := isInSphere E.toExt d w p cur.center cur.radius
  if cMain ≠ 0 then do
    let (cSec, id) ← secondary E.toExt d w ps p (neighbours E.toExt ps i cur) (0, none)
    match id with
    | none => .ok cMain
    | some sid => do
      let c ← Res.at? (cs.lookup (cur.id, sid))
      .ok (contactValue E w cMain cSec c p)
  else .ok cMain

/-- initial_values_cloud.h:214-238 `op_value` -/
def opValue (E : CloudExt K P) (d : Direction) (w : K) (ps : List (Part K P)) (cs : List ((Nat × Nat) × Contact P))
    (table : OMap (List Nat)) (p : P) (op : Nat) : Res K := do
  Res.assertThrow (op < table.length)
  let gs ← Res.at? (table.get? op)
  firstNonzero (fun i => do
    let q ← Res.at? ps[i]?
    valueForParticle E d w ps cs p i q) gs 0
end

/-! ### Local coordinate systems -/

section
variable {K : Type} [Field K] [LinearOrder K]

/-- Two dimensional points. -/
abbrev P2 (K : Type) := K × K
/-- Three dimensional points. -/
abbrev P3 (K : Type) := K × K × K

def dot2 (a b : P2 K) : K := a.1 * b.1 + a.2 * b.2
def dot3 (a b : P3 K) : K := a.1 * b.1 + a.2.1 * b.2.1 + a.2.2 * b.2.2

/-- `cross_product_2d` of deal.II. -/
def cross2 (a : P2 K) : P2 K := (a.2, -a.1)

/-- `cross_product_3d` of deal.II. -/
def cross3 (a b : P3 K) : P3 K :=
  (a.2.1 * b.2.2 - a.2.2 * b.2.1, a.2.2 * b.1 - a.1 * b.2.2, a.1 * b.2.1 - a.2.1 * b.1)

/-- `a / a.norm()`; `none` is NaN. -/
def normalize3 (sqrt : K → K) (a : P3 K) : Option (P3 K) :=
  let n := sqrt (dot3 a a)
  if n = 0 then none else some (a.1 / n, a.2.1 / n, a.2.2 / n)

/-- Two dimensions, lines 140-143 and 157-159: the rows of the rotation matrix. -/
def frame2 (ex : P2 K) : P2 K × P2 K := (ex, cross2 ex)

def row2 (_origin ex : P2 K) : Res (Option (P2 K)) := .ok (some (frame2 ex).1)

/-- initial_values_cloud.h:328-349 `check_orientation_point` -/
def checkOrientation (sqrt : K → K) (tol : K) (origin ex candidate : P3 K) : Bool :=
  let e := candidate - origin
  let n := sqrt (dot3 e e)
  if n < tol then false
  else
    let e' : P3 K := (e.1 / n, e.2.1 / n, e.2.2 / n)
    !decide (|dot3 ex e' - 1| < tol)

/-- initial_values_cloud.h:351-389 `get_orientation_point`; `rnd` are the random points. -/
def orientationPoint (sqrt : K → K) (tol : K) (rnd : List (P3 K)) (origin ex : P3 K) : Res (P3 K) :=
  if checkOrientation sqrt tol origin ex (0, 0, 0) then .ok (0, 0, 0)
  else match (rnd.take 100).find? (checkOrientation sqrt tol origin ex) with
    | some c => .ok c
    | none => .exc .assertThrow

/-- Three dimensions, lines 144-166: rows of the rotation matrix. -/
def frame3 (sqrt : K → K) (tol : K) (rnd : List (P3 K)) (origin ex : P3 K) : Res (Option (P3 K × P3 K × P3 K)) := do
  let o ← orientationPoint sqrt tol rnd origin ex
  match normalize3 sqrt (cross3 (o - origin) ex) with
  | none => .ok none
  | some ey => .ok (some (ex, ey, cross3 ex ey))

/-- The first row; a NaN in the second axis makes it NaN as well, `1 * ex + 0 * ey`. -/
def row3 (sqrt : K → K) (tol : K) (rnd : List (P3 K)) (origin ex : P3 K) : Res (Option (P3 K)) := do
  let f ← frame3 sqrt tol rnd origin ex
  .ok (f.map Prod.fst)
end

end Verif.Cloud
