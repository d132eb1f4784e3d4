/-
Initial values: diffuse spheres, concentration, regular arrangements of grains, domain boundaries.

/repo/applications/sintering/include/pf-applications/sintering/{initial_values_ch_ac.h, initial_values_spherical.h,
initial_values_array.h, initial_values_circle.h, initial_values_hypercube.h, initial_values_cloud.h}
-/
import Verif.Model.Res
import Verif.Model.OMap
import Mathlib.Algebra.Field.Basic
import Mathlib.Algebra.Order.Field.Basic

namespace Verif.Initial

/-- initial_values.h:35-40 -/
inductive Direction
  | inside | outside | middle
  deriving DecidableEq, Repr

/-- External functions: `Point::distance`, `std::cos(x * PI)` and `std::sin(PI * x)`. -/
structure Ext (K P : Type) where
  dist : P → P → K
  cosPi : K → K
  sinPi : K → K

section
variable {K P : Type} [Field K] [LinearOrder K]

/-- initial_values_spherical.h:43-47 -/
def interfaceOffset (d : Direction) (w : K) : K :=
  if d = .inside then -w / 2 else if d = .outside then w / 2 else 0

/-- initial_values_spherical.h:50-76 `is_in_sphere`; floating point numbers are idealised. -/
def isInSphere (E : Ext K P) (d : Direction) (w : K) (point center : P) (rc : K) : K :=
  let rm := rc - interfaceOffset d w
  let rad := E.dist center point
  if rad ≤ rm - w / 2 then 1
  else if rad < rm + w / 2 then
    let intPos := (rad - rm + w / 2) / w
    0 + (1 - 0) * (1 + E.cosPi intPos) / 2
  else 0

/-- `std::max_element`: the first largest element. Dereferencing the end of an empty range is undefined. -/
def maxElement : List K → Res K
  | [] => .ub
  | x :: xs => .ok (xs.foldl (fun m y => if m < y then y else m) x)

/-- `std::min_element`. -/
def minElement : List K → Res K
  | [] => .ub
  | x :: xs => .ok (xs.foldl (fun m y => if y < m then y else m) x)

/-- initial_values_ch_ac.h:57-80 -/
def concentration (accumulative void : Bool) (ops : List K) : Res K := do
  let r ← if accumulative then
      let s := ops.foldl (· + ·) 0
      .ok (if s < 1 then s else 1)
    else maxElement ops
  .ok (if void then 1 - r else r)

/-- initial_values_ch_ac.h:44-96 `do_value`; `opValue` is the virtual function `op_value` at the point. The index of the
order parameter is an unsigned difference. -/
def doValue (opOffset nOp : Nat) (accumulative void : Bool) (opValue : Nat → Res K) (component : Nat) : Res K :=
  if (2 ≤ opOffset ∧ component = opOffset - 2) ∨ (opOffset = 1 ∧ component = 0) then do
    let ops ← (List.range nOp).mapM opValue
    concentration accumulative void ops
  else if 2 ≤ opOffset ∧ component = opOffset - 1 then .ok 0
  else opValue (if opOffset ≤ component then component - opOffset else component + 2 ^ 32 - opOffset)

/-- Loop of initial_values_array.h:46-53 and initial_values_cloud.h:228-235: values of the grains of an order parameter
until one does not vanish; `cur` is `ret_val`. -/
def firstNonzero (value : Nat → Res K) : List Nat → K → Res K
  | [], cur => .ok cur
  | g :: gs, _ => do
    let v ← value g
    if v ≠ 0 then .ok v else firstNonzero value gs v

/-- initial_values_array.h:40-56 `op_value` -/
def arrayOp (E : Ext K P) (d : Direction) (w r0 : K) (centers : List P) (table : OMap (List Nat)) (p : P) (op : Nat) :
    Res K := do
  let gs ← Res.at? (table.get? op)
  firstNonzero (fun g => do
    let c ← Res.at? centers[g]?
    .ok (isInSphere E d w p c r0)) gs 0

/-- initial_values_array.h:58-82 `get_domain_boundaries`, one coordinate of the centres. -/
def arrayBoundaries (coords : List K) (r0 : K) : Res (K × K) := do
  let mx ← maxElement coords
  let mn ← minElement coords
  .ok (mn - r0, mx + r0)

/-- initial_values_cloud.h:70-90, one coordinate: pairs of centre and radius; `big` and `tiny` are the numeric limits
`max()` and `min()` (the smallest positive normalised number) of double. -/
def cloudBoundaries (big tiny : K) (ps : List (K × K)) : K × K :=
  ps.foldl (fun b p =>
    (if p.1 - p.2 < b.1 then p.1 - p.2 else b.1, if b.2 < p.1 + p.2 then p.1 + p.2 else b.2)) (big, tiny)
end

/-! ### Order parameters of the grains -/

/-- `table[op].push_back(g)` -/
def push (t : OMap (List Nat)) (op g : Nat) : OMap (List Nat) := t.set op ((t.get? op).getD [] ++ [g])

/-- `table.at(op).push_back(g)` -/
def pushAt (t : OMap (List Nat)) (op g : Nat) : Res (OMap (List Nat)) := do
  let l ← Res.at? (t.get? op)
  .ok (t.set op (l ++ [g]))

/-- initial_values_circle.h:63-100 -/
def circleTable (n : Nat) (minimize : Bool) : Res (OMap (List Nat)) :=
  if minimize then
    if n = 1 then .ok [(0, [0])]
    else do
      let t ← (List.range n).foldlM (fun t ip => pushAt t (ip % 2) ip) [(0, []), (1, [])]
      if n % 2 ≠ 0 then do
        let l ← Res.at? (t.get? 0)
        match l.getLast? with
        | none => .ub
        | some last => .ok ((t.set 0 l.dropLast).set 2 [last])
      else .ok t
  else .ok ((List.range n).foldl (fun t ip => t.set ip [ip]) [])

/-- The index tuples in the order of the nested loops, initial_values_hypercube.h:59-89 (one to three dimensions; the
recursion stands for the nesting). -/
def indices : List Nat → List (List Nat)
  | [] => [[]]
  | n :: ns => (List.range n).flatMap fun i => (indices ns).map (i :: ·)

/-- initial_values_hypercube.h:41-89, 96-106; `nOp = 0` means no minimisation. -/
def hypercubeTable (ns : List Nat) (nOp : Nat) : OMap (List Nat) :=
  let t0 : OMap (List Nat) :=
    if 0 < nOp then
      (List.range (min (ns.foldl (· * ·) 1) nOp)).foldl (fun t op => t.emplace op []) []
    else []
  (indices ns).zipIdx.foldl (fun t (a, counter) =>
    if 0 < nOp then push t (a.sum % nOp) counter else t.set counter [counter]) t0

end Verif.Initial
