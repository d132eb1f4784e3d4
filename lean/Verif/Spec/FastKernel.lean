/-
Specification: linear elements in a cell divided in each direction, integration with two points per part.
-/
import Verif.Model.FastKernel
import Mathlib.Algebra.BigOperators.Group.Finset.Basic
import Mathlib.Algebra.Order.Group.Unbundled.Abs
import Mathlib.Algebra.Order.Field.Basic

namespace Verif.FastKernel.Spec

open Finset

variable {K M : Type} [Field K] [LinearOrder K] [IsStrictOrderedRing K] [AddCommGroup M] [Module K M]

/-- The piecewise linear function that is one at node `j` of a unit interval with `n` parts, zero at the others. -/
def hat (n j : Nat) (x : K) : K := max 0 (1 - |n * x - j|)

/-- The points of the rule: two in each part, symmetric. -/
def pos (xi : K) (n p : Nat) : K := ((p / 2 : Nat) + (if p % 2 = 0 then xi else 1 - xi)) / n

/-- The slope of the function in the part of a point. -/
def slope (n j p : Nat) : K := (hat n j (((p / 2 + 1 : Nat) : K) / n) - hat n j (((p / 2 : Nat) : K) / n)) * n

/-- Address of a node. -/
def node (n : Nat) (k : Nat × Nat × Nat) : Nat := k.1 * (n + 1) * (n + 1) + k.2.1 * (n + 1) + k.2.2

/-- Number of a point. -/
def point (n : Nat) (p : Nat × Nat × Nat) : Nat := p.1 * (2 * n) * (2 * n) + p.2.1 * (2 * n) + p.2.2

/-- A field at a point: a sum over the nodes, `f` in third, `e` in second, `d` in first direction. -/
def field (n : Nat) (f e d : Nat → Nat → K) (u : Mem M) (p : Nat × Nat × Nat) : M :=
  ∑ kz ∈ range (n + 1), ∑ ky ∈ range (n + 1), ∑ kx ∈ range (n + 1), (f kz p.1 * e ky p.2.1 * d kx p.2.2) • u (node n (kz, ky, kx))

/-- Values of the shape functions at the points. -/
def val (xi : K) (n j p : Nat) : K := hat n j (pos xi n p)

/-- The operation at a point with the value and the gradient there. -/
def atPoint (op : Nat → M → Grad M → M × Grad M) (xi : K) (n : Nat) (o : Geo K) (u : Mem M) (p : Nat × Nat × Nat) : M × Grad M :=
  op (point n p) (field n (val xi n) (val xi n) (val xi n) u p)
    (o.j0 • field n (val xi n) (val xi n) (slope n) u p, o.j1 • field n (val xi n) (slope n) (val xi n) u p, o.j2 • field n (slope n) (val xi n) (val xi n) u p)

/-- The weak form tested with the shape function of a node: the integral of value times value and gradient times gradient. -/
def weak (op : Nat → M → Grad M → M × Grad M) (xi : K) (n : Nat) (o : Geo K) (u : Mem M) (k : Nat × Nat × Nat) : M :=
  ∑ pz ∈ range (2 * n), ∑ py ∈ range (2 * n), ∑ px ∈ range (2 * n),
    let r := atPoint op xi n o u (pz, py, px)
    o.jxw • ((val xi n k.1 pz * val xi n k.2.1 py * val xi n k.2.2 px) • r.1 + (o.j0 * (val xi n k.1 pz * val xi n k.2.1 py * slope n k.2.2 px)) • r.2.1 +
      (o.j1 * (val xi n k.1 pz * slope n k.2.1 py * val xi n k.2.2 px)) • r.2.2.1 + (o.j2 * (slope n k.1 pz * val xi n k.2.1 py * val xi n k.2.2 px)) • r.2.2.2)

/-- The operator: contributions of all cells to a degree of freedom. -/
def assembled (op : Nat → M → Grad M → M × Grad M) (xi : K) (n : Nat) (cs : List (Geo K × (Nat → Nat))) (src : Mem M) (i : Nat) : M :=
  (cs.map fun c => ∑ kz ∈ range (n + 1), ∑ ky ∈ range (n + 1), ∑ kx ∈ range (n + 1),
    if c.2 (node n (kz, ky, kx)) = i then weak op xi n c.1 (fun j => src (c.2 j)) (kz, ky, kx) else 0).sum

end Verif.FastKernel.Spec
