/-
Hand-written matrix-free kernel of the benchmarks.
  benchmarks/operators.h:26-41, 131-639 (levels 4 and 5), 672-676 (reference)
  benchmarks/layer_wise.likwid.cc:123-183 (`create_op`)

Simplifications: arrays are functions of the address (all components of a value at once: loops over components are inside operations on values);
one lane per batch; `n_q_points` is `2 * fe_degree` (true for all instantiations, layer_wise.likwid.cc:139-171); no constraints.
-/
import Mathlib.Algebra.Module.Defs
import Mathlib.Algebra.Field.Defs
import Mathlib.Data.List.Defs

namespace Verif.FastKernel

/-- An array. -/
abbrev Mem (M : Type) := Nat → M

variable {K M : Type} [Field K] [AddCommGroup M] [Module K M]

/-- `m[i] = v`. -/
def put (m : Mem M) (i : Nat) (v : M) : Mem M := fun j => if j = i then v else m j

/-- benchmarks/operators.h:232-262 and 267-281: values at the points of a line from those at its nodes; `rd` and `wr` are the addresses. -/
def lineUp (a b : K) (n : Nat) (rd : Nat → M) (wr : Nat → Nat) (t : Mem M) : Mem M :=
  let t := put t (wr 0) (a • rd 0 + b • rd 1)
  let t := (List.range (n - 1)).foldl (fun t i0 =>
    let h := a • rd (1 + i0)
    let t := put t (wr (2 * i0 + 1)) (h + b • rd i0)
    put t (wr (2 * i0 + 2)) (h + b • rd (i0 + 2))) t
  put t (wr (2 * n - 1)) (a • rd n + b • rd (n - 1))

/-- benchmarks/operators.h:225-284: lines in the first direction into `temp`, then lines in the second one, plane by plane. -/
def planesUp (a b : K) (n : Nat) (dof : Mem M) (vq : Mem M) : Mem M :=
  (List.range (n + 1)).foldl (fun vq iz =>
    let temp := (List.range (n + 1)).foldl (fun t i1 => lineUp a b n (fun j => dof (iz * (n + 1) * (n + 1) + i1 * (n + 1) + j)) (fun p => i1 * (2 * n) + p) t) fun _ => 0
    (List.range (2 * n)).foldl (fun vq i1 => lineUp a b n (fun j => temp (i1 + j * (2 * n))) (fun p => iz * (2 * n) * (2 * n) + i1 + p * (2 * n)) vq) vq) vq

/-- benchmarks/operators.h:291-323: a line in the third direction in place, from its end to its beginning, with derivatives. -/
def columnUp (a b g : K) (n : Nat) (ad : Nat → Nat) (s : Mem M × Mem M) : Mem M × Mem M :=
  let t0 := s.1 (ad n)
  let t1 := s.1 (ad (n - 1))
  let v := put s.1 (ad (2 * n - 1)) (a • t0 + b • t1)
  let r := ((List.range (n - 1)).reverse.map (· + 1)).foldl (fun (s : (Mem M × Mem M) × M × M) i0 =>
    let t := a • s.2.2
    let v := put s.1.1 (ad (2 * i0)) (t + b • s.2.1)
    let gr := g • (v (ad (2 * i0 + 1)) - v (ad (2 * i0)))
    let gz := put (put s.1.2 (ad (2 * i0)) gr) (ad (2 * i0 + 1)) gr
    let t1 := v (ad (i0 - 1))
    ((put v (ad (2 * i0 - 1)) (t + b • t1), gz), s.2.2, t1)) ((v, s.2), t0, t1)
  let v := put r.1.1 (ad 0) (a • r.2.2 + b • r.2.1)
  let gr := g • (v (ad 1) - v (ad 0))
  (v, put (put r.1.2 (ad 1) gr) (ad 0) gr)

/-- benchmarks/operators.h:286-325. -/
def columnsUp (a b g : K) (n : Nat) (s : Mem M × Mem M) : Mem M × Mem M :=
  (List.range (2 * n * (2 * n))).foldl (fun s i => columnUp a b g n (fun k => i + k * (2 * n) * (2 * n)) s) s

/-- A gradient. -/
abbrev Grad (M : Type) := M × M × M

/-- Diagonal of the inverse Jacobian, its determinant times the weight of the points (327-331). -/
structure Geo (K : Type) where
  j0 : K
  j1 : K
  j2 : K
  jxw : K

/-- benchmarks/operators.h:337-401 (level 4), a cell of two by two points. -/
def cell4 (g : K) (o : Geo K) (mm idx : Nat) (s : Mem M × Mem M) : Mem M × Mem M :=
  let v := s.1
  let gy0 := g • (v (idx + mm) - v idx)
  let gy1 := g • (v (idx + mm + 1) - v (idx + 1))
  let gx0 := g • (v (idx + 1) - v idx)
  let gx1 := g • (v (idx + mm + 1) - v (idx + mm))
  let v := put v idx (o.jxw • v idx)
  let v := put v (idx + 1) (o.jxw • v (idx + 1))
  let v := put v (idx + mm) (o.jxw • v (idx + mm))
  let v := put v (idx + mm + 1) (o.jxw • v (idx + mm + 1))
  let z := s.2
  let z := put z idx ((o.jxw * o.j2 * o.j2) • z idx)
  let z := put z (idx + 1) ((o.jxw * o.j2 * o.j2) • z (idx + 1))
  let z := put z (idx + mm) ((o.jxw * o.j2 * o.j2) • z (idx + mm))
  let z := put z (idx + mm + 1) ((o.jxw * o.j2 * o.j2) • z (idx + mm + 1))
  let y0 := (o.jxw * o.j1 * o.j1) • gy0
  let y1 := (o.jxw * o.j1 * o.j1) • gy1
  let x0 := (o.jxw * o.j0 * o.j0) • gx0
  let x1 := (o.jxw * o.j0 * o.j0) • gx1
  let v := put v idx (v idx - g • (x0 + x0))
  let v := put v idx (v idx - g • (y0 + y0))
  let v := put v (idx + 1) (v (idx + 1) + g • (x0 + x0))
  let v := put v (idx + 1) (v (idx + 1) - g • (y1 + y1))
  let v := put v (idx + mm) (v (idx + mm) - g • (x1 + x1))
  let v := put v (idx + mm) (v (idx + mm) + g • (y0 + y0))
  let v := put v (idx + mm + 1) (v (idx + mm + 1) + g • (x1 + x1))
  let v := put v (idx + mm + 1) (v (idx + mm + 1) + g • (y1 + y1))
  (v, z)

/-- benchmarks/operators.h:436-445: address of a point of the cell. -/
def corner (mm idx Q : Nat) : Nat := if Q = 0 then idx else if Q = 1 then idx + 1 else if Q = 2 then idx + mm else idx + mm + 1

/-- State of the loop over the points of a cell: values, derivatives, `tmp_x0`, `tmp_x1`, `tmp_y0`, `tmp_y1`. -/
structure QSt (M : Type) where
  v : Mem M
  z : Mem M
  x0 : M
  x1 : M
  y0 : M
  y1 : M

/-- benchmarks/operators.h:407-526 (level 5), a cell of two by two points. -/
def cell5 (op : Nat → M → Grad M → M × Grad M) (g : K) (o : Geo K) (mm idx : Nat) (s : Mem M × Mem M) : Mem M × Mem M :=
  let v := s.1
  let tx0 := (g * o.j0) • (v (idx + 1) - v idx)
  let tx1 := (g * o.j0) • (v (idx + mm + 1) - v (idx + mm))
  let ty0 := (g * o.j1) • (v (idx + mm) - v idx)
  let ty1 := (g * o.j1) • (v (idx + mm + 1) - v (idx + 1))
  let r := (List.range 4).foldl (fun (r : QSt M) Q =>
    let i := corner mm idx Q
    let out := op i (r.v i) (if Q / 2 = 0 then tx0 else tx1, if Q % 2 = 0 then ty0 else ty1, o.j2 • r.z i)
    let x := (o.jxw * o.j0) • out.2.1
    let y := (o.jxw * o.j1) • out.2.2.1
    let v := put r.v i (o.jxw • out.1)
    let z := put r.z i ((o.jxw * o.j2) • out.2.2.2)
    if Q = 0 then { r with v := v, z := z, x0 := x, y0 := y }
    else if Q = 1 then { r with v := v, z := z, x0 := r.x0 + x, y1 := y }
    else if Q = 2 then { r with v := v, z := z, x1 := x, y0 := r.y0 + y }
    else { r with v := v, z := z, x1 := r.x1 + x, y1 := r.y1 + y }) ⟨s.1, s.2, 0, 0, 0, 0⟩
  let v := put r.v idx (r.v idx + g • (-r.x0 - r.y0))
  let v := put v (idx + 1) (v (idx + 1) + g • (r.x0 - r.y1))
  let v := put v (idx + mm) (v (idx + mm) + g • (-r.x1 + r.y0))
  let v := put v (idx + mm + 1) (v (idx + mm + 1) + g • (r.x1 + r.y1))
  (v, r.z)

/-- benchmarks/operators.h:332-335, 339-340, 405-408: the cells of all planes (`iz`, `i1`, `i0`). -/
def cells (n : Nat) : List (Nat × Nat × Nat) :=
  (List.range (2 * n)).product ((List.range n).product (List.range n))

/-- benchmarks/operators.h:332-335: `iz * mm * mm + offsets[el]`. -/
def first (n : Nat) (c : Nat × Nat × Nat) : Nat := c.1 * (2 * n) * (2 * n) + (c.2.1 * (2 * n) * 2 + c.2.2 * 2)

/-- benchmarks/operators.h:529-556: a line in the third direction in place, from its beginning to its end. -/
def columnDown (a b g : K) (n : Nat) (ad : Nat → Nat) (z v : Mem M) : Mem M :=
  let t := z (ad 0) + z (ad 1)
  let t0 := v (ad 0) - g • t
  let t1 := v (ad 1) + g • t
  let v := put v (ad 0) (a • t0 + b • t1)
  let r := ((List.range (n - 1)).map (· + 1)).foldl (fun (s : Mem M × M × M) i0 =>
    let sum := b • s.2.1 + a • s.2.2
    let t := z (ad (2 * i0)) + z (ad (2 * i0 + 1))
    let t0 := s.1 (ad (2 * i0)) - g • t
    let t1 := s.1 (ad (2 * i0 + 1)) + g • t
    (put s.1 (ad i0) (sum + a • t0 + b • t1), t0, t1)) (v, t0, t1)
  put r.1 (ad n) (b • r.2.1 + a • r.2.2)

/-- benchmarks/operators.h:529-558. -/
def columnsDown (a b g : K) (n : Nat) (z v : Mem M) : Mem M :=
  (List.range (2 * n * (2 * n))).foldl (fun v i => columnDown a b g n (fun k => i + k * (2 * n) * (2 * n)) z v) v

/-- benchmarks/operators.h:568-582 and 586-604: contributions of the points of a line to its nodes. -/
def lineDown (a b : K) (n : Nat) (rd : Nat → M) (wr : Nat → Nat) (t : Mem M) : Mem M :=
  let t := put t (wr 0) (a • rd 0 + b • rd 1)
  let r := ((List.range (n - 1)).map (· + 1)).foldl (fun (s : Mem M × M × M) i0 =>
    let sum := b • s.2.1 + a • s.2.2
    let t0 := rd (2 * i0)
    let t1 := rd (2 * i0 + 1)
    (put s.1 (wr i0) (sum + a • t0 + b • t1), t0, t1)) (t, rd 0, rd 1)
  put r.1 (wr n) (b • r.2.1 + a • r.2.2)

/-- benchmarks/operators.h:560-606. -/
def planesDown (a b : K) (n : Nat) (vq : Mem M) (dof : Mem M) : Mem M :=
  (List.range (n + 1)).foldl (fun dof iz =>
    let temp := (List.range (2 * n)).foldl (fun t i1 => lineDown a b n (fun p => vq (iz * (2 * n) * (2 * n) + i1 + p * (2 * n))) (fun j => i1 + j * (2 * n)) t) fun _ => 0
    (List.range (n + 1)).foldl (fun dof i1 => lineDown a b n (fun p => temp (i1 * (2 * n) + p)) (fun j => iz * (n + 1) * (n + 1) + i1 * (n + 1) + j) dof) dof) dof

/-- benchmarks/operators.h:225-606: the values of a cell; the arrays at points keep the values of the previous cell. `cell` is `cell4` or `cell5`. -/
def kernel (a b g : K) (n : Nat) (cell : Nat → Mem M × Mem M → Mem M × Mem M) (old : Mem M × Mem M) (dof : Mem M) : Mem M × Mem M × Mem M :=
  let s := columnsUp a b g n (planesUp a b n dof old.1, old.2)
  let s := (cells n).foldl (fun s c => cell (first n c) s) s
  let v := columnsDown a b g n s.2 s.1
  (planesDown a b n v dof, v, s.2)

/-- benchmarks/operators.h:26-41 (`HelmholtzQOperator`). -/
def helmholtz (_ : Nat) (v : M) (g : Grad M) : M × Grad M := (v, g)

/-- benchmarks/operators.h:131-639 for levels 4 and 5: `cs` are the addresses of the nodes of all cells, `s0`, `s1` the first two shape values;
the geometry is that of the first cell. -/
def vmultFast (dim level : Nat) (op : Nat → M → Grad M → M × Grad M) (n : Nat) (s0 s1 : K) (o : Geo K) (cs : List (Nat → Nat)) (src : Mem M) : Mem M :=
  if dim ≠ 3 then fun _ => 0
  else
    let g := n / (s0 - s1)
    let cell := if level = 4 then cell4 g o (2 * n) else cell5 op g o (2 * n)
    (cs.foldl (fun (r : Mem M × Mem M × Mem M) c =>
      let k := kernel s0 s1 g n cell r.2 fun i => src (c i)
      ((List.range ((n + 1) * (n + 1) * (n + 1))).foldl (fun dst i => put dst (c i) (dst (c i) + k.1 i)) r.1, k.2)) (fun _ => 0, fun _ => 0, fun _ => 0)).1

/-- layer_wise.likwid.cc:139-171: degree and points per direction of the kernel; nothing for other elements (`AssertThrow`). -/
def createOp (feDegree nq : Nat) : Option Nat :=
  if feDegree = 1 ∧ nq = 2 then some 1 else if feDegree = 2 ∧ nq = 4 then some 2 else if feDegree = 3 ∧ nq = 6 then some 3 else none

end Verif.FastKernel
