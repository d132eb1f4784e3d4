import Verif.Model.BoxFilter
/-!
# Sections of the mesh

Models `build_projection` (applications/sintering/include/pf-applications/sintering/projection.h:86-246).

Cells are boxes parallel to the axes, as in the meshes of the program; vertices and lines are numbered as in deal.II.
`distribute_dofs` numbers the unknowns of the discontinuous element cell by cell in the order of the vertices, so that
the values of cell `i` are the entries `4 i`, ..., `4 i + 3`. Ghost values are taken as up to date.
-/
namespace Verif.Section
open BoxFilter

variable {K : Type} [Field K] [LinearOrder K]

/-- a cell: its box, its global active index and the indices of the unknowns at its vertices -/
structure Cell (K : Type) where
  box : Box K 3
  id : Nat
  dofs : Fin 8 → Nat

/-- `cell->vertex(v)`: bit `d` of `v` chooses the side in direction `d` -/
def vertex (b : Box K 3) (v : Nat) : Fin 3 → K :=
  fun d => if v.testBit d then b.upper d else b.lower d

/-- `cell->line(il)->vertex(0)` and `vertex(1)` as numbers of vertices of the cell -/
def lines : List (Fin 8 × Fin 8) :=
  [(0, 2), (1, 3), (0, 1), (2, 3), (4, 6), (5, 7), (4, 5), (6, 7), (0, 4), (1, 5), (2, 6), (3, 7)]

/-- the projected mesh and values; `solution` has one list per block -/
structure Proj (K : Type) where
  vertices : List (Fin 2 → K)
  cells : List (List Nat × Nat)
  solution : List (List K)

/-- state within one cell: `CellData`, `vertex_counter`, `vertex_numerator` -/
structure Local (K : Type) where
  vertices : List (Fin 2 → K)
  solution : List (List K)
  cell : List Nat
  material : Nat
  counter : Nat
  numerator : Nat

/-- projection.h:140-143: the axes of the plane -/
def projector (dir : Fin 3) : List (Fin 3) := (List.finRange 3).filter (· ≠ dir)

/-- projection.h:185-190 -/
def project (dir : Fin 3) (p : Fin 3 → K) : Fin 2 → K := fun j => p ((projector dir).getD j 0)

/-- projection.h:174-228: one line. `value` reads a block of the vector at an index; entries of
`cell_data.vertices` beyond its four ones are undefined. -/
def lineStep (eps tol : K) (dir : Fin 3) (loc : K) (coarsened : Bool) (value : Nat → Nat → K) (c : Cell K)
    (st : Local K) (l : Fin 8 × Fin 8) : Res (Local K) :=
  match intersectLinePlane eps (vertex c.box l.1) (vertex c.box l.2) (fun d => if d = dir then loc else 0)
      (fun d => if d = dir then 1 else 0) with
  | none => .ok st
  | some (fac, p) =>
    if |fac| < 1 + tol then
      if st.counter < st.cell.length then
        .ok { vertices := st.vertices ++ [project dir p]
              solution := st.solution.mapIdx fun b s =>
                s.set st.numerator (projectValue fac (value b (c.dofs l.1)) (value b (c.dofs l.2)))
              cell := st.cell.set st.counter st.numerator
              material := if coarsened then st.material else c.id
              counter := st.counter + 1
              numerator := st.numerator + 1 }
      else .ub
    else .ok st

/-- projection.h:154-238: one cell; four entries are added to every block. The vertices of a new `CellData` are
`numbers::invalid_unsigned_int`, its `material_id` is zero. -/
def cellStep (eps tol inTol : K) (dir : Fin 3) (loc : K) (coarsened : Bool) (value : Nat → Nat → K) (st : Proj K)
    (c : Cell K) : Res (Proj K) :=
  let ref : Fin 3 → K := fun d => if d = dir then loc else (c.box.lower d + c.box.upper d) / 2
  if pointInside inTol c.box ref then do
    let loc0 : Local K :=
      { vertices := st.vertices
        solution := st.solution.map (· ++ List.replicate 4 0)
        cell := List.replicate 4 4294967295
        material := 0
        counter := 0
        numerator := (st.solution.headD []).length }
    let s ← lines.foldlM (lineStep eps tol dir loc coarsened value c) loc0
    .ok { vertices := s.vertices, cells := st.cells ++ [(s.cell, s.material)], solution := s.solution }
  else .ok st

/-- projection.h:145-238: `owned` are the owned cells, those of the coarsened mesh if `n_coarsening_steps` is not
zero; `value` reads the vector handed over, not the coarsened one -/
def build (eps tol inTol : K) (dir : Fin 3) (loc : K) (nCoarsening nBlocks : Nat) (value : Nat → Nat → K)
    (owned : List (Cell K)) : Res (Proj K) :=
  owned.foldlM (cellStep eps tol inTol dir loc (nCoarsening != 0) value) ⟨[], [], List.replicate nBlocks []⟩

end Verif.Section
