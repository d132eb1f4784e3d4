import Verif.Model.Mesh
import Verif.Model.Res

/-!
# The grid at start and at restart

Modelled: `Problem::create_grid` (driver.h:502-607), the part of the two constructors that calls it and
sets `n_global_levels_0` (driver.h:225-243 and 380-406), `create_mesh_from_radius` (grid_tools.h:726-780)
and `create_mesh_from_divisions` (grid_tools.h:698-719), what `serialize` keeps of the geometry
(driver.h:472-484), the two ways of saving vectors (driver.h:2573-2603) and of loading them
(driver.h:411-452).

Simplified: floats are an ordered field; a triangulation is its coarse grid and a list of leaves, whose
refinement is opaque; deal.II's `save`, `load` and `repartition` are given by their documented
preconditions, a violated one being undefined.
-/
namespace Verif.Grid
open Verif.Mesh

/-- driver.h:222-232: the three kinds of initial mesh -/
inductive Kind | interface | maxRadius | divisions deriving DecidableEq, Repr

/-- what `create_grid` reads from the parameters -/
structure Params (K : Type) where
  custom : Option (List (K × K))
  factor : K
  kind : Kind
  divisionsPerInterface : K
  level0Divisions : K
  divisionsPerElement : K
  maxPrime : Nat
  divisions : List Nat
  nRefinements : Nat
  periodic : Bool
  flexible : Bool

/-- driver.h:138-141, 184-186: what is known of the packing; written to the file by `serialize`
(driver.h:476-479) and not computed again at restart -/
structure Packing (K : Type) where
  box : List (K × K)
  rMax : K
  width : K

/-- the coarse grid made by `subdivided_hyper_rectangle` -/
structure Coarse (K : Type) where
  domain : List (K × K)
  subs : List Nat
  periodic : Bool
deriving DecidableEq, Repr

/-- outcome of `create_grid`: coarse grid, number of global refinements done, number of those remaining -/
structure Made (K : Type) where
  coarse : Coarse K
  done : Nat
  remaining : Nat
deriving DecidableEq, Repr

section
variable {K : Type} [Field K] [LinearOrder K] [FloorSemiring K]

/-- driver.h:507-543 -/
def domainOf (p : Params K) (g : Packing K) : List (K × K) :=
  match p.custom with
  | none => g.box.map fun b => (b.1 - p.factor * g.rMax, b.2 + p.factor * g.rMax)
  | some bs => bs

/-- grid_tools.h:760-761: `static_cast<unsigned>(std::round(x))`; a negative result is out of range -/
def roundNat (x : K) : Res Nat := if x ≤ -(1 / 2) then .ub else .ok ⌊x + 1 / 2⌋₊

/-- grid_tools.h:758-761 -/
def roundAll (h : K) : List K → Res (List Nat)
  | [] => .ok []
  | x :: xs => (roundNat (x / h)).bind fun n => (roundAll h xs).bind fun ns => .ok (n :: ns)

/-- grid_tools.h:726-780 `create_mesh_from_radius` without the call of `GridGenerator` -/
def meshFromRadius (sizes : List K) (width elements r : K) (refine : Refine) (maxPrime : Nat) :
    Res (List Nat × Nat × Nat) :=
  let he := width / elements
  let href := 2 * r
  (ceilLog2 (href / he)).bind fun s =>
    (roundAll href sizes).bind fun subs =>
      (adjust maxPrime subs).bind fun a =>
        let n := initialRefines refine a.1 s
        .ok (a.2, n.1, n.2)

/-- grid_tools.h:698-719 `create_mesh_from_divisions`: the kind of initial refinement is no argument -/
def meshFromDivisions (subs : List Nat) (n : Nat) : Res (List Nat × Nat × Nat) := .ok (subs, n, 0)

/-- deal.II `GridGenerator::subdivided_hyper_rectangle` asserts a positive number of subdivisions in every
direction -/
def hyperRectangle (dom : List (K × K)) (periodic : Bool) (m : List Nat × Nat × Nat) : Res (Made K) :=
  if 0 ∈ m.1 then .ub else .ok ⟨⟨dom, m.1, periodic⟩, m.2.1, m.2.2⟩

/-- driver.h:502-607 `create_grid` -/
def createGrid (p : Params K) (g : Packing K) (refine : Refine) : Res (Made K) :=
  let dom := domainOf p g
  let sizes := dom.map fun b => b.2 - b.1
  let elements := p.divisionsPerInterface / p.divisionsPerElement
  match p.kind with
  | .interface =>
    (meshFromInterface sizes g.width elements (p.level0Divisions / p.divisionsPerElement) refine p.maxPrime).bind
      (hyperRectangle dom p.periodic)
  | .maxRadius =>
    (meshFromRadius sizes g.width elements g.rMax refine p.maxPrime).bind (hyperRectangle dom p.periodic)
  | .divisions => (meshFromDivisions p.divisions p.nRefinements).bind (hyperRectangle dom p.periodic)

/-- driver.h:235-237: the grid at start and `n_global_levels_0` -/
def start (p : Params K) (g : Packing K) (refine : Refine) : Res (Made K × Nat) :=
  (createGrid p g refine).bind fun m => .ok (m, 1 + m.done + m.remaining)
end

/-- how the vectors were stored: with the cells of the triangulation, or in the order of the ranks -/
inductive Store | withCells | byRank deriving DecidableEq, Repr

/-- the restart files: driver.h:2573-2609 -/
structure File (K : Type) where
  packing : Packing K
  levels0 : Nat
  flexible : Bool
  nRanks : Nat
  coarse : Coarse K
  store : Store

/-- driver.h:2573-2609: the grid of the running simulation stems from `start` -/
def saveFile {K : Type} (p : Params K) (g : Packing K) (levels0 nRanks : Nat) (c : Coarse K) : File K :=
  ⟨g, levels0, p.flexible, nRanks, c, if p.flexible then .withCells else .byRank⟩

/-- deal.II: `Triangulation::load` needs the same coarse grid as that which was saved, and a triangulation
with coarse cells only -/
def loadTria {K : Type} [DecidableEq K] (f : File K) (m : Made K) : Res Unit :=
  if m.done = 0 ∧ m.coarse = f.coarse then .ok () else .ub

/-- where the cells lie after `load`, and whether data attached to the cells is still there -/
structure Loaded where
  /-- the partition is that of a repartitioned triangulation -/
  repartitioned : Bool
  /-- the data attached to the cells -/
  attached : Bool
deriving DecidableEq, Repr

/-- driver.h:397-406: what is loaded, and `repartition` -/
def afterLoad {K : Type} (p : Params K) (f : File K) : Loaded :=
  let l : Loaded := ⟨false, decide (f.store = .withCells)⟩
  if p.flexible = false then ⟨true, false⟩ else l

/-- driver.h:411-452: vectors attached to the cells need their data to be there; vectors in the order of the
ranks need the partition at saving, which is known only for a repartitioned triangulation -/
def loadVectors {K : Type} (f : File K) (l : Loaded) : Res Unit :=
  if f.flexible then (if l.attached then .ok () else .ub)
  else (if l.repartitioned then .ok () else .ub)

section
variable {K : Type} [Field K] [LinearOrder K] [FloorSemiring K]

/-- driver.h:318-452 in the order of the code -/
def restart (p : Params K) (nRanks : Nat) (f : File K) : Res (Made K × Nat) :=
  (Res.assertThrow (f.flexible || f.nRanks == nRanks)).bind fun _ =>
    (createGrid p f.packing .none).bind fun m =>
      (loadTria f m).bind fun _ =>
        (loadVectors f (afterLoad p f)).bind fun _ => .ok (m, f.levels0)
end
end Verif.Grid
