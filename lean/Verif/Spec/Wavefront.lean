import Verif.Model.Wavefront
/-!
# Specification of the distances of particles and of direct neighbours

Adjacency of active cells, the fronts that grow from the particles through the void, and what it means that two
fronts meet. Nothing here refers to the functions of the model.
-/
namespace Verif.Wavefront

/-- active cell `n` shares a face with the active cell `c` -/
inductive Adj (M : WMesh) (c n : Nat) : Prop where
  | same (h : Side.active n ∈ M.sides c) : Adj M c n
  | child (ch : List Child) (lv : List Nat) (x : Child) (h : Side.refined ch lv ∈ M.sides c) (hx : x ∈ ch)
      (ha : x.active = true) (ht : x.touches = true) (hn : x.cell = n) : Adj M c n

/-- what deal.II guarantees about a distributed mesh -/
structure MeshOk (M : WMesh) : Prop where
  /-- only active cells have faces -/
  inside : ∀ c, M.sides c ≠ [] → c ∈ M.cells
  closed : ∀ c ∈ M.cells, ∀ n, Adj M c n → n ∈ M.cells
  leaves : ∀ c ∈ M.cells, ∀ ch lv, Side.refined ch lv ∈ M.sides c → ∀ l ∈ lv, l ∈ M.cells
  children : ∀ c ∈ M.cells, ∀ ch lv, Side.refined ch lv ∈ M.sides c → ∀ x ∈ ch, x.active = true → x.cell ∈ M.cells
  symm : ∀ c ∈ M.cells, ∀ n, Adj M c n → Adj M n c
  levels : 0 < M.levels
  level : ∀ c ∈ M.cells, M.level c < M.levels
  owner : ∀ c ∈ M.cells, M.owner c < M.ranks
  /-- neighbours of locally owned cells are owned or ghost cells -/
  ghost : ∀ c ∈ M.cells, ∀ n, Adj M c n → M.artificial (M.owner c) n = false

/-- size of a cell in units of the finest cells -/
def cellSize (M : WMesh) (c : Nat) : Int := 2 ^ (M.levels - 1 - M.level c)

/-- a cell of a particle next to a void cell; smaller void cells count only if they have the same owner -/
inductive Starts (M : WMesh) (pid : Nat → Option Nat) (c : Nat) : Prop where
  | same (p n : Nat) (hp : pid c = some p) (h : Side.active n ∈ M.sides c) (hn : pid n = none) : Starts M pid c
  | child (p : Nat) (ch : List Child) (lv : List Nat) (x : Child) (hp : pid c = some p)
      (h : Side.refined ch lv ∈ M.sides c) (hx : x ∈ ch) (ha : x.active = true) (ht : x.touches = true)
      (ho : M.owner x.cell = M.owner c) (hn : pid x.cell = none) : Starts M pid c

/-- cells from which a front moves on -/
def Moves (M : WMesh) (pid : Nat → Option Nat) (c : Nat) : Prop := pid c = none ∨ Starts M pid c

/-- the front of particle `p` reaches cell `c` by a chain of void cells whose sizes add up to `d` (beginning
with the size of the cell of the particle minus one). The last rule is the case of a cell of a particle all of
whose void neighbours are smaller and belong to other ranks. -/
inductive Front (M : WMesh) (pid : Nat → Option Nat) (p : Nat) : Nat → Int → Prop where
  | start (c : Nat) (hp : pid c = some p) (hs : Starts M pid c) : Front M pid p c (cellSize M c - 1)
  | grow (c : Nat) (d : Int) (n : Nat) (hc : Front M pid p c d) (ha : Adj M c n) (hn : pid n = none) :
      Front M pid p n (d + cellSize M n)
  | across (c n : Nat) (hp : pid c = some p) (hs : ¬ Starts M pid c) (ha : Adj M c n) (hn : pid n = none)
      (ho : M.owner n ≠ M.owner c) : Front M pid p n (-1 + cellSize M n)

/-- every cell of a particle carries its id; the fronts fill the void as far as it is connected to a particle;
every void cell that is reached belongs to one particle and its distance is the length of a chain of cells -/
structure Coloured (M : WMesh) (pid : Nat → Option Nat) (marker : Nat → Option Nat) (dist : Nat → Int) :
    Prop where
  particle : ∀ c ∈ M.cells, ∀ p, pid c = some p → marker c = some p
  zero : ∀ c ∈ M.cells, Starts M pid c → dist c = cellSize M c - 1
  reached : ∀ c ∈ M.cells, ∀ p, pid c = none → marker c = some p → Front M pid p c (dist c)
  complete : ∀ c ∈ M.cells, ∀ n, Moves M pid c → marker c ≠ none → Adj M c n → marker n ≠ none

/-- the fronts of two different particles `k.1 < k.2` meet at two cells of the same owner, `v` is the length of
the way -/
def Meets {K : Type} [Field K] (M : WMesh) (h : K) (pid : Nat → Option Nat) (marker : Nat → Option Nat)
    (dist : Nat → Int) (k : Nat × Nat) (v : K) : Prop :=
  ∃ c n p q, c ∈ M.cells ∧ Moves M pid c ∧ Adj M c n ∧ M.owner n = M.owner c ∧ marker c = some p ∧
    marker n = some q ∧ p ≠ q ∧ k = (min p q, max p q) ∧ v = h * ((dist c + dist n : Int) : K)

/-- the length of a shortest way is recorded for exactly the pairs that meet -/
def Shortest {K : Type} [LinearOrder K] (meets : Nat × Nat → K → Prop) (k : Nat × Nat) (r : Option K) : Prop :=
  (∀ v, r = some v → meets k v ∧ ∀ v', meets k v' → v ≤ v') ∧ (r = none → ∀ v, ¬ meets k v)

/-- all cells have the same, finest level -/
def Uniform (M : WMesh) : Prop :=
  ∀ c ∈ M.cells, M.level c + 1 = M.levels ∧ ∀ ch lv, Side.refined ch lv ∉ M.sides c

/-! ## Direct neighbours -/

/-- two particles of different order parameters occupy the same cell or two cells sharing a face -/
def Contact (M : WMesh) (nOp : Nat) (ids : Nat → Nat → Option Nat) (a b : Nat × Nat) : Prop :=
  a.1 ≠ b.1 ∧ a.1 < nOp ∧ b.1 < nOp ∧ ∃ c ∈ M.cells, ∃ n, (n = c ∨ Adj M c n) ∧
    ids a.1 c = some a.2 ∧ ids b.1 n = some b.2

/-- two particles of different order parameters occupy the same cell, two cells sharing a face or a cell and
some child of a refined neighbour -/
def NearContact (M : WMesh) (nOp : Nat) (ids : Nat → Nat → Option Nat) (a b : Nat × Nat) : Prop :=
  a.1 ≠ b.1 ∧ a.1 < nOp ∧ b.1 < nOp ∧ ∃ c ∈ M.cells, ∃ n,
    (n = c ∨ Side.active n ∈ M.sides c ∨
      ∃ ch lv x, Side.refined ch lv ∈ M.sides c ∧ x ∈ ch ∧ x.active = true ∧ x.cell = n) ∧
    ids a.1 c = some a.2 ∧ ids b.1 n = some b.2

/-- `b` is recorded as a neighbour of `a` -/
def Recorded (m : List ((Nat × Nat) × List (Nat × Nat))) (a b : Nat × Nat) : Prop :=
  ∃ l, (a, l) ∈ m ∧ b ∈ l

end Verif.Wavefront
