import Verif.Model.Track
/-!
# `Tracker::reassign_grains`

Models `include/pf-applications/grain_tracker/tracker.h`, lines 1548-1853.

A grain is addressed by its position in `grains` (a `std::map` iterates in ascending key order), which
is its `grains_to_sparsity` number (tracker.h:1579-1588). Order parameter ids are idealised as natural
numbers (no 32 bit wrap-around). Logging and timers are left out.
-/
namespace Verif
variable {P K : Type}

/-- `std::set<unsigned int>::insert`; sets are ascending lists. -/
def sinsert (a : Nat) : List Nat → List Nat
  | [] => [a]
  | b :: l => if a < b then a :: b :: l else if a = b then b :: l else b :: sinsert a l

/-- `extract_active_order_parameter_ids` (tracker.h:1548-1562) -/
def extractActive (gs : OMap (Grain P K)) : List Nat :=
  gs.foldl (fun s p => sinsert p.2.op s) []

/-- Settings and externals of `reassign_grains`.
`color n rows` is `SparsityTools::color_sparsity_pattern` (colour numbers, number of colours);
`sortBy rowLength l` is `std::sort` by descending row length, unspecified between equal lengths;
`diag` says whether `SparsityPattern::copy_from` of a square pattern stores the diagonal (deal.II
does). -/
structure ReassignCfg (K : Type) where
  ratio : K
  fixed : K
  maxOps : Nat
  diag : Bool
  color : Nat → (Nat → List Nat) → List Nat × Nat
  sortBy : (Nat → Nat) → List Nat → List Nat

section
variable [Field K] [LinearOrder K]

/-- the overlap test in the double loop (tracker.h:1597-1606): only `g_other_id > g_base_id`. -/
def ovPair (G : Geometry P K) (cfg : ReassignCfg K) (gs : OMap (Grain P K)) (i j : Nat) : Bool :=
  match gs[i]?, gs[j]? with
  | some a, some b => decide (i < j) && Grain.overlaps G cfg.ratio cfg.fixed a.2 b.2
  | _, _ => false

/-- row `i` of the sparsity pattern (tracker.h:1608-1613, 1644-1645) -/
def spRow (G : Geometry P K) (cfg : ReassignCfg K) (gs : OMap (Grain P K)) (i : Nat) : List Nat :=
  (List.range gs.length).filter fun j =>
    ovPair G cfg gs i j || ovPair G cfg gs j i || (cfg.diag && i == j)

/-- current order parameter of the grain with number `i` -/
def opAt (gs : OMap (Grain P K)) (i : Nat) : Nat := ((gs[i]?).map (·.2.op)).getD 0

/-- `remap_candidates` (tracker.h:1594, 1615-1619) -/
def candidates (G : Geometry P K) (cfg : ReassignCfg K) (gs : OMap (Grain P K)) : List Nat :=
  (List.range gs.length).filter fun j =>
    (List.range gs.length).any fun i => ovPair G cfg gs i j && opAt gs i == opAt gs j

/-- state of the fast reassignment: provisional colours (a vector of `n_grains` entries, accessed only
at sparsity columns), active order parameters, `n_order_parameters`, `perform_coloring` -/
structure FastState where
  prov : Nat → Nat
  active : List Nat
  nOps : Nat
  full : Bool

/-- The fast pass over the ordered candidates (tracker.h:1687-1727), left by `break` once the maximum
is exceeded. -/
def fastLoop (row : Nat → List Nat) (maxOps : Nat) : List Nat → FastState → FastState
  | [], s => s
  | r :: rs, s =>
    match s.active.filter (fun c => !((row r).any (fun j => s.prov j == c))) with
    | c :: _ => fastLoop row maxOps rs { s with prov := fun i => if i = r then c else s.prov i }
    | [] =>
      let s' := { s with active := sinsert s.nOps s.active, nOps := s.nOps + 1 }
      if s.nOps + 1 > maxOps then { s' with full := true }
      else fastLoop row maxOps rs
        { s' with prov := fun i => if i = r then s.nOps else s.prov i }

/-- validation of every entry of the sparsity pattern (tracker.h:1734-1739) -/
def anyConflict (row : Nat → List Nat) (n : Nat) (prov : Nat → Nat) : Bool :=
  (List.range n).any fun i => (row i).any fun j => prov i == prov j

/-- assignment of colours to grains (tracker.h:1742-1750, 1766-1776) -/
def setOps (c : Nat → Nat) (gs : OMap (Grain P K)) : OMap (Grain P K) :=
  gs.mapIdx fun i p => (p.1, { p.2 with op := c i })

/-- does the assignment change any grain -/
def changesOps (c : Nat → Nat) (gs : OMap (Grain P K)) : Bool :=
  (List.range gs.length).any fun i => opAt gs i != c i

/-- the full colouring (tracker.h:1753-1783); result: grains, changed, active, number -/
def fullColor (G : Geometry P K) (cfg : ReassignCfg K) (gs : OMap (Grain P K)) :
    Res (OMap (Grain P K) × Bool × List Nat × Nat) := do
  let (cs, k) := cfg.color gs.length (spRow G cfg gs)
  Res.assertThrow (decide (k ≤ cfg.maxOps))
  let c := fun i => cs.getD i 0 - 1
  let gs' := setOps c gs
  let act := extractActive gs'
  Res.ok (gs', changesOps c gs, act, act.length)

/-- The reassignment proper (tracker.h:1639-1784) -/
def recolor (G : Geometry P K) (cfg : ReassignCfg K) (force fast : Bool) (gs : OMap (Grain P K)) :
    Res (OMap (Grain P K) × Bool × List Nat × Nat) :=
  let act := extractActive gs
  let cand := candidates G cfg gs
  if cand.length > 0 ∨ force then
    if fast then
      let row := spRow G cfg gs
      let s := fastLoop row cfg.maxOps (cfg.sortBy (fun i => (row i).length) cand)
        { prov := opAt gs, active := act, nOps := act.length, full := false }
      if s.full || anyConflict row gs.length s.prov then fullColor G cfg gs
      else Res.ok (setOps s.prov gs, changesOps s.prov gs, s.active, s.nOps)
    else fullColor G cfg gs
  else Res.ok (gs, false, act, act.length)

/-- `Grain::add_neighbor` (grain.h:241-253) for two different grains -/
def addNeighbor (G : Geometry P K) (g n : Grain P K) : Res (Grain P K) := do
  Res.assertThrow (decide (g.op = n.op ∨ g.oldOp = n.oldOp))
  Res.ok (Grain.addNeighborCore G g n)

/-- Neighbours of one grain (tracker.h:1791-1806). Only `distance_to_nearest_neighbor` of the base
grain changes, and it is not read, so the other grains can be taken from the initial table. -/
def neighborsOf (G : Geometry P K) (gs : OMap (Grain P K)) (g : Grain P K) : Res (Grain P K) :=
  gs.foldlM (fun b o =>
    if b.grainId ≠ o.2.grainId ∧ (b.op = o.2.op ∨ b.oldOp = o.2.oldOp) then addNeighbor G b o.2
    else Res.ok b) g

/-- tracker.h:1791-1806 for all grains -/
def buildNeighbors (G : Geometry P K) (gs : OMap (Grain P K)) : Res (OMap (Grain P K)) :=
  gs.mapM fun p => do
    let g ← neighborsOf G gs p.2
    Res.ok (p.1, g)

/-- `ids_offsets` (tracker.h:1817-1825): the `id`-th active order parameter maps to its distance from
`id`; running past the end of the set is undefined. -/
def idsOffsets (act : List Nat) (nOps : Nat) : Res (OMap Int) :=
  (List.range nOps).foldlM (fun m id => do
    let a ← Res.index act id
    Res.ok (m.emplace a ((a : Int) - id))) []

/-- Removal of dangling order parameters (tracker.h:1808-1847); result: grains, changed, active -/
def removeDangling (gs : OMap (Grain P K)) (act : List Nat) (nOps : Nat) :
    Res (OMap (Grain P K) × Bool × List Nat) :=
  match act.getLast? with
  | none => Res.ub
  | some mx => do
    let mismatch : Int := (mx : Int) - ((nOps : Int) - 1)
    Res.assertThrow (decide (0 ≤ mismatch))
    if mismatch > 0 then
      let offs ← idsOffsets act nOps
      let gs' ← gs.mapM fun p => do
        let o ← Res.at? (offs.get? p.2.op)
        Res.ok (p.1, if o > 0 then { p.2 with op := ((p.2.op : Int) - o).toNat } else p.2)
      Res.ok (gs', true, extractActive gs')
    else Res.ok (gs, false, act)

/-- result of `reassign_grains` with the members it changes -/
structure Reassigned (P K : Type) where
  grains : OMap (Grain P K)
  active : List Nat
  nCollisions : Nat
  flag : Bool

/-- `Tracker::reassign_grains` (tracker.h:1565-1853) -/
def reassignGrains (G : Geometry P K) (cfg : ReassignCfg K) (force fast : Bool)
    (gs : OMap (Grain P K)) : Res (Reassigned P K) := do
  let (gs1, f1, act, nOps) ← recolor G cfg force fast gs
  let gs2 ← buildNeighbors G gs1
  let (gs3, f2, act') ← removeDangling gs2 act nOps
  Res.ok { grains := gs3, active := act', nCollisions := (candidates G cfg gs).length,
           flag := f1 || f2 }

end

/-- Contract of the colouring routine for a symmetric sparsity pattern on `n > 0` vertices: colours
are `1..k` and adjacent different vertices get different colours. -/
def ColorContract (color : Nat → (Nat → List Nat) → List Nat × Nat) : Prop :=
  ∀ (n : Nat) (row : Nat → List Nat), 0 < n → (∀ i j, j ∈ row i → j < n ∧ i < n ∧ i ∈ row j) →
    (color n row).1.length = n ∧
    (∀ c ∈ (color n row).1, 1 ≤ c ∧ c ≤ (color n row).2) ∧
    ∀ i j ci cj, i ≠ j → j ∈ row i → (color n row).1[i]? = some ci → (color n row).1[j]? = some cj →
      ci ≠ cj

/-- Contract of `std::sort` with the comparison used (tracker.h:1681-1685) -/
def SortContract (sortBy : (Nat → Nat) → List Nat → List Nat) : Prop :=
  ∀ (len : Nat → Nat) (l : List Nat), List.Perm (sortBy len l) l ∧
    (sortBy len l).Pairwise (fun a b => len b ≤ len a)

/-- colours of the first `m` vertices by greedy colouring -/
def greedyCols (row : Nat → List Nat) : Nat → List Nat
  | 0 => []
  | m + 1 =>
    let cs := greedyCols row m
    let used := (row m).filterMap (fun j => cs[j]?)
    cs ++ [(((List.range (m + 1)).map (· + 1)).find? (fun c => !used.contains c)).getD 1]

/-- an executable colouring meeting the contract -/
def greedyColor (n : Nat) (row : Nat → List Nat) : List Nat × Nat :=
  (greedyCols row n, (greedyCols row n).foldl max 0)

/-- an executable sort -/
def sortDesc (len : Nat → Nat) (l : List Nat) : List Nat :=
  l.mergeSort (fun a b => decide (len b ≤ len a))

end Verif
