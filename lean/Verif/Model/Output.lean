/-
Output of fields and grains:
  include/pf-applications/numerics/output.h:35-118 (`BlockVectorWrapper`, `build_default_output`)
  include/pf-applications/numerics/data_out.h:22-65 (`get_nonscalar_data_ranges`)
  include/pf-applications/grain_tracker/output.h:31-165 (`print_grains_invariant`)

Simplifications: `DataOut` is the list of the fields that were added; the vector of the subdomains is left out. The printed text is the list of
what is printed; what a segment prints besides its centre is a parameter. `std::sort` is a parameter with its contract.
-/
import Verif.Model.Res
import Verif.Model.OMap
import Mathlib.Order.Defs.LinearOrder

namespace Verif.Output

/-! ### Fields -/

/-- `std::vector` of pointers: reserved space and elements. -/
structure Vec (α : Type) where
  capacity : Nat
  data : List α
deriving DecidableEq, Repr

/-- `reserve` -/
def Vec.reserve {α : Type} (v : Vec α) (n : Nat) : Vec α := ⟨max v.capacity n, v.data⟩

/-- `*(v.begin() + i) = x`: there is no element beyond the size, also if space is reserved. -/
def Vec.write {α : Type} (v : Vec α) (i : Nat) (x : α) : Res (Vec α) :=
  if i < v.data.length then .ok ⟨v.capacity, v.data.set i x⟩ else .ub

/-- `std::transform` to `v.begin()` from position `i` on. -/
def transform {α β : Type} (f : α → β) : Vec β → Nat → List α → Res (Vec β)
  | v, _, [] => .ok v
  | v, i, x :: xs => do
    let v ← v.write i (f x)
    transform f v (i + 1) xs

/-- numerics/output.h:41-58: the constructors of `BlockVectorWrapper`; a pointer is what it points to. -/
def wrapBlocks {α : Type} (l : List α) : Res (Vec α) := transform id ((⟨0, []⟩ : Vec α).reserve l.length) 0 l

/-- numerics/output.h:92-93: the field that is added for a block. -/
def fieldOf {α : Type} (blocks : List α) (names : List String) (b : Nat) : Option (String × α) :=
  match blocks[b]?, names[b]? with
  | some x, some s => if s ≠ "" then some (s, x) else none
  | _, _ => none

/-- numerics/output.h:91-93: the fields that are added, for `n_blocks` blocks. -/
def defaultOutput {α : Type} (blocks : List α) (names : List String) : List (String × α) :=
  (List.range blocks.length).filterMap (fieldOf blocks names)

/-- Kinds of fields with several components. -/
inductive Kind where
  | vector
  | tensor
deriving DecidableEq, Repr

/-- data_out.h:38-44: number of equal names after the first one. -/
def runLength (name : String) : List String → Nat
  | [] => 0
  | s :: l => if s = name then runLength name l + 1 else 0

/-- data_out.h:36-61: the loop from field `i` on; `l` are the names from there on. -/
def ranges (dim : Nat) : Nat → Nat → List String → List (Nat × Nat × String × Kind)
  | 0, _, _ => []
  | _ + 1, _, [] => []
  | fuel + 1, i, s :: l =>
    let n := runLength s l + 1
    (if n = dim then [(i, i + n - 1, s, .vector)]
      else if n = dim * dim then [(i, i + n - 1, s, .tensor)]
      else []) ++ ranges dim fuel (i + n) (l.drop (n - 1))

/-- data_out.h:30-64 `get_nonscalar_data_ranges` besides those of `DataOut`. -/
def nonscalarRanges (dim : Nat) (names : List String) : List (Nat × Nat × String × Kind) := ranges dim names.length 0 names

/-! ### Grains -/

section
variable {K : Type} [LinearOrder K]

/-- A segment: its centre and the rest of what it prints. -/
structure PSeg (K : Type) where
  center : List K
  info : String
deriving DecidableEq

/-- A grain. -/
structure PGrain (K : Type) where
  id : Nat
  op : Nat
  old : Nat
  segments : List (PSeg K)
deriving DecidableEq

/-- What is printed for a grain. -/
structure Printed (K : Type) where
  op : Nat
  old : Nat
  n : Nat
  segments : List (PSeg K)
deriving DecidableEq

/-- grain_tracker/output.h:92-103, 125-133: the first coordinate that differs decides. -/
def before : List K → List K → Bool
  | a :: as, b :: bs => if a ≠ b then decide (a < b) else before as bs
  | _, _ => false

variable (sort : (Nat → Nat → Bool) → List Nat → List Nat)

/-- grain_tracker/output.h:92-103: the comparison of segments by number. -/
def segBefore (g : PGrain K) (a b : Nat) : Bool :=
  match g.segments[a]?, g.segments[b]? with
  | some x, some y => before x.center y.center
  | _, _ => false

/-- grain_tracker/output.h:84-105: the numbers of the segments of a grain in order. -/
def orderedSegments (g : PGrain K) : List Nat :=
  sort (segBefore g) (List.range g.segments.length)

/-- grain_tracker/output.h:112-123: the centre of the first segment of a grain; `ordered` by number of the grain, `at` and `[0]`. -/
def firstCenter (ordered : OMap (List Nat)) (g : PGrain K) : Res (List K) :=
  match ordered.get? g.id with
  | none => .exc .outOfRange
  | some l =>
    match l[0]? with
    | none => .ub
    | some i =>
      match g.segments[i]? with
      | none => .ub
      | some s => .ok s.center

/-- grain_tracker/output.h:112-123: number and first centre of a grain. -/
def firstOf (ordered : OMap (List Nat)) (e : Nat × PGrain K) : Res (Nat × List K) := do
  let c ← firstCenter ordered e.2
  Res.ok (e.1, c)

/-- grain_tracker/output.h:125-133: the comparison of grains by number. -/
def grainBefore (first : OMap (List K)) (a b : Nat) : Bool :=
  match OMap.get? first a, OMap.get? first b with
  | some x, some y => before x y
  | _, _ => false

/-- grain_tracker/output.h:136-162: what is printed for a number. -/
def printGrain (m : OMap (PGrain K)) (ordered : OMap (List Nat)) (i : Nat) : Res (Printed K) :=
  match m.get? i, ordered.get? i with
  | some g, some l => do
    let segs ← l.mapM (Res.index g.segments)
    Res.ok ⟨g.op, g.old, g.segments.length, segs⟩
  | _, _ => Res.exc .outOfRange

/-- grain_tracker/output.h:68-163 `print_grains_invariant` without the two lines at the top. With two or more grains every grain is compared. -/
def printInvariant (m : OMap (PGrain K)) : Res (List (Printed K)) := do
  let ordered : OMap (List Nat) := m.map fun e => (e.1, orderedSegments sort e.2)
  let first ← if m.length ≤ 1 then Res.ok [] else m.mapM (firstOf ordered)
  (sort (grainBefore first) m.keys).mapM (printGrain m ordered)

end

end Verif.Output
