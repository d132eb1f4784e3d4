import Mathlib.Data.List.Sort
import Verif.Model.Res
import Verif.Model.Components
/-!
# Stitching of local particles over the ranks

Models src/grain_tracker/distributed_stitching.cc.

Local particles are numbered over all ranks: rank `r` holds the numbers `offsetOf sizes r` up to (but
not including) `offsetOf sizes (r+1)`, where `sizes` lists the numbers of local particles
(`MPI_Exscan`, line 121; on rank 0 the result of `MPI_Exscan` is formally undefined, the code relies on
the initial value 0 being kept). A vector distributed over the ranks is represented by the
concatenation of the parts.

The consensus algorithm delivers all messages of one exchange exactly once in an arbitrary order. The
order is a parameter of the model. All messages of an exchange are composed before any of them is
processed (lines 133-160), which makes the exchange synchronous.
-/
namespace Verif

/-- (rank, number) as stored in the connectivity lists -/
abbrev GId := Nat × Nat

/-- first number held by rank `r` -/
def offsetOf (sizes : List Nat) (r : Nat) : Nat := (sizes.take r).sum

/-- rank holding the number `g` -/
def rankOf : List Nat → Nat → Nat
  | [], _ => 0
  | s :: l, g => if g < s then 0 else rankOf l (g - s) + 1

/-- number `g` is held by rank `r`, i.e. `g - offset` is a valid index on `r` -/
def Holds (sizes : List Nat) (r g : Nat) : Prop :=
  r < sizes.length ∧ offsetOf sizes r ≤ g ∧ g < offsetOf sizes (r + 1)

instance (sizes : List Nat) (r g : Nat) : Decidable (Holds sizes r g) := by
  unfold Holds; infer_instance

/-- order of `std::tuple<unsigned int, unsigned int>` -/
def gidLe (a b : GId) : Prop := a.1 < b.1 ∨ (a.1 = b.1 ∧ a.2 ≤ b.2)

instance : DecidableRel gidLe := fun a b => by unfold gidLe; infer_instance

/-- `std::sort` (the order is total and antisymmetric, hence every sorting routine agrees) -/
def sortG (l : List GId) : List GId := l.insertionSort gidLe

/-- `erase(unique(...))`: consecutive equal elements are reduced to one -/
def uniqG : List GId → List GId
  | [] => []
  | [a] => [a]
  | a :: b :: l => if a = b then uniqG (b :: l) else a :: uniqG (b :: l)

/-- What particle `g` on rank `r` sends to the `j`-th entry of its list
(distributed_stitching.cc:140-158). -/
def messageTo (r g : Nat) (l : List GId) (j : Nat) : Option (GId × List GId) :=
  match l[j]? with
  | some e => if e.1 = r then none else some (e, sortG ((r, g) :: l.eraseIdx j))
  | none => none

/-- all messages of particle `g` (distributed_stitching.cc:135-160) -/
def messagesOf (sizes : List Nat) (st : List (List GId)) (g : Nat) : List (GId × List GId) :=
  let l := st.getD g []
  (List.range l.length).filterMap (messageTo (rankOf sizes g) g l)

/-- processing one received item (distributed_stitching.cc:174-189): sort, unique, compare the size -/
def deliver (sizes : List Nat) (s : List (List GId) × Bool) (m : GId × List GId) :
    Res (List (List GId) × Bool) :=
  if Holds sizes m.1.1 m.1.2 then
    match s.1[m.1.2]? with
    | some old =>
      .ok (s.1.set m.1.2 (uniqG (sortG (old ++ m.2))),
        s.2 && decide (old.length = (uniqG (sortG (old ++ m.2))).length))
    | none => .ub
  else .ub

/-- one exchange (distributed_stitching.cc:129-192) -/
def fpIter (sizes : List Nat) (order : List (GId × List GId) → List (GId × List GId))
    (st : List (List GId)) : Res (List (List GId) × Bool) :=
  (order ((List.range st.length).flatMap (messagesOf sizes st))).foldlM (deliver sizes) (st, true)

/-- the fixed-point iteration (distributed_stitching.cc:127-199); `none` means that `fuel` exchanges
did not suffice -/
def fpLoop (sizes : List Nat) (order : Nat → List (GId × List GId) → List (GId × List GId)) :
    Nat → Nat → List (List GId) → Option (Res (List (List GId)))
  | 0, _, _ => none
  | fuel + 1, iter, st =>
    match fpIter sizes (order iter) st with
    | .ok (st', true) => some (.ok st')
    | .ok (st', false) => fpLoop sizes order fuel (iter + 1) st'
    | .exc e => some (.exc e)
    | .ub => some .ub

/-- the clique particle `g` is responsible for, if any (distributed_stitching.cc:204-229) -/
def representative (sizes : List Nat) (st : List (List GId)) (g : Nat) : Option (List GId) :=
  match st.getD g [] with
  | [] => some [(rankOf sizes g, g)]
  | e :: l =>
    if rankOf sizes g ≤ e.1 ∧ g < e.2 then some ((rankOf sizes g, g) :: e :: l) else none

/-- `input_valid` of all ranks (distributed_stitching.cc:202-230); the position in the concatenated list
is `i + offset_p` (line 241) -/
def cliques (sizes : List Nat) (st : List (List GId)) : List (List GId) :=
  (List.range st.length).filterMap (representative sizes st)

/-- the notifications (distributed_stitching.cc:240-245) -/
def notifications (cl : List (List GId)) : List (GId × Nat) :=
  (List.range cl.length).flatMap fun k => (cl.getD k []).map fun e => (e, k)

/-- processing a notification (distributed_stitching.cc:259-265). A particle notified twice violates the
`AssertDimension` of line 262 (debug mode), modelled as exception. -/
def notify (sizes : List Nat) (res : List (Option Nat)) (m : GId × Nat) : Res (List (Option Nat)) :=
  if Holds sizes m.1.1 m.1.2 then
    match res[m.1.2]? with
    | some none => .ok (res.set m.1.2 (some m.2))
    | some (some _) => .exc .assertThrow
    | none => .ub
  else .ub

/-- steps 2 and 3 (distributed_stitching.cc:201-270) -/
def numberCliques (sizes : List Nat) (orderN : List (GId × Nat) → List (GId × Nat))
    (st : List (List GId)) : Res (List (Option Nat)) :=
  (orderN (notifications (cliques sizes st))).foldlM (notify sizes) (List.replicate st.length none)

/-- `perform_distributed_stitching` (distributed_stitching.cc:103-271) -/
def stitch (sizes : List Nat) (order : Nat → List (GId × List GId) → List (GId × List GId))
    (orderN : List (GId × Nat) → List (GId × Nat)) (fuel : Nat) (input : List (List GId)) :
    Option (Res (List (Option Nat))) :=
  (fpLoop sizes order fuel 0 input).map fun r => r >>= numberCliques sizes orderN

/-- edges collected on rank 0 and number of vertices (distributed_stitching.cc:71-80) -/
def gatherEdges (edgesIn : List (List (List GId))) : Nat × List (Nat × Nat) :=
  edgesIn.foldl (fun s rk =>
    (s.1 + rk.length,
      s.2 ++ (List.range rk.length).flatMap fun j => (rk.getD j []).map fun e => (s.1 + j, e.2)))
    (0, [])

/-- `perform_distributed_stitching_via_graph` (distributed_stitching.cc:45-101): colours per rank.
`connected_components` evaluates `c[0]` (line 38), which is undefined for a graph without vertices.
Edges refer to existing vertices. -/
def stitchGraph (cc : CCFun) (edgesIn : List (List (List GId))) : Res (List (List Nat)) :=
  let g := gatherEdges edgesIn
  if g.1 = 0 then .ub
  else
    let colors := (cc g.1 g.2).1
    let sizes := edgesIn.map List.length
    .ok ((List.range edgesIn.length).map fun r =>
      (colors.drop (offsetOf sizes r)).take (sizes.getD r 0))

/-- `number_of_stitched_particles` (distributed_stitching.cc:273-294) on the ids of all ranks -/
def nStitched (ids : List (List Nat)) : Nat :=
  if (ids.map List.length).sum = 0 then 0
  else (ids.map (fun l => l.foldl max 0)).foldl max 0 + 1

end Verif
