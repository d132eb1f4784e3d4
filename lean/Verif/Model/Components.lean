import Mathlib.Logic.Relation
/-!
# Connected components

Contract of `boost::connected_components` on an undirected graph with vertices `0..n-1`, and an
executable labelling that meets it (so that the contract is known to be satisfiable and examples can
be computed).
-/
namespace Verif

/-- `a` and `b` are joined by a chain of edges -/
def Linked (edges : List (Nat × Nat)) : Nat → Nat → Prop :=
  Relation.EqvGen (fun a b => (a, b) ∈ edges)

/-- Contract: labels are `0..k-1`, all of them used, and equal exactly for linked vertices. -/
structure IsComponents (n : Nat) (edges : List (Nat × Nat)) (labels : List Nat) (k : Nat) : Prop where
  length : labels.length = n
  lt : ∀ (v l : Nat), labels[v]? = some l → l < k
  surj : ∀ l, l < k → ∃ v : Nat, labels[v]? = some l
  iff : ∀ (v w a b : Nat), labels[v]? = some a → labels[w]? = some b → (a = b ↔ Linked edges v w)

/-- A components routine: given the number of vertices and the edges, labels and their number. -/
abbrev CCFun := Nat → List (Nat × Nat) → List Nat × Nat

/-- the contract for all graphs -/
def CCContract (cc : CCFun) : Prop :=
  ∀ n edges, (∀ e ∈ edges, e.1 < n ∧ e.2 < n) →
    IsComponents n edges (cc n edges).1 (cc n edges).2

/-- merge the classes of the end points of an edge -/
def mergeEdge (lab : List Nat) (e : Nat × Nat) : List Nat :=
  let a := lab.getD e.1 e.1
  let b := lab.getD e.2 e.2
  lab.map (fun x => if x = b then a else x)

/-- number of distinct representatives before value `x` in `reps` -/
def ccExec : CCFun := fun n edges =>
  let lab := edges.foldl mergeEdge (List.range n)
  let reps := (List.range n).filter (fun v => lab.getD v v = v)
  (lab.map (fun x => reps.idxOf x), reps.length)

end Verif
