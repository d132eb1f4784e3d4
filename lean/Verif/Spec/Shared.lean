import Verif.Model.Shared
/-!
# Vectors as values

Every vector variable has a list of blocks of its own; nothing is shared.
-/
namespace Verif.Shared.Spec
open Verif.Shared (Op)
variable {K : Type}

/-- one variable changes -/
def put (m : Nat → List (List K)) (x : Nat) (l : List (List K)) : Nat → List (List K) := fun w => if w = x then l else m w

/-- operations that make no two vectors share a block -/
def owning : Op K → Bool
  | .insert .. => false
  | .view .. => false
  | .gather .. => false
  | _ => true

/-- a vector of `n` blocks made from `l`: new blocks look like the first one -/
def resize [Zero K] (l : List (List K)) (n : Nat) : List (List K) :=
  if n ≤ l.length then l.take n
  else l ++ List.replicate (n - l.length) (match l with
    | [] => []
    | b :: _ => List.replicate b.length (0 : K))

/-- value semantics; operations that share have none here -/
def exec [Zero K] (m : Nat → List (List K)) : Op K → Res (Nat → List (List K))
  | .create x n => .ok (put m x (List.replicate n []))
  | .copy x y => if x = y then .ub else .ok (put m x (m y))
  | .assign x y => .ok (put m x (m y))
  | .move x y => if x = y then .ub else .ok (put (put m x (m y)) y [])
  | .swap x y => .ok (put (put m x (m y)) y (m x))
  | .resize x n => .ok (put m x (resize (m x) n))
  | .like x y => .ok (put m x ((m y).map fun b => List.replicate b.length 0))
  | .shift x i j => if h : i < (m x).length ∧ j < (m x).length then .ok (put m x (((m x).eraseIdx i).insertIdx j ((m x)[i]'h.1))) else .ub
  | .remove x i => if i < (m x).length then .ok (put m x ((m x).eraseIdx i)) else .ub
  | .transfer x i y j =>
    if h : i < (m x).length then
      let n := put m x ((m x).eraseIdx i)
      if j ≤ (n y).length then .ok (put n y ((n y).insertIdx j (m x)[i])) else .ub
    else .ub
  | .map x f => .ok (put m x ((m x).map f))
  | .zip x y f => if (m x).length ≤ (m y).length then .ok (put m x (List.zipWith f (m x) (m y))) else .ub
  | .put x b f => if h : b < (m x).length then .ok (put m x ((m x).set b (f (m x)[b]))) else .ub
  | _ => .ub

/-- a program on values -/
def run [Zero K] (ops : List (Op K)) (m : Nat → List (List K)) : Res (Nat → List (List K)) := ops.foldlM exec m

/-- operations that change entries but neither number nor place of blocks -/
def content : Op K → Bool
  | .map .. => true
  | .zip .. => true
  | .put .. => true
  | _ => false

/-- vectors named on the left: their arrays of blocks may be others afterwards -/
def changed : Op K → List Nat
  | .create x _ => [x]
  | .copy x _ => [x]
  | .assign x _ => [x]
  | .move x y => [x, y]
  | .swap x y => [x, y]
  | .resize x _ => [x]
  | .like x _ => [x]
  | .shift x _ _ => [x]
  | .remove x _ => [x]
  | .transfer x _ y _ => [x, y]
  | .insert x _ _ _ => [x]
  | .view z _ _ _ => [z]
  | .gather z _ => [z]
  | .map x _ => [x]
  | .zip x _ _ => [x]
  | .put x _ _ => [x]

/-- vectors whose present blocks are written to -/
def written : Op K → List Nat
  | .assign x _ => [x]
  | .like x _ => [x]
  | .map x _ => [x]
  | .zip x _ _ => [x]
  | .put x _ _ => [x]
  | _ => []

/-- a second vector that is read -/
def sources : Op K → List Nat
  | .zip _ y _ => [y]
  | _ => []

end Verif.Shared.Spec
