import Verif.Model.BlockVector
/-!
# Vectors that share blocks

Models `DynamicBlockVector` with the pointers to its blocks (include/pf-applications/lac/dynamic_block_vector.h:44-95, 125-291, 383-505,
532-537, 582): an array of `std::shared_ptr`, so that views and vectors made of the blocks of others (lines 54-60, 176-203, 222-234;
time_integration/solution_history.h:110-122; driver.h:1399-1433; time_marching.h:684-686, 926-927, 1074, 1093) refer to the same memory.
A block is the list of its entries; partitioning, ghost values and the stored sizes are left out (`Model/BlockVector.lean` has the sizes).
Memory is never released; `reinit` is taken without `omit_zeroing_entries`. Index checks are active in debug builds only.
-/
namespace Verif.Shared
variable {K : Type}

/-- memory of the blocks, the first unused address, and the array of pointers of every vector variable -/
structure St (K : Type) where
  heap : Nat → List K
  next : Nat
  vars : Nat → List Nat

/-- no vector has a block yet (lines 44-47 with `n = 0`) -/
def St.init : St K := ⟨fun _ => [], 0, fun _ => []⟩

/-- values of the blocks of a vector -/
def St.val (s : St K) (x : Nat) : List (List K) := (s.vars x).map s.heap

/-- a vector gets another array of pointers -/
def St.point (s : St K) (x : Nat) (l : List Nat) : St K := { s with vars := fun w => if w = x then l else s.vars w }

/-- a block is overwritten -/
def St.write (s : St K) (a : Nat) (v : List K) : St K := { s with heap := fun b => if b = a then v else s.heap b }

/-- `std::make_shared` (lines 70, 135, 157) and the first value of the block -/
def St.alloc (s : St K) (v : List K) : St K :=
  { s with heap := fun b => if b = s.next then v else s.heap b, next := s.next + 1 }

/-- `blocks.resize(n)` (lines 65, 130, 152): null pointers behind -/
def resized (n : Nat) (l : List Nat) : List (Option Nat) := (l.take n).map some ++ List.replicate (n - l.length) none

/-- The loops over the blocks (lines 67-76, 132-143, 154-161, 386-387, 393-394, 412-413, 430-431, 439-440, 468-469, 503-504): each block, created if the
pointer is null, becomes `f` of its own entries and those of a second block, read when its turn comes. The state afterwards and the pointers. -/
def loop (f : List K → List K → List K) (s : St K) : List (Option Nat × Nat) → St K × List Nat
  | [] => (s, [])
  | (some a, p) :: l =>
    let r := loop f (s.write a (f (s.heap a) (s.heap p))) l
    (r.1, a :: r.2)
  | (none, p) :: l =>
    let r := loop f (s.alloc (f [] (s.heap p))) l
    (r.1, s.next :: r.2)

/-- the pointers a loop has left become those of vector `x`, behind the pointers `pre` it has not touched -/
def keep (x : Nat) (pre : List Nat) (r : St K × List Nat) : St K := r.1.point x (pre ++ r.2)

/-- entries of a vector reinitialised with the layout of `v` -/
def zeros [Zero K] (v : List K) : List K := v.map fun _ => 0

/-- operations on vector variables -/
inductive Op (K : Type)
  /-- `DynamicBlockVector(n)` (lines 44-47) -/
  | create (x n : Nat)
  /-- `DynamicBlockVector(V)` (lines 49-52) -/
  | copy (x y : Nat)
  /-- `operator=(const DynamicBlockVector &)` (lines 62-81) -/
  | assign (x y : Nat)
  /-- move constructor and assignment (lines 83-95) -/
  | move (x y : Nat)
  /-- `swap` (lines 532-537) -/
  | swap (x y : Nat)
  /-- `reinit(n)` (lines 125-146) -/
  | resize (x n : Nat)
  /-- `reinit(V)` (lines 148-164) -/
  | like (x y : Nat)
  /-- `move_block` (lines 243-259) -/
  | shift (x i j : Nat)
  /-- `remove_block`, the result is dropped (lines 276-291) -/
  | remove (x i : Nat)
  /-- `y.insert_block(x.remove_block(i), j)` (lines 261-291) -/
  | transfer (x i y j : Nat)
  /-- `x.insert_block(y.block_ptr(i), j)` (lines 222-234, 261-274) -/
  | insert (x j y i : Nat)
  /-- `create_view` (lines 176-203) -/
  | view (z y b e : Nat)
  /-- construction from the pointers to the blocks of several vectors (lines 54-60; solution_history.h:110-122) -/
  | gather (z : Nat) (ys : List Nat)
  /-- operations with a number: `add(a)`, `operator*=`, `operator=(v)` (lines 383-388, 443-460, 500-505) -/
  | map (x : Nat) (f : List K → List K)
  /-- operations with a second vector: `add`, `sadd`, `scale`, `+=`, `-=` (lines 390-395, 407-432, 462-498) -/
  | zip (x y : Nat) (f : List K → List K → List K)
  /-- change of one block obtained by `block(b)` (lines 208-213) -/
  | put (x b : Nat) (f : List K → List K)

/-- execution of an operation; moving a vector into itself and constructing it from itself are not defined -/
def exec [Zero K] (s : St K) : Op K → Res (St K)
  | .create x n => .ok (keep x [] (loop (fun _ _ => []) s (List.replicate n (none, 0))))
  | .copy x y => if x = y then .ub else .ok (keep x [] (loop (fun _ v => v) s ((s.vars y).map fun p => (none, p))))
  | .assign x y => .ok (keep x [] (loop (fun _ v => v) s ((resized (s.vars y).length (s.vars x)).zip (s.vars y))))
  | .move x y => if x = y then .ub else .ok ((s.point x (s.vars y)).point y [])
  | .swap x y => .ok ((s.point x (s.vars y)).point y (s.vars x))
  | .resize x n =>
    .ok (keep x ((s.vars x).take n) (loop (fun _ v => if s.vars x = [] then [] else zeros v) s
      (List.replicate (n - (s.vars x).length) (none, (s.vars x).headD 0))))
  | .like x y => .ok (keep x [] (loop (fun _ v => zeros v) s ((resized (s.vars y).length (s.vars x)).zip (s.vars y))))
  | .shift x i j => do
    let l ← moveBlocks (s.vars x) i j
    pure (s.point x l)
  | .remove x i => do
    let r ← removeBlocks (s.vars x) i
    pure (s.point x r.1)
  | .transfer x i y j => do
    let r ← removeBlocks (s.vars x) i
    let s := s.point x r.1
    let l ← insertBlocks 0 (s.vars y) r.2 j
    pure (s.point y l)
  | .insert x j y i => do
    let p ← Res.index (s.vars y) i
    let l ← insertBlocks 0 (s.vars x) p j
    pure (s.point x l)
  | .view z y b e => if b ≤ e ∧ e ≤ (s.vars y).length then .ok (s.point z (((s.vars y).drop b).take (e - b))) else .ub
  | .gather z ys => .ok (s.point z (ys.flatMap s.vars))
  | .map x f => .ok (keep x [] (loop (fun o _ => f o) s ((s.vars x).map fun a => (some a, a))))
  | .zip x y f =>
    if (s.vars x).length ≤ (s.vars y).length then .ok (keep x [] (loop f s (((s.vars x).map some).zip (s.vars y)))) else .ub
  | .put x b f => do
    let a ← Res.index (s.vars x) b
    pure (s.write a (f (s.heap a)))

/-- a program -/
def run [Zero K] (ops : List (Op K)) (s : St K) : Res (St K) := ops.foldlM exec s

end Verif.Shared
