import Verif.Model.Res
import Mathlib.Algebra.Field.Defs
import Mathlib.Order.Defs.LinearOrder
/-! # Piecewise linear functions and limiting of vectors

`include/pf-applications/numerics/functions.h` and `include/pf-applications/numerics/phasefield_tools.h` -/
namespace Verif.Numerics

section
variable {K : Type} [Field K] [LinearOrder K]

/-- functions.h:58-66 `add_pair`: insertion before the first pair with larger abscissa (`upper_bound`
finds it by bisection, which agrees with the linear search on the sorted pairs) -/
def addPair (pairs : List (K × K)) (x y : K) : List (K × K) :=
  pairs.takeWhile (fun p => !decide (x < p.1)) ++ (x, y) :: pairs.dropWhile (fun p => !decide (x < p.1))

/-- pairs after adding points one after the other -/
def addPairs (pts : List (K × K)) : List (K × K) := pts.foldl (fun l p => addPair l p.1 p.2) []

/-- functions.h:120-124; `none` if the abscissae coincide (the code computes infinities or NaN) -/
def line (a b : K × K) (x : K) : Option K :=
  if a.1 = b.1 then none
  else
    let k := (a.2 - b.2) / (a.1 - b.1)
    let c := a.2 - k * a.1
    some (k * x + c)

/-- functions.h:68-126 `value`. `lower_bound` splits the sorted pairs into those with smaller abscissa
and the others. -/
def value (extrapolate : Bool) (pairs : List (K × K)) (x : K) : Res (Option K) :=
  match pairs with
  | [] => .ok (some 0)
  | p0 :: rest =>
    let lo := pairs.takeWhile (fun p => decide (p.1 < x))
    let hi := pairs.dropWhile (fun p => decide (p.1 < x))
    match lo.getLast?, hi with
    | none, _ =>                                   -- it == begin
      if extrapolate then
        match rest with
        | [] => .ub                                -- dereferences end
        | p1 :: _ => .ok (line p0 p1 x)
      else .ok (some p0.2)
    | some b, [] =>                                -- it == end
      if extrapolate then
        match lo.dropLast.getLast? with
        | none => .ub                              -- before begin
        | some a => .ok (line a b x)
      else .ok (some b.2)
    | some a, b :: _ => .ok (line a b x)
end

/-! ## Limiting vector values -/

section
variable {K : Type} [LinearOrder K]

/-- phasefield_tools.h:37-43 for one value; `none` is not-a-number, for which both comparisons fail -/
def limitValue (lo hi : K) : Option K → Option K
  | none => none
  | some v => if v < lo then some lo else if v > hi then some hi else some v

/-- phasefield_tools.h:35-43: the default-constructed mask (`none`) selects everything -/
def limitBlocks (lo hi : K) (mask : Option (List Bool)) (vec : List (List (Option K))) :
    List (List (Option K)) :=
  vec.mapIdx (fun b vs =>
    if (match mask with | none => true | some m => m.getD b false) then vs.map (limitValue lo hi) else vs)

/-- phasefield_tools.h:22-44 `limit_vector_values`; an empty mask given explicitly counts as default
mask -/
def limitVector (lo hi : K) (mask : List Bool) (vec : List (List (Option K))) :
    Res (List (List (Option K))) :=
  if mask = [] then .ok (limitBlocks lo hi none vec)
  else if vec.length = mask.length then .ok (limitBlocks lo hi (some mask) vec)
  else .exc .assertThrow
end
end Verif.Numerics
