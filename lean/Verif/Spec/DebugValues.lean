/-
Specification: two grains side by side.
-/
import Mathlib.Algebra.Order.Field.Rat
import Mathlib.Algebra.BigOperators.Fin

namespace Verif.DebugValues.Spec

/-- Order parameters of the two grains along the first axis: the left one in column 0, the right one in column 2, both meet in column 1. -/
def grain (g x : Nat) : Rat := if x = 1 then 2 / 5 else if x = 2 * g then 1 else 0

/-- All components at the node in column `x` and row `y`: the concentration is the sum of the order parameters, the chemical potential counts the nodes. -/
def component (x y : Nat) : Nat → Rat
  | 0 => grain 0 x + grain 1 x
  | 1 => (x + 3 * y + 1 : Nat) / 10
  | 2 => grain 0 x
  | 3 => grain 1 x
  | _ => 0

/-- Closer than one billionth to a node. -/
def At {K : Type} [Field K] [LinearOrder K] {d : Nat} (p : Fin d → K) (a : Fin d → Nat) : Prop := ∑ i, (p i - (a i : K)) ^ 2 < (1 / 10 ^ 9) ^ 2

end Verif.DebugValues.Spec
