/-
Specification: all that happened, once.
-/
import Mathlib.Order.Defs.LinearOrder

namespace Verif.MergedLog.Spec

/-- The events of all processes, each once, in ascending order. -/
def Merged {E : Type} [LinearOrder E] (logs : List (List E)) (out : List E) : Prop := out.Pairwise (· < ·) ∧ ∀ e, e ∈ out ↔ ∃ l ∈ logs, e ∈ l

/-- Entries with a separator between neighbours. -/
def joined (sep : List Char) : List (List Char) → List Char
  | [] => []
  | [x] => x
  | x :: y :: l => x ++ sep ++ joined sep (y :: l)

end Verif.MergedLog.Spec
