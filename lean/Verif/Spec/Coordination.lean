/-
Specification of the coordination number: two grains are neighbours if some cell is covered by both.
-/
namespace Verif.Coordination

/-- Grain `g` has the neighbour `h`: some cell lists both (at different places) and `g` is to be counted. -/
def Touch (ins : Nat → Bool) (cells : List (List Nat)) (g h : Nat) : Prop :=
  ∃ gs ∈ cells, ∃ i j : Nat, i ≠ j ∧ gs[i]? = some g ∧ gs[j]? = some h ∧ ins g = true

end Verif.Coordination
