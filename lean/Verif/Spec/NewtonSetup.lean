/-
Specification: which tangent the parameters ask for.
-/
import Verif.Model.NewtonSetup

namespace Verif.Spec.NewtonSetup

/-- Tangents a user can ask for at a point: products by finite differences (`jacobi_free`), a matrix by finite differences
(`fdm_jacobian_approximation`), or the analytic tangent. -/
inductive Wanted where
  | products
  | numeric
  | analytic

/-- A matrix `m` is a tangent of the wanted kind at `u`; `numeric u m₀` are the matrices `calc_numeric_tangent` produces. -/
def Is {P M : Type} (contrib : P → M) (tangent : P → M → M) (u : P) : Wanted → M → Prop
  | .products, _ => False
  | .numeric, m => ∃ m₀, m = tangent u m₀
  | .analytic, m => m = contrib u

section
variable {K : Type} [Field K] [DecidableEq K] (sqrt : K → K)

/-- The blocks of all quantities are there. -/
def Fits (qs : List (String × Nat × Nat)) (r : List K) : Prop := ∀ q ∈ qs, q.2.1 + q.2.2 ≤ r.length

instance (qs : List (String × Nat × Nat)) (r : List K) : Decidable (Fits qs r) := inferInstanceAs (Decidable (∀ q ∈ qs, _))

/-- Norm of a quantity for the squared norms of the blocks. -/
def norm (r : List K) (q : String × Nat × Nat) : K := sqrt ((r.drop q.2.1).take q.2.2).sum

/-- Ratio, zero if there is nothing to compare with. -/
def ratio (x y : K) : K := if y = 0 then 0 else x / y

/-- The number of linear iterations never falls. -/
def Grows : Nat → List Nat → Prop
  | _, [] => True
  | a, n :: ns => a ≤ n ∧ Grows n ns

instance Grows.dec : ∀ (a : Nat) (l : List Nat), Decidable (Grows a l)
  | _, [] => .isTrue trivial
  | _, n :: ns => @instDecidableAnd _ _ _ (Grows.dec n ns)

/-- Lines for the steps after the first. -/
def later (qs : List (String × Nat × Nat)) (v₀ : K) (r₀ : List K) : Nat → Nat → List (K × List K × Nat) → List (NewtonSetup.Line K)
  | _, _, [] => []
  | step, prev, (v, r, n) :: runs =>
    ⟨step, v, some (ratio v v₀), qs.map fun q => (norm sqrt r q, some (ratio (norm sqrt r q) (norm sqrt r₀ q))), n - prev⟩ ::
      later qs v₀ r₀ (step + 1) n runs

end

end Verif.Spec.NewtonSetup
