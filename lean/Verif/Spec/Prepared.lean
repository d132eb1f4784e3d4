import Verif.Model.Prepared

/-!
# Which data a preconditioner may be based on

A preconditioner is computed anew in the first Newton step after something was changed and from then on in every step whose number is a
multiple of `every`, or if the previous linear system took more than `limit` iterations.  `past` are the Newton steps since then with the data
of each and the number of linear iterations.
-/

namespace Verif.Spec.Prepared
open Verif.Prepared (Disc Kind)

/-- In step `j` of `past` the preconditioner is computed. -/
def Due {D : Type} (every limit : Nat) (past : List (D × Nat)) (j : Nat) : Prop :=
  every ∣ j ∨ ∃ x, 0 < j ∧ past[j - 1]? = some x ∧ limit < x.2

/-- `d` are the data of the latest of these steps. -/
def Source {D : Type} (every limit : Nat) (past : List (D × Nat)) (d : D) : Prop :=
  ∃ j n, past[j]? = some (d, n) ∧ Due every limit past j ∧ ∀ i, j < i → i < past.length → ¬ Due every limit past i

/-- What happens to the problem. -/
inductive Ev (S D : Type) where
  | solve (its : List (D × Nat))
  | change (s : S)
  | reset

/-- Steps of a solve, each one with the steps before it that count and itself. -/
def steps {D : Type} (past its : List (D × Nat)) : List (List (D × Nat)) :=
  (List.range its.length).map fun k => past ++ its.take (k + 1)

/-- For every event the steps of its solve with the shape of the problem; `keep`: steps of former solves count. -/
def trace {S D : Type} (keep : Bool) : List (Ev S D) → S → List (D × Nat) → List (List (S × List (D × Nat)))
  | [], _, _ => []
  | .solve its :: es, s, past =>
    let p := if keep then past else []
    ((steps p its).map fun h => (s, h)) :: trace keep es s (p ++ its)
  | .change s :: es, _, _ => [] :: trace keep es s []
  | .reset :: es, s, _ => [] :: trace keep es s []

/-- All shapes of a run. -/
def shapes {S D : Type} : List (Ev S D) → List S
  | [] => []
  | .change s :: es => s :: shapes es
  | _ :: es => shapes es

/-- The matrices of a preconditioner of class `k` computed from shape `s` and data `d`: none, one for all components, or one for every
component, which is the same one for all if the operator has only one different block. -/
def wanted {S D M : Type} (o : Disc S D M) (k : Kind) (s : S) (d : D) : List M :=
  match k with
  | .identity | .gmg => []
  | .inverseDiagonal => [o.diagonal s d]
  | .componentBlocks | .cellBlocks | .amg | .ilu | .ic => [o.system s d]
  | .blockAmg | .blockIlu => (List.range (o.comps s)).map fun b => o.block s d (if o.unique s = 1 then 0 else b)

/-- Class `k` constructed with shape `s0` can be used with shape `s`; `inner`: as part of the block preconditioner. -/
def Fits {S D M : Type} (o : Disc S D M) (k : Kind) (inner : Bool) (s0 s : S) : Prop :=
  o.implemented s = true ∧
  match k with
  | .gmg => False
  | .blockAmg => o.own = inner ∧ 0 < o.comps s ∧ o.unique s = o.comps s
  | .blockIlu => o.own = inner ∧ 0 < o.comps s ∧ (inner = false → o.unique s = o.comps s) ∧
      ((o.unique s0 ≠ 1 ∧ o.unique s = o.comps s) ∨ (o.unique s0 = 1 ∧ o.unique s = 1 ∧ o.comps s < 20))
  | _ => True

end Verif.Spec.Prepared
