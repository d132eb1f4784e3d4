/-
Specification: what names have in common.
-/
import Verif.Model.Labels

namespace Verif.Labels.Spec

open Verif.Labels

/-- The longest list of characters that all names start with. -/
def CommonPrefix (files : List Name) (pre : Name) : Prop := (∀ f ∈ files, pre <+: f) ∧ ∀ p, (∀ f ∈ files, p <+: f) → p.length ≤ pre.length

/-- Labels are the middle parts of the names between what all have in common. -/
def Middle (files ls : List Name) : Prop := ∃ pre suf, (∀ f ∈ files, pre <+: f ∧ suf <:+ f) ∧ files = ls.map fun l => pre ++ l ++ suf

end Verif.Labels.Spec
