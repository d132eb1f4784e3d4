/-
Specification of the history: a list of the past solutions, newest first.
-/
import Verif.Model.History

namespace Verif.History.Spec

variable {V : Type}

/-- A vector whose ghost values are current. -/
def fresh (v : V) : Vec V := ⟨v, some v⟩

/-- The past solutions a history stands for between two passes. -/
def past (h : Hist V) : List V := h.cur.own :: h.old.map fun v => v.own

/-- Between two passes. -/
structure Ready (h : Hist V) : Prop where
  cur : h.cur.ghost = none
  old : ∀ v ∈ h.old, v.ghost = some v.own

/-- An operation on all solutions. -/
def all (f : Option (V → V)) (p : List V) : List V := p.map (f.getD id)

/-- What is limited is the newest solution. -/
def first (f : V → V) : List V → List V
  | [] => []
  | v :: l => f v :: l

/-- The past solutions when the step begins. -/
def begin (a : Pass V) (converged : Bool) (p : List V) : List V :=
  if converged then all a.track (all a.refine (first a.limit p)) else p

/-- The past solutions after a step that is accepted. -/
def accepted (sol : V) (R : Option (V → V)) (q : List V) : List V := all R ((sol :: q).dropLast)

/-- One pass: past solutions, whether converged, and what has to be seen. -/
def pass (a : Pass V) (converged : Bool) (p : List V) : List V × Bool × List V × List V :=
  let q := begin a converged p
  match a.outcome with
  | .success sol R =>
    let n := accepted sol R q
    (a.more.foldl (fun p T => p.map T) n, true, q, match a.save with | none => [] | some true => n | some false => n.take 1)
  | _ => (q, false, q, [])

/-- Several passes. -/
def run : List (Pass V) → Bool → List V → List V × Bool × List (List V × List V)
  | [], c, p => (p, c, [])
  | a :: l, c, p => let r := pass a c p; let q := run l r.2.1 r.1; (q.1, q.2.1, r.2.2 :: q.2.2)

/-- The tracker remaps nothing inside of the step. -/
def Plain (a : Pass V) : Prop :=
  match a.outcome with
  | .success _ R => ∀ f, R = some f → f = id
  | .inconsistent _ R => ∀ f, R = some f → f = id
  | .failure _ => True

end Verif.History.Spec
