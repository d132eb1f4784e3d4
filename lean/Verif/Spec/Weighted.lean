/-
What the weighted forces should be, without arrays, batches or ranks.
-/
import Verif.Model.Weighted
import Mathlib.Algebra.BigOperators.Group.Finset.Basic

namespace Verif.Weighted.Spec
open Verif.Weighted

variable {dim : Nat} {K : Type} [Field K] [LinearOrder K]

/-- A cell with the order parameters that are relevant there. -/
abbrev FCell (dim : Nat) (K : Type) := Cell dim K × (Nat → Bool)

/-- All cells of all ranks. -/
def cellsOf (ranks : List (List (Batch dim K))) : List (FCell dim K) :=
  ranks.flatten.flatMap fun b => b.cells.map fun c => (c, fun g => b.g2r[g]? != some 255)

/-- The indicator of a grain boundary. -/
def gbFilter (P : Par K) (x : K) : K :=
  if 0 < P.cgb then (match P.smooth with | some s => s x | none => if P.cgb < x then 1 else 0) else 4 * x

/-- Integral over a cell. -/
def cellInt (c : Cell dim K) (f : Point dim K → K) : K := (c.points.map fun p => p.w * f p).sum

/-- Sum over the pairs of different relevant order parameters that belong to the segments `i` and `j` in the cell. -/
def overPairs (n i j : Nat) (f : Nat → Nat → Point dim K → K) (c : FCell dim K) : K :=
  ∑ a ∈ Finset.range n, ∑ b ∈ Finset.range n,
    if a ≠ b ∧ c.2 a ∧ c.2 b ∧ c.1.seg a = some i ∧ c.1.seg b = some j then cellInt c.1 (f a b) else 0

/-- Component `d` of the force density on order parameter `a` from `b`. -/
def density (P : Par K) (d : Fin dim) (a b : Nat) (p : Point dim K) : K :=
  P.k * (p.c - P.ceq) * gbFilter P (p.eta a * p.eta b) * (p.grad a d - p.grad b d)

/-- Force between two segments, not weighted. -/
def rawForce (P : Par K) (n : Nat) (cs : List (FCell dim K)) (i j : Nat) (d : Fin dim) : K :=
  (cs.map (overPairs n i j (density P d))).sum

/-- Contact of two segments. -/
def contact (n : Nat) (cs : List (FCell dim K)) (i j : Nat) : K :=
  (cs.map (overPairs n i j fun a b p => p.eta a * p.eta b)).sum

/-- Volume of a segment. -/
def volume (n : Nat) (cs : List (FCell dim K)) (i : Nat) : K :=
  (cs.map fun c => ∑ a ∈ Finset.range n,
    if c.2 a ∧ c.1.seg a = some i then cellInt c.1 (fun p => p.eta a) else 0).sum

/-- Force on segment `i`: for every other segment in contact the force per contact. -/
def force (P : Par K) (n nSeg : Nat) (cs : List (FCell dim K)) (i : Nat) (d : Fin dim) : K :=
  ∑ j ∈ Finset.range nSeg,
    if i ≠ j ∧ 1 / 10 ^ 10 < |contact n cs i j| then rawForce P n cs i j d / contact n cs i j else 0

/-- The tables cover all order parameters, and the tracker numbers segments below `nSeg`. -/
def Valid (n nSeg : Nat) (ranks : List (List (Batch dim K))) : Prop :=
  ∀ r ∈ ranks, ∀ b ∈ r, n ≤ b.g2r.length ∧ ∀ c ∈ b.cells, ∀ g s, c.seg g = some s → s < nSeg

/-- An order parameter that is not relevant in a batch belongs to no segment in its cells. -/
def Covered (ranks : List (List (Batch dim K))) : Prop :=
  ∀ r ∈ ranks, ∀ b ∈ r, ∀ c ∈ b.cells, ∀ g, b.g2r[g]? = some 255 → c.seg g = none

/-- All cells of all ranks, without tables. -/
def plainCells (ranks : List (List (Batch dim K))) : List (Cell dim K) := ranks.flatten.flatMap fun b => b.cells

/-- The same cell in another unit of volume. -/
def scaleCell (t : K) (c : Cell dim K) : Cell dim K := { c with points := c.points.map fun p => { p with w := t * p.w } }

/-- The same batches in another unit of volume. -/
def scale (t : K) (ranks : List (List (Batch dim K))) : List (List (Batch dim K)) :=
  ranks.map fun r => r.map fun b => { b with cells := b.cells.map (scaleCell t) }

/-- The force in a row of data. -/
def forceIn (row : List K) (d : Nat) : K := row.getD (d + 1) 0

end Verif.Weighted.Spec
