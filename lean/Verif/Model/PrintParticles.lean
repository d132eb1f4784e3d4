/-
The program that writes the particles of packings for visualisation.

Models `applications/sintering/sintering_print_particles.cc:32-121`: table of order parameters turned round, properties of the particles, names of the files. Reading of
particles, the triangulation with its particle handler and the output itself are left out.
-/
import Verif.Model.Cloud

namespace Verif.PrintParticles

open Verif.Cloud

/-- `particle_to_order_parameter[j] = i.first` -/
def assign (op : Nat) (v : List Nat) (j : Nat) : Res (List Nat) := if j < v.length then .ok (v.set j op) else .ub

/-- sintering_print_particles.cc:67-71 -/
def invert (n : Nat) (t : OMap (List Nat)) : Res (List Nat) := t.foldlM (fun v e => e.2.foldlM (assign e.1) v) (List.replicate n 0)

/-- Properties of a particle: grain, radius, order parameter. -/
structure Rec (K P : Type) where
  point : P
  grain : Nat
  radius : K
  op : Nat
  deriving DecidableEq, Repr

/-- sintering_print_particles.cc:67-92 -/
def records {K P : Type} (ps : List (Part K P)) (t : OMap (List Nat)) : Res (List (Rec K P)) := do
  let inv ← invert ps.length t
  (List.range ps.length).mapM fun p => do
    let a ← Res.index ps p
    let op ← Res.index inv p
    .ok ⟨a.center, p, a.radius, op⟩

/-- A path: folder, stem, extension. -/
structure Path where
  parent : List Char
  stem : List Char
  ext : List Char
  deriving DecidableEq, Repr

/-- sintering_print_particles.cc:106, 118: names of the two files written, without the common ending, in the folder of the input. -/
def gridFile (p : Path) : List Char × List Char := (p.parent, "my_grid_".toList ++ p.stem)
def particleFile (p : Path) : List Char × List Char := (p.parent, "my_particles_".toList ++ p.stem)

/-- sintering_print_particles.cc:37-46: the files written for the arguments after the name of the program, in their order. -/
def filesWritten (args : List Path) : Res (List (List Char × List Char)) :=
  if args = [] then .exc .assertThrow else .ok (args.flatMap fun p => [gridFile p, particleFile p])

end Verif.PrintParticles
