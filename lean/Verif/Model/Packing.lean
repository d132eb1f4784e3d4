/-
Transformation of packings.

Models `applications/sintering/scripts/transform_packing.py:19-95`: extent of the packing, centring or offset, scaling, rotation. Angles are given by their cosine and
sine; the product of the three matrices is applied one after the other. Reading and writing of files are left out, columns are floating point numbers.
-/
import Mathlib.Algebra.Order.Field.Basic
import Mathlib.Data.Fin.VecNotation

namespace Verif.Packing

structure Particle (K : Type) where
  pos : Fin 3 → K
  r : K

variable {K : Type} [Field K] [LinearOrder K]

/-- transform_packing.py:19-30, one coordinate; `smax` is the largest number. -/
def limits (smax : K) (i : Fin 3) (ps : List (Particle K)) : K × K :=
  ps.foldl (fun l p => (min (p.pos i - p.r) l.1, max (p.pos i + p.r) l.2)) (smax, -smax)

/-- transform_packing.py:38-48: half of the extent is subtracted. -/
def centred (smax : K) (ps : List (Particle K)) : List (Particle K) :=
  let c := fun i => ((limits smax i ps).2 - (limits smax i ps).1) / 2
  ps.map fun p => ⟨fun i => p.pos i - c i, p.r⟩

/-- transform_packing.py:50-56 -/
def shifted (o : Fin 3 → K) (ps : List (Particle K)) : List (Particle K) := ps.map fun p => ⟨fun i => p.pos i + o i, p.r⟩

/-- transform_packing.py:58-65 -/
def scaled (s : K) (ps : List (Particle K)) : List (Particle K) := ps.map fun p => ⟨fun i => p.pos i * s, p.r * s⟩

/-- transform_packing.py:70-86: rotations about the axes, given by cosine and sine. -/
def rx (a : K × K) (v : Fin 3 → K) : Fin 3 → K := ![v 0, a.1 * v 1 - a.2 * v 2, a.2 * v 1 + a.1 * v 2]
def ry (a : K × K) (v : Fin 3 → K) : Fin 3 → K := ![a.1 * v 0 + a.2 * v 2, v 1, -a.2 * v 0 + a.1 * v 2]
def rz (a : K × K) (v : Fin 3 → K) : Fin 3 → K := ![a.1 * v 0 - a.2 * v 1, a.2 * v 0 + a.1 * v 1, v 2]

/-- transform_packing.py:88-95: about x first, about z last. -/
def rotated (a : Fin 3 → K × K) (ps : List (Particle K)) : List (Particle K) := ps.map fun p => ⟨rz (a 2) (ry (a 1) (rx (a 0) p.pos)), p.r⟩

/-- The options of the script. -/
structure Opts (K : Type) where
  centrify : Bool
  offset : Option (Fin 3 → K)
  scale : Option K
  rotate : Option (Fin 3 → K × K)

/-- transform_packing.py:38-95: an offset counts only without centring; the number 0 as scale is taken as no scale. -/
def transform (smax : K) (o : Opts K) (ps : List (Particle K)) : List (Particle K) :=
  let a := if o.centrify then centred smax ps else match o.offset with
    | some d => shifted d ps
    | none => ps
  let b := match o.scale with
    | some s => if s ≠ 0 then scaled s a else a
    | none => a
  match o.rotate with
  | some w => rotated w b
  | none => b

end Verif.Packing
