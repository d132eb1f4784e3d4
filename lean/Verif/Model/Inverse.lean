import Verif.Model.Detect
/-!
# Global numbering of grain segments

Models `build_inverse_mapping` (tracker.h:1856-1871), `get_grain_segment_index` (1134-1152),
`n_segments` (1154-1158), `get_grain_and_segment` (1113-1121).
-/
namespace Verif

/-- the key under which an entry is stored; no grain is the key `numbers::invalid_unsigned_int` -/
def gridKey (e : Option Nat) : Nat := e.getD invalidUInt

/-- one assignment `grain_segment_ids_numbering[g][s] = n_total_segments; ++n_total_segments` -/
def inverseStep (st : OMap (OMap Nat) × Nat) (e : Option Nat × Nat) : OMap (OMap Nat) × Nat :=
  let inner := (st.1.get? (gridKey e.1)).getD []
  (st.1.set (gridKey e.1) (inner.set e.2 st.2), st.2 + 1)

/-- `build_inverse_mapping` (tracker.h:1856-1871): the numbering and `n_total_segments` -/
def buildInverse (lookup : Lookup) : OMap (OMap Nat) × Nat :=
  lookup.foldl (fun st row => row.foldl inverseStep st) ([], 0)

/-- `get_grain_segment_index` (tracker.h:1134-1152); the `Assert`s are debug only, `at` throws -/
def segmentIndex (numbering : OMap (OMap Nat)) (g s : Nat) : Res Nat := do
  let inner ← Res.at? (numbering.get? g)
  Res.at? (inner.get? s)

/-- `get_grain_and_segment` (tracker.h:1113-1121) for a valid particle id; unchecked vector access -/
def grainAndSegment (lookup : Lookup) (op particle : Nat) : Res (Option Nat × Nat) := do
  let row ← Res.index lookup op
  Res.index row particle

end Verif
