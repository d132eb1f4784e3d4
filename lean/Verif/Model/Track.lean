import Verif.Model.Tracking
/-!
# `Tracker::track` up to the reassignment of order parameters

Models `include/pf-applications/grain_tracker/tracker.h`, lines 148-300.
-/
namespace Verif
variable {P K : Type}

/-- `particle_ids_to_grain_ids` (tracker.h:1902): per order parameter and particle the pair
(grain id, segment id); grain id `none` is `numbers::invalid_unsigned_int`. -/
abbrev Lookup := List (List (Option Nat × Nat))

/-- Settings used while tracking (tracker.h:1912, 1927). -/
structure TrackCfg (K : Type) where
  thresholdNew : K
  allowNew : Bool

/-- Local variables and members changed by the main loop of `track` (tracker.h:160-205). -/
structure LoopState (P K : Type) where
  grains : OMap (Grain P K)
  lookup : Lookup
  changed : List (List Bool)
  numberer : Nat
  nInvalid : Nat
  nSkipped : Nat

/-- The inner renaming loop over the particles of one order parameter (tracker.h:262-283): entries
not renamed yet and carrying the current id get the new id. -/
def renameEntries (cur : Nat) (new : Option Nat) :
    List (Option Nat × Nat) → List Bool → List (Option Nat × Nat) × List Bool
  | e :: es, c :: cs =>
    let r := renameEntries cur new es cs
    if c = false ∧ e.1 = some cur then ((new, e.2) :: r.1, true :: r.2) else (e :: r.1, c :: r.2)
  | es, cs => (es, cs)

/-- renaming in the two-level tables; `v[op]` is unchecked -/
def renameOp (lookup : Lookup) (changed : List (List Bool)) (op cur : Nat) (new : Option Nat) :
    Res (Lookup × List (List Bool)) :=
  match lookup[op]?, changed[op]? with
  | some es, some cs =>
    let r := renameEntries cur new es cs
    Res.ok (lookup.set op r.1, changed.set op r.2)
  | _, _ => Res.ub

/-- Insertion of an identified grain (tracker.h:252-258). -/
def register (s : LoopState P K) (g : Grain P K) (newId : Option Nat) (dyn : Dynamics) :
    LoopState P K :=
  match newId with
  | some k =>
    let grains := s.grains.emplace k g
    match grains.get? k with
    | some gr => { s with grains := grains.set k { gr with grainId := k, dynamics := dyn } }
    | none => s
  | none => s

/-- Body of the loop over detected grains (tracker.h:200-284). Returns the state reached also if an
exception leaves the loop. -/
def trackStep [LinearOrder K] (cfg : TrackCfg K) (old : OMap (Grain P K)) (m : OMap (Option Nat))
    (s : LoopState P K) (p : Nat × Grain P K) : LoopState P K × Res Unit :=
  let cur := p.1
  let g := p.2
  match m.get? cur with
  | none => (s, .exc .outOfRange)
  | some none =>
    -- unmatched grain
    let (s, newId) : LoopState P K × Option Nat :=
      if g.maxValue > cfg.thresholdNew then
        if cfg.allowNew then ({ s with numberer := s.numberer + 1 }, some s.numberer)
        else ({ s with nInvalid := s.nInvalid + 1 }, none)
      else ({ s with nSkipped := s.nSkipped + 1 }, none)
    finish s newId .none
  | some (some o) =>
    match old.get? o with
    | none => (s, .exc .outOfRange)
    | some og =>
      if og.op = g.op then
        finish s (some o) (if g.measure > og.measure then .growing else .shrinking)
      else (s, .exc .grainsInconsistency)
where
  /-- tracker.h:252-283 -/
  finish (s : LoopState P K) (newId : Option Nat) (dyn : Dynamics) : LoopState P K × Res Unit :=
    let s := register s p.2 newId dyn
    if newId ≠ some p.1 then
      match renameOp s.lookup s.changed p.2.op p.1 newId with
      | .ok (l, c) => ({ s with lookup := l, changed := c }, .ok ())
      | .exc e => (s, .exc e)
      | .ub => (s, .ub)
    else (s, .ok ())

/-- sequential loop that stops at the first exception -/
def loopStop {σ α : Type} (f : σ → α → σ × Res Unit) : σ → List α → σ × Res Unit
  | s, [] => (s, .ok ())
  | s, a :: l =>
    match f s a with
    | (s', .ok ()) => loopStop f s' l
    | (s', .exc e) => (s', .exc e)
    | (s', .ub) => (s', .ub)

/-- members of the tracker touched by `track` -/
structure Tracker (P K : Type) where
  grains : OMap (Grain P K)
  oldGrains : OMap (Grain P K)
  lookup : Lookup

/-- result of `detect_grains` (tracker.h:163-164): returned grains and the member
`particle_ids_to_grain_ids` it fills -/
structure Detection (P K : Type) where
  grains : OMap (Grain P K)
  lookup : Lookup

/-- numberer for new grains (tracker.h:167-168): `old_grains.rbegin()->first + 1` -/
def firstFree (old : OMap (Grain P K)) : Nat :=
  match old.getLast? with
  | some p => p.1 + 1
  | none => 0

/-- `Tracker::track` (tracker.h:148-306): bookkeeping of grains up to the reassignment; `m` is the
result of `transfer_grain_ids`. Returns the members afterwards, also on the exceptional path. -/
def trackWith [LinearOrder K] (cfg : TrackCfg K) (t : Tracker P K) (d : Detection P K)
    (m : OMap (Option Nat)) : Tracker P K × Res Unit :=
  let old := t.grains
  let s0 : LoopState P K :=
    { grains := [], lookup := d.lookup, changed := d.lookup.map (fun es => es.map (fun _ => false)),
      numberer := firstFree old, nInvalid := 0, nSkipped := 0 }
  let (s, r) := loopStop (trackStep cfg old m) s0 d.grains
  let t' : Tracker P K := { grains := s.grains, oldGrains := old, lookup := s.lookup }
  match r with
  | .ok () =>
    if s.nInvalid ≠ 0 then (t', .exc .grainsInconsistency)
    else if d.grains.length = s.grains.length + s.nSkipped then (t', .ok ())
    else (t', .exc .grainsInconsistency)
  | r => (t', r)

/-- `Tracker::track` up to the reassignment, with the transfer of ids. If `transfer_grain_ids` leaves
by an exception, `grains` has been cleared already (tracker.h:156-158). -/
def trackMatch [LinearOrder K] (G : Geometry P K) (query : List (P × K) → P × K → List Nat)
    (cfg : TrackCfg K) (t : Tracker P K) (d : Detection P K) (n : Nat) : Tracker P K × Res Unit :=
  match transferGrainIds G query d.grains t.grains n with
  | .ok m => trackWith cfg t d m
  | .exc e => ({ grains := [], oldGrains := t.grains, lookup := d.lookup }, .exc e)
  | .ub => ({ grains := [], oldGrains := t.grains, lookup := d.lookup }, .ub)

end Verif
