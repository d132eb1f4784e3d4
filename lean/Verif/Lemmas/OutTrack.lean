import Verif.Spec.OutTrack
import Verif.Lemmas.Cycle

set_option linter.unusedSectionVars false

namespace Verif.OutTrack

open Verif.Cycle Verif.Cycle.Spec Verif.Spec Verif.OutTrack.Spec Verif.Props

variable {P K : Type} [Field K] [LinearOrder K]

/-! ## The reassignment does not look at the notes -/

theorem ovPair_plain (G : Geometry P K) (cfg : ReassignCfg K) (gs : OMap (Grain P K)) (i j : Nat) :
    ovPair G cfg (plainAll gs) i j = ovPair G cfg gs i j := by
  unfold ovPair plainAll
  rw [List.getElem?_map, List.getElem?_map]
  cases gs[i]? <;> cases gs[j]? <;> rfl

theorem length_plain (gs : OMap (Grain P K)) : (plainAll gs).length = gs.length := by unfold plainAll; simp

theorem spRow_plain (G : Geometry P K) (cfg : ReassignCfg K) (gs : OMap (Grain P K)) :
    spRow G cfg (plainAll gs) = spRow G cfg gs := by
  funext i
  unfold spRow
  rw [length_plain]
  simp only [ovPair_plain]

theorem opAt_plain (gs : OMap (Grain P K)) : opAt (plainAll gs) = opAt gs := by
  funext i
  unfold opAt plainAll
  rw [List.getElem?_map]
  cases gs[i]? <;> rfl

theorem candidates_plain (G : Geometry P K) (cfg : ReassignCfg K) (gs : OMap (Grain P K)) :
    candidates G cfg (plainAll gs) = candidates G cfg gs := by
  unfold candidates
  rw [length_plain]
  simp only [ovPair_plain, opAt_plain]

theorem extractActive_plain (gs : OMap (Grain P K)) : extractActive (plainAll gs) = extractActive gs := by
  unfold extractActive plainAll
  rw [List.foldl_map]
  rfl

theorem setOps_plain (c : Nat → Nat) (gs : OMap (Grain P K)) : setOps c (plainAll gs) = plainAll (setOps c gs) := by
  unfold setOps plainAll
  apply List.ext_getElem?
  intro i
  simp only [List.getElem?_mapIdx, List.getElem?_map, Option.map_map]
  cases gs[i]? <;> rfl

theorem changesOps_plain (c : Nat → Nat) (gs : OMap (Grain P K)) : changesOps c (plainAll gs) = changesOps c gs := by
  unfold changesOps
  rw [length_plain, opAt_plain]

/-- What the reassignment proper gives, without notes. -/
def onFirst (r : OMap (Grain P K) × Bool × List Nat × Nat) : OMap (Grain P K) × Bool × List Nat × Nat := (plainAll r.1, r.2)

theorem fullColor_plain (G : Geometry P K) (cfg : ReassignCfg K) (gs : OMap (Grain P K)) :
    fullColor G cfg (plainAll gs) = (fullColor G cfg gs).bind fun r => .ok (onFirst r) := by
  unfold fullColor
  rw [length_plain, spRow_plain]
  simp only [setOps_plain, extractActive_plain, changesOps_plain]
  by_cases h : (cfg.color gs.length (spRow G cfg gs)).2 ≤ cfg.maxOps
  · simp [Res.assertThrow, h, Res.ok_bind, Res.bind, onFirst]
  · simp [Res.assertThrow, h, Res.exc_bind, Res.bind]

theorem recolor_plain (G : Geometry P K) (cfg : ReassignCfg K) (force fast : Bool) (gs : OMap (Grain P K)) :
    recolor G cfg force fast (plainAll gs) = (recolor G cfg force fast gs).bind fun r => .ok (onFirst r) := by
  unfold recolor
  simp only [extractActive_plain, candidates_plain, spRow_plain, opAt_plain, length_plain, fullColor_plain, setOps_plain, changesOps_plain]
  split
  · split
    · split
      · rfl
      · rfl
    · rfl
  · rfl

theorem addNeighbor_plain (G : Geometry P K) (g n : Grain P K) :
    addNeighbor G (plain g) (plain n) = (addNeighbor G g n).bind fun r => .ok (plain r) := by
  unfold addNeighbor
  by_cases h : g.op = n.op ∨ g.oldOp = n.oldOp
  · simp [Res.assertThrow, plain, h, Res.ok_bind, Res.bind, Grain.addNeighborCore, Grain.distanceLowerBound]
  · simp [Res.assertThrow, plain, h, Res.exc_bind, Res.bind]

theorem neighborsOf_plain (G : Geometry P K) : ∀ (gs : OMap (Grain P K)) (g : Grain P K),
    neighborsOf G (plainAll gs) (plain g) = (neighborsOf G gs g).bind fun r => .ok (plain r)
  | [], g => rfl
  | o :: gs, g => by
    have ih := neighborsOf_plain G gs
    unfold neighborsOf plainAll at ih ⊢
    rw [List.map_cons, List.foldlM_cons, List.foldlM_cons]
    by_cases h : g.grainId ≠ o.2.grainId ∧ (g.op = o.2.op ∨ g.oldOp = o.2.oldOp)
    · rw [if_pos h, if_pos (show (plain g).grainId ≠ (plain o.2).grainId ∧ ((plain g).op = (plain o.2).op ∨ (plain g).oldOp = (plain o.2).oldOp) from h),
        addNeighbor_plain]
      cases hx : addNeighbor G g o.2 with
      | ok a => exact ih a
      | exc e => rfl
      | ub => rfl
    · rw [if_neg h, if_neg (show ¬ ((plain g).grainId ≠ (plain o.2).grainId ∧ ((plain g).op = (plain o.2).op ∨ (plain g).oldOp = (plain o.2).oldOp)) from h)]
      exact ih g

/-- A loop over a table whose body commutes. -/
theorem mapM_plain (f f' : Nat × Grain P K → Res (Nat × Grain P K))
    (h : ∀ p, f' (p.1, plain p.2) = (f p).bind fun q => .ok (q.1, plain q.2)) : ∀ gs : OMap (Grain P K),
    (plainAll gs).mapM f' = (gs.mapM f).bind fun r => .ok (plainAll r)
  | [] => rfl
  | p :: gs => by
    have ih := mapM_plain f f' h gs
    unfold plainAll at ih ⊢
    rw [List.map_cons, List.mapM_cons, List.mapM_cons, h, ih]
    cases f p with
    | ok a =>
      simp only [Res.ok_bind, Res.bind]
      cases List.mapM f gs with
      | ok b => rfl
      | exc e => rfl
      | ub => rfl
    | exc e => rfl
    | ub => rfl

theorem buildNeighbors_plain (G : Geometry P K) (gs : OMap (Grain P K)) :
    buildNeighbors G (plainAll gs) = (buildNeighbors G gs).bind fun r => .ok (plainAll r) := by
  unfold buildNeighbors
  refine mapM_plain _ _ (fun p => ?_) gs
  rw [neighborsOf_plain]
  cases neighborsOf G gs p.2 <;> rfl

theorem removeDangling_plain (gs : OMap (Grain P K)) (act : List Nat) (nOps : Nat) :
    removeDangling (plainAll gs) act nOps = (removeDangling gs act nOps).bind fun r => .ok (plainAll r.1, r.2) := by
  unfold removeDangling
  cases act.getLast? with
  | none => rfl
  | some mx =>
    simp only
    cases Res.assertThrow (decide (0 ≤ (mx : Int) - ((nOps : Int) - 1))) with
    | exc e => rfl
    | ub => rfl
    | ok u =>
      simp only [Res.ok_bind]
      split
      · cases idsOffsets act nOps with
        | exc e => rfl
        | ub => rfl
        | ok offs =>
          simp only [Res.ok_bind]
          rw [mapM_plain (fun p => do
            let o ← Res.at? (offs.get? p.2.op)
            Res.ok (p.1, if o > 0 then { p.2 with op := ((p.2.op : Int) - o).toNat } else p.2))]
          · cases List.mapM (fun p : Nat × Grain P K => do
              let o ← Res.at? (offs.get? p.2.op)
              Res.ok (p.1, if o > 0 then { p.2 with op := ((p.2.op : Int) - o).toNat } else p.2)) gs with
            | exc e => rfl
            | ub => rfl
            | ok r => simp only [Res.bind, Res.ok_bind, extractActive_plain]
          · intro p
            show (Res.at? (offs.get? p.2.op) >>= _) = _
            cases Res.at? (offs.get? p.2.op) with
            | exc e => rfl
            | ub => rfl
            | ok o =>
              simp only [Res.ok_bind, Res.bind]
              split <;> rfl
      · rfl

theorem reassign_plain (G : Geometry P K) (cfg : ReassignCfg K) (force fast : Bool) (gs : OMap (Grain P K)) :
    reassignGrains G cfg force fast (plainAll gs) =
      (reassignGrains G cfg force fast gs).bind fun r => .ok { r with grains := plainAll r.grains } := by
  unfold reassignGrains
  rw [recolor_plain, candidates_plain]
  cases recolor G cfg force fast gs with
  | exc e => rfl
  | ub => rfl
  | ok r =>
    obtain ⟨a, b, d, e⟩ := r
    simp only [Res.bind, Res.ok_bind, onFirst]
    rw [buildNeighbors_plain]
    cases buildNeighbors G a with
    | exc e => rfl
    | ub => rfl
    | ok q =>
      simp only [Res.bind, Res.ok_bind]
      rw [removeDangling_plain]
      cases removeDangling q d e with
      | exc e => rfl
      | ub => rfl
      | ok w => rfl


theorem get_plain (gs : OMap (Grain P K)) (k : Nat) : (plainAll gs).get? k = (gs.get? k).map plain := by
  unfold plainAll
  induction gs with
  | nil => rfl
  | cons p gs ih =>
    obtain ⟨a, b⟩ := p
    rw [List.map_cons, OMap.get?_cons, OMap.get?_cons]
    split
    · rfl
    · exact ih

theorem sorted_plain {gs : OMap (Grain P K)} (h : gs.Sorted) : (plainAll gs).Sorted := by
  unfold plainAll OMap.Sorted at *
  rw [List.pairwise_map]
  exact h

/-! ## The transfer of identities does not look at the notes -/

theorem extractPerOp_plain (gs : OMap (Grain P K)) (n : Nat) : extractPerOp (plainAll gs) n = extractPerOp gs n := by
  unfold extractPerOp plainAll
  rw [List.foldlM_map]
  rfl

theorem at_get_plain {α : Type} (gs : OMap (Grain P K)) (k : Nat) (f : Grain P K → Res α) (h : ∀ g, f (plain g) = f g) :
    (Res.at? ((plainAll gs).get? k) >>= f) = (Res.at? (gs.get? k) >>= f) := by
  rw [get_plain]
  cases gs.get? k with
  | none => rfl
  | some g => exact h g

theorem flattenOld_plain (gs : OMap (Grain P K)) (ids : List Nat) : flattenOld (plainAll gs) ids = flattenOld gs ids := by
  unfold flattenOld
  congr 1
  funext acc id
  exact at_get_plain gs id _ fun g => rfl

theorem hitStep_plain (dist : P → P → K) (gs : OMap (Grain P K)) (flat : List (Nat × Segment P K)) (s : Segment P K) :
    hitStep dist (plainAll gs) flat s = hitStep dist gs flat s := by
  funext best id
  unfold hitStep
  cases Res.index (flat.map (·.1)) id with
  | exc e => rfl
  | ub => rfl
  | ok cand =>
    simp only [Res.ok_bind]
    exact at_get_plain gs cand _ fun g => rfl

theorem segmentStep_plain (dist : P → P → K) (query : List (P × K) → P × K → List Nat) (gs : OMap (Grain P K))
    (flat : List (Nat × Segment P K)) : segmentStep dist query (plainAll gs) flat = segmentStep dist query gs flat := by
  funext best s
  unfold segmentStep
  rw [hitStep_plain]

theorem overrideMapping_plain (G : Geometry P K) (new gs : OMap (Grain P K)) (o a b : Nat) :
    overrideMapping G new (plainAll gs) o a b = overrideMapping G new gs o a b := by
  unfold overrideMapping
  exact at_get_plain gs o _ fun g => rfl

theorem grainStep_plain (G : Geometry P K) (query : List (P × K) → P × K → List Nat) (new gs : OMap (Grain P K))
    (flat : List (Nat × Segment P K)) : grainStep G query new (plainAll gs) flat = grainStep G query new gs flat := by
  funext m g
  unfold grainStep
  rw [segmentStep_plain]
  simp only [overrideMapping_plain]

theorem transfer_plain (G : Geometry P K) (query : List (P × K) → P × K → List Nat) (new gs : OMap (Grain P K)) (n : Nat) :
    transferGrainIds G query new (plainAll gs) n = transferGrainIds G query new gs n := by
  have h : ∀ a b, opStep G query new (plainAll gs) a b = opStep G query new gs a b := by
    intro a b
    funext m op
    unfold opStep
    simp only [flattenOld_plain, grainStep_plain]
  unfold transferGrainIds
  rw [extractPerOp_plain]
  simp only [h]

theorem firstFree_plain (gs : OMap (Grain P K)) : firstFree (plainAll gs) = firstFree gs := by
  unfold firstFree plainAll
  rw [List.getLast?_map]
  cases gs.getLast? <;> rfl

theorem trackStep_plain (cfg : TrackCfg K) (gs : OMap (Grain P K)) (m : OMap (Option Nat)) :
    trackStep cfg (plainAll gs) m = trackStep cfg gs m := by
  funext s p
  unfold trackStep
  simp only [get_plain]
  cases m.get? p.1 with
  | none => rfl
  | some v =>
    cases v with
    | none => rfl
    | some o => simp only; cases gs.get? o <;> rfl

/-- Bookkeeping of the tracker from grains that differ in their notes only. -/
theorem trackMatch_plain (G : Geometry P K) (query : List (P × K) → P × K → List Nat) (cfg : TrackCfg K) (t t' : Tracker P K)
    (h : plainAll t.grains = plainAll t'.grains) (d : Detection P K) (n : Nat) :
    (trackMatch G query cfg t d n).1.grains = (trackMatch G query cfg t' d n).1.grains ∧
    (trackMatch G query cfg t d n).1.lookup = (trackMatch G query cfg t' d n).1.lookup ∧
    (trackMatch G query cfg t d n).2 = (trackMatch G query cfg t' d n).2 := by
  unfold trackMatch
  rw [← transfer_plain G query d.grains t.grains, h, transfer_plain]
  cases transferGrainIds G query d.grains t'.grains n with
  | exc e => exact ⟨rfl, rfl, rfl⟩
  | ub => exact ⟨rfl, rfl, rfl⟩
  | ok m =>
    simp only [trackWith]
    rw [← trackStep_plain cfg t.grains, ← firstFree_plain t.grains, h, trackStep_plain, firstFree_plain]
    split
    · split
      · exact ⟨rfl, rfl, rfl⟩
      · split <;> exact ⟨rfl, rfl, rfl⟩
    · exact ⟨rfl, rfl, rfl⟩

/-! ## Calls of the tracker from such states -/

/-- Result of a call without notes. -/
def bare (r : State P K × Bool × Bool) : State P K × Bool × Bool := (plainState r.1, r.2)

/-- Two results that differ in notes only. -/
def Alike (x y : Res (State P K × Bool × Bool)) : Prop := (x.bind fun r => .ok (bare r)) = y.bind fun r => .ok (bare r)

theorem assign_alike (c : Conf P K) (force skip : Bool) (tr tr' : Tracker P K) (hg : plainAll tr.grains = plainAll tr'.grains)
    (hl : tr.lookup = tr'.lookup) (pids : List (List (Option Nat))) (n : Nat) :
    Alike (assignOps c force skip tr pids n) (assignOps c force skip tr' pids n) := by
  unfold Alike assignOps
  cases skip with
  | true =>
    simp only [if_pos, Res.bind, bare, plainState]
    rw [hg, hl, ← extractActive_plain tr.grains, hg, extractActive_plain]
  | false =>
    rw [if_neg (by simp), if_neg (by simp)]
    have h1 := reassign_plain c.G c.reassign force c.fast tr.grains
    have h2 := reassign_plain c.G c.reassign force c.fast tr'.grains
    rw [hg, h2] at h1
    cases e1 : reassignGrains c.G c.reassign force c.fast tr.grains with
    | exc e =>
      rw [e1] at h1
      cases e2 : reassignGrains c.G c.reassign force c.fast tr'.grains with
      | ok b => rw [e2] at h1; cases h1
      | exc e' => rw [e2] at h1; simp only [Res.bind] at h1 ⊢; injection h1 with h1; rw [h1]
      | ub => rw [e2] at h1; cases h1
    | ub =>
      rw [e1] at h1
      cases e2 : reassignGrains c.G c.reassign force c.fast tr'.grains with
      | ok b => rw [e2] at h1; cases h1
      | exc e' => rw [e2] at h1; cases h1
      | ub => rfl
    | ok a =>
      rw [e1] at h1
      cases e2 : reassignGrains c.G c.reassign force c.fast tr'.grains with
      | ok b =>
        rw [e2] at h1
        simp only [Res.bind, Res.ok.injEq, Reassigned.mk.injEq] at h1
        obtain ⟨q1, q2, q3, q4⟩ := h1
        simp only [Res.bind, bare, plainState, Res.ok.injEq]
        rw [q1, q2, q4, hl]
      | exc e' => rw [e2] at h1; cases h1
      | ub => rw [e2] at h1; cases h1

/-- A call of the tracker from states that differ in notes only. -/
theorem trackAll_alike (c : Conf P K) (skip : Bool) (s : Seen P K) (st st' : State P K) (hg : plainAll st.tr.grains = plainAll st'.tr.grains)
    (hn : st.n = st'.n) : Alike (trackAll c skip s st) (trackAll c skip s st') := by
  unfold trackAll
  cases detectGrains c.G c.cc false s.ops with
  | exc e => rfl
  | ub => rfl
  | ok d =>
    obtain ⟨h1, h2, h3⟩ := trackMatch_plain c.G c.query c.track st.tr st'.tr hg d st.n
    simp only [Res.bind]
    rw [hn] at h1 h2 h3 ⊢
    rw [h3]
    cases (trackMatch c.G c.query c.track st'.tr d st'.n).2 with
    | exc e => rfl
    | ub => rfl
    | ok u => exact assign_alike c false skip _ _ (by rw [h1]) h2 _ _

theorem after_alike (c : Conf P K) (s' : Seen P K) {x y : Res (State P K × Bool × Bool)} (h : Alike x y) :
    ((x.bind (after c s')).bind fun st => .ok (plainState st)) = (y.bind (after c s')).bind fun st => .ok (plainState st) := by
  have key : ∀ a b : State P K × Bool × Bool, bare a = bare b →
      ((after c s' a).bind fun st => .ok (plainState st)) = (after c s' b).bind fun st => .ok (plainState st) := by
    intro a b hab
    obtain ⟨sa, fa⟩ := a
    obtain ⟨sb, fb⟩ := b
    unfold bare at hab
    simp only [Prod.mk.injEq] at hab
    obtain ⟨hs, hf⟩ := hab
    subst hf
    have hs' := hs
    unfold plainState at hs'
    simp only [State.mk.injEq, Tracker.mk.injEq] at hs'
    obtain ⟨⟨q1, q2⟩, q3, q4, q5⟩ := hs'
    have q2 := q2.2
    unfold after
    simp only
    by_cases h1 : (fa.1 || fa.2) = true
    · rw [if_pos h1, if_pos h1]
      by_cases h2 : c.again = true
      · rw [if_pos h2, if_pos h2]
        have := trackAll_alike c true s' (if fa.2 = true then { sa with n := sa.active.length } else sa)
          (if fa.2 = true then { sb with n := sb.active.length } else sb)
          (by split <;> exact q1) (by split <;> simp only [q3, q5])
        unfold Alike at this
        revert this
        generalize trackAll c true s' (if fa.2 = true then { sa with n := sa.active.length } else sa) = u
        generalize trackAll c true s' (if fa.2 = true then { sb with n := sb.active.length } else sb) = v
        intro this
        cases u <;> cases v <;> simp_all [Res.bind, bare]
      · rw [if_neg h2, if_neg h2]
        simp only [Res.bind, Res.ok.injEq]
        split
        · simp only [plainState]; rw [q1, q2, q3, q4]
        · exact hs
    · rw [if_neg h1, if_neg h1]
      simp only [Res.bind, Res.ok.injEq]
      exact hs
  unfold Alike at h
  cases x <;> cases y <;> simp only [Res.bind, Res.ok.injEq, reduceCtorEq, Res.exc.injEq] at h ⊢
  · exact key _ _ h
  · exact h

/-! ## Grains that continue one by one -/

section
variable {c : Conf P K} {inter : P × K → P × K → Prop}

theorem matched_of_continues {f : Nat → Nat} {old new : OMap (Grain P K)} (hc : Continues inter f old new) {dist : P → P → K}
    {dc : Grain P K → Grain P K → K} {m : OMap (Option Nat)} (hm : IsMatching dist inter dc new old m) {g : Nat} {G : Grain P K}
    (hg : new.get? g = some G) : m.get? g = some (some (f g)) := by
  obtain ⟨v, hv⟩ := Option.isSome_iff_exists.1 ((hm.total g).2 (by rw [hg]; rfl))
  cases v with
  | some o =>
    obtain ⟨G', O, h1, h2, h3, h4, -⟩ := hm.sound g o hv
    rw [hg, Option.some.injEq] at h1
    subst h1
    rw [hv, hc.only g G o O hg h2 h3 h4]
  | none =>
    exfalso
    rcases hm.unmatched g G hg hv with h | ⟨o, O, g', G', h1, h2, h3, h4, h5, h6, -⟩
    · obtain ⟨O, h1, h2, h3⟩ := hc.touches g G hg
      exact h (f g) O h1 h2 h3
    · have e1 := hc.only g G o O hg h1 h2 h3.1
      obtain ⟨G'', O', k1, k2, k3, k4, -⟩ := hm.sound g' o h6
      rw [h4, Option.some.injEq] at k1
      subst k1
      have e2 := hc.only g' G' o O' h4 k2 k3 k4
      exact h5 (hc.inj g' g G' G h4 hg (by rw [← e1, ← e2]))

/-- Tracking of grains that continue one by one. -/
theorem track_follow (hq : QueryContract inter c.query) {t : Tracker P K} {d : Detection P K} {n : Nat} (hpre : TrackPre t d n)
    {f : Nat → Nat} (hc : Continues inter f t.grains d.grains) :
    (trackMatch c.G c.query c.track t d n).2 = .ok () ∧ (trackMatch c.G c.query c.track t d n).1.grains.Sorted ∧
    (trackMatch c.G c.query c.track t d n).1.lookup = renamed (fun g => some (f g)) d.lookup ∧
    ∀ k R, (trackMatch c.G c.query c.track t d n).1.grains.get? k = some R ↔ ∃ g G, d.grains.get? g = some G ∧ f g = k ∧
      R = { G with grainId := k, dynamics := dynamicsOf (t.grains.get? k) G } := by
  obtain ⟨m, φ, hm, hs, -, hl, h1, -⟩ := trackMatch_spec c.G hq c.track hpre
  have hall : ∀ g G, d.grains.get? g = some G → m.get? g = some (some (f g)) := fun g G hg => matched_of_continues hc hm hg
  obtain ⟨hok, hT⟩ := h1 (.inr fun g G' e1 e2 => by rw [hall g G' e1] at e2; cases e2)
  have hφ : ∀ g G, d.grains.get? g = some G → φ g = some (f g) := fun g G hg => hT.matched g (f g) (hall g G hg)
  refine ⟨hok, hs, ?_, ?_⟩
  · rw [hl]
    unfold renamed
    apply List.ext_getElem?
    intro op
    rw [List.getElem?_map, List.getElem?_map]
    cases he : d.lookup[op]? with
    | none => rfl
    | some es =>
      simp only [Option.map_some, Option.some.injEq]
      refine List.map_congr_left fun e hes => ?_
      obtain ⟨g, G, e1, e2, -⟩ := hpre.consistent op es he e hes
      rw [e1, Option.bind_some, Option.bind_some, hφ g G e2]
  · intro k R
    rw [hT.table]
    constructor
    · rintro ⟨g, G, e1, e2, e3⟩
      rw [hφ g G e1, Option.some.injEq] at e2
      refine ⟨g, G, e1, e2, ?_⟩
      rw [e3, hall g G e1, Option.join_some, Option.bind_some, e2]
    · rintro ⟨g, G, e1, e2, e3⟩
      refine ⟨g, G, e1, by rw [hφ g G e1, e2], ?_⟩
      rw [e3, hall g G e1, Option.join_some, Option.bind_some, e2]

/-- The grains seen later continue those found at output under the same numbers. -/
theorem continues_output {f1 f2 : Nat → Nat} {d1 d2 after old : OMap (Grain P K)} (h1 : Continues inter f1 old d1) (h2 : Continues inter f2 d1 d2)
    (ht : ∀ k R, after.get? k = some R ↔ ∃ g G, d1.get? g = some G ∧ f1 g = k ∧
      R = { G with grainId := k, dynamics := dynamicsOf (old.get? k) G }) : Continues inter (fun g => f1 (f2 g)) after d2 := by
  refine ⟨?_, ?_, ?_⟩
  · intro g G hg
    obtain ⟨O, a1, a2, a3⟩ := h2.touches g G hg
    exact ⟨_, (ht _ _).2 ⟨f2 g, O, a1, rfl, rfl⟩, a2, a3⟩
  · intro g G o O hg ho hop htouch
    obtain ⟨g1, G1, b1, b2, b3⟩ := (ht o O).1 ho
    subst b3
    rw [← b2, h2.only g G g1 G1 hg b1 hop htouch]
  · intro g g' G G' hg hg' he
    obtain ⟨O, a1, -⟩ := h2.touches g G hg
    obtain ⟨O', a1', -⟩ := h2.touches g' G' hg'
    exact h2.inj g g' G G' hg hg' (h1.inj _ _ O O' a1 a1' he)

theorem trackPre_of (_hcc : CCContract c.cc) {st : State P K} (hi : Inv st) {s : Seen P K} (hn : s.ops.length = st.n)
    {d : Detection P K} (hd : IsDetection s.ops d) : TrackPre st.tr d st.n := by
  rw [← hn]
  exact C06_establishes_track_precondition hd hi.sorted
    (fun p hp => by rw [hn]; exact hi.ops p.1 p.2 (OMap.get?_of_mem hi.sorted hp))

/-- A search at output: the invariant, and every grain is where it was seen. -/
theorem skip_spec (hq : QueryContract inter c.query) (hcc : CCContract c.cc) {st : State P K} (hi : Inv st) {s : Seen P K} (hf : Fits s)
    (hn : s.ops.length = st.n) {q : State P K × Bool × Bool} (h : trackAll c true s st = .ok q) :
    Inv q.1 ∧ ∀ k R, q.1.tr.grains.get? k = some R → R.op = R.oldOp := by
  unfold trackAll at h
  obtain ⟨d, hdet, h⟩ := Res.bind_eq_ok.1 h
  obtain ⟨u, hu, h⟩ := Res.bind_eq_ok.1 h
  obtain ⟨d', hd1, hd2⟩ := C06_detection c.G hcc false hf.conns
  rw [hd1, Res.ok.injEq] at hdet
  subst hdet
  have hb := base_track hq hd2 hf hi hn hu
  rw [assignOps, if_pos rfl, Res.ok.injEq] at h
  subst h
  rw [hn] at hb
  exact ⟨inv_of_base hb _, fun k R hR => ((hb.ops k R hR).2).symm⟩

theorem look_spec (hq : QueryContract inter c.query) (hcc : CCContract c.cc) {st : State P K} (hi : Inv st) {s : Seen P K} (hf : Fits s)
    (hn : s.ops.length = st.n) {adv : Bool} {a : Ask} {st' : State P K} (h : look c adv a s st = .ok st') :
    Inv st' ∧ ((∀ k R, st.tr.grains.get? k = some R → R.op = R.oldOp) → ∀ k R, st'.tr.grains.get? k = some R → R.op = R.oldOp) := by
  unfold look at h
  split at h
  · obtain ⟨q, h1, h2⟩ := Res.bind_eq_ok.1 h
    rw [Res.ok.injEq] at h2
    subst h2
    have := skip_spec hq hcc hi hf hn h1
    exact ⟨this.1, fun _ => this.2⟩
  · rw [Res.ok.injEq] at h
    subst h
    exact ⟨hi, id⟩

/-- The invariant after any operations. -/
theorem ops_spec (hq : QueryContract inter c.query) (hcc : CCContract c.cc) (hcol : ColorContract c.reassign.color)
    (hsort : SortContract c.reassign.sortBy) (hd : c.reassign.diag = true) {adv : Bool} : ∀ {l : List (Op P K)} {st st' : State P K},
    Inv st → (c.again = true → ∀ k R, st.tr.grains.get? k = some R → R.op = R.oldOp) → FitAll c adv l st → ops c adv l st = .ok st' →
    Inv st' ∧ (c.again = true → ∀ k R, st'.tr.grains.get? k = some R → R.op = R.oldOp)
  | [], st, st', hi, ho, _, h => by
    unfold ops at h
    rw [Res.ok.injEq] at h
    subst h
    exact ⟨hi, ho⟩
  | o :: l, st, st', hi, ho, hf, h => by
    unfold ops at h
    obtain ⟨st1, h1, h2⟩ := Res.bind_eq_ok.1 h
    obtain ⟨hf1, hf2⟩ := hf
    have key : Inv st1 ∧ (c.again = true → ∀ k R, st1.tr.grains.get? k = some R → R.op = R.oldOp) := by
      cases o with
      | run s s' =>
        obtain ⟨f1, f2, f3, f4⟩ := hf1
        change runTracker c false s s' st = .ok st1 at h1
        unfold runTracker at h1
        obtain ⟨r, g1, g2⟩ := Res.bind_eq_ok.1 h1
        rw [if_neg (by simp)] at g1
        have hlen := f4 r g1
        unfold trackAll at g1
        obtain ⟨d, hdet, g1⟩ := Res.bind_eq_ok.1 g1
        obtain ⟨u, hu, g1⟩ := Res.bind_eq_ok.1 g1
        obtain ⟨d', hd1, hd2⟩ := C06_detection c.G hcc false f1.conns
        rw [hd1, Res.ok.injEq] at hdet
        subst hdet
        have hb := base_track hq hd2 f1 hi f3 hu
        rw [f3] at hb
        have := after_spec hq hcc hcol hsort hd hb g1 f2 hlen g2
        exact ⟨this.1, this.2.1⟩
      | output a s =>
        obtain ⟨f1, f2⟩ := hf1
        have := look_spec hq hcc hi f1 f2 (adv := adv) (a := a) h1
        exact ⟨this.1, fun hx => this.2 (ho hx)⟩
    exact ops_spec hq hcc hcol hsort hd key.1 key.2 (hf2 st1 h1) h2

/-- After an output that needs the tracker every grain is where it was seen. -/
theorem look_ops (hq : QueryContract inter c.query) (hcc : CCContract c.cc) {st : State P K} (hi : Inv st) {s : Seen P K} (hf : Fits s)
    (hn : s.ops.length = st.n) {adv : Bool} (hadv : adv = true → ∀ k R, st.tr.grains.get? k = some R → R.op = R.oldOp) {a : Ask}
    (ha : (a.contours || a.contoursTex || a.stats || a.coordination) = true) {st' : State P K} (h : look c adv a s st = .ok st') :
    Inv st' ∧ ∀ k R, st'.tr.grains.get? k = some R → R.op = R.oldOp := by
  refine ⟨(look_spec hq hcc hi hf hn h).1, ?_⟩
  unfold look at h
  rw [ha, Bool.true_and] at h
  split at h
  · obtain ⟨q, h1, h2⟩ := Res.bind_eq_ok.1 h
    rw [Res.ok.injEq] at h2
    subst h2
    exact (skip_spec hq hcc hi hf hn h1).2
  · rename_i hx
    rw [Res.ok.injEq] at h
    subst h
    cases hadv' : adv with
    | true => exact hadv hadv'
    | false =>
      rw [hadv'] at hx
      simp only [Bool.not_false, Bool.and_true, Bool.not_eq_true', Bool.not_eq_false, List.isEmpty_iff] at hx
      intro k R hR
      rw [hx] at hR
      cases hR

end

end Verif.OutTrack
