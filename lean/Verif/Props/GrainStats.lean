import Verif.Model.GrainStats
import Verif.Spec.GrainStats
import Verif.Lemmas.GrainStats
import Verif.Lemmas.Cutoff
import Mathlib.Algebra.Field.Rat
/-!
# C125: the tables of grains and pores

Full claim: the table of the grains has one line for each grain in the order of the numbers of the grains, with its number, measure, radius,
largest value and order parameter, the centre if it has a single segment, and with the volume, forces, torques and the velocity of this grain
at the current solution; the table of the pores has one line for each pore with its measure, radius and centre. Proved if the grains were
not tracked after the forces were evaluated (`C125_partial`), for the pores (`C125_pores`) and for coupled operators if advection is
enabled (`C125_coupled`). Missing, because it does not hold: if the grains are tracked after the step (`check_inconsistency`), the data
belong to the old numbers of the segments, so that a grain has the forces of another one (`C125_stale`, `C125_stale_violated`) or memory
behind the data is read (`C125_stale_undefined`); velocities of coupled operators are not printed without advection (`C125_coupled_violated`).
-/
namespace Verif.Props
open Verif.GrainStats Verif.GrainStats.Spec Verif.OutputTable
variable {K : Type} [Field K] [DecidableEq K]

/-- what the line of a grain has besides forces and velocities -/
def ShowsGrain (dim : Nat) (names : List Name) (r : List (Option (Val K))) (id : Nat) (g : GrainStats.Grain K) : Prop :=
  Shows names r "id".toList (.int id) ∧ Shows names r "measure".toList (.num (some g.measure)) ∧
  Shows names r "radius".toList (.num (some g.radius)) ∧ Shows names r "max_value".toList (.num (some g.maxValue)) ∧
  Shows names r "order_parameter_id".toList (.int g.op) ∧
  (∀ c, g.segments = [c] → ∀ d < dim, Shows names r (axis "" d) (.num (some (c d)))) ∧
  (g.segments.length ≠ 1 → ∀ d < dim, Shows names r (axis "" d) (.num none))

/-- volume, forces and torques from `F` -/
def ShowsForces (dim : Nat) (names : List Name) (r : List (Option (Val K))) (F : Nat → Option K) : Prop :=
  Shows names r "volume".toList (.num (F 0)) ∧ (∀ d < dim, Shows names r (axis "f" d) (.num (F (1 + d)))) ∧
  ∀ d < (if dim = 3 then 3 else 1), Shows names r (torque dim d) (.num (F (1 + dim + d)))

def ShowsVelocity (dim : Nat) (names : List Name) (r : List (Option (Val K))) (v : Nat → Option K) : Prop :=
  ∀ d < dim, Shows names r (axis "v" d) (.num (v d))

omit [Field K] [DecidableEq K] in
theorem showsGrain_of {dim : Nat} (hd : dim = 2 ∨ dim = 3) {enabled : Bool} {id : Nat} {g : GrainStats.Grain K} {xs vs : List (Option K)}
    {names : List Name} {r : List (Option (Val K))} (h : ∀ x ∈ rowEntries dim enabled id g xs vs, Shows names r x.1 x.2) :
    ShowsGrain dim names r id g := by
  have h5 : ∀ x ∈ ([("id".toList, .int id), ("measure".toList, .num (some g.measure)), ("radius".toList, .num (some g.radius)),
      ("max_value".toList, .num (some g.maxValue)), ("order_parameter_id".toList, .int g.op)] : List (Name × Val K)),
      Shows names r x.1 x.2 := fun x hx => h x (List.mem_append_left _ (List.mem_append_left _ hx))
  have hc : ∀ d < dim, ∀ x, (centre dim g)[d]? = some x → Shows names r (axis "" d) (.num x) := fun d hlt x hx =>
    h (axis "" d, .num x) (List.mem_append_left _ (List.mem_append_right _ (numbers_mem (coord_label hd d hlt).1 hx)))
  refine ⟨h5 (_, _) List.mem_cons_self, h5 (_, _) (List.mem_cons_of_mem _ List.mem_cons_self),
    h5 (_, _) (List.mem_cons_of_mem _ (List.mem_cons_of_mem _ List.mem_cons_self)),
    h5 (_, _) (List.mem_cons_of_mem _ (List.mem_cons_of_mem _ (List.mem_cons_of_mem _ List.mem_cons_self))),
    h5 (_, _) (List.mem_cons_of_mem _ (List.mem_cons_of_mem _ (List.mem_cons_of_mem _ (List.mem_cons_of_mem _ List.mem_cons_self)))),
    ?_, ?_⟩
  · intro c hg d hlt
    refine hc d hlt _ ?_
    unfold centre
    rw [hg]
    simp [hlt]
  · intro hg d hlt
    refine hc d hlt _ ?_
    unfold centre
    split
    · rename_i c heq; rw [heq] at hg; simp at hg
    · unfold dummy; simp [hlt]

omit [Field K] [DecidableEq K] in
theorem showsForces_of {dim : Nat} (hd : dim = 2 ∨ dim = 3) {id : Nat} {g : GrainStats.Grain K} {vs : List (Option K)} (F : Nat → Option K)
    {names : List Name} {r : List (Option (Val K))}
    (h : ∀ x ∈ rowEntries dim true id g ((List.range (1 + dim + moments dim)).map F) vs, Shows names r x.1 x.2) :
    ShowsForces dim names r F := by
  have hf : ∀ (j : Nat) n, (["volume".toList] ++ forceLabels.take dim ++ (torqueLabels dim).take (moments dim))[j]? = some n →
      j < 1 + dim + moments dim → Shows names r n (.num (F j)) := by
    intro j n hn hj
    refine h (n, .num (F j)) (List.mem_append_right _ ?_)
    rw [if_pos rfl]
    exact List.mem_append_left _ (numbers_mem hn (by simp [hj]))
  refine ⟨hf 0 _ rfl (by omega), fun d hlt => hf (1 + d) _ (coord_label hd d hlt).2.2 (by omega), fun d hlt => ?_⟩
  have hlt : d < moments dim := hlt
  exact hf (1 + dim + d) _ (torque_label hd d hlt) (by omega)

omit [Field K] [DecidableEq K] in
theorem showsVelocity_of {dim : Nat} (hd : dim = 2 ∨ dim = 3) {id : Nat} {g : GrainStats.Grain K} {xs : List (Option K)} (v : Nat → Option K)
    {names : List Name} {r : List (Option (Val K))}
    (h : ∀ x ∈ rowEntries dim true id g xs ((List.range dim).map v), Shows names r x.1 x.2) :
    ShowsVelocity dim names r v := by
  intro d hlt
  refine h (axis "v" d, .num (v d)) (List.mem_append_right _ ?_)
  rw [if_pos rfl]
  exact List.mem_append_right _ (numbers_mem (coord_label hd d hlt).2.1 (by simp [hlt]))

/-- the quotient if it exists -/
def velocityOf (mt : K) (F : Nat → K) (d : Nat) : Option K := if F 0 = 0 then none else some (mt * F (1 + d) / F 0)

/-- the table of the grains if the data of the forces have `F` at the index of every grain with one segment -/
theorem table_of_data (dim : Nat) (hd : dim = 2 ∨ dim = 3) (mt : K) (st : GrainStats.St K) (hne : st.grains ≠ []) (F : Nat → Nat → K)
    (hF : ∀ e ∈ st.grains, e.2.segments.length = 1 → ∃ i, segmentIndex (buildInverse st.lookup).1 e.1 0 = .ok i ∧
      ∀ j < nComp dim, st.data[nComp dim * i + j]? = some (F e.1 j)) :
    ∃ t, output dim mt st = .ok t ∧ (t.map Prod.fst).Nodup ∧ (∀ c ∈ t, c.2.length = st.grains.length) ∧
      ∀ (k : Nat) id g, st.grains[k]? = some (id, g) →
        ShowsGrain dim (t.map Prod.fst) (line t k) id g ∧
        (g.segments.length = 1 → ShowsForces dim (t.map Prod.fst) (line t k) (fun j => some (F id j)) ∧
          ShowsVelocity dim (t.map Prod.fst) (line t k) (velocityOf mt (F id))) ∧
        (g.segments.length ≠ 1 → ShowsForces dim (t.map Prod.fst) (line t k) (fun _ => none) ∧
          ShowsVelocity dim (t.map Prod.fst) (line t k) (fun _ => none)) := by
  let I : Input K := ⟨dim, .plain, ⟨true, mt, st.data⟩, st.grains, (buildInverse st.lookup).1⟩
  have hmulti : ∀ g : GrainStats.Grain K, g.segments.length ≠ 1 → hasData I g = false := by
    intro g hg
    unfold hasData
    simp [hg]
  have key := stats_of I hd hne [] rfl
    (fun id g => (List.range (1 + dim + moments dim)).map fun j => if g.segments.length = 1 then some (F id j) else none)
    (fun _ id g => (List.range dim).map fun d => if g.segments.length = 1 then velocityOf mt (F id) d else none)
    (by
      intro e he _
      refine ⟨?_, by simp [I]⟩
      by_cases h1 : e.2.segments.length = 1
      · obtain ⟨i, hi, hj⟩ := hF e he h1
        simp only [h1, if_true]
        exact (forces_data I hd e.1 e.2 h1 i (F e.1) hi hj).1
      · simp only [h1, if_false]
        rw [forces_dummy I e.1 e.2 (hmulti e.2 h1)]
        simp [dummy, I])
    (by
      intro k e hk _
      refine ⟨?_, by simp [I]⟩
      by_cases h1 : e.2.segments.length = 1
      · obtain ⟨i, hi, hj⟩ := hF e (List.mem_of_getElem? hk) h1
        obtain ⟨-, h2, h3⟩ := forces_data I hd e.1 e.2 h1 i (F e.1) hi hj
        simp only [h1, if_true]
        unfold velocity
        dsimp only [I] at h2 hi h3 ⊢
        rw [if_pos h2, hi, Res.ok_bind]
        exact h3
      · simp only [h1, if_false]
        have h2 := hmulti e.2 h1
        unfold velocity
        dsimp only [I] at h2 ⊢
        rw [h2]
        simp [dummy])
  obtain ⟨t, h1, h2, h3, h4⟩ := key
  refine ⟨t, h1, by rw [h2]; exact columnNames_nodup hd _, h3, ?_⟩
  intro k id g hk
  have h5 := h4 k (id, g) hk
  rw [h2]
  refine ⟨showsGrain_of hd h5, fun hs => ?_, fun hs => ?_⟩
  · dsimp only at h5
    simp only [hs, if_true] at h5
    exact ⟨showsForces_of hd _ h5, showsVelocity_of hd _ h5⟩
  · dsimp only at h5
    simp only [hs, if_false] at h5
    exact ⟨showsForces_of hd _ h5, showsVelocity_of hd _ h5⟩

/-- C125: after any events, if the forces were evaluated after the last tracking, the table has one line for each grain, in the order of
the numbers, with the values of this grain; centre, forces and velocity are not a number if the grain does not have exactly one segment. -/
theorem C125_partial (dim : Nat) (hd : dim = 2 ∨ dim = 3) (mt : K) (st₀ : GrainStats.St K) (es : List (GrainStats.Event K))
    (F : Option Nat × Nat → Nat → K) (st : GrainStats.St K) (hst : st = (es ++ [GrainStats.Event.evaluate F]).foldl (GrainStats.event dim) st₀)
    (hne : st.grains ≠ []) (hv : Valid st.lookup) (hc : Covers st.lookup st.grains) :
    ∃ t, output dim mt st = .ok t ∧ (t.map Prod.fst).Nodup ∧ (∀ c ∈ t, c.2.length = st.grains.length) ∧
      ∀ (k : Nat) id g, st.grains[k]? = some (id, g) →
        ShowsGrain dim (t.map Prod.fst) (line t k) id g ∧
        (g.segments.length = 1 → ShowsForces dim (t.map Prod.fst) (line t k) (fun j => some (F (some id, 0) j)) ∧
          ShowsVelocity dim (t.map Prod.fst) (line t k) (velocityOf mt (F (some id, 0)))) ∧
        (g.segments.length ≠ 1 → ShowsForces dim (t.map Prod.fst) (line t k) (fun _ => none) ∧
          ShowsVelocity dim (t.map Prod.fst) (line t k) (fun _ => none)) := by
  have hdata : st.data = evaluated dim st.lookup F := by
    rw [hst, List.foldl_append]; rfl
  refine table_of_data dim hd mt st hne (fun id => F (some id, 0)) ?_
  intro e he h1
  obtain ⟨i, hi⟩ := List.mem_iff_getElem?.1 (hc e he h1)
  refine ⟨i, segmentIndex_pos hv hi, fun j hj => ?_⟩
  rw [hdata]
  exact flatMap_get (nComp dim) F _ i j _ hi hj

/-- C125: if the grains are tracked after the evaluation, the line of a grain with one segment has the forces of the segment that had its index before. -/
theorem C125_stale (dim : Nat) (hd : dim = 2 ∨ dim = 3) (mt : K) (st₀ : GrainStats.St K) (F : Option Nat × Nat → Nat → K)
    (grains : OMap (GrainStats.Grain K)) (lookup : Lookup) (hne : grains ≠ []) (hv : Valid lookup)
    (old : Nat → Option Nat × Nat)
    (hold : ∀ e ∈ grains, e.2.segments.length = 1 → ∃ i : Nat, lookup.flatten[i]? = some (some e.1, 0) ∧
      st₀.lookup.flatten[i]? = some (old e.1)) :
    ∃ t, output dim mt ([GrainStats.Event.evaluate F, .track grains lookup].foldl (GrainStats.event dim) st₀) = .ok t ∧
      ∀ (k : Nat) id g, grains[k]? = some (id, g) → g.segments.length = 1 →
        ShowsForces dim (t.map Prod.fst) (line t k) (fun j => some (F (old id) j)) := by
  obtain ⟨t, h1, -, -, h4⟩ := table_of_data dim hd mt ([GrainStats.Event.evaluate F, .track grains lookup].foldl (GrainStats.event dim) st₀) hne
    (fun id => F (old id)) (by
      intro e he hs
      obtain ⟨i, h1, h2⟩ := hold e he hs
      exact ⟨i, segmentIndex_pos hv h1, fun j hj => flatMap_get (nComp dim) F _ i j _ h2 hj⟩)
  exact ⟨t, h1, fun k id g hk hs => ((h4 k id g hk).2.1 hs).1⟩

/-- C125 is violated: if there are more segments after tracking, memory behind the data is read. -/
theorem C125_stale_undefined (dim : Nat) (hd : dim = 2 ∨ dim = 3) (mt : K) (st₀ : GrainStats.St K) (F : Option Nat × Nat → Nat → K)
    (grains : OMap (GrainStats.Grain K)) (lookup : Lookup) (hv : Valid lookup) (hc : Covers lookup grains) (h0 : st₀.lookup.flatten ≠ [])
    (hbad : ∃ e ∈ grains, e.2.segments.length = 1 ∧ ∃ i : Nat, lookup.flatten[i]? = some (some e.1, 0) ∧ st₀.lookup.flatten.length ≤ i) :
    output dim mt ([GrainStats.Event.evaluate F, .track grains lookup].foldl (GrainStats.event dim) st₀) = .ub := by
  have hpos : 0 < nComp dim := by rw [nComp_eq hd]; omega
  let I : Input K := ⟨dim, .plain, ⟨true, mt, evaluated dim st₀.lookup F⟩, grains, (buildInverse lookup).1⟩
  have hne : I.mech.data ≠ [] := by
    intro h
    obtain ⟨e, l, hl⟩ := List.exists_cons_of_ne_nil h0
    have := flatMap_get (nComp dim) F st₀.lookup.flatten 0 0 e (by rw [hl]; rfl) hpos
    change (evaluated dim st₀.lookup F)[_]? = _ at this
    change evaluated dim st₀.lookup F = [] at h
    rw [h] at this
    simp at this
  have hcase : ∀ pos id g, (id, g) ∈ grains →
      ((∃ b, row I [] pos id g = .ok b) ∧ ¬ (g.segments.length = 1 ∧ ∃ i : Nat, lookup.flatten[i]? = some (some id, 0) ∧
        st₀.lookup.flatten.length ≤ i)) ∨ row I [] pos id g = .ub := by
    intro pos id g hg
    by_cases h1 : g.segments.length = 1
    · obtain ⟨i, hi⟩ := List.mem_iff_getElem?.1 (hc (id, g) hg h1)
      have hs := segmentIndex_pos hv hi
      by_cases hl : st₀.lookup.flatten.length ≤ i
      · right
        have hd' : hasData I g = true := by unfold hasData; rw [h1]; simp [hne]
        have hf : forces I id g = .ub := by
          unfold forces
          rw [if_pos hd', show segmentIndex I.numbering id 0 = .ok i from hs, Res.ok_bind]
          have hall : ∀ j, dataAt I.dim I.mech i j = .ub := by
            intro j
            unfold dataAt Res.index
            rw [show I.mech.data[nComp I.dim * i + j]? = none from flatMap_none (nComp dim) F _ i j hl]
          rw [Res.mapM_ub _ _ (fun j _ => Or.inr (hall j)) ⟨0, List.mem_range.2 (by omega), hall 0⟩]
          rfl
        unfold row
        rw [if_pos (show I.mech.enabled = true from rfl), hf]
        rfl
      · left
        refine ⟨?_, ?_⟩
        · have hlt : i < st₀.lookup.flatten.length := by omega
          obtain ⟨p1, p2, p3⟩ := forces_data I hd id g h1 i (F st₀.lookup.flatten[i]) hs
            (fun j hj => flatMap_get (nComp dim) F _ i j _ (List.getElem?_eq_getElem hlt) hj)
          refine ⟨_, row_eq I [] pos id g _ ((List.range dim).map fun d => quot (mt * F st₀.lookup.flatten[i] (1 + d))
            (F st₀.lookup.flatten[i] 0)) (fun _ => p1) (fun _ => ?_)⟩
          · unfold velocity
            dsimp only [I] at p2 p3 ⊢
            rw [if_pos p2, hs, Res.ok_bind]
            exact p3
        · rintro ⟨-, i', hi', hl'⟩
          obtain ⟨x1, y1⟩ := List.getElem?_eq_some_iff.1 hi
          obtain ⟨x2, y2⟩ := List.getElem?_eq_some_iff.1 hi'
          have := (List.Nodup.getElem_inj_iff hv.1).1 (y1.trans y2.symm)
          omega
    · left
      have hm : hasData I g = false := by unfold hasData; simp [h1]
      refine ⟨⟨_, row_eq I [] pos id g _ (dummy dim) (fun _ => forces_dummy I id g hm) (fun _ => ?_)⟩, fun h => h1 h.1⟩
      · unfold velocity
        dsimp only [I] at hm ⊢
        rw [hm]; rfl
  change grainStats I = .ub
  unfold grainStats
  rw [show evaluationPoints I.grains I.op = .ok [] from rfl, Res.ok_bind, Res.mapM_ub]
  · rfl
  · intro e he
    have hg := (List.mk_mem_zipIdx_iff_getElem? (x := e.1) (i := e.2)).1 he
    rcases hcase e.2 e.1.1 e.1.2 (List.mem_of_getElem? hg) with h | h
    · exact Or.inl h.1
    · exact Or.inr h
  · obtain ⟨e, he, hs, i, hi, hl⟩ := hbad
    obtain ⟨k, hk⟩ := List.mem_iff_getElem?.1 he
    refine ⟨(e, k), List.mk_mem_zipIdx_iff_getElem?.2 hk, ?_⟩
    rcases hcase k e.1 e.2 he with h | h
    · exact absurd ⟨hs, i, hi, hl⟩ h.2
    · exact h

/-- C125: for coupled operators with advection enabled the velocity is the displacement at the centre of the grain divided by the time step. -/
theorem C125_coupled (I : Input K) (hd : I.dim = 2 ∨ I.dim = 3) (disp : (Nat → K) → Nat → K) (dt : K) (hop : I.op = .coupled disp dt)
    (hdt : dt ≠ 0) (hdata : I.mech.data = []) (he : I.mech.enabled = true) (hne : I.grains ≠ []) (hs : ∀ e ∈ I.grains, e.2.segments ≠ []) :
    ∃ t, grainStats I = .ok t ∧ (∀ c ∈ t, c.2.length = I.grains.length) ∧
      ∀ (k : Nat) id g, I.grains[k]? = some (id, g) → ShowsGrain I.dim (t.map Prod.fst) (line t k) id g ∧
        (∀ c, g.segments = [c] → ShowsVelocity I.dim (t.map Prod.fst) (line t k) (fun d => some (disp c d / dt))) := by
  have hpts : evaluationPoints I.grains I.op = .ok (I.grains.map fun e => e.2.segments.headD (fun _ => 0)) := by
    rw [hop]
    refine Res.mapM_eq _ _ _ ?_
    intro e hem
    have := hs e hem
    cases h : e.2.segments with
    | nil => exact absurd h this
    | cons a l => rfl
  have hnd : ∀ g : GrainStats.Grain K, hasData I g = false := by
    intro g; unfold hasData; rw [hdata]; rfl
  obtain ⟨t, h1, h2, h3, h4⟩ := stats_of I hd hne _ hpts (fun _ _ => dummy (1 + I.dim + moments I.dim))
    (fun _ _ g => (List.range I.dim).map fun d => if g.segments.length = 1 then some (disp (g.segments.headD fun _ => 0) d / dt) else none)
    (fun e _ _ => ⟨forces_dummy I e.1 e.2 (hnd e.2), by simp [dummy]⟩)
    (by
      intro k e hk _
      refine ⟨?_, by simp⟩
      unfold velocity
      rw [hop]
      dsimp only
      by_cases hl : e.2.segments.length = 1
      · rw [if_pos ⟨hl, hdt⟩, Res.index, List.getElem?_map, hk]
        simp [hl]
      · rw [if_neg (fun h => hl h.1)]
        simp [hl, dummy])
  refine ⟨t, h1, h3, fun k id g hk => ?_⟩
  have h5 := h4 k (id, g) hk
  rw [h2]
  rw [he] at h5 ⊢
  refine ⟨showsGrain_of hd h5, fun c hc => ?_⟩
  dsimp only at h5
  rw [hc] at h5
  exact showsVelocity_of hd _ h5

/-- C125 is violated: coupled operators without advection have no columns for the velocities. -/
theorem C125_coupled_violated (I : Input K) (hd : I.dim = 2 ∨ I.dim = 3) (disp : (Nat → K) → Nat → K) (dt : K) (hop : I.op = .coupled disp dt)
    (he : I.mech.enabled = false) (hne : I.grains ≠ []) (hs : ∀ e ∈ I.grains, e.2.segments ≠ []) :
    ∃ t, grainStats I = .ok t ∧ ∀ d < I.dim, axis "v" d ∉ t.map Prod.fst := by
  have hpts : evaluationPoints I.grains I.op = .ok (I.grains.map fun e => e.2.segments.headD (fun _ => 0)) := by
    rw [hop]
    refine Res.mapM_eq _ _ _ ?_
    intro e hem
    have := hs e hem
    cases h : e.2.segments with
    | nil => exact absurd h this
    | cons a l => rfl
  obtain ⟨t, h1, h2, -, -⟩ := stats_of I hd hne _ hpts (fun _ _ => []) (fun _ _ _ => []) (by simp [he]) (by simp [he])
  refine ⟨t, h1, ?_⟩
  rw [h2, he]
  rcases hd with h | h <;> rw [h] <;> decide +kernel

omit [Field K] [DecidableEq K] in
/-- C125: one line for each pore. -/
theorem C125_pores (dim : Nat) (hd : dim = 2 ∨ dim = 3) (n : Nat) (hn : 0 < n) (measures radii : List K) (centres : List (Nat → K))
    (h1 : measures.length = n) (h2 : radii.length = n) (h3 : centres.length = n) :
    ∃ t, poreStats dim n measures radii centres = .ok t ∧ (t.map Prod.fst).Nodup ∧ (∀ c ∈ t, c.2.length = n) ∧
      ∀ (i : Nat) m r c, measures[i]? = some m → radii[i]? = some r → centres[i]? = some c →
        Shows (t.map Prod.fst) (line t i) "id".toList (.int i) ∧ Shows (t.map Prod.fst) (line t i) "measure".toList (.num (some m)) ∧
        Shows (t.map Prod.fst) (line t i) "radius".toList (.num (some r)) ∧
        ∀ d < dim, Shows (t.map Prod.fst) (line t i) (axis "" d) (.num (some (c d))) := by
  let E : Nat → List (Name × Val K) := fun i => [("id".toList, Val.int i), ("measure".toList, .num measures[i]?), ("radius".toList, .num radii[i]?)] ++
      numbers (coordLabels.take dim) ((List.range dim).map fun d => centres[i]?.map fun c => c d)
  have hrows : poreStats dim n measures radii centres = .ok (tableOf ((List.range n).map E)) := by
    unfold poreStats
    rw [Res.mapM_eq _ _ E]
    · rfl
    · intro i hi
      have hi := List.mem_range.1 hi
      simp only [E, Res.index]
      rw [List.getElem?_eq_getElem (h1 ▸ hi), List.getElem?_eq_getElem (h2 ▸ hi), List.getElem?_eq_getElem (h3 ▸ hi)]
      rfl
  have hall : ∀ r ∈ (List.range n).map E, r.map Prod.fst = ["id".toList, "measure".toList, "radius".toList] ++ coordLabels.take dim := by
    intro r hr
    obtain ⟨i, _, rfl⟩ := List.mem_map.1 hr
    simp only [E]
    rw [List.map_append, numbers_fst _ _ (by rw [(labels_length hd).1]; simp)]
    rfl
  have hnd : (["id".toList, "measure".toList, "radius".toList] ++ coordLabels.take dim).Nodup := by
    rcases hd with rfl | rfl <;> decide +kernel
  obtain ⟨t1, t2, t3⟩ := tableOf_shows _ hnd _ hall (by simp; omega)
  refine ⟨_, hrows, by rw [t1]; exact hnd, fun c hc => by rw [t2 c hc]; simp, ?_⟩
  intro i m r c hm hr hc
  have hi : i < n := h1 ▸ (List.getElem?_eq_some_iff.1 hm).1
  have h := t3 i (E i) (by simp [hi])
  rw [t1]
  have hE : E i = [("id".toList, Val.int i), ("measure".toList, .num (some m)), ("radius".toList, .num (some r))] ++
      numbers (coordLabels.take dim) ((List.range dim).map fun d => some (c d)) := by
    simp only [E]; rw [hm, hr, hc]; rfl
  rw [hE] at h
  refine ⟨h (_, _) (List.mem_append_left _ List.mem_cons_self), h (_, _) (List.mem_append_left _ (List.mem_cons_of_mem _ List.mem_cons_self)),
    h (_, _) (List.mem_append_left _ (List.mem_cons_of_mem _ (List.mem_cons_of_mem _ List.mem_cons_self))), fun d hlt => ?_⟩
  exact h (axis "" d, .num (some (c d))) (List.mem_append_right _ (numbers_mem (coord_label hd d hlt).1 (by simp [hlt])))

namespace Ex125
def g (op : Nat) (x : ℚ) : GrainStats.Grain ℚ := ⟨3, 1, 9 / 10, op, [fun d => x + d]⟩
/-- three grains of one segment each, of different order parameters -/
def before : GrainStats.St ℚ := ⟨[(0, g 0 0), (1, g 1 2), (2, g 2 4)], [[(some 0, 0)], [(some 1, 0)], [(some 2, 0)]], []⟩
/-- the first grain has vanished -/
def later : List (Nat × GrainStats.Grain ℚ) := [(1, g 1 2), (2, g 2 4)]
def laterLookup : Lookup := [[], [(some 1, 0)], [(some 2, 0)]]
/-- the volume is one, the force is ten times the number of the grain -/
def F (e : Option Nat × Nat) (j : Nat) : ℚ := if j = 0 then 1 else 10 * e.1.getD 0 + j
def column (t : Res (Table (Val ℚ))) (n : String) : Option (List (Val ℚ)) :=
  match t with
  | .ok t => (t.find? fun c => c.1 == n.toList).map Prod.snd
  | _ => none

example : Valid before.lookup ∧ Covers before.lookup before.grains := by
  refine ⟨⟨by decide +kernel, ?_⟩, ?_⟩
  · intro e he
    simp [before] at he
    rcases he with rfl | rfl | rfl
    · exact ⟨0, rfl, by decide⟩
    · exact ⟨1, rfl, by decide⟩
    · exact ⟨2, rfl, by decide⟩
  · intro e he _
    simp [before] at he ⊢
    rcases he with rfl | rfl | rfl <;> simp
example : column (output 2 2 ([.evaluate F].foldl (GrainStats.event 2) before)) "fx" =
    some [.num (some 1), .num (some 11), .num (some 21)] := by decide +kernel
example : column (output 2 2 ([.evaluate F].foldl (GrainStats.event 2) before)) "vy" =
    some [.num (some 4), .num (some 24), .num (some 44)] := by decide +kernel
example : column (output 3 2 ([.evaluate F].foldl (GrainStats.event 3) before)) "tz" =
    some [.num (some 6), .num (some 16), .num (some 26)] := by decide +kernel
example : column (poreStats 2 2 [(1 : ℚ), 2] [3, 4] [fun _ => 5, fun d => d]) "y" = some [.num (some 5), .num (some 1)] := by decide +kernel
-- the first grain gets a second segment
example : output 2 2 ([.evaluate F, .track [(0, ⟨3, 1, 1, 0, [fun _ => 0, fun _ => 1]⟩), (1, g 1 2), (2, g 2 4)]
    [[(some 0, 0), (some 0, 1)], [(some 1, 0)], [(some 2, 0)]]].foldl (GrainStats.event 2) before) = .ub := by decide +kernel
-- displacements of a coupled operator
example : column (grainStats ⟨2, .coupled (fun p d => p d + 1) 2, ⟨true, 1, []⟩, before.grains, []⟩) "vx" =
    some [.num (some (1 / 2)), .num (some (3 / 2)), .num (some (5 / 2))] := by decide +kernel
end Ex125

/-- C125 is violated: a grain vanishes, the grains are tracked after the step, and the lines of the other grains have the forces of their
predecessors: 1 and 11 instead of 11 and 21. -/
theorem C125_stale_violated :
    Ex125.column (output 2 2 ([.evaluate Ex125.F, .track Ex125.later Ex125.laterLookup].foldl (GrainStats.event 2) Ex125.before)) "id" =
      some [.int 1, .int 2] ∧
    Ex125.column (output 2 2 ([.evaluate Ex125.F, .track Ex125.later Ex125.laterLookup].foldl (GrainStats.event 2) Ex125.before)) "fx" =
      some [.num (some 1), .num (some 11)] ∧
    Ex125.F (some 1, 0) 1 = 11 ∧ Ex125.F (some 2, 0) 1 = 21 := by decide +kernel

end Verif.Props
