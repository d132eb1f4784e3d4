import Verif.Model.OutputTable
import Verif.Spec.OutputTable
import Verif.Lemmas.OutputTable
import Mathlib.Algebra.Field.Rat
import Mathlib.Algebra.Order.Ring.Rat
/-!
# C124: the table of scalar results

Full claim: after any number of outputs with a label the file of the table has one line with the names of the columns and one
row for each output, in order, with the number and the time of the output; every quantity asked for has, in the whole
domain and in every box, exactly one column, under the same name in all rows, and the row has its value there. Proved
for the label of the solution in a new run (`C124_partial`), provided that the tracker has grains at all outputs or at none (then
the columns do not change). Missing, because it does not hold: the tables with the labels for debugging lose rows or have no
names of columns (`C124_debug_violated`, `C124_header_violated`), rows of failures have the time of the last output
(`C124_failure_time_violated`), and the initial row has the time zero for every start time (`C124_initial_time`). Restarts and two
programs that write to the same file are not modelled.
-/
namespace Verif.Props
open Verif.OutputTable Verif.OutputTable.Spec Verif.BoxFilter
variable {B V T : Type}

/-- C124: the names of the columns are pairwise different. -/
theorem C124_names (c : Conf B) (hs : Digits c.str) (hi : ∀ q ∈ c.integrals, Accepted c.str q)
    (hn : c.integrals.Nodup) (o : Obs V) (step time : V) :
    ((table c o step time).map Prod.fst).Nodup := by
  rw [header_eq c hs hi hn]
  exact names_nodup c hs _ hi hn

theorem tabulates_of {c : Conf B} {hs : Digits c.str} {e : Bool} {hi : ∀ q ∈ c.integrals, Accepted c.str q}
    {hn : c.integrals.Nodup} {f : Key → V} {k : Key} (hk : k ∈ keys c e) :
    Tabulates ((keys c e).map (render c)) ((keys c e).map f) (render c k) (f k) := by
  obtain ⟨p, hp, h⟩ := List.mem_iff_getElem.1 hk
  refine ⟨p, ?_, ?_, ?_⟩
  · rw [List.getElem?_map, List.getElem?_eq_getElem hp, h]; rfl
  · rw [List.getElem?_map, List.getElem?_eq_getElem hp, h]; rfl
  · intro p' hp'
    have hnd := names_nodup c hs e hi hn
    have h1 : ((keys c e).map (render c))[p]? = some (render c k) := by
      rw [List.getElem?_map, List.getElem?_eq_getElem hp, h]; rfl
    obtain ⟨hl', e1⟩ := List.getElem?_eq_some_iff.1 hp'
    obtain ⟨hl, e2⟩ := List.getElem?_eq_some_iff.1 h1
    exact (List.Nodup.getElem_inj_iff hnd).1 (e1.trans e2.symm)

/-- C124: in a new run the file of the table has after the initial output and any events the names of the columns in the
first line, and behind it one row for each output of the solution. Names are pairwise different, rows have as many values as
there are names. In the row of the k-th output the columns `step` and `time` have its number and time, and every quantity
has its value: those of the whole domain, the integrals for every filter, the extent of the packing and the quality
of the mesh if asked for, and the volumes, areas and coordination numbers for every filter. -/
theorem C124_partial [Zero T] [DecidableEq T] (c : Conf B) (hs : Digits c.str) (hi : ∀ q ∈ c.integrals, Accepted c.str q)
    (hn : c.integrals.Nodup) (F : Fmt T V) (files : Label → List (Line V)) (o : Obs V) (es : List (Event T V))
    (h0 : ∀ x ∈ outputs es, x.1 ≠ 0) (hd : ∀ l t o, Event.debug l t o ∈ es → l ≠ .solution)
    (hf : ∀ l t o, Event.failure l t o ∈ es → l ≠ .solution)
    (he : ∀ x ∈ outputs es, x.2.trackerEmpty = o.trackerEmpty) :
    ∃ names rows, (run c F files o es).file .solution = .header names :: rows ∧ names.Nodup ∧
      rows.length = 1 + (outputs es).length ∧
      ∀ k x, ((0, o) :: outputs es)[k]? = some x → ∃ r, rows[k]? = some (.row r) ∧ r.length = names.length ∧
        Tabulates names r "step".toList (F.nat k) ∧ Tabulates names r "time".toList (F.time x.1) ∧
        (∀ q ∈ generalNames, Tabulates names r q (x.2.value q none)) ∧
        (∀ q ∈ c.integrals, ∀ i < (boxFilters c.boxes c.only).length,
          Tabulates names r (boxed c q i) (x.2.value q (some i))) ∧
        (c.shrinkage = true → ∀ q ∈ shrinkageNames c.dim, Tabulates names r q (x.2.value q none)) ∧
        (c.qualityMin = true → Tabulates names r "mesh_quality".toList (x.2.value "mesh_quality".toList none)) ∧
        (∀ i f, (boxFilters c.boxes c.only)[i]? = some f →
          (f.isSome → Tabulates names r (boxed c "control_box".toList i) (x.2.value "control_box".toList (some i))) ∧
          (c.isoSurf = true → c.hasConcentration = true →
            Tabulates names r (boxed c "iso_surf_area".toList i) (x.2.value "iso_surf_area".toList (some i))) ∧
          (c.isoGb = true → c.hasGrains = true →
            Tabulates names r (boxed c "iso_gb_area".toList i) (x.2.value "iso_gb_area".toList (some i))) ∧
          (c.coordination = true → x.2.trackerEmpty = false →
            Tabulates names r (boxed c "avg_coord_num".toList i) (x.2.value "avg_coord_num".toList (some i)))) := by
  have hrun : (run c F files o es).file .solution = .header ((keys c o.trackerEmpty).map (render c)) ::
      ((0, o) :: outputs es).mapIdx fun k x =>
        .row (firstRow (table c x.2 (F.nat k) (F.time x.1))) := by
    rw [run, run_solution c F es _ h0 hd hf, List.mapIdx_cons]
    have hc : (!c.debug && (Label.solution != .solution)) = false := by simp
    simp only [initial, outputResult, hc, Bool.false_eq_true, if_false, if_true, writeTable]
    rw [header_eq c hs hi hn]
    simp only [List.cons_append, List.nil_append]
    refine congrArg₂ _ rfl (congrArg₂ _ rfl ?_)
    refine congrFun (congrArg _ (funext fun k => funext fun x => ?_)) _
    rw [Nat.zero_add, Nat.add_comm]
  refine ⟨_, _, hrun, names_nodup c hs _ hi hn, by simp [Nat.add_comm], ?_⟩
  intro k x hx
  have hex : x.2.trackerEmpty = o.trackerEmpty := by
    rcases List.mem_cons.1 (List.mem_of_getElem? hx) with rfl | h
    · rfl
    · exact he x h
  refine ⟨firstRow (table c x.2 (F.nat k) (F.time x.1)), by rw [List.getElem?_mapIdx, hx]; rfl, ?_⟩
  rw [firstRow_eq c hs hi hn, hex]
  have tab : ∀ key ∈ keys c o.trackerEmpty, Tabulates ((keys c o.trackerEmpty).map (render c))
      ((keys c o.trackerEmpty).map (valueOf x.2 (F.nat k) (F.time x.1))) (render c key)
      (valueOf x.2 (F.nat k) (F.time x.1) key) := fun key hk => tabulates_of (hs := hs) (hi := hi) (hn := hn) hk
  have hmem : ∀ key, key ∈ keys c o.trackerEmpty ↔
      (((((key ∈ ([("step".toList, none), ("time".toList, none)] : List Key) ∨
        key ∈ generalNames.map (fun q => ((q, none) : Key))) ∨
        key ∈ (List.range (boxFilters c.boxes c.only).length).flatMap
          (fun i => c.integrals.map fun q => ((q, some i) : Key))) ∨
        key ∈ (if c.shrinkage then (shrinkageNames c.dim).map (fun q => ((q, none) : Key)) else [])) ∨
        key ∈ (if c.qualityMin then [(("mesh_quality".toList, none) : Key)] else [])) ∨
        key ∈ (boxFilters c.boxes c.only).zipIdx.flatMap fun f => advancedKeys c o.trackerEmpty f.1 f.2) := by
    intro key
    unfold keys
    simp only [List.mem_append]
  refine ⟨by simp, ?_, ?_, ?_, ?_, ?_, ?_, ?_⟩
  · have := tab ("step".toList, none) ((hmem _).2
      (Or.inl (Or.inl (Or.inl (Or.inl (Or.inl List.mem_cons_self))))))
    unfold valueOf at this
    rwa [if_pos rfl] at this
  · have := tab ("time".toList, none) ((hmem _).2
      (Or.inl (Or.inl (Or.inl (Or.inl (Or.inl (List.mem_cons_of_mem _ List.mem_cons_self)))))))
    unfold valueOf at this
    rwa [if_neg (fun h => step_ne_time (Prod.mk.inj h).1), if_pos rfl] at this
  · intro q hq
    have := tab (q, none) ((hmem _).2 (Or.inl (Or.inl (Or.inl (Or.inl (Or.inr (List.mem_map.2 ⟨q, hq, rfl⟩)))))))
    rwa [valueOf_none _ _ _ _ (general_ne q hq).1 (general_ne q hq).2] at this
  · intro q hq i hil
    have := tab (q, some i) ((hmem _).2 (Or.inl (Or.inl (Or.inl (Or.inr
      (List.mem_flatMap.2 ⟨i, List.mem_range.2 hil, List.mem_map.2 ⟨q, hq, rfl⟩⟩))))))
    rwa [valueOf_some] at this
  · intro hsh q hq
    have := tab (q, none) ((hmem _).2 (Or.inl (Or.inl (Or.inr (by
      rw [if_pos hsh]; exact List.mem_map.2 ⟨q, hq, rfl⟩)))))
    have hne := shrinkage_ne q (shrinkage_mem hq)
    rwa [valueOf_none _ _ _ _ hne.1 hne.2] at this
  · intro hqm
    have := tab ("mesh_quality".toList, none) ((hmem _).2 (Or.inl (Or.inr (by
      rw [if_pos hqm]; exact List.mem_cons_self))))
    rwa [valueOf_none _ _ _ _ quality_ne.1 quality_ne.2] at this
  · intro i f hif
    have adv : ∀ q, (q, some i) ∈ advancedKeys c o.trackerEmpty f i →
        Tabulates ((keys c o.trackerEmpty).map (render c))
        ((keys c o.trackerEmpty).map (valueOf x.2 (F.nat k) (F.time x.1))) (boxed c q i) (x.2.value q (some i)) := by
      intro q hq
      have := tab (q, some i) ((hmem _).2 (Or.inr (List.mem_flatMap.2 ⟨(f, i), ?_, hq⟩)))
      · rwa [valueOf_some] at this
      · exact List.mk_mem_zipIdx_iff_getElem?.2 hif
    have hak : advancedKeys c o.trackerEmpty f i = (if f.isSome then [("control_box".toList, some i)] else []) ++
        (if c.isoSurf && c.hasConcentration then [("iso_surf_area".toList, some i)] else []) ++
        (if c.isoGb && c.hasGrains then [("iso_gb_area".toList, some i)] else []) ++
        (if c.coordination && !o.trackerEmpty then [("avg_coord_num".toList, some i)] else []) := rfl
    refine ⟨fun h => adv _ ?_, fun h h' => adv _ ?_, fun h h' => adv _ ?_, fun h h' => adv _ ?_⟩
    · rw [hak, if_pos h]
      exact List.mem_append_left _ (List.mem_append_left _ (List.mem_append_left _ List.mem_cons_self))
    · rw [hak, h, h', if_pos (c := (true && true) = true) rfl]
      exact List.mem_append_left _ (List.mem_append_left _ (List.mem_append_right _ List.mem_cons_self))
    · rw [hak, h, h', if_pos (c := (true && true) = true) rfl]
      exact List.mem_append_left _ (List.mem_append_right _ List.mem_cons_self)
    · rw [hak, h, h', if_pos (c := (true && !false) = true) rfl]
      exact List.mem_append_right _ List.mem_cons_self

/-- C124: outputs for debugging are not written unless asked for. -/
theorem C124_debug_off [Zero T] [DecidableEq T] (c : Conf B) (hd : c.debug = false) (F : Fmt T V) (st : St T V) (t : T)
    (l : Label) (hl : l ≠ .solution) (o : Obs V) : outputResult c F st t l o = st := by
  unfold outputResult
  rw [if_pos (by rw [hd]; simpa using hl)]

/-- C124 is violated: every output with a label for debugging at the time zero, for instance before and after every initial
refinement, truncates the table; only the last row remains. -/
theorem C124_debug_violated [Zero T] [DecidableEq T] (c : Conf B) (hd : c.debug = true) (F : Fmt T V) (st : St T V)
    (l : Label) (o o' : Obs V) :
    ∃ h r, (outputResult c F (outputResult c F st 0 l o) 0 l o').file l = [.header h, .row r] ∧
      (outputResult c F (outputResult c F st 0 l o) 0 l o').counter l = st.counter l + 2 := by
  unfold outputResult writeTable
  simp [hd]

/-- C124 is violated: a table whose first output is after the time zero has no names of columns. -/
theorem C124_header_violated [Zero T] [DecidableEq T] (c : Conf B) (hd : c.debug = true) (F : Fmt T V)
    (o : Obs V) (l : Label) (hl : l ≠ .solution) (t : T) (ht : t ≠ 0) (o' : Obs V) :
    ∃ r, (event c F (initial c F (fun _ => []) o) (.debug l t o')).file l = [.row r] := by
  simp only [event, initial, outputResult, writeTable, hd]
  simp [hl, ht]

/-- C124 is violated: the row written for a failure at the time `t` has the time of the last output. -/
theorem C124_failure_time_violated [Zero T] [DecidableEq T] (c : Conf B) (hd : c.debug = true) (hs : Digits c.str)
    (hi : ∀ q ∈ c.integrals, Accepted c.str q) (hn : c.integrals.Nodup) (F : Fmt T V) (st : St T V) (l : Label)
    (t₀ t : T) (h0 : t₀ ≠ 0) (o₀ o : Obs V) (hl : l ≠ .solution) :
    ∃ r, (event c F (event c F st (.solution t₀ o₀)) (.failure l t o)).file l = st.file l ++ [.row r] ∧
      Tabulates ((table c o (F.nat (st.counter l)) (F.time t₀)).map Prod.fst) r "time".toList (F.time t₀) := by
  refine ⟨firstRow (table c o (F.nat (st.counter l)) (F.time t₀)), ?_, ?_⟩
  · simp only [event, outputResult, writeTable, hd]
    simp [hl, h0]
  · rw [header_eq c hs hi hn, firstRow_eq c hs hi hn]
    have := tabulates_of (f := valueOf o (F.nat (st.counter l)) (F.time t₀)) (hs := hs) (hi := hi) (hn := hn)
      (k := ("time".toList, none)) (e := o.trackerEmpty) (by
        unfold keys
        simp only [List.mem_append]
        exact Or.inl (Or.inl (Or.inl (Or.inl (Or.inl (List.mem_cons_of_mem _ List.mem_cons_self))))))
    unfold valueOf at this
    rwa [if_neg (fun h => step_ne_time (Prod.mk.inj h).1), if_pos rfl] at this

/-- C124: the time in the row of the initial output is zero whatever the start time. -/
theorem C124_initial_time [Zero T] [DecidableEq T] (c : Conf B) (hs : Digits c.str)
    (hi : ∀ q ∈ c.integrals, Accepted c.str q) (hn : c.integrals.Nodup) (F : Fmt T V) (files : Label → List (Line V))
    (o : Obs V) : ∃ names r, (initial c F files o).file .solution = [.header names, .row r] ∧
      Tabulates names r "time".toList (F.time 0) := by
  obtain ⟨names, rows, h1, _, h3, h4⟩ := C124_partial c hs hi hn F files o [] (by simp [outputs]) (by simp) (by simp)
    (by simp [outputs])
  obtain ⟨r, hr, _, _, ht, _⟩ := h4 0 (0, o) rfl
  have hl : rows = [.row r] := by
    simp [outputs] at h3
    match rows, h3, hr with
    | [a], _, hr => simpa using hr
  exact ⟨names, r, by rw [← hl]; exact h1, ht⟩

namespace Ex124
/-- `std::to_string` -/
def str (n : Nat) : Name := (toString n).toList

example : Digits str := by
  refine ⟨fun a b h => ?_, fun k => ⟨?_, fun c hc => ?_⟩⟩
  · have h' : Nat.toDigits 10 a = Nat.toDigits 10 b := by simpa [str] using h
    have := congrArg (Nat.ofDigitChars 10 · 0) h'
    simpa using this
  · simp [str]
  · exact Nat.isDigit_of_mem_toDigits (b := 10) (n := k) (by decide) (by decide) (by simpa [str] using hc)

def conf : Conf String where
  str := str
  dim := 2
  debug := true
  integrals := ["gb_area".toList, "op".toList ++ '_' :: str 0, "op".toList ++ '_' :: str 1]
  boxes := ["left", "right"]
  only := false
  shrinkage := true
  qualityMin := false
  isoSurf := true
  isoGb := false
  coordination := true
  hasConcentration := true
  hasGrains := true

/-- values are printed as the quantity and the number of the box -/
def obs (k : Nat) : Obs (Name × Option Nat × Nat) := ⟨fun q i => (q, i, k), false⟩
def fmt : Fmt ℚ (Name × Option Nat × Nat) := ⟨fun n => ("#".toList, none, n), fun t => ("t".toList, none, t.num.toNat)⟩

example : ∀ q ∈ conf.integrals, Accepted conf.str q := by
  intro q hq
  simp only [conf, List.mem_cons, List.not_mem_nil, or_false] at hq
  rcases hq with rfl | rfl | rfl
  · exact Or.inl (by decide +kernel)
  · exact Or.inr ⟨0, rfl⟩
  · exact Or.inr ⟨1, rfl⟩
example : conf.integrals.Nodup := by decide +kernel
example : (table conf (obs 0) ("#".toList, none, 0) ("t".toList, none, 0)).map (fun c => String.ofList c.1) =
    ["step", "time", "dt", "n_dofs", "n_op", "n_grains", "n_newton_iter", "n_linear_iter", "n_resid_eval", "gb_area", "op_0",
      "op_1", "gb_area_0", "op_0_0", "op_1_0", "gb_area_1", "op_0_1", "op_1_1", "dim_x", "dim_y", "volume",
      "iso_surf_area", "avg_coord_num", "control_box_0", "iso_surf_area_0", "avg_coord_num_0", "control_box_1",
      "iso_surf_area_1", "avg_coord_num_1"] := by decide +kernel
example : ((run conf fmt (fun _ => [.row []]) (obs 0) [.debug .refinement 0 (obs 1), .debug .refinement 0 (obs 2), .solution 1 (obs 3),
    .failure .newtonNotConverged (3 / 2) (obs 4), .solution 2 (obs 5)]).file .solution).length = 4 := by decide +kernel
-- the same run: two outputs of the refinement, one row
example : ((run conf fmt (fun _ => [.row []]) (obs 0) [.debug .refinement 0 (obs 1), .debug .refinement 0 (obs 2), .solution 1 (obs 3),
    .failure .newtonNotConverged (3 / 2) (obs 4), .solution 2 (obs 5)]).file .refinement).length = 2 := by decide +kernel

end Ex124
end Verif.Props
