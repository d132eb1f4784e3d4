import Verif.Model.GrainStats
import Verif.Spec.GrainStats
import Verif.Lemmas.Inverse
import Verif.Lemmas.Connect
import Verif.Lemmas.OutputTable
/-! Helper lemmas for the tables of grains and pores. -/
namespace Verif.GrainStats
open Verif.OutputTable (Name Table addValue)
open Verif.GrainStats.Spec

variable {V : Type}

theorem addValue_mid (pre rest : Table V) (n : Name) (c : List V) (v : V) (h1 : n ∉ pre.map Prod.fst)
    (h2 : n ∉ rest.map Prod.fst) : addValue (pre ++ (n, c) :: rest) n v = pre ++ (n, c ++ [v]) :: rest := by
  unfold addValue
  rw [if_pos (by simp)]
  have key : ∀ l : Table V, n ∉ l.map Prod.fst →
      (l.map fun c => if c.1 == n then (c.1, c.2 ++ [v]) else c) = l := by
    intro l hl
    conv_rhs => rw [← List.map_id l]
    refine List.map_congr_left fun a ha => ?_
    have : a.1 ≠ n := fun h => hl (h ▸ List.mem_map_of_mem ha)
    simp [this]
  rw [List.map_append, List.map_cons, key pre h1, key rest h2]
  simp

theorem addRow (names : List Name) : ∀ (vals : List V) (cols : List (List V)) (pre : Table V),
    vals.length = names.length → cols.length = names.length → (pre.map Prod.fst ++ names).Nodup →
    (names.zip vals).foldl (fun t e => addValue t e.1 e.2) (pre ++ names.zip cols) =
      pre ++ names.zip (List.zipWith (fun c v => c ++ [v]) cols vals) := by
  induction names with
  | nil => intro vals cols pre _ _ _; simp
  | cons n names ih =>
    intro vals cols pre hv hc hn
    match vals, cols, hv, hc with
    | v :: vals, c :: cols, hv, hc =>
      simp only [List.length_cons, Nat.add_right_cancel_iff] at hv hc
      simp only [List.zip_cons_cons, List.foldl_cons, List.zipWith_cons_cons]
      have hsub : (names.zip cols).map Prod.fst = names := List.map_fst_zip (by omega)
      rw [addValue_mid pre _ n c v]
      · have := ih vals cols (pre ++ [(n, c ++ [v])]) hv hc (by simpa using hn)
        simpa using this
      · intro h
        rw [List.nodup_append] at hn
        exact hn.2.2 n h n List.mem_cons_self rfl
      · rw [hsub]
        rw [List.nodup_append] at hn
        exact (List.nodup_cons.1 hn.2.1).1

/-- columns of rows -/
def ColsOf (names : List Name) (rows : List (List (Name × V))) (cols : List (List V)) : Prop :=
  cols.length = names.length ∧ (∀ c ∈ cols, c.length = rows.length) ∧
  ∀ (k : Nat) r, rows[k]? = some r → ∀ (j : Nat) e, r[j]? = some e → ∃ c, cols[j]? = some c ∧ c[k]? = some e.2

theorem fold_rows (names : List Name) (hn : names.Nodup) (rows : List (List (Name × V))) :
    (∀ r ∈ rows, r.map Prod.fst = names) → rows ≠ [] →
    ∃ cols, rows.flatten.foldl (fun t e => addValue t e.1 e.2) [] = names.zip cols ∧ ColsOf names rows cols := by
  induction rows using List.reverseRecOn with
  | nil => intro _ h; exact absurd rfl h
  | append_singleton rows r ih =>
    intro hr _
    have hrn : r.map Prod.fst = names := hr r (by simp)
    have hzip : r = names.zip (r.map Prod.snd) := by
      rw [← hrn]
      exact List.zip_of_prod rfl rfl
    have hlen : (r.map Prod.snd).length = names.length := by rw [← hrn]; simp
    rw [List.flatten_append, List.foldl_append, List.flatten_singleton]
    by_cases h0 : rows = []
    · subst h0
      refine ⟨(r.map Prod.snd).map fun v => [v], ?_, by simpa using hlen, ?_, ?_⟩
      · have hh := OutputTable.foldl_addValue r [] (by simpa [hrn] using hn)
        simp only [List.flatten_nil, List.foldl_nil]
        rw [hh]
        rw [List.nil_append, ← hrn, List.map_map, List.zip_map']
        rfl
      · intro c hc
        obtain ⟨v, _, rfl⟩ := List.mem_map.1 hc
        rfl
      · intro k r' hk j e he
        have : k = 0 := by
          by_contra hne
          rw [List.getElem?_eq_none (by simp; omega)] at hk; simp at hk
        subst this
        simp at hk; subst hk
        exact ⟨[e.2], by simp [he], rfl⟩
    · obtain ⟨cols, hc, h1, h2, h3⟩ := ih (fun r' h' => hr r' (by simp [h'])) h0
      rw [hc]
      refine ⟨List.zipWith (fun c v => c ++ [v]) cols (r.map Prod.snd), ?_, ?_, ?_, ?_⟩
      · have := addRow names (r.map Prod.snd) cols [] hlen h1 (by simpa using hn)
        rw [← hzip] at this
        simpa using this
      · simp [h1, ← hlen]
      · intro c hc
        obtain ⟨j, hj⟩ := List.mem_iff_getElem?.1 hc
        rw [List.getElem?_zipWith] at hj
        cases ha : cols[j]? with
        | none => simp [ha] at hj
        | some a =>
          cases hb : (r.map Prod.snd)[j]? with
          | none => simp [ha, hb] at hj
          | some b =>
            simp [ha, hb] at hj
            subst hj
            simp [h2 a (List.mem_of_getElem? ha)]
      · intro k r' hk j e he
        rcases Nat.lt_trichotomy k rows.length with hlt | heq | hgt
        · rw [List.getElem?_append_left hlt] at hk
          obtain ⟨c, hcj, hck⟩ := h3 k r' hk j e he
          have hjl : j < (r.map Prod.snd).length := by
            rw [hlen, ← h1]; exact (List.getElem?_eq_some_iff.1 hcj).1
          refine ⟨c ++ [(r.map Prod.snd)[j]], ?_, ?_⟩
          · rw [List.getElem?_zipWith, hcj, List.getElem?_eq_getElem hjl]
          · rw [List.getElem?_append_left (by rw [h2 c (List.mem_of_getElem? hcj)]; exact hlt)]; exact hck
        · subst heq
          simp at hk; subst hk
          have hjl : j < cols.length := by
            rw [h1, ← hlen, List.length_map]; exact (List.getElem?_eq_some_iff.1 he).1
          refine ⟨cols[j] ++ [e.2], ?_, ?_⟩
          · rw [List.getElem?_zipWith, List.getElem?_eq_getElem hjl, List.getElem?_map, he]; rfl
          · rw [← h2 cols[j] (List.getElem_mem hjl)]; simp
        · rw [List.getElem?_eq_none (by simp; omega)] at hk; simp at hk

theorem line_zip {K : Type} (names : List Name) (cols : List (List (Val K))) (h : cols.length = names.length) (k j : Nat) (c : List (Val K))
    (hj : cols[j]? = some c) : (line (names.zip cols) k)[j]? = some c[k]? := by
  unfold line
  have hl : j < names.length := h ▸ (List.getElem?_eq_some_iff.1 hj).1
  rw [List.getElem?_map, List.getElem?_zip_eq_some (z := (names[j], c)).2 ⟨List.getElem?_eq_getElem hl, hj⟩]
  rfl

/-- the table shows the entries of the rows -/
theorem tableOf_shows {K : Type} (names : List Name) (hn : names.Nodup) (rows : List (List (Name × Val K)))
    (hr : ∀ r ∈ rows, r.map Prod.fst = names) (h0 : rows ≠ []) :
    (tableOf rows).map Prod.fst = names ∧ (∀ c ∈ tableOf rows, c.2.length = rows.length) ∧
    ∀ (k : Nat) r, rows[k]? = some r → ∀ e ∈ r, Shows names (line (tableOf rows) k) e.1 e.2 := by
  obtain ⟨cols, hc, h1, h2, h3⟩ := fold_rows names hn rows hr h0
  unfold tableOf
  rw [hc]
  refine ⟨List.map_fst_zip (by omega), ?_, ?_⟩
  · intro c hcm
    exact h2 c.2 (List.of_mem_zip hcm).2
  · intro k r hk e he
    obtain ⟨j, hj⟩ := List.mem_iff_getElem?.1 he
    obtain ⟨c, hcj, hck⟩ := h3 k r hk j e hj
    have hnj : names[j]? = some e.1 := by
      rw [← hr r (List.mem_of_getElem? hk), List.getElem?_map, hj]; rfl
    refine ⟨j, hnj, ?_, ?_⟩
    · rw [line_zip names cols h1 k j c hcj, hck]
    · intro p' hp'
      obtain ⟨l1, e1⟩ := List.getElem?_eq_some_iff.1 hp'
      obtain ⟨l2, e2⟩ := List.getElem?_eq_some_iff.1 hnj
      exact (List.Nodup.getElem_inj_iff hn).1 (e1.trans e2.symm)

theorem segmentIndex_pos {lookup : Lookup} (hv : Valid lookup) {i g s : Nat}
    (h : lookup.flatten[i]? = some (some g, s)) : segmentIndex (buildInverse lookup).1 g s = .ok i := by
  obtain ⟨-, -, -, h4⟩ := buildInverse_ok lookup
  refine h4 i (some g, s) h ?_
  intro j hj e' he' ⟨c1, c2⟩
  obtain ⟨g', hg', hlt'⟩ := hv.2 e' (List.mem_of_getElem? he')
  simp [gridKey, hg'] at c1
  have : e' = (some g, s) := Prod.ext (by rw [hg', c1]) c2
  subst this
  obtain ⟨x1, y1⟩ := List.getElem?_eq_some_iff.1 h
  obtain ⟨x2, y2⟩ := List.getElem?_eq_some_iff.1 he'
  have := (List.Nodup.getElem_inj_iff hv.1).1 (y1.trans y2.symm)
  omega

theorem flatMap_get {α β : Type} (n : Nat) (f : α → Nat → β) (l : List α) : ∀ (i j : Nat) (e : α), l[i]? = some e → j < n →
    (l.flatMap fun e => (List.range n).map (f e))[n * i + j]? = some (f e j) := by
  induction l with
  | nil => intro i j e h; simp at h
  | cons a l ih =>
    intro i j e h hj
    rw [List.flatMap_cons]
    cases i with
    | zero =>
      simp at h; subst h
      rw [List.getElem?_append_left (by simpa using hj)]
      simp [hj]
    | succ i =>
      rw [List.getElem?_append_right (by simp [Nat.mul_succ]; omega)]
      have := ih i j e (by simpa using h) hj
      rw [List.length_map, List.length_range]
      rw [show n * (i + 1) + j - n = n * i + j by rw [Nat.mul_succ]; omega]
      exact this

theorem flatMap_none {α β : Type} (n : Nat) (f : α → Nat → β) (l : List α) (i j : Nat) (h : l.length ≤ i) :
    (l.flatMap fun e => (List.range n).map (f e))[n * i + j]? = none := by
  refine List.getElem?_eq_none ?_
  have : (l.flatMap fun e => (List.range n).map (f e)).length = n * l.length := by
    induction l with
    | nil => simp
    | cons a l ih =>
      rw [List.flatMap_cons, List.length_append, ih (by simp at h; omega)]
      simp [Nat.mul_succ, Nat.add_comm]
  rw [this]
  exact Nat.le_trans (Nat.mul_le_mul_left n h) (Nat.le_add_right _ _)

variable {K : Type} [Field K] [DecidableEq K]

/-- names of the columns -/
def columnNames (dim : Nat) (enabled : Bool) : List Name :=
  ["id".toList, "measure".toList, "radius".toList, "max_value".toList, "order_parameter_id".toList] ++ coordLabels.take dim ++
    (if enabled then (["volume".toList] ++ forceLabels.take dim ++ (torqueLabels dim).take (moments dim)) ++ velocityLabels.take dim
      else [])

theorem columnNames_nodup {dim : Nat} (hd : dim = 2 ∨ dim = 3) (b : Bool) : (columnNames dim b).Nodup := by
  rcases hd with rfl | rfl <;> cases b <;> decide +kernel

/-- the entries of a row in terms of the values -/
def rowEntries (dim : Nat) (enabled : Bool) (id : Nat) (g : Grain K) (xs vs : List (Option K)) : List (Name × Val K) :=
  ([("id".toList, .int id), ("measure".toList, .num (some g.measure)), ("radius".toList, .num (some g.radius)),
      ("max_value".toList, .num (some g.maxValue)), ("order_parameter_id".toList, .int g.op)] ++
    numbers (coordLabels.take dim) (centre dim g)) ++
  (if enabled then numbers (["volume".toList] ++ forceLabels.take dim ++ (torqueLabels dim).take (moments dim)) xs ++
      numbers (velocityLabels.take dim) vs else [])

omit [Field K] [DecidableEq K] in
theorem numbers_fst (labels : List Name) (xs : List (Option K)) (h : labels.length = xs.length) :
    (numbers labels xs).map Prod.fst = labels := by
  unfold numbers
  exact List.map_fst_zip (by simp [h])

omit [Field K] [DecidableEq K] in
theorem numbers_mem {labels : List Name} {xs : List (Option K)} {j : Nat} {n : Name} {x : Option K}
    (h1 : labels[j]? = some n) (h2 : xs[j]? = some x) : (n, Val.num x) ∈ numbers labels xs := by
  unfold numbers
  refine List.mem_iff_getElem?.2 ⟨j, List.getElem?_zip_eq_some.2 ⟨h1, ?_⟩⟩
  rw [List.getElem?_map, h2]; rfl

omit [Field K] [DecidableEq K] in
theorem centre_length (dim : Nat) (g : Grain K) : (centre dim g).length = dim := by
  unfold centre dummy
  split <;> simp

theorem labels_length {dim : Nat} (hd : dim = 2 ∨ dim = 3) : (coordLabels.take dim).length = dim ∧
    (velocityLabels.take dim).length = dim ∧
    (["volume".toList] ++ forceLabels.take dim ++ (torqueLabels dim).take (moments dim)).length = 1 + dim + moments dim := by
  rcases hd with rfl | rfl <;> decide +kernel

theorem nComp_eq {dim : Nat} (hd : dim = 2 ∨ dim = 3) : nComp dim = 1 + dim + moments dim := by
  rcases hd with rfl | rfl <;> rfl

omit [Field K] [DecidableEq K] in
theorem entries_fst {dim : Nat} (hd : dim = 2 ∨ dim = 3) (enabled : Bool) (id : Nat) (g : Grain K) (xs vs : List (Option K))
    (hx : enabled = true → xs.length = 1 + dim + moments dim) (hv : enabled = true → vs.length = dim) :
    (rowEntries dim enabled id g xs vs).map Prod.fst = columnNames dim enabled := by
  obtain ⟨l1, l2, l3⟩ := labels_length hd
  unfold rowEntries columnNames
  rw [List.map_append, List.map_append, numbers_fst _ _ (by rw [l1, centre_length])]
  cases enabled with
  | false => rfl
  | true =>
    rw [if_pos rfl, if_pos rfl, List.map_append, numbers_fst _ _ (by rw [l3, hx rfl]), numbers_fst _ _ (by rw [l2, hv rfl])]
    rfl

theorem row_eq (I : Input K) (points : List (Nat → K)) (pos id : Nat) (g : Grain K) (xs vs : List (Option K))
    (hx : I.mech.enabled = true → forces I id g = .ok xs) (hv : I.mech.enabled = true → velocity I points pos id g = .ok vs) :
    row I points pos id g = .ok (rowEntries I.dim I.mech.enabled id g xs vs) := by
  unfold row rowEntries
  cases h : I.mech.enabled with
  | false => simp only [Bool.false_eq_true, if_false, List.append_nil]; rfl
  | true =>
    simp only [if_true]
    rw [hx h, hv h]
    simp only [Res.ok_bind, List.append_assoc]
    rfl

theorem stats_of (I : Input K) (hd : I.dim = 2 ∨ I.dim = 3) (hne : I.grains ≠ []) (points : List (Nat → K))
    (hp : evaluationPoints I.grains I.op = .ok points)
    (X : Nat → Grain K → List (Option K)) (W : Nat → Nat → Grain K → List (Option K))
    (hX : ∀ e ∈ I.grains, I.mech.enabled = true → forces I e.1 e.2 = .ok (X e.1 e.2) ∧ (X e.1 e.2).length = 1 + I.dim + moments I.dim)
    (hW : ∀ (k : Nat) e, I.grains[k]? = some e → I.mech.enabled = true → velocity I points k e.1 e.2 = .ok (W k e.1 e.2) ∧
      (W k e.1 e.2).length = I.dim) :
    ∃ t, grainStats I = .ok t ∧ t.map Prod.fst = columnNames I.dim I.mech.enabled ∧ (∀ c ∈ t, c.2.length = I.grains.length) ∧
      ∀ (k : Nat) e, I.grains[k]? = some e → ∀ x ∈ rowEntries I.dim I.mech.enabled e.1 e.2 (X e.1 e.2) (W k e.1 e.2),
        Shows (columnNames I.dim I.mech.enabled) (line t k) x.1 x.2 := by
  have hrows : (I.grains.zipIdx.mapM fun e => row I points e.2 e.1.1 e.1.2) =
      .ok (I.grains.zipIdx.map fun e => rowEntries I.dim I.mech.enabled e.1.1 e.1.2 (X e.1.1 e.1.2) (W e.2 e.1.1 e.1.2)) := by
    refine Res.mapM_ok _ ?_
    intro e he
    have hg := (List.mk_mem_zipIdx_iff_getElem? (x := e.1) (i := e.2)).1 he
    exact row_eq I points e.2 e.1.1 e.1.2 _ _ (fun h => (hX e.1 (List.mem_of_getElem? hg) h).1) (fun h => (hW e.2 e.1 hg h).1)
  have hall : ∀ r ∈ (I.grains.zipIdx.map fun e => rowEntries I.dim I.mech.enabled e.1.1 e.1.2 (X e.1.1 e.1.2) (W e.2 e.1.1 e.1.2)),
      r.map Prod.fst = columnNames I.dim I.mech.enabled := by
    intro r hr
    obtain ⟨e, he, rfl⟩ := List.mem_map.1 hr
    have hg := (List.mk_mem_zipIdx_iff_getElem? (x := e.1) (i := e.2)).1 he
    exact entries_fst hd _ _ _ _ _ (fun h => (hX e.1 (List.mem_of_getElem? hg) h).2) (fun h => (hW e.2 e.1 hg h).2)
  obtain ⟨t1, t2, t3⟩ := tableOf_shows _ (columnNames_nodup hd I.mech.enabled) _ hall (by simpa using hne)
  refine ⟨_, ?_, t1, ?_, ?_⟩
  · unfold grainStats
    rw [hp, Res.ok_bind, hrows, Res.ok_bind]
    rfl
  · intro c hc
    rw [t2 c hc]; simp
  · intro k e hk x hx
    refine t3 k _ ?_ x hx
    rw [List.getElem?_map, List.getElem?_zipIdx, hk]
    simp

theorem coord_label {dim : Nat} (hd : dim = 2 ∨ dim = 3) : ∀ d < dim, (coordLabels.take dim)[d]? = some (axis "" d) ∧
    (velocityLabels.take dim)[d]? = some (axis "v" d) ∧
    (["volume".toList] ++ forceLabels.take dim ++ (torqueLabels dim).take (moments dim))[1 + d]? = some (axis "f" d) := by
  rcases hd with rfl | rfl <;> decide +kernel

theorem torque_label {dim : Nat} (hd : dim = 2 ∨ dim = 3) : ∀ d < moments dim,
    (["volume".toList] ++ forceLabels.take dim ++ (torqueLabels dim).take (moments dim))[1 + dim + d]? = some (torque dim d) := by
  rcases hd with rfl | rfl <;> decide +kernel

theorem forces_data (I : Input K) (hd : I.dim = 2 ∨ I.dim = 3) (id : Nat) (g : Grain K) (h1 : g.segments.length = 1) (i : Nat) (F : Nat → K)
    (hi : segmentIndex I.numbering id 0 = .ok i) (hF : ∀ j < nComp I.dim, I.mech.data[nComp I.dim * i + j]? = some (F j)) :
    forces I id g = .ok ((List.range (1 + I.dim + moments I.dim)).map fun j => some (F j)) ∧ hasData I g = true ∧
    translationVelocity I.dim I.mech i = .ok ((List.range I.dim).map fun d => quot (I.mech.mt * F (1 + d)) (F 0)) := by
  have hat : ∀ j < nComp I.dim, dataAt I.dim I.mech i j = .ok (F j) := by
    intro j hj
    unfold dataAt Res.index
    rw [hF j hj]
  have hne : hasData I g = true := by
    unfold hasData
    rw [h1]
    have : I.mech.data ≠ [] := by
      intro h
      have := hF 0 (by rw [nComp_eq hd]; omega)
      rw [h] at this; simp at this
    simp [this]
  refine ⟨?_, hne, ?_⟩
  · unfold forces
    rw [if_pos hne, hi, Res.ok_bind, Res.mapM_ok (F := F) _ (fun j hj => hat j (by
      rw [nComp_eq hd]; exact List.mem_range.1 hj)), Res.ok_bind, List.map_map]
    rfl
  · unfold translationVelocity
    rw [hat 0 (by rw [nComp_eq hd]; omega), Res.ok_bind, Res.mapM_ok (F := fun d => F (1 + d)) _ (fun d h => hat (1 + d) (by
      rw [nComp_eq hd]; have := List.mem_range.1 h; omega)), Res.ok_bind, List.map_map]
    rfl

omit [Field K] [DecidableEq K] in
theorem forces_dummy (I : Input K) (id : Nat) (g : Grain K) (h : hasData I g = false) :
    forces I id g = .ok (dummy (1 + I.dim + moments I.dim)) := by
  unfold forces
  rw [h]; rfl

end Verif.GrainStats
