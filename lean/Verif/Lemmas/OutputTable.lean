import Verif.Model.OutputTable
import Verif.Spec.OutputTable
import Verif.Props.BoxFilter
import Mathlib.Data.List.Nodup
import Mathlib.Data.List.Basic
/-!
# Lemmas about the table of scalar results
-/
namespace Verif.OutputTable
open Verif.OutputTable.Spec Verif.BoxFilter

/-- without trailing digits -/
def strip (l : Name) : Name := (l.reverse.dropWhile Char.isDigit).reverse

theorem strip_digits (a ds : Name) (x : Char) (hx : x.isDigit = false) (hd : ∀ c ∈ ds, c.isDigit = true) :
    strip (a ++ x :: ds) = a ++ [x] := by
  have h1 : (a ++ x :: ds).reverse = ds.reverse ++ (x :: a.reverse) := by simp
  rw [strip, h1, List.dropWhile_append_of_pos (by simpa using hd), List.dropWhile_cons_of_neg (by simp [hx])]
  simp

/-- names of columns that are used for a box: either they do not end with a digit or they are `op_k` -/
def Fine (str : Nat → Name) (q : Name) : Prop :=
  (q ≠ "op".toList ∧ ∃ a x, q = a ++ [x] ∧ Char.isDigit x = false) ∨ ∃ k, q = "op".toList ++ '_' :: str k

/-- suffixes -/
def Suffix (str : Nat → Name) (s : Name) : Prop := s = [] ∨ ∃ k, s = '_' :: str k

theorem sep_aux {str : Nat → Name} (hs : Digits str) {q q' : Name} (hq : Fine str q) (hq' : Fine str q') (k : Nat)
    (h : q = q' ++ '_' :: str k) : False := by
  rcases hq with ⟨_, a, x, rfl, hx⟩ | ⟨m, rfl⟩
  · have h1 := strip_digits a [] x hx (by simp)
    have h0 := strip_digits q' (str k) '_' (by decide) (hs.2 k).2
    rw [← h, h1, h] at h0
    have h2 : q' ++ ['_'] = q' ++ '_' :: str k := h0.symm
    have h3 := List.append_cancel_left h2
    exact (hs.2 k).1 (List.cons.inj h3).2.symm
  · have h1 := strip_digits "op".toList (str m) '_' (by decide) (hs.2 m).2
    rw [h, strip_digits q' (str k) '_' (by decide) (hs.2 k).2] at h1
    have h2 : q' = "op".toList := List.append_cancel_right h1
    rcases hq' with ⟨h3, _⟩ | ⟨n, h3⟩
    · exact h3 h2
    · rw [h2] at h3
      have h4 := congrArg List.length h3
      simp at h4

theorem sep {str : Nat → Name} (hs : Digits str) {q q' s s' : Name} (hq : Fine str q) (hq' : Fine str q')
    (h1 : Suffix str s) (h2 : Suffix str s') (h : q ++ s = q' ++ s') : q = q' ∧ s = s' := by
  rcases h1 with rfl | ⟨k, rfl⟩
  · rcases h2 with rfl | ⟨k', rfl⟩
    · exact ⟨by simpa using h, rfl⟩
    · exact (sep_aux hs hq hq' k' (by simpa using h)).elim
  · rcases h2 with rfl | ⟨k', rfl⟩
    · exact (sep_aux hs hq' hq k (by simpa using h.symm)).elim
    · have e := congrArg strip h
      rw [strip_digits q (str k) '_' (by decide) (hs.2 k).2, strip_digits q' (str k') '_' (by decide) (hs.2 k').2] at e
      have e1 : q = q' := List.append_cancel_right e
      subst e1
      exact ⟨rfl, List.append_cancel_left h⟩

variable {B V : Type}

/-- the suffix of a box -/
def suf (c : Conf B) (i : Nat) : Name := generateName c.str (!c.boxes.isEmpty) c.only [] i

theorem boxed_eq (c : Conf B) (q : Name) (i : Nat) : boxed c q i = q ++ suf c i := by
  unfold boxed suf generateName
  split
  · simp
  · split
    · simp
    · split <;> simp

theorem suf_suffix (c : Conf B) (i : Nat) : Suffix c.str (suf c i) := by
  unfold suf generateName
  split
  · exact Or.inl rfl
  · split
    · exact Or.inr ⟨_, rfl⟩
    · split
      · exact Or.inl rfl
      · exact Or.inr ⟨_, rfl⟩

theorem suf_inj (c : Conf B) (hs : Digits c.str) (i j : Nat) (hi : i < (boxFilters c.boxes c.only).length)
    (hj : j < (boxFilters c.boxes c.only).length) (h : suf c i = suf c j) : i = j :=
  Props.C69_names_distinct c.str hs.1 c.boxes c.only [] i j hi hj h

/-- names of columns for the whole domain -/
def plainNames : List Name :=
  ["step", "time", "dt", "n_dofs", "n_op", "n_grains", "n_newton_iter", "n_linear_iter", "n_resid_eval", "dim_x", "dim_y",
    "dim_z", "volume", "mesh_quality"].map String.toList

/-- names of columns for boxes in `advanced_output` -/
def advancedNames : List Name := ["control_box", "iso_surf_area", "iso_gb_area", "avg_coord_num"].map String.toList

theorem fine_of_last (str : Nat → Name) (q : Name) (h1 : q ≠ "op".toList)
    (h2 : (match q.getLast? with | some x => !x.isDigit | none => false) = true) : Fine str q := by
  refine Or.inl ⟨h1, ?_⟩
  cases hq : q.getLast? with
  | none => rw [hq] at h2; simp at h2
  | some x =>
    rw [hq] at h2
    obtain ⟨a, rfl⟩ := List.getLast?_eq_some_iff.1 hq
    exact ⟨a, x, rfl, by simpa using h2⟩

def lastOk (q : Name) : Bool :=
  q != "op".toList && (match q.getLast? with | some x => !x.isDigit | none => false)

theorem fine_of_mem (str : Nat → Name) {l : List Name} (hl : l.all lastOk = true) {q : Name} (hq : q ∈ l) : Fine str q := by
  have h := List.all_eq_true.1 hl q hq
  unfold lastOk at h
  rw [Bool.and_eq_true] at h
  exact fine_of_last str q (by simpa using h.1) h.2

theorem plain_ok : plainNames.all lastOk = true := by decide +kernel
theorem advanced_ok : advancedNames.all lastOk = true := by decide +kernel
theorem integral_ok : integralNames.all lastOk = true := by decide +kernel
theorem plain_nodup : plainNames.Nodup := by decide +kernel
theorem advanced_nodup : advancedNames.Nodup := by decide +kernel
theorem plain_advanced : ∀ q ∈ plainNames, q ∉ advancedNames := by decide +kernel
theorem plain_integral : ∀ q ∈ plainNames, q ∉ integralNames := by decide +kernel
theorem advanced_integral : ∀ q ∈ advancedNames, q ∉ integralNames := by decide +kernel

theorem accepted_fine {str : Nat → Name} {q : Name} (h : Accepted str q) : Fine str q := by
  rcases h with h | ⟨k, rfl⟩
  · exact fine_of_mem str integral_ok h
  · exact Or.inr ⟨k, rfl⟩

theorem last_op (str : Nat → Name) (hs : Digits str) (k : Nat) : lastOk ("op".toList ++ '_' :: str k) = false := by
  obtain ⟨h1, h2⟩ := hs.2 k
  have h3 : ("op".toList ++ '_' :: str k).getLast? = some ((str k).getLast h1) := by
    rw [List.getLast?_append, List.getLast?_cons, List.getLast?_eq_some_getLast h1]
    simp
  unfold lastOk
  rw [h3]
  have := h2 _ (List.getLast_mem h1)
  simp [this]

theorem not_accepted {str : Nat → Name} (hs : Digits str) {l : List Name} (hl : l.all lastOk = true)
    (hd : ∀ q ∈ l, q ∉ integralNames) {q : Name} (hq : q ∈ l) : ¬ Accepted str q := by
  rintro (h | ⟨k, rfl⟩)
  · exact hd q hq h
  · have := List.all_eq_true.1 hl _ hq
    rw [last_op str hs] at this
    simp at this

/-- columns before they get their names: the quantity, and the box -/
abbrev Key := Name × Option Nat

def render (c : Conf B) : Key → Name
  | (q, none) => q
  | (q, some i) => boxed c q i

def advancedKeys (c : Conf B) (empty : Bool) (f : Option B) (i : Nat) : List Key :=
  let add (on : Bool) (q : String) : List Key := if on then [(q.toList, some i)] else []
  add f.isSome "control_box" ++ add (c.isoSurf && c.hasConcentration) "iso_surf_area" ++
    add (c.isoGb && c.hasGrains) "iso_gb_area" ++ add (c.coordination && !empty) "avg_coord_num"

/-- the columns -/
def keys (c : Conf B) (empty : Bool) : List Key :=
  let filters := boxFilters c.boxes c.only
  [("step".toList, none), ("time".toList, none)] ++
    generalNames.map (fun q => (q, none)) ++
    (List.range filters.length).flatMap (fun i => c.integrals.map fun q => (q, some i)) ++
    (if c.shrinkage then (shrinkageNames c.dim).map (fun q => (q, none)) else []) ++
    (if c.qualityMin then [("mesh_quality".toList, none)] else []) ++
    filters.zipIdx.flatMap fun f => advancedKeys c empty f.1 f.2

/-- the value of a column -/
def valueOf (o : Obs V) (step time : V) (k : Key) : V :=
  if k = ("step".toList, none) then step else if k = ("time".toList, none) then time else o.value k.1 k.2

theorem valueOf_some (o : Obs V) (step time : V) (q : Name) (i : Nat) : valueOf o step time (q, some i) = o.value q (some i) := by
  unfold valueOf
  rw [if_neg (fun h => Option.noConfusion rfl (heq_of_eq (Prod.mk.inj h).2)), if_neg (fun h => Option.noConfusion rfl (heq_of_eq (Prod.mk.inj h).2))]

theorem valueOf_none (o : Obs V) (step time : V) (q : Name) (h1 : q ≠ "step".toList) (h2 : q ≠ "time".toList) :
    valueOf o step time (q, none) = o.value q none := by
  unfold valueOf
  rw [if_neg (fun h => h1 (Prod.mk.inj h).1), if_neg (fun h => h2 (Prod.mk.inj h).1)]

theorem advancedColumns_eq (c : Conf B) (o : Obs V) (step time : V) (f : Option B) (i : Nat) :
    advancedColumns c o f i = (advancedKeys c o.trackerEmpty f i).map fun k => (render c k, valueOf o step time k) := by
  unfold advancedColumns advancedKeys
  generalize "control_box".toList = s1
  generalize "iso_surf_area".toList = s2
  generalize "iso_gb_area".toList = s3
  generalize "avg_coord_num".toList = s4
  dsimp only
  simp only [List.map_append]
  refine congrArg₂ _ (congrArg₂ _ (congrArg₂ _ ?_ ?_) ?_) ?_ <;> split <;>
    rfl

theorem shrinkage_mem {dim : Nat} {q : Name} (hq : q ∈ shrinkageNames dim) :
    q ∈ (["dim_x", "dim_y", "dim_z", "volume"].map String.toList) := by
  unfold shrinkageNames at hq
  obtain ⟨a, ha, rfl⟩ := List.mem_map.1 hq
  refine List.mem_map_of_mem ?_
  rcases List.mem_append.1 ha with h | h
  · have := List.mem_of_mem_take h
    revert this; simp; tauto
  · revert h; simp; tauto

theorem general_ne : ∀ q ∈ generalNames, q ≠ "step".toList ∧ q ≠ "time".toList := by decide +kernel
theorem shrinkage_ne : ∀ q ∈ (["dim_x", "dim_y", "dim_z", "volume"].map String.toList),
    q ≠ "step".toList ∧ q ≠ "time".toList := by decide +kernel
theorem quality_ne : "mesh_quality".toList ≠ "step".toList ∧ "mesh_quality".toList ≠ "time".toList := by decide +kernel
theorem step_ne_time : "time".toList ≠ "step".toList := by decide +kernel

theorem columns_eq (c : Conf B) (o : Obs V) (step time : V) :
    columns c o step time = (keys c o.trackerEmpty).map fun k => (render c k, valueOf o step time k) := by
  unfold columns keys
  simp only [List.map_append, List.map_flatMap, List.map_map]
  refine congrArg₂ _ (congrArg₂ _ (congrArg₂ _ (congrArg₂ _ (congrArg₂ _ ?_ ?_) ?_) ?_) ?_) ?_
  · rw [List.map_cons, List.map_cons, List.map_nil]
    have h1 : valueOf o step time ("step".toList, none) = step := by unfold valueOf; rw [if_pos rfl]
    have h2 : valueOf o step time ("time".toList, none) = time := by
      unfold valueOf; rw [if_neg (fun h => step_ne_time (Prod.mk.inj h).1), if_pos rfl]
    rw [h1, h2]
    rfl
  · refine List.map_congr_left fun q hq => ?_
    show _ = (render c (q, none), valueOf o step time (q, none))
    rw [valueOf_none _ _ _ _ (general_ne q hq).1 (general_ne q hq).2]
    rfl
  · refine congrArg (fun g => List.flatMap g _) (funext fun i => List.map_congr_left fun q _ => ?_)
    show _ = (render c (q, some i), valueOf o step time (q, some i))
    rw [valueOf_some]
    rfl
  · split
    · rw [List.map_map]
      refine List.map_congr_left fun q hq => ?_
      have h := shrinkage_ne q (shrinkage_mem hq)
      show _ = (render c (q, none), valueOf o step time (q, none))
      rw [valueOf_none _ _ _ _ h.1 h.2]
      rfl
    · rfl
  · split
    · rw [List.map_cons, List.map_nil, valueOf_none _ _ _ _ quality_ne.1 quality_ne.2]
      rfl
    · rfl
  · exact congrArg (fun g => List.flatMap g _) (funext fun f => advancedColumns_eq c o step time f.1 f.2)

/-- columns that occur -/
def Valid (c : Conf B) : Key → Prop
  | (q, none) => q ∈ plainNames
  | (q, some i) => i < (boxFilters c.boxes c.only).length ∧ (Accepted c.str q ∨ q ∈ advancedNames)

theorem valid_fine (c : Conf B) {q : Name} (h : Accepted c.str q ∨ q ∈ advancedNames) : Fine c.str q := by
  rcases h with h | h
  · exact accepted_fine h
  · exact fine_of_mem _ advanced_ok h

theorem render_inj (c : Conf B) (hs : Digits c.str) : ∀ k, Valid c k → ∀ k', Valid c k' → render c k = render c k' → k = k' := by
  rintro ⟨q, i⟩ hk ⟨q', i'⟩ hk' h
  have key : ∀ (p r : Name) (j : Nat), p ∈ plainNames → Valid c (r, some j) → p = boxed c r j → False := by
    intro p r j hp hr e
    rw [boxed_eq] at e
    have e' : p ++ [] = r ++ suf c j := by simpa using e
    obtain ⟨e1, _⟩ := sep hs (fine_of_mem _ plain_ok hp) (valid_fine c hr.2) (Or.inl rfl) (suf_suffix c j) e'
    subst e1
    rcases hr.2 with h | h
    · exact not_accepted hs plain_ok plain_integral hp h
    · exact plain_advanced p hp h
  cases i with
  | none =>
    cases i' with
    | none => exact congrArg (fun x => (x, none)) h
    | some j => exact (key q q' j hk hk' h).elim
  | some i =>
    cases i' with
    | none => exact (key q' q i hk' hk h.symm).elim
    | some j =>
      change boxed c q i = boxed c q' j at h
      rw [boxed_eq, boxed_eq] at h
      obtain ⟨e1, e2⟩ := sep hs (valid_fine c hk.2) (valid_fine c hk'.2) (suf_suffix c i) (suf_suffix c j) h
      rw [e1, suf_inj c hs i j hk.1 hk'.1 e2]

theorem advancedKeys_sub (c : Conf B) (e : Bool) (f : Option B) (i : Nat) :
    List.Sublist (advancedKeys c e f i) (advancedNames.map fun q => (q, some i)) := by
  unfold advancedKeys advancedNames
  generalize "control_box" = s1
  generalize "iso_surf_area" = s2
  generalize "iso_gb_area" = s3
  generalize "avg_coord_num" = s4
  dsimp only
  have h : (List.map (fun q => (q, some i)) (List.map String.toList [s1, s2, s3, s4]) : List Key) =
      [(s1.toList, some i)] ++ [(s2.toList, some i)] ++ [(s3.toList, some i)] ++ [(s4.toList, some i)] := rfl
  rw [h]
  refine List.Sublist.append (List.Sublist.append (List.Sublist.append ?_ ?_) ?_) ?_ <;> split <;> simp

theorem general_plain : ∀ q ∈ generalNames, q ∈ plainNames := by decide +kernel
theorem shrinkage_plain : ∀ q ∈ (["dim_x", "dim_y", "dim_z", "volume"].map String.toList), q ∈ plainNames := by
  decide +kernel
theorem others_plain : "step".toList ∈ plainNames ∧ "time".toList ∈ plainNames ∧ "mesh_quality".toList ∈ plainNames := by
  decide +kernel

theorem mem_keys {c : Conf B} {e : Bool} (hi : ∀ q ∈ c.integrals, Accepted c.str q) :
    ∀ k ∈ keys c e, Valid c k := by
  intro k hk
  unfold keys at hk
  simp only [List.mem_append, List.mem_flatMap] at hk
  rcases hk with ((((hk | hk) | hk) | hk) | hk) | hk
  · rcases List.mem_cons.1 hk with rfl | hk
    · exact others_plain.1
    · rw [List.mem_singleton.1 hk]; exact others_plain.2.1
  · obtain ⟨q, hq, rfl⟩ := List.mem_map.1 hk
    exact general_plain q hq
  · obtain ⟨i, hi', hk⟩ := hk
    obtain ⟨q, hq, rfl⟩ := List.mem_map.1 hk
    exact ⟨List.mem_range.1 hi', Or.inl (hi q hq)⟩
  · split at hk
    · obtain ⟨q, hq, rfl⟩ := List.mem_map.1 hk
      exact shrinkage_plain q (shrinkage_mem hq)
    · simp at hk
  · split at hk
    · rw [List.mem_singleton.1 hk]; exact others_plain.2.2
    · simp at hk
  · obtain ⟨⟨f, i⟩, hf, hk⟩ := hk
    obtain ⟨q, hq, rfl⟩ := List.mem_map.1 ((advancedKeys_sub c e f i).subset hk)
    have := List.mem_zipIdx' hf
    exact ⟨this.1, Or.inr hq⟩

theorem front_nodup (dim : Nat) (a b : Bool) :
    ([("step".toList, none), ("time".toList, none)] ++ generalNames.map (fun q => (q, none)) ++
    (if a then (shrinkageNames dim).map (fun q => (q, none)) else []) ++
    (if b then [("mesh_quality".toList, none)] else []) : List Key).Nodup := by
  have h : ([("step".toList, none), ("time".toList, none)] ++ generalNames.map (fun q => (q, none)) ++
    (if a then (shrinkageNames dim).map (fun q => (q, none)) else []) ++
    (if b then [("mesh_quality".toList, none)] else []) : List Key).Sublist (plainNames.map fun q => (q, none)) := by
    have e : (plainNames.map fun q => (q, none) : List Key) =
      [("step".toList, none), ("time".toList, none)] ++ generalNames.map (fun q => (q, none)) ++
      ((["dim_x", "dim_y", "dim_z"] ++ ["volume"]).map String.toList).map (fun q => (q, none)) ++
      [("mesh_quality".toList, none)] := rfl
    rw [e]
    refine List.Sublist.append (List.Sublist.append (List.Sublist.refl _) ?_) ?_
    · split
      · refine List.Sublist.map _ (List.Sublist.map _ ?_)
        exact List.Sublist.append (List.take_sublist _ _) (List.Sublist.refl _)
      · exact List.nil_sublist _
    · split
      · exact List.Sublist.refl _
      · exact List.nil_sublist _
  refine h.nodup (List.Nodup.map ?_ plain_nodup)
  intro x y hxy
  exact (Prod.mk.inj hxy).1

theorem keys_nodup (c : Conf B) (hs : Digits c.str) (e : Bool) (hi : ∀ q ∈ c.integrals, Accepted c.str q)
    (hn : c.integrals.Nodup) : (keys c e).Nodup := by
  have hperm : (keys c e).Perm
      (([("step".toList, none), ("time".toList, none)] ++ generalNames.map (fun q => (q, none)) ++
        (if c.shrinkage then (shrinkageNames c.dim).map (fun q => (q, none)) else []) ++
        (if c.qualityMin then [("mesh_quality".toList, none)] else [])) ++
      ((List.range (boxFilters c.boxes c.only).length).flatMap (fun i => c.integrals.map fun q => (q, some i)) ++
        (boxFilters c.boxes c.only).zipIdx.flatMap fun f => advancedKeys c e f.1 f.2)) := by
    unfold keys
    dsimp only
    generalize ([("step".toList, none), ("time".toList, none)] : List Key) ++ generalNames.map (fun q => (q, none)) = A
    generalize ((List.range (boxFilters c.boxes c.only).length).flatMap
      (fun i => c.integrals.map fun q => (q, some i)) : List Key) = I
    generalize (if c.shrinkage then (shrinkageNames c.dim).map (fun q => (q, none)) else [] : List Key) = S
    generalize (if c.qualityMin then [("mesh_quality".toList, none)] else [] : List Key) = Q
    generalize ((boxFilters c.boxes c.only).zipIdx.flatMap fun f => advancedKeys c e f.1 f.2) = D
    simp only [List.append_assoc]
    refine List.Perm.append_left A ?_
    have h1 : (I ++ (S ++ (Q ++ D))).Perm ((S ++ Q) ++ (I ++ D)) := by
      have := (List.perm_append_comm (l₁ := I) (l₂ := S ++ Q)).append_right D
      simpa only [List.append_assoc] using this
    simpa only [List.append_assoc] using h1
  rw [hperm.nodup_iff, List.nodup_append]
  refine ⟨front_nodup _ _ _, ?_, ?_⟩
  · rw [List.nodup_append]
    refine ⟨?_, ?_, ?_⟩
    · rw [List.nodup_flatMap]
      refine ⟨fun i _ => hn.map fun x y hxy => (Prod.mk.inj hxy).1, ?_⟩
      refine List.Pairwise.imp ?_ List.nodup_range
      intro i j hij k hk hk'
      obtain ⟨q, _, rfl⟩ := List.mem_map.1 hk
      obtain ⟨q', _, h⟩ := List.mem_map.1 hk'
      exact hij (Option.some.inj (Prod.mk.inj h).2).symm
    · rw [List.nodup_flatMap]
      refine ⟨fun f _ => (advancedKeys_sub c e f.1 f.2).nodup (advanced_nodup.map fun x y hxy => (Prod.mk.inj hxy).1), ?_⟩
      have hz : List.Pairwise (fun a b : Option B × Nat => a.2 ≠ b.2) (boxFilters c.boxes c.only).zipIdx := by
        have h0 : ((boxFilters c.boxes c.only).zipIdx.map Prod.snd).Nodup := by
          rw [List.zipIdx_map_snd]; exact List.nodup_range'
        exact List.pairwise_map.1 h0
      refine List.Pairwise.imp ?_ hz
      intro f g hfg k hk hk'
      obtain ⟨q, _, rfl⟩ := List.mem_map.1 ((advancedKeys_sub c e f.1 f.2).subset hk)
      obtain ⟨q', _, h⟩ := List.mem_map.1 ((advancedKeys_sub c e g.1 g.2).subset hk')
      exact hfg (Option.some.inj (Prod.mk.inj h).2).symm
    · intro k hk k' hk' hkk
      subst hkk
      obtain ⟨i, _, hk⟩ := List.mem_flatMap.1 hk
      obtain ⟨q, hq, rfl⟩ := List.mem_map.1 hk
      obtain ⟨f, _, hk'⟩ := List.mem_flatMap.1 hk'
      obtain ⟨q', hq', h⟩ := List.mem_map.1 ((advancedKeys_sub c e f.1 f.2).subset hk')
      have : q' = q := (Prod.mk.inj h).1
      subst this
      exact not_accepted hs advanced_ok advanced_integral hq' (hi _ hq)
  · intro k hk k' hk' hkk
    subst hkk
    have h1 : k.2 = none := by
      simp only [List.mem_append] at hk
      rcases hk with ((hk | hk) | hk) | hk
      · rcases List.mem_cons.1 hk with rfl | hk
        · rfl
        · rw [List.mem_singleton.1 hk]
      · obtain ⟨q, hq, rfl⟩ := List.mem_map.1 hk; rfl
      · split at hk
        · obtain ⟨q, hq, rfl⟩ := List.mem_map.1 hk; rfl
        · simp at hk
      · split at hk
        · rw [List.mem_singleton.1 hk]
        · simp at hk
    have h2 : k.2 ≠ none := by
      rcases List.mem_append.1 hk' with hk' | hk'
      · obtain ⟨i, _, hk⟩ := List.mem_flatMap.1 hk'
        obtain ⟨q, hq, rfl⟩ := List.mem_map.1 hk
        exact Option.some_ne_none _
      · obtain ⟨f, _, hk'⟩ := List.mem_flatMap.1 hk'
        obtain ⟨q', hq', rfl⟩ := List.mem_map.1 ((advancedKeys_sub c e f.1 f.2).subset hk')
        exact Option.some_ne_none _
    exact h2 h1

theorem names_nodup (c : Conf B) (hs : Digits c.str) (e : Bool) (hi : ∀ q ∈ c.integrals, Accepted c.str q)
    (hn : c.integrals.Nodup) : ((keys c e).map (render c)).Nodup :=
  List.Nodup.map_on (fun k hk k' hk' h => render_inj c hs k (mem_keys hi k hk) k' (mem_keys hi k' hk') h)
    (keys_nodup c hs e hi hn)

theorem foldl_addValue (l : List (Name × V)) : ∀ t : Table V, (t.map Prod.fst ++ l.map Prod.fst).Nodup →
    l.foldl (fun t e => addValue t e.1 e.2) t = t ++ l.map fun e => (e.1, [e.2]) := by
  induction l with
  | nil => intro t _; simp
  | cons e l ih =>
    intro t h
    have h1 : (t.any fun c => c.1 == e.1) = false := by
      rw [List.any_eq_false]
      intro c hc hce
      have hce' : c.1 = e.1 := by simpa using hce
      rw [List.nodup_append] at h
      exact h.2.2 c.1 (List.mem_map_of_mem hc) e.1 (by simp) hce'
    rw [List.foldl_cons, addValue, h1, if_neg (by simp), ih]
    · simp
    · simpa using h

theorem table_eq (c : Conf B) (hs : Digits c.str) (hi : ∀ q ∈ c.integrals, Accepted c.str q)
    (hn : c.integrals.Nodup) (o : Obs V) (step time : V) :
    table c o step time = (keys c o.trackerEmpty).map fun k => (render c k, [valueOf o step time k]) := by
  have h : (columns c o step time).map Prod.fst = (keys c o.trackerEmpty).map (render c) := by
    rw [columns_eq, List.map_map]; rfl
  unfold table
  rw [foldl_addValue _ [] (by rw [h]; simpa using names_nodup c hs _ hi hn), columns_eq, List.map_map]
  rfl

theorem header_eq (c : Conf B) (hs : Digits c.str) (hi : ∀ q ∈ c.integrals, Accepted c.str q)
    (hn : c.integrals.Nodup) (o : Obs V) (step time : V) :
    (table c o step time).map Prod.fst = (keys c o.trackerEmpty).map (render c) := by
  rw [table_eq c hs hi hn, List.map_map]; rfl

theorem firstRow_eq (c : Conf B) (hs : Digits c.str) (hi : ∀ q ∈ c.integrals, Accepted c.str q)
    (hn : c.integrals.Nodup) (o : Obs V) (step time : V) :
    firstRow (table c o step time) = (keys c o.trackerEmpty).map (valueOf o step time) := by
  rw [table_eq c hs hi hn, firstRow, List.filterMap_map]
  rw [← List.filterMap_eq_map]
  rfl

variable {T : Type} [Zero T] [DecidableEq T]

theorem run_solution (c : Conf B) (F : Fmt T V) (es : List (Event T V)) : ∀ st : St T V,
    (∀ x ∈ outputs es, x.1 ≠ 0) → (∀ l t o, Event.debug l t o ∈ es → l ≠ .solution) →
    (∀ l t o, Event.failure l t o ∈ es → l ≠ .solution) →
    (es.foldl (event c F) st).file .solution = st.file .solution ++
      (outputs es).mapIdx fun k x => .row (firstRow (table c x.2 (F.nat (st.counter .solution + k)) (F.time x.1))) := by
  induction es with
  | nil => intro st _ _ _; simp [outputs]
  | cons e es ih =>
    intro st h0 h1 h2
    rw [List.foldl_cons]
    cases e with
    | solution t o =>
      rw [ih _ (fun x hx => h0 x (by rw [outputs]; exact List.mem_cons_of_mem _ hx))
        (fun l t o h => h1 l t o (List.mem_cons_of_mem _ h)) (fun l t o h => h2 l t o (List.mem_cons_of_mem _ h))]
      have ht : t ≠ 0 := h0 (t, o) (by rw [outputs]; exact List.mem_cons_self)
      have hc : (!c.debug && (Label.solution != .solution)) = false := by simp
      rw [outputs, List.mapIdx_cons]
      simp only [event, outputResult, hc, Bool.false_eq_true, if_false, if_true, writeTable]
      rw [if_neg ht]
      simp only [List.append_assoc, List.cons_append, List.nil_append, Nat.add_zero]
      refine congrArg₂ _ rfl (congrArg₂ _ rfl ?_)
      refine congrFun (congrArg _ (funext fun k => funext fun x => ?_)) _
      rw [show st.counter .solution + 1 + k = st.counter .solution + (k + 1) by omega]
    | debug l t o =>
      have hl : l ≠ .solution := h1 l t o List.mem_cons_self
      rw [ih _ (fun x hx => h0 x (by rw [outputs]; exact hx; simp)) (fun l t o h => h1 l t o (List.mem_cons_of_mem _ h))
        (fun l t o h => h2 l t o (List.mem_cons_of_mem _ h))]
      have hout : outputs (Event.debug l t o :: es) = outputs es := by rw [outputs]; simp
      rw [hout]
      simp only [event, outputResult]
      split
      · rfl
      · simp only [if_neg hl.symm]
    | failure l t o =>
      have hl : l ≠ .solution := h2 l t o List.mem_cons_self
      rw [ih _ (fun x hx => h0 x (by rw [outputs]; exact hx; simp)) (fun l t o h => h1 l t o (List.mem_cons_of_mem _ h))
        (fun l t o h => h2 l t o (List.mem_cons_of_mem _ h))]
      have hout : outputs (Event.failure l t o :: es) = outputs es := by rw [outputs]; simp
      rw [hout]
      simp only [event, outputResult]
      split
      · rfl
      · simp only [if_neg hl.symm]

end Verif.OutputTable
