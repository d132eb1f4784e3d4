import Verif.Model.Components
/-! `ccExec` meets the contract of connected components. -/
namespace Verif

theorem Linked.refl {E : List (Nat × Nat)} (a : Nat) : Linked E a a := Relation.EqvGen.refl a
theorem Linked.symm {E : List (Nat × Nat)} {a b : Nat} (h : Linked E a b) : Linked E b a :=
  Relation.EqvGen.symm _ _ h
theorem Linked.trans {E : List (Nat × Nat)} {a b c : Nat} (h : Linked E a b) (h' : Linked E b c) :
    Linked E a c := Relation.EqvGen.trans _ _ _ h h'
theorem Linked.edge {E : List (Nat × Nat)} {a b : Nat} (h : (a, b) ∈ E) : Linked E a b :=
  Relation.EqvGen.rel _ _ h
theorem Linked.mono {E F : List (Nat × Nat)} (hEF : ∀ e ∈ E, e ∈ F) {a b : Nat} (h : Linked E a b) :
    Linked F a b := by
  induction h with
  | rel a b h => exact Relation.EqvGen.rel _ _ (hEF _ h)
  | refl a => exact Relation.EqvGen.refl a
  | symm _ _ _ ih => exact Relation.EqvGen.symm _ _ ih
  | trans _ _ _ _ _ ih1 ih2 => exact Relation.EqvGen.trans _ _ _ ih1 ih2

/-- a function constant on edges is constant on linked vertices -/
theorem Linked.lift {E : List (Nat × Nat)} {α : Sort _} (f : Nat → α)
    (hf : ∀ a b, (a, b) ∈ E → f a = f b) {a b : Nat} (h : Linked E a b) : f a = f b := by
  induction h with
  | rel a b h => exact hf a b h
  | refl => rfl
  | symm _ _ _ ih => exact ih.symm
  | trans _ _ _ _ _ ih1 ih2 => exact ih1.trans ih2

theorem Linked.congr {E F : List (Nat × Nat)} (h : ∀ e, e ∈ E ↔ e ∈ F) {a b : Nat} :
    Linked E a b ↔ Linked F a b :=
  ⟨Linked.mono fun e he => (h e).1 he, Linked.mono fun e he => (h e).2 he⟩

/-- labelling seen as a total function -/
def labF (lab : List Nat) (v : Nat) : Nat := lab.getD v v

structure LabInv (n : Nat) (E : List (Nat × Nat)) (lab : List Nat) : Prop where
  length : lab.length = n
  lt : ∀ v, v < n → labF lab v < n
  idem : ∀ v, labF lab (labF lab v) = labF lab v
  iff : ∀ v w, labF lab v = labF lab w ↔ Linked E v w

theorem labF_of_ge {lab : List Nat} {v : Nat} (h : lab.length ≤ v) : labF lab v = v := by
  simp [labF, List.getD, List.getElem?_eq_none h]

theorem labF_merge {n : Nat} {E : List (Nat × Nat)} {lab : List Nat} (hI : LabInv n E lab)
    {e : Nat × Nat} (he : e.1 < n ∧ e.2 < n) (v : Nat) :
    labF (mergeEdge lab e) v = if labF lab v = labF lab e.2 then labF lab e.1 else labF lab v := by
  by_cases hv : v < lab.length
  · simp [labF, mergeEdge, List.getD, List.getElem?_map, List.getElem?_eq_getElem hv]
    rfl
  · have hv' : lab.length ≤ v := by omega
    rw [labF_of_ge (by simp [mergeEdge]; omega), labF_of_ge hv', if_neg]
    intro h
    have := hI.lt e.2 he.2
    have := hI.length
    omega

theorem labInv_merge {n : Nat} {E : List (Nat × Nat)} {lab : List Nat} (hI : LabInv n E lab)
    {e : Nat × Nat} (he : e.1 < n ∧ e.2 < n) : LabInv n (E ++ [e]) (mergeEdge lab e) := by
  have hm := labF_merge hI he
  refine ⟨by simp [mergeEdge, hI.length], ?_, ?_, ?_⟩
  · intro v hv
    rw [hm]
    split
    · exact hI.lt _ he.1
    · exact hI.lt _ hv
  · intro v
    rw [hm v]
    split
    · rw [hm, hI.idem]
      split <;> rfl
    · rename_i h
      rw [hm, hI.idem, if_neg h]
  · intro v w
    have mono : ∀ {a b}, Linked E a b → Linked (E ++ [e]) a b :=
      fun h => Linked.mono (fun x hx => by simp [hx]) h
    have edge : Linked (E ++ [e]) e.1 e.2 := Linked.edge (by simp)
    constructor
    · intro h
      rw [hm v, hm w] at h
      split at h <;> split at h
      · rename_i h1 h2
        exact mono ((hI.iff v w).1 (h1.trans h2.symm))
      · rename_i h1 h2
        exact (mono ((hI.iff v e.2).1 h1)).trans (edge.symm.trans (mono ((hI.iff e.1 w).1 h)))
      · rename_i h1 h2
        exact (mono ((hI.iff v e.1).1 h)).trans (edge.trans (mono ((hI.iff e.2 w).1 h2.symm)))
      · exact mono ((hI.iff v w).1 h)
    · intro h
      refine Linked.lift (labF (mergeEdge lab e)) ?_ h
      intro a b hab
      rcases List.mem_append.1 hab with hab | hab
      · have := (hI.iff a b).2 (Linked.edge hab)
        rw [hm, hm, this]
      · simp at hab
        subst hab
        rw [hm, hm]
        simp

theorem labInv_fold {n : Nat} (edges : List (Nat × Nat)) (he : ∀ e ∈ edges, e.1 < n ∧ e.2 < n) :
    LabInv n edges (edges.foldl mergeEdge (List.range n)) := by
  suffices H : ∀ (l pre : List (Nat × Nat)) (lab : List Nat), (∀ e ∈ l, e.1 < n ∧ e.2 < n) →
      LabInv n pre lab → LabInv n (pre ++ l) (l.foldl mergeEdge lab) by
    have := H edges [] (List.range n) he ⟨by simp, ?_, ?_, ?_⟩
    · simpa using this
    · intro v hv; simp [labF, List.getD, hv]
    · intro v
      have : ∀ v, labF (List.range n) v = v := by
        intro v
        by_cases hv : v < n
        · simp [labF, List.getD, hv]
        · exact labF_of_ge (by simp; omega)
      simp [this]
    · intro v w
      have : ∀ v, labF (List.range n) v = v := by
        intro v
        by_cases hv : v < n
        · simp [labF, List.getD, hv]
        · exact labF_of_ge (by simp; omega)
      rw [this, this]
      constructor
      · rintro rfl; exact Linked.refl _
      · intro h; exact Linked.lift (fun x => x) (by simp) h
  intro l
  induction l with
  | nil => intro pre lab _ h; simpa using h
  | cons e l ih =>
    intro pre lab he h
    have := ih (pre ++ [e]) (mergeEdge lab e) (fun x hx => he x (by simp [hx]))
      (labInv_merge h (he e (by simp)))
    simpa using this

theorem ccExec_contract : CCContract ccExec := by
  intro n edges he
  have hI := labInv_fold edges he
  have hl := hI.length
  generalize hlab : edges.foldl mergeEdge (List.range n) = lab at hI hl
  have hrep : ∀ v, v ∈ (List.range n).filter (fun v => lab.getD v v = v) ↔ v < n ∧ labF lab v = v := by
    intro v; simp [labF]
  have hget : ∀ (v a : Nat), lab[v]? = some a → v < n ∧ labF lab v = a := by
    intro v a h
    obtain ⟨hv, h2⟩ := List.getElem?_eq_some_iff.1 h
    exact ⟨by omega, by simp [labF, List.getD, h]⟩
  have hmem : ∀ v, v < n → labF lab v ∈ (List.range n).filter (fun v => lab.getD v v = v) := by
    intro v hv
    rw [hrep]
    exact ⟨hI.lt v hv, hI.idem v⟩
  have hinj : ∀ (a b : Nat), a ∈ (List.range n).filter (fun v => lab.getD v v = v) →
      ((List.range n).filter (fun v => lab.getD v v = v)).idxOf a =
      ((List.range n).filter (fun v => lab.getD v v = v)).idxOf b → a = b := by
    intro a b ha hab
    have h1 := List.idxOf_lt_length_of_mem ha
    have e1 := List.getElem_idxOf h1
    have h2 := h1
    rw [hab] at h2
    have e2 := List.getElem_idxOf h2
    rw [← e1, ← e2]
    simp only [hab]
  unfold ccExec
  simp only [hlab]
  constructor
  · simp [hl]
  · intro v l h
    rw [List.getElem?_map] at h
    obtain ⟨a, h1, rfl⟩ := Option.map_eq_some_iff.1 h
    obtain ⟨h2, rfl⟩ := hget v a h1
    exact List.idxOf_lt_length_of_mem (hmem v h2)
  · intro l hl'
    have hnd : ((List.range n).filter (fun v => lab.getD v v = v)).Nodup :=
      List.Nodup.sublist List.filter_sublist List.nodup_range
    obtain ⟨r, hr⟩ : ∃ r, ((List.range n).filter (fun v => lab.getD v v = v))[l]? = some r :=
      ⟨_, List.getElem?_eq_getElem hl'⟩
    obtain ⟨h1, h2⟩ := (hrep r).1 (List.mem_of_getElem? hr)
    refine ⟨r, ?_⟩
    have hv : r < lab.length := by omega
    have h3 : lab[r] = r := by
      have : labF lab r = lab[r] := by simp [labF, List.getD, hv]
      rw [← this, h2]
    rw [List.getElem?_map, List.getElem?_eq_getElem hv, h3]
    simp only [Option.map_some, Option.some.injEq]
    have := List.getElem?_eq_some_iff.1 hr
    rw [← this.2]
    exact hnd.idxOf_getElem l hl'
  · intro v w a b ha hb
    rw [List.getElem?_map] at ha hb
    obtain ⟨a', h1, rfl⟩ := Option.map_eq_some_iff.1 ha
    obtain ⟨b', h2, rfl⟩ := Option.map_eq_some_iff.1 hb
    obtain ⟨h3, rfl⟩ := hget v a' h1
    obtain ⟨h4, rfl⟩ := hget w b' h2
    rw [← hI.iff]
    constructor
    · exact hinj _ _ (hmem v h3)
    · intro h; rw [h]

example : ccExec 6 [(0, 3), (3, 5), (1, 2)] = ([0, 1, 1, 0, 2, 0], 3) := by decide

end Verif
