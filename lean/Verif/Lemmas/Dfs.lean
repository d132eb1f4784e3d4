import Mathlib.Data.List.Basic
import Mathlib.Data.List.Perm.Subperm
import Mathlib.Data.List.Nodup
import Verif.Model.Remap
/-!
# The back edges of a depth first search meet `BackContract`
-/
namespace Verif

theorem dfsEdges_cons (outOrd : List Move → List Move) (edges : List Move) (fuel : Nat) (e : Move)
    (l : List Move) (s : DfsState) : dfsEdges outOrd edges fuel (e :: l) s =
    dfsEdges outOrd edges fuel l
      (if e.dst ∈ s.fin then s
       else if e.dst ∈ s.gray then { s with back := s.back ++ [e] }
       else dfsVisit outOrd edges fuel e.dst s) := rfl

theorem dfsVisit_succ (outOrd : List Move → List Move) (edges : List Move) (fuel : Nat) (v : Nat)
    (s : DfsState) : dfsVisit outOrd edges (fuel + 1) v s =
    (let s' := dfsEdges outOrd edges fuel (outOrd (edges.filter (fun e => e.src == v)))
      { s with gray := v :: s.gray }
    { s' with gray := s.gray, fin := s'.fin ++ [v] }) := rfl

theorem Reach.trans {es : List Move} {a b c : Nat} (h1 : Reach es a b) (h2 : Reach es b c) :
    Reach es a c := by
  induction h2 with
  | refl => exact h1
  | step _ he ih => exact Reach.step ih he

theorem Reach.single {es : List Move} {e : Move} (h : e ∈ es) : Reach es e.src e.dst :=
  Reach.step (Reach.refl _) h

/-- invariant of the search -/
structure DfsInv (vs : List Nat) (es : List Move) (s : DfsState) : Prop where
  gnd : s.gray.Nodup
  gsub : ∀ v ∈ s.gray, v ∈ vs
  fnd : s.fin.Nodup
  disj : ∀ v ∈ s.fin, v ∉ s.gray
  order : ∀ (i : Nat) (w : Nat), s.fin[i]? = some w → ∀ e ∈ es, e.src = w →
    e ∈ s.back ∨ ∃ j, j < i ∧ s.fin[j]? = some e.dst
  bsub : ∀ e ∈ s.back, e ∈ es ∧ Reach es e.dst e.src
  bsrc : ∀ e ∈ s.back, e.src ∈ s.fin ∨ e.src ∈ s.gray

/-- what a visit adds -/
structure DfsExt (es : List Move) (s s' : DfsState) (nf : List Nat) (nb : List Move) : Prop where
  gray : s'.gray = s.gray
  fin : s'.fin = s.fin ++ nf
  back : s'.back = s.back ++ nb

theorem order_mono {fin nf : List Nat} {i x : Nat} (h : fin[i]? = some x) :
    (fin ++ nf)[i]? = some x := by
  have := (List.getElem?_eq_some_iff.1 h).1
  rw [List.getElem?_append_left this]; exact h

theorem dfs_main {outOrd : List Move → List Move} (hord : ∀ l, List.Perm (outOrd l) l)
    {vs : List Nat} {es : List Move} (hes : ∀ e ∈ es, e.src ∈ vs ∧ e.dst ∈ vs) (end_ : es.Nodup) :
    ∀ fuel : Nat,
    (∀ (v : Nat) (s : DfsState), DfsInv vs es s → v ∈ vs → v ∉ s.gray → v ∉ s.fin →
      (∀ g ∈ s.gray, Reach es g v) → vs.length + 1 ≤ s.gray.length + fuel →
      ∃ nf nb, DfsExt es s (dfsVisit outOrd es fuel v s) nf nb ∧
        DfsInv vs es (dfsVisit outOrd es fuel v s) ∧ v ∈ nf ∧ (∀ b ∈ nb, b.src ∈ nf) ∧ nb.Nodup) ∧
    (∀ (l : List Move) (v : Nat) (rest : List Nat) (s : DfsState), DfsInv vs es s →
      s.gray = v :: rest → l.Nodup → (∀ e ∈ l, e ∈ es ∧ e.src = v ∧ e ∉ s.back) →
      (∀ g ∈ s.gray, Reach es g v) → vs.length + 1 ≤ s.gray.length + fuel →
      ∃ nf nb, DfsExt es s (dfsEdges outOrd es fuel l s) nf nb ∧
        DfsInv vs es (dfsEdges outOrd es fuel l s) ∧ (∀ b ∈ nb, b.src ∈ nf ∨ b ∈ l) ∧ nb.Nodup ∧
        ∀ e ∈ l, e ∈ s.back ++ nb ∨ e.dst ∈ s.fin ++ nf) := by
  -- the loop over edges from the visit with the same fuel
  have hE : ∀ fuel : Nat,
      (∀ (v : Nat) (s : DfsState), DfsInv vs es s → v ∈ vs → v ∉ s.gray → v ∉ s.fin →
        (∀ g ∈ s.gray, Reach es g v) → vs.length + 1 ≤ s.gray.length + fuel →
        ∃ nf nb, DfsExt es s (dfsVisit outOrd es fuel v s) nf nb ∧
          DfsInv vs es (dfsVisit outOrd es fuel v s) ∧ v ∈ nf ∧ (∀ b ∈ nb, b.src ∈ nf) ∧
          nb.Nodup) →
      (∀ (l : List Move) (v : Nat) (rest : List Nat) (s : DfsState), DfsInv vs es s →
        s.gray = v :: rest → l.Nodup → (∀ e ∈ l, e ∈ es ∧ e.src = v ∧ e ∉ s.back) →
        (∀ g ∈ s.gray, Reach es g v) → vs.length + 1 ≤ s.gray.length + fuel →
        ∃ nf nb, DfsExt es s (dfsEdges outOrd es fuel l s) nf nb ∧
          DfsInv vs es (dfsEdges outOrd es fuel l s) ∧ (∀ b ∈ nb, b.src ∈ nf ∨ b ∈ l) ∧ nb.Nodup ∧
          ∀ e ∈ l, e ∈ s.back ++ nb ∨ e.dst ∈ s.fin ++ nf) := by
    intro fuel hV l
    induction l with
    | nil =>
      intro v rest s hI hg _ _ _ _
      refine ⟨[], [], ⟨?_, ?_, ?_⟩, ?_, by simp, List.nodup_nil, by simp⟩
      · simp [dfsEdges]
      · simp [dfsEdges]
      · simp [dfsEdges]
      · simpa [dfsEdges] using hI
    | cons e l ih =>
      intro v rest s hI hg hnd hl hr hf
      rw [List.nodup_cons] at hnd
      obtain ⟨hee, hev, heb⟩ := hl e (by simp)
      have hvg : v ∈ s.gray := by rw [hg]; simp
      rw [dfsEdges_cons]
      by_cases h1 : e.dst ∈ s.fin
      · rw [if_pos h1]
        obtain ⟨nf, nb, x1, x2, x3, x4, x5⟩ := ih v rest s hI hg hnd.2
          (fun e' he' => hl e' (by simp [he'])) hr hf
        refine ⟨nf, nb, x1, x2, ?_, x4, ?_⟩
        · intro b hb; rcases x3 b hb with h | h
          · exact Or.inl h
          · exact Or.inr (by simp [h])
        · intro e' he'
          rcases List.mem_cons.1 he' with rfl | he'
          · right; simp [h1]
          · exact x5 e' he'
      · rw [if_neg h1]
        by_cases h2 : e.dst ∈ s.gray
        · rw [if_pos h2]
          have hI' : DfsInv vs es { s with back := s.back ++ [e] } := by
            refine ⟨hI.gnd, hI.gsub, hI.fnd, hI.disj, ?_, ?_, ?_⟩
            · intro i w hi e' he' hw
              rcases hI.order i w hi e' he' hw with h | h
              · left; simp [h]
              · exact Or.inr h
            · intro b hb
              rcases List.mem_append.1 hb with h | h
              · exact hI.bsub b h
              · simp at h; subst h
                exact ⟨hee, by rw [hev]; exact hr _ h2⟩
            · intro b hb
              rcases List.mem_append.1 hb with h | h
              · exact hI.bsrc b h
              · simp at h; subst h
                right; rw [hev]; exact hvg
          obtain ⟨nf, nb, x1, x2, x3, x4, x5⟩ := ih v rest { s with back := s.back ++ [e] } hI' hg
            hnd.2 (fun e' he' => by
              obtain ⟨a, b, c⟩ := hl e' (by simp [he'])
              refine ⟨a, b, ?_⟩
              simp only [List.mem_append, List.mem_singleton, not_or]
              exact ⟨c, fun h => hnd.1 (h ▸ he')⟩) hr hf
          refine ⟨nf, e :: nb, ⟨x1.gray, x1.fin, by rw [x1.back]; simp⟩, x2, ?_, ?_, ?_⟩
          · intro b hb
            rcases List.mem_cons.1 hb with rfl | hb
            · right; simp
            · rcases x3 b hb with h | h
              · exact Or.inl h
              · exact Or.inr (by simp [h])
          · rw [List.nodup_cons]
            refine ⟨?_, x4⟩
            intro hmem
            rcases x3 e hmem with h | h
            · -- e.src would be finished although it is on the stack
              have hfin : e.src ∈ (dfsEdges outOrd es fuel l { s with back := s.back ++ [e] }).fin := by
                rw [x1.fin]; simp [h]
              have := x2.disj _ hfin
              rw [x1.gray] at this
              rw [hev] at this
              exact this hvg
            · exact hnd.1 h
          · intro e' he'
            rcases List.mem_cons.1 he' with rfl | he'
            · left; simp
            · rcases x5 e' he' with h | h
              · left; simpa using h
              · right; exact h
        · rw [if_neg h2]
          obtain ⟨nf1, nb1, y1, y2, y3, y4, y5⟩ := hV e.dst s hI (hes e hee).2 h2 h1
            (fun g hgg => Reach.trans (hr g hgg) (by rw [← hev]; exact Reach.single hee)) hf
          obtain ⟨nf, nb, x1, x2, x3, x4, x5⟩ := ih v rest (dfsVisit outOrd es fuel e.dst s) y2
            (by rw [y1.gray]; exact hg) hnd.2 (fun e' he' => by
              obtain ⟨a, b, c⟩ := hl e' (by simp [he'])
              refine ⟨a, b, ?_⟩
              rw [y1.back]
              simp only [List.mem_append, not_or]
              refine ⟨c, fun h => ?_⟩
              have h' : e'.src ∈ (dfsVisit outOrd es fuel e.dst s).fin := by
                rw [y1.fin]; simp [y4 e' h]
              have := y2.disj _ h'
              rw [y1.gray, b] at this
              exact this hvg) (by rw [y1.gray]; exact hr) (by rw [y1.gray]; exact hf)
          refine ⟨nf1 ++ nf, nb1 ++ nb, ⟨x1.gray.trans y1.gray, ?_, ?_⟩, x2, ?_, ?_, ?_⟩
          · rw [x1.fin, y1.fin]; simp
          · rw [x1.back, y1.back]; simp
          · intro b hb
            rcases List.mem_append.1 hb with h | h
            · left; simp [y4 b h]
            · rcases x3 b h with h | h
              · left; simp [h]
              · right; simp [h]
          · rw [List.nodup_append]
            refine ⟨y5, x4, ?_⟩
            intro a ha b hb hab
            subst hab
            have hf1 : a.src ∈ nf1 := y4 a ha
            rcases x3 a hb with h | h
            · have := x2.fnd
              rw [x1.fin, y1.fin, List.nodup_append] at this
              exact this.2.2 a.src (by simp [hf1]) a.src h rfl
            · have hsrc := (hl a (by simp [h])).2.1
              have h' : a.src ∈ (dfsVisit outOrd es fuel e.dst s).fin := by
                rw [y1.fin]; simp [hf1]
              have := y2.disj _ h'
              rw [y1.gray, hsrc] at this
              exact this hvg
          · intro e' he'
            rcases List.mem_cons.1 he' with rfl | he'
            · right; simp [y3]
            · rcases x5 e' he' with h | h
              · left; rw [y1.back] at h; simpa using h
              · right; rw [y1.fin] at h; simpa using h
  intro fuel
  induction fuel with
  | zero =>
    have hV0 : ∀ (v : Nat) (s : DfsState), DfsInv vs es s → v ∈ vs → v ∉ s.gray → v ∉ s.fin →
      (∀ g ∈ s.gray, Reach es g v) → vs.length + 1 ≤ s.gray.length + 0 →
      ∃ nf nb, DfsExt es s (dfsVisit outOrd es 0 v s) nf nb ∧
        DfsInv vs es (dfsVisit outOrd es 0 v s) ∧ v ∈ nf ∧ (∀ b ∈ nb, b.src ∈ nf) ∧ nb.Nodup := by
      intro v s hI _ _ _ _ hf
      exfalso
      have := (List.Nodup.subperm hI.gnd (fun x hx => hI.gsub x hx)).length_le
      omega
    exact ⟨hV0, hE 0 hV0⟩
  | succ fuel ih =>
    have hV1 : ∀ (v : Nat) (s : DfsState), DfsInv vs es s → v ∈ vs → v ∉ s.gray → v ∉ s.fin →
      (∀ g ∈ s.gray, Reach es g v) → vs.length + 1 ≤ s.gray.length + (fuel + 1) →
      ∃ nf nb, DfsExt es s (dfsVisit outOrd es (fuel + 1) v s) nf nb ∧
        DfsInv vs es (dfsVisit outOrd es (fuel + 1) v s) ∧ v ∈ nf ∧ (∀ b ∈ nb, b.src ∈ nf) ∧
        nb.Nodup := by
      intro v s hI hv hvg hvf hr hf
      have hI' : DfsInv vs es { s with gray := v :: s.gray } := by
        refine ⟨List.nodup_cons.2 ⟨hvg, hI.gnd⟩, ?_, hI.fnd, ?_, hI.order, hI.bsub, ?_⟩
        · intro x hx
          rcases List.mem_cons.1 hx with rfl | hx
          · exact hv
          · exact hI.gsub x hx
        · intro x hx hx'
          rcases List.mem_cons.1 hx' with rfl | hx'
          · exact hvf hx
          · exact hI.disj x hx hx'
        · intro b hb
          rcases hI.bsrc b hb with h | h
          · exact Or.inl h
          · right; simp [h]
      have hperm := hord (es.filter (fun e => e.src == v))
      obtain ⟨nf, nb, x1, x2, x3, x4, x5⟩ := ih.2 (outOrd (es.filter (fun e => e.src == v))) v s.gray
        { s with gray := v :: s.gray } hI' rfl (hperm.nodup_iff.2 (List.Nodup.filter _ end_))
        (by
          intro e he
          have := hperm.mem_iff.1 he
          simp only [List.mem_filter, beq_iff_eq] at this
          refine ⟨this.1, this.2, ?_⟩
          intro hb
          rcases hI.bsrc e hb with h | h
          · rw [this.2] at h; exact hvf h
          · rw [this.2] at h; exact hvg h)
        (by
          intro g hg
          rcases List.mem_cons.1 hg with rfl | hg
          · exact Reach.refl _
          · exact hr g hg)
        (by simp only [List.length_cons]; omega)
      rw [dfsVisit_succ]
      generalize dfsEdges outOrd es fuel (outOrd (es.filter (fun e => e.src == v)))
        { s with gray := v :: s.gray } = s' at x1 x2
      have hvs' : v ∉ s'.fin := by
        intro h
        have := x2.disj v h
        rw [x1.gray] at this
        simp at this
      refine ⟨nf ++ [v], nb, ⟨rfl, ?_, ?_⟩, ?_, by simp, ?_, x4⟩
      · simp [x1.fin]
      · exact x1.back
      · refine ⟨hI.gnd, hI.gsub, ?_, ?_, ?_, x2.bsub, ?_⟩
        · simp only
          rw [List.nodup_append]
          refine ⟨x2.fnd, by simp, ?_⟩
          intro a ha b hb hab
          simp at hb; subst hb; subst hab; exact hvs' ha
        · intro x hx hx'
          simp only at hx hx'
          rcases List.mem_append.1 hx with h | h
          · have := x2.disj x h
            rw [x1.gray] at this
            exact this (by simp [hx'])
          · simp at h; subst h; exact hvg hx'
        · intro i w hi e he hw
          simp only at hi
          by_cases hil : i < s'.fin.length
          · rw [List.getElem?_append_left hil] at hi
            rcases x2.order i w hi e he hw with h | ⟨j, h1, h2⟩
            · exact Or.inl h
            · exact Or.inr ⟨j, h1, order_mono h2⟩
          · rw [List.getElem?_append_right (Nat.le_of_not_lt hil)] at hi
            have hi0 : i - s'.fin.length = 0 := by
              by_contra hc
              rw [List.getElem?_eq_none (by simp; omega)] at hi
              simp at hi
            rw [hi0] at hi
            simp at hi
            subst hi
            have hmem : e ∈ outOrd (es.filter (fun e => e.src == v)) :=
              hperm.mem_iff.2 (by simp [he, hw])
            rcases x5 e hmem with h | h
            · left; simp only; rw [x1.back]; exact h
            · right
              have h' : e.dst ∈ s'.fin := by rw [x1.fin]; exact h
              obtain ⟨j, hj⟩ := List.mem_iff_getElem?.1 h'
              have hjl := (List.getElem?_eq_some_iff.1 hj).1
              exact ⟨j, by omega, order_mono hj⟩
        · intro b hb
          rcases x2.bsrc b hb with h | h
          · left; simp [h]
          · rw [x1.gray] at h
            rcases List.mem_cons.1 h with h | h
            · left; simp [h]
            · exact Or.inr h
      · intro b hb
        rcases x3 b hb with h | h
        · simp [h]
        · have := hperm.mem_iff.1 h
          simp only [List.mem_filter, beq_iff_eq] at this
          simp [this.2]
    exact ⟨hV1, hE (fuel + 1) hV1⟩

/-- result of the whole search -/
theorem dfs_all {outOrd : List Move → List Move} (hord : ∀ l, List.Perm (outOrd l) l)
    {vs : List Nat} {es : List Move} (hes : ∀ e ∈ es, e.src ∈ vs ∧ e.dst ∈ vs) (end_ : es.Nodup) :
    ∀ (l : List Nat) (s : DfsState), (∀ v ∈ l, v ∈ vs) → DfsInv vs es s → s.gray = [] →
      s.back.Nodup →
      let s' := l.foldl (fun s v => if v ∈ s.fin then s else dfsVisit outOrd es (vs.length + 1) v s) s
      DfsInv vs es s' ∧ s'.gray = [] ∧ s'.back.Nodup ∧ (∀ v ∈ s.fin, v ∈ s'.fin) ∧
        ∀ v ∈ l, v ∈ s'.fin
  | [], s, _, hI, hg, hb => ⟨hI, hg, hb, fun _ h => h, by simp⟩
  | v :: l, s, hl, hI, hg, hb => by
    simp only [List.foldl_cons]
    by_cases hv : v ∈ s.fin
    · rw [if_pos hv]
      obtain ⟨a, b, c, d, e⟩ := dfs_all hord hes end_ l s (fun v h => hl v (by simp [h])) hI hg hb
      refine ⟨a, b, c, d, ?_⟩
      intro w hw
      rcases List.mem_cons.1 hw with rfl | hw
      · exact d _ hv
      · exact e w hw
    · rw [if_neg hv]
      obtain ⟨nf, nb, x1, x2, x3, x4, x5⟩ := (dfs_main hord hes end_ (vs.length + 1)).1 v s hI
        (hl v (by simp)) (by rw [hg]; simp) hv (by rw [hg]; simp) (by omega)
      have hbnd : (dfsVisit outOrd es (vs.length + 1) v s).back.Nodup := by
        rw [x1.back, List.nodup_append]
        refine ⟨hb, x5, ?_⟩
        intro a ha b hbb hab
        subst hab
        have h1 := x4 a hbb
        have h2 : a.src ∈ s.fin := by
          rcases hI.bsrc a ha with h | h
          · exact h
          · rw [hg] at h; simp at h
        have := x2.fnd
        rw [x1.fin, List.nodup_append] at this
        exact this.2.2 _ h2 _ h1 rfl
      obtain ⟨a, b, c, d, e⟩ := dfs_all hord hes end_ l (dfsVisit outOrd es (vs.length + 1) v s)
        (fun v h => hl v (by simp [h])) x2 (x1.gray.trans hg) hbnd
      have hin : v ∈ (dfsVisit outOrd es (vs.length + 1) v s).fin := by rw [x1.fin]; simp [x3]
      refine ⟨a, b, c, ?_, ?_⟩
      · intro w hw
        exact d w (by rw [x1.fin]; simp [hw])
      · intro w hw
        rcases List.mem_cons.1 hw with rfl | hw
        · exact d _ hin
        · exact e w hw

/-- **The back edges of the depth first search meet the contract**, whatever the order in which the
out-edges of a vertex are visited. -/
theorem dfsBack_contract {outOrd : List Move → List Move} (hord : ∀ l, List.Perm (outOrd l) l) :
    BackContract (dfsBack outOrd) := by
  intro vs es hvs hend hes
  obtain ⟨a, b, c, -, e⟩ := dfs_all hord hes hend vs ⟨[], [], []⟩ (fun _ h => h)
    ⟨by simp, by simp, by simp, by simp, by simp, by simp, by simp⟩ rfl (by simp)
  refine ⟨fun x hx => (a.bsub x hx).1, c, ?_, fun x hx => (a.bsub x hx).2⟩
  have hdb : dfsBack outOrd vs es = (vs.foldl (fun s v => if v ∈ s.fin then s
    else dfsVisit outOrd es (vs.length + 1) v s) ⟨[], [], []⟩).back := rfl
  rw [hdb]
  generalize vs.foldl (fun s v => if v ∈ s.fin then s
    else dfsVisit outOrd es (vs.length + 1) v s) ⟨[], [], []⟩ = s' at a b c e
  refine ⟨fun v => s'.fin.idxOf v, ?_⟩
  intro x hx
  simp only [List.mem_filter, Bool.not_eq_true', decide_eq_false_iff_not] at hx
  have hs : x.src ∈ s'.fin := e _ (hes x hx.1).1
  have hlt := List.idxOf_lt_length_of_mem hs
  have hget : s'.fin[s'.fin.idxOf x.src]? = some x.src := by
    rw [List.getElem?_eq_getElem hlt]; simp
  rcases a.order _ _ hget x hx.1 rfl with h | ⟨j, h1, h2⟩
  · exact (hx.2 h).elim
  · obtain ⟨h3, h4⟩ := List.getElem?_eq_some_iff.1 h2
    have : s'.fin.idxOf x.dst = j := by
      rw [← h4]; exact List.Nodup.idxOf_getElem a.fnd j h3
    simp only
    omega

end Verif
