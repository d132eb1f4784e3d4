import Mathlib.Tactic.Set
import Mathlib.Data.List.Nodup
import Verif.Spec.Detect
import Verif.Lemmas.Components
/-! Helper lemmas for grain detection. -/
namespace Verif
open Spec
variable {P K : Type}

/-! ### The periodicity graph -/

structure PGInv (conns : List (Nat × Nat)) (g : PGraph) : Prop where
  nodup : g.verts.Nodup
  mem : ∀ p, p ∈ g.verts ↔ ∃ c ∈ conns, c.1 = p ∨ c.2 = p
  edges : g.edges = conns.map (fun c => (g.verts.idxOf c.1, g.verts.idxOf c.2))

theorem idxOf_append_mem {l : List Nat} {p : Nat} (h : p ∈ l) (l' : List Nat) :
    (l ++ l').idxOf p = l.idxOf p := by
  rw [List.idxOf_append, if_pos h]

theorem vertex_spec (g : PGraph) (p : Nat) (hn : g.verts.Nodup) :
    ∃ t, (g.vertex p).1 = { g with verts := g.verts ++ t } ∧ (g.verts ++ t).Nodup ∧
      (∀ q, q ∈ g.verts ++ t ↔ q ∈ g.verts ∨ q = p) ∧ (g.vertex p).2 = (g.verts ++ t).idxOf p := by
  unfold PGraph.vertex
  by_cases h : p ∈ g.verts
  · rw [if_pos h]
    refine ⟨[], by simp, by simpa using hn, ?_, by simp⟩
    intro q
    simp only [List.append_nil]
    constructor
    · exact Or.inl
    · rintro (h' | rfl)
      · exact h'
      · exact h
  · rw [if_neg h]
    refine ⟨[p], rfl, ?_, by simp, ?_⟩
    · rw [List.nodup_append]
      refine ⟨hn, by simp, ?_⟩
      intro a ha b hb
      simp at hb; subst hb
      rintro rfl; exact h ha
    · rw [List.idxOf_append, if_neg h]; simp

theorem addConnection_inv {conns : List (Nat × Nat)} {g : PGraph} (h : PGInv conns g)
    (c : Nat × Nat) : PGInv (conns ++ [c]) (g.addConnection c) := by
  obtain ⟨t1, e1, n1, m1, i1⟩ := vertex_spec g c.1 h.nodup
  have e1' : (g.vertex c.1).1.verts = g.verts ++ t1 := by rw [e1]
  have e1e : (g.vertex c.1).1.edges = g.edges := by rw [e1]
  obtain ⟨t2, e2, n2, m2, i2⟩ := vertex_spec (g.vertex c.1).1 c.2 (by rw [e1']; exact n1)
  rw [e1'] at n2 m2 i2
  have hadd : g.addConnection c = PGraph.mk (g.verts ++ t1 ++ t2)
      (g.edges ++ [((g.vertex c.1).2, ((g.vertex c.1).1.vertex c.2).2)]) := by
    have : g.addConnection c = PGraph.mk ((g.vertex c.1).1.vertex c.2).1.verts
      (((g.vertex c.1).1.vertex c.2).1.edges ++
        [((g.vertex c.1).2, ((g.vertex c.1).1.vertex c.2).2)]) := rfl
    rw [this, e2, e1', e1e]
  rw [hadd]
  refine ⟨n2, ?_, ?_⟩
  · intro p
    simp only [m2, m1, h.mem, List.mem_append, List.mem_singleton]
    constructor
    · rintro ((⟨c', hc', h'⟩ | rfl) | rfl)
      · exact ⟨c', Or.inl hc', h'⟩
      · exact ⟨c, Or.inr rfl, Or.inl rfl⟩
      · exact ⟨c, Or.inr rfl, Or.inr rfl⟩
    · rintro ⟨c', hc' | rfl, h'⟩
      · exact Or.inl (Or.inl ⟨c', hc', h'⟩)
      · rcases h' with rfl | rfl
        · exact Or.inl (Or.inr rfl)
        · exact Or.inr rfl
  · simp only [List.map_append, List.map_cons, List.map_nil]
    congr 1
    · rw [h.edges]
      apply List.map_congr_left
      intro c' hc'
      have a1 : c'.1 ∈ g.verts := (h.mem _).2 ⟨c', hc', Or.inl rfl⟩
      have a2 : c'.2 ∈ g.verts := (h.mem _).2 ⟨c', hc', Or.inr rfl⟩
      rw [List.append_assoc, idxOf_append_mem a1, idxOf_append_mem a2]
    · have a1 : c.1 ∈ g.verts ++ t1 := (m1 c.1).2 (Or.inr rfl)
      rw [i1, i2, idxOf_append_mem a1]

theorem pgraph_inv (conns : List (Nat × Nat)) :
    PGInv conns (conns.foldl PGraph.addConnection ⟨[], []⟩) := by
  suffices H : ∀ (l pre : List (Nat × Nat)) (g : PGraph), PGInv pre g →
      PGInv (pre ++ l) (l.foldl PGraph.addConnection g) by
    simpa using H conns [] ⟨[], []⟩ ⟨by simp, by simp, rfl⟩
  intro l
  induction l with
  | nil => intro pre g h; simpa using h
  | cons c l ih =>
    intro pre g h
    simpa using ih (pre ++ [c]) _ (addConnection_inv h c)

theorem pg_linked {conns : List (Nat × Nat)} {g : PGraph} (h : PGInv conns g) {p q : Nat}
    (hp : p ∈ g.verts) (hq : q ∈ g.verts) :
    Linked g.edges (g.verts.idxOf p) (g.verts.idxOf q) ↔ Linked conns p q := by
  constructor
  · intro hl
    have : ∀ a b, Linked g.edges a b → a = b ∨ ∃ p q : Nat, g.verts[a]? = some p ∧
        g.verts[b]? = some q ∧ Linked conns p q := by
      intro a b hab
      induction hab with
      | rel a b hab =>
        right
        rw [h.edges] at hab
        obtain ⟨c, hc, hce⟩ := List.mem_map.1 hab
        simp at hce
        obtain ⟨rfl, rfl⟩ := hce
        have a1 : c.1 ∈ g.verts := (h.mem _).2 ⟨c, hc, Or.inl rfl⟩
        have a2 : c.2 ∈ g.verts := (h.mem _).2 ⟨c, hc, Or.inr rfl⟩
        exact ⟨c.1, c.2, by simp [List.getElem?_idxOf a1], by simp [List.getElem?_idxOf a2],
          Linked.edge hc⟩
      | refl => exact Or.inl rfl
      | symm _ _ _ ih =>
        rcases ih with rfl | ⟨p, q, h1, h2, h3⟩
        · exact Or.inl rfl
        · exact Or.inr ⟨q, p, h2, h1, h3.symm⟩
      | trans _ _ _ _ _ ih1 ih2 =>
        rcases ih1 with rfl | ⟨p, q, h1, h2, h3⟩
        · exact ih2
        · rcases ih2 with rfl | ⟨p', q', h1', h2', h3'⟩
          · exact Or.inr ⟨p, q, h1, h2, h3⟩
          · rw [h2] at h1'; simp at h1'; subst h1'
            exact Or.inr ⟨p, q', h1, h2', h3.trans h3'⟩
    rcases this _ _ hl with he | ⟨p', q', h1, h2, h3⟩
    · have e1 : g.verts[g.verts.idxOf p]? = some p := List.getElem?_idxOf hp
      have e2 : g.verts[g.verts.idxOf q]? = some q := List.getElem?_idxOf hq
      rw [he, e2] at e1
      simp at e1; subst e1
      exact Linked.refl _
    · rw [List.getElem?_idxOf hp] at h1
      rw [List.getElem?_idxOf hq] at h2
      simp at h1 h2
      subst h1; subst h2; exact h3
  · intro hl
    clear hp hq
    induction hl with
    | rel a b hab =>
      refine Linked.edge ?_
      rw [h.edges]
      exact List.mem_map.2 ⟨(a, b), hab, rfl⟩
    | refl => exact Linked.refl _
    | symm _ _ _ ih => exact ih.symm
    | trans _ _ _ _ _ ih1 ih2 => exact ih1.trans ih2

/-- particles without periodic contact are alone -/
theorem linked_free {conns : List (Nat × Nat)} {g : PGraph} (h : PGInv conns g) {p q : Nat}
    (hl : Linked conns p q) (hp : p ∉ g.verts) : p = q := by
  have : ∀ a b, Linked conns a b → a = b ∨ (a ∈ g.verts ∧ b ∈ g.verts) := by
    intro a b hab
    induction hab with
    | rel a b hab =>
      exact Or.inr ⟨(h.mem _).2 ⟨_, hab, Or.inl rfl⟩, (h.mem _).2 ⟨_, hab, Or.inr rfl⟩⟩
    | refl => exact Or.inl rfl
    | symm _ _ _ ih => rcases ih with rfl | ⟨a, b⟩ <;> simp [*]
    | trans _ _ _ _ _ ih1 ih2 =>
      rcases ih1 with rfl | ⟨a, b⟩
      · exact ih2
      · rcases ih2 with rfl | ⟨c, d⟩
        · exact Or.inr ⟨a, b⟩
        · exact Or.inr ⟨a, d⟩
  rcases this p q hl with h1 | ⟨h1, -⟩
  · exact h1
  · exact absurd h1 hp

structure GroupsPost (conns : List (Nat × Nat)) (n : Nat) (groups : List (Option Nat)) (k : Nat) :
    Prop where
  length : groups.length = n
  lt : ∀ (i l : Nat), groups[i]? = some (some l) → l < k
  surj : ∀ l, l < k → ∃ i : Nat, groups[i]? = some (some l)
  iff : ∀ (i j l l' : Nat), groups[i]? = some (some l) → groups[j]? = some (some l') →
    (l = l' ↔ Linked conns i j)
  free : ∀ (i j : Nat), groups[i]? = some none → Linked conns i j → i = j

theorem buildGroups_ok {cc : CCFun} (hcc : CCContract cc) {conns : List (Nat × Nat)} {n : Nat}
    (hc : ∀ c ∈ conns, c.1 < n ∧ c.2 < n) :
    ∃ groups k, (conns.foldl PGraph.addConnection ⟨[], []⟩).buildGroups cc n = .ok (groups, k) ∧
      GroupsPost conns n groups k := by
  have hI := pgraph_inv conns
  generalize conns.foldl PGraph.addConnection ⟨[], []⟩ = g at hI
  have hvn : ∀ p ∈ g.verts, p < n := by
    intro p hp
    obtain ⟨c, hc', h | h⟩ := (hI.mem p).1 hp
    · rw [← h]; exact (hc c hc').1
    · rw [← h]; exact (hc c hc').2
  unfold PGraph.buildGroups
  by_cases hv : g.verts = []
  · rw [if_pos hv]
    refine ⟨_, _, rfl, by simp, ?_, by simp, ?_, ?_⟩
    · intro i l h; simp [List.getElem?_replicate] at h
    · intro i j l l' h; simp [List.getElem?_replicate] at h
    · intro i j _ hl; exact linked_free hI hl (by simp [hv])
  · rw [if_neg hv]
    have hcomp := hcc g.verts.length g.edges (by
      intro e he
      rw [hI.edges] at he
      obtain ⟨c, hc', rfl⟩ := List.mem_map.1 he
      exact ⟨List.idxOf_lt_length_of_mem ((hI.mem _).2 ⟨c, hc', Or.inl rfl⟩),
        List.idxOf_lt_length_of_mem ((hI.mem _).2 ⟨c, hc', Or.inr rfl⟩)⟩)
    generalize hr : cc g.verts.length g.edges = r at hcomp
    obtain ⟨lab, k⟩ := r
    simp only at hcomp
    obtain ⟨groups, hg, hgI⟩ := Res.foldlM_inv_prefix
      (fun (acc : List (Option Nat)) (p : Nat × Nat) => do
        let l ← Res.index lab p.2
        if p.1 < acc.length then Res.ok (acc.set p.1 (some l)) else Res.ub)
      (fun pre acc => acc.length = n ∧ ∀ i, i < n →
        ((∀ p ∈ pre, p.1 ≠ i) → acc[i]? = some none) ∧
        (∀ p ∈ pre, p.1 = i → ∃ l, lab[p.2]? = some l ∧ acc[i]? = some (some l)))
      g.verts.zipIdx [] (List.replicate n none) (by
        refine ⟨by simp, fun i hi => ⟨fun _ => by simp [hi], by simp⟩⟩) (by
        intro p a q s hpq hs
        simp only [List.nil_append] at hpq
        have ha : a ∈ g.verts.zipIdx := by rw [hpq]; simp
        have ha' := List.mem_zipIdx_iff_getElem?.1 ha
        have hlen : a.2 < g.verts.length := by
          obtain ⟨h, -⟩ := List.getElem?_eq_some_iff.1 ha'; exact h
        have hla : a.2 < lab.length := by rw [hcomp.length]; exact hlen
        have han : a.1 < n := hvn _ (List.mem_of_getElem? ha')
        refine ⟨s.set a.1 (some lab[a.2]), ?_, by simp [hs.1], ?_⟩
        · simp [Res.index_ok hla, hs.1, han]
        · intro i hi
          constructor
          · intro hne
            have : a.1 ≠ i := hne a (by simp)
            rw [List.getElem?_set_ne this]
            exact (hs.2 i hi).1 (fun p' hp' => hne p' (by simp [hp']))
          · intro p' hp' hpi
            by_cases hai : a.1 = i
            · have hpa : p' = a := by
                rcases List.mem_append.1 hp' with hp'' | hp''
                · exfalso
                  have hp3 : p' ∈ g.verts.zipIdx := by rw [hpq]; simp [hp'']
                  have hp4 := List.mem_zipIdx_iff_getElem?.1 hp3
                  have h12 : p'.2 = a.2 := by
                    obtain ⟨x1, y1⟩ := List.getElem?_eq_some_iff.1 hp4
                    obtain ⟨x2, y2⟩ := List.getElem?_eq_some_iff.1 ha'
                    exact (List.Nodup.getElem_inj_iff hI.nodup).1 (by rw [y1, y2, hpi, hai])
                  have : p' = a := Prod.ext (hpi.trans hai.symm) h12
                  subst this
                  have hnd : g.verts.zipIdx.Nodup := by
                    apply List.Nodup.of_map (fun p => p.2)
                    simpa using List.nodup_range'
                  rw [hpq, List.nodup_append] at hnd
                  exact hnd.2.2 _ hp'' _ (by simp) rfl
                · simpa using hp''
              subst hpa
              refine ⟨lab[p'.2], by simp [hla], ?_⟩
              rw [← hai, List.getElem?_set_self (by rw [hs.1]; exact han)]
            · rcases List.mem_append.1 hp' with hp'' | hp''
              · obtain ⟨l, h1, h2⟩ := (hs.2 i hi).2 p' hp'' hpi
                exact ⟨l, h1, by rw [List.getElem?_set_ne hai]; exact h2⟩
              · simp at hp''; subst hp''; exact absurd hpi hai)
    simp only [List.nil_append] at hgI
    obtain ⟨hlen, hgI⟩ := hgI
    refine ⟨groups, k, by simp [hg], hlen, ?_, ?_, ?_, ?_⟩
    all_goals
      have hin : ∀ (i l : Nat), groups[i]? = some (some l) →
          i ∈ g.verts ∧ lab[g.verts.idxOf i]? = some l := by
        intro i l h
        have hi : i < n := by
          obtain ⟨h', -⟩ := List.getElem?_eq_some_iff.1 h; omega
        have hmem : i ∈ g.verts := by
          by_contra hni
          have := (hgI i hi).1 (by
            intro p hp hpi
            have := List.mem_zipIdx_iff_getElem?.1 hp
            rw [hpi] at this
            exact hni (List.mem_of_getElem? this))
          rw [h] at this; simp at this
        refine ⟨hmem, ?_⟩
        obtain ⟨l', h1, h2⟩ := (hgI i hi).2 (i, g.verts.idxOf i)
          (List.mem_zipIdx_iff_getElem?.2 (List.getElem?_idxOf hmem)) rfl
        rw [h] at h2; simp at h2; subst h2; exact h1
    · intro i l h
      exact hcomp.lt _ _ (hin i l h).2
    · intro l hl
      obtain ⟨v, hv'⟩ := hcomp.surj l hl
      have hvl : v < g.verts.length := by
        obtain ⟨h', -⟩ := List.getElem?_eq_some_iff.1 hv'; rw [hcomp.length] at h'; exact h'
      obtain ⟨l', h1, h2⟩ := (hgI g.verts[v] (hvn _ (List.getElem_mem _))).2 (g.verts[v], v)
        (List.mem_zipIdx_iff_getElem?.2 (by simp [hvl])) rfl
      simp only at h1
      rw [hv'] at h1; simp at h1; subst h1
      exact ⟨_, h2⟩
    · intro i j l l' h1 h2
      obtain ⟨a1, a2⟩ := hin i l h1
      obtain ⟨b1, b2⟩ := hin j l' h2
      rw [hcomp.iff _ _ _ _ a2 b2, pg_linked hI a1 b1]
    · intro i j h1 hl
      apply linked_free hI hl
      intro hmem
      have hi : i < n := by
        obtain ⟨h', -⟩ := List.getElem?_eq_some_iff.1 h1; omega
      obtain ⟨l', h3, h4⟩ := (hgI i hi).2 (i, g.verts.idxOf i)
          (List.mem_zipIdx_iff_getElem?.2 (List.getElem?_idxOf hmem)) rfl
      rw [h1] at h4; simp at h4

/-! ### Numbering of the particles -/

structure NumPost (conns : List (Nat × Nat)) (n base top : Nat) (seq : List (Nat × Nat)) : Prop where
  nodup : (seq.map (·.1)).Nodup
  mem : ∀ i, i ∈ seq.map (·.1) ↔ i < n
  range : ∀ i g, (i, g) ∈ seq → base ≤ g ∧ g < top
  surj : ∀ g, base ≤ g → g < top → ∃ i, (i, g) ∈ seq
  iff : ∀ i j g g', (i, g) ∈ seq → (j, g') ∈ seq → (g = g' ↔ Linked conns i j)

theorem numberParticles_post {conns : List (Nat × Nat)} {n : Nat} {groups : List (Option Nat)}
    {k : Nat} (h : GroupsPost conns n groups k) (base : Nat) :
    NumPost conns n base (base + k + (groups.filter (·.isNone)).length)
      (numberParticles groups k base) := by
  set free := (groups.zipIdx.filter (fun p => p.1.isNone)).map (·.2) with hfree
  have hfm : ∀ i, i ∈ free ↔ groups[i]? = some none := by
    intro i
    simp only [hfree, List.mem_map, List.mem_filter]
    constructor
    · rintro ⟨⟨o, j⟩, ⟨h1, h2⟩, rfl⟩
      have := List.mem_zipIdx_iff_getElem?.1 h1
      simp at h2; subst h2; exact this
    · intro hi
      exact ⟨(none, i), ⟨List.mem_zipIdx_iff_getElem?.2 hi, rfl⟩, rfl⟩
  have hfn : free.Nodup := by
    have : (groups.zipIdx.map (·.2)).Nodup := by simpa using List.nodup_range'
    exact List.Nodup.sublist (List.Sublist.map _ List.filter_sublist) this
  have hfl : free.length = (groups.filter (·.isNone)).length := by
    have : groups.filter (·.isNone) = ((groups.zipIdx.filter (fun p => p.1.isNone))).map (·.1) := by
      have e : groups = groups.zipIdx.map (·.1) := by simp
      conv_lhs => rw [e]
      rw [List.filter_map]; rfl
    rw [this]; simp [hfree]
  set grouped := groups.zipIdx.filterMap (fun p => p.1.map (fun c => (p.2, c + base))) with hgr
  have hgm : ∀ i g, (i, g) ∈ grouped ↔ ∃ c, groups[i]? = some (some c) ∧ g = c + base := by
    intro i g
    simp only [hgr, List.mem_filterMap]
    constructor
    · rintro ⟨⟨o, j⟩, h1, h2⟩
      have h3 := List.mem_zipIdx_iff_getElem?.1 h1
      obtain ⟨c, rfl, h4⟩ := Option.map_eq_some_iff.1 h2
      simp at h4
      obtain ⟨rfl, rfl⟩ := h4
      exact ⟨c, h3, rfl⟩
    · rintro ⟨c, h1, rfl⟩
      exact ⟨(some c, i), List.mem_zipIdx_iff_getElem?.2 h1, rfl⟩
  have hgn : (grouped.map (·.1)).Nodup := by
    have : (groups.zipIdx.map (·.2)).Nodup := by simpa using List.nodup_range'
    have e : grouped.map (·.1) = (groups.zipIdx.filter (fun p => p.1.isSome)).map (·.2) := by
      rw [hgr]
      generalize groups.zipIdx = l
      induction l with
      | nil => rfl
      | cons a l ih =>
        obtain ⟨o, j⟩ := a
        cases o with
        | none => simpa using ih
        | some c => simpa using ih
    rw [e]
    exact List.Nodup.sublist (List.Sublist.map _ List.filter_sublist) this
  have hseq : numberParticles groups k base =
      grouped ++ free.zipIdx.map (fun p => (p.1, base + k + p.2)) := rfl
  rw [hseq, ← hfl]
  have hff : ∀ i g, (i, g) ∈ free.zipIdx.map (fun p => (p.1, base + k + p.2)) ↔
      ∃ x, free[x]? = some i ∧ g = base + k + x := by
    intro i g
    simp only [List.mem_map]
    constructor
    · rintro ⟨⟨a, b⟩, h1, h2⟩
      have h3 := List.mem_zipIdx_iff_getElem?.1 h1
      simp at h2
      obtain ⟨rfl, rfl⟩ := h2
      exact ⟨b, h3, rfl⟩
    · rintro ⟨x, h1, rfl⟩
      exact ⟨(i, x), List.mem_zipIdx_iff_getElem?.2 h1, rfl⟩
  have hfst : (free.zipIdx.map (fun p => (p.1, base + k + p.2))).map (·.1) = free := by
    rw [List.map_map]
    have : ((fun x : Nat × Nat => x.1) ∘ fun p : Nat × Nat => (p.1, base + k + p.2)) = (·.1) := rfl
    rw [this]; simp
  refine ⟨?_, ?_, ?_, ?_, ?_⟩
  · rw [List.map_append, hfst, List.nodup_append]
    refine ⟨hgn, hfn, ?_⟩
    intro a ha b hb hab
    subst hab
    obtain ⟨⟨i, g⟩, h1, rfl⟩ := List.mem_map.1 ha
    obtain ⟨c, h2, -⟩ := (hgm i g).1 h1
    have := (hfm i).1 hb
    rw [h2] at this; simp at this
  · intro i
    rw [List.map_append, hfst, List.mem_append, hfm]
    constructor
    · rintro (h1 | h1)
      · obtain ⟨⟨j, g⟩, h2, rfl⟩ := List.mem_map.1 h1
        obtain ⟨c, h3, -⟩ := (hgm j g).1 h2
        obtain ⟨h4, -⟩ := List.getElem?_eq_some_iff.1 h3
        rw [h.length] at h4; exact h4
      · obtain ⟨h4, -⟩ := List.getElem?_eq_some_iff.1 h1
        rw [h.length] at h4; exact h4
    · intro hi
      have hi' : i < groups.length := by rw [h.length]; exact hi
      cases hg : groups[i] with
      | none => right; rw [List.getElem?_eq_getElem hi', hg]
      | some c =>
        left
        exact List.mem_map.2 ⟨(i, c + base), (hgm i _).2 ⟨c, by rw [List.getElem?_eq_getElem hi', hg],
          rfl⟩, rfl⟩
  · intro i g hig
    rcases List.mem_append.1 hig with hig | hig
    · obtain ⟨c, h1, rfl⟩ := (hgm i g).1 hig
      have := h.lt i c h1
      omega
    · obtain ⟨x, h1, rfl⟩ := (hff i g).1 hig
      obtain ⟨h4, -⟩ := List.getElem?_eq_some_iff.1 h1
      omega
  · intro g h1 h2
    by_cases hk : g < base + k
    · obtain ⟨i, hi⟩ := h.surj (g - base) (by omega)
      exact ⟨i, List.mem_append_left _ ((hgm i g).2 ⟨g - base, hi, by omega⟩)⟩
    · have hx : g - (base + k) < free.length := by omega
      exact ⟨free[g - (base + k)], List.mem_append_right _
        ((hff _ g).2 ⟨g - (base + k), by simp [hx], by omega⟩)⟩
  · intro i j g g' h1 h2
    rcases List.mem_append.1 h1 with h1 | h1 <;> rcases List.mem_append.1 h2 with h2 | h2
    · obtain ⟨c, e1, rfl⟩ := (hgm i g).1 h1
      obtain ⟨c', e2, rfl⟩ := (hgm j g').1 h2
      rw [← h.iff i j c c' e1 e2]; omega
    · obtain ⟨c, e1, rfl⟩ := (hgm i g).1 h1
      obtain ⟨x, e2, rfl⟩ := (hff j g').1 h2
      have hlt := h.lt i c e1
      have hj : groups[j]? = some none := (hfm j).1 (List.mem_of_getElem? e2)
      constructor
      · intro he; omega
      · intro hl
        have := h.free j i hj hl.symm
        subst this
        rw [e1] at hj; simp at hj
    · obtain ⟨c, e1, rfl⟩ := (hgm j g').1 h2
      obtain ⟨x, e2, rfl⟩ := (hff i g).1 h1
      have hlt := h.lt j c e1
      have hi : groups[i]? = some none := (hfm i).1 (List.mem_of_getElem? e2)
      constructor
      · intro he; omega
      · intro hl
        have := h.free i j hi hl
        subst this
        rw [e1] at hi; simp at hi
    · obtain ⟨x, e1, rfl⟩ := (hff i g).1 h1
      obtain ⟨y, e2, rfl⟩ := (hff j g').1 h2
      have hi : groups[i]? = some none := (hfm i).1 (List.mem_of_getElem? e1)
      constructor
      · intro he
        have : x = y := by omega
        subst this
        rw [e1] at e2; simp at e2; subst e2; exact Linked.refl _
      · intro hl
        have := h.free i j hi hl
        subst this
        obtain ⟨a1, b1⟩ := List.getElem?_eq_some_iff.1 e1
        obtain ⟨a2, b2⟩ := List.getElem?_eq_some_iff.1 e2
        have := (List.Nodup.getElem_inj_iff hfn).1 (b1.trans b2.symm)
        omega

/-! ### Appending the segments of one order parameter -/

section
variable [Field K] [LinearOrder K]

structure AppInv (op base : Nat) (parts : List (Segment P K)) (grains0 : OMap (Grain P K))
    (pre : List (Nat × Nat)) (s : OMap (Grain P K) × List (Option Nat × Nat)) : Prop where
  sorted : OMap.Sorted s.1
  rowLen : s.2.length = parts.length
  low : ∀ g, g < base → s.1.get? g = grains0.get? g
  absent : ∀ g, base ≤ g → ((s.1.get? g).isSome ↔ ∃ p ∈ pre, p.2 = g)
  present : ∀ g G, base ≤ g → s.1.get? g = some G → G.op = op ∧ G.oldOp = op ∧
    G.segments.map some = (pre.filter (fun p => p.2 == g)).map (fun p => parts[p.1]?)
  row : ∀ a i g b, pre = a ++ (i, g) :: b →
    s.2[i]? = some (some g, (a.filter (fun p => p.2 == g)).length)

theorem appendSegment_ok {G : Geometry P K} {assign : Bool} {op base : Nat}
    {parts : List (Segment P K)} {grains0 : OMap (Grain P K)} {pre : List (Nat × Nat)}
    {s : OMap (Grain P K) × List (Option Nat × Nat)} (hI : AppInv op base parts grains0 pre s)
    {i g : Nat} (hi : i < parts.length) (hg : base ≤ g) (hnew : ∀ p ∈ pre, p.1 ≠ i) :
    ∃ s', appendSegment G assign op parts s (i, g) = .ok s' ∧
      AppInv op base parts grains0 (pre ++ [(i, g)]) s' := by
  set g0 := Grain.mk2 G (if assign then g else invalidUInt) op with hg0
  have hs1 : OMap.Sorted (s.1.emplace g g0) := OMap.sorted_emplace hI.sorted
  have he : (s.1.emplace g g0).get? g = some ((s.1.get? g).getD g0) := by
    rw [OMap.get?_emplace hI.sorted, if_pos rfl]
  set gr := (s.1.get? g).getD g0 with hgr
  have hgrP : gr.op = op ∧ gr.oldOp = op ∧
      gr.segments.map some = (pre.filter (fun p => p.2 == g)).map (fun p => parts[p.1]?) := by
    cases h : s.1.get? g with
    | some G' =>
      have := hI.present g G' hg h
      rw [hgr, h]; exact this
    | none =>
      rw [hgr, h]
      refine ⟨rfl, rfl, ?_⟩
      have : ¬ ∃ p ∈ pre, p.2 = g := by rw [← hI.absent g hg, h]; simp
      have : pre.filter (fun p => p.2 == g) = [] := by
        rw [List.filter_eq_nil_iff]
        intro p hp hpg
        exact this ⟨p, hp, by simpa using hpg⟩
      rw [this]; rfl
  have hset : ∀ k, ((s.1.emplace g g0).set g (gr.addSegment parts[i])).get? k =
      if k = g then some (gr.addSegment parts[i]) else s.1.get? k := by
    intro k
    rw [OMap.get?_set hs1]
    by_cases hk : k = g
    · simp [hk]
    · simp only [hk, if_false]; rw [OMap.get?_emplace hI.sorted, if_neg hk]
  refine ⟨((s.1.emplace g g0).set g (gr.addSegment parts[i]),
    s.2.set i (some g, gr.segments.length)), ?_, ?_⟩
  · unfold appendSegment
    simp only [Res.index_ok hi, Res.ok_bind, ← hg0, he, Res.at?_some]
    rw [hset g, if_pos rfl]
    simp only [Res.at?_some, Res.ok_bind, hI.rowLen, hi, if_true]
    simp [Grain.addSegment]
  · refine ⟨OMap.sorted_set hs1, by simp [hI.rowLen], ?_, ?_, ?_, ?_⟩
    · intro k hk
      rw [hset, if_neg (by omega)]; exact hI.low k hk
    · intro k hk
      rw [hset]
      by_cases hkg : k = g
      · simp [hkg]
      · rw [if_neg hkg, hI.absent k hk]
        simp [Ne.symm hkg]
    · intro k G' hk hG
      rw [hset] at hG
      by_cases hkg : k = g
      · subst hkg
        rw [if_pos rfl] at hG
        simp only [Option.some.injEq] at hG
        subst hG
        refine ⟨hgrP.1, hgrP.2.1, ?_⟩
        simp only [Grain.addSegment, List.map_append, List.filter_append, hgrP.2.2]
        simp [hi]
      · rw [if_neg hkg] at hG
        obtain ⟨h1, h2, h3⟩ := hI.present k G' hk hG
        refine ⟨h1, h2, ?_⟩
        rw [h3, List.filter_append]
        simp [Ne.symm hkg]
    · intro a j g' b hab
      rcases List.append_eq_append_iff.1 hab with ⟨c, h1, h2⟩ | ⟨c, h1, h2⟩
      · -- the new element is `(j, g')`
        cases c with
        | nil =>
          simp at h2
          obtain ⟨⟨rfl, rfl⟩, rfl⟩ := h2
          simp at h1; subst h1
          simp only
          rw [List.getElem?_set_self (by rw [hI.rowLen]; exact hi)]
          have : gr.segments.length = (a.filter (fun p => p.2 == g)).length := by
            have := congrArg List.length hgrP.2.2
            simpa using this
          rw [this]
        | cons x c =>
          simp at h2
      · cases c with
        | nil =>
          simp at h2
          obtain ⟨⟨rfl, rfl⟩, rfl⟩ := h2
          simp at h1; subst h1
          simp only
          rw [List.getElem?_set_self (by rw [hI.rowLen]; exact hi)]
          have : gr.segments.length = (pre.filter (fun p => p.2 == g')).length := by
            have := congrArg List.length hgrP.2.2
            simpa using this
          rw [this]
        | cons x c =>
          simp at h2
          obtain ⟨rfl, rfl⟩ := h2
          have hj : j ≠ i := hnew (j, g') (by rw [h1]; simp)
          simp only
          rw [List.getElem?_set_ne (Ne.symm hj)]
          exact hI.row a j g' c h1

theorem appendAll_ok {G : Geometry P K} {assign : Bool} {op base top : Nat}
    {parts : List (Segment P K)} {conns : List (Nat × Nat)} {grains0 : OMap (Grain P K)}
    (hs : OMap.Sorted grains0) (hlow : ∀ g, (grains0.get? g).isSome → g < base)
    {seq : List (Nat × Nat)} (hseq : NumPost conns parts.length base top seq) :
    ∃ s', seq.foldlM (appendSegment G assign op parts)
        (grains0, List.replicate parts.length (some 0, 0)) = .ok s' ∧
      AppInv op base parts grains0 seq s' := by
  obtain ⟨s', h1, h2⟩ := Res.foldlM_inv_prefix (appendSegment G assign op parts)
    (fun pre s => AppInv op base parts grains0 pre s) seq []
    (grains0, List.replicate parts.length (some 0, 0)) (by
      refine ⟨hs, by simp, fun _ _ => rfl, ?_, ?_, by simp⟩
      · intro g hg
        constructor
        · intro h; have := hlow g h; omega
        · simp
      · intro g G hg h
        have := hlow g (by simp only at h; rw [h]; rfl); omega) (by
      rintro p ⟨i, g⟩ q s hpq hI
      simp only [List.nil_append] at hpq
      have hmem : (i, g) ∈ seq := by rw [hpq]; simp
      refine appendSegment_ok hI ((hseq.mem i).1 (List.mem_map.2 ⟨_, hmem, rfl⟩))
        (hseq.range i g hmem).1 ?_
      intro p' hp' he
      have hnd := hseq.nodup
      rw [hpq, List.map_append, List.nodup_append] at hnd
      exact hnd.2.2 p'.1 (List.mem_map.2 ⟨_, hp', rfl⟩) i (by simp) he)
  exact ⟨s', h1, by simpa using h2⟩

/-! ### All order parameters -/

/-- detection state after some order parameters -/
structure DetInv (ops : List (OpParticles P K)) (s : OMap (Grain P K) × Lookup × Nat) : Prop where
  det : IsDetection ops { grains := s.1, lookup := s.2.1 }
  num : s.1.length = s.2.2

theorem keys_eq_range {α : Type} : ∀ {m : OMap α} {n : Nat}, m.Sorted →
    (∀ g, (m.get? g).isSome ↔ g < n) → m.length = n := by
  intro m n hs h
  have h1 : m.keys.Nodup := OMap.keys_nodup hs
  have h2 : m.keys.Perm (List.range n) := by
    rw [List.perm_ext_iff_of_nodup h1 List.nodup_range]
    intro a
    rw [← OMap.get?_isSome_iff_mem_keys, h]; simp
  simpa [OMap.keys] using h2.length_eq

theorem detectOp_ok {G : Geometry P K} {cc : CCFun} (hcc : CCContract cc) {assign : Bool}
    {ops : List (OpParticles P K)} {s : OMap (Grain P K) × Lookup × Nat} (hI : DetInv ops s)
    {x : OpParticles P K} (hx : ∀ c ∈ x.conns, c.1 < x.parts.length ∧ c.2 < x.parts.length) :
    ∃ s', detectOp G cc assign s x = .ok s' ∧ DetInv (ops ++ [x]) s' := by
  obtain ⟨groups, k, hb, hg⟩ := buildGroups_ok hcc hx
  have hseq := numberParticles_post hg s.2.2
  set top := s.2.2 + k + (groups.filter (·.isNone)).length with htop
  set op := s.2.1.length with hop
  obtain ⟨⟨grains, row⟩, ha, hA⟩ := appendAll_ok (G := G) (assign := assign) (op := op)
    hI.det.sorted (fun g h => by rw [← hI.num]; exact (hI.det.contiguous g).1 h) hseq
  have hopl : op = ops.length := hI.det.rows
  have hbase : ∀ g, (s.1.get? g).isSome ↔ g < s.2.2 := by
    intro g; rw [← hI.num]; exact hI.det.contiguous g
  have hle : s.2.2 ≤ top := by omega
  have hkeys : ∀ g, (grains.get? g).isSome ↔ g < top := by
    intro g
    by_cases hgb : g < s.2.2
    · have := hA.low g hgb
      simp only at this
      rw [this, hbase]
      constructor
      · intro _; omega
      · intro _; exact hgb
    · have hgb' : s.2.2 ≤ g := by omega
      have := hA.absent g hgb'
      simp only at this
      rw [this]
      constructor
      · rintro ⟨⟨i, g'⟩, hp, rfl⟩
        exact (hseq.range i g' hp).2
      · intro hgt
        obtain ⟨i, hi⟩ := hseq.surj g hgb' hgt
        exact ⟨(i, g), hi, rfl⟩
  have hlen : grains.length = top := keys_eq_range hA.sorted hkeys
  refine ⟨(grains, s.2.1 ++ [row], top), ?_, ?_⟩
  · unfold detectOp
    simp only [hb, Res.ok_bind, ← hop]
    rw [ha]
    rfl
  -- facts on the new row
  have hrow : ∀ i, i < x.parts.length → ∃ g a b, numberParticles groups k s.2.2 = a ++ (i, g) :: b ∧
      row[i]? = some (some g, (a.filter (fun p => p.2 == g)).length) := by
    intro i hi
    obtain ⟨⟨i', g⟩, hp, rfl⟩ := List.mem_map.1 ((hseq.mem i).2 hi)
    obtain ⟨a, b, hab⟩ := List.append_of_mem hp
    exact ⟨g, a, b, hab, hA.row a i' g b hab⟩
  have hrowlen : row.length = x.parts.length := hA.rowLen
  have hrow' : ∀ (i : Nat) (e : Option Nat × Nat), row[i]? = some e →
      ∃ g a b, numberParticles groups k s.2.2 = a ++ (i, g) :: b ∧
        e = (some g, (a.filter (fun p => p.2 == g)).length) := by
    intro i e he
    obtain ⟨h1, -⟩ := List.getElem?_eq_some_iff.1 he
    obtain ⟨g, a, b, h2, h3⟩ := hrow i (by omega)
    rw [he] at h3; simp at h3
    exact ⟨g, a, b, h2, h3⟩
  have hrowge : ∀ (i g s' : Nat), row[i]? = some (some g, s') →
      s.2.2 ≤ g ∧ (i, g) ∈ numberParticles groups k s.2.2 := by
    intro i g s' h
    obtain ⟨g', a, b, h2, h3⟩ := hrow' i _ h
    simp at h3
    obtain ⟨rfl, -⟩ := h3
    have hm : (i, g) ∈ numberParticles groups k s.2.2 := by rw [h2]; simp
    exact ⟨(hseq.range i g hm).1, hm⟩
  have holdlt : ∀ (o i : Nat) (r : List (Option Nat × Nat)) (e : Option Nat × Nat),
      s.2.1[o]? = some r → r[i]? = some e → ∃ g, e.1 = some g ∧ g < s.2.2 := by
    intro o i r e h1 h2
    obtain ⟨ho, -⟩ := List.getElem?_eq_some_iff.1 h1
    have ho' : o < ops.length := by omega
    obtain ⟨hi, -⟩ := List.getElem?_eq_some_iff.1 h2
    have hc := hI.det.cols o ops[o] r (by simp [ho']) h1
    obtain ⟨g, s', G', q1, q2, -⟩ := hI.det.entry o i ops[o] r (ops[o].parts[i]'(by omega))
      (by simp [ho']) h1 (List.getElem?_eq_getElem _)
    rw [h2] at q1; simp at q1; subst q1
    exact ⟨g, rfl, (hbase g).1 (by simp only at q2; rw [q2]; rfl)⟩
  -- looking up rows and particles
  have hrows : ∀ (o : Nat) (r : List (Option Nat × Nat)), (s.2.1 ++ [row])[o]? = some r →
      (o < op ∧ s.2.1[o]? = some r) ∨ (o = op ∧ r = row) := by
    intro o r h
    rcases Nat.lt_trichotomy o op with h1 | h1 | h1
    · rw [List.getElem?_append_left h1] at h; exact Or.inl ⟨h1, h⟩
    · rw [h1, List.getElem?_append_right (by omega)] at h
      simp [hop] at h; exact Or.inr ⟨h1, h.symm⟩
    · rw [List.getElem?_eq_none (by simp; omega)] at h; simp at h
  have hopsx : ∀ (o : Nat) (y : OpParticles P K), (ops ++ [x])[o]? = some y →
      (o < op ∧ ops[o]? = some y) ∨ (o = op ∧ y = x) := by
    intro o r h
    rcases Nat.lt_trichotomy o op with h1 | h1 | h1
    · rw [List.getElem?_append_left (by omega)] at h; exact Or.inl ⟨h1, h⟩
    · rw [h1, hopl, List.getElem?_append_right (by omega)] at h
      simp at h; exact Or.inr ⟨h1, h.symm⟩
    · rw [List.getElem?_eq_none (by simp; omega)] at h; simp at h
  have hlow : ∀ g, g < s.2.2 → grains.get? g = s.1.get? g := hA.low
  refine ⟨⟨hA.sorted, by simp [← hop, hopl], ?_, ?_, ?_, ?_, ?_, ?_, ?_⟩, hlen⟩
  · intro o y r h1 h2
    simp only at h2
    rcases hrows o r h2 with ⟨q1, q2⟩ | ⟨q1, rfl⟩ <;> rcases hopsx o y h1 with ⟨q3, q4⟩ | ⟨q3, rfl⟩
    · exact hI.det.cols o y r q4 q2
    · omega
    · omega
    · exact hrowlen
  · intro g
    simp only
    rw [hlen, hkeys]
  · intro o i y r seg h1 h2 h3
    simp only at h2
    rcases hrows o r h2 with ⟨q1, q2⟩ | ⟨q1, rfl⟩ <;> rcases hopsx o y h1 with ⟨q3, q4⟩ | ⟨q3, rfl⟩
    · obtain ⟨g, s', G', e1, e2, e3, e4, e5⟩ := hI.det.entry o i y r seg q4 q2 h3
      refine ⟨g, s', G', e1, ?_, e3, e4, e5⟩
      have : g < s.2.2 := (hbase g).1 (by simp only at e2; rw [e2]; rfl)
      simp only
      rw [hlow g this]; exact e2
    · omega
    · omega
    · obtain ⟨hi, hseg⟩ := List.getElem?_eq_some_iff.1 h3
      obtain ⟨g, a, b, e1, e2⟩ := hrow i hi
      have hm : (i, g) ∈ numberParticles groups k s.2.2 := by rw [e1]; simp
      have hgr := hseq.range i g hm
      obtain ⟨G', hG'⟩ := Option.isSome_iff_exists.1 ((hkeys g).2 hgr.2)
      obtain ⟨p1, p2, p3⟩ := hA.present g G' hgr.1 hG'
      refine ⟨g, _, G', e2, hG', by rw [p1, q1], by rw [p2, q1], ?_⟩
      have : (G'.segments.map some)[(a.filter (fun p => p.2 == g)).length]? = some (some seg) := by
        rw [p3, e1, List.filter_append, List.map_append,
          List.getElem?_append_right (by simp)]
        simp [h3]
      rw [List.getElem?_map] at this
      obtain ⟨z, z1, z2⟩ := Option.map_eq_some_iff.1 this
      rw [z1, z2]
  · intro g s' G' seg h1 h2
    simp only at h1
    by_cases hgb : g < s.2.2
    · rw [hlow g hgb] at h1
      obtain ⟨o, i, r, e1, e2⟩ := hI.det.segment g s' G' seg h1 h2
      simp only at e1
      refine ⟨o, i, r, ?_, e2⟩
      obtain ⟨ho, -⟩ := List.getElem?_eq_some_iff.1 e1
      simp only
      rw [List.getElem?_append_left ho]; exact e1
    · have hgb' : s.2.2 ≤ g := by omega
      obtain ⟨p1, p2, p3⟩ := hA.present g G' hgb' h1
      obtain ⟨hs', -⟩ := List.getElem?_eq_some_iff.1 h2
      have hfl : ((numberParticles groups k s.2.2).filter (fun p => p.2 == g)).length =
          G'.segments.length := by
        have := congrArg List.length p3; simpa using this.symm
      -- find the position of the `s'`-th element with grain id `g`
      have find : ∀ (l : List (Nat × Nat)) (n : Nat), n < (l.filter (fun p => p.2 == g)).length →
          ∃ a i b, l = a ++ (i, g) :: b ∧ (a.filter (fun p => p.2 == g)).length = n := by
        intro l
        induction l with
        | nil => intro n hn; simp at hn
        | cons p l ih =>
          intro n hn
          by_cases hp : p.2 = g
          · cases n with
            | zero => exact ⟨[], p.1, l, by rw [← hp]; rfl, rfl⟩
            | succ n =>
              have : n < (l.filter (fun p => p.2 == g)).length := by
                simp [hp] at hn; exact hn
              obtain ⟨a, i, b, e1, e2⟩ := ih n this
              exact ⟨p :: a, i, b, by rw [e1]; rfl, by simp [hp, e2]⟩
          · have : n < (l.filter (fun p => p.2 == g)).length := by
              simp [hp] at hn; exact hn
            obtain ⟨a, i, b, e1, e2⟩ := ih n this
            exact ⟨p :: a, i, b, by rw [e1]; rfl, by simp [hp, e2]⟩
      obtain ⟨a, i, b, e1, e2⟩ := find _ s' (by rw [hfl]; exact hs')
      refine ⟨op, i, row, ?_, ?_⟩
      · simp only [hop]; simp
      · have := hA.row a i g b e1
        simp only at this
        rw [this, e2]
  · intro g G' h1
    simp only at h1
    by_cases hgb : g < s.2.2
    · rw [hlow g hgb] at h1
      exact hI.det.nonempty g G' h1
    · have hgb' : s.2.2 ≤ g := by omega
      obtain ⟨p1, p2, p3⟩ := hA.present g G' hgb' h1
      obtain ⟨⟨i, g'⟩, hp, rfl⟩ := (hA.absent g hgb').1 (by simp only; rw [h1]; rfl)
      intro hnil
      rw [hnil] at p3
      have : (i, g') ∈ (numberParticles groups k s.2.2).filter (fun p => p.2 == g') := by
        rw [List.mem_filter]; exact ⟨hp, by simp⟩
      have hlen0 : ((numberParticles groups k s.2.2).filter (fun p => p.2 == g')).length = 0 := by
        have := congrArg List.length p3; simpa using this.symm
      rw [List.length_eq_zero_iff] at hlen0
      rw [hlen0] at this; simp at this
  · intro o i o' i' r r' e h1 h2 h3 h4
    simp only at h1 h2
    rcases hrows o r h1 with ⟨q1, q2⟩ | ⟨q1, rfl⟩ <;> rcases hrows o' r' h2 with ⟨q3, q4⟩ | ⟨q3, rfl⟩
    · exact hI.det.inj o i o' i' r r' e q2 q4 h3 h4
    · obtain ⟨g, e1, e2⟩ := holdlt o i r e q2 h3
      have hge := (hrowge i' g e.2 (by rw [h4]; exact congrArg some (Prod.ext e1 rfl))).1
      omega
    · obtain ⟨g, e1, e2⟩ := holdlt o' i' r' e q4 h4
      have hge := (hrowge i g e.2 (by rw [h3]; exact congrArg some (Prod.ext e1 rfl))).1
      omega
    · refine ⟨q1.trans q3.symm, ?_⟩
      obtain ⟨g, a, b, e1, rfl⟩ := hrow' i e h3
      obtain ⟨g', a', b', e1', e2⟩ := hrow' i' _ h4
      simp only [Prod.mk.injEq, Option.some.injEq] at e2
      obtain ⟨rfl, e2⟩ := e2
      rw [e1] at e1'
      rcases List.append_eq_append_iff.1 e1' with ⟨c, c1, c2⟩ | ⟨c, c1, c2⟩
      · cases c with
        | nil => simp at c2; exact c2.1
        | cons y c =>
          simp at c2
          obtain ⟨rfl, -⟩ := c2
          rw [c1, List.filter_append] at e2
          simp at e2
      · cases c with
        | nil => simp at c2; exact c2.1.symm
        | cons y c =>
          simp at c2
          obtain ⟨rfl, -⟩ := c2
          rw [c1, List.filter_append] at e2
          simp at e2
  · intro o i o' i' g g' s1 s2 y r r' h0 h1 h2 h3 h4
    simp only at h1 h2
    rcases hrows o r h1 with ⟨q1, q2⟩ | ⟨q1, rfl⟩ <;> rcases hrows o' r' h2 with ⟨q3, q4⟩ | ⟨q3, rfl⟩
      <;> rcases hopsx o y h0 with ⟨q5, q6⟩ | ⟨q5, rfl⟩
    · exact hI.det.sameGrain o i o' i' g g' s1 s2 y r r' q6 q2 q4 h3 h4
    · omega
    · obtain ⟨g1, e1, e2⟩ := holdlt o i r _ q2 h3
      simp only [Option.some.injEq] at e1
      subst e1
      have hge := (hrowge i' g' s2 h4).1
      constructor
      · intro h; omega
      · rintro ⟨h, -⟩; omega
    · omega
    · omega
    · obtain ⟨g1, e1, e2⟩ := holdlt o' i' r' _ q4 h4
      simp only [Option.some.injEq] at e1
      subst e1
      have hge := (hrowge i g s1 h3).1
      constructor
      · intro h; omega
      · rintro ⟨h, -⟩; omega
    · omega
    · have m1 := (hrowge i g s1 h3).2
      have m2 := (hrowge i' g' s2 h4).2
      rw [hseq.iff i i' g g' m1 m2]
      constructor
      · intro h; exact ⟨by omega, h⟩
      · exact fun h => h.2

theorem detect_core (G : Geometry P K) {cc : CCFun} (hcc : CCContract cc) (assign : Bool)
    {ops : List (OpParticles P K)}
    (hx : ∀ x ∈ ops, ∀ c ∈ x.conns, c.1 < x.parts.length ∧ c.2 < x.parts.length) :
    ∃ d, detectGrains G cc assign ops = .ok d ∧ IsDetection ops d := by
  obtain ⟨s, h1, h2⟩ := Res.foldlM_inv_prefix (detectOp G cc assign)
    (fun pre s => DetInv pre s) ops [] ([], [], 0) (by
      refine ⟨⟨OMap.sorted_nil, rfl, by simp, by simp, by simp, by simp, by simp, by simp, by simp⟩,
        rfl⟩) (by
      intro p x q s hpq hI
      exact detectOp_ok hcc hI (hx x (by simp only [List.nil_append] at hpq; rw [hpq]; simp)))
  simp only [List.nil_append] at h2
  obtain ⟨grains, lookup, num⟩ := s
  refine ⟨{ grains := grains, lookup := lookup }, ?_, h2.det⟩
  have := h2.num
  simp only at this
  unfold detectGrains
  rw [h1]
  simp [Res.assertThrow, this]

end
end Verif
