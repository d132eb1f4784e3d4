import Verif.Spec.RemapRanks
import Verif.Props.Remap
import Verif.Lemmas.Cutoff

set_option linter.unusedSectionVars false

namespace Verif.RemapRanks

open Verif.Spec Verif.Props Verif.RemapRanks.Spec

variable {P K D : Type} [DecidableEq D] [Zero K] {nb off : Nat}

/-- Where the value at a degree of freedom comes from. -/
theorem origin {copy : Fld D K} {mv : RCell D → List Move} {cs : List (RCell D)} {sol sol' : Fld D K}
    (h : CellsRes off copy mv cs sol sol') (o : Nat) (d : D) :
    (sol' (o + off) d = sol (o + off) d ∧ ∀ c ∈ cs, d ∈ c.dofs → ∀ m ∈ mv c, m.dst ≠ o ∧ m.src ≠ o) ∨ sol' (o + off) d = 0 ∨
      ∃ c ∈ cs, d ∈ c.dofs ∧ ∃ m ∈ mv c, m.dst = o ∧ sol' (o + off) d = copy (m.src + off) d := by
  induction h with
  | nil => exact .inl ⟨rfl, by simp⟩
  | @cons c cs sol sol1 sol2 hc _ ih =>
    rcases ih with ⟨h1, h2⟩ | h1 | ⟨c', h1, h2, m, h3, h4, h5⟩
    · by_cases hd : d ∈ c.dofs
      · by_cases hm : ∃ m ∈ mv c, m.dst = o
        · obtain ⟨m, hm, he⟩ := hm
          refine .inr (.inr ⟨c, by simp, hd, m, hm, he, ?_⟩)
          rw [h1, ← he]
          exact hc.moved d hd m hm
        · by_cases hs : ∃ m ∈ mv c, m.src = o
          · refine .inr (.inl ?_)
            rw [h1]
            exact hc.vacated d hd o (fun m hm' he => hm ⟨m, hm', he⟩) hs
          · refine .inl ⟨?_, ?_⟩
            · rw [h1]
              refine hc.other _ _ (.inl fun m hmm => ⟨fun he => hm ⟨m, hmm, by omega⟩, fun he => hs ⟨m, hmm, by omega⟩⟩)
            · intro c' hc' hd' m hmm
              rcases List.mem_cons.1 hc' with rfl | hc'
              · exact ⟨fun he => hm ⟨m, hmm, he⟩, fun he => hs ⟨m, hmm, he⟩⟩
              · exact h2 c' hc' hd' m hmm
      · refine .inl ⟨?_, ?_⟩
        · rw [h1]; exact hc.other _ _ (.inr hd)
        · intro c' hc' hd' m hmm
          rcases List.mem_cons.1 hc' with rfl | hc'
          · exact (hd hd').elim
          · exact h2 c' hc' hd' m hmm
    · exact .inr (.inl h1)
    · exact .inr (.inr ⟨c', by simp [h1], h2, m, h3, h4, h5⟩)

/-- The run of one rank, cell by cell. -/
theorem remapNew_cells {x : RemapExt} (hx : x.Ok) {grains : OMap (Grain P K)} {lookup : Lookup} {cells : List (RCell D)}
    (h : Remappable nb off grains lookup cells) (sol : Fld D K) :
    ∃ n sol', remapNew x nb off grains lookup cells sol = .ok (n, sol') ∧
      CellsRes off sol (cellMoves grains lookup) cells sol sol' := by
  unfold remapNew
  simp only
  by_cases h0 : (remapTable grains).length = 0
  · rw [if_pos h0]
    refine ⟨0, sol, rfl, ?_⟩
    have hnil : ∀ c : RCell D, cellMoves grains lookup c = [] := by
      intro c
      rw [List.eq_nil_iff_forall_not_mem]
      intro m hm
      obtain ⟨g, G, h1, h2, rfl⟩ := (mem_cellMoves h c m).1 hm
      rw [remapTable_eq h.sorted h.ids, List.length_map, List.length_eq_zero_iff, List.filter_eq_nil_iff] at h0
      exact h0 _ (OMap.mem_of_get? h1.2) (by simpa using h2)
    have : ∀ cs : List (RCell D), CellsRes off sol (cellMoves grains lookup) cs sol sol := by
      intro cs
      induction cs with
      | nil => exact .nil _
      | cons c cs ih =>
        refine .cons ?_ ih
        rw [hnil c]
        exact ⟨by simp, by simp, fun _ _ _ => rfl⟩
    exact this cells
  · rw [if_neg h0]
    obtain ⟨cache', sol', t1, t2⟩ := remapCells_ok (nb := nb) (off := off) (copy := sol) hx
      (tbl := remapTable grains) (lookup := lookup) (mv := cellMoves grains lookup) cells [] sol
      (fun c hc => ⟨_, grainsAtCell_eq (h.valid c hc), rfl, cellMoves_ok h hc⟩)
      (by intro gs steps hl; simp at hl)
    rw [t1]
    exact ⟨_, sol', rfl, t2⟩

/-- Fewer cells. -/
theorem remappable_sub {grains : OMap (Grain P K)} {lookup : Lookup} {cs ds : List (RCell D)} (h : Remappable nb off grains lookup cs)
    (hs : ∀ c ∈ ds, c ∈ cs) : Remappable nb off grains lookup ds :=
  ⟨h.sorted, h.ids, fun c hc => h.valid c (hs c hc), fun c hc => h.home c (hs c hc), fun c hc => h.apart c (hs c hc), h.blocks⟩

theorem mem_cells {ranks : List (Rank D)} {r : Rank D} (hr : r ∈ ranks) {c : RCell D} (hc : c ∈ r.2) : c ∈ cells ranks :=
  List.mem_flatMap.2 ⟨r, hr, hc⟩

/-- The copies of all ranks. -/
theorem views_ok {grains : OMap (Grain P K)} {lookup : Lookup} {ranks : List (Rank D)}
    (hx : ∀ r ∈ ranks, r.1.Ok) (h : Remappable nb off grains lookup (cells ranks)) (sol : Fld D K) :
    ∃ vs, views nb off grains lookup ranks sol = .ok vs ∧ vs.length = ranks.length ∧
      ∀ (p : Nat) r f, ranks[p]? = some r → vs[p]? = some f → CellsRes off sol (cellMoves grains lookup) r.2 sol f ∧
        Remapped off grains lookup r.2 sol f := by
  unfold views
  have key : ∀ rs : List (Rank D), (∀ r ∈ rs, r ∈ ranks) →
      ∃ vs, (rs.mapM fun r => (remapNew r.1 nb off grains lookup r.2 sol).bind fun q => Res.ok q.2) = .ok vs ∧ vs.length = rs.length ∧
        ∀ (p : Nat) r f, rs[p]? = some r → vs[p]? = some f → CellsRes off sol (cellMoves grains lookup) r.2 sol f ∧
          Remapped off grains lookup r.2 sol f := by
    intro rs
    induction rs with
    | nil => intro _; exact ⟨[], rfl, rfl, by simp⟩
    | cons r rs ih =>
      intro hs
      obtain ⟨vs, e1, e2, e3⟩ := ih fun q hq => hs q (by simp [hq])
      have hr := remappable_sub h fun c hc => mem_cells (hs r (by simp)) hc
      obtain ⟨n, f, t1, t2⟩ := remapNew_cells (hx r (hs r (by simp))) hr sol
      obtain ⟨f', u1, u2⟩ := C10_remap_partial (hx r (hs r (by simp))) hr sol
      rw [t1] at u1
      injection u1 with u1
      injection u1 with _ u1
      subst u1
      refine ⟨f :: vs, ?_, by simp [e2], ?_⟩
      · rw [List.mapM_cons, t1, e1]; rfl
      · intro p r' f' hp hv
        cases p with
        | zero =>
          simp only [List.getElem?_cons_zero, Option.some.injEq] at hp hv
          subst hp hv
          exact ⟨t2, u2⟩
        | succ p =>
          simp only [List.getElem?_cons_succ] at hp hv
          exact e3 p r' f' hp hv
  exact key ranks fun _ h => h

theorem exchange_eq {owner : D → Nat} {vs : List (Fld D K)} {sol f : Fld D K} {d : D} (h : vs[owner d]? = some f) (b : Nat) :
    exchange owner vs sol b d = f b d := by
  unfold exchange; rw [h]

/-- The value itself. -/
theorem above_eq {grains : OMap (Grain P K)} {lookup : Lookup} {cs own : List (RCell D)} {sol f : Fld D K}
    (ho : ∀ c ∈ own, c ∈ cs) (hr : Remapped off grains lookup own sol f) {d : D} (hd : ∃ c ∈ own, d ∈ c.dofs)
    {g : Nat} {G : Grain P K} (g1 : grains.get? g = some G) (g3 : ∀ c ∈ cs, d ∈ c.dofs → PresentAt lookup c G.oldOp g) :
    f (G.op + off) d = sol (G.oldOp + off) d :=
  hr.grain g G d hd fun c hc hdc => ⟨⟨G.oldOp, g3 c (ho c hc) hdc⟩, g1⟩

variable [LinearOrder K]

/-- Where values above the threshold are in the copy of a rank. -/
theorem above_iff {thr : K} (h0 : 0 ≤ thr) {grains : OMap (Grain P K)} {lookup : Lookup} {cs own : List (RCell D)} {sol f : Fld D K}
    (h : Remappable nb off grains lookup cs) (hs : Searched thr off grains lookup cs sol) (ho : ∀ c ∈ own, c ∈ cs)
    (hc : CellsRes off sol (cellMoves grains lookup) own sol f) (hr : Remapped off grains lookup own sol f) (o : Nat) {d : D}
    (hd : ∃ c ∈ own, d ∈ c.dofs) :
    thr < f (o + off) d ↔ Above thr off grains sol cs lookup o d := by
  have hd' : ∃ c ∈ cs, d ∈ c.dofs := hd.elim fun c hc => ⟨c, ho c hc.1, hc.2⟩
  constructor
  · intro ht
    rcases origin hc o d with ⟨h1, h2⟩ | h1 | ⟨c, hc, hdc, m, h3, h4, h5⟩
    · rw [h1] at ht
      obtain ⟨g, G, g1, g2, g3⟩ := hs.found o d hd' ht
      refine ⟨g, G, g1, ?_, by rw [g2]; exact ht, by rw [g2]; exact g3⟩
      by_contra hne
      obtain ⟨c, hc, hdc⟩ := hd
      refine (h2 c hc hdc ⟨g, G.oldOp, G.op⟩ ((mem_cellMoves h c _).2 ⟨g, G, ⟨⟨o, g3 c (ho c hc) hdc⟩, g1⟩, ?_, rfl⟩)).2 g2
      rw [g2]; exact hne
    · rw [h1] at ht
      exact absurd ht (not_lt.2 h0)
    · rw [h5] at ht
      obtain ⟨g, G, g1, g2, rfl⟩ := (mem_cellMoves h c m).1 h3
      simp only at h4 ht
      obtain ⟨g', G', k1, k2, k3⟩ := hs.found G.oldOp d hd' ht
      have hp := k3 c (ho c hc) hdc
      obtain ⟨op, hop⟩ := g1.1
      have h6 := h.home c (ho c hc) op g G hop g1.2
      rw [← h6] at hop
      have he := present_unique hop hp
      subst he
      exact ⟨g, G, g1.2, h4, ht, k3⟩
  · rintro ⟨g, G, g1, rfl, g2, g3⟩
    rw [hr.grain g G d hd fun c hc hdc => ⟨⟨G.oldOp, g3 c (ho c hc) hdc⟩, g1⟩]
    exact g2

end Verif.RemapRanks
