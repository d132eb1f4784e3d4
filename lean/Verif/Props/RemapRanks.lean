import Verif.Lemmas.RemapRanks
import Mathlib.Algebra.Order.Ring.Rat

namespace Verif.Props

open Verif.Spec Verif.RemapRanks Verif.RemapRanks.Spec

variable {P K D : Type} [DecidableEq D] [Zero K] {nb off : Nat}

/-- **C138.** On any number of ranks the remapping does not fail.  After the exchange of ghost values the values inside of a grain are in
its new order parameter, and what no grain leaves or enters is unchanged, for all degrees of freedom of the mesh.  An order parameter
which a grain leaves is zero if the owner of the degree of freedom has a cell with this grain there.

Missing: with the grain only in cells of other ranks it is not (`Ex138.C138_vacated_violated`). -/
theorem C138_ranks_partial {grains : OMap (Grain P K)} {lookup : Lookup} {ranks : List (Rank D)} {owner : D → Nat}
    (hx : ∀ r ∈ ranks, r.1.Ok) (h : Remappable nb off grains lookup (cells ranks)) (ho : Owned owner ranks) (sol : Fld D K) :
    ∃ sol', remapAll nb off grains lookup owner ranks sol = .ok sol' ∧
      (∀ g G d, (∃ c ∈ cells ranks, d ∈ c.dofs) → (∀ c ∈ cells ranks, d ∈ c.dofs → GrainAt lookup grains c g G) →
        sol' (G.op + off) d = sol (G.oldOp + off) d) ∧
      (∀ o d, (∀ c ∈ cells ranks, d ∈ c.dofs → ∀ g G, GrainAt lookup grains c g G → G.op ≠ G.oldOp → G.op ≠ o ∧ G.oldOp ≠ o) →
        sol' (o + off) d = sol (o + off) d) ∧
      (∀ b d, b < off → sol' b d = sol b d) ∧
      ∀ o d, (∀ c ∈ cells ranks, d ∈ c.dofs → ∀ g G, GrainAt lookup grains c g G → G.op ≠ o) →
        (∃ r, ranks[owner d]? = some r ∧ ∃ c ∈ r.2, d ∈ c.dofs ∧ ∃ g G, GrainAt lookup grains c g G ∧ G.oldOp = o) →
        sol' (o + off) d = 0 := by
  obtain ⟨vs, e1, e2, e3⟩ := views_ok hx h sol
  refine ⟨exchange owner vs sol, by unfold remapAll; rw [e1]; rfl, ?_, ?_, ?_, ?_⟩
  all_goals
    have view : ∀ d r, ranks[owner d]? = some r → ∃ f, vs[owner d]? = some f := by
      intro d r hr
      have hl := (List.getElem?_eq_some_iff.1 hr).1
      exact ⟨_, List.getElem?_eq_getElem (by omega)⟩
  · intro g G d hd hg
    obtain ⟨r, hr, hc⟩ := ho d hd
    obtain ⟨f, hf⟩ := view d r hr
    rw [exchange_eq hf]
    exact (e3 _ r f hr hf).2.grain g G d hc fun c hc hdc => hg c (mem_cells (List.mem_of_getElem? hr) hc) hdc
  · intro o d hg
    rcases hv : vs[owner d]? with _ | f
    · unfold exchange; rw [hv]
    · have hl := (List.getElem?_eq_some_iff.1 hv).1
      have hr : ranks[owner d]? = some (ranks[owner d]'(by omega)) := List.getElem?_eq_getElem (by omega)
      rw [exchange_eq hv]
      exact (e3 _ _ f hr hv).2.untouched o d fun c hc hdc => hg c (mem_cells (List.mem_of_getElem? hr) hc) hdc
  · intro b d hb
    rcases hv : vs[owner d]? with _ | f
    · unfold exchange; rw [hv]
    · have hl := (List.getElem?_eq_some_iff.1 hv).1
      have hr : ranks[owner d]? = some (ranks[owner d]'(by omega)) := List.getElem?_eq_getElem (by omega)
      rw [exchange_eq hv]
      exact (e3 _ _ f hr hv).2.front b d hb
  · rintro o d hno ⟨r, hr, hc⟩
    obtain ⟨f, hf⟩ := view d r hr
    rw [exchange_eq hf]
    exact (e3 _ r f hr hf).2.vacated o d (fun c hc hdc => hno c (mem_cells (List.mem_of_getElem? hr) hc) hdc) hc

variable [LinearOrder K]

/-- **C138.** Nothing above the threshold of the search for particles depends on how the mesh is distributed: for two distributions of the
same cells the values after the remapping are equal or both not above the threshold. -/
theorem C138_partition_partial {thr : K} (h0 : 0 ≤ thr) {grains : OMap (Grain P K)} {lookup : Lookup} {ranks ranks' : List (Rank D)}
    {owner owner' : D → Nat} (hx : ∀ r ∈ ranks, r.1.Ok) (hx' : ∀ r ∈ ranks', r.1.Ok)
    (h : Remappable nb off grains lookup (cells ranks)) (ho : Owned owner ranks) (ho' : Owned owner' ranks')
    (hc : ∀ c, c ∈ cells ranks ↔ c ∈ cells ranks') (sol : Fld D K) (hs : Searched thr off grains lookup (cells ranks) sol) :
    ∃ f f', remapAll nb off grains lookup owner ranks sol = .ok f ∧ remapAll nb off grains lookup owner' ranks' sol = .ok f' ∧
      ∀ o d, (∃ c ∈ cells ranks, d ∈ c.dofs) →
        f (o + off) d = f' (o + off) d ∨ (f (o + off) d ≤ thr ∧ f' (o + off) d ≤ thr) := by
  have h' : Remappable nb off grains lookup (cells ranks') := remappable_sub h fun c hc' => (hc c).2 hc'
  obtain ⟨vs, e1, e2, e3⟩ := views_ok hx h sol
  obtain ⟨vs', e1', e2', e3'⟩ := views_ok hx' h' sol
  refine ⟨exchange owner vs sol, exchange owner' vs' sol, by unfold remapAll; rw [e1]; rfl, by unfold remapAll; rw [e1']; rfl, ?_⟩
  intro o d hd
  obtain ⟨r, hr, hcd⟩ := ho d hd
  obtain ⟨r', hr', hcd'⟩ := ho' d (hd.elim fun c hx => ⟨c, (hc c).1 hx.1, hx.2⟩)
  have hl := (List.getElem?_eq_some_iff.1 hr).1
  have hl' := (List.getElem?_eq_some_iff.1 hr').1
  have hf : vs[owner d]? = some (vs[owner d]'(by omega)) := List.getElem?_eq_getElem (by omega)
  have hf' : vs'[owner' d]? = some (vs'[owner' d]'(by omega)) := List.getElem?_eq_getElem (by omega)
  rw [exchange_eq hf, exchange_eq hf']
  have o1 : ∀ c ∈ r.2, c ∈ cells ranks := fun c hc => mem_cells (List.mem_of_getElem? hr) hc
  have o2 : ∀ c ∈ r'.2, c ∈ cells ranks := fun c hx => (hc c).2 (mem_cells (List.mem_of_getElem? hr') hx)
  obtain ⟨a1, a2⟩ := e3 _ r _ hr hf
  obtain ⟨b1, b2⟩ := e3' _ r' _ hr' hf'
  have i1 := above_iff h0 h hs o1 a1 a2 o hcd
  have i2 := above_iff h0 h hs o2 b1 b2 o hcd'
  by_cases ha : Above thr off grains sol (cells ranks) lookup o d
  · left
    obtain ⟨g, G, g1, rfl, g2, g3⟩ := ha
    rw [above_eq o1 a2 hcd g1 g3, above_eq o2 b2 hcd' g1 g3]
  · exact .inr ⟨not_lt.1 fun ht => ha (i1.1 ht), not_lt.1 fun ht => ha (i2.1 ht)⟩

/-- **C138.** Between remapping and the exchange of ghost values the tracker looks again at the copies of the ranks, which may be out of
date (`Ex138.C138_stale_violated`).  It still finds particles in the same cells: in a cell of its own every rank sees a particle
exactly if there is one in the values of the owners. -/
theorem C138_search_again {thr : K} (h0 : 0 ≤ thr) {grains : OMap (Grain P K)} {lookup : Lookup} {ranks : List (Rank D)}
    {owner : D → Nat} (hx : ∀ r ∈ ranks, r.1.Ok) (h : Remappable nb off grains lookup (cells ranks)) (ho : Owned owner ranks)
    (sol : Fld D K) (hs : Searched thr off grains lookup (cells ranks) sol) :
    ∃ vs f, views nb off grains lookup ranks sol = .ok vs ∧ remapAll nb off grains lookup owner ranks sol = .ok f ∧
      ∀ (p : Nat) r v, ranks[p]? = some r → vs[p]? = some v → ∀ c ∈ r.2, ∀ o,
        occupied thr v (o + off) c = occupied thr f (o + off) c := by
  obtain ⟨vs, e1, e2, e3⟩ := views_ok hx h sol
  refine ⟨vs, exchange owner vs sol, e1, by unfold remapAll; rw [e1]; rfl, ?_⟩
  intro p r v hp hv c hc o
  have main : ∀ d ∈ c.dofs, (thr < v (o + off) d ↔ thr < exchange owner vs sol (o + off) d) := by
    intro d hd
    have hcr : c ∈ cells ranks := mem_cells (List.mem_of_getElem? hp) hc
    obtain ⟨q, hq, hcd⟩ := ho d ⟨c, hcr, hd⟩
    have hl := (List.getElem?_eq_some_iff.1 hq).1
    have hf : vs[owner d]? = some (vs[owner d]'(by omega)) := List.getElem?_eq_getElem (by omega)
    rw [exchange_eq hf]
    obtain ⟨a1, a2⟩ := e3 _ q _ hq hf
    obtain ⟨b1, b2⟩ := e3 _ r _ hp hv
    rw [above_iff h0 h hs (fun c hc => mem_cells (List.mem_of_getElem? hp) hc) b1 b2 o ⟨c, hc, hd⟩,
      above_iff h0 h hs (fun c hc => mem_cells (List.mem_of_getElem? hq) hc) a1 a2 o hcd]
  unfold occupied
  rw [Bool.eq_iff_iff, List.any_eq_true, List.any_eq_true]
  constructor
  · rintro ⟨d, hd, ht⟩; exact ⟨d, hd, decide_eq_true ((main d hd).1 (of_decide_eq_true ht))⟩
  · rintro ⟨d, hd, ht⟩; exact ⟨d, hd, decide_eq_true ((main d hd).2 (of_decide_eq_true ht))⟩

namespace Ex138

/-- Two cells with the degrees of freedom 0, 1 and 1, 2; the grain 0 is in the second one and goes from order parameter 0 to 1.  The value
at the degree of freedom between them is below the threshold 1/10. -/
def left : RCell Nat := ⟨[0, 1], [none, none]⟩
def right : RCell Nat := ⟨[1, 2], [some 0, none]⟩
def grain : Grain Unit ℚ := { grainId := 0, op := 1, oldOp := 0, segments := [], maxRadius := 0, nearest := 0, maxValue := 0, measure := 0 }
def grains : OMap (Grain Unit ℚ) := [(0, grain)]
def lookup : Lookup := [[(some 0, 0)], []]
def ext : RemapExt := ⟨dfsBack id, id⟩
def sol : Fld Nat ℚ := fun b d => if b = 0 then (if d = 0 then 0 else if d = 1 then 1 / 20 else 1) else 0
def serial : List (Rank Nat) := [(ext, [left, right])]
def two : List (Rank Nat) := [(ext, [left]), (ext, [right])]
def owner : Nat → Nat := fun d => if d ≤ 1 then 0 else 1

theorem ext_ok : ext.Ok := C11_dfs_meets_contract (fun _ => List.Perm.refl _) (fun _ => List.Perm.refl _)

/-- **C138.** The remaining claim fails: the same mesh on one and on two ranks; on two ranks the value between the cells stays in the old
order parameter and does not arrive in the new one. -/
theorem C138_vacated_violated :
    (∃ f, remapAll 2 0 grains lookup (fun _ => 0) serial sol = .ok f ∧ f 0 1 = 0 ∧ f 1 1 = 1 / 20) ∧
    ∃ f, remapAll 2 0 grains lookup owner two sol = .ok f ∧ f 0 1 = 1 / 20 ∧ f 1 1 = 0 := by
  refine ⟨⟨_, rfl, by decide +kernel, by decide +kernel⟩, ⟨_, rfl, by decide +kernel, by decide +kernel⟩⟩

/-- **C138.** When the tracker looks again, the second rank has other values than the owner. -/
theorem C138_stale_violated :
    ∃ v w f, views 2 0 grains lookup two sol = .ok [v, w] ∧ remapAll 2 0 grains lookup owner two sol = .ok f ∧
      w 1 1 = 1 / 20 ∧ f 1 1 = 0 := by
  refine ⟨_, _, _, rfl, rfl, by decide +kernel, by decide +kernel⟩

/-- The hypotheses are met. -/
theorem owned : Owned owner two := by
  rintro d ⟨c, hc, hd⟩
  simp only [cells, two, List.flatMap_cons, List.flatMap_nil, List.append_nil, List.cons_append, List.nil_append, List.mem_cons, List.not_mem_nil,
    or_false] at hc
  have hd' : d = 0 ∨ d = 1 ∨ d = 2 := by
    rcases hc with rfl | rfl
    · simp only [left, List.mem_cons, List.not_mem_nil, or_false] at hd; omega
    · simp only [right, List.mem_cons, List.not_mem_nil, or_false] at hd; omega
  rcases hd' with rfl | rfl | rfl
  · exact ⟨_, rfl, left, by simp, by simp [left]⟩
  · exact ⟨_, rfl, left, by simp, by simp [left]⟩
  · exact ⟨_, rfl, right, by simp, by simp [right]⟩

theorem present {c : RCell Nat} (hc : c ∈ cells two) {op g : Nat} : PresentAt lookup c op g ↔ c = right ∧ op = 0 ∧ g = 0 := by
  simp only [cells, two, List.flatMap_cons, List.flatMap_nil, List.append_nil, List.cons_append, List.nil_append, List.mem_cons, List.not_mem_nil,
    or_false] at hc
  constructor
  · rintro ⟨pid, row, s, h1, h2, h3⟩
    rcases hc with rfl | rfl
    · rcases op with _ | _ | op <;> simp [left] at h1
    · rcases op with _ | _ | op <;> simp [right] at h1
      subst h1
      simp only [lookup, List.getElem?_cons_zero, Option.some.injEq] at h2
      subst h2
      simp only [List.getElem?_cons_zero, Option.some.injEq, Prod.mk.injEq] at h3
      exact ⟨rfl, rfl, h3.1.symm⟩
  · rintro ⟨rfl, rfl, rfl⟩
    exact ⟨0, _, 0, rfl, rfl, rfl⟩

theorem get_grains {g : Nat} {G : Grain Unit ℚ} (h : grains.get? g = some G) : g = 0 ∧ G = grain := by
  have := OMap.mem_of_get? h
  simp only [grains, List.mem_singleton, Prod.mk.injEq] at this
  exact this

theorem remappable : Remappable 2 0 grains lookup (cells two) := by
  refine ⟨by simp [OMap.Sorted, grains], ?_, ?_, ?_, ?_, ?_⟩
  · intro p hp; simp only [grains, List.mem_singleton] at hp; subst hp; rfl
  · intro c hc op pid h
    simp only [cells, two, List.flatMap_cons, List.flatMap_nil, List.append_nil, List.cons_append, List.nil_append, List.mem_cons,
      List.not_mem_nil, or_false] at hc
    rcases hc with rfl | rfl
    · rcases op with _ | _ | op <;> simp [left] at h
    · rcases op with _ | _ | op <;> simp [right] at h
      subst h
      exact ⟨_, _, rfl, rfl⟩
  · intro c hc op g G h hG
    rw [(get_grains hG).2, ((present hc).1 h).2.1]; rfl
  · intro c hc g g' G G' h h' hne
    exact (hne (by rw [(get_grains h.2).1, (get_grains h'.2).1])).elim
  · intro p hp; simp only [grains, List.mem_singleton] at hp; subst hp; decide

theorem searched : Searched (1 / 10) 0 grains lookup (cells two) sol := by
  refine ⟨?_⟩
  rintro op d ⟨c, hc, hd⟩ ht
  have hd' : d = 0 ∨ d = 1 ∨ d = 2 := by
    simp only [cells, two, List.flatMap_cons, List.flatMap_nil, List.append_nil, List.cons_append, List.nil_append, List.mem_cons,
      List.not_mem_nil, or_false] at hc
    rcases hc with rfl | rfl
    · simp only [left, List.mem_cons, List.not_mem_nil, or_false] at hd; omega
    · simp only [right, List.mem_cons, List.not_mem_nil, or_false] at hd; omega
  have hop : op = 0 := by
    by_contra hne
    have : sol (op + 0) d = 0 := by simp [sol, hne]
    rw [this] at ht
    exact absurd ht (by norm_num)
  subst hop
  have hd2 : d = 2 := by
    rcases hd' with rfl | rfl | rfl
    · exact absurd ht (by decide +kernel)
    · exact absurd ht (by decide +kernel)
    · rfl
  subst hd2
  refine ⟨0, grain, rfl, rfl, ?_⟩
  intro c' hc' hdc
  refine (present hc').2 ⟨?_, rfl, rfl⟩
  simp only [cells, two, List.flatMap_cons, List.flatMap_nil, List.append_nil, List.cons_append, List.nil_append, List.mem_cons,
    List.not_mem_nil, or_false] at hc'
  rcases hc' with rfl | rfl
  · simp [left] at hdc
  · rfl

example : ∃ f f', remapAll 2 0 grains lookup owner two sol = .ok f ∧ remapAll 2 0 grains lookup (fun _ => 0) serial sol = .ok f' ∧
    ∀ o d, (∃ c ∈ cells two, d ∈ c.dofs) → f (o + 0) d = f' (o + 0) d ∨ (f (o + 0) d ≤ 1 / 10 ∧ f' (o + 0) d ≤ 1 / 10) :=
  C138_partition_partial (by norm_num) (by intro r hr; simp [two] at hr; rcases hr with rfl | rfl <;> exact ext_ok)
    (by intro r hr; simp [serial] at hr; subst hr; exact ext_ok) remappable owned
    (by rintro d ⟨c, hc, hd⟩; exact ⟨_, rfl, c, by simpa [cells, serial] using hc, hd⟩)
    (by intro c; simp [cells, two, serial]) sol searched

/-- The values inside of the grain have moved on both. -/
example : ∃ f, remapAll 2 0 grains lookup owner two sol = .ok f ∧ f 0 2 = 0 ∧ f 1 2 = 1 :=
  ⟨_, rfl, by decide +kernel, by decide +kernel⟩

end Ex138

end Verif.Props
