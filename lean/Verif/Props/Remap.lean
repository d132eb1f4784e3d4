import Mathlib.Tactic.IntervalCases
import Verif.Lemmas.Dfs
import Verif.Lemmas.RemapExec
import Verif.Spec.Remap
import Verif.Props.Reassign
/-!
# Remapping (C10, C11)
-/
namespace Verif.Props
open Verif Spec
variable {P K D : Type} [DecidableEq D] [Zero K] {nb off : Nat} {x : RemapExt}

/-! ## C11 -/

theorem Step.plain_inj {a b : Move} : Step.plain a = Step.plain b ↔ a = b :=
  ⟨fun h => congrArg Step.move h, fun h => by rw [h]⟩
theorem Step.toTemp_inj {a b : Move} : Step.toTemp a = Step.toTemp b ↔ a = b :=
  ⟨fun h => congrArg Step.move h, fun h => by rw [h]⟩
theorem Step.fromTemp_inj {a b : Move} : Step.fromTemp a = Step.fromTemp b ↔ a = b :=
  ⟨fun h => congrArg Step.move h, fun h => by rw [h]⟩

/-- **C11.** For every list of moves of pairwise different grains and every interference relation, the
schedule is computed without failing internal lookups and is correct. -/
theorem C11_schedule (hx : x.Ok) (ov : Move → Move → Bool) {rs : List Move}
    (hg : rs.Pairwise (fun a b => a.grain ≠ b.grain)) :
    ∃ steps, planMoves x ov rs = .ok steps ∧ GoodSchedule ov rs steps := by
  have hnd : rs.Nodup := hg.imp (fun h he => h (by rw [he]))
  obtain ⟨cut, direct, p1, p2, p3, p4⟩ := plan_core hx (ov := ov) hnd hg
  have hnd2 : (direct ++ cut).Nodup := p2.nodup_iff.2 hnd
  have hin : ∀ m, m ∈ rs ↔ m ∈ direct ∨ m ∈ cut := by
    intro m; rw [← p2.mem_iff]; simp
  have n1 : ∀ a b, Step.plain a ≠ Step.toTemp b := by intro a b h; injection h with _ _ h; simp at h
  have n2 : ∀ a b, Step.plain a ≠ Step.fromTemp b := by intro a b h; injection h with _ h _; simp at h
  have n3 : ∀ a b, Step.toTemp a ≠ Step.fromTemp b := by intro a b h; injection h with _ h _; simp at h
  have hlt : ∀ (i : Nat) m, (cut.reverse.map Step.toTemp ++ direct.map Step.plain ++
      cut.map Step.fromTemp)[i]? = some (Step.toTemp m) → i < cut.length := by
    intro i m h
    by_contra hc
    rw [List.append_assoc, List.getElem?_append_right (by simpa using hc)] at h
    have := List.mem_of_getElem? h
    simp only [List.mem_append, List.mem_map] at this
    rcases this with ⟨a, -, ha⟩ | ⟨a, -, ha⟩
    · exact n1 _ _ ha
    · exact n3 _ _ ha.symm
  have hge : ∀ (i : Nat) m, (cut.reverse.map Step.toTemp ++ direct.map Step.plain ++
      cut.map Step.fromTemp)[i]? = some (Step.fromTemp m) → cut.length + direct.length ≤ i := by
    intro i m h
    by_contra hc
    rw [List.getElem?_append_left (by simp; omega)] at h
    have := List.mem_of_getElem? h
    simp only [List.mem_append, List.mem_map] at this
    rcases this with ⟨a, -, ha⟩ | ⟨a, -, ha⟩
    · exact n3 _ _ ha
    · exact n2 _ _ ha
  have hmid : ∀ (i : Nat) m, (cut.reverse.map Step.toTemp ++ direct.map Step.plain ++
      cut.map Step.fromTemp)[i]? = some (Step.plain m) →
      cut.length ≤ i ∧ i < cut.length + direct.length ∧ direct[i - cut.length]? = some m := by
    intro i m h
    have h1 : cut.length ≤ i := by
      by_contra hc
      rw [List.append_assoc, List.getElem?_append_left (by simp; omega)] at h
      have := List.mem_of_getElem? h
      simp only [List.mem_map] at this
      obtain ⟨a, -, ha⟩ := this
      exact n1 _ _ ha.symm
    have h2 : i < cut.length + direct.length := by
      by_contra hc
      rw [List.getElem?_append_right (by simp; omega)] at h
      have := List.mem_of_getElem? h
      simp only [List.mem_map] at this
      obtain ⟨a, -, ha⟩ := this
      exact n2 _ _ ha.symm
    refine ⟨h1, h2, ?_⟩
    rw [List.getElem?_append_left (by simp; omega), List.getElem?_append_right (by simp; omega)] at h
    simp only [List.length_map, List.length_reverse, List.getElem?_map, Option.map_eq_some_iff] at h
    obtain ⟨a, ha, he⟩ := h
    rw [ha, Step.plain_inj.1 he]
  have c0 : ∀ (l : List Move) (f : Move → Step) (s : Step), (∀ m, f m ≠ s) →
      (l.map f).count s = 0 := by
    intro l f s h
    apply List.count_eq_zero_of_not_mem
    simp only [List.mem_map, not_exists, not_and]
    exact fun m _ => h m
  have cinj : ∀ (l : List Move) (f : Move → Step) (m : Move), Function.Injective f →
      (l.map f).count (f m) = l.count m := by
    intro l f m hf
    induction l with
    | nil => rfl
    | cons a l ih =>
      rw [List.map_cons, List.count_cons, List.count_cons, ih]
      by_cases ha : a = m
      · simp [ha]
      · have : f a ≠ f m := fun h => ha (hf h)
        simp [ha, this]
  have i1 : Function.Injective Step.plain := fun a b h => Step.plain_inj.1 h
  have i2 : Function.Injective Step.toTemp := fun a b h => Step.toTemp_inj.1 h
  have i3 : Function.Injective Step.fromTemp := fun a b h => Step.fromTemp_inj.1 h
  have hone : ∀ m ∈ rs, direct.count m + cut.count m = 1 := by
    intro m hm
    rw [← List.count_append]
    exact List.count_eq_one_of_mem hnd2 (by simpa using (hin m).1 hm)
  refine ⟨_, p1, ?_, ?_, ?_, ?_, ?_, ?_, ?_⟩
  · intro s hs
    simp only [List.mem_append, List.mem_map, List.mem_reverse] at hs
    rcases hs with (⟨m, hm, rfl⟩ | ⟨m, hm, rfl⟩) | ⟨m, hm, rfl⟩
    · exact ⟨m, (hin m).2 (Or.inr hm), Or.inr (Or.inl rfl)⟩
    · exact ⟨m, (hin m).2 (Or.inl hm), Or.inl rfl⟩
    · exact ⟨m, (hin m).2 (Or.inr hm), Or.inr (Or.inr rfl)⟩
  · intro m hm
    simp only [List.count_append]
    rw [c0 _ _ _ (fun a => (n1 m a).symm), cinj _ _ _ i1, c0 _ _ _ (fun a => (n2 m a).symm),
      cinj _ _ _ i2, c0 _ _ _ (fun a => n1 a m), c0 _ _ _ (fun a => (n3 m a).symm),
      List.count_reverse]
    have := hone m hm
    omega
  · intro m hm
    simp only [List.count_append]
    rw [c0 _ _ _ (fun a => (n1 m a).symm), cinj _ _ _ i1, c0 _ _ _ (fun a => (n2 m a).symm),
      cinj _ _ _ i3, c0 _ _ _ (fun a => n2 a m), c0 _ _ _ (fun a => n3 a m)]
    have := hone m hm
    omega
  · intro a b i j hab hov hdep hw hr
    rcases hw with hw | hw
    · rcases hr with hr | hr
      · obtain ⟨a1, a2, a3⟩ := hmid _ _ hw
        obtain ⟨b1, b2, b3⟩ := hmid _ _ hr
        have := p3 _ _ _ _ a3 b3 ⟨hab, hov, hdep⟩
        omega
      · have := hlt _ _ hr
        have := (hmid _ _ hw).1
        omega
    · have := hge _ _ hw
      rcases hr with hr | hr
      · have := (hmid _ _ hr).2.1; omega
      · have := hlt _ _ hr; omega
  · have e1 : ∀ l : List Move, (l.map Step.toTemp).filter (fun s => s.dst.isNone) =
        l.map Step.toTemp := by
      intro l; rw [List.filter_eq_self]; intro s hs
      obtain ⟨m, -, rfl⟩ := List.mem_map.1 hs; rfl
    have e2 : ∀ l : List Move, (l.map Step.fromTemp).filter (fun s => s.src.isNone) =
        l.map Step.fromTemp := by
      intro l; rw [List.filter_eq_self]; intro s hs
      obtain ⟨m, -, rfl⟩ := List.mem_map.1 hs; rfl
    have e3 : ∀ (l : List Move) (f : Move → Step) (p : Step → Bool), (∀ m, p (f m) = false) →
        (l.map f).filter p = [] := by
      intro l f p h
      rw [List.filter_eq_nil_iff]; intro s hs
      obtain ⟨m, -, rfl⟩ := List.mem_map.1 hs; rw [h]; simp
    simp only [List.filter_append]
    rw [e1, e2, e3 direct _ _ (fun _ => rfl), e3 direct _ _ (fun _ => rfl),
      e3 cut _ _ (fun _ => rfl), e3 cut.reverse _ _ (fun _ => rfl)]
    simp [Step.fromTemp]
  · intro i j a b ha hb
    have := hlt _ _ ha
    have := hge _ _ hb
    omega
  · intro m hm
    simp only [List.mem_append, List.mem_map, List.mem_reverse] at hm
    rcases hm with (⟨a, ha, he⟩ | ⟨a, ha, he⟩) | ⟨a, ha, he⟩
    · rw [← Step.toTemp_inj.1 he]; exact p4 a ha
    · exact (n1 _ _ he).elim
    · exact (n3 _ _ he.symm).elim

/-- **C11.** The depth first search used for cycle detection satisfies what `C11_schedule` asks for,
whatever the order in which edges are visited. -/
theorem C11_dfs_meets_contract {outOrd inOrd : List Move → List Move}
    (ho : ∀ l, List.Perm (outOrd l) l) (hi : ∀ l, List.Perm (inOrd l) l) :
    RemapExt.Ok ⟨dfsBack outOrd, inOrd⟩ :=
  ⟨dfsBack_contract ho, hi⟩

/-- **C11.** Two moves of the same grain to different destinations that collide with another move make
the second one disappear from the graph: pairwise different grains are needed. With `[a, b, c]` below,
where `b` and `c` belong to the same grain, `a` is written to order parameter 2 before `c` is read
from there. -/
theorem C11_same_grain_counterexample :
    let a : Move := ⟨0, 1, 2⟩
    let b : Move := ⟨1, 3, 4⟩
    let c : Move := ⟨1, 2, 5⟩
    ∃ steps, planMoves ⟨dfsBack id, id⟩ (fun _ _ => true) [a, b, c] = .ok steps ∧
      ¬ GoodSchedule (fun _ _ => true) [a, b, c] steps := by
  refine ⟨[Step.plain ⟨0, 1, 2⟩, Step.plain ⟨1, 3, 4⟩, Step.plain ⟨1, 2, 5⟩], by decide +kernel, ?_⟩
  intro h
  have := h.order ⟨0, 1, 2⟩ ⟨1, 2, 5⟩ 0 2 (by decide) rfl rfl (Or.inl rfl) (Or.inl rfl)
  omega

namespace Ex11

/-- a cycle of length three, a swap and a chain, in six order parameters plus one -/
def moves : List Move := [⟨0, 1, 2⟩, ⟨1, 2, 3⟩, ⟨2, 3, 1⟩, ⟨3, 4, 0⟩, ⟨4, 5, 6⟩, ⟨5, 6, 5⟩]

def ext : RemapExt := ⟨dfsBack id, id⟩

theorem ext_ok : ext.Ok := C11_dfs_meets_contract (fun _ => List.Perm.refl _) (fun _ => List.Perm.refl _)

example : moves.Pairwise (fun a b => a.grain ≠ b.grain) := by decide
example : planMoves ext (fun _ _ => true) moves = .ok
    [Step.toTemp ⟨5, 6, 5⟩, Step.toTemp ⟨2, 3, 1⟩, Step.plain ⟨1, 2, 3⟩, Step.plain ⟨0, 1, 2⟩,
     Step.plain ⟨4, 5, 6⟩, Step.plain ⟨3, 4, 0⟩, Step.fromTemp ⟨2, 3, 1⟩, Step.fromTemp ⟨5, 6, 5⟩] := by
  decide +kernel

end Ex11

/-! ## C10 -/

omit [DecidableEq D] [Zero K] in
theorem present_iff {lookup : Lookup} {c : RCell D} {op g : Nat} :
    PresentAt lookup c op g ↔ ∃ o, c.pids[op]? = some o ∧ entryAt lookup (o, op) = some (some g) := by
  unfold PresentAt entryAt
  constructor
  · rintro ⟨pid, row, s, h1, h2, h3⟩
    exact ⟨some pid, h1, by simp [h2, h3]⟩
  · rintro ⟨o, h1, h2⟩
    simp only [Option.bind_eq_some_iff, Option.map_eq_some_iff] at h2
    obtain ⟨pid, rfl, row, hr, e, he, he'⟩ := h2
    refine ⟨pid, row, e.2, h1, hr, ?_⟩
    rw [he, ← he']

/-- the moves at a cell -/
def cellMoves (grains : OMap (Grain P K)) (lookup : Lookup) (c : RCell D) : List Move :=
  localMoves (remapTable grains) (c.pids.zipIdx.filterMap (entryAt lookup))

omit [DecidableEq D] [Zero K] in
theorem mem_cellMoves {grains : OMap (Grain P K)} {lookup : Lookup} {cells : List (RCell D)}
    (h : Remappable nb off grains lookup cells) (c : RCell D) (m : Move) :
    m ∈ cellMoves grains lookup c ↔ ∃ g G, GrainAt lookup grains c g G ∧ G.op ≠ G.oldOp ∧
      m = ⟨g, G.oldOp, G.op⟩ := by
  unfold cellMoves localMoves GrainAt
  simp only [List.mem_filterMap, Option.bind_eq_some_iff]
  constructor
  · rintro ⟨og, ⟨y, hy, hy2⟩, g, rfl, hg⟩
    obtain ⟨G, g1, g2, g3⟩ := (remapTable_get? h.sorted h.ids g m).1 hg
    refine ⟨g, G, ⟨⟨y.2, present_iff.2 ⟨y.1, List.mem_zipIdx_iff_getElem?.1 hy, hy2⟩⟩, g1⟩, g2, g3⟩
  · rintro ⟨g, G, ⟨⟨op, hp⟩, hG⟩, hm, rfl⟩
    obtain ⟨o, h1, h2⟩ := present_iff.1 hp
    exact ⟨some g, ⟨(o, op), List.mem_zipIdx_iff_getElem?.2 h1, h2⟩, g, rfl,
      (remapTable_get? h.sorted h.ids g _).2 ⟨G, hG, hm, rfl⟩⟩

omit [DecidableEq D] [Zero K] in
theorem cellMoves_src {grains : OMap (Grain P K)} {lookup : Lookup} {cells : List (RCell D)}
    (h : Remappable nb off grains lookup cells) {c : RCell D} (hc : c ∈ cells) :
    (cellMoves grains lookup c).Pairwise (fun a b => a.src < b.src) := by
  unfold cellMoves localMoves
  rw [List.filterMap_filterMap, List.pairwise_filterMap]
  have hz : (c.pids.zipIdx).Pairwise (fun a b => a.2 < b.2) := by
    rw [List.pairwise_iff_getElem]
    intro i j hi hj hij
    simpa using hij
  have hsrc : ∀ y ∈ c.pids.zipIdx, ∀ m, (entryAt lookup y).bind
      (fun g => g.bind (remapTable grains).get?) = some m → m.src = y.2 := by
    intro y hy m hm
    simp only [Option.bind_eq_some_iff] at hm
    obtain ⟨og, h1, g, rfl, h2⟩ := hm
    obtain ⟨G, g1, g2, rfl⟩ := (remapTable_get? h.sorted h.ids g m).1 h2
    exact h.home c hc y.2 g G (present_iff.2 ⟨y.1, List.mem_zipIdx_iff_getElem?.1 hy, h1⟩) g1
  refine List.Pairwise.imp_of_mem ?_ hz
  intro a b ha hb hab m hm m' hm'
  rw [hsrc a ha m hm, hsrc b hb m' hm']
  exact hab

omit [DecidableEq D] [Zero K] in
theorem cellMoves_ok {grains : OMap (Grain P K)} {lookup : Lookup} {cells : List (RCell D)}
    (h : Remappable nb off grains lookup cells) {c : RCell D} (hc : c ∈ cells) :
    MovesOk nb off (cellMoves grains lookup c) := by
  have hmem := fun m => (mem_cellMoves h c m).1
  have hgr : (cellMoves grains lookup c).Pairwise (fun a b => a.grain ≠ b.grain) := by
    refine List.Pairwise.imp_of_mem ?_ (cellMoves_src h hc)
    intro a b ha hb hab he
    obtain ⟨g, G, h1, -, rfl⟩ := hmem a ha
    obtain ⟨g', G', h1', -, rfl⟩ := hmem b hb
    simp only at he hab
    subst he
    have h3 := h1'.2
    rw [h1.2] at h3
    simp only [Option.some.injEq] at h3
    subst h3; omega
  refine ⟨hgr, ?_, ?_, ?_⟩
  · refine List.Pairwise.imp_of_mem ?_ hgr
    intro a b ha hb hab
    obtain ⟨g, G, h1, -, rfl⟩ := hmem a ha
    obtain ⟨g', G', h1', -, rfl⟩ := hmem b hb
    exact h.apart c hc g g' G G' h1 h1' hab
  · intro m hm
    obtain ⟨g, G, h1, h2, rfl⟩ := hmem m hm
    exact h2.symm
  · intro m hm
    obtain ⟨g, G, h1, h2, rfl⟩ := hmem m hm
    have := h.blocks _ (OMap.mem_of_get? h1.2)
    exact ⟨this.2, this.1⟩

omit [DecidableEq D] [Zero K] in
/-- one grain per order parameter at a cell -/
theorem present_unique {lookup : Lookup} {c : RCell D} {op g g' : Nat}
    (h : PresentAt lookup c op g) (h' : PresentAt lookup c op g') : g = g' := by
  obtain ⟨pid, row, s, h1, h2, h3⟩ := h
  obtain ⟨pid', row', s', h1', h2', h3'⟩ := h'
  rw [h1] at h1'; simp only [Option.some.injEq] at h1'; subst h1'
  rw [h2] at h2'; simp only [Option.some.injEq] at h2'; subst h2'
  rw [h3] at h3'; simp only [Option.some.injEq, Prod.mk.injEq] at h3'
  exact h3'.1

/-- **C10.** Remapping does not fail and moves the values of all grains at once: inside a grain its values
arrive in the new order parameter, order parameters left and not taken over are zero, everything else
is unchanged. The first result counts the grains that change their order parameter.

The full claim is that at *every* degree of freedom of *every* cell covered by a grain its values are
found in the new order parameter. That is false (`C10_shared_dof_loss`): proved here for the degrees of
freedom all of whose cells are covered by the grain, and for a single cell without restriction
(`C10_at_cell`). -/
theorem C10_remap_partial (hx : x.Ok) {grains : OMap (Grain P K)} {lookup : Lookup} {cells : List (RCell D)}
    (h : Remappable nb off grains lookup cells) (sol : Fld D K) :
    ∃ sol', remapNew x nb off grains lookup cells sol =
        .ok ((grains.filter (fun p => decide (p.2.op ≠ p.2.oldOp))).length, sol') ∧
      Remapped off grains lookup cells sol sol' := by
  have hlen : (remapTable grains).length =
      (grains.filter (fun p => decide (p.2.op ≠ p.2.oldOp))).length := by
    rw [remapTable_eq h.sorted h.ids, List.length_map]
  have hrun : ∃ sol', remapNew x nb off grains lookup cells sol =
      .ok ((grains.filter (fun p => decide (p.2.op ≠ p.2.oldOp))).length, sol') ∧
      CellsRes off sol (cellMoves grains lookup) cells sol sol' := by
    unfold remapNew
    simp only
    rw [hlen]
    by_cases h0 : (grains.filter (fun p => decide (p.2.op ≠ p.2.oldOp))).length = 0
    · rw [if_pos h0]
      refine ⟨sol, by rw [h0], ?_⟩
      have hnil : ∀ c : RCell D, cellMoves grains lookup c = [] := by
        intro c
        rw [List.eq_nil_iff_forall_not_mem]
        intro m hm
        obtain ⟨g, G, h1, h2, rfl⟩ := (mem_cellMoves h c m).1 hm
        rw [List.length_eq_zero_iff, List.filter_eq_nil_iff] at h0
        exact h0 _ (OMap.mem_of_get? h1.2) (by simpa using h2)
      have : ∀ cs : List (RCell D), CellsRes off sol (cellMoves grains lookup) cs sol sol := by
        intro cs
        induction cs with
        | nil => exact .nil _
        | cons c cs ih =>
          refine .cons ?_ ih
          rw [hnil c]
          exact ⟨by simp, by simp, fun _ _ _ => rfl⟩
      exact this cells
    · rw [if_neg h0]
      obtain ⟨cache', sol', t1, t2⟩ := remapCells_ok (nb := nb) (off := off) (copy := sol) hx
        (tbl := remapTable grains) (lookup := lookup) (mv := cellMoves grains lookup) cells [] sol
        (fun c hc => ⟨_, grainsAtCell_eq (h.valid c hc), rfl, cellMoves_ok h hc⟩)
        (by intro gs steps hl; simp at hl)
      rw [t1]
      exact ⟨sol', rfl, t2⟩
  obtain ⟨sol', e1, e2⟩ := hrun
  refine ⟨sol', e1, ?_, ?_, ?_, ?_⟩
  · intro g G d hex hall
    by_cases hm : G.op ≠ G.oldOp
    · exact e2.moved (m := ⟨g, G.oldOp, G.op⟩)
        (fun c hc hd => (mem_cellMoves h c _).2 ⟨g, G, hall c hc hd, hm, rfl⟩) (Or.inl hex)
    · simp only [ne_eq, not_not] at hm
      rw [← hm]
      apply e2.other
      intro c hc hd m hmm
      obtain ⟨g', G', h1, h2, rfl⟩ := (mem_cellMoves h c m).1 hmm
      have hg := hall c hc hd
      have hgg : g' ≠ g := by
        intro he
        subst he
        have := hg.2
        rw [h1.2] at this
        simp only [Option.some.injEq] at this
        subst this
        exact h2 hm
      simp only
      refine ⟨fun he => h.apart c hc g' g G' G h1 hg hgg (by omega), fun he => ?_⟩
      obtain ⟨op, hp⟩ := hg.1
      obtain ⟨op', hp'⟩ := h1.1
      have o1 := h.home c hc op g G hp hg.2
      have o2 := h.home c hc op' g' G' hp' h1.2
      have : op' = op := by omega
      subst this
      exact hgg (present_unique hp' hp)
  · intro o d hno hex
    apply e2.vacated
    · intro c hc hd m hm
      obtain ⟨g, G, h1, h2, rfl⟩ := (mem_cellMoves h c m).1 hm
      exact hno c hc hd g G h1
    · left
      obtain ⟨c, hc, hd, g, G, h1, h2⟩ := hex
      refine ⟨c, hc, hd, ⟨g, G.oldOp, G.op⟩, (mem_cellMoves h c _).2 ⟨g, G, h1, ?_, rfl⟩, h2⟩
      have := hno c hc hd g G h1
      rw [h2]; exact this
  · intro o d hno
    apply e2.other
    intro c hc hd m hm
    obtain ⟨g, G, h1, h2, rfl⟩ := (mem_cellMoves h c m).1 hm
    have := hno c hc hd g G h1 h2
    simp only
    omega
  · intro b d hb
    apply e2.other
    intro c hc hd m hm
    omega

/-- **C10.** The full claim for the update of a single cell: at all its degrees of freedom, for any
combination of simultaneous moves. -/
theorem C10_at_cell (hx : x.Ok) {grains : OMap (Grain P K)} {lookup : Lookup} {c : RCell D}
    (h : Remappable nb off grains lookup [c]) (sol : Fld D K) :
    ∃ n sol', remapNew x nb off grains lookup [c] sol = .ok (n, sol') ∧ ∀ d ∈ c.dofs,
      (∀ g G, GrainAt lookup grains c g G → sol' (G.op + off) d = sol (G.oldOp + off) d) ∧
      (∀ g G, GrainAt lookup grains c g G →
        (∀ g' G', GrainAt lookup grains c g' G' → G'.op ≠ G.oldOp) → sol' (G.oldOp + off) d = 0) ∧
      (∀ o, (∀ g G, GrainAt lookup grains c g G → G.op ≠ o ∧ G.oldOp ≠ o) →
        sol' (o + off) d = sol (o + off) d) := by
  obtain ⟨sol', h1, h2⟩ := C10_remap_partial hx h sol
  refine ⟨_, sol', h1, fun d hd => ⟨fun g G hg => ?_, fun g G hg hno => ?_, fun o ho => ?_⟩⟩
  · exact h2.grain g G d ⟨c, by simp, hd⟩ (by simpa using fun _ => hg)
  · exact h2.vacated _ d (by simpa using fun _ => hno) ⟨c, by simp, hd, g, G, hg, rfl⟩
  · exact h2.untouched o d (by simpa using fun _ g G hg _ => ho g G hg)

namespace Ex10
open Ex06

/-- a grain moved from order parameter `o` to `n` -/
def mvd (id o n : Nat) : Grain Rat Rat := ⟨id, n, o, [segQ 0], 1, 10, .none, 1, 1⟩

/-! ### swap and shift: grains 0 and 1 swap order parameters 0 and 1, grain 2 moves from 2 to 3; the
solution has one block in front of the order parameters, the two cells share degree of freedom 1. -/

def grains : OMap (Grain Rat Rat) := [(0, mvd 0 0 1), (1, mvd 1 1 0), (2, mvd 2 2 3)]
def lookup : Lookup := [[(some 0, 0)], [(some 1, 0)], [(some 2, 0)]]
def cells : List (RCell Nat) := [⟨[0, 1], [some 0, some 0, some 0]⟩, ⟨[1, 2], [some 0, some 0, some 0]⟩]
def sol : Fld Nat Rat := fun b d => 10 * b + d

theorem present {c : RCell Nat} (hc : c ∈ cells) {op g : Nat} (h : PresentAt lookup c op g) :
    op = g ∧ g < 3 := by
  obtain ⟨pid, row, s, h1, h2, h3⟩ := h
  have hl : op < 3 := by
    have := (List.getElem?_eq_some_iff.1 h2).1
    simpa [lookup] using this
  have : pid = 0 := by
    simp [cells] at hc
    rcases hc with rfl | rfl <;> (interval_cases op <;> simp at h1 <;> omega)
  subst this
  interval_cases op <;> simp [lookup] at h2 <;> subst h2 <;> simp at h3 <;> omega

theorem remappable : Remappable 5 1 grains lookup cells where
  sorted := by simp [grains, OMap.Sorted]
  ids := by simp [grains, mvd]
  valid := by
    intro c hc op pid h
    simp [cells] at hc
    have hl : op < 3 := by
      have := (List.getElem?_eq_some_iff.1 h).1
      rcases hc with rfl | rfl <;> simpa using this
    rcases hc with rfl | rfl <;> interval_cases op <;> simp at h <;> subst h <;> simp [lookup]
  home := by
    intro c hc op g G hp hG
    obtain ⟨rfl, hl⟩ := present hc hp
    interval_cases op <;> simp [grains, OMap.get?, mvd] at hG <;> rw [← hG]
  apart := by
    intro c hc g g' G G' hg hg' hne
    obtain ⟨⟨op, hp⟩, hG⟩ := hg
    obtain ⟨⟨op', hp'⟩, hG'⟩ := hg'
    obtain ⟨-, hl⟩ := present hc hp
    obtain ⟨-, hl'⟩ := present hc hp'
    interval_cases g <;> interval_cases g' <;> simp [grains, OMap.get?, mvd] at hG hG' <;>
      subst hG <;> subst hG' <;> simp at hne ⊢
  blocks := by simp [grains, mvd]

/-- all values after the remapping -/
def table (r : Res (Nat × Fld Nat Rat)) : Res (Nat × List (List Rat)) :=
  r.bind fun p => .ok (p.1, (List.range 5).map fun b => (List.range 3).map (p.2 b))

example : table (remapNew Ex11.ext 5 1 grains lookup cells sol) =
    .ok (3, [[0, 1, 2], [20, 21, 22], [10, 11, 12], [0, 0, 0], [30, 31, 32]]) := by decide +kernel

end Ex10

/-- **C10.** At a degree of freedom shared by a cell of a grain and a cell without that grain the values of
the grain can be lost: grain 0 moves from order parameter 0 to 1 at the first cell, grain 1 moves from
1 to 2 at the second cell, and clearing order parameter 1 there removes the value of grain 0 at the
shared degree of freedom. All order parameters are zero there afterwards. In the other order of the
cells the value is kept. This is why `C10_remap_partial` speaks about degrees of freedom inside a grain. -/
theorem C10_shared_dof_loss :
    let grains : OMap (Grain Rat Rat) := [(0, Ex10.mvd 0 0 1), (1, Ex10.mvd 1 1 2)]
    let lookup : Lookup := [[(some 0, 0)], [(some 1, 0)], []]
    let a : RCell Nat := ⟨[0, 1], [some 0, none, none]⟩
    let b : RCell Nat := ⟨[1, 2], [none, some 0, none]⟩
    let sol : Fld Nat Rat := fun b d => if b = 0 then 3 - d else 0
    Ex10.table (remapNew Ex11.ext 3 0 grains lookup [a, b] sol) =
        .ok (2, [[0, 0, 1], [3, 0, 0], [0, 0, 0], [0, 0, 0], [0, 0, 0]]) ∧
    Ex10.table (remapNew Ex11.ext 3 0 grains lookup [b, a] sol) =
        .ok (2, [[0, 0, 1], [3, 2, 0], [0, 0, 0], [0, 0, 0], [0, 0, 0]]) := by
  decide +kernel

/-- **C10.** A grain whose new order parameter has no block in the solution vector: undefined behaviour. -/
theorem C10_missing_block_ub :
    let sol : Fld Nat Rat := fun b d => b + d
    Ex10.table (remapNew Ex11.ext 2 1 [(0, Ex10.mvd 0 0 1)] [[(some 0, 0)]] [⟨[0, 1], [some 0]⟩] sol) =
      .ub := by
  decide +kernel

end Verif.Props
