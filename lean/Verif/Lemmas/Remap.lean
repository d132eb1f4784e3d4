import Mathlib.Data.List.Basic
import Mathlib.Data.List.Perm.Basic
import Mathlib.Data.List.Nodup
import Verif.Model.Remap
/-!
# Lemmas on the remapping schedule
-/
namespace Verif
namespace RGraph

structure WF (g : RGraph) : Prop where
  vnd : g.verts.Nodup
  end_ : g.edges.Nodup
  ends : ∀ e ∈ g.edges, e.src ∈ g.verts ∧ e.dst ∈ g.verts

theorem addVertex_verts (g : RGraph) (v w : Nat) :
    w ∈ (g.addVertex v).verts ↔ w ∈ g.verts ∨ w = v := by
  unfold addVertex
  split
  · rename_i h
    constructor
    · exact Or.inl
    · rintro (h' | rfl)
      · exact h'
      · exact h
  · simp

theorem addVertex_edges (g : RGraph) (v : Nat) : (g.addVertex v).edges = g.edges := by
  unfold addVertex; split <;> rfl

theorem addVertex_wf {g : RGraph} (h : g.WF) (v : Nat) : (g.addVertex v).WF := by
  refine ⟨?_, by rw [addVertex_edges]; exact h.end_, ?_⟩
  · unfold addVertex
    split
    · exact h.vnd
    · rename_i hv
      rw [List.nodup_append]
      refine ⟨h.vnd, by simp, ?_⟩
      intro a ha b hb hab
      simp at hb; subst hb; subst hab; exact hv ha
  · intro e he
    rw [addVertex_edges] at he
    have := h.ends e he
    exact ⟨(addVertex_verts ..).2 (Or.inl this.1), (addVertex_verts ..).2 (Or.inl this.2)⟩

theorem addRemapping_edges (g : RGraph) (m e : Move) :
    e ∈ (g.addRemapping m).edges ↔ e ∈ g.edges ∨ e = m := by
  unfold addRemapping
  dsimp only
  simp only [addVertex_edges]
  split
  · rename_i h
    simp only [addVertex_edges]
    constructor
    · exact Or.inl
    · rintro (h' | rfl)
      · exact h'
      · exact h
  · simp

theorem addRemapping_wf {g : RGraph} (h : g.WF) (m : Move) : (g.addRemapping m).WF := by
  have h2 := addVertex_wf (addVertex_wf h m.src) m.dst
  have hs : m.src ∈ ((g.addVertex m.src).addVertex m.dst).verts := by
    rw [addVertex_verts, addVertex_verts]; simp
  have hd : m.dst ∈ ((g.addVertex m.src).addVertex m.dst).verts := by
    rw [addVertex_verts]; simp
  unfold addRemapping
  dsimp only
  split
  · exact h2
  · rename_i hm
    refine ⟨h2.vnd, ?_, ?_⟩
    · simp only
      rw [List.nodup_append]
      refine ⟨h2.end_, by simp, ?_⟩
      intro a ha b hb hab
      simp at hb; subst hb; subst hab; exact hm ha
    · intro e he
      simp only at he ⊢
      rcases List.mem_append.1 he with h' | h'
      · exact h2.ends e h'
      · simp at h'; subst h'; exact ⟨hs, hd⟩

theorem addAll : ∀ (l : List Move) (g : RGraph), g.WF → (l.foldl addRemapping g).WF ∧
    ∀ e, e ∈ (l.foldl addRemapping g).edges ↔ e ∈ g.edges ∨ e ∈ l
  | [], g, h => ⟨h, by simp⟩
  | m :: l, g, h => by
    obtain ⟨h1, h2⟩ := addAll l (g.addRemapping m) (addRemapping_wf h m)
    refine ⟨h1, fun e => ?_⟩
    rw [List.foldl_cons, h2, addRemapping_edges]
    simp [or_assoc]

theorem empty_wf : (RGraph.mk [] []).WF := ⟨by simp, by simp, by simp⟩

end RGraph

/-- pairs of moves with a dependency -/
def Dep (ov : Move → Move → Bool) (a b : Move) : Prop := a ≠ b ∧ ov a b = true ∧ a.dst = b.src

instance (ov : Move → Move → Bool) (a b : Move) : Decidable (Dep ov a b) := by
  unfold Dep; infer_instance

def depList (ov : Move → Move → Bool) (rs : List Move) : List Move :=
  rs.flatMap fun ri => rs.flatMap fun rj => if Dep ov ri rj then [ri, rj] else []

theorem find_grain {rs : List Move} (hg : rs.Pairwise (fun a b => a.grain ≠ b.grain)) {r : Move}
    (hr : r ∈ rs) : rs.find? (fun a => a.grain == r.grain) = some r := by
  induction rs with
  | nil => simp at hr
  | cons a rs ih =>
    rw [List.pairwise_cons] at hg
    rcases List.mem_cons.1 hr with rfl | h
    · simp
    · have := hg.1 r h
      rw [List.find?_cons_of_neg (by simpa using this)]
      exact ih hg.2 h

theorem buildRemapGraph_eq {ov : Move → Move → Bool} {rs : List Move}
    (hg : rs.Pairwise (fun a b => a.grain ≠ b.grain)) :
    buildRemapGraph ov rs = .ok ((depList ov rs).foldl RGraph.addRemapping ⟨[], []⟩) := by
  have inner : ∀ (ri : Move) (l : List Move) (g : RGraph), (∀ x ∈ l, x ∈ rs) →
      l.foldlM (fun (g : RGraph) rj =>
        if ri ≠ rj ∧ ov ri rj = true ∧ ri.dst = rj.src then
          match rs.find? (fun a => a.grain == rj.grain) with
          | some re => Res.ok ((g.addRemapping ri).addRemapping re)
          | none => Res.exc .assertThrow
        else Res.ok g) g =
      .ok ((l.flatMap fun rj => if Dep ov ri rj then [ri, rj] else []).foldl
        RGraph.addRemapping g) := by
    intro ri l
    induction l with
    | nil => intro g _; rfl
    | cons rj l ih =>
      intro g hl
      rw [List.foldlM_cons]
      by_cases hd : Dep ov ri rj
      · have hd' : ri ≠ rj ∧ ov ri rj = true ∧ ri.dst = rj.src := hd
        rw [if_pos hd', find_grain hg (hl rj (by simp))]
        simp only [Res.ok_bind]
        rw [ih _ (fun x hx => hl x (by simp [hx]))]
        simp [hd]
      · have hd' : ¬ (ri ≠ rj ∧ ov ri rj = true ∧ ri.dst = rj.src) := hd
        rw [if_neg hd']
        simp only [Res.ok_bind]
        rw [ih _ (fun x hx => hl x (by simp [hx]))]
        simp [hd]
  have outer : ∀ (l : List Move) (g : RGraph), (∀ x ∈ l, x ∈ rs) →
      l.foldlM (fun g ri => rs.foldlM (fun (g : RGraph) rj =>
        if ri ≠ rj ∧ ov ri rj = true ∧ ri.dst = rj.src then
          match rs.find? (fun a => a.grain == rj.grain) with
          | some re => Res.ok ((g.addRemapping ri).addRemapping re)
          | none => Res.exc .assertThrow
        else Res.ok g) g) g =
      .ok ((l.flatMap fun ri => rs.flatMap fun rj => if Dep ov ri rj then [ri, rj] else []).foldl
        RGraph.addRemapping g) := by
    intro l
    induction l with
    | nil => intro g _; rfl
    | cons ri l ih =>
      intro g hl
      rw [List.foldlM_cons, inner ri rs g (fun _ h => h)]
      simp only [Res.ok_bind]
      rw [ih _ (fun x hx => hl x (by simp [hx]))]
      simp
  exact outer rs _ (fun _ h => h)

theorem mem_depList {ov : Move → Move → Bool} {rs : List Move} {e : Move} :
    e ∈ depList ov rs ↔ ∃ a ∈ rs, ∃ b ∈ rs, Dep ov a b ∧ (e = a ∨ e = b) := by
  unfold depList
  simp only [List.mem_flatMap]
  constructor
  · rintro ⟨a, ha, b, hb, h⟩
    split at h
    · rename_i hd
      simp at h
      exact ⟨a, ha, b, hb, hd, h⟩
    · simp at h
  · rintro ⟨a, ha, b, hb, hd, h⟩
    exact ⟨a, ha, b, hb, by simp [hd, h]⟩

/-! ## cycle resolution -/

theorem resolve_aux (es : List Move) : ∀ (cut rs : List Move) (g : RGraph), es.Nodup → rs.Nodup →
    g.edges.Nodup → (∀ e ∈ es, e ∈ rs) →
    ∃ rs' g', es.foldlM RGraph.resolveStep (cut, rs, g) = .ok (cut ++ es, rs', g') ∧ List.Perm (rs' ++ es) rs ∧
      g'.verts = g.verts ∧ g'.edges.Nodup ∧ ∀ e, e ∈ g'.edges ↔ e ∈ g.edges ∧ e ∉ es := by
  induction es with
  | nil => intro cut rs g _ _ hg _; exact ⟨rs, g, by simp, by simp, rfl, hg, by simp⟩
  | cons e es ih =>
    intro cut rs g hnd hrs hg hsub
    rw [List.nodup_cons] at hnd
    have he := hsub e (by simp)
    have hstep : RGraph.resolveStep (cut, rs, g) e =
        .ok (cut ++ [e], rs.erase e, ⟨g.verts, g.edges.erase e⟩) := if_pos he
    rw [List.foldlM_cons, hstep]
    simp only [Res.ok_bind]
    obtain ⟨rs', g', h1, h2, h3, h4, h5⟩ := ih (cut ++ [e]) (rs.erase e)
      { g with edges := g.edges.erase e } hnd.2 (hrs.erase e) (hg.erase e)
      (fun x hx => (List.mem_erase_of_ne (fun h => hnd.1 (by rw [← h]; exact hx))).2 (hsub x (by simp [hx])))
    refine ⟨rs', g', by rw [h1]; simp, ?_, h3, h4, ?_⟩
    · have := List.perm_middle (a := e) (l₁ := rs') (l₂ := es)
      exact this.trans ((h2.cons e).trans (List.perm_cons_erase he).symm)
    · intro x
      rw [h5]
      simp only [List.mem_cons, not_or]
      by_cases hx : x = e
      · subst hx
        constructor
        · rintro ⟨h, -⟩; exact (List.Nodup.not_mem_erase hg h).elim
        · rintro ⟨-, h, -⟩; exact (h rfl).elim
      · rw [List.mem_erase_of_ne hx]
        simp [hx]

/-! ## rearrangement -/

theorem takeEdges_ok : ∀ (es old new : List Move), es.Nodup → old.Nodup → (∀ e ∈ es, e ∈ old) →
    ∃ old', RGraph.takeEdges es (old, new) = .ok (old', new ++ es) ∧ List.Perm (old' ++ es) old
  | [], old, new, _, _, _ => ⟨old, by simp [RGraph.takeEdges], by simp⟩
  | e :: es, old, new, hnd, hold, hsub => by
    rw [List.nodup_cons] at hnd
    have he := hsub e (by simp)
    obtain ⟨old', h1, h2⟩ := takeEdges_ok es (old.erase e) (new ++ [e]) hnd.2 (hold.erase e)
      (fun x hx => (List.mem_erase_of_ne (fun h => hnd.1 (by rw [← h]; exact hx))).2 (hsub x (by simp [hx])))
    refine ⟨old', ?_, ?_⟩
    · unfold RGraph.takeEdges at h1 ⊢
      rw [List.foldlM_cons]
      rw [if_pos he]
      simp only [Res.ok_bind]
      rw [h1]; simp
    · have := List.perm_middle (a := e) (l₁ := old') (l₂ := es)
      exact this.trans ((h2.cons e).trans (List.perm_cons_erase he).symm)

/-- every move in `new` is preceded by all moves of `E0` that vacate its destination -/
def OrdOk (E0 new : List Move) : Prop :=
  ∀ (i : Nat) (e e' : Move), new[i]? = some e → e' ∈ E0 → e'.src = e.dst →
    ∃ j, j < i ∧ new[j]? = some e'

structure PeelInv (E0 R : List Move) (g : RGraph) (old new : List Move) : Prop where
  wf : g.WF
  perm : List.Perm (new ++ old) R
  eold : ∀ e ∈ g.edges, e ∈ old
  esub : ∀ e ∈ g.edges, e ∈ E0
  nsub : ∀ e ∈ new, e ∈ E0
  cover : ∀ e ∈ E0, e ∈ g.edges ∨ e ∈ new
  ord : OrdOk E0 new

theorem exists_peelable {E : List Move} (hr : Ranked E) (hne : E ≠ []) :
    ∃ e ∈ E, ∀ e' ∈ E, e'.src ≠ e.dst := by
  obtain ⟨rank, hr⟩ := hr
  -- edge with minimal rank of its destination
  have : ∃ e ∈ E, ∀ e' ∈ E, rank e.dst ≤ rank e'.dst := by
    clear hr
    induction E with
    | nil => exact (hne rfl).elim
    | cons a E ih =>
      by_cases hE : E = []
      · subst hE; exact ⟨a, by simp, by simp⟩
      · obtain ⟨e, he, hmin⟩ := ih hE
        by_cases hle : rank a.dst ≤ rank e.dst
        · refine ⟨a, by simp, ?_⟩
          intro e' he'
          rcases List.mem_cons.1 he' with rfl | h
          · exact Nat.le_refl _
          · exact Nat.le_trans hle (hmin e' h)
        · refine ⟨e, by simp [he], ?_⟩
          intro e' he'
          rcases List.mem_cons.1 he' with rfl | h
          · omega
          · exact hmin e' h
  obtain ⟨e, he, hmin⟩ := this
  refine ⟨e, he, ?_⟩
  intro e' he' heq
  have h1 := hr e' he'
  have h2 := hmin e' he'
  rw [heq] at h1
  omega

theorem Ranked.sub {E E' : List Move} (h : Ranked E) (hs : ∀ e ∈ E', e ∈ E) : Ranked E' := by
  obtain ⟨r, hr⟩ := h
  exact ⟨r, fun e he => hr e (hs e he)⟩

theorem peel_ok {inOrd : List Move → List Move} (hord : ∀ l, List.Perm (inOrd l) l)
    {E0 R : List Move} (hacyc : Ranked E0) (hR : R.Nodup) : ∀ (n : Nat) (g : RGraph) (old new : List Move),
    PeelInv E0 R g old new → g.verts.length ≤ n →
    ∃ old' new', RGraph.peel inOrd n g (old, new) = .ok (old', new') ∧
      List.Perm (new' ++ old') R ∧ OrdOk E0 new' ∧ (∀ e, e ∈ new' ↔ e ∈ E0)
  | 0, g, old, new, hI, hn => by
    have hv : g.verts = [] := List.eq_nil_of_length_eq_zero (by omega)
    refine ⟨old, new, rfl, hI.perm, hI.ord, fun e => ⟨hI.nsub e, fun he => ?_⟩⟩
    rcases hI.cover e he with h | h
    · have := (hI.wf.ends e h).1
      rw [hv] at this; simp at this
    · exact h
  | n + 1, g, old, new, hI, hn => by
    rw [RGraph.peel]
    split
    · rename_i hnone
      refine ⟨old, new, rfl, hI.perm, hI.ord, fun e => ⟨hI.nsub e, fun he => ?_⟩⟩
      rcases hI.cover e he with h | h
      · exfalso
        obtain ⟨m, hm, hmin⟩ := exists_peelable (hacyc.sub hI.esub) (List.ne_nil_of_mem h)
        rw [List.find?_eq_none] at hnone
        have := hnone m.dst (hI.wf.ends m hm).2
        apply this
        simp only [Bool.and_eq_true, Bool.not_eq_true', List.any_eq_false, beq_iff_eq,
          List.any_eq_true]
        exact ⟨fun e' he' => hmin e' he', m, hm, rfl⟩
      · exact h
    · rename_i v hv
      have hmem := List.mem_of_find?_eq_some hv
      have hcond := List.find?_some hv
      simp only [Bool.and_eq_true, Bool.not_eq_true', List.any_eq_false, beq_iff_eq,
        List.any_eq_true] at hcond
      have hp := hord (g.edges.filter (fun e => e.dst == v))
      have holdnd : old.Nodup := (List.nodup_append.1 (hI.perm.nodup_iff.2 hR)).2.1
      have hmemp : ∀ e, e ∈ inOrd (g.edges.filter (fun e => e.dst == v)) ↔
          e ∈ g.edges ∧ e.dst = v := by
        intro e; rw [hp.mem_iff]; simp
      obtain ⟨old', h1, h2⟩ := takeEdges_ok (inOrd (g.edges.filter (fun e => e.dst == v))) old new
        (hp.nodup_iff.2 (List.Nodup.filter _ hI.wf.end_)) holdnd
        (fun e he => hI.eold e ((hmemp e).1 he).1)
      rw [h1]
      simp only [Res.ok_bind]
      refine peel_ok hord hacyc hR n _ old' _ ⟨⟨?_, ?_, ?_⟩, ?_, ?_, ?_, ?_, ?_, ?_⟩ ?_
      · exact hI.wf.vnd.erase v
      · exact List.Nodup.filter _ hI.wf.end_
      · intro e he
        simp only [List.mem_filter, Bool.not_eq_true', beq_eq_false_iff_ne] at he
        have hends := hI.wf.ends e he.1
        refine ⟨(List.mem_erase_of_ne ?_).2 hends.1, (List.mem_erase_of_ne he.2).2 hends.2⟩
        exact fun h => hcond.1 e he.1 h
      · have hq := hI.perm
        refine List.Perm.trans ?_ hq
        rw [List.append_assoc]
        exact List.Perm.append_left _ (List.perm_append_comm.trans h2)
      · intro e he
        simp only [List.mem_filter, Bool.not_eq_true', beq_eq_false_iff_ne] at he
        have := h2.mem_iff.2 (hI.eold e he.1)
        rcases List.mem_append.1 this with h | h
        · exact h
        · exact (he.2 ((hmemp e).1 h).2).elim
      · intro e he
        exact hI.esub e (List.mem_of_mem_filter he)
      · intro e he
        rcases List.mem_append.1 he with h | h
        · exact hI.nsub e h
        · exact hI.esub e ((hmemp e).1 h).1
      · intro e he
        rcases hI.cover e he with h | h
        · by_cases hd : e.dst = v
          · right; exact List.mem_append.2 (Or.inr ((hmemp e).2 ⟨h, hd⟩))
          · left; simp [h, hd]
        · right; simp [h]
      · intro i e e' hi he' heq
        by_cases hil : i < new.length
        · rw [List.getElem?_append_left hil] at hi
          obtain ⟨j, hj1, hj2⟩ := hI.ord i e e' hi he' heq
          exact ⟨j, hj1, by rw [List.getElem?_append_left (by omega)]; exact hj2⟩
        · rw [List.getElem?_append_right (Nat.le_of_not_lt hil)] at hi
          have hev := ((hmemp e).1 (List.mem_of_getElem? hi)).2
          rcases hI.cover e' he' with h | h
          · exact (hcond.1 e' h (heq.trans hev)).elim
          · obtain ⟨j, hj⟩ := List.mem_iff_getElem?.1 h
            have hjl := (List.getElem?_eq_some_iff.1 hj).1
            exact ⟨j, by omega, by rw [List.getElem?_append_left hjl]; exact hj⟩
      · simp only
        have := List.length_erase_of_mem hmem
        have : 0 < g.verts.length := List.length_pos_of_mem hmem
        omega

theorem cut_foldl : ∀ (cut : List Move) (mid : List Step),
    cut.foldl (fun seq m => Step.toTemp m :: (seq ++ [Step.fromTemp m])) mid =
      cut.reverse.map Step.toTemp ++ mid ++ cut.map Step.fromTemp
  | [], mid => by simp
  | m :: cut, mid => by
    rw [List.foldl_cons, cut_foldl cut]
    simp

/-- The complete schedule. -/
theorem plan_core {x : RemapExt} (hx : x.Ok) {ov : Move → Move → Bool} {rs : List Move}
    (hnd : rs.Nodup) (hg : rs.Pairwise (fun a b => a.grain ≠ b.grain)) :
    ∃ cut direct : List Move,
      planMoves x ov rs = .ok (cut.reverse.map Step.toTemp ++ direct.map Step.plain ++
        cut.map Step.fromTemp) ∧
      List.Perm (direct ++ cut) rs ∧
      (∀ (i j : Nat) (a b : Move), direct[i]? = some a → direct[j]? = some b → Dep ov a b → j < i) ∧
      ∀ c ∈ cut, Reach rs c.dst c.src := by
  obtain ⟨hwf, hmem⟩ := RGraph.addAll (depList ov rs) ⟨[], []⟩ RGraph.empty_wf
  unfold planMoves
  rw [buildRemapGraph_eq hg]
  simp only [Res.ok_bind]
  generalize (depList ov rs).foldl RGraph.addRemapping ⟨[], []⟩ = g at hwf hmem
  simp only [List.not_mem_nil, false_or] at hmem
  have hsubrs : ∀ e ∈ g.edges, e ∈ rs := by
    intro e he
    obtain ⟨a, ha, b, hb, -, h⟩ := mem_depList.1 ((hmem e).1 he)
    rcases h with rfl | rfl
    · exact ha
    · exact hb
  have hdep : ∀ a ∈ rs, ∀ b ∈ rs, Dep ov a b → a ∈ g.edges ∧ b ∈ g.edges := by
    intro a ha b hb hd
    exact ⟨(hmem a).2 (mem_depList.2 ⟨a, ha, b, hb, hd, Or.inl rfl⟩),
      (hmem b).2 (mem_depList.2 ⟨a, ha, b, hb, hd, Or.inr rfl⟩)⟩
  by_cases hv : g.verts = []
  · rw [if_pos hv]
    refine ⟨[], rs, by simp, by simp, ?_, by simp⟩
    intro i j a b hi hj hd
    have := (hdep a (List.mem_of_getElem? hi) b (List.mem_of_getElem? hj) hd).1
    have := (hwf.ends a this).1
    rw [hv] at this; simp at this
  · rw [if_neg hv]
    have hb := hx.back g.verts g.edges hwf.vnd hwf.end_ hwf.ends
    obtain ⟨rs', g', h1, h2, h3, h4, h5⟩ := resolve_aux (x.back g.verts g.edges) [] rs g hb.nodup hnd
      hwf.end_ (fun e he => hsubrs e (hb.sub e he))
    have hres : g.resolveCycles (x.back g.verts g.edges) rs =
        .ok (x.back g.verts g.edges, rs', g') := by
      unfold RGraph.resolveCycles; rw [h1]; simp
    rw [hres]
    simp only [Res.ok_bind]
    have hrs'nd : rs'.Nodup := (List.nodup_append.1 (h2.nodup_iff.2 hnd)).1
    have hwf' : g'.WF := ⟨by rw [h3]; exact hwf.vnd, h4, fun e he => by
      rw [h3]; exact hwf.ends e ((h5 e).1 he).1⟩
    have hrank : Ranked g'.edges := hb.acyclic.sub (fun e he => by
      have := (h5 e).1 he
      simp [this.1, this.2])
    obtain ⟨old', new', p1, p2, p3, p4⟩ := peel_ok hx.inOrd hrank hrs'nd g'.verts.length g' rs' []
      ⟨hwf', by simp, fun e he => by
        have h := (h5 e).1 he
        have := h2.mem_iff.2 (hsubrs e h.1)
        rcases List.mem_append.1 this with h' | h'
        · exact h'
        · exact (h.2 h').elim, fun _ h => h, by simp, fun _ h => Or.inl h, by
        intro i e e' hi; simp at hi⟩ (Nat.le_refl _)
    have hre : g'.rearrange x.inOrd rs' = .ok (new' ++ old') := by
      unfold RGraph.rearrange; rw [p1]; rfl
    rw [hre]
    simp only [Res.ok_bind]
    refine ⟨x.back g.verts g.edges, new' ++ old', by rw [cut_foldl], ?_, ?_, ?_⟩
    · exact (List.Perm.append_right _ p2).trans h2
    · intro i j a b hi hj hd
      have hnd' : (new' ++ old').Nodup := p2.nodup_iff.2 hrs'nd
      have hin : ∀ (k : Nat) (c : Move), (new' ++ old')[k]? = some c → c ∈ rs ∧
          c ∉ x.back g.verts g.edges := by
        intro k c hk
        have hc := p2.mem_iff.1 (List.mem_of_getElem? hk)
        refine ⟨h2.mem_iff.1 (by simp [hc]), ?_⟩
        intro hcb
        have := List.nodup_append.1 (h2.nodup_iff.2 hnd)
        exact this.2.2 c hc c hcb rfl
      obtain ⟨ha1, ha2⟩ := hin i a hi
      obtain ⟨hb1, hb2⟩ := hin j b hj
      obtain ⟨hag, hbg⟩ := hdep a ha1 b hb1 hd
      have ha' : a ∈ new' := (p4 a).2 ((h5 a).2 ⟨hag, ha2⟩)
      have hb' : b ∈ g'.edges := (h5 b).2 ⟨hbg, hb2⟩
      obtain ⟨i', hi'⟩ := List.mem_iff_getElem?.1 ha'
      obtain ⟨j', hj1, hj2⟩ := p3 i' a b hi' hb' hd.2.2.symm
      have hl1 := (List.getElem?_eq_some_iff.1 hi').1
      have e1 : (new' ++ old')[i']? = some a := by rw [List.getElem?_append_left hl1]; exact hi'
      have e2 : (new' ++ old')[j']? = some b := by
        rw [List.getElem?_append_left (by omega)]; exact hj2
      have inj : ∀ (k l : Nat) (c : Move), (new' ++ old')[k]? = some c →
          (new' ++ old')[l]? = some c → k = l := by
        intro k l c hk hl
        obtain ⟨k1, k2⟩ := List.getElem?_eq_some_iff.1 hk
        obtain ⟨l1, l2⟩ := List.getElem?_eq_some_iff.1 hl
        exact (List.Nodup.getElem_inj_iff hnd').1 (k2.trans l2.symm)
      have := inj i i' a hi e1
      have := inj j j' b hj e2
      omega
    · intro c hc
      have : ∀ u v, Reach g.edges u v → Reach rs u v := by
        intro u v h
        induction h with
        | refl => exact Reach.refl _
        | step _ he ih => exact Reach.step ih (hsubrs _ he)
      exact this _ _ (hb.cycle c hc)

end Verif
