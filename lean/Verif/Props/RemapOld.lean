import Verif.Lemmas.RemapOld
import Verif.Lemmas.RemapExec
import Verif.Props.Grain
import Verif.Props.Remap
import Mathlib.Data.List.Nodup
import Mathlib.Tactic.Linarith
/-!
# Remapping by transfer zones (C132)
-/
namespace Verif.Props

open Verif Verif.RemapOld Verif.RemapOld.Spec

variable {P K D : Type} [Field K] [LinearOrder K] [DecidableEq D] {G : Geometry P K} {nb off : Nat} {x : RemapExt}

omit [Field K] [LinearOrder K] in
theorem RemapOld.mem_moves {grains : OMap (Grain P K)} (hid : ∀ p ∈ grains, p.2.grainId = p.1) {m : Move} :
    m ∈ moves grains ↔ ∃ k g, (k, g) ∈ grains ∧ g.op ≠ g.oldOp ∧ m = ⟨k, g.oldOp, g.op⟩ := by
  simp only [moves, List.mem_map, List.mem_filter, decide_eq_true_eq]
  constructor
  · rintro ⟨⟨k, g⟩, ⟨h1, h2⟩, rfl⟩
    exact ⟨k, g, h1, h2, by rw [hid _ h1]⟩
  · rintro ⟨k, g, h1, h2, rfl⟩
    exact ⟨(k, g), ⟨h1, h2⟩, by rw [hid _ h1]⟩

/-- **C132 (partial).** The remapping never fails on consistent tables, counts the grains that change their order parameter, and is correct at every degree
of freedom where the zones do not disturb each other. -/
theorem C132_partial [IsStrictOrderedRing K] (hx : x.Ok) {old grains : OMap (Grain P K)} (h : Tables nb off old grains) (cells : List (ZCell D P)) (sol : Fld D K) :
    ∃ sol', remapOld x G nb off old grains cells sol = .ok ((grains.filter fun p => decide (p.2.op ≠ p.2.oldOp)).length, sol') ∧
      ∀ d, Compatible G grains cells d → Correct G off old grains cells sol sol' d := by
  have hmem := fun m => RemapOld.mem_moves (m := m) h.ids
  have hgr : (moves grains).Pairwise fun a b => a.grain ≠ b.grain := by
    unfold moves
    rw [List.pairwise_map]
    refine List.Pairwise.imp_of_mem ?_ (List.Pairwise.filter _ h.sorted)
    intro a b ha hb hab
    rw [h.ids _ (List.mem_filter.1 ha).1, h.ids _ (List.mem_filter.1 hb).1]
    exact Nat.ne_of_lt hab
  have hnd : (moves grains).Nodup := hgr.imp fun h he => h (by rw [he])
  have hget : ∀ {k g}, (k, g) ∈ grains → grains.get? k = some g := fun hk => OMap.get?_of_mem h.sorted hk
  have hat : ∀ m ∈ moves grains, ∃ g, grains.get? m.grain = some g := by
    intro m hm
    obtain ⟨k, g, h1, h2, rfl⟩ := (hmem m).1 hm
    exact ⟨g, hget h1⟩
  have hfine : ∀ m ∈ moves grains, Fine nb off grains m := by
    intro m hm
    obtain ⟨k, g, h1, h2, rfl⟩ := (hmem m).1 hm
    exact ⟨⟨g, hget h1⟩, (h.blocks _ h1).2, (h.blocks _ h1).1, fun he => h2 he.symm⟩
  obtain ⟨f0, e0, h0⟩ := clearing (G := G) (nb := nb) (off := off) (cells := cells) (disappeared old grains)
    (fun p hp => h.oldBlocks p (List.mem_filter.1 hp).1) sol
  obtain ⟨cut, direct, ep, hperm, hord⟩ := plan_ok hx (G := G) hnd hgr hat
  have hin : ∀ m, m ∈ moves grains ↔ m ∈ direct ∨ m ∈ cut := fun m => by rw [← hperm.mem_iff, List.mem_append]
  have hfd : ∀ m ∈ direct, Fine nb off grains m := fun m hm => hfine m ((hin m).2 (Or.inl hm))
  have hfc : ∀ p ∈ cut.zipIdx, Fine nb off grains p.1 := fun p hp =>
    hfine p.1 ((hin _).2 (Or.inr (List.mem_of_getElem? (List.mem_zipIdx_iff_getElem?.1 hp))))
  have hk : cut.zipIdx.Pairwise fun p q => p.2 ≠ q.2 := by
    rw [List.pairwise_iff_getElem]
    intro i j hi hj hij
    simp only [List.getElem_zipIdx]
    omega
  obtain ⟨f1, t1, e1, h1⟩ := phase1 (G := G) (cells := cells) cut.zipIdx hfc hk f0 fun _ _ => 0
  obtain ⟨f2, e2, h2⟩ := phase2 (G := G) (cells := cells) direct hfd f1
  obtain ⟨f3, e3, h3⟩ := phase3 (G := G) (cells := cells) t1 cut.zipIdx hfc f2
  have hlen : (moves grains).length = (grains.filter fun p => decide (p.2.op ≠ p.2.oldOp)).length := by
    unfold moves; rw [List.length_map]
  refine ⟨f3, ?_, fun d hd => ?_⟩
  · unfold remapOld
    rw [e0, Res.ok_bind]
    dsimp only
    rw [ep, Res.ok_bind]
    dsimp only
    rw [e1, Res.ok_bind]
    dsimp only
    rw [e2, Res.ok_bind, e3, Res.ok_bind, hlen]
  · have hnd' : (direct ++ cut).Nodup := hperm.nodup_iff.2 hnd
    have hT : ∀ m ∈ moves grains, T G grains cells m d → ∃ g, MovedAt G grains cells d m.grain g ∧ m.src = g.oldOp ∧ m.dst = g.op := by
      intro m hm ht
      obtain ⟨k, g, a1, a2, rfl⟩ := (hmem m).1 hm
      exact ⟨g, ⟨a1, a2, (T_iff (hget a1) d).1 ht⟩, rfl, rfl⟩
    have hM : ∀ k g, MovedAt G grains cells d k g → ⟨k, g.oldOp, g.op⟩ ∈ moves grains ∧ T G grains cells ⟨k, g.oldOp, g.op⟩ d :=
      fun k g hm => ⟨(hmem _).2 ⟨k, g, hm.1, hm.2.1, rfl⟩, (T_iff (hget hm.1) d).2 hm.2.2⟩
    have hpair : ∀ a ∈ moves grains, ∀ b ∈ moves grains, a ≠ b → T G grains cells a d → T G grains cells b d →
        a.src ≠ b.src ∧ a.dst ≠ b.dst ∧ (a.dst = b.src → hasOverlap G grains a b = true) := by
      intro a ha b hb hab ta tb
      obtain ⟨g, mg, s1, d1⟩ := hT a ha ta
      obtain ⟨g', mg', s2, d2⟩ := hT b hb tb
      have hne : a.grain ≠ b.grain := by
        intro he
        apply hab
        have : g = g' := by
          have e1 := hget mg.1
          have e2 := hget mg'.1
          rw [he, e2] at e1
          exact (Option.some.inj e1).symm
        cases a; cases b; simp_all
      obtain ⟨c1, c2, c3⟩ := hd _ _ _ _ mg mg' hne
      refine ⟨by rw [s1, s2]; exact c2, by rw [d1, d2]; exact c1, fun he => ?_⟩
      have := c3 (by rw [← d1, ← s2]; exact he)
      unfold hasOverlap
      rw [hget mg.1, hget mg'.1]
      refine decide_eq_true ?_
      unfold Grain.transferBuffer
      rw [sub_sub]
      exact sub_neg.2 this
    have zpair : ∀ {R : Move → Move → Prop}, (∀ a ∈ cut, ∀ b ∈ cut, a ≠ b → R a b) → cut.zipIdx.Pairwise fun p q => R p.1 q.1 := by
      intro R hR
      rw [List.pairwise_iff_getElem]
      intro i j hi hj hij
      rw [List.length_zipIdx] at hi hj
      simp only [List.getElem_zipIdx]
      exact hR _ (List.getElem_mem hi) _ (List.getElem_mem hj) fun he =>
        absurd ((List.Nodup.getElem_inj_iff (List.Nodup.of_append_right hnd')).1 he) (by omega)
    have hc : ∀ a ∈ cut, a ∈ moves grains := fun a ha => (hin a).2 (Or.inr ha)
    have hdm : ∀ a ∈ direct, a ∈ moves grains := fun a ha => (hin a).2 (Or.inl ha)
    have hdc : ∀ a ∈ direct, ∀ b ∈ cut, a ≠ b := fun a ha b hb => (List.nodup_append.1 hnd').2.2 a ha b hb
    obtain ⟨a1, -, a3, a4⟩ := h1 d (zpair fun a ha b hb hab ta tb => (hpair a (hc a ha) b (hc b hb) hab ta tb).1)
    obtain ⟨b1, b2, b3⟩ := h2 d (by
      rw [List.pairwise_iff_getElem]
      intro i j hi hj hij ti tj
      have hne : direct[i] ≠ direct[j] := fun he =>
        absurd ((List.Nodup.getElem_inj_iff (List.Nodup.of_append_left hnd')).1 he) (by omega)
      obtain ⟨c1, c2, c3⟩ := hpair _ (hdm _ (List.getElem_mem hi)) _ (hdm _ (List.getElem_mem hj)) hne ti tj
      refine ⟨c1, c2, fun he => ?_⟩
      have := hord i j _ _ (List.getElem?_eq_getElem hi) (List.getElem?_eq_getElem hj) ⟨hne, c3 he, he⟩
      omega)
    obtain ⟨g1, g2⟩ := h3 d (zpair fun a ha b hb hab ta tb => (hpair a (hc a ha) b (hc b hb) hab ta tb).2.1)
    have hz : ∀ p ∈ cut.zipIdx, p.1 ∈ cut := fun p hp => List.mem_of_getElem? (List.mem_zipIdx_iff_getElem?.1 hp)
    have hz' : ∀ m ∈ cut, ∃ k, (m, k) ∈ cut.zipIdx := fun m hm => by
      obtain ⟨k, hk, rfl⟩ := List.getElem_of_mem hm
      exact ⟨k, List.mem_zipIdx_iff_getElem?.2 (List.getElem?_eq_getElem hk)⟩
    -- the values at `d` in terms of those after clearing
    have arr : ∀ m ∈ moves grains, T G grains cells m d → f3 (m.dst + off) d = f0 (m.src + off) d := by
      intro m hm ht
      rcases (hin m).1 hm with hmd | hmc
      · rw [g2 _ fun p hp tp he => ?_, b1 m hmd ht, a4 _ fun p hp tp he => ?_]
        · exact (hpair m hm p.1 (hc _ (hz p hp)) (hdc m hmd _ (hz p hp)) ht tp).1 (by omega)
        · exact (hpair m hm p.1 (hc _ (hz p hp)) (hdc m hmd _ (hz p hp)) ht tp).2.1 (by omega)
      · obtain ⟨k, hk⟩ := hz' m hmc
        rw [g1 _ hk ht, a1 _ hk ht]
    have lef : ∀ m ∈ moves grains, T G grains cells m d → (∀ a ∈ moves grains, T G grains cells a d → a.dst ≠ m.src) → f3 (m.src + off) d = 0 := by
      intro m hm ht hn
      rw [g2 _ fun p hp tp he => hn p.1 (hc _ (hz p hp)) tp (by omega)]
      rcases (hin m).1 hm with hmd | hmc
      · exact b2 m hmd ht fun a ha => hn a (hdm a ha)
      · obtain ⟨k, hk⟩ := hz' m hmc
        rw [b3 _ fun a ha ta => ⟨fun he => (hpair a (hdm a ha) m hm (hdc a ha m hmc) ta ht).1 (by omega), fun he => hn a (hdm a ha) ta (by omega)⟩]
        exact a3 _ hk ht
    have kep : ∀ b, (∀ a ∈ moves grains, T G grains cells a d → a.dst + off ≠ b ∧ a.src + off ≠ b) → f3 b d = f0 b d := by
      intro b hb
      rw [g2 b fun p hp tp => (hb p.1 (hc _ (hz p hp)) tp).1, b3 b fun a ha ta => ⟨(hb a (hdm a ha) ta).2, (hb a (hdm a ha) ta).1⟩,
        a4 b fun p hp tp => (hb p.1 (hc _ (hz p hp)) tp).2]
    have hbefore : ∀ o, Before G off old grains cells sol o d (f0 (o + off) d) := by
      intro o
      have hiff : GoneAt G old grains cells o d ↔ ∃ p ∈ disappeared old grains, p.2.op + off = o + off ∧ Touches G cells p.2 d := by
        constructor
        · rintro ⟨k, g, c1, c2, c3, c4⟩
          refine ⟨(k, g), List.mem_filter.2 ⟨c1, ?_⟩, by simp only [c3], c4⟩
          simp only [OMap.keys, Bool.not_eq_true', List.contains_eq_mem, decide_eq_false_iff_not, List.mem_map, not_exists, not_and]
          rintro ⟨k', g'⟩ hp he
          simp only at he
          subst he
          exact c2 g' hp
        · rintro ⟨⟨k, g⟩, hp, c3, c4⟩
          obtain ⟨c1, c2⟩ := List.mem_filter.1 hp
          refine ⟨k, g, c1, fun g' hg' => ?_, by simpa using c3, c4⟩
          simp only [OMap.keys, Bool.not_eq_true', List.contains_eq_mem, decide_eq_false_iff_not, List.mem_map, not_exists, not_and] at c2
          exact c2 (k, g') hg' rfl
      unfold Before
      by_cases hgone : GoneAt G old grains cells o d
      · exact Or.inl ⟨hgone, (h0 _ d).1 (hiff.1 hgone)⟩
      · exact Or.inr ⟨hgone, (h0 _ d).2 fun hc => hgone (hiff.2 hc)⟩
    refine ⟨fun k g hm => ?_, fun k g hm hn => ?_, fun o ho => ?_, fun b hb => ?_⟩
    · have := arr _ (hM k g hm).1 (hM k g hm).2
      simp only at this
      rw [this]
      exact hbefore _
    · refine lef _ (hM k g hm).1 (hM k g hm).2 fun a ha ta => ?_
      obtain ⟨g', mg', -, d2⟩ := hT a ha ta
      rw [d2]
      exact hn _ _ mg'
    · rw [kep (o + off) fun a ha ta => ?_]
      · exact hbefore o
      · obtain ⟨g', mg', s2, d2⟩ := hT a ha ta
        have := ho _ _ mg'
        omega
    · rw [kep b fun a ha ta => by omega]
      refine (h0 b d).2 ?_
      rintro ⟨p, -, he, -⟩
      omega

/-- **C132.** After reassignment with spheres as representation the zones do not disturb each other, provided the spheres of grains with the same old or new
order parameter do not overlap, at every degree of freedom that is not on the rim of a zone. -/
theorem C132_spheres_partial [IsStrictOrderedRing K] {cfg : ReassignCfg K} (hx : x.Ok)
    (hsym : ∀ p q, G.dist p q = G.dist q p) (htri : ∀ p q r, G.dist p r ≤ G.dist p q + G.dist q r)
    (hsph : ∀ s t : Segment P K, G.segDist s t = G.dist s.center t.center - (s.radius + t.radius))
    (hcol : ColorContract cfg.color) (hsort : SortContract cfg.sortBy) {force fast : Bool} {old gs : OMap (Grain P K)} (hs : gs.Sorted)
    (hne : 0 < gs.length) {r : Reassigned P K} (hr : reassignGrains G cfg force fast gs = .ok r) (h : Tables nb off old r.grains)
    (hsep : ∀ k a l b, (k, a) ∈ r.grains → (l, b) ∈ r.grains → k ≠ l → a.op = b.op ∨ a.oldOp = b.oldOp → ∀ s ∈ a.segments, ∀ t ∈ b.segments,
      s.radius + t.radius ≤ G.dist s.center t.center) (cells : List (ZCell D P)) (sol : Fld D K) :
    ∃ sol', remapOld x G nb off old r.grains cells sol = .ok ((r.grains.filter fun p => decide (p.2.op ≠ p.2.oldOp)).length, sol') ∧
      ∀ d, (∀ k g, (k, g) ∈ r.grains → ∀ c ∈ cells, ∀ c' ∈ cells, d ∈ c.dofs → d ∈ c'.dofs → Zone G g c.center → Zone G g c'.center) →
        Correct G off old r.grains cells sol sol' d := by
  obtain ⟨sol', h1, h2⟩ := C132_partial (G := G) hx h cells sol
  refine ⟨sol', h1, fun d hrim => h2 d ?_⟩
  intro k g l h' mg mh hkl
  obtain ⟨c, hc, hd, hz⟩ := mg.2.2
  obtain ⟨c', hc', hd', hz'⟩ := mh.2.2
  have hz2 := hrim l h' mh.1 c' hc' c hc hd' hd hz'
  have hzone : ∀ g : Grain P K, Zone G g c.center → InZone G g c.center := by
    rintro g ⟨s, hs, hlt⟩
    exact ⟨s, hs, by rw [hsym]; exact hlt⟩
  have hid : g.grainId ≠ h'.grainId := by rw [h.ids _ mg.1, h.ids _ mh.1]; exact hkl
  have hno : ¬ (g.op = h'.op ∨ g.oldOp = h'.oldOp) := fun hop =>
    C16_zones_partial hsym htri hcol hsort hs hne hr (OMap.get?_of_mem h.sorted mg.1) (OMap.get?_of_mem h.sorted mh.1) hid hop
      (fun s hs t ht => by
        have := hsep _ _ _ _ mg.1 mh.1 hkl hop s hs t ht
        unfold Grain.sphereDist
        exact sub_nonneg.2 this) c.center ⟨hzone g hz, hzone h' hz2⟩
  refine ⟨fun he => hno (Or.inl he), fun he => hno (Or.inr he), fun _ => ?_⟩
  obtain ⟨s, hs1, hs2⟩ := hz
  obtain ⟨t, ht1, ht2⟩ := hz2
  have e1 := (C16_distance (G := G) g h').2.1 s hs1 t ht1
  rw [hsph] at e1
  have e2 := htri s.center c.center t.center
  rw [hsym s.center c.center] at e2
  linarith

/-- **C132.** Where a grain is gone its order parameter is set to zero in the zone it had, whichever grain is there now. -/
theorem C132_gone [IsStrictOrderedRing K] (hx : x.Ok) {old grains : OMap (Grain P K)} (h : Tables nb off old grains) (cells : List (ZCell D P))
    (sol : Fld D K) (o : Nat) (d : D) (hd : Compatible G grains cells d) (hg : GoneAt G old grains cells o d)
    (ho : ∀ l g, MovedAt G grains cells d l g → g.op ≠ o ∧ g.oldOp ≠ o) :
    ∃ n sol', remapOld x G nb off old grains cells sol = .ok (n, sol') ∧ sol' (o + off) d = 0 := by
  obtain ⟨sol', h1, h2⟩ := C132_partial (G := G) hx h cells sol
  refine ⟨_, sol', h1, ?_⟩
  rcases (h2 d hd).kept o ho with hb | hb
  · exact hb.2
  · exact absurd hg hb.1

/-- **C132.** Both ways of remapping agree inside of the zone of a grain that moves, if no grain is gone there. -/
theorem C132_agree [IsStrictOrderedRing K] (hx : x.Ok) {old grains : OMap (Grain P K)} {lookup : Lookup} {cells : List (RCell D)}
    (h : Tables nb off old grains) (h' : Spec.Remappable nb off grains lookup cells) (zcells : List (ZCell D P)) (sol : Fld D K) :
    ∃ n s n' s', remapOld x G nb off old grains zcells sol = .ok (n, s) ∧ remapNew x nb off grains lookup cells sol = .ok (n', s') ∧ n = n' ∧
      ∀ d k g, Compatible G grains zcells d → MovedAt G grains zcells d k g → ¬ GoneAt G old grains zcells g.oldOp d →
        (∃ c ∈ cells, d ∈ c.dofs) → (∀ c ∈ cells, d ∈ c.dofs → Spec.GrainAt lookup grains c k g) → s (g.op + off) d = s' (g.op + off) d := by
  obtain ⟨s, h1, h2⟩ := C132_partial (G := G) hx h zcells sol
  obtain ⟨s', h3, h4⟩ := C10_remap_partial hx h' sol
  refine ⟨_, s, _, s', h1, h3, rfl, fun d k g hc hm hn he hin => ?_⟩
  rw [h4.grain k g d he hin]
  rcases (h2 d hc).arrived k g hm with hb | hb
  · exact absurd hb.1 hn
  · exact hb.2

namespace Ex132

/-- grains on a line: centre, old and new order parameter; radius 1, next neighbour `near` away -/
def mv (id o n : Nat) (c near : Rat) : Grain Rat Rat := ⟨id, n, o, [⟨c, 1, 1, 1, true⟩], 1, near, .none, 1, 1⟩
def geo : Geometry Rat Rat := ⟨fun p q => |p - q|, fun s t => |s.center - t.center| - (s.radius + t.radius), 1000, -1000⟩
/-- as for representations by wavefronts that do not touch: the distance is infinite -/
def geoFar : Geometry Rat Rat := { geo with segDist := fun _ _ => 1000 }
/-- cells of length one with nodes at both ends -/
def mesh (n : Nat) : List (ZCell Nat Rat) := (List.range n).map fun i => ⟨[i, i + 1], (i : Rat) + 1 / 2⟩
def table (nd : Nat) (r : Res (Nat × Fld Nat Rat)) : Res (Nat × List (List Rat)) :=
  r.bind fun p => .ok (p.1, (List.range 4).map fun b => (List.range nd).map (p.2 b))

/-- values 1, 2, ... in the block of an order parameter -/
def sol : Fld Nat Rat := fun b d => 10 * b + d + 1

/-- a swap and a shift; grain 9 is gone -/
def grains : OMap (Grain Rat Rat) := [(0, mv 0 0 1 1 0), (1, mv 1 1 0 1 0), (2, mv 2 2 3 1 0)]
def old : OMap (Grain Rat Rat) := [(0, mv 0 0 0 1 0), (1, mv 1 1 1 1 0), (2, mv 2 2 2 1 0), (9, mv 9 0 0 3 0)]

theorem tables : Tables 4 0 old grains := ⟨by decide, by decide, by decide, by decide⟩

theorem compatible (d : Nat) : Compatible geo grains (mesh 4) d := by
  intro k g l h mg mh hkl
  have key : ∀ p ∈ grains, ∀ q ∈ grains, p.1 ≠ q.1 → p.2.op ≠ q.2.op ∧ p.2.oldOp ≠ q.2.oldOp ∧
      Grain.distance geo p.2 q.2 < max 0 (p.2.nearest / 2) + max 0 (q.2.nearest / 2) := by decide +kernel
  obtain ⟨h1, h2, h3⟩ := key _ mg.1 _ mh.1 hkl
  exact ⟨h1, h2, fun _ => h3⟩

example : table 5 (remapOld Ex11.ext geo 4 0 old grains (mesh 4) sol) =
    .ok (3, [[11, 12, 13, 0, 0], [1, 2, 0, 14, 15], [0, 0, 0, 24, 25], [21, 22, 23, 34, 35]]) := by decide +kernel

example : ∃ sol', remapOld Ex11.ext geo 4 0 old grains (mesh 4) sol = .ok (3, sol') ∧ Correct geo 0 old grains (mesh 4) sol sol' 1 := by
  obtain ⟨s, h1, h2⟩ := C132_partial (G := geo) Ex11.ext_ok tables (mesh 4) sol
  exact ⟨s, h1, h2 1 (compatible 1)⟩

/-- **violation**: a grain that appears in the order parameter of a grain that is gone loses its values; the other way of remapping leaves them. -/
theorem C132_new_grain_violated :
    let old : OMap (Grain Rat Rat) := [(7, mv 7 0 0 1 1000)]
    let grains : OMap (Grain Rat Rat) := [(8, mv 8 0 0 3 1000)]
    table 5 (remapOld Ex11.ext geo 4 0 old grains (mesh 4) sol) = .ok (0, [[0, 0, 0, 0, 0], [11, 12, 13, 14, 15], [21, 22, 23, 24, 25],
      [31, 32, 33, 34, 35]]) ∧
    table 5 (remapNew Ex11.ext 4 0 grains [[(some 8, 0)]] [⟨[2, 3], [some 0]⟩, ⟨[3, 4], [some 0]⟩] sol) = .ok (0, [[1, 2, 3, 4, 5],
      [11, 12, 13, 14, 15], [21, 22, 23, 24, 25], [31, 32, 33, 34, 35]]) := by decide +kernel

/-- **violation**: the order of the moves is found with the distance of the representations, the zones with spheres. If the distance is larger, values are
overwritten before they are moved: those of grain 1 are lost, those of grain 0 end in the order parameter of grain 1. -/
theorem C132_distance_violated :
    let grains : OMap (Grain Rat Rat) := [(0, mv 0 0 1 1 0), (1, mv 1 1 2 1 0)]
    table 3 (remapOld Ex11.ext geoFar 4 0 grains grains (mesh 2) sol) = .ok (2, [[0, 0, 0], [0, 0, 0], [1, 2, 3], [31, 32, 33]]) ∧
    table 3 (remapOld Ex11.ext geo 4 0 grains grains (mesh 2) sol) = .ok (2, [[0, 0, 0], [1, 2, 3], [11, 12, 13], [31, 32, 33]]) := by decide +kernel

/-- **violation**: at a node shared by two zones of grains that leave the same order parameter the value is taken by the first one only. -/
theorem C132_rim_violated :
    let grains : OMap (Grain Rat Rat) := [(0, mv 0 0 1 1 0), (1, mv 1 0 2 3 0)]
    table 5 (remapOld Ex11.ext geo 4 0 grains grains (mesh 4) sol) = .ok (2, [[0, 0, 0, 0, 0], [1, 2, 3, 14, 15], [21, 22, 0, 4, 5],
      [31, 32, 33, 34, 35]]) := by decide +kernel

/-! ### after reassignment: two grains of order parameter 0 whose spheres are a tenth of a radius apart, the second one gets order parameter 1 -/

def before : OMap (Grain Rat Rat) := [(0, Ex08.gr 0 0 1), (1, Ex08.gr 1 0 (31/10))]

example : (reassignGrains Ex06.gQ (Ex08.cfgQ true 5) false true before >>= fun r =>
    table 6 (remapOld Ex11.ext Ex06.gQ 4 0 before r.grains (mesh 5) sol)) =
    .ok (1, [[1, 2, 0, 0, 0, 6], [11, 12, 3, 4, 5, 16], [21, 22, 23, 24, 25, 26], [31, 32, 33, 34, 35, 36]]) := by decide +kernel

example : ∀ s t : Segment Rat Rat, Ex06.gQ.segDist s t = Ex06.gQ.dist s.center t.center - (s.radius + t.radius) := by
  intro s t
  simp only [Ex06.gQ]
  split <;> linarith

/-! ### both ways for the case of C10 -/

example : ∃ n s n' s', remapOld Ex11.ext Ex06.gQ 5 1 Ex10.grains Ex10.grains [⟨[0, 1], 0⟩, ⟨[1, 2], 1⟩] Ex10.sol = .ok (n, s) ∧
    remapNew Ex11.ext 5 1 Ex10.grains Ex10.lookup Ex10.cells Ex10.sol = .ok (n', s') ∧ n = n' := by
  obtain ⟨n, s, n', s', h1, h2, h3, -⟩ := C132_agree (G := Ex06.gQ) (old := Ex10.grains) Ex11.ext_ok
    ⟨Ex10.remappable.sorted, Ex10.remappable.ids, Ex10.remappable.blocks, fun p hp => (Ex10.remappable.blocks p hp).1⟩ Ex10.remappable
    [⟨[0, 1], 0⟩, ⟨[1, 2], 1⟩] Ex10.sol
  exact ⟨n, s, n', s', h1, h2, h3⟩

end Ex132

end Verif.Props
