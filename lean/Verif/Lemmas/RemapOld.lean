import Verif.Lemmas.Remap
import Verif.Spec.RemapOld
/-!
# Lemmas on the remapping by zones
-/
namespace Verif.RemapOld

open Verif.RemapOld.Spec

variable {P K D : Type} [Field K] [LinearOrder K]

theorem inGrain_iff {G : Geometry P K} {g : Grain P K} {c : ZCell D P} : inGrain G g c = true ↔ Zone G g c.center := by
  unfold inGrain Zone
  rw [List.any_eq_true]
  exact ⟨fun ⟨s, hs, h⟩ => ⟨s, hs, of_decide_eq_true h⟩, fun ⟨s, hs, h⟩ => ⟨s, hs, decide_eq_true h⟩⟩

theorem plan_ok {x : RemapExt} (hx : x.Ok) {G : Geometry P K} {grains : OMap (Grain P K)} {rs : List Move} (hnd : rs.Nodup)
    (hg : rs.Pairwise (fun a b => a.grain ≠ b.grain)) (hat : ∀ m ∈ rs, ∃ g, grains.get? m.grain = some g) :
    ∃ cut direct : List Move, plan x G grains rs = .ok (cut, direct) ∧ List.Perm (direct ++ cut) rs ∧
      ∀ (i j : Nat) (a b : Move), direct[i]? = some a → direct[j]? = some b → Dep (hasOverlap G grains) a b → j < i := by
  obtain ⟨cut, direct, h, hp, ho, -⟩ := plan_core hx (ov := hasOverlap G grains) hnd hg
  have hm : ∃ l, rs.mapM (fun m => Res.at? (grains.get? m.grain)) = .ok l := by
    clear h hp hnd hg
    induction rs with
    | nil => exact ⟨[], rfl⟩
    | cons m rs ih =>
      obtain ⟨g, hg⟩ := hat m (List.mem_cons_self ..)
      obtain ⟨l, hl⟩ := ih fun m' hm' => hat m' (List.mem_cons_of_mem _ hm')
      exact ⟨g :: l, by rw [List.mapM_cons, hg, Res.at?_some, Res.ok_bind, hl]; rfl⟩
  obtain ⟨l, hl⟩ := hm
  refine ⟨cut, direct, ?_, hp, ho⟩
  unfold planMoves at h
  unfold plan
  rw [hl, Res.ok_bind]
  have key : ∀ (c1 d1 : List Move), c1.reverse.map Step.toTemp ++ d1.map Step.plain ++ c1.map Step.fromTemp =
      cut.reverse.map Step.toTemp ++ direct.map Step.plain ++ cut.map Step.fromTemp → c1 = cut ∧ d1 = direct := by
    intro c1 d1 he
    have e1 := congrArg (fun l : List Step => (l.filter fun s => s.src.isNone).map Step.move) he
    have e2 := congrArg (fun l : List Step => (l.filter fun s => s.src.isSome && s.dst.isSome).map Step.move) he
    simp only [List.filter_append, List.filter_map, List.map_append, List.map_map] at e1 e2
    have f1 : ((fun s : Step => s.src.isNone) ∘ Step.toTemp) = fun _ => false := rfl
    have f2 : ((fun s : Step => s.src.isNone) ∘ Step.plain) = fun _ => false := rfl
    have f3 : ((fun s : Step => s.src.isNone) ∘ Step.fromTemp) = fun _ => true := rfl
    have f4 : ((fun s : Step => s.src.isSome && s.dst.isSome) ∘ Step.toTemp) = fun _ => false := rfl
    have f5 : ((fun s : Step => s.src.isSome && s.dst.isSome) ∘ Step.plain) = fun _ => true := rfl
    have f6 : ((fun s : Step => s.src.isSome && s.dst.isSome) ∘ Step.fromTemp) = fun _ => false := rfl
    have g1 : (Step.move ∘ Step.fromTemp) = id := rfl
    have g2 : (Step.move ∘ Step.plain) = id := rfl
    rw [f1, f2, f3, g1] at e1
    rw [f4, f5, f6, g2] at e2
    simpa using And.intro e1 e2
  cases hb : buildRemapGraph (hasOverlap G grains) rs with
  | exc e => rw [hb] at h; cases h
  | ub => rw [hb] at h; cases h
  | ok g =>
    rw [hb, Res.ok_bind] at h
    rw [Res.ok_bind]
    by_cases hv : g.verts = []
    · rw [if_pos hv] at h
      rw [if_pos hv]
      have := key [] rs (by simpa using Res.ok.inj h)
      rw [this.1, this.2]
    · rw [if_neg hv] at h
      rw [if_neg hv]
      cases hr : g.resolveCycles (x.back g.verts g.edges) rs with
      | exc e => rw [hr] at h; cases h
      | ub => rw [hr] at h; cases h
      | ok c =>
        rw [hr, Res.ok_bind] at h
        rw [Res.ok_bind]
        obtain ⟨c1, c2, c3⟩ := c
        dsimp only at h ⊢
        cases hq : c3.rearrange x.inOrd c2 with
        | exc e => rw [hq] at h; cases h
        | ub => rw [hq] at h; cases h
        | ok d1 =>
          rw [hq, Res.ok_bind] at h
          rw [Res.ok_bind]
          have hs := Res.ok.inj h
          have hf : ∀ (c : List Move) (l : List Step), c.foldl (fun seq m => Step.toTemp m :: (seq ++ [Step.fromTemp m])) l =
              c.reverse.map Step.toTemp ++ l ++ c.map Step.fromTemp := by
            intro c
            induction c with
            | nil => intro l; simp
            | cons m c ih => intro l; rw [List.foldl_cons, ih]; simp
          rw [hf] at hs
          have := key c1 d1 hs
          rw [this.1, this.2]

variable [DecidableEq D]

theorem alter_set {G : Geometry P K} {b : Nat} (g : Grain P K) (callback : List D → Fld D K → Res (Fld D K)) (v : D → K) (I : Fld D K → Prop)
    (hc : ∀ dofs f, I f → callback dofs f = .ok (setVals dofs b v f)) (hI : ∀ dofs f, I f → I (setVals dofs b v f)) (f : Fld D K) (hf : I f)
    (cells : List (ZCell D P)) :
    ∃ f', alter G cells g callback f = .ok f' ∧ ∀ b' d, (b' = b ∧ Touches G cells g d → f' b' d = v d) ∧
      (¬ (b' = b ∧ Touches G cells g d) → f' b' d = f b' d) := by
  unfold alter
  induction cells generalizing f with
  | nil => exact ⟨f, rfl, fun b' d => ⟨fun h => by obtain ⟨-, c, hc, -⟩ := h; simp at hc, fun _ => rfl⟩⟩
  | cons c cells ih =>
    rw [List.foldlM_cons]
    by_cases hz : inGrain G g c = true
    · rw [if_pos hz, hc _ _ hf, Res.ok_bind]
      obtain ⟨f', h1, h2⟩ := ih (setVals c.dofs b v f) (hI _ _ hf)
      refine ⟨f', h1, fun b' d => ⟨fun h => ?_, fun h => ?_⟩⟩
      · by_cases ht : Touches G cells g d
        · exact (h2 b' d).1 ⟨h.1, ht⟩
        · rw [(h2 b' d).2 fun hc => ht hc.2]
          obtain ⟨he, c', hc', hd, hzz⟩ := h
          rcases List.mem_cons.1 hc' with rfl | hc'
          · unfold setVals; rw [if_pos ⟨he, hd⟩]
          · exact absurd ⟨c', hc', hd, hzz⟩ ht
      · rw [(h2 b' d).2 fun hc => h ⟨hc.1, by
          obtain ⟨c', hc', hr⟩ := hc.2; exact ⟨c', List.mem_cons_of_mem _ hc', hr⟩⟩]
        unfold setVals
        exact if_neg fun hc => h ⟨hc.1, c, List.mem_cons_self .., hc.2, inGrain_iff.1 hz⟩
    · rw [if_neg hz, Res.ok_bind]
      obtain ⟨f', h1, h2⟩ := ih f hf
      have e : ∀ d, Touches G (c :: cells) g d ↔ Touches G cells g d := fun d =>
        ⟨fun ⟨c', hc', hd, hzz⟩ => by
          rcases List.mem_cons.1 hc' with rfl | hc'
          · exact absurd (inGrain_iff.2 hzz) hz
          · exact ⟨c', hc', hd, hzz⟩,
        fun ⟨c', hc', hr⟩ => ⟨c', List.mem_cons_of_mem _ hc', hr⟩⟩
      exact ⟨f', h1, fun b' d => by rw [e d]; exact h2 b' d⟩

theorem alter_clear {G : Geometry P K} {nb b : Nat} (hb : b < nb) (g : Grain P K) (f : Fld D K) (cells : List (ZCell D P)) :
    ∃ f', alter G cells g (clear nb b) f = .ok f' ∧ ∀ b' d, (b' = b ∧ Touches G cells g d → f' b' d = 0) ∧
      (¬ (b' = b ∧ Touches G cells g d) → f' b' d = f b' d) :=
  alter_set g (clear nb b) (fun _ => 0) (fun _ => True) (fun _ _ _ => if_pos hb) (fun _ _ _ => trivial) f trivial cells

/-- `d` is in the zone of the grain of a move. -/
def T (G : Geometry P K) (grains : OMap (Grain P K)) (cells : List (ZCell D P)) (m : Move) (d : D) : Prop :=
  ∃ g, grains.get? m.grain = some g ∧ Touches G cells g d

/-- A move of a known grain between blocks of the vector. -/
structure Fine (nb off : Nat) (grains : OMap (Grain P K)) (m : Move) : Prop where
  grain : ∃ g, grains.get? m.grain = some g
  src : m.src + off < nb
  dst : m.dst + off < nb
  ne : m.src ≠ m.dst

variable {G : Geometry P K} {nb off : Nat} {cells : List (ZCell D P)} {grains : OMap (Grain P K)}

omit [DecidableEq D] in
theorem T_iff {m : Move} {g : Grain P K} (hg : grains.get? m.grain = some g) (d : D) : T G grains cells m d ↔ Touches G cells g d :=
  ⟨fun ⟨g', h1, h2⟩ => by rw [hg] at h1; cases h1; exact h2, fun h => ⟨g, hg, h⟩⟩

theorem toTemp_ok {m : Move} {k : Nat} (h : Fine nb off grains m) (f t : Fld D K) :
    ∃ f' t', toTemp G nb off cells grains (f, t) (m, k) = .ok (f', t') ∧
      (∀ d, T G grains cells m d → t' k d = f (m.src + off) d) ∧
      (∀ b d, b ≠ k → t' b d = t b d) ∧
      (∀ d, T G grains cells m d → f' (m.src + off) d = 0) ∧
      (∀ b d, (T G grains cells m d → m.src + off ≠ b) → f' b d = f b d) := by
  obtain ⟨g, hg⟩ := h.grain
  obtain ⟨t', ht, ht'⟩ := alter_set (G := G) (b := k) g (save nb (m.src + off) k f) (f (m.src + off)) (fun _ => True)
    (fun _ _ _ => if_pos h.src) (fun _ _ _ => trivial) t trivial cells
  obtain ⟨f', hf, hf'⟩ := alter_clear (G := G) h.src g f cells
  refine ⟨f', t', ?_, fun d hd => (ht' k d).1 ⟨rfl, (T_iff hg d).1 hd⟩, fun b d hb => (ht' b d).2 fun hc => hb hc.1,
    fun d hd => (hf' _ d).1 ⟨rfl, (T_iff hg d).1 hd⟩, fun b d hb => (hf' b d).2 fun hc => hb ((T_iff hg d).2 hc.2) hc.1.symm⟩
  unfold toTemp
  rw [hg, Res.at?_some, Res.ok_bind]
  dsimp only
  rw [ht, Res.ok_bind, hf, Res.ok_bind]

theorem transfer_ok {m : Move} (h : Fine nb off grains m) (f : Fld D K) :
    ∃ f', transfer G nb off cells grains f m = .ok f' ∧
      (∀ d, T G grains cells m d → f' (m.dst + off) d = f (m.src + off) d) ∧
      (∀ d, T G grains cells m d → f' (m.src + off) d = 0) ∧
      (∀ b d, (T G grains cells m d → m.src + off ≠ b ∧ m.dst + off ≠ b) → f' b d = f b d) := by
  obtain ⟨g, hg⟩ := h.grain
  have hne := h.ne
  obtain ⟨f1, h1, h1'⟩ := alter_set (G := G) (b := m.dst + off) g (copy nb (m.src + off) (m.dst + off)) (f (m.src + off))
    (fun f' => f' (m.src + off) = f (m.src + off))
    (fun dofs f' hf' => by unfold copy; rw [if_pos ⟨h.src, h.dst⟩, hf'])
    (fun dofs f' hf' => by
      funext d
      unfold setVals
      rw [if_neg (by omega)]
      exact congrFun hf' d) f rfl cells
  obtain ⟨f2, h2, h2'⟩ := alter_clear (G := G) h.src g f1 cells
  refine ⟨f2, ?_, fun d hd => ?_, fun d hd => (h2' _ d).1 ⟨rfl, (T_iff hg d).1 hd⟩, fun b d hb => ?_⟩
  · unfold transfer
    rw [hg, Res.at?_some, Res.ok_bind, h1, Res.ok_bind, h2]
  · rw [(h2' _ d).2 (by omega), (h1' _ d).1 ⟨rfl, (T_iff hg d).1 hd⟩]
  · rw [(h2' b d).2 fun hc => (hb ((T_iff hg d).2 hc.2)).1 hc.1.symm, (h1' b d).2 fun hc => (hb ((T_iff hg d).2 hc.2)).2 hc.1.symm]

theorem fromTemp_ok {m : Move} {k : Nat} (h : Fine nb off grains m) (t f : Fld D K) :
    ∃ f', fromTemp G nb off cells grains t f (m, k) = .ok f' ∧
      (∀ d, T G grains cells m d → f' (m.dst + off) d = t k d) ∧
      (∀ b d, (T G grains cells m d → m.dst + off ≠ b) → f' b d = f b d) := by
  obtain ⟨g, hg⟩ := h.grain
  obtain ⟨f', hf, hf'⟩ := alter_set (G := G) (b := m.dst + off) g (restore nb k (m.dst + off) t) (t k) (fun _ => True)
    (fun _ _ _ => if_pos h.dst) (fun _ _ _ => trivial) f trivial cells
  refine ⟨f', ?_, fun d hd => (hf' _ d).1 ⟨rfl, (T_iff hg d).1 hd⟩, fun b d hb => (hf' b d).2 fun hc => hb ((T_iff hg d).2 hc.2) hc.1.symm⟩
  unfold fromTemp
  rw [hg, Res.at?_some, Res.ok_bind, hf]

theorem phase1 : ∀ (l : List (Move × Nat)), (∀ p ∈ l, Fine nb off grains p.1) → l.Pairwise (fun p q => p.2 ≠ q.2) → ∀ f t : Fld D K,
    ∃ f' t', l.foldlM (toTemp G nb off cells grains) (f, t) = .ok (f', t') ∧
      ∀ d, l.Pairwise (fun p q => T G grains cells p.1 d → T G grains cells q.1 d → p.1.src ≠ q.1.src) →
        (∀ p ∈ l, T G grains cells p.1 d → t' p.2 d = f (p.1.src + off) d) ∧
        (∀ k, (∀ p ∈ l, p.2 ≠ k) → t' k d = t k d) ∧
        (∀ p ∈ l, T G grains cells p.1 d → f' (p.1.src + off) d = 0) ∧
        (∀ b, (∀ p ∈ l, T G grains cells p.1 d → p.1.src + off ≠ b) → f' b d = f b d)
  | [], _, _, f, t => ⟨f, t, rfl, fun d _ => ⟨fun p hp => by simp at hp, fun _ _ => rfl, fun p hp => by simp at hp, fun _ _ => rfl⟩⟩
  | (m, k) :: l, hf, hk, f, t => by
    obtain ⟨f1, t1, e1, a1, a2, a3, a4⟩ := toTemp_ok (G := G) (cells := cells) (k := k) (hf _ (List.mem_cons_self ..)) f t
    rw [List.pairwise_cons] at hk
    obtain ⟨f', t', e, h⟩ := phase1 l (fun p hp => hf p (List.mem_cons_of_mem _ hp)) hk.2 f1 t1
    refine ⟨f', t', by rw [List.foldlM_cons, e1, Res.ok_bind, e], fun d hd => ?_⟩
    rw [List.pairwise_cons] at hd
    obtain ⟨b1, b2, b3, b4⟩ := h d hd.2
    refine ⟨fun p hp ht => ?_, fun k' hk' => ?_, fun p hp ht => ?_, fun b hb => ?_⟩
    · rcases List.mem_cons.1 hp with rfl | hp
      · rw [b2 k fun q hq => (hk.1 q hq).symm, a1 d ht]
      · rw [b1 p hp ht]
        exact a4 _ d fun ht' he => hd.1 p hp ht' ht (by simpa using he)
    · rw [b2 k' fun q hq => hk' q (List.mem_cons_of_mem _ hq)]
      exact a2 k' d (hk' _ (List.mem_cons_self ..)).symm
    · rcases List.mem_cons.1 hp with rfl | hp
      · rw [b4 _ fun q hq ht' he => hd.1 q hq ht ht' (by simpa using he.symm)]
        exact a3 d ht
      · exact b3 p hp ht
    · rw [b4 b fun q hq => hb q (List.mem_cons_of_mem _ hq)]
      exact a4 b d (hb _ (List.mem_cons_self ..))

theorem phase2 : ∀ (l : List Move), (∀ m ∈ l, Fine nb off grains m) → ∀ f : Fld D K,
    ∃ f', l.foldlM (transfer G nb off cells grains) f = .ok f' ∧
      ∀ d, l.Pairwise (fun a b => T G grains cells a d → T G grains cells b d → a.src ≠ b.src ∧ a.dst ≠ b.dst ∧ a.dst ≠ b.src) →
        (∀ m ∈ l, T G grains cells m d → f' (m.dst + off) d = f (m.src + off) d) ∧
        (∀ m ∈ l, T G grains cells m d → (∀ a ∈ l, T G grains cells a d → a.dst ≠ m.src) → f' (m.src + off) d = 0) ∧
        (∀ b, (∀ m ∈ l, T G grains cells m d → m.src + off ≠ b ∧ m.dst + off ≠ b) → f' b d = f b d)
  | [], _, f => ⟨f, rfl, fun d _ => ⟨fun p hp => by simp at hp, fun p hp => by simp at hp, fun _ _ => rfl⟩⟩
  | m :: l, hf, f => by
    obtain ⟨f1, e1, a1, a2, a3⟩ := transfer_ok (G := G) (cells := cells) (hf _ (List.mem_cons_self ..)) f
    obtain ⟨f', e, h⟩ := phase2 l (fun p hp => hf p (List.mem_cons_of_mem _ hp)) f1
    refine ⟨f', by rw [List.foldlM_cons, e1, Res.ok_bind, e], fun d hd => ?_⟩
    rw [List.pairwise_cons] at hd
    obtain ⟨b1, b2, b3⟩ := h d hd.2
    refine ⟨fun p hp ht => ?_, fun p hp ht hn => ?_, fun b hb => ?_⟩
    · rcases List.mem_cons.1 hp with rfl | hp
      · rw [b3 _ fun q hq ht' => ?_, a1 d ht]
        have := hd.1 q hq ht ht'
        omega
      · rw [b1 p hp ht]
        refine a3 _ d fun ht' => ?_
        have := hd.1 p hp ht' ht
        omega
    · rcases List.mem_cons.1 hp with rfl | hp
      · rw [b3 _ fun q hq ht' => ?_, a2 d ht]
        have h1 := hd.1 q hq ht ht'
        have h2 := hn q (List.mem_cons_of_mem _ hq) ht'
        omega
      · exact b2 p hp ht fun a ha => hn a (List.mem_cons_of_mem _ ha)
    · rw [b3 b fun q hq => hb q (List.mem_cons_of_mem _ hq)]
      exact a3 b d (hb _ (List.mem_cons_self ..))

theorem phase3 (t : Fld D K) : ∀ (l : List (Move × Nat)), (∀ p ∈ l, Fine nb off grains p.1) → ∀ f : Fld D K,
    ∃ f', l.foldlM (fromTemp G nb off cells grains t) f = .ok f' ∧
      ∀ d, l.Pairwise (fun p q => T G grains cells p.1 d → T G grains cells q.1 d → p.1.dst ≠ q.1.dst) →
        (∀ p ∈ l, T G grains cells p.1 d → f' (p.1.dst + off) d = t p.2 d) ∧
        (∀ b, (∀ p ∈ l, T G grains cells p.1 d → p.1.dst + off ≠ b) → f' b d = f b d)
  | [], _, f => ⟨f, rfl, fun d _ => ⟨fun p hp => by simp at hp, fun _ _ => rfl⟩⟩
  | (m, k) :: l, hf, f => by
    obtain ⟨f1, e1, a1, a2⟩ := fromTemp_ok (G := G) (cells := cells) (k := k) (hf _ (List.mem_cons_self ..)) t f
    obtain ⟨f', e, h⟩ := phase3 t l (fun p hp => hf p (List.mem_cons_of_mem _ hp)) f1
    refine ⟨f', by rw [List.foldlM_cons, e1, Res.ok_bind, e], fun d hd => ?_⟩
    rw [List.pairwise_cons] at hd
    obtain ⟨b1, b2⟩ := h d hd.2
    refine ⟨fun p hp ht => ?_, fun b hb => ?_⟩
    · rcases List.mem_cons.1 hp with rfl | hp
      · rw [b2 _ fun q hq ht' he => hd.1 q hq ht ht' (by simpa using he.symm)]
        exact a1 d ht
      · exact b1 p hp ht
    · rw [b2 b fun q hq => hb q (List.mem_cons_of_mem _ hq)]
      exact a2 b d (hb _ (List.mem_cons_self ..))

theorem clearing : ∀ (l : OMap (Grain P K)), (∀ p ∈ l, p.2.op + off < nb) → ∀ f : Fld D K,
    ∃ f', l.foldlM (fun f p => alter G cells p.2 (clear nb (p.2.op + off)) f) f = .ok f' ∧
      ∀ b d, ((∃ p ∈ l, p.2.op + off = b ∧ Touches G cells p.2 d) → f' b d = 0) ∧
        ((¬ ∃ p ∈ l, p.2.op + off = b ∧ Touches G cells p.2 d) → f' b d = f b d)
  | [], _, f => ⟨f, rfl, fun b d => ⟨fun ⟨p, hp, _⟩ => by simp at hp, fun _ => rfl⟩⟩
  | p :: l, hb, f => by
    obtain ⟨f1, e1, h1⟩ := alter_clear (G := G) (hb p (List.mem_cons_self ..)) p.2 f cells
    obtain ⟨f', e, h⟩ := clearing l (fun q hq => hb q (List.mem_cons_of_mem _ hq)) f1
    refine ⟨f', by rw [List.foldlM_cons, e1, Res.ok_bind, e], fun b d => ⟨fun hz => ?_, fun hz => ?_⟩⟩
    · by_cases hl : ∃ q ∈ l, q.2.op + off = b ∧ Touches G cells q.2 d
      · exact (h b d).1 hl
      · rw [(h b d).2 hl]
        obtain ⟨q, hq, hq2⟩ := hz
        rcases List.mem_cons.1 hq with rfl | hq
        · exact (h1 b d).1 ⟨hq2.1.symm, hq2.2⟩
        · exact absurd ⟨q, hq, hq2⟩ hl
    · rw [(h b d).2 fun ⟨q, hq, hq2⟩ => hz ⟨q, List.mem_cons_of_mem _ hq, hq2⟩]
      exact (h1 b d).2 fun hc => hz ⟨p, List.mem_cons_self .., hc.1.symm, hc.2⟩

end Verif.RemapOld
