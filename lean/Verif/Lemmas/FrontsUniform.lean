import Verif.Lemmas.Fronts
/-!
# Lemmas on growing fronts: meshes with cells of one size
-/
namespace Verif.Wavefront
variable {K : Type} [Field K] [LinearOrder K]
variable {M : WMesh} {h : K} {pid : Nat → Option Nat} {m0 : Nat → Option Nat} {d0 : Nat → Int} {r : Nat}
  {s : WState K} {k : Nat}

/-- while rank `r` is at work: newly reached cells have distance `k + 1` and wait in the first front -/
structure VI (r : Nat) (m0 : Nat → Option Nat) (d0 : Nat → Int) (k : Nat) (s : WState K) : Prop where
  snap : ∀ x, m0 x ≠ none → s.marker x = m0 x ∧ s.dist x = d0 x
  fresh : ∀ x, m0 x = none → s.marker x ≠ none → s.dist x = k + 1
  first : ∀ j x, InB (s.aggl r) j x → j = 0

theorem uniform_weight (hU : Uniform M) {c : Nat} (hc : c ∈ M.cells) : weight M c = 1 := by
  have := (hU c hc).1
  unfold weight
  rw [show M.levels - 1 - M.level c = 0 by omega]; rfl

omit [Field K] [LinearOrder K] in
theorem VI.colour (hU : Uniform M) (hV : VI r m0 d0 k s) {n : Nat} {m : Option Nat} {d : Int}
    (hn : n ∈ M.cells) (hu : s.marker n = none) (hd : d = k + 1) : VI r m0 d0 k (colour M r s n m d) := by
  refine ⟨fun x hx => ?_, fun x hx hm => ?_, fun j x hx => ?_⟩
  · obtain ⟨a, b⟩ := hV.snap x hx
    have hne : x ≠ n := fun e => by rw [e] at a hx; rw [hu] at a; exact hx a.symm
    rw [colour_marker, colour_dist, if_neg hne, if_neg hne]; exact ⟨a, b⟩
  · rw [colour_dist]
    by_cases e : x = n
    · rw [if_pos e]; exact hd
    · rw [if_neg e]; rw [colour_marker, if_neg e] at hm; exact hV.fresh x hx hm
  · rw [colour_aggl, if_pos rfl] at hx
    rcases inB_pushAt.1 hx with hx | ⟨rfl, _, _⟩
    · exact hV.first j x hx
    · have := (hU n hn).1
      omega

theorem VI.handle (hU : Uniform M) (hV : VI r m0 d0 k s) {c n : Nat} (hn : n ∈ M.cells)
    (hc : m0 c ≠ none) (hd : d0 c = k) : VI r m0 d0 k (handle M h r c s n) := by
  unfold Wavefront.handle
  rcases hq : s.marker n with _ | q
  · dsimp only
    refine hV.colour hU hn hq ?_
    rw [(hV.snap c hc).2, hd, uniform_weight hU hn]
  · rcases s.marker c with _ | p
    · exact hV
    · dsimp only
      by_cases hpq : q ≠ p
      · rw [if_pos hpq]; exact ⟨hV.snap, hV.fresh, hV.first⟩
      · rw [if_neg hpq]; exact hV

omit [Field K] [LinearOrder K] in
theorem VI.fold {α : Type} {f : WState K → α → WState K} :
    ∀ (l : List α) (s : WState K), VI r m0 d0 k s → (∀ a ∈ l, ∀ s, VI r m0 d0 k s → VI r m0 d0 k (f s a)) →
      VI r m0 d0 k (l.foldl f s)
  | [], _, hV, _ => hV
  | a :: l, s, hV, hf => VI.fold l (f s a) (hf a (by simp) s hV) (fun b hb => hf b (by simp [hb]))

theorem VI.processCell (hM : MeshOk M) (hU : Uniform M) (hV : VI r m0 d0 k s) {c : Nat} (hc : c ∈ M.cells)
    (hm : m0 c ≠ none) (hd : d0 c = k) : VI r m0 d0 k (processCell M h r s c) :=
  VI.fold _ s hV fun n hn _ hs => hs.handle hU
    (hM.closed c hc n (mem_nbrs.1 (List.mem_of_mem_filter hn))) hm hd

omit [Field K] [LinearOrder K] in
theorem VI.ghostStep (hM : MeshOk M) (hU : Uniform M) (hV : VI r m0 d0 k s) {e : Nat × List Nat}
    (he : e.1 ∈ M.cells) (hen : ∀ n ∈ e.2, Adj M e.1 n)
    (hg : ∀ n ∈ e.2, m0 e.1 ≠ none → m0 n = none → d0 e.1 = k) :
    VI r m0 d0 k (ghostStep M r m0 d0 s e) := by
  unfold Wavefront.ghostStep
  by_cases h0 : m0 e.1 = none
  · rw [if_pos h0]; exact hV
  · rw [if_neg h0]
    refine VI.fold _ s hV fun n hn s hs => ?_
    have hnc := hM.closed _ he n (hen n hn)
    unfold fromGhost
    by_cases hu : s.marker n = none
    · rw [if_pos hu]
      have hn0 : m0 n = none := by
        by_contra h1
        rw [(hs.snap n h1).1] at hu; exact h1 hu
      exact hs.colour hU hnc hu (by rw [hg n hn h0 hn0, uniform_weight hU hnc])
    · rw [if_neg hu]; exact hs

/-- one rank in one pass -/
theorem VI.rankRound (hM : MeshOk M) (hU : Uniform M)
    (hsnap : ∀ x, m0 x ≠ none → s.marker x = m0 x ∧ s.dist x = d0 x)
    (hfresh : ∀ x, m0 x = none → s.marker x ≠ none → s.dist x = k + 1)
    (hB : ∀ j x, InB (s.aggl r) j x → j = 0 ∧ x ∈ M.cells ∧ m0 x ≠ none ∧ d0 x = k)
    (hC : ∀ e ∈ s.cache r, e.1 ∈ M.cells ∧ ∀ n ∈ e.2, Adj M e.1 n ∧ (m0 e.1 ≠ none → m0 n = none → d0 e.1 = k)) :
    VI r m0 d0 k (rankRound M h m0 d0 s r) := by
  let s1 : WState K := { s with aggl := upd s.aggl r ((s.aggl r).tail ++ [[]]) }
  have hV1 : VI r m0 d0 k s1 := by
    refine ⟨hsnap, hfresh, fun j x hx => ?_⟩
    have hx : InB ((s.aggl r).tail ++ [[]]) j x := by
      have e : s1.aggl r = (s.aggl r).tail ++ [[]] := by simp [s1, upd]
      rwa [e] at hx
    have := (hB _ x (inB_tail.1 hx)).1
    omega
  have hV2 : VI r m0 d0 k ((s.cache r).foldl (Wavefront.ghostStep M r m0 d0) s1) :=
    VI.fold _ s1 hV1 fun e he s hs => hs.ghostStep hM hU (hC e he).1 (fun n hn => ((hC e he).2 n hn).1)
      (fun n hn => ((hC e he).2 n hn).2)
  refine VI.fold _ _ ⟨hV2.snap, hV2.fresh, hV2.first⟩ fun c hc s hs => ?_
  obtain ⟨_, h1, h2, h3⟩ := hB 0 c (inB_zero.2 hc)
  exact hs.processCell hM hU h1 h2 h3

/-- invariant of the loop after `k` passes -/
structure UI (M : WMesh) (pid : Nat → Option Nat) (k : Nat) (s : WState K) : Prop where
  front : ∀ r < M.ranks, ∀ j x, InB (s.aggl r) j x → j = 0 ∧ s.dist x = k
  le : ∀ x ∈ M.cells, s.marker x ≠ none → s.dist x ≤ k
  lip : ∀ c ∈ M.cells, Moves M pid c → s.marker c ≠ none → s.dist c < k → ∀ n, Adj M c n →
    s.marker n ≠ none ∧ s.dist n ≤ s.dist c + 1

/-- a neighbour of the void starts a front -/
theorem uniform_starts (hU : Uniform M) {c n p : Nat} (hc : c ∈ M.cells) (hp : pid c = some p)
    (ha : Adj M c n) (hn : pid n = none) : Starts M pid c := by
  rcases ha with h | ⟨ch, lv, x, h, _, _, _, _⟩
  · exact .same p n hp h hn
  · exact absurd h ((hU c hc).2 ch lv)

structure MidU (M : WMesh) (s0 : WState K) (k : Nat) (l : List Nat) (s : WState K) : Prop where
  snap : ∀ x, s0.marker x ≠ none → s.marker x = s0.marker x ∧ s.dist x = s0.dist x
  fresh : ∀ x, s0.marker x = none → s.marker x ≠ none → s.dist x = k + 1
  first : ∀ r, r ∉ l → r < M.ranks → ∀ j x, InB (s.aggl r) j x → j = 0

theorem ranksU_ok (hM : MeshOk M) (hU : Uniform M) {s0 : WState K}
    (hB : ∀ r < M.ranks, ∀ j x, InB (s0.aggl r) j x → j = 0 ∧ x ∈ M.cells ∧ s0.marker x ≠ none ∧ s0.dist x = k)
    (hC : ∀ r < M.ranks, ∀ e ∈ s0.cache r, e.1 ∈ M.cells ∧ ∀ n ∈ e.2, Adj M e.1 n ∧
      (s0.marker e.1 ≠ none → s0.marker n = none → s0.dist e.1 = k))
    (hmem : ∀ r < M.ranks, ∀ k x, InB (s0.aggl r) k x → s0.marker x ≠ none)
    (hcache : ∀ r < M.ranks, CacheMem M r (s0.cache r)) :
    ∀ (l : List Nat) (s : WState K), l.Nodup → (∀ r ∈ l, r < M.ranks) → Mid M h pid s0 l s →
      MidU M s0 k l s → MidU M s0 k [] (l.foldl (rankRound M h s0.marker s0.dist) s)
  | [], s, _, _, _, hs => hs
  | r :: l, s, hnd, hl, hmid, hs => by
    have hr := hl r (by simp)
    obtain ⟨t1, t2⟩ := hmid.todo r (by simp)
    have hV := VI.rankRound (h := h) (s := s) (r := r) hM hU hs.snap hs.fresh
      (fun j x hx => hB r hr j x (t1 ▸ hx)) (fun e he => hC r hr e (t2 ▸ he))
    obtain ⟨r0, A0, hI⟩ := hmid.ri
    obtain ⟨h1, h2, h3, h4, h5⟩ := rankRound_ok hM hr hI
      (fun k x hx => hmem r hr k x (t1 ▸ hx)) (t2 ▸ hcache r hr)
    rw [List.nodup_cons] at hnd
    have hmid' : Mid M h pid s0 l (rankRound M h s0.marker s0.dist s r) := by
      have hmono : ∀ x, s.marker x ≠ none → (rankRound M h s0.marker s0.dist s r).marker x ≠ none :=
        fun x hx => by rw [(h2.keep x hx).1]; exact hx
      refine ⟨⟨r, _, h1⟩, hmid.ext.trans h2, ?_, ?_, ?_, ?_⟩
      · intro r' hr'
        have hne : r' ≠ r := fun e => hnd.1 (e ▸ hr')
        obtain ⟨a, b⟩ := h3 r' hne
        obtain ⟨c, d⟩ := hmid.todo r' (by simp [hr'])
        exact ⟨a.trans c, b.trans d⟩
      · intro r' hr' hlt
        by_cases e : r' = r
        · subst e; rw [h4, t2]
        · rw [(h3 r' e).2]; exact hmid.cache r' (by simp [e, hr']) hlt
      · intro r' hr' hlt x hx h0 n hn
        by_cases e : r' = r
        · subst e; exact h5 x (t2 ▸ hx) h0 n hn
        · exact hmono n (hmid.used r' (by simp [e, hr']) hlt x hx h0 n hn)
      · intro r' hr' hlt k x hx
        by_cases e : r' = r
        · subst e
          rw [← t1]; exact h1.agg k x hx
        · rw [(h3 r' e).1] at hx
          exact (hmid.agg r' (by simp [e, hr']) hlt k x hx).imp_right fun ⟨a, b, c⟩ => ⟨a, b, hmono x c⟩
    refine ranksU_ok hM hU hB hC hmem hcache l _ hnd.2 (fun r' hr' => hl r' (by simp [hr'])) hmid'
      ⟨hV.snap, hV.fresh, fun r' hr' hlt j x hx => ?_⟩
    by_cases e : r' = r
    · subst e; exact hV.first j x hx
    · rw [(h3 r' e).1] at hx; exact hs.first r' (by simp [e, hr']) hlt j x hx

theorem roundU_ok (hM : MeshOk M) (hU : Uniform M) (hG : GI M h pid s) (hI : UI M pid k s) :
    UI M pid (k + 1) (Wavefront.round M h s) := by
  obtain ⟨A0, hR⟩ := hG.ri
  have hC : ∀ r < M.ranks, ∀ e ∈ s.cache r, e.1 ∈ M.cells ∧ ∀ n ∈ e.2, Adj M e.1 n ∧
      (s.marker e.1 ≠ none → s.marker n = none → s.dist e.1 = k) := by
    intro r hr e he
    obtain ⟨a, b, c⟩ := hG.mem r hr e he
    refine ⟨a, fun n hn => ⟨(c n hn).1, fun h1 h2 => ?_⟩⟩
    have ha := (c n hn).1
    have hv : pid n = none := by
      rcases hp : pid n with _ | q
      · rfl
      · rw [hR.part n (hM.closed _ a n ha) q hp] at h2; simp at h2
    have hmv : Moves M pid e.1 := by
      rcases hp : pid e.1 with _ | q
      · exact .inl hp
      · exact .inr (uniform_starts hU a hp ha hv)
    have hle := hI.le _ a h1
    by_contra hne
    exact (hI.lip _ a hmv h1 (by omega) n ha).1 h2
  have hmid : MidU M s k [] (Wavefront.round M h s) :=
    ranksU_ok (pid := pid) hM hU
      (fun r hr j x hx => ⟨(hI.front r hr j x hx).1, (hR.mem r hr j x hx).1, (hR.mem r hr j x hx).2.2.1,
        (hI.front r hr j x hx).2⟩) hC
      (fun r hr k x hx => (hR.mem r hr k x hx).2.2.1) hG.mem (List.range M.ranks) s
      List.nodup_range (fun r hr => by simpa using hr)
      ⟨⟨_, _, hR⟩, .refl s, fun _ _ => ⟨rfl, rfl⟩, fun r h1 h2 => absurd (by simpa using h2) h1,
        fun r h1 h2 => absurd (by simpa using h2) h1, fun r h1 h2 => absurd (by simpa using h2) h1⟩
      ⟨fun _ _ => ⟨rfl, rfl⟩, fun _ h0 h1 => absurd h0 h1, fun r h1 h2 => absurd (by simpa using h2) h1⟩
  obtain ⟨hG', _, hagg⟩ := round_ok hM hG
  obtain ⟨A1, hR'⟩ := hG'.ri
  generalize Wavefront.round M h s = s' at *
  have hfr : ∀ r < M.ranks, ∀ j x, InB (s'.aggl r) j x → j = 0 ∧ s'.dist x = k + 1 := by
    intro r hr j x hx
    refine ⟨hmid.first r (by simp) hr j x hx, ?_⟩
    rcases hagg r hr j x hx with hx | ⟨_, h0, h1⟩
    · have := (hI.front r hr _ x hx).1
      omega
    · exact hmid.fresh x h0 h1
  have hle : ∀ x ∈ M.cells, s'.marker x ≠ none → s'.dist x ≤ k + 1 := by
    intro x hx hm
    by_cases h0 : s.marker x = none
    · rw [hmid.fresh x h0 hm]
    · have := hI.le x hx h0
      rw [(hmid.snap x h0).2]; omega
  refine ⟨fun r hr j x hx => by have := hfr r hr j x hx; exact ⟨this.1, by rw [this.2]; push_cast; rfl⟩,
    fun x hx hm => by have := hle x hx hm; push_cast; exact this, fun c hc hmv hm hlt n ha => ?_⟩
  have hlt : s'.dist c < k + 1 := by push_cast at hlt; exact hlt
  have h0 : s.marker c ≠ none := fun h0 => by rw [hmid.fresh c h0 hm] at hlt; omega
  have hnp : ¬ Pend M s' c := fun ⟨j, hj⟩ => by
    rw [(hfr _ (hM.owner c hc) j c hj).2] at hlt; omega
  have hnm : s'.marker n ≠ none := by
    by_cases ho : M.owner n = M.owner c
    · rcases hR'.proc c hc hmv hm with hd | hd | ⟨_, hd⟩
      · exact absurd hd hnp
      · exact (hd n ha ho).1
      · simp at hd
    · rcases hG'.kept c hc n ha ho with h1 | ⟨l, hl, _⟩
      · exact h1
      · exact absurd (hG'.late _ (hM.owner n (hM.closed c hc n ha)) _ hl hmv hm) hnp
  refine ⟨hnm, ?_⟩
  have hcd := hmid.snap c h0
  by_cases hk : s.dist c < k
  · obtain ⟨h1, h2⟩ := hI.lip c hc hmv h0 hk n ha
    rw [(hmid.snap n h1).2, hcd.2]; exact h2
  · have := hI.le c hc h0
    have := hle n (hM.closed c hc n ha) hnm
    rw [hcd.2]; omega

theorem loopU_ok (hM : MeshOk M) (hU : Uniform M) :
    ∀ (N k : Nat) (s s' : WState K), GI M h pid s → UI M pid k s → loop M h N s = some s' →
      ∃ k', UI M pid k' s'
  | 0, k, s, s', _, hI, e => by
    unfold loop at e
    by_cases hf : anyFront M s = true
    · simp [hf] at e
    · simp only [hf] at e; cases e; exact ⟨k, hI⟩
  | N + 1, k, s, s', hG, hI, e => by
    unfold loop at e
    by_cases hf : anyFront M s = true
    · rw [if_pos hf] at e
      exact loopU_ok hM hU N (k + 1) _ s' (round_ok hM hG).1 (roundU_ok hM hU hG hI) e
    · rw [if_neg hf] at e; cases e; exact ⟨k, hI⟩

theorem startU_ok (hM : MeshOk M) (hU : Uniform M) {marker : Nat → Option Nat} {aggl : Nat → List (List Nat)}
    (hP : Prepared M pid marker aggl M.ranks) : UI (K := K) M pid 0 (startState M marker aggl) := by
  obtain ⟨A0, hR⟩ := (start_ok (h := (0 : K)) hM hP).ri
  have hmk : ∀ c ∈ M.cells, marker c = pid c := fun c hc => by
    rw [hP.mark c hc, if_pos (hM.owner c hc)]
  have hd : ∀ x ∈ M.cells, (startState (K := K) M marker aggl).marker x ≠ none →
      (startState (K := K) M marker aggl).dist x ≤ 0 := by
    intro x hx hm
    have hp : pid x ≠ none := by rw [← hmk x hx]; exact hm
    by_cases hs : Starts M pid x
    · rw [hR.zero x hx hs, ← cellSize_eq, uniform_weight hU hx]; rfl
    · rw [hR.minus x hx hp hs]; decide
  refine ⟨fun r hr j x hx => ?_, hd, fun c hc hmv hm hlt n ha => ?_⟩
  · obtain ⟨a, b, c, e⟩ := (hP.front r hr j x).1 hx
    have := (hU x a).1
    refine ⟨by omega, ?_⟩
    rw [hR.zero x a c, ← cellSize_eq, uniform_weight hU a]; rfl
  · exfalso
    rcases hmv with hv | hs
    · have : marker c ≠ none := hm
      rw [hmk c hc] at this; exact this hv
    · rw [hR.zero c hc hs, ← cellSize_eq, uniform_weight hU hc] at hlt; simp at hlt

theorem adj_inside (hM : MeshOk M) {c n : Nat} (ha : Adj M c n) : c ∈ M.cells :=
  hM.inside c fun e => by
    rcases ha with h | ⟨_, _, _, h, _, _, _, _⟩ <;> rw [e] at h <;> simp at h

/-- at the end distances are shortest -/
theorem nearest_of_end (hM : MeshOk M) (hU : Uniform M) (hG : GI M h pid s) (hI : UI M pid k s)
    (hc : Coloured M pid s.marker s.dist) {q c : Nat} {d : Int} (hF : Front M pid q c d) (hcc : c ∈ M.cells) :
    s.marker c ≠ none ∧ s.dist c ≤ d := by
  have hin : ∀ c n, Adj M c n → n ∈ M.cells → c ∈ M.cells := fun c n ha _ => adj_inside hM ha
  obtain ⟨A0, hR⟩ := hG.ri
  induction hF with
  | start c hp hs =>
    exact ⟨by rw [hc.particle c hcc q hp]; simp, le_of_eq (hc.zero c hcc hs)⟩
  | grow c d n hf ha hn ih =>
    have hc0 := hin c n ha hcc
    obtain ⟨h1, h2⟩ := ih hc0
    have hmv : Moves M pid c := by
      rcases hp : pid c with _ | p
      · exact .inl hp
      · exact .inr (uniform_starts hU hc0 hp ha hn)
    have hm := hc.complete c hc0 n hmv h1 ha
    refine ⟨hm, ?_⟩
    rw [← cellSize_eq, uniform_weight hU hcc]
    by_cases hk : s.dist c < k
    · have := (hI.lip c hc0 hmv h1 hk n ha).2
      omega
    · have := hI.le n hcc hm
      omega
  | across c n hp hs ha hn ho =>
    exact absurd (uniform_starts hU (hin c n ha hcc) hp ha hn) hs

end Verif.Wavefront
