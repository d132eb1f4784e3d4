import Mathlib.Data.List.Basic
import Verif.Lemmas.Remap
/-!
# Lemmas on executing the remapping schedule
-/
namespace Verif
variable {P K D : Type} [DecidableEq D] [Zero K]

/-- a write of a cell vector to an order parameter -/
abbrev Wr (D K : Type) := Nat × (D → K)

def applyW (off : Nat) (dofs : List D) (f : Fld D K) (w : Wr D K) : Fld D K :=
  setVals dofs (w.1 + off) w.2 f

omit [Zero K] in
theorem applyWs_skip {off : Nat} {dofs : List D} {b : Nat} {d : D} : ∀ (W : List (Wr D K))
    (f : Fld D K), (∀ w ∈ W, w.1 + off ≠ b) ∨ d ∉ dofs → W.foldl (applyW off dofs) f b d = f b d
  | [], f, _ => rfl
  | w :: W, f, h => by
    rw [List.foldl_cons, applyWs_skip W _ (by
      rcases h with h | h
      · exact Or.inl (fun w hw => h w (by simp [hw]))
      · exact Or.inr h)]
    unfold applyW setVals
    rw [if_neg]
    rcases h with h | h
    · exact fun hc => h w (by simp) hc.1.symm
    · exact fun hc => h hc.2

omit [Zero K] in
theorem applyWs_last {off : Nat} {dofs : List D} {d : D} (hd : d ∈ dofs) {A B : List (Wr D K)}
    {w : Wr D K} (hB : ∀ w' ∈ B, w'.1 ≠ w.1) (f : Fld D K) :
    (A ++ w :: B).foldl (applyW off dofs) f (w.1 + off) d = w.2 d := by
  rw [List.foldl_append, List.foldl_cons, applyWs_skip B _ (Or.inl (by
    intro w' hw' h
    exact hB w' hw' (by omega)))]
  unfold applyW setVals
  rw [if_pos ⟨rfl, hd⟩]

theorem applyWs_zero {off : Nat} {dofs : List D} {d : D} (hd : d ∈ dofs) {o : Nat} :
    ∀ (W : List (Wr D K)) (f : Fld D K), (∀ w ∈ W, w.1 = o → w.2 d = 0) →
      (f (o + off) d = 0 ∨ ∃ w ∈ W, w.1 = o) → W.foldl (applyW off dofs) f (o + off) d = 0
  | [], f, _, h => by
    rcases h with h | ⟨w, hw, -⟩
    · exact h
    · simp at hw
  | w :: W, f, h1, h2 => by
    rw [List.foldl_cons]
    apply applyWs_zero hd W _ (fun w hw => h1 w (by simp [hw]))
    by_cases hw : w.1 = o
    · left
      unfold applyW setVals
      rw [if_pos ⟨by rw [hw], hd⟩]
      exact h1 w (by simp) hw
    · rcases h2 with h2 | ⟨w', hw', he⟩
      · left
        unfold applyW setVals
        rw [if_neg (by rintro ⟨a, -⟩; omega)]
        exact h2
      · rcases List.mem_cons.1 hw' with rfl | hw'
        · exact (hw he).elim
        · exact Or.inr ⟨w', hw', he⟩

variable {nb off : Nat} {dofs : List D} {copy : Fld D K}

theorem run_toTemp : ∀ (l : List Move) (sol : Fld D K) (st : List (D → K)),
    (∀ m ∈ l, m.src + off < nb) →
    (l.map Step.toTemp).foldlM (runStep nb off dofs copy) (sol, st) =
      .ok ((l.map (fun m => ((m.src, fun _ => 0) : Wr D K))).foldl (applyW off dofs) sol,
        (l.reverse.map (fun m => copy (m.src + off))) ++ st)
  | [], sol, st, _ => rfl
  | m :: l, sol, st, h => by
    have h0 := h m (by simp)
    have hs : runStep nb off dofs copy (sol, st) (Step.toTemp m) =
        .ok (setVals dofs (m.src + off) (fun _ => 0) sol, copy (m.src + off) :: st) := by
      simp [runStep, Step.toTemp, h0]
    rw [List.map_cons, List.foldlM_cons, hs]
    simp only [Res.ok_bind]
    rw [run_toTemp l _ _ (fun m hm => h m (by simp [hm]))]
    simp [applyW]

theorem run_plain : ∀ (l : List Move) (sol : Fld D K) (st : List (D → K)),
    (∀ m ∈ l, m.src + off < nb ∧ m.dst + off < nb) →
    (l.map Step.plain).foldlM (runStep nb off dofs copy) (sol, st) =
      .ok ((l.flatMap (fun m => [((m.dst, copy (m.src + off)) : Wr D K), (m.src, fun _ => 0)])).foldl
        (applyW off dofs) sol, st)
  | [], sol, st, _ => rfl
  | m :: l, sol, st, h => by
    have h0 := h m (by simp)
    have hs : runStep nb off dofs copy (sol, st) (Step.plain m) =
        .ok (setVals dofs (m.src + off) (fun _ => 0)
          (setVals dofs (m.dst + off) (copy (m.src + off)) sol), st) := by
      simp [runStep, Step.plain, h0]
    rw [List.map_cons, List.foldlM_cons, hs]
    simp only [Res.ok_bind]
    rw [run_plain l _ _ (fun m hm => h m (by simp [hm]))]
    simp [applyW]

theorem run_fromTemp : ∀ (l : List Move) (sol : Fld D K) (st : List (D → K)),
    (∀ m ∈ l, m.dst + off < nb) →
    (l.map Step.fromTemp).foldlM (runStep nb off dofs copy)
        (sol, l.map (fun m => copy (m.src + off)) ++ st) =
      .ok ((l.map (fun m => ((m.dst, copy (m.src + off)) : Wr D K))).foldl (applyW off dofs) sol, st)
  | [], sol, st, _ => rfl
  | m :: l, sol, st, h => by
    have h0 := h m (by simp)
    have hs : runStep nb off dofs copy
        (sol, (m :: l).map (fun m => copy (m.src + off)) ++ st) (Step.fromTemp m) =
        .ok (setVals dofs (m.dst + off) (copy (m.src + off)) sol,
          l.map (fun m => copy (m.src + off)) ++ st) := by
      simp [runStep, Step.fromTemp, h0]
    rw [List.map_cons (f := Step.fromTemp), List.foldlM_cons, hs]
    simp only [Res.ok_bind]
    rw [run_fromTemp l _ _ (fun m hm => h m (by simp [hm]))]
    simp [applyW]

/-- what the moves `rs` do at one cell -/
structure CellRes (off : Nat) (dofs : List D) (copy : Fld D K) (rs : List Move)
    (sol sol' : Fld D K) : Prop where
  moved : ∀ d ∈ dofs, ∀ m ∈ rs, sol' (m.dst + off) d = copy (m.src + off) d
  vacated : ∀ d ∈ dofs, ∀ o, (∀ m ∈ rs, m.dst ≠ o) → (∃ m ∈ rs, m.src = o) → sol' (o + off) d = 0
  other : ∀ b d, (∀ m ∈ rs, m.dst + off ≠ b ∧ m.src + off ≠ b) ∨ d ∉ dofs → sol' b d = sol b d

theorem runCell_ok {cut direct rs : List Move} (hperm : List.Perm (direct ++ cut) rs)
    (hord : ∀ (i j : Nat) (a b : Move), direct[i]? = some a → direct[j]? = some b →
      Dep (fun _ _ => true) a b → j < i)
    (hdst : rs.Pairwise (fun a b => a.dst ≠ b.dst)) (hne : ∀ m ∈ rs, m.src ≠ m.dst)
    (hb : ∀ m ∈ rs, m.src + off < nb ∧ m.dst + off < nb) (sol : Fld D K) :
    ∃ sol', runCell nb off dofs copy (cut.reverse.map Step.toTemp ++ direct.map Step.plain ++
        cut.map Step.fromTemp) sol = .ok sol' ∧ CellRes off dofs copy rs sol sol' := by
  have hin : ∀ m, m ∈ rs ↔ m ∈ direct ∨ m ∈ cut := by
    intro m; rw [← hperm.mem_iff]; simp
  have hdst' : (direct ++ cut).Pairwise (fun a b => a.dst ≠ b.dst) :=
    (hperm.pairwise_iff (fun h => Ne.symm h)).2 hdst
  rw [List.pairwise_append] at hdst'
  obtain ⟨hdd, hdc, hdcc⟩ := hdst'
  have e1 := run_toTemp (nb := nb) (off := off) (dofs := dofs) (copy := copy) cut.reverse sol []
    (fun m hm => (hb m ((hin m).2 (Or.inr (List.mem_reverse.1 hm)))).1)
  have hrun : ∃ W, runCell nb off dofs copy (cut.reverse.map Step.toTemp ++ direct.map Step.plain ++
        cut.map Step.fromTemp) sol = .ok (W.foldl (applyW off dofs) sol) ∧
      W = cut.reverse.map (fun m => ((m.src, fun _ => 0) : Wr D K)) ++
        direct.flatMap (fun m => [((m.dst, copy (m.src + off)) : Wr D K), (m.src, fun _ => 0)]) ++
        cut.map (fun m => ((m.dst, copy (m.src + off)) : Wr D K)) := by
    refine ⟨_, ?_, rfl⟩
    unfold runCell
    rw [List.foldlM_append, List.foldlM_append, e1]
    simp only [Res.ok_bind, List.reverse_reverse]
    rw [run_plain direct _ _ (fun m hm => hb m ((hin m).2 (Or.inl hm)))]
    simp only [Res.ok_bind]
    rw [run_fromTemp cut _ [] (fun m hm => (hb m ((hin m).2 (Or.inr hm))).2)]
    simp [List.foldl_append]
  obtain ⟨W, hW, hWe⟩ := hrun
  refine ⟨_, hW, ⟨?_, ?_, ?_⟩⟩
  · intro d hd m hm
    rcases (hin m).1 hm with hm' | hm'
    · obtain ⟨p, q, hpq⟩ := List.append_of_mem hm'
      have hsplit : W = (cut.reverse.map (fun m => ((m.src, fun _ => 0) : Wr D K)) ++
          p.flatMap (fun m => [((m.dst, copy (m.src + off)) : Wr D K), (m.src, fun _ => 0)])) ++
          ((m.dst, copy (m.src + off)) : Wr D K) :: ((m.src, fun _ => 0) ::
          (q.flatMap (fun m => [((m.dst, copy (m.src + off)) : Wr D K), (m.src, fun _ => 0)]) ++
          cut.map (fun m => ((m.dst, copy (m.src + off)) : Wr D K)))) := by
        rw [hWe, hpq]; simp
      rw [hsplit]
      refine applyWs_last (w := (m.dst, copy (m.src + off))) hd ?_ sol
      intro w hw
      simp only [List.mem_cons, List.mem_append, List.mem_flatMap, List.mem_map] at hw
      rcases hw with rfl | ⟨m', hm'', hw⟩ | ⟨m', hm'', rfl⟩
      · exact hne m hm
      · have hdq : m.dst ≠ m'.dst := by
          rw [hpq, List.pairwise_append, List.pairwise_cons] at hdd
          exact hdd.2.1.1 m' hm''
        have hsq : m'.src ≠ m.dst := by
          intro heq
          have hmm : m ≠ m' := fun h => hdq (by rw [h])
          obtain ⟨k, hk⟩ := List.mem_iff_getElem?.1 hm''
          have h1 : direct[p.length]? = some m := by rw [hpq]; simp
          have h2 : direct[p.length + 1 + k]? = some m' := by
            rw [hpq, List.getElem?_append_right (by omega)]
            have : p.length + 1 + k - p.length = k + 1 := by omega
            rw [this]; simpa using hk
          have := hord _ _ _ _ h1 h2 ⟨hmm, rfl, heq.symm⟩
          omega
        simp at hw
        rcases hw with rfl | rfl
        · exact fun h => hdq h.symm
        · exact hsq
      · exact fun h => hdcc m hm' m' hm'' h.symm
    · obtain ⟨p, q, hpq⟩ := List.append_of_mem hm'
      have hsplit : W = (cut.reverse.map (fun m => ((m.src, fun _ => 0) : Wr D K)) ++
          direct.flatMap (fun m => [((m.dst, copy (m.src + off)) : Wr D K), (m.src, fun _ => 0)]) ++
          p.map (fun m => ((m.dst, copy (m.src + off)) : Wr D K))) ++
          ((m.dst, copy (m.src + off)) : Wr D K) ::
          q.map (fun m => ((m.dst, copy (m.src + off)) : Wr D K)) := by
        rw [hWe]
        conv => lhs; rw [show cut.map (fun m => ((m.dst, copy (m.src + off)) : Wr D K)) =
          (p ++ m :: q).map (fun m => ((m.dst, copy (m.src + off)) : Wr D K)) from by rw [← hpq]]
        simp
      rw [hsplit]
      refine applyWs_last (w := (m.dst, copy (m.src + off))) hd ?_ sol
      intro w hw
      obtain ⟨m', hm'', rfl⟩ := List.mem_map.1 hw
      rw [hpq, List.pairwise_append, List.pairwise_cons] at hdc
      exact fun h => hdc.2.1.1 m' hm'' h.symm
  · intro d hd o ho ⟨m, hm, hms⟩
    apply applyWs_zero hd
    · intro w hw hwo
      rw [hWe] at hw
      simp only [List.mem_append, List.mem_flatMap, List.mem_map, List.mem_reverse, List.mem_cons,
        List.not_mem_nil, or_false] at hw
      rcases hw with (⟨m', hm', rfl⟩ | ⟨m', hm', hw⟩) | ⟨m', hm', rfl⟩
      · rfl
      · rcases hw with rfl | rfl
        · exact (ho m' ((hin m').2 (Or.inl hm')) hwo).elim
        · rfl
      · exact (ho m' ((hin m').2 (Or.inr hm')) hwo).elim
    · right
      rw [hWe]
      rcases (hin m).1 hm with hm' | hm'
      · refine ⟨(m.src, fun _ => 0), ?_, hms⟩
        simp only [List.mem_append, List.mem_flatMap, List.mem_map]
        exact Or.inl (Or.inr ⟨m, hm', by simp⟩)
      · refine ⟨(m.src, fun _ => 0), ?_, hms⟩
        simp only [List.mem_append, List.mem_flatMap, List.mem_map]
        exact Or.inl (Or.inl ⟨m, by simp [hm'], rfl⟩)
  · intro b d h
    apply applyWs_skip
    rcases h with h | h
    · left
      intro w hw
      rw [hWe] at hw
      simp only [List.mem_append, List.mem_flatMap, List.mem_map, List.mem_reverse, List.mem_cons,
        List.not_mem_nil, or_false] at hw
      rcases hw with (⟨m', hm', rfl⟩ | ⟨m', hm', hw⟩) | ⟨m', hm', rfl⟩
      · exact (h m' ((hin m').2 (Or.inr hm'))).2
      · rcases hw with rfl | rfl
        · exact (h m' ((hin m').2 (Or.inl hm'))).1
        · exact (h m' ((hin m').2 (Or.inl hm'))).2
      · exact (h m' ((hin m').2 (Or.inr hm'))).1
    · exact Or.inr h

/-! ## all cells -/

/-- successive cells -/
inductive CellsRes (off : Nat) (copy : Fld D K) (mv : RCell D → List Move) :
    List (RCell D) → Fld D K → Fld D K → Prop
  | nil (sol) : CellsRes off copy mv [] sol sol
  | cons {c cs sol sol1 sol2} : CellRes off c.dofs copy (mv c) sol sol1 →
      CellsRes off copy mv cs sol1 sol2 → CellsRes off copy mv (c :: cs) sol sol2

/-- moves for which the schedule at a cell works -/
structure MovesOk (nb off : Nat) (rs : List Move) : Prop where
  grains : rs.Pairwise (fun a b => a.grain ≠ b.grain)
  dst : rs.Pairwise (fun a b => a.dst ≠ b.dst)
  ne : ∀ m ∈ rs, m.src ≠ m.dst
  blocks : ∀ m ∈ rs, m.src + off < nb ∧ m.dst + off < nb

def CacheOk (x : RemapExt) (tbl : OMap Move) (cache : RCache) : Prop :=
  ∀ gs steps, cache.lookup gs = some steps →
    planMoves x (fun _ _ => true) (localMoves tbl gs) = .ok steps

theorem remapCells_ok {x : RemapExt} (hx : x.Ok) {tbl : OMap Move} {lookup : Lookup}
    {mv : RCell D → List Move} : ∀ (cs : List (RCell D)) (cache : RCache) (sol : Fld D K),
    (∀ c ∈ cs, ∃ gs, grainsAtCell lookup c.pids = .ok gs ∧ mv c = localMoves tbl gs ∧
      MovesOk nb off (mv c)) → CacheOk x tbl cache →
    ∃ cache' sol', cs.foldlM (remapCell x nb off tbl lookup copy) (cache, sol) = .ok (cache', sol') ∧
      CellsRes off copy mv cs sol sol'
  | [], cache, sol, _, _ => ⟨cache, sol, rfl, .nil sol⟩
  | c :: cs, cache, sol, h, hc => by
    obtain ⟨gs, h1, h2, h3⟩ := h c (by simp)
    have hrest : ∀ c ∈ cs, ∃ gs, grainsAtCell lookup c.pids = .ok gs ∧ mv c = localMoves tbl gs ∧
      MovesOk nb off (mv c) := fun c' hc' => h c' (by simp [hc'])
    have hnd : (mv c).Nodup := h3.grains.imp (fun hg he => hg (by rw [he]))
    obtain ⟨cut, direct, p1, p2, p3, -⟩ := plan_core hx (ov := fun _ _ => true) hnd h3.grains
    obtain ⟨sol1, r1, r2⟩ := runCell_ok (dofs := c.dofs) (copy := copy) p2 p3 h3.dst h3.ne h3.blocks
      sol
    rw [List.foldlM_cons]
    have hstep : ∃ cache1 sol1, remapCell x nb off tbl lookup copy (cache, sol) c =
        .ok (cache1, sol1) ∧ CellRes off c.dofs copy (mv c) sol sol1 ∧ CacheOk x tbl cache1 := by
      unfold remapCell
      rw [h1]
      simp only [Res.ok_bind]
      by_cases hgs : gs = []
      · rw [if_pos hgs]
        refine ⟨cache, sol, rfl, ?_, hc⟩
        have : mv c = [] := by rw [h2, hgs]; rfl
        rw [this]
        exact ⟨by simp, by simp, fun _ _ _ => rfl⟩
      · rw [if_neg hgs]
        cases hl : cache.lookup gs with
        | some steps =>
          have := hc gs steps hl
          rw [← h2, p1] at this
          simp only [Res.ok.injEq] at this
          subst this
          simp only [r1, Res.ok_bind]
          exact ⟨cache, sol1, rfl, r2, hc⟩
        | none =>
          simp only [← h2, p1, Res.ok_bind, r1]
          refine ⟨_, sol1, rfl, r2, ?_⟩
          intro gs' steps' hl'
          rw [List.lookup_cons] at hl'
          split at hl'
          · rename_i he
            simp only [beq_iff_eq] at he
            simp only [Option.some.injEq] at hl'
            subst he; subst hl'
            rw [← h2, p1]
          · exact hc gs' steps' hl'
    obtain ⟨cache1, sol1, s1, s2, s3⟩ := hstep
    rw [s1]
    simp only [Res.ok_bind]
    obtain ⟨cache2, sol2, t1, t2⟩ := remapCells_ok hx cs cache1 sol1 hrest s3
    exact ⟨cache2, sol2, t1, .cons s2 t2⟩

/-! ### values at one degree of freedom -/

theorem CellsRes.other {mv : RCell D → List Move} {cs : List (RCell D)} {sol sol' : Fld D K}
    (h : CellsRes off copy mv cs sol sol') {b : Nat} {d : D}
    (hn : ∀ c ∈ cs, d ∈ c.dofs → ∀ m ∈ mv c, m.dst + off ≠ b ∧ m.src + off ≠ b) :
    sol' b d = sol b d := by
  induction h with
  | nil => rfl
  | @cons c cs sol sol1 sol2 hc _ ih =>
    rw [ih (fun c hc => hn c (by simp [hc]))]
    apply hc.other
    by_cases hd : d ∈ c.dofs
    · exact Or.inl (hn c (by simp) hd)
    · exact Or.inr hd

theorem CellsRes.moved {mv : RCell D → List Move} {cs : List (RCell D)} {sol sol' : Fld D K}
    (h : CellsRes off copy mv cs sol sol') {m : Move} {d : D}
    (hall : ∀ c ∈ cs, d ∈ c.dofs → m ∈ mv c)
    (hex : (∃ c ∈ cs, d ∈ c.dofs) ∨ sol (m.dst + off) d = copy (m.src + off) d) :
    sol' (m.dst + off) d = copy (m.src + off) d := by
  induction h with
  | nil =>
    rcases hex with ⟨c, hc, -⟩ | h
    · simp at hc
    · exact h
  | @cons c cs sol sol1 sol2 hc _ ih =>
    apply ih (fun c hc => hall c (by simp [hc]))
    by_cases hd : d ∈ c.dofs
    · right; exact hc.moved d hd m (hall c (by simp) hd)
    · rcases hex with ⟨c', hc', hd'⟩ | h
      · rcases List.mem_cons.1 hc' with rfl | hc'
        · exact (hd hd').elim
        · exact Or.inl ⟨c', hc', hd'⟩
      · right; rw [hc.other _ _ (Or.inr hd)]; exact h

theorem CellsRes.vacated {mv : RCell D → List Move} {cs : List (RCell D)} {sol sol' : Fld D K}
    (h : CellsRes off copy mv cs sol sol') {o : Nat} {d : D}
    (hno : ∀ c ∈ cs, d ∈ c.dofs → ∀ m ∈ mv c, m.dst ≠ o)
    (hex : (∃ c ∈ cs, d ∈ c.dofs ∧ ∃ m ∈ mv c, m.src = o) ∨ sol (o + off) d = 0) :
    sol' (o + off) d = 0 := by
  induction h with
  | nil =>
    rcases hex with ⟨c, hc, -⟩ | h
    · simp at hc
    · exact h
  | @cons c cs sol sol1 sol2 hc _ ih =>
    apply ih (fun c hc => hno c (by simp [hc]))
    by_cases hd : d ∈ c.dofs
    · by_cases hm : ∃ m ∈ mv c, m.src = o
      · right; exact hc.vacated d hd o (hno c (by simp) hd) hm
      · rcases hex with ⟨c', hc', hd', hm'⟩ | h
        · rcases List.mem_cons.1 hc' with rfl | hc'
          · exact (hm hm').elim
          · exact Or.inl ⟨c', hc', hd', hm'⟩
        · right
          rw [hc.other _ _ (Or.inl ?_)]
          · exact h
          · intro m hmm
            refine ⟨fun he => hno c (by simp) hd m hmm (by omega), fun he => ?_⟩
            exact hm ⟨m, hmm, by omega⟩
    · rcases hex with ⟨c', hc', hd', hm'⟩ | h
      · rcases List.mem_cons.1 hc' with rfl | hc'
        · exact (hd hd').elim
        · exact Or.inl ⟨c', hc', hd', hm'⟩
      · right; rw [hc.other _ _ (Or.inr hd)]; exact h

/-! ## moves at a cell -/
omit [DecidableEq D] [Zero K]

theorem emplace_last {α : Type} : ∀ {m : OMap α} {k : Nat} {v : α}, (∀ p ∈ m, p.1 < k) →
    OMap.emplace m k v = m ++ [(k, v)]
  | [], _, _, _ => rfl
  | (k', v') :: m, k, v, h => by
    have h0 := h (k', v') (by simp)
    simp only at h0
    rw [OMap.emplace, if_neg (by omega), if_neg (by omega),
      emplace_last (fun p hp => h p (by simp [hp]))]
    rfl

/-- the move of a grain -/
def moveOf (p : Nat × Grain P K) : Move := ⟨p.1, p.2.oldOp, p.2.op⟩

theorem remapTable_eq {grains : OMap (Grain P K)} (hs : grains.Sorted)
    (hid : ∀ p ∈ grains, p.2.grainId = p.1) :
    remapTable grains = (grains.filter (fun p => decide (p.2.op ≠ p.2.oldOp))).map
      (fun p => (p.1, moveOf p)) := by
  have aux : ∀ (l : OMap (Grain P K)) (acc : OMap Move), l.Sorted →
      (∀ p ∈ l, p.2.grainId = p.1) → (∀ q ∈ acc, ∀ p ∈ l, q.1 < p.1) →
      l.foldl (fun m p => if p.2.op ≠ p.2.oldOp then
        m.emplace p.2.grainId ⟨p.2.grainId, p.2.oldOp, p.2.op⟩ else m) acc =
      acc ++ (l.filter (fun p => decide (p.2.op ≠ p.2.oldOp))).map (fun p => (p.1, moveOf p)) := by
    intro l
    induction l with
    | nil => intro acc _ _ _; simp
    | cons p l ih =>
      intro acc hs hid hlt
      have hs' := hs
      rw [OMap.Sorted, List.pairwise_cons] at hs
      have hp := hid p (by simp)
      rw [List.foldl_cons]
      by_cases hm : p.2.op ≠ p.2.oldOp
      · rw [if_pos hm, hp, emplace_last (fun q hq => hlt q hq p (by simp))]
        rw [ih _ hs.2 (fun q hq => hid q (by simp [hq]))]
        · rw [List.filter_cons_of_pos (by simpa using hm)]
          simp [moveOf]
        · intro q hq r hr
          rcases List.mem_append.1 hq with h | h
          · exact hlt q h r (by simp [hr])
          · simp at h; subst h; exact hs.1 r hr
      · rw [if_neg hm, ih _ hs.2 (fun q hq => hid q (by simp [hq]))
          (fun q hq r hr => hlt q hq r (by simp [hr]))]
        rw [List.filter_cons_of_neg (by simpa using hm)]
  have := aux grains [] hs hid (by simp)
  simpa [remapTable] using this

theorem remapTable_get? {grains : OMap (Grain P K)} (hs : grains.Sorted)
    (hid : ∀ p ∈ grains, p.2.grainId = p.1) (g : Nat) (m : Move) :
    (remapTable grains).get? g = some m ↔
      ∃ G, grains.get? g = some G ∧ G.op ≠ G.oldOp ∧ m = ⟨g, G.oldOp, G.op⟩ := by
  have hsorted : (remapTable grains).Sorted := by
    rw [remapTable_eq hs hid, OMap.Sorted, List.pairwise_map]
    exact List.Pairwise.filter _ hs
  rw [OMap.get?_iff_mem hsorted, remapTable_eq hs hid]
  simp only [List.mem_map, List.mem_filter, decide_eq_true_eq]
  constructor
  · rintro ⟨p, ⟨hp, hm⟩, he⟩
    simp only [Prod.mk.injEq] at he
    obtain ⟨rfl, rfl⟩ := he
    exact ⟨p.2, OMap.get?_of_mem hs hp, hm, rfl⟩
  · rintro ⟨G, hG, hm, rfl⟩
    exact ⟨(g, G), ⟨OMap.mem_of_get? hG, hm⟩, rfl⟩

/-- entry of the particle table for the particle of one order parameter at a cell -/
def entryAt (lookup : Lookup) (x : Option Nat × Nat) : Option (Option Nat) :=
  x.1.bind fun pid => (lookup[x.2]?).bind fun row => (row[pid]?).map (·.1)

theorem grainsAtCell_eq {lookup : Lookup} {pids : List (Option Nat)}
    (hv : ∀ (op pid : Nat), pids[op]? = some (some pid) →
      ∃ row e, lookup[op]? = some row ∧ row[pid]? = some e) :
    grainsAtCell lookup pids = .ok (pids.zipIdx.filterMap (entryAt lookup)) := by
  have aux : ∀ (l : List (Option Nat × Nat)) (acc : List (Option Nat)),
      (∀ x ∈ l, ∀ pid, x.1 = some pid → ∃ row e, lookup[x.2]? = some row ∧ row[pid]? = some e) →
      l.foldlM (fun acc x =>
        match x.1 with
        | none => Res.ok acc
        | some pid => do
          let row ← Res.index lookup x.2
          let e ← Res.index row pid
          Res.ok (acc ++ [e.1])) acc = .ok (acc ++ l.filterMap (entryAt lookup)) := by
    intro l
    induction l with
    | nil => intro acc _; simp
    | cons x l ih =>
      intro acc h
      rw [List.foldlM_cons]
      cases hx : x.1 with
      | none =>
        simp only [Res.ok_bind]
        rw [ih _ (fun y hy => h y (by simp [hy])),
          List.filterMap_cons_none (by simp [entryAt, hx])]
      | some pid =>
        obtain ⟨row, e, h1, h2⟩ := h x (by simp) pid hx
        simp only [Res.index_eq_ok.2 h1, Res.ok_bind, Res.index_eq_ok.2 h2]
        rw [ih _ (fun y hy => h y (by simp [hy])),
          List.filterMap_cons_some (b := e.1) (by simp [entryAt, hx, h1, h2])]
        simp
  have := aux pids.zipIdx [] (by
    intro x hx pid hp
    have := List.mem_zipIdx_iff_getElem?.1 hx
    exact hv x.2 pid (by rw [this, hp]))
  rw [List.nil_append] at this
  exact this

end Verif
