import Verif.Spec.CellFields
import Mathlib.Data.List.FinRange
import Mathlib.Algebra.Group.Pi.Basic

set_option linter.unusedSectionVars false

namespace Verif.CellFields

open Verif.Advection Verif.Spec.CellFields

/-! ### Pores -/

/-- value a cell should get -/
def want (ids : Nat → Option Nat) (l2g : List Nat) (offset : Nat) (c : OCell) : Option Nat :=
  (ids c.global).bind fun p => l2g[p - offset]?

theorem cellId_ok (ids : Nat → Option Nat) (l2g : List Nat) (offset : Nat) (c : OCell)
    (h : ∀ p, ids c.global = some p → offset ≤ p ∧ p - offset < l2g.length) :
    cellId ids l2g offset c.global = .ok (want ids l2g offset c) := by
  unfold cellId want
  cases e : ids c.global with
  | none => rfl
  | some p =>
    obtain ⟨h1, h2⟩ := h p e
    simp only [Option.bind_some]
    rw [if_neg (by omega), Res.index, List.getElem?_eq_getElem h2]
    rfl

theorem cellToId_fold (ids : Nat → Option Nat) (l2g : List Nat) (offset nActive : Nat) (cells : List OCell)
    (h : ∀ c ∈ cells, c.owned = true → c.index.isSome → ∀ p, ids c.global = some p → offset ≤ p ∧ p - offset < l2g.length)
    (hb : ∀ c ∈ cells, ∀ i, c.index = some i → i < nActive)
    (hi : ∀ c ∈ cells, ∀ c' ∈ cells, ∀ i, c.index = some i → c'.index = some i → c = c')
    (v : List (Option Nat)) (hv : v.length = nActive) :
    ∃ w, cells.foldlM (fun (v : List (Option Nat)) c => match c.index with
      | none => .ok v
      | some i => if c.owned then do
          let x ← cellId ids l2g offset c.global
          if i < v.length then .ok (v.set i x) else .ub
        else .ok v) v = Res.ok w ∧ w.length = nActive
      ∧ (∀ c ∈ cells, ∀ i, c.index = some i → c.owned = true → w[i]? = some (want ids l2g offset c))
      ∧ (∀ i, (∀ c ∈ cells, c.index ≠ some i) → w[i]? = v[i]?) := by
  induction cells generalizing v with
  | nil => exact ⟨v, rfl, hv, by simp, by simp⟩
  | cons c cs ih =>
    have ih' := ih (fun c hc => h c (List.mem_cons_of_mem _ hc)) (fun c hc => hb c (List.mem_cons_of_mem _ hc))
      (fun c hc c' hc' => hi c (List.mem_cons_of_mem _ hc) c' (List.mem_cons_of_mem _ hc'))
    rw [List.foldlM_cons]
    cases e : c.index with
    | none =>
      obtain ⟨w, a, b, c1, d⟩ := ih' v hv
      refine ⟨w, by simpa using a, b, ?_, ?_⟩
      · intro c' hc' i hi' ho
        rcases List.mem_cons.1 hc' with rfl | hc'
        · rw [e] at hi'; cases hi'
        · exact c1 c' hc' i hi' ho
      · intro i hne
        exact d i fun c' hc' => hne c' (List.mem_cons_of_mem _ hc')
    | some i =>
      by_cases ho : c.owned = true
      · have hlt := hb c (by simp) i e
        obtain ⟨w, a, b, c1, d⟩ := ih' (v.set i (want ids l2g offset c)) (by simpa using hv)
        refine ⟨w, ?_, b, ?_, ?_⟩
        · simp only [ho, if_true]
          rw [cellId_ok ids l2g offset c (h c (by simp) ho (by simp [e])), Res.ok_bind, if_pos (by omega), Res.ok_bind]
          exact a
        · intro c' hc' j hj ho'
          by_cases hm : c' ∈ cs
          · exact c1 c' hm j hj ho'
          · rcases List.mem_cons.1 hc' with rfl | hc'
            · rw [e] at hj; cases hj
              rw [d i]
              · simp [hv, hlt]
              · intro c'' hc'' e''
                have := hi c' (by simp) c'' (List.mem_cons_of_mem _ hc'') i e e''
                subst this; exact hm hc''
            · exact absurd hc' hm
        · intro j hne
          rw [d j fun c' hc' => hne c' (List.mem_cons_of_mem _ hc')]
          have : i ≠ j := fun hij => hne c (by simp) (by rw [e, hij])
          simp [this]
      · have ho' : c.owned = false := by simpa using ho
        obtain ⟨w, a, b, c1, d⟩ := ih' v hv
        refine ⟨w, by simpa [ho'] using a, b, ?_, ?_⟩
        · intro c' hc' j hj ho''
          rcases List.mem_cons.1 hc' with rfl | hc'
          · exact absurd ho'' ho
          · exact c1 c' hc' j hj ho''
        · intro j hne
          exact d j fun c' hc' => hne c' (List.mem_cons_of_mem _ hc')

theorem getValid_ok (ids : Nat → Option Nat) (f : OCell → Option Nat) (v : List (Option Nat)) (cells : List OCell)
    (hv : ∀ c ∈ cells, ∀ i, c.index = some i → c.owned = true → v[i]? = some (f c))
    (hf : ∀ c ∈ cells, c.owned = true → c.index.isSome → ((f c).isSome = (ids c.global).isSome)) :
    (getValid v cells = .ok [] ∧ cells.filter (inPore ids) = []) ∨
    ∃ c rest, getValid v cells = .ok (c :: rest) ∧ cells.filter (inPore ids) = c :: rest.filter (inPore ids) ∧
      c ∈ cells ∧ inPore ids c = true ∧ (∀ d ∈ rest, d ∈ cells) ∧ rest.length < cells.length := by
  induction cells with
  | nil => exact .inl ⟨rfl, rfl⟩
  | cons c cs ih =>
    have ih' := ih (fun c hc => hv c (List.mem_cons_of_mem _ hc)) (fun c hc => hf c (List.mem_cons_of_mem _ hc))
    have skip : inPore ids c = false → getValid v (c :: cs) = getValid v cs →
        (getValid v (c :: cs) = .ok [] ∧ (c :: cs).filter (inPore ids) = []) ∨
        ∃ c' rest, getValid v (c :: cs) = .ok (c' :: rest) ∧
          (c :: cs).filter (inPore ids) = c' :: rest.filter (inPore ids) ∧
          c' ∈ c :: cs ∧ inPore ids c' = true ∧ (∀ d ∈ rest, d ∈ c :: cs) ∧ rest.length < (c :: cs).length := by
      intro hp hg
      rw [hg, List.filter_cons_of_neg (by simp [hp])]
      rcases ih' with h | ⟨c', rest, a, b, c1, d, e1, f1⟩
      · exact .inl h
      · exact .inr ⟨c', rest, a, b, List.mem_cons_of_mem _ c1, d, fun x hx => List.mem_cons_of_mem _ (e1 x hx),
          by simp; omega⟩
    cases e : c.index with
    | none => exact skip (by simp [inPore, e]) (by rw [getValid, e])
    | some i =>
      by_cases ho : c.owned = true
      · have h1 := hv c (by simp) i e ho
        have h2 := hf c (by simp) ho (by simp [e])
        by_cases hs : (ids c.global).isSome = true
        · refine .inr ⟨c, cs, ?_, ?_, by simp, by simp [inPore, e, ho, hs], fun d hd => List.mem_cons_of_mem _ hd, by simp⟩
          · rw [getValid, e]
            simp only [ho, if_true]
            rw [Res.index, h1]
            simp [h2, hs]
          · rw [List.filter_cons_of_pos (by simp [inPore, e, ho, hs])]
        · refine skip (by simp [inPore, e, ho]; simpa using hs) ?_
          rw [getValid, e]
          simp only [ho, if_true]
          rw [Res.index, h1]
          simp [h2, hs]
      · have ho' : c.owned = false := by simpa using ho
        exact skip (by simp [inPore, ho']) (by rw [getValid, e]; simp [ho'])

theorem patches_ok (ids : Nat → Option Nat) (f : OCell → Option Nat) (v : List (Option Nat)) (fuel : Nat) :
    ∀ cells : List OCell, cells.length < fuel →
    (∀ c ∈ cells, ∀ i, c.index = some i → c.owned = true → v[i]? = some (f c)) →
    (∀ c ∈ cells, c.owned = true → c.index.isSome → ((f c).isSome = (ids c.global).isSome)) →
    patches v fuel cells = .ok (some ((cells.filter (inPore ids)).map fun c => (c.global, f c))) := by
  induction fuel with
  | zero => intro cells h; omega
  | succ fuel ih =>
    intro cells hl hv hf
    rw [patches]
    rcases getValid_ok ids f v cells hv hf with ⟨a, b⟩ | ⟨c, rest, a, b, hc, hp, hr, hlt⟩
    · rw [a, b]; rfl
    · rw [a, b, Res.ok_bind]
      dsimp only
      have h3 : c.index.isSome = true ∧ c.owned = true := by
        have := hp; simp [inPore] at this; exact ⟨by simpa using this.1.1, this.1.2⟩
      obtain ⟨i, hi⟩ := Option.isSome_iff_exists.1 h3.1
      rw [hi, Option.getD_some, Res.index, hv c hc i hi h3.2]
      dsimp only
      rw [Res.ok_bind, ih rest (by omega) (fun d hd => hv d (hr d hd)) (fun d hd => hf d (hr d hd)), Res.ok_bind]
      rfl

/-! ### Velocities -/

section
variable {K D : Type} [Field K] [LinearOrder K] {dim : Nat}

def step (v : List (List K)) (w : Nat × Nat × K) : Res (List (List K)) := setEntry v w.1 w.2.1 w.2.2

theorem foldlM_flat {α β γ : Type} (s : γ → β → Res γ) (f : γ → α → Res γ) (g : α → List β) (l : List α)
    (h : ∀ a ∈ l, ∀ v, f v a = (g a).foldlM s v) (v : γ) : l.foldlM f v = (l.flatMap g).foldlM s v := by
  induction l generalizing v with
  | nil => rfl
  | cons a l ih =>
    rw [List.foldlM_cons, List.flatMap_cons, List.foldlM_append, h a (by simp)]
    congr 1
    funext w
    exact ih (fun b hb => h b (List.mem_cons_of_mem _ hb)) w

def entry (v : List (List K)) (i j : Nat) : Option K := (v[i]?).bind fun r => r[j]?

theorem step_ok (R n : Nat) (v : List (List K)) (hl : v.length = R) (hr : ∀ r ∈ v, r.length = n) (w : Nat × Nat × K)
    (h1 : w.1 < R) (h2 : w.2.1 < n) :
    ∃ v', step v w = .ok v' ∧ v'.length = R ∧ (∀ r ∈ v', r.length = n) ∧
      ∀ i j, entry v' i j = if i = w.1 ∧ j = w.2.1 then some w.2.2 else entry v i j := by
  have hlt : w.1 < v.length := by omega
  have hlen := hr _ (List.getElem_mem hlt)
  refine ⟨v.set w.1 (v[w.1].set w.2.1 w.2.2), ?_, by simpa using hl, ?_, ?_⟩
  · rw [step, setEntry, Res.index, List.getElem?_eq_getElem hlt]
    dsimp only
    rw [Res.ok_bind, if_pos (by omega)]
  · intro r hm
    rcases List.mem_or_eq_of_mem_set hm with h | h
    · exact hr r h
    · rw [h, List.length_set]; exact hlen
  · intro i j
    unfold entry
    by_cases hi : i = w.1
    · subst hi
      rw [List.getElem?_set_self hlt, List.getElem?_eq_getElem hlt]
      simp only [Option.bind_some, true_and]
      by_cases hj : j = w.2.1
      · subst hj; rw [List.getElem?_set_self (by omega), if_pos rfl]
      · rw [List.getElem?_set_ne (Ne.symm hj), if_neg hj]
    · rw [List.getElem?_set_ne (Ne.symm hi), if_neg (by tauto)]

theorem writes_ok (R n : Nat) (ws : List (Nat × Nat × K)) (hb : ∀ w ∈ ws, w.1 < R ∧ w.2.1 < n)
    (hf : ∀ w ∈ ws, ∀ w' ∈ ws, w.1 = w'.1 → w.2.1 = w'.2.1 → w.2.2 = w'.2.2)
    (v : List (List K)) (hl : v.length = R) (hr : ∀ r ∈ v, r.length = n) :
    ∃ v', ws.foldlM step v = .ok v' ∧ v'.length = R ∧ (∀ r ∈ v', r.length = n) ∧
      (∀ w ∈ ws, entry v' w.1 w.2.1 = some w.2.2) ∧
      ∀ i j, (∀ w ∈ ws, ¬ (i = w.1 ∧ j = w.2.1)) → entry v' i j = entry v i j := by
  induction ws generalizing v with
  | nil => exact ⟨v, rfl, hl, hr, by simp, by simp⟩
  | cons w ws ih =>
    obtain ⟨v1, a, b, c, d⟩ := step_ok R n v hl hr w (hb w (by simp)).1 (hb w (by simp)).2
    obtain ⟨v2, a', b', c', d', e'⟩ := ih (fun w hw => hb w (List.mem_cons_of_mem _ hw))
      (fun w hw w' hw' => hf w (List.mem_cons_of_mem _ hw) w' (List.mem_cons_of_mem _ hw')) v1 b c
    refine ⟨v2, by rw [List.foldlM_cons, a, Res.ok_bind, a'], b', c', ?_, ?_⟩
    · intro u hu
      by_cases hex : ∃ w' ∈ ws, u.1 = w'.1 ∧ u.2.1 = w'.2.1
      · obtain ⟨w', hw', e1, e2⟩ := hex
        rw [e1, e2, d' w' hw', hf u hu w' (List.mem_cons_of_mem _ hw') e1 e2]
      · rw [e' u.1 u.2.1 fun w' hw' h => hex ⟨w', hw', h⟩, d]
        rcases List.mem_cons.1 hu with rfl | hu
        · rw [if_pos ⟨rfl, rfl⟩]
        · exact absurd ⟨u, hu, rfl, rfl⟩ hex
    · intro i j h
      rw [e' i j fun w' hw' => h w' (List.mem_cons_of_mem _ hw'), d, if_neg (h w (by simp))]

def laneWrites (ig : Nat) (vt : Nat → Fin dim → K) (cells : List Nat) : List (Nat × Nat × K) :=
  (List.range cells.length).flatMap fun lane => (List.finRange dim).map fun d => (dim * ig + d.val, cells.getD lane 0, vt lane d)

theorem writeLanes_eq (ig : Nat) (vt : List (Fin dim → K)) (f : Nat → Fin dim → K) (cells : List Nat)
    (hf : ∀ lane < cells.length, vt[lane]? = some (f lane)) (v : List (List K)) :
    writeLanes ig vt cells v = (laneWrites ig f cells).foldlM step v := by
  unfold writeLanes laneWrites
  refine foldlM_flat _ _ _ _ (fun lane hl v => ?_) v
  have hl := List.mem_range.1 hl
  rw [Res.index, List.getElem?_eq_getElem hl, Res.index, hf lane hl, List.foldlM_map]
  dsimp only
  rw [Res.ok_bind, Res.ok_bind]
  have : cells.getD lane 0 = cells[lane] := by rw [List.getD_eq_getElem?_getD, List.getElem?_eq_getElem hl]; rfl
  rw [this]
  rfl

variable (vel : (Fin dim → K) → D → (Fin dim → K))

/-- the writes of one order parameter on a batch -/
def opWrites (vol : D → K) (x : VelData (Fin dim → K) D) (cells : List Nat) (ig : Nat) : List (Nat × Nat × K) :=
  match (slotOf x.g2r ig).bind fun r => x.slots[r]? with
  | none => []
  | some s => if hasNonZero vol s then laneWrites ig (shown vel x ig) cells else []

theorem relevant_slot (x : VelData (Fin dim → K) D) (nGrains : Nat) (hl : x.g2r = [] ∨ x.g2r.length = nGrains) (ig : Nat)
    (hig : ig < nGrains) (hs : x.g2r = [] → ig ≤ 255) :
    ∃ r, relevantId x ig = .ok r ∧ (slotOf x.g2r ig = some r ∨ (slotOf x.g2r ig = none ∧ r = 255)) := by
  unfold relevantId slotOf
  by_cases h : x.g2r = []
  · refine ⟨ig, ?_, .inl (by rw [if_pos h])⟩
    rw [h]; simp; have := hs h; omega
  · have hlen : ig < x.g2r.length := by rcases hl with h' | h' <;> [exact absurd h' h; omega]
    refine ⟨x.g2r[ig], ?_, ?_⟩
    · rw [if_neg (by simpa using h), Res.index, List.getElem?_eq_getElem hlen]
    · rw [if_neg h, List.getElem?_eq_getElem hlen]
      by_cases h5 : x.g2r[ig] = 255 <;> simp [h5]

theorem writeOp_eq (vol : D → K) (x : VelData (Fin dim → K) D) (nGrains : Nat) (g2r cells : List Nat)
    (hx : Complete vol nGrains cells.length g2r x) (ig : Nat) (hig : ig < nGrains) (v : List (List K)) :
    writeOp vel x cells ig v = (opWrites vel vol x cells ig).foldlM step v := by
  obtain ⟨ht, hlen, hhas, hfew, hslots, -⟩ := hx
  subst ht
  have hs : x.g2r = [] → ig < x.slots.length := by
    intro h
    obtain ⟨s, h1, -⟩ := hslots ig hig ig (by rw [slotOf, if_pos h])
    exact (List.getElem?_eq_some_iff.1 h1).1
  obtain ⟨r, hr, hcase⟩ := relevant_slot x nGrains hlen ig hig (fun h => by have := hs h; omega)
  unfold writeOp opWrites
  rcases hcase with hsl | ⟨hsl, h255⟩
  · obtain ⟨s, h1, h2⟩ := hslots ig hig r hsl
    have hrl := (List.getElem?_eq_some_iff.1 h1).1
    have hne : x.has.isEmpty = false := by
      rw [hhas]; cases hq : x.slots with
      | nil => rw [hq] at hrl; simp at hrl
      | cons a l => rfl
    have hh : hasVelocity x ig = .ok (hasNonZero vol s) := by
      rw [hasVelocity, hne, hr]
      simp only [Bool.false_eq_true, if_false, Res.ok_bind]
      rw [if_neg (by omega), Res.index, hhas, List.getElem?_map, h1]
      rfl
    rw [hh, Res.ok_bind, hsl, Option.bind_some, h1]
    dsimp only
    cases hb : hasNonZero vol s with
    | false => rfl
    | true =>
      simp only [if_true]
      rw [slotVelocity, hr, Res.ok_bind, h1]
      dsimp only [Res.at?]
      rw [Res.ok_bind, Res.ok_bind]
      refine writeLanes_eq ig _ _ cells (fun lane hl => ?_) v
      have hlt : lane < s.length := by omega
      rw [List.getElem?_map, List.getElem?_eq_getElem hlt, Option.map_some, shown, grainAt, hsl, Option.bind_some, h1,
        Option.bind_some, List.getElem?_eq_getElem hlt]
      congr 1
      cases s[lane] <;> rfl
  · have hh : hasVelocity x ig = .ok false := by
      rw [hasVelocity]
      split
      · rfl
      · rw [hr, Res.ok_bind, if_pos h255]
    rw [hh, Res.ok_bind, hsl]
    rfl

/-- without writes nothing is to be shown -/
theorem shown_zero (vol : D → K) (x : VelData (Fin dim → K) D) (nGrains : Nat) (g2r cells : List Nat)
    (hx : Complete vol nGrains cells.length g2r x) (ig lane : Nat)
    (h : opWrites vel vol x cells ig = [] ) (hl : lane < cells.length) (d : Fin dim) : shown vel x ig lane d = 0 := by
  unfold opWrites at h
  unfold shown grainAt
  cases hs : slotOf x.g2r ig with
  | none => rfl
  | some r =>
    rw [hs] at h
    simp only [Option.bind_some] at h ⊢
    cases h1 : x.slots[r]? with
    | none => rfl
    | some s =>
      rw [h1] at h
      dsimp only at h
      simp only [Option.bind_some]
      by_cases hb : hasNonZero vol s = true
      · rw [if_pos hb] at h
        have : (dim * ig + d.val, cells.getD lane 0, shown vel x ig lane d) ∈ laneWrites ig (shown vel x ig) cells := by
          unfold laneWrites
          exact List.mem_flatMap.2 ⟨lane, List.mem_range.2 hl, List.mem_map.2 ⟨d, List.mem_finRange d, rfl⟩⟩
        rw [h] at this; cases this
      · cases h2 : s[lane]? with
        | none => rfl
        | some o =>
          cases o with
          | none => rfl
          | some p =>
            refine absurd ?_ hb
            have hm : some p ∈ s := List.mem_of_getElem? h2
            rw [hasNonZero, List.any_eq_true]
            exact ⟨some p, hm, by simpa using hx.volume s (List.mem_of_getElem? h1) p hm⟩

theorem opWrites_cases (vol : D → K) (x : VelData (Fin dim → K) D) (cells : List Nat) (ig : Nat) :
    opWrites vel vol x cells ig = [] ∨ opWrites vel vol x cells ig = laneWrites ig (shown vel x ig) cells := by
  unfold opWrites
  split
  · exact .inl rfl
  · split
    · exact .inr rfl
    · exact .inl rfl

end

end Verif.CellFields
