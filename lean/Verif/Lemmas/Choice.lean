import Verif.Spec.Choice
import Verif.Lemmas.Params

/-! # Lemmas for the choice of implementations -/

namespace Verif.Choice

open Verif.Choice.Spec
open Verif.Params (Vals decls Decl World accepts assign store calls call parse initial members)
open Verif.BaseTools (Call)

theorem alternatives_declared : ∀ e ∈ alternatives, (e.1, some e.2) ∈ decls.map (fun d => (d.member, d.sel)) := by decide +kernel

theorem alternatives_initial : ∀ e ∈ alternatives, ∃ v ∈ e.2, (e.1, v) ∈ initial := by
  have H : ∀ e ∈ alternatives, (match initial.find? (fun p => p.1 == e.1) with | some p => decide (p.2 ∈ e.2) | none => false) = true := by
    decide +kernel
  intro e he
  have h := H e he
  cases hf : initial.find? (fun p => p.1 == e.1) with
  | none => rw [hf] at h; cases h
  | some p =>
    rw [hf] at h
    have h1 := List.mem_of_find?_eq_some hf
    have h2 := List.find?_some hf
    refine ⟨p.2, of_decide_eq_true h, ?_⟩
    have : p.1 = e.1 := by simpa using h2
    rw [← this]; exact h1

seal decls members initial

theorem valid_initial {x : Vals} (h : Initial x) : Valid x := by
  intro e he
  obtain ⟨v, hv, hm⟩ := alternatives_initial e he
  exact ⟨v, hv, h _ hm⟩

theorem valid_assign {w : World} {skip : Bool} {x y : Vals} {p : List String} {v : List Char} (hx : Valid x) (h : assign w decls skip x p v = .ok y) :
    Valid y := by
  by_cases hp : p ∈ decls.map (·.path)
  · obtain ⟨d, hd, rfl⟩ := List.mem_map.mp hp
    rw [Params.assign_declared hd] at h
    by_cases ha : accepts w d v = true
    · rw [if_pos ha] at h
      obtain rfl := Res.ok.inj h
      intro e he
      unfold store
      by_cases hm : e.1 = d.member
      · rw [if_pos hm]
        obtain ⟨d', hd', hde⟩ := List.mem_map.mp (alternatives_declared e he)
        have h1 : d'.member = e.1 := congrArg Prod.fst hde
        have h2 : d'.sel = some e.2 := congrArg Prod.snd hde
        have : d' = d := (List.nodup_map_iff_inj_on Params.members_nodup.of_map).mp Params.members_nodup d' hd' d hd (h1.trans hm)
        subst this
        rw [accepts, h2] at ha
        obtain ⟨s, hs, hsv⟩ := List.any_eq_true.mp ha
        exact ⟨s, hs, (beq_iff_eq.mp hsv).symm⟩
      · rw [if_neg hm]; exact hx e he
    · rw [if_neg ha] at h; cases h
  · rw [Params.assign_undeclared hp] at h
    cases skip with
    | true => obtain rfl := Res.ok.inj h; exact hx
    | false => cases h

theorem valid_entries {w : World} : ∀ (es : List (List String × List Char)) (x y : Vals), Valid x →
    es.foldlM (fun y e => assign w decls true y e.1 e.2) x = .ok y → Valid y
  | [], x, y, hx, h => by cases h; exact hx
  | e :: es, x, y, hx, h => by
    rw [List.foldlM_cons] at h
    obtain ⟨z, hz, h'⟩ := Res.bind_eq_ok.mp h
    exact valid_entries es z y (valid_assign hx hz) h'

theorem valid_call {w : World} {x y : Vals} {c : Call} (hx : Valid x) (h : call w decls x c = .ok y) : Valid y := by
  cases c with
  | file f =>
    simp only [call, parse] at h
    cases hf : w.content f with
    | none => rw [hf] at h; cases h
    | some es => rw [hf] at h; exact valid_entries es x y hx h
  | set n v => exact valid_assign hx h
  | check =>
    simp only [call] at h
    obtain ⟨_, _, h'⟩ := Res.bind_eq_ok.mp h
    cases h'; exact hx

theorem valid_calls {w : World} : ∀ (cs : List Call) (x y : Vals), Valid x → calls w decls x cs = .ok y → Valid y
  | [], x, y, hx, h => by cases h; exact hx
  | c :: cs, x, y, hx, h => by
    rw [calls, List.foldlM_cons] at h
    obtain ⟨z, hz, h'⟩ := Res.bind_eq_ok.mp h
    exact valid_calls cs z y (valid_call hx hz) h'

/-! ## Selections -/

section
variable {α : Type} {e : Exc} {v : List Char}

theorem select_named {name : α → String} : ∀ {t : List (String × α)} {a : α}, (∀ p ∈ t, name p.2 = p.1) → select e v t = .ok a →
    (name a).toList = v
  | [], a, _, h => by cases h
  | (s, b) :: t, a, hn, h => by
    rw [select] at h
    split at h
    · rename_i hv
      obtain rfl := Res.ok.inj h
      rw [hn (s, b) List.mem_cons_self, hv]
    · exact select_named (fun p hp => hn p (List.mem_cons_of_mem _ hp)) h

theorem select_some : ∀ {t : List (String × α)}, (∃ s ∈ t.map Prod.fst, v = s.toList) → ∃ a, select e v t = .ok a
  | [], h => by obtain ⟨s, hs, _⟩ := h; cases hs
  | (s, b) :: t, h => by
    rw [select]
    by_cases hv : v = s.toList
    · rw [if_pos hv]; exact ⟨b, rfl⟩
    · rw [if_neg hv]
      obtain ⟨r, hr, hrv⟩ := h
      rw [List.map_cons] at hr
      rcases List.mem_cons.mp hr with rfl | hr
      · exact absurd hrv hv
      · exact select_some ⟨r, hr, hrv⟩

theorem select_none : ∀ {t : List (String × α)}, (∀ s ∈ t.map Prod.fst, v ≠ s.toList) → select e v t = .exc e
  | [], _ => rfl
  | (s, b) :: t, h => by
    rw [select, if_neg (h s (by simp)), select_none (fun r hr => h r (List.mem_cons_of_mem _ hr))]

/-- A selection gives a value or its exception. -/
theorem select_cases (t : List (String × α)) : (∃ a, select e v t = .ok a) ∨ select e v t = .exc e := by
  by_cases h : ∃ s ∈ t.map Prod.fst, v = s.toList
  · exact Or.inl (select_some h)
  · exact Or.inr (select_none fun s hs hv => h ⟨s, hs, hv⟩)

end

/-! ## Preconditioners -/

theorem create_named {v : List Char} {p : Single} (h : create v = .ok p) : (Pre.name p.pre).toList = v ∧ p.data = .nothing := by
  unfold create at h
  obtain ⟨q, hq, h'⟩ := Res.bind_eq_ok.mp h
  obtain rfl := Res.ok.inj h'
  exact ⟨select_named (name := Pre.name) (by decide) hq, rfl⟩

theorem createPreconditioner_named {v : List Char} {p : Single} (h : createPreconditioner v = .ok p) : Is p v := by
  unfold createPreconditioner at h
  split at h
  · unfold createWith at h
    obtain ⟨q, hq, h'⟩ := Res.bind_eq_ok.mp h
    obtain rfl := Res.ok.inj h'
    refine ⟨select_named (name := Pre.name) (by decide) hq, ?_⟩
    simp only [select] at hq
    split at hq
    · obtain rfl := Res.ok.inj hq; rfl
    · split at hq
      · obtain rfl := Res.ok.inj hq; rfl
      · cases hq
  · split at h
    · unfold createWith at h
      obtain ⟨q, hq, h'⟩ := Res.bind_eq_ok.mp h
      obtain rfl := Res.ok.inj h'
      refine ⟨select_named (name := Pre.name) (by decide) hq, ?_⟩
      simp only [select] at hq
      split at hq
      · obtain rfl := Res.ok.inj hq; rfl
      · split at hq
        · obtain rfl := Res.ok.inj hq; rfl
        · cases hq
    · split at h
      · unfold createWith at h
        obtain ⟨q, hq, h'⟩ := Res.bind_eq_ok.mp h
        obtain rfl := Res.ok.inj h'
        refine ⟨select_named (name := Pre.name) (by decide) hq, ?_⟩
        rename_i h3
        rw [select, if_pos h3] at hq
        obtain rfl := Res.ok.inj hq; rfl
      · rename_i h1 h2 h3
        obtain ⟨h4, h5⟩ := create_named h
        refine ⟨h4, h5.trans ?_⟩
        obtain ⟨q, d⟩ := p
        cases q
        case amg => exact absurd (Or.inl h4.symm) h1
        case blockAMG => exact absurd (Or.inr h4.symm) h1
        case ilu => exact absurd (Or.inl h4.symm) h2
        case blockILU => exact absurd (Or.inr h4.symm) h2
        case ic => exact absurd h4.symm h3
        all_goals rfl

/-- A preconditioner or the exception of an unknown name. -/
theorem createPreconditioner_cases (v : List Char) : (∃ p, createPreconditioner v = .ok p) ∨ createPreconditioner v = .exc .assertThrow := by
  have aux : ∀ (d : With) (t : List (String × Pre)), (∃ p, createWith d t v = .ok p) ∨ createWith d t v = .exc .assertThrow := by
    intro d t
    unfold createWith
    rcases select_cases (e := .assertThrow) (v := v) t with ⟨a, ha⟩ | ha
    · rw [ha]; exact Or.inl ⟨_, rfl⟩
    · rw [ha]; exact Or.inr rfl
  unfold createPreconditioner
  split
  · exact aux _ _
  · split
    · exact aux _ _
    · split
      · exact aux _ _
      · unfold create
        rcases select_cases (e := .assertThrow) (v := v) [("InverseDiagonalMatrix", Pre.inverseDiagonal),
          ("InverseComponentBlockDiagonalMatrix", .inverseComponentBlock), ("InverseBlockDiagonalMatrix", .inverseBlock), ("AMG", .amg),
          ("BlockAMG", .blockAMG), ("ILU", .ilu), ("BlockILU", .blockILU), ("IC", .ic), ("Identity", .identity)] with ⟨a, ha⟩ | ha
        · rw [ha]; exact Or.inl ⟨_, rfl⟩
        · rw [ha]; exact Or.inr rfl

/-- The names that can be created. -/
theorem create_table : ∀ s ∈ Params.preconditionerTypes, (match createPreconditioner s.toList with | .ok _ => true | _ => false) =
    decide (s ≠ "GMG" ∧ s ≠ "BlockGMG") := by decide +kernel

theorem toList_inj {s t : String} (h : s.toList = t.toList) : s = t := String.toList_inj.mp h

theorem create_iff {v : List Char} (hv : ∃ s ∈ Params.preconditionerTypes, v = s.toList) : (∃ p, createPreconditioner v = .ok p) ↔ NoMultigrid v := by
  obtain ⟨s, hs, rfl⟩ := hv
  have h := create_table s hs
  unfold NoMultigrid
  constructor
  · rintro ⟨p, hp⟩
    rw [hp] at h
    have := of_decide_eq_true h.symm
    exact ⟨fun h' => this.1 (toList_inj h'), fun h' => this.2 (toList_inj h')⟩
  · rintro ⟨h1, h2⟩
    rcases createPreconditioner_cases s.toList with hc | hc
    · exact hc
    · rw [hc] at h
      exact absurd h.symm (by simp only [ne_eq, decide_eq_false_iff_not]; exact fun h' => h' ⟨fun e => h1 (congrArg _ e), fun e => h2 (congrArg _ e)⟩)

theorem second_table : ∀ s ∈ Params.preconditionerTypes, (match createSecond s.toList with | .ok _ => true | .exc .assertThrow => false | _ => true) =
    decide (s ∈ second) := by decide +kernel

theorem createSecond_cases {v : List Char} : (∃ p, createSecond v = .ok p) ∨ createSecond v = .exc .assertThrow := by
  unfold createSecond
  by_cases h : v ≠ "GMG".toList ∧ v ≠ "BlockGMG".toList
  · simp only [Res.assertThrow, decide_eq_true h, if_true, Res.ok_bind]
    split
    · rcases createPreconditioner_cases v with ⟨p, hp⟩ | hp
      · rw [hp]; exact Or.inl ⟨_, rfl⟩
      · rw [hp]; exact Or.inr rfl
    · split
      · rcases createPreconditioner_cases v with ⟨p, hp⟩ | hp
        · rw [hp]; exact Or.inl ⟨_, rfl⟩
        · rw [hp]; exact Or.inr rfl
      · exact Or.inr rfl
  · simp only [Res.assertThrow, decide_eq_false h]; exact Or.inr rfl

theorem second_iff {v : List Char} (hv : ∃ s ∈ Params.preconditionerTypes, v = s.toList) :
    (∃ p, createSecond v = .ok p) ↔ ∃ s ∈ second, v = s.toList := by
  obtain ⟨s, hs, rfl⟩ := hv
  have h := second_table s hs
  constructor
  · rintro ⟨p, hp⟩
    rw [hp] at h
    exact ⟨s, of_decide_eq_true h.symm, rfl⟩
  · rintro ⟨t, ht, e⟩
    obtain rfl := toList_inj e
    rcases createSecond_cases (v := s.toList) with hc | hc
    · exact hc
    · rw [hc] at h
      exact absurd h.symm (by simpa using ht)

theorem second_named {v : List Char} {p : Single × Bool} (h : createSecond v = .ok p) : Is p.1 v := by
  unfold createSecond at h
  obtain ⟨_, _, h⟩ := Res.bind_eq_ok.mp h
  split at h
  · obtain ⟨q, hq, h'⟩ := Res.bind_eq_ok.mp h
    obtain rfl := Res.ok.inj h'
    exact createPreconditioner_named hq
  · split at h
    · obtain ⟨q, hq, h'⟩ := Res.bind_eq_ok.mp h
      obtain rfl := Res.ok.inj h'
      exact createPreconditioner_named hq
    · cases h

end Verif.Choice
