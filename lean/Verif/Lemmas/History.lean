import Verif.Spec.History

set_option linter.unusedSectionVars false

namespace Verif.History

open Verif.History.Spec

variable {V : Type}

theorem update_eq (v : Vec V) : v.update = fresh v.own := rfl

theorem update_assign (v : Vec V) : v.assign.update = fresh v.own := by
  unfold Vec.assign; split <;> rfl

theorem assign_zeroOut (v : Vec V) : v.zeroOut.assign = ⟨v.own, none⟩ := rfl

/-- A history between two passes, from the past solutions. -/
def ofPast (r : Vec V) : List V → Hist V → Hist V
  | [], h => h
  | v :: l, _ => ⟨⟨v, none⟩, r, l.map fresh⟩

theorem eq_of_ready {h : Hist V} (hr : Ready h) : h = ⟨⟨h.cur.own, none⟩, h.recent, (h.old.map fun v => v.own).map fresh⟩ := by
  rcases h with ⟨⟨c, g⟩, r, o⟩
  have := hr.cur
  simp only at this
  subst this
  congr 1
  have ho := hr.old
  simp only at ho
  rw [List.map_map]
  refine (List.map_id' o).symm.trans (List.map_congr_left ?_)
  intro v hv
  have := ho v hv
  rcases v with ⟨a, b⟩
  simp only at this
  subst this
  rfl

theorem ready_mk (c : V) (r : Vec V) (l : List V) : Ready (⟨⟨c, none⟩, r, l.map fresh⟩ : Hist V) :=
  ⟨rfl, by intro v hv; obtain ⟨x, _, rfl⟩ := List.mem_map.mp hv; rfl⟩

theorem past_mk (c : V) (g : Option V) (r : Vec V) (l : List V) : past (⟨⟨c, g⟩, r, l.map fresh⟩ : Hist V) = c :: l := by
  simp [past, fresh, List.map_map, Function.comp_def]

theorem refine_mk (T : V → V) (c : V) (g : Option V) (r : Vec V) (l : List V) :
    refine T (⟨⟨c, g⟩, r, l.map fresh⟩ : Hist V) = ⟨⟨T c, none⟩, r, (l.map T).map fresh⟩ := by
  simp [refine, fresh, Vec.update, List.map_map, Function.comp_def]

theorem track_mk (R : V → V) (c : V) (g : Option V) (r : Vec V) (l : List (Vec V)) :
    track R (⟨⟨c, g⟩, r, l⟩ : Hist V) = ⟨⟨R c, none⟩, r, ((l.map fun v => v.own).map R).map fresh⟩ := by
  simp [track, trackEnd, remap, trackBegin, Vec.zeroOut, Vec.change, Vec.update, fresh, List.map_map, Function.comp_def]

theorem adapt_mk (a : Pass V) (b : Bool) (c : V) (r : Vec V) (l : List V) :
    ∃ q ql, begin a b (c :: l) = q :: ql ∧ ql.length = l.length ∧
      adapt a b (⟨⟨c, none⟩, r, l.map fresh⟩ : Hist V) = ⟨⟨q, none⟩, r, ql.map fresh⟩ := by
  unfold adapt Spec.begin
  cases b with
  | false => exact ⟨c, l, by simp, rfl, by simp⟩
  | true =>
    simp only [if_true, Vec.change, first]
    cases a.refine with
    | none =>
      cases a.track with
      | none => exact ⟨a.limit c, l, by simp [all], rfl, by simp⟩
      | some R =>
        refine ⟨R (a.limit c), l.map R, by simp [all], by simp, ?_⟩
        simp only [track_mk]
        simp [fresh, List.map_map, Function.comp_def]
    | some T =>
      cases a.track with
      | none => exact ⟨T (a.limit c), l.map T, by simp [all], by simp, by simp only [refine_mk]⟩
      | some R =>
        refine ⟨R (T (a.limit c)), (l.map T).map R, by simp [all], by simp, ?_⟩
        simp only [refine_mk, track_mk]
        simp [fresh, List.map_map, Function.comp_def]

theorem shift_fresh (p : Vec V) (l : List V) : shift p (l.map fresh) = ((p.own :: l).dropLast).map fresh := by
  induction l generalizing p with
  | nil => rfl
  | cons v l ih =>
    rw [List.map_cons, shift, ih, update_assign]
    rfl

theorem prepare_mk (a : Pass V) (b : Bool) (h : Hist V) (hr : Ready h) :
    ∃ q ql c, begin a b (past h) = q :: ql ∧ ql.length = h.old.length ∧
      prepare a b h = .ok ⟨⟨c, none⟩, fresh q, ql.map fresh⟩ ∧ (a.guess = none → c = q) := by
  have he := eq_of_ready hr
  obtain ⟨q, ql, h1, hl, h2⟩ := adapt_mk a b h.cur.own h.recent (h.old.map fun v => v.own)
  rw [← he] at h2
  have hp : prepare a b h = (match a.guess with
      | some g => .ok { (⟨⟨q, none⟩, fresh q, ql.map fresh⟩ : Hist V) with cur := ⟨g, none⟩ }
      | none => .ok ⟨⟨q, none⟩, fresh q, ql.map fresh⟩) := by
    unfold prepare
    rw [h2]
    rfl
  refine ⟨q, ql, a.guess.getD q, h1, by simpa using hl, ?_, ?_⟩
  · rw [hp]; cases a.guess <;> rfl
  · intro hg; rw [hg]; rfl

theorem foldl_refine (l : List (V → V)) (c : V) (r : Vec V) (o : List V) :
    ∃ c' o', l.foldl (fun p T => p.map T) (c :: o) = c' :: o' ∧
      l.foldl (fun h T => refine T h) (⟨⟨c, none⟩, r, o.map fresh⟩ : Hist V) = ⟨⟨c', none⟩, r, o'.map fresh⟩ := by
  induction l generalizing c o with
  | nil => exact ⟨c, o, rfl, rfl⟩
  | cons T l ih =>
    obtain ⟨c', o', h1, h2⟩ := ih (T c) (o.map T)
    refine ⟨c', o', ?_, ?_⟩
    · rw [List.foldl_cons, List.map_cons]; exact h1
    · rw [List.foldl_cons, refine_mk]; exact h2

theorem save_mk (s : Option Bool) (c : V) (r : Vec V) (o : List V) :
    save s (⟨⟨c, none⟩, r, o.map fresh⟩ : Hist V) = (⟨⟨c, none⟩, r, o.map fresh⟩,
      (match s with | none => [] | some true => c :: o | some false => (c :: o).take 1).map fresh) := by
  rcases s with _ | ⟨_ | _⟩ <;> simp [save, Vec.zeroOut, Vec.update, fresh]

theorem accepted_none (sol q : V) (ql : List V) : accepted sol none (q :: ql) = sol :: (q :: ql).dropLast := by
  simp [accepted, all]

theorem inner_plain (R : Option (V → V)) (h : ∀ f, R = some f → f = id) (c : V) (r : Vec V) (l : List V) :
    inner R (⟨⟨c, none⟩, r, l.map fresh⟩ : Hist V) = ⟨⟨c, none⟩, r, l.map fresh⟩ := by
  cases R with
  | none => rfl
  | some f =>
    rw [h f rfl, inner, track_mk]
    simp [fresh, List.map_map, Function.comp_def]

theorem thrown_plain (R : Option (V → V)) (h : ∀ f, R = some f → f = id) (c : V) (r : Vec V) (l : List V) :
    innerThrown R (⟨⟨c, none⟩, r, l.map fresh⟩ : Hist V) = ⟨fresh c, r, l.map fresh⟩ := by
  cases R with
  | none => simp [innerThrown, trackBegin, Vec.update, fresh, List.map_map, Function.comp_def]
  | some f =>
    rw [h f rfl]
    simp [innerThrown, remap, Vec.change, trackBegin, Vec.update, fresh, List.map_map, Function.comp_def]

theorem commit_mk (c q : V) (ql : List V) :
    ∃ r, commit (⟨⟨c, none⟩, fresh q, ql.map fresh⟩ : Hist V) = ⟨⟨c, none⟩, r, ((q :: ql).dropLast).map fresh⟩ := by
  refine ⟨(commit (⟨⟨c, none⟩, fresh q, ql.map fresh⟩ : Hist V)).recent, ?_⟩
  unfold commit
  rw [shift_fresh]
  rfl

theorem all_plain (R : Option (V → V)) (h : ∀ f, R = some f → f = id) (p : List V) : all R p = p := by
  cases R with
  | none => simp [all]
  | some f => rw [h f rfl]; simp [all]

/-- One pass without remapping inside of the step. -/
theorem pass_mk (a : Pass V) (b : Bool) (h : Hist V) (hr : Ready h) (hp : Plain a) :
    ∃ h', pass a b h = .ok (h', (Spec.pass a b (past h)).2.1,
        ⟨(Spec.pass a b (past h)).2.2.1.map fresh, (Spec.pass a b (past h)).2.2.2.map fresh⟩) ∧
      Ready h' ∧ past h' = (Spec.pass a b (past h)).1 := by
  obtain ⟨q, ql, c, h1, hl, h2, _⟩ := prepare_mk a b h hr
  unfold pass Spec.pass
  rw [h2, h1]
  simp only [Res.bind]
  unfold Plain at hp
  cases ho : a.outcome with
  | success sol R =>
    rw [ho] at hp
    simp only at hp ⊢
    rw [inner_plain R hp]
    obtain ⟨r, hc⟩ := commit_mk sol q ql
    rw [hc, save_mk]
    obtain ⟨c', o', hf1, hf2⟩ := foldl_refine a.more sol r ((q :: ql).dropLast)
    have hacc : accepted sol R (q :: ql) = sol :: (q :: ql).dropLast := by
      rw [accepted, all_plain R hp, List.dropLast_cons_of_ne_nil (by simp)]
    simp only
    rw [hf2, hacc, hf1]
    exact ⟨_, rfl, ready_mk _ _ _, past_mk _ _ _ _⟩
  | failure g => exact ⟨_, rfl, ready_mk _ _ _, past_mk _ _ _ _⟩
  | inconsistent sol R =>
    rw [ho] at hp
    simp only at hp ⊢
    rw [thrown_plain R hp]
    exact ⟨_, rfl, ready_mk _ _ _, past_mk _ _ _ _⟩

end Verif.History
