import Verif.Spec.Params
import Mathlib.Data.List.Nodup
import Mathlib.Data.List.Basic

/-!
# Lemmas on the parameters
-/

namespace Verif.Params

open Verif.BaseTools (Call)
open Verif.Params.Spec

theorem declare_table : declare [] addParameters = .ok ([], decls) := by decide +kernel

theorem paths_nodup : (decls.map (·.path)).Nodup := by decide +kernel

theorem members_nodup : (decls.map (·.member)).Nodup := by decide +kernel

theorem called : ∀ d ∈ decls, Called d.path d.member := by
  have H : ∀ d ∈ decls, (decide (d.path.dropLast.map plainSection = d.member.dropLast.map plainSection) &&
      (match d.path.getLast?, d.member.getLast? with
        | some e, some m => decide (plain e = plain m ∨ (e, m) ∈ abbreviations)
        | _, _ => false)) = true := by decide +kernel
  intro d hd
  obtain ⟨h1, h2⟩ := Bool.and_eq_true_iff.mp (H d hd)
  refine ⟨of_decide_eq_true h1, ?_⟩
  cases he : d.path.getLast? with
  | none => rw [he] at h2; cases h2
  | some e =>
    cases hm : d.member.getLast? with
    | none => rw [he, hm] at h2; cases h2
    | some m => rw [he, hm] at h2; exact ⟨e, m, rfl, rfl, of_decide_eq_true h2⟩

theorem names_nodup : (members.map (·.name)).Nodup := by decide +kernel

theorem bound_of_member : ∀ m ∈ members, m.name ≠ forgotten → m.name ∈ decls.map (·.member) := by decide +kernel

theorem forgotten_member : forgotten ∈ members.map (·.name) := by decide +kernel

theorem forgotten_unbound : forgotten ∉ decls.map (·.member) := by decide +kernel

theorem member_of_bound : ∀ d ∈ decls, d.member ∈ members.map (·.name) := by decide +kernel

/-- The parts of a path are words, and there is at least one. -/
theorem paths_words : ∀ d ∈ decls, d.path ≠ [] ∧ ∀ s ∈ d.path, s.toList.all BaseTools.isWord = true := by decide +kernel

theorem initial_fits : ∀ d ∈ decls, ∀ l, d.sel = some l → ∃ v, initial.lookup d.member = some v ∧ v ∈ l := by
  have H : ∀ d ∈ decls, (match d.sel with
      | some l => (match initial.lookup d.member with | some v => decide (v ∈ l) | none => false)
      | none => true) = true := by decide +kernel
  intro d hd l hl
  have h := H d hd
  rw [hl] at h
  dsimp only at h
  split at h
  · rename_i v hv; exact ⟨v, hv, of_decide_eq_true h⟩
  · cases h

seal decls members initial

theorem find_path {D : List Decl} (hp : (D.map (·.path)).Nodup) {d : Decl} (hd : d ∈ D) : D.find? (fun e => e.path == d.path) = some d := by
  induction D with
  | nil => cases hd
  | cons e l ih =>
    rw [List.map_cons, List.nodup_cons] at hp
    rcases List.mem_cons.mp hd with h | h
    · subst h; simp
    · have hne : e.path ≠ d.path := fun h' => hp.1 (h' ▸ List.mem_map.mpr ⟨d, h, rfl⟩)
      rw [List.find?_cons_of_neg (by simpa using hne)]
      exact ih hp.2 h

theorem find_none {D : List Decl} {p : List String} (h : p ∉ D.map (·.path)) : D.find? (fun e => e.path == p) = none := by
  rw [List.find?_eq_none]
  intro d hd hc
  exact h (List.mem_map.mpr ⟨d, hd, by simpa using hc⟩)

theorem accepts_iff {w : World} {d : Decl} (hd : d ∈ decls) {v : List Char} : accepts w d v = true ↔ Fits w d v := by
  unfold accepts Fits
  cases h : d.sel with
  | some l => simp [List.any_eq_true]
  | none =>
    obtain ⟨m, hm, hn⟩ := List.mem_map.mp (member_of_bound d hd)
    have hk : kindOf d.member = m.kind := by
      unfold kindOf
      have : members.find? (fun x => x.name == d.member) = some m := by
        have H : ∀ (L : List Member), (L.map (·.name)).Nodup → m ∈ L → L.find? (fun x => x.name == d.member) = some m := by
          intro L
          induction L with
          | nil => intro _ h; cases h
          | cons e l ih =>
            intro hN hmem
            rw [List.map_cons, List.nodup_cons] at hN
            rcases List.mem_cons.mp hmem with h' | h'
            · subst h'; simp [hn]
            · have hne : e.name ≠ d.member := fun h'' => hN.1 (by rw [h'', ← hn]; exact List.mem_map.mpr ⟨m, h', rfl⟩)
              rw [List.find?_cons_of_neg (by simpa using hne)]
              exact ih hN.2 h'
        exact H members names_nodup hm
      rw [this]
    have huniq : ∀ k, (⟨d.member, k⟩ : Member) ∈ members → k = m.kind := by
      intro k hkm
      have H := (List.nodup_map_iff_inj_on names_nodup.of_map).mp names_nodup
      have := H _ hkm _ hm (by simp [hn])
      exact congrArg Member.kind this
    simp only [hk, reduceCtorEq, false_implies, implies_true, true_and, forall_const]
    constructor
    · intro hr k hkm; rw [huniq k hkm]; exact hr
    · intro hr; apply hr; rw [← hn]; exact hm

/-- One entry. -/
theorem assign_declared {w : World} {d : Decl} (hd : d ∈ decls) (skip : Bool) (x : Vals) (v : List Char) :
    assign w decls skip x d.path v = if accepts w d v then .ok (store d v x) else .exc .assertThrow := by
  unfold assign; rw [find_path paths_nodup hd]

theorem assign_undeclared {w : World} {p : List String} (h : p ∉ decls.map (·.path)) (skip : Bool) (x : Vals) (v : List Char) :
    assign w decls skip x p v = if skip then .ok x else .exc .assertThrow := by
  unfold assign; rw [find_none h]

theorem assign_ok {w : World} {skip : Bool} {x y : Vals} {p : List String} {v : List Char} (h : assign w decls skip x p v = .ok y) :
    (∀ d ∈ decls, y d.member = if p = d.path then v else x d.member) ∧ ∀ m, m ∉ decls.map (·.member) → y m = x m := by
  by_cases hp : p ∈ decls.map (·.path)
  · obtain ⟨e, he, rfl⟩ := List.mem_map.mp hp
    rw [assign_declared he] at h
    split at h
    · cases h
      refine ⟨fun d hd => ?_, fun m hm => ?_⟩
      · unfold store
        by_cases hde : d = e
        · subst hde; simp
        · have h1 : d.member ≠ e.member := fun h' => hde ((List.nodup_map_iff_inj_on members_nodup.of_map).mp members_nodup d hd e he h')
          have h2 : e.path ≠ d.path := fun h' => hde ((List.nodup_map_iff_inj_on paths_nodup.of_map).mp paths_nodup d hd e he h'.symm)
          rw [if_neg h1, if_neg h2]
      · unfold store
        rw [if_neg (fun h' : m = e.member => hm (List.mem_map.mpr ⟨e, he, h'.symm⟩))]
    · cases h
  · rw [assign_undeclared hp] at h
    split at h
    · cases h
      refine ⟨fun d hd => ?_, fun _ _ => rfl⟩
      rw [if_neg (fun h' : p = d.path => hp (List.mem_map.mpr ⟨d, hd, h'.symm⟩))]
    · cases h

theorem lastValue_append (a b : List (List String × List Char)) (p : List String) :
    lastValue (a ++ b) p = (lastValue b p).or (lastValue a p) := by
  unfold lastValue
  rw [List.reverse_append, List.find?_append]
  cases List.find? (fun r => decide (r.1 = p)) b.reverse <;> simp

theorem lastValue_nil (p : List String) : lastValue [] p = none := rfl

theorem lastValue_single (e : List String × List Char) (p : List String) : lastValue [e] p = if e.1 = p then some e.2 else none := by
  unfold lastValue
  by_cases h : e.1 = p <;> simp [h]

theorem getD_or {α} (a b : Option α) (x : α) : (a.or b).getD x = a.getD (b.getD x) := by cases a <;> rfl

theorem entries_ok {w : World} (skip : Bool) : ∀ (es : List (List String × List Char)) (x y : Vals),
    es.foldlM (fun y e => assign w decls skip y e.1 e.2) x = .ok y →
    (∀ d ∈ decls, y d.member = (lastValue es d.path).getD (x d.member)) ∧ ∀ m, m ∉ decls.map (·.member) → y m = x m
  | [], x, y, h => by cases h; exact ⟨fun _ _ => rfl, fun _ _ => rfl⟩
  | e :: es, x, y, h => by
    rw [List.foldlM_cons] at h
    obtain ⟨z, hz, h'⟩ := Res.bind_eq_ok.mp h
    obtain ⟨h1, h2⟩ := assign_ok hz
    obtain ⟨h3, h4⟩ := entries_ok skip es z y h'
    refine ⟨fun d hd => ?_, fun m hm => (h4 m hm).trans (h2 m hm)⟩
    rw [h3 d hd, h1 d hd, show e :: es = [e] ++ es from rfl, lastValue_append, getD_or, lastValue_single]
    congr 1
    by_cases h : e.1 = d.path <;> simp [h]

theorem call_ok {w : World} {x y : Vals} {c : Call} (h : call w decls x c = .ok y) :
    (∀ d ∈ decls, y d.member = (lastValue (requests w c) d.path).getD (x d.member)) ∧ ∀ m, m ∉ decls.map (·.member) → y m = x m := by
  cases c with
  | file f =>
    simp only [call, parse] at h
    cases hc : w.content f with
    | none => rw [hc] at h; cases h
    | some es =>
      rw [hc] at h
      have := entries_ok true es x y h
      simpa only [requests, hc, Option.getD_some] using this
  | set n v =>
    have h' : assign w decls false x ((splitDots n).map String.ofList) v = .ok y := h
    obtain ⟨h1, h2⟩ := assign_ok h'
    refine ⟨fun d hd => ?_, h2⟩
    rw [h1 d hd]
    simp only [requests, lastValue_single]
    by_cases h : (splitDots n).map String.ofList = d.path <;> simp [h]
  | check =>
    simp only [call] at h
    obtain ⟨_, _, h'⟩ := Res.bind_eq_ok.mp h
    cases h'
    exact ⟨fun _ _ => rfl, fun _ _ => rfl⟩

theorem calls_ok {w : World} : ∀ (cs : List Call) (x y : Vals), calls w decls x cs = .ok y →
    (∀ d ∈ decls, y d.member = (lastValue (cs.flatMap (requests w)) d.path).getD (x d.member)) ∧
      ∀ m, m ∉ decls.map (·.member) → y m = x m
  | [], x, y, h => by cases h; exact ⟨fun _ _ => rfl, fun _ _ => rfl⟩
  | c :: cs, x, y, h => by
    unfold calls at h
    rw [List.foldlM_cons] at h
    obtain ⟨z, hz, h'⟩ := Res.bind_eq_ok.mp h
    obtain ⟨h1, h2⟩ := call_ok hz
    obtain ⟨h3, h4⟩ := calls_ok cs z y h'
    refine ⟨fun d hd => ?_, fun m hm => (h4 m hm).trans (h2 m hm)⟩
    rw [h3 d hd, h1 d hd, List.flatMap_cons, lastValue_append, getD_or]

/-! ### When the calls succeed -/

/-- An entry of a file is fine: nothing is declared under the path, or the value fits. -/
def EntryFine (w : World) (e : List String × List Char) : Prop := ∀ d ∈ decls, d.path = e.1 → accepts w d e.2 = true

theorem assign_skip_iff {w : World} (x : Vals) (e : List String × List Char) :
    (∃ y, assign w decls true x e.1 e.2 = .ok y) ↔ EntryFine w e := by
  by_cases hp : e.1 ∈ decls.map (·.path)
  · obtain ⟨d, hd, hde⟩ := List.mem_map.mp hp
    rw [← hde, assign_declared hd]
    constructor
    · rintro ⟨y, hy⟩ d' hd' hp'
      have : d' = d := (List.nodup_map_iff_inj_on paths_nodup.of_map).mp paths_nodup d' hd' d hd (hp'.trans hde.symm)
      subst this
      by_contra hc
      rw [if_neg hc] at hy; cases hy
    · intro h
      rw [if_pos (h d hd hde)]; exact ⟨_, rfl⟩
  · rw [assign_undeclared hp]
    refine ⟨fun _ d hd h => absurd (h ▸ List.mem_map.mpr ⟨d, hd, rfl⟩) hp, fun _ => ⟨x, rfl⟩⟩

theorem entries_iff {w : World} : ∀ (es : List (List String × List Char)) (x : Vals),
    (∃ y, es.foldlM (fun y e => assign w decls true y e.1 e.2) x = .ok y) ↔ ∀ e ∈ es, EntryFine w e
  | [], x => ⟨fun _ _ h => (by cases h), fun _ => ⟨x, rfl⟩⟩
  | e :: es, x => by
    rw [List.foldlM_cons]
    constructor
    · rintro ⟨y, h⟩
      obtain ⟨z, hz, h'⟩ := Res.bind_eq_ok.mp h
      intro f hf
      rcases List.mem_cons.mp hf with h1 | h1
      · subst h1; exact (assign_skip_iff x f).mp ⟨z, hz⟩
      · exact (entries_iff es z).mp ⟨y, h'⟩ f h1
    · intro h
      obtain ⟨z, hz⟩ := (assign_skip_iff x e).mpr (h e List.mem_cons_self)
      rw [hz, Res.ok_bind]
      exact (entries_iff es z).mpr fun f hf => h f (List.mem_cons_of_mem _ hf)

/-- A call that is not `check` is fine. -/
def CallFine (w : World) : Call → Prop
  | .file f => ∃ es, w.content f = some es ∧ ∀ e ∈ es, EntryFine w e
  | .set n v => ∃ d ∈ decls, d.path = (splitDots n).map String.ofList ∧ accepts w d v = true
  | .check => True

theorem call_iff {w : World} {c : Call} (hc : c ≠ .check) (x : Vals) : (∃ y, call w decls x c = .ok y) ↔ CallFine w c := by
  cases c with
  | file f =>
    simp only [call, parse, CallFine]
    cases h : w.content f with
    | none => simp
    | some es => simpa using entries_iff es x
  | set n v =>
    simp only [call, Verif.Params.set, CallFine]
    by_cases hp : (splitDots n).map String.ofList ∈ decls.map (·.path)
    · obtain ⟨d, hd, hde⟩ := List.mem_map.mp hp
      rw [← hde, assign_declared hd]
      constructor
      · rintro ⟨y, hy⟩
        refine ⟨d, hd, rfl, ?_⟩
        by_contra hn
        rw [if_neg hn] at hy; cases hy
      · rintro ⟨d', hd', hp', ha⟩
        have : d' = d := (List.nodup_map_iff_inj_on paths_nodup.of_map).mp paths_nodup d' hd' d hd hp'
        subst this
        rw [if_pos ha]; exact ⟨_, rfl⟩
    · rw [assign_undeclared hp]
      constructor
      · rintro ⟨y, hy⟩; cases hy
      · rintro ⟨d, hd, hp', _⟩
        exact absurd (hp' ▸ List.mem_map.mpr ⟨d, hd, rfl⟩) hp
  | check => exact absurd rfl hc

theorem calls_iff {w : World} : ∀ (cs : List Call) (_ : Call.check ∉ cs) (x : Vals),
    (∃ y, calls w decls x cs = .ok y) ↔ ∀ c ∈ cs, CallFine w c
  | [], _, x => ⟨fun _ _ h => (by cases h), fun _ => ⟨x, rfl⟩⟩
  | c :: cs, hn, x => by
    have hc : c ≠ .check := fun h => hn (h ▸ List.mem_cons_self)
    have hcs : Call.check ∉ cs := fun h => hn (List.mem_cons_of_mem _ h)
    unfold calls
    rw [List.foldlM_cons]
    constructor
    · rintro ⟨y, h⟩
      obtain ⟨z, hz, h'⟩ := Res.bind_eq_ok.mp h
      intro f hf
      rcases List.mem_cons.mp hf with h1 | h1
      · subst h1; exact (call_iff hc x).mp ⟨z, hz⟩
      · exact (calls_iff cs hcs z).mp ⟨y, h'⟩ f h1
    · intro h
      obtain ⟨z, hz⟩ := (call_iff hc x).mpr (h c List.mem_cons_self)
      rw [hz, Res.ok_bind]
      exact (calls_iff cs hcs z).mpr fun f hf => h f (List.mem_cons_of_mem _ hf)

/-! ### Texts of paths -/

theorem splitDots_ne : ∀ l, splitDots l ≠ []
  | [] => by simp [splitDots]
  | c :: l => by
    unfold splitDots
    split
    · simp
    · split <;> simp

theorem splitDots_word : ∀ (s : List Char), '.' ∉ s → splitDots s = [s]
  | [], _ => rfl
  | c :: s, h => by
    have hc : c ≠ '.' := fun h' => h (h' ▸ List.mem_cons_self)
    rw [splitDots, if_neg hc, splitDots_word s (fun h' => h (List.mem_cons_of_mem _ h'))]

theorem splitDots_dot : ∀ (s r : List Char), '.' ∉ s → splitDots (s ++ '.' :: r) = s :: splitDots r
  | [], r, _ => by rw [List.nil_append, splitDots, if_pos rfl]
  | c :: s, r, h => by
    have hc : c ≠ '.' := fun h' => h (h' ▸ List.mem_cons_self)
    rw [List.cons_append, splitDots, if_neg hc, splitDots_dot s r (fun h' => h (List.mem_cons_of_mem _ h'))]

theorem split_dotted : ∀ (p : List String), p ≠ [] → (∀ s ∈ p, '.' ∉ s.toList) → (splitDots (dotted p)).map String.ofList = p
  | [], h, _ => absurd rfl h
  | [s], _, h => by
    rw [dotted, splitDots_word _ (h s List.mem_cons_self)]
    simp
  | s :: t :: l, _, h => by
    rw [dotted, splitDots_dot _ _ (h s List.mem_cons_self), List.map_cons,
      split_dotted (t :: l) (by simp) (fun u hu => h u (List.mem_cons_of_mem _ hu))]
    simp

theorem takeWhile_self {α} {p : α → Bool} : ∀ {l : List α}, (∀ c ∈ l, p c = true) → l.takeWhile p = l
  | [], _ => rfl
  | c :: l, h => by
    rw [List.takeWhile_cons_of_pos (h c List.mem_cons_self), takeWhile_self (fun a ha => h a (List.mem_cons_of_mem _ ha))]

theorem word_no_dot {s : List Char} (h : s.all BaseTools.isWord = true) : '.' ∉ s := by
  intro hm
  have := List.all_eq_true.mp h '.' hm
  revert this
  decide

theorem dotted_name : ∀ (p : List String), (∀ s ∈ p, s.toList.all BaseTools.isWord = true) → ∀ c ∈ dotted p, BaseTools.isNameChar c = true
  | [], _, c, hc => by cases hc
  | [s], h, c, hc => by
    have := List.all_eq_true.mp (h s List.mem_cons_self) c hc
    simp [BaseTools.isNameChar, this]
  | s :: t :: l, h, c, hc => by
    rw [dotted, List.mem_append, List.mem_cons] at hc
    rcases hc with hc | hc | hc
    · have := List.all_eq_true.mp (h s List.mem_cons_self) c hc
      simp [BaseTools.isNameChar, this]
    · subst hc; decide
    · exact dotted_name (t :: l) (fun u hu => h u (List.mem_cons_of_mem _ hu)) c hc

end Verif.Params
