import Verif.Spec.Wavefront
import Mathlib.Tactic.Ring
import Mathlib.Data.List.Nodup
/-!
# Lemmas on growing fronts
-/
namespace Verif.Wavefront

/-! ## Lists of fronts -/

/-- `x` is in front `k` -/
def InB (a : List (List Nat)) (k x : Nat) : Prop := ∃ l, a[k]? = some l ∧ x ∈ l

theorem length_pushAt (a : List (List Nat)) (k c : Nat) : (pushAt a k c).length = a.length := by
  simp [pushAt]

theorem inB_pushAt {a : List (List Nat)} {k c j x : Nat} :
    InB (pushAt a k c) j x ↔ InB a j x ∨ (j = k ∧ k < a.length ∧ x = c) := by
  unfold InB pushAt
  rw [List.getElem?_modify]
  by_cases hk : k = j
  · subst hk
    simp only [if_true]
    by_cases hl : k < a.length
    · rw [List.getElem?_eq_getElem hl]; simp [hl]
    · rw [List.getElem?_eq_none (by omega)]; simp [hl]
  · simp [hk, Ne.symm hk]

theorem inB_tail {a : List (List Nat)} {k x : Nat} :
    InB (a.tail ++ [[]]) k x ↔ InB a (k + 1) x := by
  unfold InB
  rcases a with _ | ⟨b, t⟩
  · rcases k with _ | k <;> simp
  · simp only [List.tail_cons, List.getElem?_cons_succ]
    by_cases hk : k < t.length
    · rw [List.getElem?_append_left hk]
    · rw [List.getElem?_append_right (by omega), List.getElem?_eq_none (l := t) (by omega)]
      rcases h : k - t.length with _ | m <;> simp

theorem inB_zero {a : List (List Nat)} {x : Nat} : InB a 0 x ↔ x ∈ a.headD [] := by
  unfold InB
  rcases a with _ | ⟨b, t⟩ <;> simp

theorem inB_lt {a : List (List Nat)} {k x : Nat} (h : InB a k x) : k < a.length := by
  obtain ⟨l, hl, _⟩ := h
  exact (List.getElem?_eq_some_iff.1 hl).1

theorem inB_replicate {n k x : Nat} : ¬ InB (List.replicate n []) k x := by
  rintro ⟨l, hl, hx⟩
  rw [List.getElem?_replicate] at hl
  split at hl <;> simp_all

theorem inB_any {a : List (List Nat)} : (a.any fun l => !l.isEmpty) = true ↔ ∃ k x, InB a k x := by
  rw [List.any_eq_true]
  constructor
  · rintro ⟨l, hl, he⟩
    obtain ⟨k, hk⟩ := List.mem_iff_getElem?.1 hl
    rcases l with _ | ⟨x, t⟩
    · simp at he
    · exact ⟨k, x, _, hk, by simp⟩
  · rintro ⟨k, x, l, hl, hx⟩
    refine ⟨l, List.mem_of_getElem? hl, ?_⟩
    rcases l with _ | ⟨y, t⟩
    · simp at hx
    · rfl

theorem inB_contains {a : List (List Nat)} {x : Nat} :
    (a.any fun l => l.contains x) = true ↔ ∃ k, InB a k x := by
  rw [List.any_eq_true]
  constructor
  · rintro ⟨l, hl, he⟩
    obtain ⟨k, hk⟩ := List.mem_iff_getElem?.1 hl
    exact ⟨k, l, hk, by simpa using he⟩
  · rintro ⟨k, l, hl, hx⟩
    exact ⟨l, List.mem_of_getElem? hl, by simpa using hx⟩

/-! ## Maps of pairs -/

theorem lookup_record {K : Type} [LinearOrder K] (m : PMap K) (k : Nat × Nat) (v : K) (k' : Nat × Nat) :
    lookup (record m k v) k' =
      if k' = k then some (match lookup m k with | some v' => min v' v | none => v) else lookup m k' := by
  induction m with
  | nil =>
    by_cases h : k = k'
    · subst h; simp [record, lookup]
    · simp [record, lookup, h, Ne.symm h]
  | cons e m ih =>
    obtain ⟨a, b⟩ := e
    unfold record
    by_cases h : a = k
    · subst h
      rw [if_pos rfl]
      by_cases h' : a = k'
      · subst h'; simp [lookup]
      · simp [lookup, h', Ne.symm h']
    · rw [if_neg h]
      by_cases h' : a = k'
      · subst h'; simp [lookup, h]
      · simp only [lookup, if_neg h', ih, if_neg h]

/-! ## Adjacency -/

theorem mem_nbrs {M : WMesh} {c n : Nat} : n ∈ nbrs M c ↔ Adj M c n := by
  unfold nbrs
  rw [List.mem_flatMap]
  constructor
  · rintro ⟨s, hs, hn⟩
    rcases s with _ | m | ⟨ch, lv⟩
    · simp [Side.contact] at hn
    · simp [Side.contact] at hn; subst hn; exact .same hs
    · simp only [Side.contact, List.mem_map, List.mem_filter, Bool.and_eq_true] at hn
      obtain ⟨x, ⟨hx, ha, ht⟩, hc⟩ := hn
      exact .child ch lv x hs hx ha ht hc
  · rintro (h | ⟨ch, lv, x, h, hx, ha, ht, hn⟩)
    · exact ⟨_, h, by simp [Side.contact]⟩
    · exact ⟨_, h, by simp only [Side.contact, List.mem_map, List.mem_filter, Bool.and_eq_true]; exact ⟨x, ⟨hx, ha, ht⟩, hn⟩⟩

theorem Starts.pid {M : WMesh} {pid : Nat → Option Nat} {c : Nat} (h : Starts M pid c) :
    ∃ p, pid c = some p := by
  rcases h with ⟨p, n, hp, _, _⟩ | ⟨p, ch, lv, x, hp, _, _, _, _, _, _⟩ <;> exact ⟨p, hp⟩

/-! ## Preparatory flooding -/

/-- one side from which a front starts -/
def SideStarts (M : WMesh) (pid : Nat → Option Nat) (r : Nat) : Side → Prop
  | .boundary => False
  | .active n => pid n = none
  | .refined ch _ => ∃ x ∈ ch, x.active = true ∧ x.touches = true ∧ M.owner x.cell = r ∧ pid x.cell = none

theorem starts_iff {M : WMesh} {pid : Nat → Option Nat} {c p : Nat} (hp : pid c = some p) :
    Starts M pid c ↔ ∃ s ∈ M.sides c, SideStarts M pid (M.owner c) s := by
  constructor
  · rintro (⟨p, n, _, h, hn⟩ | ⟨p, ch, lv, x, _, h, hx, ha, ht, ho, hn⟩)
    · exact ⟨_, h, hn⟩
    · exact ⟨_, h, x, hx, ha, ht, ho, hn⟩
  · rintro ⟨s, hs, h⟩
    rcases s with _ | m | ⟨ch, lv⟩
    · exact h.elim
    · exact .same p m hp hs h
    · obtain ⟨x, hx, ha, ht, ho, hn⟩ := h
      exact .child p ch lv x hp hs hx ha ht ho hn

/-- effect of a piece of the preparatory flooding; cells in `T` may be added to the fronts although they had
a marker before -/
structure PrepRel (M : WMesh) (pid : Nat → Option Nat) (r : Nat) (T : Nat → Prop) (s s' : PrepState) :
    Prop where
  keep : ∀ x, s.marker x ≠ none → s'.marker x = s.marker x
  new : ∀ x, s.marker x = none → s'.marker x ≠ none →
    x ∈ M.cells ∧ M.owner x = r ∧ s'.marker x = pid x ∧
      (Starts M pid x → InB s'.aggl (M.levels - M.level x - 1) x)
  len : s'.aggl.length = s.aggl.length
  mono : ∀ k x, InB s.aggl k x → InB s'.aggl k x
  only : ∀ k x, InB s'.aggl k x → InB s.aggl k x ∨
    ((T x ∨ (s.marker x = none ∧ s'.marker x ≠ none)) ∧ Starts M pid x ∧ k = M.levels - M.level x - 1)

theorem PrepRel.refl {M : WMesh} {pid : Nat → Option Nat} {r : Nat} {T : Nat → Prop} (s : PrepState) :
    PrepRel M pid r T s s :=
  ⟨fun _ _ => rfl, fun _ h h' => absurd h h', rfl, fun _ _ h => h, fun _ _ h => .inl h⟩

theorem PrepRel.trans {M : WMesh} {pid : Nat → Option Nat} {r : Nat} {T : Nat → Prop}
    {s s1 s2 : PrepState} (h1 : PrepRel M pid r T s s1) (h2 : PrepRel M pid r T s1 s2) :
    PrepRel M pid r T s s2 := by
  refine ⟨fun x hx => ?_, fun x hx hx2 => ?_, h2.len.trans h1.len, fun k x hk => h2.mono k x (h1.mono k x hk),
    fun k x hk => ?_⟩
  · rw [h2.keep x (by rw [h1.keep x hx]; exact hx), h1.keep x hx]
  · by_cases h : s1.marker x = none
    · exact h2.new x h hx2
    · obtain ⟨a, b, c, d⟩ := h1.new x hx h
      exact ⟨a, b, by rw [h2.keep x h]; exact c, fun hs => h2.mono _ _ (d hs)⟩
  · rcases h2.only k x hk with h | ⟨h, hs, hk'⟩
    · rcases h1.only k x h with h | ⟨h, hs, hk'⟩
      · exact .inl h
      · refine .inr ⟨h.imp_right fun h => ⟨h.1, ?_⟩, hs, hk'⟩
        rw [h2.keep x h.2]; exact h.2
    · refine .inr ⟨?_, hs, hk'⟩
      rcases h with h | ⟨h, h'⟩
      · exact .inl h
      · by_cases h0 : s.marker x = none
        · exact .inr ⟨h0, h'⟩
        · exact absurd (h1.keep x h0) (by rw [h]; exact fun e => h0 e.symm)

theorem PrepRel.weaken {M : WMesh} {pid : Nat → Option Nat} {r : Nat} {T T' : Nat → Prop}
    {s s1 : PrepState} (h : PrepRel M pid r T s s1) (hT : ∀ x, T x → T' x) : PrepRel M pid r T' s s1 :=
  ⟨h.keep, h.new, h.len, h.mono, fun k x hk => (h.only k x hk).imp_right fun ⟨a, b, c⟩ =>
    ⟨a.imp_left (hT x), b, c⟩⟩

theorem prepPush_rel {M : WMesh} {pid : Nat → Option Nat} {r c : Nat} {s : PrepState}
    (hlen : s.aggl.length = M.levels) (hs : Starts M pid c) :
    PrepRel M pid r (· = c) s (prepPush M c s) := by
  refine ⟨fun _ _ => rfl, fun _ h h' => absurd h h', length_pushAt _ _ _, fun k x hk => ?_, fun k x hk => ?_⟩
  · exact inB_pushAt.2 (.inl hk)
  · rcases inB_pushAt.1 hk with h | ⟨h1, _, h3⟩
    · exact .inl h
    · exact .inr ⟨.inl h3, h3 ▸ hs, by rw [h1, hlen, h3]⟩

theorem prepPush_in {M : WMesh} {c : Nat} {s : PrepState} (hlen : s.aggl.length = M.levels)
    (hc : M.level c < M.levels) : InB (prepPush M c s).aggl (M.levels - M.level c - 1) c :=
  inB_pushAt.2 (.inr ⟨by rw [hlen], by rw [hlen]; omega, rfl⟩)

/-- number of cells without marker -/
def unm (M : WMesh) (m : Nat → Option Nat) : Nat := M.cells.countP fun x => (m x).isNone

theorem unm_le {M : WMesh} {m m' : Nat → Option Nat} (h : ∀ x, m x ≠ none → m' x ≠ none) :
    unm M m' ≤ unm M m := by
  unfold unm
  refine List.countP_mono_left fun x _ hx => ?_
  simp only [Option.isNone_iff_eq_none] at *
  by_contra hn
  exact h x hn hx

theorem countP_lt_of {l : List Nat} {p q : Nat → Bool} (h : ∀ x ∈ l, p x = true → q x = true) {x : Nat}
    (hx : x ∈ l) (hp : p x = false) (hq : q x = true) : l.countP p < l.countP q := by
  induction l with
  | nil => simp at hx
  | cons a l ih =>
    have hle : l.countP p ≤ l.countP q := List.countP_mono_left fun y hy => h y (by simp [hy])
    rcases List.mem_cons.1 hx with rfl | hx
    · rw [List.countP_cons, List.countP_cons, hp, hq]; simp; omega
    · have := ih (fun y hy => h y (by simp [hy])) hx
      rw [List.countP_cons, List.countP_cons]
      have ha := h a (by simp)
      cases hpa : p a <;> cases hqa : q a <;> simp_all; omega

theorem unm_lt {M : WMesh} {m m' : Nat → Option Nat} (h : ∀ x, m x ≠ none → m' x ≠ none) {x : Nat}
    (hx : x ∈ M.cells) (h0 : m x = none) (h1 : m' x ≠ none) : unm M m' < unm M m := by
  unfold unm
  refine countP_lt_of (fun y _ hy => ?_) hx (by simpa using Option.isSome_iff_ne_none.2 h1) (by simp [h0])
  simp only [Option.isNone_iff_eq_none] at *
  by_contra hn
  exact h y hn hy

theorem PrepRel.unm {M : WMesh} {pid : Nat → Option Nat} {r : Nat} {T : Nat → Prop} {s s' : PrepState}
    (h : PrepRel M pid r T s s') : unm M s'.marker ≤ unm M s.marker :=
  unm_le fun x hx => by rw [h.keep x hx]; exact hx

theorem fold_rel {α : Type} {M : WMesh} {pid : Nat → Option Nat} {r : Nat} {T : Nat → Prop} {N : Nat}
    {f : PrepState → α → Option PrepState} {Q : α → PrepState → Prop} :
    ∀ (l : List α) (s : PrepState), s.aggl.length = M.levels → unm M s.marker ≤ N →
      (∀ a ∈ l, ∀ s, s.aggl.length = M.levels → unm M s.marker ≤ N →
        ∃ s', f s a = some s' ∧ PrepRel M pid r T s s' ∧ Q a s') →
      (∀ a s s', PrepRel M pid r T s s' → Q a s → Q a s') →
      ∃ s', l.foldlM f s = some s' ∧ PrepRel M pid r T s s' ∧ ∀ a ∈ l, Q a s'
  | [], s, _, _, _, _ => ⟨s, rfl, .refl s, by simp⟩
  | a :: l, s, hl, hu, hf, hQ => by
    obtain ⟨s1, e1, r1, q1⟩ := hf a (by simp) s hl hu
    obtain ⟨s2, e2, r2, q2⟩ := fold_rel l s1 (r1.len.trans hl) (r1.unm.trans hu)
      (fun b hb => hf b (by simp [hb])) hQ
    refine ⟨s2, by rw [List.foldlM_cons, e1]; exact e2, r1.trans r2, fun b hb => ?_⟩
    rcases List.mem_cons.1 hb with rfl | hb
    · exact hQ _ _ _ r2 q1
    · exact q2 b hb

/-- what a call of `run_flooding_prep` guarantees -/
def PrepPost (M : WMesh) (pid : Nat → Option Nat) (r c : Nat) (s' : PrepState) : Prop :=
  M.owner c = r → pid c ≠ none → s'.marker c ≠ none

theorem PrepPost.mono {M : WMesh} {pid : Nat → Option Nat} {r c : Nat} {T : Nat → Prop} {s s' : PrepState}
    (h : PrepRel M pid r T s s') (hp : PrepPost M pid r c s) : PrepPost M pid r c s' :=
  fun h1 h2 => by rw [h.keep c (hp h1 h2)]; exact hp h1 h2

theorem pushes_rel {α : Type} {M : WMesh} {pid : Nat → Option Nat} {r c : Nat} (hs : Starts M pid c)
    (hc : M.level c < M.levels) :
    ∀ (l : List α) (s : PrepState), s.aggl.length = M.levels →
      PrepRel M pid r (· = c) s (l.foldl (fun s _ => prepPush M c s) s) ∧
      (l ≠ [] → InB (l.foldl (fun s _ => prepPush M c s) s).aggl (M.levels - M.level c - 1) c)
  | [], s, _ => ⟨.refl s, by simp⟩
  | _ :: l, s, hl => by
    have h1 := prepPush_rel (r := r) hl hs
    obtain ⟨h2, h3⟩ := pushes_rel hs hc l (prepPush M c s) (h1.len.trans hl)
    refine ⟨h1.trans h2, fun _ => h2.mono _ _ (prepPush_in hl hc)⟩

theorem prep_ok {M : WMesh} (hM : MeshOk M) (pid : Nat → Option Nat) (r : Nat) :
    ∀ (fuel c : Nat) (s : PrepState), c ∈ M.cells → s.aggl.length = M.levels → unm M s.marker < fuel →
      ∃ s', prep M pid r fuel c s = some s' ∧ PrepRel M pid r (fun _ => False) s s' ∧ PrepPost M pid r c s'
  | 0, _, _, _, _, h => by omega
  | fuel + 1, c, s, hc, hl, hu => by
    unfold prep
    by_cases ho : M.owner c ≠ r
    · rw [if_pos ho]; exact ⟨s, rfl, .refl s, fun h => absurd h ho⟩
    rw [if_neg ho]
    have ho : M.owner c = r := by simpa using ho
    rcases hp : pid c with _ | p
    · exact ⟨s, rfl, .refl s, fun _ h => absurd hp h⟩
    · show ∃ s', (if (s.marker c).isSome then some s else _) = some s' ∧ _
      by_cases hm : (s.marker c).isSome
      · rw [if_pos hm]
        exact ⟨s, rfl, .refl s, fun _ _ => Option.isSome_iff_ne_none.1 hm⟩
      · rw [if_neg hm]
        have hm : s.marker c = none := by simpa using hm
        let s1 : PrepState := { s with marker := upd s.marker c (some p) }
        have hs1c : s1.marker c = some p := by simp [s1, upd]
        have hs1x : ∀ x, x ≠ c → s1.marker x = s.marker x := fun x hx => by simp [s1, upd, hx]
        have hu1 : unm M s1.marker ≤ fuel - 1 ∧ unm M s1.marker < fuel := by
          have : unm M s1.marker < unm M s.marker := unm_lt (fun x hx => by
            by_cases h : x = c
            · rw [h, hs1c]; simp
            · rw [hs1x x h]; exact hx) hc hm (by rw [hs1c]; simp)
          omega
        have hstep : ∀ sd ∈ M.sides c, ∀ s : PrepState, s.aggl.length = M.levels → unm M s.marker ≤ fuel - 1 →
            ∃ s', prepSide M pid r c (prep M pid r fuel) s sd = some s' ∧ PrepRel M pid r (· = c) s s' ∧
              (SideStarts M pid r sd → InB s'.aggl (M.levels - M.level c - 1) c) := by
          intro sd hsd t htl htu
          have hlt : unm M t.marker < fuel := by omega
          rcases sd with _ | n | ⟨ch, lv⟩
          · exact ⟨t, rfl, .refl t, fun h => h.elim⟩
          · by_cases hn : pid n = none
            · have hs : Starts M pid c := .same p n hp hsd hn
              refine ⟨prepPush M c t, by simp [prepSide, hn], prepPush_rel htl hs, fun _ => prepPush_in htl (hM.level c hc)⟩
            · obtain ⟨t', e, rel, _⟩ := prep_ok hM pid r fuel n t (hM.closed c hc n (.same hsd)) htl hlt
              refine ⟨t', by simpa [prepSide, hn] using e, rel.weaken (fun _ h => h.elim), fun h => absurd h hn⟩
          · let f := ch.filter fun x => x.active && (M.owner x.cell == r) && (pid x.cell == none) && x.touches
            have hf : ∀ x, x ∈ f ↔ x ∈ ch ∧ x.active = true ∧ M.owner x.cell = r ∧ pid x.cell = none ∧
                x.touches = true := by
              intro x
              simp only [f, List.mem_filter, Bool.and_eq_true, beq_iff_eq, and_assoc]
            have hpush : PrepRel M pid r (· = c) t (f.foldl (fun s _ => prepPush M c s) t) ∧
                (f ≠ [] → InB (f.foldl (fun s _ => prepPush M c s) t).aggl (M.levels - M.level c - 1) c) := by
              by_cases hfe : f = []
              · rw [hfe]; exact ⟨.refl t, fun h => absurd rfl h⟩
              · obtain ⟨x, hx⟩ := List.exists_mem_of_ne_nil _ hfe
                obtain ⟨h1, h2, h3, h4, h5⟩ := (hf x).1 hx
                exact pushes_rel (.child p ch lv x hp hsd h1 h2 h5 (h3.trans ho.symm) h4) (hM.level c hc) f t htl
            obtain ⟨t', e, rel, _⟩ := fold_rel (T := (· = c)) (N := fuel - 1) (Q := fun _ _ => True)
              (f := fun s l => prep M pid r fuel l s) lv
              (f.foldl (fun s _ => prepPush M c s) t) (hpush.1.len.trans htl) (hpush.1.unm.trans htu)
              (fun l hl s hsl hsu => by
                obtain ⟨t', e, rel, _⟩ := prep_ok hM pid r fuel l s (hM.leaves c hc ch lv hsd l hl) hsl (by omega)
                exact ⟨t', e, rel.weaken (fun _ h => h.elim), trivial⟩) (fun _ _ _ _ h => h)
            refine ⟨t', e, hpush.1.trans rel, fun h => ?_⟩
            obtain ⟨x, hx, ha, ht, hxo, hn⟩ := h
            refine rel.mono _ _ (hpush.2 ?_)
            intro hfe
            have : x ∈ f := (hf x).2 ⟨hx, ha, hxo, hn, ht⟩
            rw [hfe] at this; simp at this
        obtain ⟨s', e, rel, hall⟩ := fold_rel (T := (· = c)) (N := fuel - 1)
          (Q := fun sd s' => SideStarts M pid r sd → InB s'.aggl (M.levels - M.level c - 1) c)
          (M.sides c) s1 hl hu1.1 hstep (fun a s s' hr h hs => hr.mono _ _ (h hs))
        have hc' : s'.marker c = some p := by rw [rel.keep c (by rw [hs1c]; simp), hs1c]
        refine ⟨s', e, ⟨fun x hx => ?_, fun x hx hx' => ?_, rel.len, rel.mono, fun k x hk => ?_⟩, fun _ _ => by rw [hc']; simp⟩
        · have hxc : x ≠ c := fun h => hx (h ▸ hm)
          rw [rel.keep x (by rw [hs1x x hxc]; exact hx), hs1x x hxc]
        · by_cases hxc : x = c
          · subst hxc
            refine ⟨hc, ho, hc'.trans hp.symm, fun hs => ?_⟩
            obtain ⟨sd, hsd, hss⟩ := (starts_iff hp).1 hs
            rw [ho] at hss
            exact hall sd hsd hss
          · exact rel.new x (by rw [hs1x x hxc]; exact hx) hx'
        · rcases rel.only k x hk with h | ⟨h, hs, hk'⟩
          · exact .inl h
          · refine .inr ⟨.inr ?_, hs, hk'⟩
            rcases h with h | ⟨h, h'⟩
            · exact ⟨h ▸ hm, by rw [h, hc']; simp⟩
            · have hxc : x ≠ c := fun h0 => by rw [h0, hs1c] at h; simp at h
              exact ⟨by rw [← hs1x x hxc]; exact h, h'⟩

theorem prepAll_ok {M : WMesh} (hM : MeshOk M) (pid : Nat → Option Nat) (r fuel : Nat)
    (marker : Nat → Option Nat) (hf : M.cells.length < fuel) :
    ∃ s', prepAll M pid fuel r marker = some s' ∧
      PrepRel M pid r (fun _ => False) ⟨marker, List.replicate M.levels []⟩ s' ∧
      ∀ c ∈ M.cells, PrepPost M pid r c s' := by
  have hu : ∀ m : Nat → Option Nat, unm M m ≤ M.cells.length := fun m => List.countP_le_length
  exact fold_rel (N := M.cells.length) (Q := PrepPost M pid r) M.cells _ (by simp) (hu _)
    (fun c hc s hl hus => prep_ok hM pid r fuel c s hc hl (by omega)) (fun _ _ _ h => PrepPost.mono h)

/-- state after the preparatory flooding -/
structure Prepared (M : WMesh) (pid : Nat → Option Nat) (marker : Nat → Option Nat)
    (aggl : Nat → List (List Nat)) (n : Nat) : Prop where
  mark : ∀ c ∈ M.cells, marker c = if M.owner c < n then pid c else none
  len : ∀ r < n, (aggl r).length = M.levels
  front : ∀ r < n, ∀ k x, InB (aggl r) k x ↔
    (x ∈ M.cells ∧ M.owner x = r ∧ Starts M pid x ∧ k = M.levels - M.level x - 1)

theorem prepRanks_ok {M : WMesh} (hM : MeshOk M) (pid : Nat → Option Nat) (fuel : Nat)
    (hf : M.cells.length < fuel) : ∀ n,
    ∃ marker aggl, (List.range n).foldlM (fun (s : (Nat → Option Nat) × (Nat → List (List Nat))) r => do
        let t ← prepAll M pid fuel r s.1
        pure (t.marker, upd s.2 r t.aggl)) ((fun _ => none), (fun _ => [])) = some (marker, aggl) ∧
      Prepared M pid marker aggl n
  | 0 => ⟨_, _, rfl, ⟨by simp, by simp, by simp⟩⟩
  | n + 1 => by
    obtain ⟨marker, aggl, e, hP⟩ := prepRanks_ok hM pid fuel hf n
    obtain ⟨t, e1, rel, post⟩ := prepAll_ok hM pid n fuel marker hf
    refine ⟨t.marker, upd aggl n t.aggl, ?_, ?_⟩
    · rw [List.range_succ, List.foldlM_append, e]
      simp [e1]
    · have hmk : ∀ c ∈ M.cells, t.marker c = if M.owner c < n + 1 then pid c else none := by
        intro c hc
        have h0 := hP.mark c hc
        by_cases hm : marker c = none
        · by_cases ht : t.marker c = none
          · rw [ht]
            by_cases ho : M.owner c < n + 1
            · rw [if_pos ho]
              by_cases ho' : M.owner c < n
              · rw [if_pos ho'] at h0; rw [← h0, hm]
              · by_contra hne
                exact post c hc (by omega) (Ne.symm hne) ht
            · rw [if_neg ho]
          · obtain ⟨_, b, d, _⟩ := rel.new c hm ht
            rw [d, if_pos (by omega)]
        · rw [rel.keep c hm]
          show marker c = _
          rw [h0]
          by_cases ho : M.owner c < n
          · rw [if_pos ho, if_pos (by omega)]
          · rw [h0, if_neg ho] at hm; exact absurd rfl hm
      refine ⟨hmk, fun r hr => ?_, fun r hr k x => ?_⟩
      · by_cases h : r = n
        · subst h; simp only [upd, if_true]; rw [rel.len]; simp
        · simp only [upd, if_neg h]; exact hP.len r (by omega)
      · by_cases h : r = n
        · subst h
          simp only [upd, if_true]
          constructor
          · intro hk
            rcases rel.only k x hk with h | ⟨h, hs, hk'⟩
            · exact absurd h inB_replicate
            · rcases h with h | ⟨h, h'⟩
              · exact h.elim
              · obtain ⟨a, b, _, _⟩ := rel.new x h h'
                exact ⟨a, b, hs, hk'⟩
          · rintro ⟨hx, ho, hs, rfl⟩
            have h0 : marker x = none := by rw [hP.mark x hx, if_neg (by omega)]
            obtain ⟨p, hp⟩ := hs.pid
            have h1 : t.marker x ≠ none := by rw [hmk x hx, if_pos (by omega), hp]; simp
            exact (rel.new x h0 h1).2.2.2 hs
        · simp only [upd, if_neg h]
          exact hP.front r (by omega) k x

end Verif.Wavefront
