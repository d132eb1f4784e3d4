/-
C104: fields in output files.
C105: the list of grains that is printed does not depend on their numbers.
-/
import Verif.Model.Output
import Verif.Lemmas.Connect
import Mathlib.Algebra.Order.Ring.Rat
import Mathlib.Order.Lattice
import Mathlib.Data.List.Nodup
import Mathlib.Data.List.Perm.Basic
import Mathlib.Data.List.Pairwise

namespace Verif.Props

open Verif.Output

/-! ## C104 -/

/-- C104: the fields that are added are the blocks with a name that is not empty, in order. -/
theorem C104_fields {α : Type} (blocks : List α) (names : List String) :
    defaultOutput blocks names = (names.zip blocks).filter fun e => e.1 ≠ "" := by
  unfold defaultOutput
  induction blocks generalizing names with
  | nil => simp
  | cons x blocks ih =>
    rw [List.length_cons, List.range_succ_eq_map, List.filterMap_cons, List.filterMap_map]
    cases names with
    | nil =>
      have h : ∀ b, fieldOf (x :: blocks) [] b = none := by
        intro b
        unfold fieldOf
        cases (x :: blocks)[b]? <;> rfl
      rw [h, List.zip_nil_left, List.filter_nil]
      dsimp only
      rw [List.filterMap_eq_nil_iff]
      intro b _
      exact h _
    | cons s names =>
      have hf : (fieldOf (x :: blocks) (s :: names)) ∘ Nat.succ = fieldOf blocks names := by
        funext b
        simp [fieldOf]
      rw [hf, ih names, fieldOf]
      by_cases h : s = "" <;> simp [h]

/-- Specification: a longest sequence of equal names. -/
def IsRun (names : List String) (i k : Nat) (s : String) : Prop :=
  0 < k ∧ (∀ j, i ≤ j → j < i + k → names[j]? = some s) ∧ names[i + k]? ≠ some s ∧ (i = 0 ∨ names[i - 1]? ≠ some s)

/-- Specification: fields with `k` components are vectors or tensors. -/
def IsKind (dim k : Nat) : Kind → Prop
  | .vector => k = dim
  | .tensor => k ≠ dim ∧ k = dim * dim

private theorem runLength_spec (s : String) : ∀ (l : List String),
    (∀ j, j < runLength s l → l[j]? = some s) ∧ l[runLength s l]? ≠ some s
  | [] => by simp [runLength]
  | t :: l => by
    obtain ⟨h1, h2⟩ := runLength_spec s l
    unfold runLength
    by_cases h : t = s
    · rw [if_pos h]
      refine ⟨fun j hj => ?_, by simpa using h2⟩
      cases j with
      | zero => simp [h]
      | succ j => simpa using h1 j (by omega)
    · rw [if_neg h]
      exact ⟨fun j hj => absurd hj (by omega), by simpa using h⟩

private theorem run_unique {names : List String} {i k k' : Nat} {s s' : String} (h : IsRun names i k s) (h' : IsRun names i k' s') :
    k = k' ∧ s = s' := by
  have e : s = s' := by
    have a := h.2.1 i (le_refl _) (by have := h.1; omega)
    have b := h'.2.1 i (le_refl _) (by have := h'.1; omega)
    rw [a] at b; exact Option.some.inj b
  subst e
  refine ⟨?_, rfl⟩
  rcases Nat.lt_trichotomy k k' with hk | hk | hk
  · exact absurd (h'.2.1 (i + k) (by omega) (by omega)) h.2.2.1
  · exact hk
  · exact absurd (h.2.1 (i + k') (by omega) (by omega)) h'.2.2.1

private theorem ranges_spec (dim : Nat) (names : List String) : ∀ (fuel i : Nat) (l : List String), l = names.drop i → l.length ≤ fuel →
    (∀ s, names[i]? = some s → i = 0 ∨ names[i - 1]? ≠ some s) → ∀ (a b : Nat) (s : String) (kind : Kind),
    ((a, b, s, kind) ∈ ranges dim fuel i l ↔ ∃ k, i ≤ a ∧ IsRun names a k s ∧ b = a + k - 1 ∧ IsKind dim k kind) := by
  have nothing : ∀ (i : Nat), names.drop i = [] → ∀ (a b : Nat) (s : String) (kind : Kind),
      ¬ ∃ k, i ≤ a ∧ IsRun names a k s ∧ b = a + k - 1 ∧ IsKind dim k kind := by
    rintro i hi a b s kind ⟨k, h1, h2, -, -⟩
    have h := h2.2.1 a (le_refl _) (by have := h2.1; omega)
    have : names.length ≤ i := by simpa using hi
    rw [List.getElem?_eq_none (by omega)] at h
    cases h
  intro fuel
  induction fuel with
  | zero =>
    intro i l hl hlen _ a b s kind
    have : l = [] := List.length_eq_zero_iff.1 (by omega)
    subst this
    rw [ranges]
    simp only [List.not_mem_nil, false_iff]
    exact nothing i hl.symm a b s kind
  | succ fuel ih =>
    intro i l hl hlen hb a b s kind
    cases l with
    | nil =>
      rw [ranges]
      simp only [List.not_mem_nil, false_iff]
      exact nothing i hl.symm a b s kind
    | cons t l =>
      rw [ranges]
      obtain ⟨r1, r2⟩ := runLength_spec t l
      set n := runLength t l + 1 with hn
      have hget : ∀ j, names[i + j]? = (t :: l)[j]? := by
        intro j; rw [hl, List.getElem?_drop]
      have h0 : names[i]? = some t := by have := hget 0; simpa using this
      have hrun : IsRun names i n t := by
        refine ⟨by omega, ?_, ?_, hb t h0⟩
        · intro j h1 h2
          obtain ⟨d, rfl⟩ := Nat.exists_eq_add_of_le h1
          rw [hget]
          cases d with
          | zero => rfl
          | succ d => rw [List.getElem?_cons_succ]; exact r1 d (by omega)
        · rw [hget, hn, List.getElem?_cons_succ]; exact r2
      have hdrop : l.drop (n - 1) = names.drop (i + n) := by
        have : l.drop (n - 1) = (t :: l).drop n := by rw [hn]; simp
        rw [this, hl, List.drop_drop]
      have hb' : ∀ s, names[i + n]? = some s → i + n = 0 ∨ names[i + n - 1]? ≠ some s := by
        intro s' hs'
        right
        intro h
        have : names[i + n - 1]? = some t := hrun.2.1 (i + n - 1) (by omega) (by omega)
        rw [this] at h
        exact hrun.2.2.1 (hs'.trans h.symm)
      have hrec := ih (i + n) (l.drop (n - 1)) hdrop (by simp at hlen ⊢; omega) hb' a b s kind
      rw [List.mem_append, hrec]
      constructor
      · rintro (h | ⟨k, h1, h2⟩)
        · refine ⟨n, ?_⟩
          by_cases hd : n = dim
          · rw [if_pos hd, List.mem_singleton] at h
            injection h with ha h; injection h with hb1 h; injection h with hs hk
            subst ha hs hk
            exact ⟨le_refl _, hrun, hb1, hd⟩
          · rw [if_neg hd] at h
            by_cases hd2 : n = dim * dim
            · rw [if_pos hd2, List.mem_singleton] at h
              injection h with ha h; injection h with hb1 h; injection h with hs hk
              subst ha hs hk
              exact ⟨le_refl _, hrun, hb1, hd, hd2⟩
            · rw [if_neg hd2] at h; simp at h
        · exact ⟨k, by omega, h2⟩
      · rintro ⟨k, h1, h2, h3, h4⟩
        by_cases hai : a = i
        · subst hai
          left
          obtain ⟨rfl, rfl⟩ := run_unique h2 hrun
          cases kind with
          | vector => rw [if_pos (show n = dim from h4)]; simp [h3]
          | tensor => rw [if_neg h4.1, if_pos h4.2]; simp [h3]
        · right
          refine ⟨k, ?_, h2, h3, h4⟩
          by_contra hlt
          have e1 := hrun.2.1 a (by omega) (by omega)
          have e2 := h2.2.1 a (le_refl _) (by have := h2.1; omega)
          rw [e1] at e2
          have e2 := Option.some.inj e2
          rcases h2.2.2.2 with h | h
          · omega
          · exact h (e2 ▸ hrun.2.1 (a - 1) (by omega) (by omega))

/-- C104: the fields that are written as vectors and tensors are exactly the longest sequences of equal names with the number of components of
a vector or of a tensor. -/
theorem C104_ranges (dim : Nat) (names : List String) (a b : Nat) (s : String) (kind : Kind) :
    (a, b, s, kind) ∈ nonscalarRanges dim names ↔ ∃ k, IsRun names a k s ∧ b = a + k - 1 ∧ IsKind dim k kind := by
  have := ranges_spec dim names names.length 0 names (by simp) (le_refl _) (fun _ _ => Or.inl rfl) a b s kind
  rw [nonscalarRanges, this]
  constructor
  · rintro ⟨k, -, h⟩; exact ⟨k, h⟩
  · rintro ⟨k, h⟩; exact ⟨k, Nat.zero_le _, h⟩

/-- C104 is violated for sections: the blocks are written beyond the end of an empty vector, for every solution that is not empty; the wrapper of
an empty one has no blocks. -/
theorem C104_sections_violated {α : Type} (l : List α) : wrapBlocks l = if l = [] then .ok ⟨0, []⟩ else .ub := by
  cases l with
  | nil => rfl
  | cons x l => rfl

namespace Ex104

def names : List String := ["c", "mu", "u", "u", "s", "s", "s", "s", "eta", "eta", "eta"]

example : nonscalarRanges 2 names = [(2, 3, "u", .vector), (4, 7, "s", .tensor)] := by decide
example : IsRun names 4 4 "s" := by
  obtain ⟨k, h1, -, -, h3⟩ := (C104_ranges 2 names 4 7 "s" .tensor).1 (by decide)
  subst h3
  exact h1
example : defaultOutput [10, 20, 30] ["c", "", "eta0", "eta1"] = [("c", 10), ("eta0", 30)] := by decide
example : wrapBlocks [1, 2, 3] = .ub := by decide

end Ex104

/-! ## C105 -/

section

variable {K : Type} [LinearOrder K]

/-- Specification: a strict weak order of the elements of a list, as `std::sort` demands. -/
def StrictWeakOn (lt : Nat → Nat → Bool) (l : List Nat) : Prop :=
  (∀ a ∈ l, lt a a = false) ∧ (∀ a ∈ l, ∀ b ∈ l, ∀ c ∈ l, lt a b = true → lt b c = true → lt a c = true) ∧
  ∀ a ∈ l, ∀ b ∈ l, ∀ c ∈ l, lt a b = false → lt b a = false → lt b c = false → lt c b = false → lt a c = false ∧ lt c a = false

/-- Specification: what the standard says about `std::sort`. -/
def Sorts (sort : (Nat → Nat → Bool) → List Nat → List Nat) : Prop :=
  ∀ (lt : Nat → Nat → Bool) (l : List Nat), StrictWeakOn lt l → (sort lt l).Perm l ∧ (sort lt l).Pairwise fun a b => lt b a = false

/-- Specification: grains in a map by their numbers; all have segments and no two segments have the same centre. -/
structure ValidGrains (dim : Nat) (m : OMap (PGrain K)) : Prop where
  sorted : OMap.Sorted m
  ids : ∀ e ∈ m, e.2.id = e.1
  segments : ∀ e ∈ m, e.2.segments ≠ []
  dims : ∀ e ∈ m, ∀ s ∈ e.2.segments, s.center.length = dim
  centers : (m.flatMap fun e => e.2.segments.map PSeg.center).Nodup

/-- Specification: grains that differ in their numbers and the order of segments only. -/
def SameGrain (g g' : PGrain K) : Prop := g.op = g'.op ∧ g.old = g'.old ∧ g.segments.Perm g'.segments

/-- Specification: maps that differ in the numbers of grains and the order of segments only. -/
def SameGrains (m m' : OMap (PGrain K)) : Prop :=
  ∃ l, List.Forall₂ SameGrain (m.map Prod.snd) l ∧ l.Perm (m'.map Prod.snd)

/-- Specification: a grain as it is printed, segments ordered by their centres. -/
def Describes (g : PGrain K) (p : Printed K) : Prop :=
  p.op = g.op ∧ p.old = g.old ∧ p.n = g.segments.length ∧ p.segments.Perm g.segments ∧
  p.segments.Pairwise fun s t => before s.center t.center = true

/-- Specification: all grains, ordered by the least centre. -/
def Listing (m : OMap (PGrain K)) (out : List (Printed K)) : Prop :=
  (∃ l, l.Perm (m.map Prod.snd) ∧ List.Forall₂ Describes l out) ∧
  out.Pairwise fun p q => ∃ s t, p.segments.head? = some s ∧ q.segments.head? = some t ∧ before s.center t.center = true

private theorem before_irrefl : ∀ (a : List K), before a a = false
  | [] => rfl
  | a :: as => by unfold before; simp [before_irrefl as]

private theorem before_trans : ∀ (a b c : List K), before a b = true → before b c = true → before a c = true
  | [], b, c => by simp [before]
  | a :: as, [], c => by simp [before]
  | a :: as, b :: bs, [] => by simp [before]
  | a :: as, b :: bs, c :: cs => by
    unfold before
    have ih := before_trans as bs cs
    by_cases h1 : a = b
    · subst h1
      by_cases h2 : a = c
      · subst h2; simpa using ih
      · simp [h2]
    · by_cases h2 : b = c
      · subst h2; simp only [ne_eq, h1, not_false_eq_true, if_true, not_true_eq_false, if_false]; exact fun x _ => x
      · simp only [ne_eq, h1, not_false_eq_true, if_true, decide_eq_true_eq, h2]
        intro x y
        have := lt_trans x y
        rw [if_pos (ne_of_lt this)]
        exact decide_eq_true this

private theorem before_asymm (a b : List K) (h : before a b = true) (h' : before b a = true) : False := by
  have := before_trans a b a h h'
  rw [before_irrefl] at this
  cases this

private theorem before_total : ∀ (a b : List K), a.length = b.length → before a b = false → before b a = false → a = b
  | [], [], _, _, _ => rfl
  | [], b :: bs, h, _, _ => by simp at h
  | a :: as, [], h, _, _ => by simp at h
  | a :: as, b :: bs, h, h1, h2 => by
    unfold before at h1 h2
    by_cases hab : a = b
    · subst hab
      simp only [ne_eq, not_true_eq_false, if_false] at h1 h2
      rw [before_total as bs (by simpa using h) h1 h2]
    · rw [if_pos hab, decide_eq_false_iff_not] at h1
      rw [if_pos (Ne.symm hab), decide_eq_false_iff_not] at h2
      exact absurd (le_antisymm (not_lt.1 h2) (not_lt.1 h1)) hab

/-- Comparison by centres of the same dimension. -/
private theorem strictWeak {lt : Nat → Nat → Bool} {l : List Nat} {dim : Nat} (f : Nat → List K) (hlen : ∀ a ∈ l, (f a).length = dim)
    (h : ∀ a ∈ l, ∀ b ∈ l, lt a b = before (f a) (f b)) : StrictWeakOn lt l := by
  refine ⟨fun a ha => (h a ha a ha).trans (before_irrefl _), ?_, ?_⟩
  · intro a ha b hb c hc
    rw [h a ha b hb, h b hb c hc, h a ha c hc]
    exact before_trans _ _ _
  · intro a ha b hb c hc
    rw [h a ha b hb, h b hb c hc, h a ha c hc, h b hb a ha, h c hc b hb, h c hc a ha]
    intro h1 h2 h3 h4
    rw [before_total _ _ ((hlen a ha).trans (hlen b hb).symm) h1 h2]
    exact ⟨h3, h4⟩

private theorem mapM_filterMap {α β γ : Type} {f : α → Res β} {get : α → Option γ} {pr : γ → β} : ∀ (l : List α),
    (∀ a ∈ l, ∃ g, get a = some g ∧ f a = .ok (pr g)) → l.mapM f = .ok ((l.filterMap get).map pr)
  | [], _ => rfl
  | a :: l, h => by
    obtain ⟨g, h1, h2⟩ := h a (by simp)
    rw [List.mapM_cons, h2, mapM_filterMap l (fun b hb => h b (by simp [hb])), List.filterMap_cons, h1]
    rfl

private theorem range_filterMap {α : Type} (xs : List α) : (List.range xs.length).filterMap (xs[·]?) = xs := by
  induction xs with
  | nil => rfl
  | cons x xs ih =>
    rw [List.length_cons, List.range_succ_eq_map, List.filterMap_cons, List.filterMap_map]
    simpa using ih

private theorem keys_filterMap {α : Type} : ∀ {m : OMap α}, OMap.Sorted m → (OMap.keys m).filterMap m.get? = m.map Prod.snd := by
  intro m hm
  have : ∀ (l : OMap α), (∀ e ∈ l, e ∈ m) → (OMap.keys l).filterMap m.get? = l.map Prod.snd := by
    intro l
    induction l with
    | nil => intro _; rfl
    | cons e l ih =>
      intro h
      rw [OMap.keys, List.map_cons, List.filterMap_cons, OMap.get?_of_mem hm (v := e.2) (h e (by simp))]
      dsimp only
      rw [List.map_cons]
      exact congrArg _ (ih fun e' he' => h e' (by simp [he']))
  exact this m fun _ h => h

private theorem get?_map {α β : Type} (F : α → β) (m : OMap α) (k : Nat) :
    OMap.get? (m.map fun e => (e.1, F e.2)) k = (OMap.get? m k).map F := by
  induction m with
  | nil => rfl
  | cons e m ih =>
    rw [List.map_cons, OMap.get?_cons]
    obtain ⟨k', v⟩ := e
    rw [OMap.get?_cons]
    by_cases h : k' = k
    · simp [h]
    · simp only [h, if_false]; exact ih

/-- The segments of a grain in the order in which they are printed. -/
private def canon (sort : (Nat → Nat → Bool) → List Nat → List Nat) (g : PGrain K) : List (PSeg K) :=
  (orderedSegments sort g).filterMap (g.segments[·]?)

private theorem ordered_spec {sort : (Nat → Nat → Bool) → List Nat → List Nat} (hs : Sorts sort) {dim : Nat} {g : PGrain K}
    (hdim : ∀ s ∈ g.segments, s.center.length = dim) (hnd : (g.segments.map PSeg.center).Nodup) :
    (orderedSegments sort g).Perm (List.range g.segments.length) ∧ (canon sort g).Perm g.segments ∧
    (canon sort g).Pairwise fun s t => before s.center t.center = true := by
  have hmem : ∀ a ∈ List.range g.segments.length, ∃ s, g.segments[a]? = some s := fun a ha =>
    ⟨_, List.getElem?_eq_getElem (List.mem_range.1 ha)⟩
  have hw : StrictWeakOn (segBefore g) (List.range g.segments.length) := by
    refine strictWeak (dim := dim) (fun a => (g.segments[a]?.map PSeg.center).getD []) ?_ ?_
    · intro a ha
      obtain ⟨s, h⟩ := hmem a ha
      simpa [h] using hdim s (List.mem_of_getElem? h)
    · intro a ha b hb
      obtain ⟨s, h⟩ := hmem a ha
      obtain ⟨t, h'⟩ := hmem b hb
      simp [segBefore, h, h']
  obtain ⟨h1, h2⟩ := hs _ _ hw
  have hp : (orderedSegments sort g).Perm (List.range g.segments.length) := h1
  refine ⟨hp, ?_, ?_⟩
  · have := hp.filterMap (g.segments[·]?)
    rwa [range_filterMap] at this
  · rw [canon, List.pairwise_filterMap]
    have hnd' : (orderedSegments sort g).Nodup := hp.nodup_iff.2 List.nodup_range
    refine (List.Pairwise.and h2 hnd').imp ?_
    rintro a b ⟨hab, hne⟩ s hsa t htb
    rw [segBefore, hsa, htb] at hab
    by_contra hcon
    have hcon : before s.center t.center = false := by simpa using hcon
    have e := before_total _ _ ((hdim s (List.mem_of_getElem? hsa)).trans (hdim t (List.mem_of_getElem? htb)).symm) hcon hab
    have ga : (g.segments.map PSeg.center)[a]? = some s.center := by rw [List.getElem?_map, hsa]; rfl
    have gb : (g.segments.map PSeg.center)[b]? = some s.center := by rw [List.getElem?_map, htb, e]; rfl
    obtain ⟨la, ea⟩ := List.getElem?_eq_some_iff.1 ga
    obtain ⟨lb, eb⟩ := List.getElem?_eq_some_iff.1 gb
    exact hne ((List.Nodup.getElem_inj_iff hnd).1 (ea.trans eb.symm))

/-- C105: with a sort that does what the standard says, all grains are printed, ordered by the least centre of their segments, each with
its segments ordered by their centres. -/
theorem C105_listing {sort : (Nat → Nat → Bool) → List Nat → List Nat} (hs : Sorts sort) {dim : Nat} {m : OMap (PGrain K)}
    (hm : ValidGrains dim m) : ∃ out, printInvariant sort m = .ok out ∧ Listing m out := by
  obtain ⟨hnd, hdisj⟩ := List.nodup_flatMap.1 hm.centers
  have hseg : ∀ e ∈ m, (orderedSegments sort e.2).Perm (List.range e.2.segments.length) ∧ (canon sort e.2).Perm e.2.segments ∧
      (canon sort e.2).Pairwise fun s t => before s.center t.center = true := fun e he =>
    ordered_spec hs (hm.dims e he) (hnd e he)
  have hhead : ∀ e ∈ m, ∃ i s, (orderedSegments sort e.2)[0]? = some i ∧ e.2.segments[i]? = some s ∧ (canon sort e.2).head? = some s ∧
      s ∈ e.2.segments := by
    intro e he
    obtain ⟨h1, -, -⟩ := hseg e he
    unfold canon
    cases ho : orderedSegments sort e.2 with
    | nil =>
      rw [ho] at h1
      have := h1.length_eq
      rw [List.length_range] at this
      exact absurd (List.length_eq_zero_iff.1 this.symm) (hm.segments e he)
    | cons i l =>
      have hi : i < e.2.segments.length := List.mem_range.1 (h1.mem_iff.1 (by simp [ho]))
      exact ⟨i, _, rfl, List.getElem?_eq_getElem hi, by simp [List.getElem?_eq_getElem hi], List.getElem_mem hi⟩
  set pr : PGrain K → Printed K := fun g => ⟨g.op, g.old, g.segments.length, canon sort g⟩ with hpr
  set cen : PGrain K → List K := fun g => ((canon sort g).head?.map PSeg.center).getD [] with hcen
  set ordered : OMap (List Nat) := m.map fun e => (e.1, orderedSegments sort e.2) with hord
  have hget : ∀ e ∈ m, OMap.get? m e.1 = some e.2 := fun e he => OMap.get?_of_mem hm.sorted he
  have hgeto : ∀ e ∈ m, OMap.get? ordered e.1 = some (orderedSegments sort e.2) := by
    intro e he
    rw [hord, get?_map (orderedSegments sort) m, hget e he]; rfl
  have hprint : ∀ e ∈ m, printGrain m ordered e.1 = .ok (pr e.2) := by
    intro e he
    rw [printGrain, hget e he, hgeto e he]
    dsimp only
    rw [mapM_filterMap (get := (e.2.segments[·]?)) (pr := id)]
    · rw [List.map_id]; rfl
    · intro k hk
      have hk : k < e.2.segments.length := List.mem_range.1 ((hseg e he).1.mem_iff.1 hk)
      exact ⟨_, List.getElem?_eq_getElem hk, Res.index_ok hk⟩
  have hfirst : m.mapM (firstOf ordered) = .ok (m.map fun e => (e.1, cen e.2)) := by
    refine Res.mapM_ok (f := firstOf ordered) (F := fun e => (e.1, cen e.2)) m ?_
    intro e he
    obtain ⟨i, s, h1, h2, h3, -⟩ := hhead e he
    rw [firstOf, firstCenter, hm.ids e he, hgeto e he]
    dsimp only
    rw [h1]
    dsimp only
    rw [h2]
    simp only [hcen, h3]
    rfl
  have hkey : ∀ i ∈ OMap.keys m, ∃ e ∈ m, e.1 = i := fun i hi => by
    obtain ⟨e, he, rfl⟩ := List.mem_map.1 hi; exact ⟨e, he, rfl⟩
  have hcenlen : ∀ e ∈ m, (cen e.2).length = dim := by
    intro e he
    obtain ⟨i, s, -, -, h3, h4⟩ := hhead e he
    simp only [hcen, h3]
    exact hm.dims e he s h4
  have hcenne : ∀ e ∈ m, ∀ e' ∈ m, e ≠ e' → cen e.2 ≠ cen e'.2 := by
    intro e he e' he' hne heq
    obtain ⟨i, s, -, -, h3, h4⟩ := hhead e he
    obtain ⟨i', s', -, -, h3', h4'⟩ := hhead e' he'
    simp only [hcen, h3, h3'] at heq
    have : Std.Symm (Function.onFun List.Disjoint fun e : Nat × PGrain K => e.2.segments.map PSeg.center) :=
      ⟨fun a b h x hb ha => h ha hb⟩
    have := List.Pairwise.forall hdisj he he' hne
    exact this (List.mem_map.2 ⟨s, h4, rfl⟩) (List.mem_map.2 ⟨s', h4', heq.symm⟩)
  -- the order of grains
  obtain ⟨ids, hids, hperm, hpw⟩ : ∃ ids : List Nat, printInvariant sort m = ids.mapM (printGrain m ordered) ∧ ids.Perm (OMap.keys m) ∧
      ids.Pairwise fun i j => ∀ g, OMap.get? m i = some g → ∀ g', OMap.get? m j = some g' → before (cen g) (cen g') = true := by
    by_cases hlen : m.length ≤ 1
    · have hnone := hs (grainBefore ([] : OMap (List K))) (OMap.keys m)
        (strictWeak (dim := 0) (fun _ => ([] : List K)) (fun _ _ => rfl) (fun _ _ _ _ => rfl))
      refine ⟨sort (grainBefore ([] : OMap (List K))) (OMap.keys m), ?_, ?_, ?_⟩
      · rw [printInvariant]
        simp only [if_pos hlen, Res.ok_bind]
        rfl
      · exact hnone.1
      · have h1 : (sort (grainBefore ([] : OMap (List K))) (OMap.keys m)).length ≤ 1 := by
          rw [hnone.1.length_eq]
          simpa [OMap.keys] using hlen
        match hl : sort (grainBefore ([] : OMap (List K))) (OMap.keys m), h1 with
        | [], _ => exact List.Pairwise.nil
        | [a], _ => exact List.pairwise_singleton _ _
    · set first : OMap (List K) := m.map fun e => (e.1, cen e.2) with hfi
      have hgf : ∀ e ∈ m, OMap.get? first e.1 = some (cen e.2) := by
        intro e he
        rw [hfi, get?_map cen m, hget e he]; rfl
      have hw : StrictWeakOn (grainBefore first) (OMap.keys m) := by
        refine strictWeak (dim := dim) (fun a => (OMap.get? first a).getD []) ?_ ?_
        · intro a ha
          obtain ⟨e, he, rfl⟩ := hkey a ha
          rw [hgf e he]; exact hcenlen e he
        · intro a ha b hb
          obtain ⟨e, he, rfl⟩ := hkey a ha
          obtain ⟨e', he', rfl⟩ := hkey b hb
          rw [grainBefore, hgf e he, hgf e' he']; rfl
      obtain ⟨s1, s2⟩ := hs _ _ hw
      refine ⟨sort (grainBefore first) (OMap.keys m), ?_, s1, ?_⟩
      · rw [printInvariant]
        simp only [if_neg hlen, hfirst, Res.ok_bind, ← hord]
      · have hnk : (sort (grainBefore first) (OMap.keys m)).Nodup := s1.nodup_iff.2 (OMap.keys_nodup hm.sorted)
        refine (List.Pairwise.and s2 hnk).imp ?_
        rintro a b ⟨hab, hne⟩ g hg g' hg'
        have hga := OMap.mem_of_get? hg
        have hgb := OMap.mem_of_get? hg'
        rw [grainBefore, hgf (b, g') hgb, hgf (a, g) hga] at hab
        by_contra hcon
        have hcon : before (cen g) (cen g') = false := by simpa using hcon
        have e := before_total _ _ ((hcenlen (a, g) hga).trans (hcenlen (b, g') hgb).symm) hcon hab
        exact hcenne (a, g) hga (b, g') hgb (fun h => hne (congrArg Prod.fst h)) e
  have hmapM : ids.mapM (printGrain m ordered) = .ok ((ids.filterMap m.get?).map pr) := by
    refine mapM_filterMap (get := m.get?) (pr := pr) ids ?_
    intro a ha
    obtain ⟨e, he, rfl⟩ := hkey a (hperm.mem_iff.1 ha)
    exact ⟨e.2, hget e he, hprint e he⟩
  have hvals : (ids.filterMap m.get?).Perm (m.map Prod.snd) := by
    have := hperm.filterMap m.get?
    rwa [keys_filterMap hm.sorted] at this
  refine ⟨_, hids.trans hmapM, ⟨_, hvals, ?_⟩, ?_⟩
  · rw [List.forall₂_map_right_iff, List.forall₂_same]
    intro g hg
    obtain ⟨e, he, rfl⟩ := List.mem_map.1 (hvals.mem_iff.1 hg)
    exact ⟨rfl, rfl, rfl, (hseg e he).2⟩
  · rw [List.pairwise_map, List.pairwise_filterMap]
    refine hpw.imp ?_
    intro i j h g hg g' hg'
    obtain ⟨_, s, -, -, h3, -⟩ := hhead (i, g) (OMap.mem_of_get? hg)
    obtain ⟨_, t, -, -, h3', -⟩ := hhead (j, g') (OMap.mem_of_get? hg')
    have := h g hg g' hg'
    simp only [hcen] at this
    dsimp only at h3 h3'
    rw [h3, h3'] at this
    exact ⟨s, t, h3, h3', this⟩

/-- There is one such list, however grains are numbered and segments are ordered. -/
theorem C105_unique {m m' : OMap (PGrain K)} {out out' : List (Printed K)} (hsame : SameGrains m m') (h : Listing m out)
    (h' : Listing m' out') : out = out' := by
  obtain ⟨l0, hf0, hp0⟩ := hsame
  obtain ⟨⟨l, hp, hf⟩, hpw⟩ := h
  obtain ⟨⟨l', hp', hf'⟩, hpw'⟩ := h'
  obtain ⟨o1, f1, p1⟩ := List.perm_comp_forall₂ hp.symm hf
  obtain ⟨o2, f2, p2⟩ := List.perm_comp_forall₂ (hp0.trans hp'.symm) hf'
  have key : ∀ {g g' : PGrain K} {p p' : Printed K}, Describes g p → SameGrain g g' → Describes g' p' → p = p' := by
    rintro g g' ⟨o, ol, n, sg⟩ ⟨o', ol', n', sg'⟩ ⟨a1, a2, a3, a4, a5⟩ ⟨b1, b2, b3⟩ ⟨c1, c2, c3, c4, c5⟩
    dsimp only at *
    have : sg = sg' := by
      refine List.Perm.eq_of_pairwise ?_ a5 c5 (a4.trans (b3.trans c4.symm))
      intro s t _ _ h1 h2
      exact (before_asymm _ _ h1 h2).elim
    rw [a1, a2, a3, c1, c2, c3, b1, b2, b3.length_eq, this]
  have heq : ∀ {l l0 : List (PGrain K)} {o1 o2 : List (Printed K)}, List.Forall₂ SameGrain l l0 → List.Forall₂ Describes l o1 →
      List.Forall₂ Describes l0 o2 → o1 = o2 := by
    intro l l0 o1 o2 h
    induction h generalizing o1 o2 with
    | nil => intro h1 h2; cases h1; cases h2; rfl
    | cons hab _ ih =>
      intro h1 h2
      cases h1 with
      | cons d1 r1 =>
        cases h2 with
        | cons d2 r2 => rw [key d1 hab d2, ih r1 r2]
  have hperm : out.Perm out' := p1.symm.trans ((heq hf0 f1 f2) ▸ p2)
  refine List.Perm.eq_of_pairwise ?_ hpw hpw' hperm
  rintro p q - - ⟨s, t, h1, h2, h3⟩ ⟨t', s', h2', h1', h3'⟩
  rw [h1] at h1'
  rw [h2] at h2'
  injection h1' with e1
  injection h2' with e2
  subst e1 e2
  exact (before_asymm _ _ h3 h3').elim

/-- C105: the list of grains that is printed does not depend on their numbers, the order of their segments and how ties are resolved in
the sort, if no two segments have the same centre. -/
theorem C105_partial {sort sort' : (Nat → Nat → Bool) → List Nat → List Nat} (hs : Sorts sort) (hs' : Sorts sort') {dim : Nat}
    {m m' : OMap (PGrain K)} (hm : ValidGrains dim m) (hm' : ValidGrains dim m') (hsame : SameGrains m m') :
    ∃ out, printInvariant sort m = .ok out ∧ printInvariant sort' m' = .ok out := by
  obtain ⟨out, h1, h2⟩ := C105_listing hs hm
  obtain ⟨out', h1', h2'⟩ := C105_listing hs' hm'
  obtain rfl := C105_unique hsame h2 h2'
  exact ⟨out, h1, h1'⟩

end

/-- An insertion sort, for which the above is shown. -/
def insertBy (lt : Nat → Nat → Bool) (a : Nat) : List Nat → List Nat
  | [] => [a]
  | b :: l => if lt a b then a :: b :: l else b :: insertBy lt a l

/-- An insertion sort, for which the above is shown. -/
def sortBy (lt : Nat → Nat → Bool) : List Nat → List Nat
  | [] => []
  | a :: l => insertBy lt a (sortBy lt l)

private theorem insertBy_perm (lt : Nat → Nat → Bool) (a : Nat) : ∀ l, (insertBy lt a l).Perm (a :: l)
  | [] => List.Perm.refl _
  | b :: l => by
    unfold insertBy
    split
    · exact List.Perm.refl _
    · exact ((insertBy_perm lt a l).cons b).trans (List.Perm.swap a b l)

private theorem sortBy_perm (lt : Nat → Nat → Bool) : ∀ l, (sortBy lt l).Perm l
  | [] => List.Perm.refl _
  | a :: l => (insertBy_perm lt a _).trans ((sortBy_perm lt l).cons a)

/-- There are sorts of this kind. -/
theorem sortBy_sorts : Sorts sortBy := by
  intro lt l h
  refine ⟨sortBy_perm lt l, ?_⟩
  have ins : ∀ (a : Nat) (k : List Nat), a ∈ l → (∀ b ∈ k, b ∈ l) → k.Pairwise (fun a b => lt b a = false) →
      (insertBy lt a k).Pairwise fun a b => lt b a = false := by
    intro a k ha
    induction k with
    | nil => intro _ _; exact List.pairwise_singleton _ _
    | cons b k ih =>
      intro hk hp
      rw [List.pairwise_cons] at hp
      have hb := hk b (by simp)
      unfold insertBy
      by_cases hab : lt a b = true
      · rw [if_pos hab, List.pairwise_cons, List.pairwise_cons]
        refine ⟨?_, hp⟩
        intro c hc
        by_contra hcon
        have hcon : lt c a = true := by simpa using hcon
        have hcl := hk c hc
        have := h.2.1 c hcl a ha b hb hcon hab
        rcases List.mem_cons.1 hc with rfl | hc
        · rw [h.1 c hcl] at this; cases this
        · rw [hp.1 c hc] at this; cases this
      · rw [if_neg hab, List.pairwise_cons]
        refine ⟨?_, ih (fun c hc => hk c (by simp [hc])) hp.2⟩
        intro c hc
        rcases List.mem_cons.1 ((insertBy_perm lt a k).mem_iff.1 hc) with rfl | hc
        · simpa using hab
        · exact hp.1 c hc
  have main : ∀ (k : List Nat), (∀ b ∈ k, b ∈ l) → (sortBy lt k).Pairwise fun a b => lt b a = false := by
    intro k
    induction k with
    | nil => intro _; exact List.Pairwise.nil
    | cons a k ih =>
      intro hk
      refine ins a _ (hk a (by simp)) (fun b hb => hk b ?_) (ih fun b hb => hk b (by simp [hb]))
      exact List.mem_cons_of_mem _ ((sortBy_perm lt k).mem_iff.1 hb)
  exact main l fun _ h => h

/-- C105 is violated if two segments have the same centre: the same grains are printed in the order of their numbers. -/
theorem C105_ties_violated : ∃ (sort : (Nat → Nat → Bool) → List Nat → List Nat) (m m' : OMap (PGrain ℚ)), Sorts sort ∧
    OMap.Sorted m ∧ OMap.Sorted m' ∧ (∀ e ∈ m, e.2.id = e.1) ∧ (∀ e ∈ m', e.2.id = e.1) ∧ SameGrains m m' ∧
    printInvariant sort m ≠ printInvariant sort m' := by
  let a : Nat → PGrain ℚ := fun i => ⟨i, 0, 0, [⟨[1, 2], "a"⟩]⟩
  let b : Nat → PGrain ℚ := fun i => ⟨i, 1, 1, [⟨[1, 2], "b"⟩]⟩
  refine ⟨sortBy, [(0, a 0), (1, b 1)], [(0, b 0), (1, a 1)], sortBy_sorts, by simp [OMap.Sorted], by simp [OMap.Sorted],
    by simp [a, b], by simp [a, b], ⟨[a 1, b 0], ?_, ?_⟩, by decide +kernel⟩
  · exact .cons ⟨rfl, rfl, List.Perm.refl _⟩ (.cons ⟨rfl, rfl, List.Perm.refl _⟩ .nil)
  · exact List.Perm.swap _ _ _

/-- C105 is violated if one of two grains has no segments: the first one of an empty list is used. -/
theorem C105_empty_violated : printInvariant sortBy [(0, (⟨0, 0, 0, []⟩ : PGrain ℚ)), (1, ⟨1, 1, 1, [⟨[1, 2], "b"⟩]⟩)] = .ub := by
  decide +kernel

namespace Ex105

def a (i : Nat) : PGrain ℚ := ⟨i, 0, 0, [⟨[3, 2], "a1"⟩, ⟨[1, 5], "a2"⟩]⟩
def a' (i : Nat) : PGrain ℚ := ⟨i, 0, 0, [⟨[1, 5], "a2"⟩, ⟨[3, 2], "a1"⟩]⟩
def b (i : Nat) : PGrain ℚ := ⟨i, 1, 0, [⟨[1, 2], "b"⟩]⟩

theorem valid : ValidGrains 2 [(0, a 0), (7, b 7)] := by
  refine ⟨by simp [OMap.Sorted], by simp [a, b], by simp [a, b], by simp [a, b], ?_⟩
  simp [a, b]

theorem valid' : ValidGrains 2 [(3, b 3), (4, a' 4)] := by
  refine ⟨by simp [OMap.Sorted], by simp [a', b], by simp [a', b], by simp [a', b], ?_⟩
  simp [a', b]

example : ∃ out, printInvariant sortBy [(0, a 0), (7, b 7)] = .ok out ∧ printInvariant sortBy [(3, b 3), (4, a' 4)] = .ok out :=
  C105_partial sortBy_sorts sortBy_sorts valid valid'
    ⟨[a' 4, b 3], .cons ⟨rfl, rfl, List.Perm.swap _ _ _⟩ (.cons ⟨rfl, rfl, List.Perm.refl _⟩ .nil), List.Perm.swap _ _ _⟩

example : printInvariant sortBy [(0, a 0), (7, b 7)] =
    .ok [⟨1, 0, 1, [⟨[1, 2], "b"⟩]⟩, ⟨0, 0, 2, [⟨[1, 5], "a2"⟩, ⟨[3, 2], "a1"⟩]⟩] := by decide +kernel

end Ex105

end Verif.Props
