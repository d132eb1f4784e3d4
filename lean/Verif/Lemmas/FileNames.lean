/-
Lemmas for the names of files.
-/
import Verif.Spec.FileNames
import Mathlib.Data.List.Basic

namespace Verif.FileNames

open Verif.BoxFilter Verif.FileNames.Spec

set_option linter.unusedSectionVars false
set_option linter.unusedSimpArgs false

/-- at the last separator -/
theorem last_sep {α : Type} (x : α) : ∀ (d d' a a' : List α), x ∉ d → x ∉ d' → a ++ x :: d = a' ++ x :: d' → a = a' ∧ d = d' := by
  intro d d' a
  induction a with
  | nil =>
    intro a' h1 h2 h
    cases a' with
    | nil => simpa using h
    | cons y a' =>
      simp only [List.nil_append, List.cons_append, List.cons.injEq] at h
      exact absurd (h.2 ▸ (by simp : x ∈ a' ++ x :: d')) h1
  | cons y a ih =>
    intro a' h1 h2 h
    cases a' with
    | nil =>
      simp only [List.nil_append, List.cons_append, List.cons.injEq] at h
      exact absurd (h.2 ▸ (by simp : x ∈ a ++ x :: d)) h2
    | cons z a' =>
      simp only [List.cons_append, List.cons.injEq] at h
      obtain ⟨e1, e2⟩ := ih a' h1 h2 h.2
      exact ⟨by rw [h.1, e1], e2⟩

/-- at the first separator -/
theorem first_sep {α : Type} (x : α) : ∀ (a a' d d' : List α), x ∉ a → x ∉ a' → a ++ x :: d = a' ++ x :: d' → a = a' ∧ d = d' := by
  intro a
  induction a with
  | nil =>
    intro a' d d' h1 h2 h
    cases a' with
    | nil => simpa using h
    | cons y a' =>
      simp only [List.nil_append, List.cons_append, List.cons.injEq] at h
      exact absurd (h.1 ▸ (by simp : y ∈ y :: a')) h2
  | cons y a ih =>
    intro a' d d' h1 h2 h
    cases a' with
    | nil =>
      simp only [List.nil_append, List.cons_append, List.cons.injEq] at h
      exact absurd (h.1 ▸ (by simp : y ∈ y :: a)) h1
    | cons z a' =>
      simp only [List.cons_append, List.cons.injEq] at h
      obtain ⟨e1, e2⟩ := ih a' d d' (fun q => h1 (List.mem_cons_of_mem _ q)) (fun q => h2 (List.mem_cons_of_mem _ q)) h.2
      exact ⟨by rw [h.1, e1], e2⟩

/-- beginnings of the names without section -/
def heads : List (List Char) :=
  [[], txt "shrinkage_", txt "mesh_quality_", txt "grains_stats_", txt "contour_", txt "surface_", txt "gb_", txt "porosity_",
    txt "porosity_stats_", txt "porosity_contours_", txt "grains_as_spheres_", txt "particle_ids_"]

def labels : List Label := [.solution, .refinement, .track, .remap, .inconsistency]

theorem mem_labels (l : Label) : l ∈ labels := by cases l <;> decide

/-- beginnings with labels -/
def fulls : List (Nat × Label × List Char) :=
  (List.range 12).flatMap fun i => labels.map fun l => (i, l, heads.getD i [] ++ l.text)

/-- `b` continues `a` like a name continues with the number of a box -/
def looksBox (a b : List Char) : Bool :=
  match b.drop a.length with
  | '_' :: [] => true
  | '_' :: c :: _ => c.isDigit
  | _ => false

theorem table_ok : ∀ x ∈ fulls, ∀ y ∈ fulls, x.2.2.isPrefixOf y.2.2 = true → x = y ∨ (x.2.2 ≠ y.2.2 ∧ looksBox x.2.2 y.2.2 = false) := by decide +kernel

theorem table_section : ∀ x ∈ fulls, (txt "section_").isPrefixOf x.2.2 = false ∧ x.2.2.isPrefixOf (txt "section_") = false ∧
    (txt "contour_section_").isPrefixOf x.2.2 = false ∧ x.2.2.isPrefixOf (txt "contour_section_") = false := by decide +kernel

theorem mem_fulls {i : Nat} (hi : i < 12) (l : Label) : (i, l, heads.getD i [] ++ l.text) ∈ fulls :=
  List.mem_flatMap.2 ⟨i, List.mem_range.2 hi, List.mem_map.2 ⟨l, mem_labels l, rfl⟩⟩

/-- the end of the name of a file of a box -/
def tail (nat : Nat → List Char) : Option Nat → List Char
  | none => []
  | some n => '_' :: nat n

/-- names without section: beginning, label and number determine each other -/
theorem plain_unique {s : Show} {n : Nat} (hs : Prints s n) {i j : Nat} (hi : i < 12) (hj : j < 12) {l m : Label} {t u : Option Nat}
    (h : heads.getD i [] ++ l.text ++ tail s.nat t = heads.getD j [] ++ m.text ++ tail s.nat u) : i = j ∧ l = m ∧ t = u := by
  have key : ∀ {i j : Nat} (hi : i < 12) (hj : j < 12) {l m : Label} {t u : Option Nat},
      heads.getD i [] ++ l.text ++ tail s.nat t = heads.getD j [] ++ m.text ++ tail s.nat u →
      (heads.getD i [] ++ l.text) <+: (heads.getD j [] ++ m.text) → i = j ∧ l = m ∧ t = u := by
    intro i j hi hj l m t u h hp
    have hok := table_ok _ (mem_fulls hi l) _ (mem_fulls hj m) (List.isPrefixOf_iff_prefix.2 hp)
    rcases hok with e | ⟨hne, hb⟩
    · simp only [Prod.mk.injEq] at e
      obtain ⟨e1, e2, e3⟩ := e
      refine ⟨e1, e2, ?_⟩
      rw [e3] at h
      have ht := List.append_cancel_left h
      cases t with
      | none => cases u with
        | none => rfl
        | some u => simp [tail] at ht
      | some t => cases u with
        | none => simp [tail] at ht
        | some u => simp only [tail, List.cons.injEq, true_and] at ht; rw [hs.inj ht]
    · exfalso
      obtain ⟨v, hv⟩ := hp
      simp only at hne hb
      have h' : heads.getD i [] ++ l.text ++ tail s.nat t = heads.getD i [] ++ l.text ++ (v ++ tail s.nat u) := by
        rw [h, ← hv, List.append_assoc]
      have ht := List.append_cancel_left h'
      have hvn : v ≠ [] := by
        rintro rfl
        exact hne (by simpa using hv)
      unfold looksBox at hb
      rw [← hv, List.drop_left] at hb
      cases t with
      | none =>
        simp only [tail] at ht
        exact hvn (List.append_eq_nil_iff.1 ht.symm).1
      | some t =>
        simp only [tail] at ht
        cases v with
        | nil => exact hvn rfl
        | cons c v =>
          simp only [List.cons_append, List.cons.injEq] at ht
          obtain ⟨rfl, ht⟩ := ht
          cases v with
          | nil => simp at hb
          | cons d v =>
            have hd := hs.digits t d (by rw [ht]; simp)
            simp [hd] at hb
  have hp := List.prefix_append (heads.getD i [] ++ l.text) (tail s.nat t)
  have hq := List.prefix_append (heads.getD j [] ++ m.text) (tail s.nat u)
  rw [h] at hp
  rcases List.prefix_or_prefix_of_prefix hp hq with hx | hx
  · exact key hi hj h hx
  · obtain ⟨a, b, c⟩ := key hj hi h.symm hx
    exact ⟨a.symm, b.symm, c.symm⟩

theorem plain_section {i : Nat} (hi : i < 12) (l : Label) (t u : List Char) :
    heads.getD i [] ++ l.text ++ t ≠ txt "section_" ++ u ∧ heads.getD i [] ++ l.text ++ t ≠ txt "contour_section_" ++ u := by
  obtain ⟨a, b, c, d⟩ := table_section _ (mem_fulls hi l)
  simp only at a b c d
  constructor
  · intro h
    have hp := List.prefix_append (heads.getD i [] ++ l.text) t
    rw [h] at hp
    rcases List.prefix_or_prefix_of_prefix hp (List.prefix_append (txt "section_") u) with hx | hx
    · rw [List.isPrefixOf_iff_prefix.2 hx] at b; cases b
    · rw [List.isPrefixOf_iff_prefix.2 hx] at a; cases a
  · intro h
    have hp := List.prefix_append (heads.getD i [] ++ l.text) t
    rw [h] at hp
    rcases List.prefix_or_prefix_of_prefix hp (List.prefix_append (txt "contour_section_") u) with hx | hx
    · rw [List.isPrefixOf_iff_prefix.2 hx] at d; cases d
    · rw [List.isPrefixOf_iff_prefix.2 hx] at c; cases c

/-- the number of a box as it is printed -/
def boxNumber (e : Env) (f : Flags) (b : Nat) : Option Nat :=
  if e.boxes = 0 then none else if f.only then some b else if b = 0 then none else some (b - 1)

theorem generate_eq (s : Show) (e : Env) (f : Flags) (name : List Char) (b : Nat) :
    generateName s.nat (e.boxes != 0) f.only name b = name ++ tail s.nat (boxNumber e f b) := by
  unfold generateName boxNumber
  by_cases h0 : e.boxes = 0
  · simp [h0, tail]
  · cases ho : f.only
    · by_cases hb : b = 0 <;> simp [h0, hb, tail]
    · simp [h0, tail]

theorem boxNumber_inj {e : Env} {f : Flags} {b b' : Nat} (hb : b < nFilters f e) (hb' : b' < nFilters f e)
    (h : boxNumber e f b = boxNumber e f b') : b = b' := by
  unfold nFilters at hb hb'
  unfold boxNumber at h
  by_cases h0 : e.boxes = 0
  · rw [if_pos (.inl h0), h0] at hb hb'
    omega
  · rw [if_neg h0, if_neg h0] at h
    cases ho : f.only
    · rw [ho] at h
      simp only [Bool.false_eq_true, if_false] at h
      by_cases h1 : b = 0 <;> by_cases h2 : b' = 0 <;> simp [h1, h2] at h <;> omega
    · rw [ho] at h
      simpa using h

/-- a name taken apart: which beginning, section and box -/
def form (e : Env) (f : Flags) : Kind → Nat ⊕ Nat × Nat × Option Nat
  | .regular | .table => .inr (0, 0, none)
  | .shrinkage => .inr (1, 0, none)
  | .quality => .inr (2, 0, none)
  | .grainsStats => .inr (3, 0, none)
  | .contour b => .inr (4, 0, boxNumber e f b)
  | .contourTex => .inr (4, 0, none)
  | .surface b => .inr (5, 0, boxNumber e f b)
  | .boundaries b => .inr (6, 0, boxNumber e f b)
  | .porosity b => .inr (7, 0, boxNumber e f b)
  | .porosityStats b => .inr (8, 0, boxNumber e f b)
  | .porosityContours b => .inr (9, 0, boxNumber e f b)
  | .spheres => .inr (10, 0, none)
  | .particleIds => .inr (11, 0, none)
  | .sectionVtu i => .inl (2 * i)
  | .contourSection i | .contourTexSection i => .inl (2 * i + 1)

/-- the text of a form -/
def formText (s : Show) (l : Label) : Nat ⊕ Nat × Nat × Option Nat → List Char
  | .inr (i, _, t) => heads.getD i [] ++ l.text ++ tail s.nat t
  | .inl n => (if n % 2 = 0 then txt "section_" else txt "contour_section_") ++ (s.sec (n / 2) ++ '_' :: l.text)

theorem formText_even (s : Show) (l : Label) (i : Nat) :
    formText s l (.inl (2 * i)) = txt "section_" ++ (s.sec i ++ '_' :: l.text) := by
  have a : 2 * i % 2 = 0 := by omega
  have b : 2 * i / 2 = i := by omega
  unfold formText
  generalize txt "section_" = x
  generalize txt "contour_section_" = y
  dsimp only
  rw [if_pos a, b]

theorem formText_odd (s : Show) (l : Label) (i : Nat) :
    formText s l (.inl (2 * i + 1)) = txt "contour_section_" ++ (s.sec i ++ '_' :: l.text) := by
  have a : ¬ (2 * i + 1) % 2 = 0 := by omega
  have b : (2 * i + 1) / 2 = i := by omega
  unfold formText
  generalize txt "section_" = x
  generalize txt "contour_section_" = y
  dsimp only
  rw [if_neg a, b]

theorem heads_0 : heads.getD 0 [] = [] := rfl
theorem heads_1 : heads.getD 1 [] = txt "shrinkage_" := rfl
theorem heads_2 : heads.getD 2 [] = txt "mesh_quality_" := rfl
theorem heads_3 : heads.getD 3 [] = txt "grains_stats_" := rfl
theorem heads_4 : heads.getD 4 [] = txt "contour_" := rfl
theorem heads_5 : heads.getD 5 [] = txt "surface_" := rfl
theorem heads_6 : heads.getD 6 [] = txt "gb_" := rfl
theorem heads_7 : heads.getD 7 [] = txt "porosity_" := rfl
theorem heads_8 : heads.getD 8 [] = txt "porosity_stats_" := rfl
theorem heads_9 : heads.getD 9 [] = txt "porosity_contours_" := rfl
theorem heads_10 : heads.getD 10 [] = txt "grains_as_spheres_" := rfl
theorem heads_11 : heads.getD 11 [] = txt "particle_ids_" := rfl

theorem stem_eq (s : Show) (f : Flags) (e : Env) (l : Label) (k : Kind) : stem s f e l k = formText s l (form e f k) := by
  cases k with
  | sectionVtu i => simp only [stem, form, formText_even, List.append_assoc]
  | contourSection i => simp only [stem, form, formText_odd, List.append_assoc]
  | contourTexSection i => simp only [stem, form, formText_odd, List.append_assoc]
  | contour b => simp only [stem, form, formText, generate_eq, heads_4, List.append_assoc]
  | surface b => simp only [stem, form, formText, generate_eq, heads_5, List.append_assoc]
  | boundaries b => simp only [stem, form, formText, generate_eq, heads_6, List.append_assoc]
  | porosity b => simp only [stem, form, formText, generate_eq, heads_7, List.append_assoc]
  | porosityStats b => simp only [stem, form, formText, generate_eq, heads_8, List.append_assoc]
  | porosityContours b => simp only [stem, form, formText, generate_eq, heads_9, List.append_assoc]
  | regular => simp only [stem, form, formText, tail, heads_0, List.append_nil, List.nil_append]
  | table => simp only [stem, form, formText, tail, heads_0, List.append_nil, List.nil_append]
  | shrinkage => simp only [stem, form, formText, tail, heads_1, List.append_nil]
  | quality => simp only [stem, form, formText, tail, heads_2, List.append_nil]
  | grainsStats => simp only [stem, form, formText, tail, heads_3, List.append_nil]
  | contourTex => simp only [stem, form, formText, tail, heads_4, List.append_nil]
  | spheres => simp only [stem, form, formText, tail, heads_10, List.append_nil]
  | particleIds => simp only [stem, form, formText, tail, heads_11, List.append_nil]

/-- forms that occur -/
def GoodForm (n : Nat) : Nat ⊕ Nat × Nat × Option Nat → Prop
  | .inr (i, z, _) => i < 12 ∧ z = 0
  | .inl m => m / 2 < n

theorem form_unique {s : Show} {n : Nat} (hs : Prints s n) {l m : Label} {x y : Nat ⊕ Nat × Nat × Option Nat} (hx : GoodForm n x) (hy : GoodForm n y)
    (h : formText s l x = formText s m y) : l = m ∧ x = y := by
  have hsec : txt "section_" = ['s', 'e', 'c', 't', 'i', 'o', 'n', '_'] := by decide +kernel
  have hcon : txt "contour_section_" = 'c' :: (txt "contour_section_").tail := by decide +kernel
  cases x with
  | inr x =>
    obtain ⟨i, z, t⟩ := x
    obtain ⟨hi, rfl⟩ := hx
    cases y with
    | inr y =>
      obtain ⟨j, z, u⟩ := y
      obtain ⟨hj, rfl⟩ := hy
      obtain ⟨a, b, c⟩ := plain_unique hs hi hj h
      exact ⟨b, by rw [a, c]⟩
    | inl y =>
      simp only [formText] at h
      split at h
      · exact absurd h (plain_section hi l _ _).1
      · exact absurd h (plain_section hi l _ _).2
  | inl x =>
    cases y with
    | inr y =>
      obtain ⟨j, z, u⟩ := y
      obtain ⟨hj, rfl⟩ := hy
      simp only [formText] at h
      split at h
      · exact absurd h.symm (plain_section hj m _ _).1
      · exact absurd h.symm (plain_section hj m _ _).2
    | inl y =>
      simp only [GoodForm] at hx hy
      have core : ∀ (p : List Char), p ++ (s.sec (x / 2) ++ '_' :: l.text) = p ++ (s.sec (y / 2) ++ '_' :: m.text) → l = m ∧ x / 2 = y / 2 := by
        intro p hp
        obtain ⟨e1, e2⟩ := first_sep '_' _ _ _ _ (hs.plain _ hx) (hs.plain _ hy) (List.append_cancel_left hp)
        exact ⟨by revert e2; cases l <;> cases m <;> decide +kernel, hs.sections _ hx _ hy e1⟩
      simp only [formText] at h
      by_cases h1 : x % 2 = 0
      · by_cases h2 : y % 2 = 0
        · rw [if_pos h1, if_pos h2] at h
          obtain ⟨a, b⟩ := core _ h
          exact ⟨a, congrArg _ (by omega)⟩
        · rw [if_pos h1, if_neg h2] at h
          rw [hsec, hcon] at h
          exact absurd (congrArg List.head? h) (by simp)
      · by_cases h2 : y % 2 = 0
        · rw [if_neg h1, if_pos h2] at h
          rw [hsec, hcon] at h
          exact absurd (congrArg List.head? h) (by simp)
        · rw [if_neg h1, if_neg h2] at h
          obtain ⟨a, b⟩ := core _ h
          exact ⟨a, congrArg _ (by omega)⟩

/-- kinds that occur: sections and boxes in range -/
def Ranged (f : Flags) (e : Env) : Kind → Prop
  | .sectionVtu i | .contourSection i | .contourTexSection i => i < f.nSections
  | .contour b | .surface b | .boundaries b | .porosity b | .porosityStats b | .porosityContours b => b < nFilters f e
  | _ => True

theorem sections_le (f : Flags) : sectionsOf f ≤ f.nSections := by unfold sectionsOf; split <;> omega

theorem mem_if {α : Type} {b : Bool} {l : List α} {x : α} (h : x ∈ if b = true then l else []) : x ∈ l := by
  cases b <;> simp at h; exact h

theorem ranged_box {f : Flags} {e : Env} {b : Nat} (hb : b < nFilters f e) {k : Kind} (h : k ∈ boxKinds f e b) : Ranged f e k := by
  have hle := sections_le f
  unfold boxKinds at h
  simp only [List.mem_append] at h
  rcases h with ((((h | h) | h) | h) | h) | h
  · have := mem_if h
    rcases List.mem_cons.1 this with rfl | this
    · exact hb
    · obtain ⟨i, hi, rfl⟩ := List.mem_map.1 this
      have := List.mem_range.1 hi
      simp only [Ranged]; omega
  all_goals
    have := mem_if h
    rw [List.mem_singleton] at this
    subst this
    exact hb

theorem ranged {f : Flags} {e : Env} {l : Label} {k : Kind} (h : k ∈ kinds f e l) : Ranged f e k := by
  have hle := sections_le f
  unfold kinds at h
  simp only [List.mem_append] at h
  have hs : ∀ (c : Nat → Kind) (k0 : Kind), (∀ i, Ranged f e (c i) ↔ i < f.nSections) → Ranged f e k0 → k ∈ k0 :: (List.range (sectionsOf f)).map c →
      Ranged f e k := by
    intro c k0 hc h0 hk
    rcases List.mem_cons.1 hk with rfl | hk
    · exact h0
    · obtain ⟨i, hi, rfl⟩ := List.mem_map.1 hk
      have := List.mem_range.1 hi
      rw [hc]; omega
  rcases h with (((((((h | h) | h) | h) | h) | h) | h) | h) | h
  · exact hs .sectionVtu .regular (fun _ => Iff.rfl) trivial (mem_if h)
  · rw [List.mem_singleton.1 (mem_if h)]; trivial
  · rw [List.mem_singleton.1 (mem_if h)]; trivial
  · rw [List.mem_singleton.1 (mem_if h)]; trivial
  · obtain ⟨b, hb, h⟩ := List.mem_flatMap.1 h
    exact ranged_box (List.mem_range.1 hb) h
  · exact hs .contourTexSection .contourTex (fun _ => Iff.rfl) trivial (mem_if h)
  · rw [List.mem_singleton.1 (mem_if h)]; trivial
  · rw [List.mem_singleton.1 (mem_if h)]; trivial
  · rw [List.mem_singleton.1 (mem_if h)]; trivial

theorem good_form {f : Flags} {e : Env} {k : Kind} (h : Ranged f e k) : GoodForm f.nSections (form e f k) := by
  cases k <;> first | exact ⟨by decide, rfl⟩ | (simp only [form, GoodForm, Ranged] at h ⊢; omega)

/-- forms and extensions determine the kind -/
theorem kind_unique {f : Flags} {e : Env} {k k' : Kind} (h : Ranged f e k) (h' : Ranged f e k') (hf : form e f k = form e f k') (he : ext k = ext k')
    (ht : k = .table ↔ k' = .table) : k = k' := by
  have e1 : (txt ".log" = txt ".vtu") = False := eq_false (by decide)
  have e2 : (txt ".log" = txt ".txt") = False := eq_false (by decide)
  have e3 : (txt ".txt" = txt ".vtu") = False := eq_false (by decide)
  have e4 : (txt ".vtu" = txt ".log") = False := eq_false (by decide)
  have e5 : (txt ".txt" = txt ".log") = False := eq_false (by decide)
  have e6 : (txt ".vtu" = txt ".txt") = False := eq_false (by decide)
  cases k <;> cases k' <;>
    simp only [form, ext, e1, e2, e3, e4, e5, e6, Sum.inl.injEq, Sum.inr.injEq, Prod.mk.injEq, reduceCtorEq, true_and, and_true, and_false, false_and,
      Kind.sectionVtu.injEq, Kind.contour.injEq, Kind.contourSection.injEq, Kind.surface.injEq, Kind.boundaries.injEq, Kind.porosity.injEq,
      Kind.porosityStats.injEq, Kind.porosityContours.injEq, Kind.contourTexSection.injEq, Ranged, iff_true] at h h' hf he ht ⊢ <;>
    first
    | exact boxNumber_inj h h' hf
    | omega

theorem ext_length (k : Kind) : (ext k).length = 4 := by cases k <;> rfl

theorem ext_dot (k : Kind) : ∃ r, ext k = '.' :: r ∧ '.' ∉ r := by cases k <;> exact ⟨_, rfl, by decide⟩

theorem digits_dot {s : Show} {n : Nat} (hs : Prints s n) (m : Nat) : '.' ∉ s.nat m := fun h => absurd (hs.digits m _ h) (by decide)

theorem text_dot (l : Label) : '.' ∉ l.text := by cases l <;> decide +kernel

/-- a name determines extension, stem and counter -/
theorem fileName_unique {s : Show} {n : Nat} (hs : Prints s n) {f f' : Flags} {e e' : Env} {l l' : Label} {m m' : Nat} {k k' : Kind}
    (h : fileName s f e l m k = fileName s f' e' l' m' k') :
    ext k = ext k' ∧ (k = .table ↔ k' = .table) ∧ stem s f e l k = stem s f' e' l' k' ∧ (k ≠ .table → m = m') := by
  unfold fileName at h
  by_cases hk : k = .table
  · rw [if_pos hk] at h
    by_cases hk' : k' = .table
    · rw [if_pos hk'] at h
      obtain ⟨a, b⟩ := List.append_inj' h (by rw [ext_length, ext_length])
      exact ⟨b, by simp [hk, hk'], a, fun q => absurd hk q⟩
    · rw [if_neg hk'] at h
      obtain ⟨a, b⟩ := List.append_inj' h (by rw [ext_length, ext_length])
      subst hk
      simp only [stem] at a
      exact absurd (a ▸ (by simp : '.' ∈ stem s f' e' l' k' ++ '.' :: s.nat m')) (text_dot l)
  · rw [if_neg hk] at h
    by_cases hk' : k' = .table
    · rw [if_pos hk'] at h
      obtain ⟨a, b⟩ := List.append_inj' h (by rw [ext_length, ext_length])
      subst hk'
      simp only [stem] at a
      exact absurd (a ▸ (by simp : '.' ∈ stem s f e l k ++ '.' :: s.nat m)) (text_dot l')
    · rw [if_neg hk'] at h
      obtain ⟨a, b⟩ := List.append_inj' h (by rw [ext_length, ext_length])
      obtain ⟨c, d⟩ := last_sep '.' _ _ _ _ (digits_dot hs m) (digits_dot hs m') a
      exact ⟨b, by simp [hk, hk'], c, fun _ => hs.inj d⟩

/-- counters before each output -/
def countersFrom (f : Flags) (c : Counters) : List (Label × Env) → Counters
  | [] => c
  | o :: os => countersFrom f (fun l' => if (f.debug || o.1 == .solution) && l' == o.1 then c l' + 1 else c l') os

theorem output_counters (s : Show) (f : Flags) (c : Counters) (l : Label) (e : Env) :
    (output s f c l e).2 = fun l' => if (f.debug || l == .solution) && l' == l then c l' + 1 else c l' := by
  funext l'
  unfold output
  by_cases hl : l = .solution
  · subst hl
    by_cases hx : l' = .solution <;> simp [hx]
  · cases hd : f.debug
    · simp [hl]
    · by_cases hx : l' = l
      · subst hx; simp
      · simp [hx]

theorem outputs_get (s : Show) (f : Flags) (os : List (Label × Env)) : ∀ (c : Counters) (i : Nat),
    (outputs s f c os)[i]? = os[i]?.map fun o => (output s f (countersFrom f c (os.take i)) o.1 o.2).1 := by
  induction os with
  | nil => intro c i; simp [outputs]
  | cons o os ih =>
    intro c i
    cases i with
    | zero => simp [outputs, countersFrom]
    | succ i =>
      simp only [outputs, List.getElem?_cons_succ, List.take_succ_cons, countersFrom]
      rw [ih, output_counters]

theorem countersFrom_eq (f : Flags) (os : List (Label × Env)) : ∀ (c : Counters) (l : Label), countersFrom f c os l = c l + before f l os := by
  induction os with
  | nil => intro c l; simp [countersFrom, before]
  | cons o os ih =>
    intro c l
    rw [countersFrom, ih]
    unfold before
    rw [List.countP_cons]
    by_cases hl : o.1 = l
    · subst hl
      by_cases hd : (f.debug || o.1 == .solution) = true
      · simp [hd]; omega
      · simp [hd]
    · have h1 : (l == o.1) = false := by simpa using fun h => hl h.symm
      have h2 : (o.1 == l) = false := by simpa using hl
      simp [h1, h2]

theorem outputs_append (s : Show) (f : Flags) (a b : List (Label × Env)) : ∀ c, outputs s f c (a ++ b) = outputs s f c a ++ outputs s f (counters s f c a) b := by
  induction a with
  | nil => intro c; rfl
  | cons o a ih => intro c; simp [outputs, counters, ih]

end Verif.FileNames
