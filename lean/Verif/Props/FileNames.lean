/-
C148: names of the files of an output.
-/
import Verif.Lemmas.FileNames
import Mathlib.Data.Nat.Digits.Defs

namespace Verif.Props

open Verif.FileNames Verif.FileNames.Spec

section
variable {s : Show} {f : Flags}

/-- In every run, whatever is written when and under which label: two different outputs have no file in common, except for the tables, which are
meant to be written again. -/
theorem C148_outputs_partial (hs : Prints s f.nSections) (os : List (Label × Env)) {i j : Nat} (hij : i < j) {xs ys : List (List Char)}
    (hi : (outputs s f (fun _ => 0) os)[i]? = some xs) (hj : (outputs s f (fun _ => 0) os)[j]? = some ys) {x : List Char} (hx : x ∈ xs) (hy : x ∈ ys) :
    IsTable x := by
  rw [outputs_get] at hi hj
  obtain ⟨⟨l, e⟩, ho, rfl⟩ := Option.map_eq_some_iff.1 hi
  obtain ⟨⟨l', e'⟩, ho', rfl⟩ := Option.map_eq_some_iff.1 hj
  simp only [output] at hx hy
  split at hx
  · simp at hx
  rename_i hd
  split at hy
  · simp at hy
  obtain ⟨k, hk, rfl⟩ := List.mem_map.1 hx
  obtain ⟨k', hk', he⟩ := List.mem_map.1 hy
  obtain ⟨h1, h2, h3, h4⟩ := fileName_unique hs he
  rw [stem_eq, stem_eq] at h3
  obtain ⟨rfl, h5⟩ := form_unique hs (good_form (ranged hk')) (good_form (ranged hk)) h3
  by_cases ht : k = .table
  · subst ht
    exact ⟨l', by simp [fileName, stem, ext, show txt ".log" = ['.', 'l', 'o', 'g'] by decide +kernel]⟩
  · exfalso
    have h6 := h4 (fun q => ht (h2.1 q))
    rw [countersFrom_eq, countersFrom_eq] at h6
    have hd' : (f.debug || l' == .solution) = true := by
      cases hf : f.debug
      · simp [hf] at hd; simp [hd]
      · simp
    unfold before at h6
    rw [hd', if_pos rfl, if_pos rfl] at h6
    have hsub : os.take j = os.take i ++ (l', e) :: (os.take j).drop (i + 1) := by
      have h7 : i < (os.take j).length := by
        have := (List.getElem?_eq_some_iff.1 ho).1
        have := (List.getElem?_eq_some_iff.1 ho').1
        rw [List.length_take]; omega
      have h8 : (os.take j)[i]? = some (l', e) := by rw [List.getElem?_take_of_lt hij, ho]
      conv_lhs => rw [← List.take_append_drop i (os.take j)]
      rw [List.take_take, Nat.min_eq_left (Nat.le_of_lt hij), List.drop_eq_getElem_cons h7]
      rw [(List.getElem?_eq_some_iff.1 h8).2]
    rw [hsub, List.countP_append, List.countP_cons] at h6
    simp at h6

/-- Within an output different kinds of files, sections and boxes have different names. -/
theorem C148_within (hs : Prints s f.nSections) {e : Env} {l : Label} {n : Nat} {k k' : Kind} (hk : k ∈ kinds f e l) (hk' : k' ∈ kinds f e l)
    (h : fileName s f e l n k = fileName s f e l n k') : k = k' := by
  obtain ⟨h1, h2, h3, -⟩ := fileName_unique hs h
  rw [stem_eq, stem_eq] at h3
  exact kind_unique (ranged hk) (ranged hk') (form_unique hs (good_form (ranged hk)) (good_form (ranged hk')) h3).2 h1 h2

theorem mem_box {e : Env} {b : Nat} : b < nFilters f e ↔ BoxWanted f e b := by
  unfold nFilters BoxWanted
  cases f.only <;> by_cases h : e.boxes = 0 <;> simp [h] <;> omega

/-- An output consists of exactly the files that are asked for. -/
theorem C148_kinds (f : Flags) (e : Env) (l : Label) (k : Kind) : k ∈ kinds f e l ↔ Wanted f e l k := by
  have hsec : sectionsOf f = sections f := by
    unfold sectionsOf sections
    cases f.regular <;> cases f.contours <;> cases f.contoursTex <;> rfl
  have hc : f.contours = true → sections f = f.nSections := fun h => by simp [sections, h]
  have ht : f.contoursTex = true → sections f = f.nSections := fun h => by simp [sections, h]
  have hbox : ∀ k, k ∈ (List.range (nFilters f e)).flatMap (boxKinds f e) ↔ ∃ b, BoxWanted f e b ∧ k ∈ boxKinds f e b := by
    intro k
    simp only [List.mem_flatMap, List.mem_range, mem_box]
  unfold kinds
  simp only [List.mem_append, hbox, boxKinds, hsec]
  cases k <;> simp [Wanted, and_assoc] <;> try (cases f.contours <;> simp [and_comm, and_assoc]) <;> done
  · constructor
    · rintro ⟨hb, h, ho, hi⟩
      exact ⟨h, ho, hc h ▸ hi, hb⟩
    · rintro ⟨h, ho, hi, hb⟩
      exact ⟨hb, h, ho, (hc h).symm ▸ hi⟩
  · constructor
    · rintro ⟨hb, h, ho⟩
      exact ⟨h, ho, hb⟩
    · rintro ⟨h, ho, hb⟩
      exact ⟨hb, h, ho⟩
  · constructor
    · rintro ⟨hb, h, ho⟩
      exact ⟨h, ho, hb⟩
    · rintro ⟨h, ho, hb⟩
      exact ⟨hb, h, ho⟩
  · intro h _ _
    rw [ht h]

/-- The files of a label are numbered in the order of the outputs without gaps, starting from zero. -/
theorem C148_numbers (os : List (Label × Env)) (i : Nat) {l : Label} {e : Env} (hi : os[i]? = some (l, e)) :
    (Done f l → (outputs s f (fun _ => 0) os)[i]? = some ((kinds f e l).map (fileName s f e l ((os.take i).countP fun o => o.1 == l)))) ∧
    (¬ Done f l → (outputs s f (fun _ => 0) os)[i]? = some []) := by
  rw [outputs_get, hi]
  simp only [Option.map_some, output, countersFrom_eq, before, Done]
  constructor
  · rintro (h | h)
    · simp [h]
    · subst h; simp
  · intro h
    have h1 : f.debug = false := by simpa using fun q => h (.inl q)
    have h2 : l ≠ .solution := fun q => h (.inr q)
    simp [h1, h2]

/-- A restarted run writes the files the interrupted run would have written, and none that was written before the snapshot, except for the tables. -/
theorem C148_restart_partial (hs : Prints s f.nSections) (a lost again : List (Label × Env)) :
    (restarted s f a lost again).1 ++ (restarted s f a lost again).2.2 = outputs s f (fun _ => 0) (a ++ again) ∧
    ∀ xs ∈ (restarted s f a lost again).1, ∀ ys ∈ (restarted s f a lost again).2.2, ∀ x ∈ xs, x ∈ ys → IsTable x := by
  refine ⟨(outputs_append ..).symm, fun xs hxs ys hys x hx hy => ?_⟩
  obtain ⟨i, hi⟩ := List.getElem?_of_mem hxs
  obtain ⟨j, hj⟩ := List.getElem?_of_mem hys
  simp only [restarted] at hi hj
  have hl := (List.getElem?_eq_some_iff.1 hi).1
  refine C148_outputs_partial hs (a ++ again) (i := i) (j := (outputs s f (fun _ => 0) a).length + j) (by omega) ?_ ?_ hx hy
  · rw [outputs_append, List.getElem?_append_left hl, hi]
  · rw [outputs_append, List.getElem?_append_right (by omega)]
    simpa using hj

end

namespace Ex148

/-- Numbers as they are printed; sections `x=0` and so on. -/
def print : Show := ⟨fun n => (Nat.toDigits 10 n), fun i => 'x' :: '=' :: Nat.toDigits 10 i⟩

theorem prints (n : Nat) : Prints print n := by
  have hd : ∀ n, ∀ c ∈ Nat.toDigits 10 n, c.isDigit = true := fun n c hc => Nat.isDigit_of_mem_toDigits (by decide) (by decide) hc
  have hi : ∀ a b, Nat.toDigits 10 a = Nat.toDigits 10 b → a = b := by
    intro a b h
    have := congrArg (Nat.ofDigitChars 10 · 0) h
    simpa using this
  exact ⟨fun a b h => hi a b h, fun n => by simp [print], hd, fun i _ h => by
      simp only [print, List.mem_cons] at h
      rcases h with h | h | h
      · exact absurd h (by decide)
      · exact absurd h (by decide)
      · exact absurd (hd i _ h) (by decide), fun i _ j _ h => by
      simp only [print, List.cons.injEq, true_and] at h
      exact hi i j h⟩

/-- Everything is written, two sections. -/
def all : Flags := ⟨true, true, true, true, true, true, true, true, true, true, true, true, true, true, true, false, 2⟩

/-- Fields, contours and the table only. -/
def few : Flags := ⟨true, true, false, false, false, true, false, false, false, false, false, false, true, false, false, false, 1⟩

def env (boxes : Nat) : Env := ⟨boxes, true, true, true⟩

example : (kinds all (env 1) .solution).length = 28 := by decide +kernel

/-- Without fields in the outputs, those of debugging still have them. -/
example : Kind.regular ∉ kinds { few with regular := false } (env 0) .solution ∧ Kind.regular ∈ kinds { few with regular := false } (env 0) .track :=
  ⟨fun h => by simpa [Wanted, few] using (C148_kinds _ _ _ _).1 h, (C148_kinds _ _ _ _).2 (.inr (by decide))⟩

/-- Two outputs of the solution with one from debugging in between, and no more than that in between if there is no debugging. -/
example : (outputs print few (fun _ => 0) [(.solution, env 0), (.track, env 0), (.solution, env 0)]).map (·.map String.ofList) =
    [["solution.0.vtu", "section_x=0_solution.0.vtu", "contour_solution.0.vtu", "contour_section_x=0_solution.0.vtu", "solution.log"],
     ["track.0.vtu", "section_x=0_track.0.vtu", "contour_track.0.vtu", "contour_section_x=0_track.0.vtu", "track.log"],
     ["solution.1.vtu", "section_x=0_solution.1.vtu", "contour_solution.1.vtu", "contour_section_x=0_solution.1.vtu", "solution.log"]] := by
  decide +kernel

example : outputs print { few with debug := false } (fun _ => 0) [(.track, env 0)] = [[]] := by decide +kernel

/-- One output before the snapshot, one lost, two again. -/
example : let r := restarted print { few with contours := false, nSections := 0 } [(.solution, env 0)] [(.solution, env 0)] [(.solution, env 0), (.solution, env 0)]
    (r.2.1.map (·.map String.ofList), r.2.2.map (·.map String.ofList)) =
      ([["solution.1.vtu", "solution.log"]], [["solution.1.vtu", "solution.log"], ["solution.2.vtu", "solution.log"]]) := by decide +kernel

/-- Contours in sections are written once for every box, always the same file. -/
theorem C148_again_violated : ((kinds few (env 2) .solution).count (.contourSection 0)) = 3 ∧
    ((outputs print few (fun _ => 0) [(.solution, env 2)]).map (·.map String.ofList)) =
      [["solution.0.vtu", "section_x=0_solution.0.vtu", "contour_solution.0.vtu", "contour_section_x=0_solution.0.vtu", "contour_solution_0.0.vtu",
        "contour_section_x=0_solution.0.vtu", "contour_solution_1.0.vtu", "contour_section_x=0_solution.0.vtu", "solution.log"]] := by decide +kernel

/-- A stream prints six digits: sections at 100.0001 and 100.0002 are both printed as 100 and have the same file; the second one is left. -/
theorem C148_sections_violated : ((kinds { few with nSections := 2 } (env 0) .solution).map
      fun k => String.ofList (fileName ⟨fun n => (Nat.toDigits 10 n), fun _ => txt "x=100"⟩ { few with nSections := 2 } (env 0) .solution 0 k)) =
    ["solution.0.vtu", "section_x=100_solution.0.vtu", "section_x=100_solution.0.vtu", "contour_solution.0.vtu",
      "contour_section_x=100_solution.0.vtu", "contour_section_x=100_solution.0.vtu", "solution.log"] := by decide +kernel

end Ex148

end Verif.Props
