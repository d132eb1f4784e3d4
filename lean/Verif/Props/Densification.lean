/-
C171: densification from the output of the grain tracker.
-/
import Verif.Model.Densification
import Verif.Props.ContactPairs

namespace Verif.Props

open Verif.Densification Verif.ContactPairs Verif.ContactPairs.Spec

/-- C171, partial: each table goes to the file of its folder if no folder is without files. Missing: folders without files. -/
theorem C171_save_partial {R N : Type} (fs : List (Folder R)) (names : List N) (hl : names.length = fs.length) (h : ∀ f ∈ fs, f.files ≠ []) :
    save fs names = .ok (List.zipWith (fun n f => (n, rows f)) names fs) := by
  induction fs generalizing names with
  | nil => cases names <;> rfl
  | cons f fs ih => cases names with
    | nil => cases hl
    | cons n ns =>
      rw [save, if_neg (h f (by simp))]
      rw [ih ns (by simpa using hl) fun f hf => h f (by simp [hf])]
      rfl

/-- After a folder without files, the table of the next folder is written to the file of the empty one. -/
theorem C171_save_violation {R N : Type} (f g : Folder R) (fs : List (Folder R)) (n m : N) (ns : List N) (hf : f.files = []) (hg : g.files ≠ []) (o : List (N × List (Option R)))
    (h : save (f :: g :: fs) (n :: m :: ns) = .ok o) : o.head? = some (n, rows g) := by
  rw [save, if_pos hf, save, if_neg hg] at h
  cases hs : save fs (m :: ns) with
  | ok a => rw [hs] at h; cases h; rfl
  | exc e => rw [hs] at h; cases h
  | ub => rw [hs] at h; cases h

/-- The names run out exactly if there are more folders with files than names. -/
theorem C171_names {R N : Type} (fs : List (Folder R)) (names : List N) :
    save fs names = .exc .outOfRange ↔ names.length < (fs.filter fun f => !f.files.isEmpty).length := by
  induction fs generalizing names with
  | nil => simp [save]
  | cons f fs ih =>
    by_cases hf : f.files = []
    · have e : save (f :: fs) names = save fs names := by cases names <;> rw [save, if_pos hf]
      rw [e, ih, List.filter_cons, if_neg (by simp [hf])]
    · rw [List.filter_cons, if_pos (by simpa using hf), List.length_cons]
      cases names with
      | nil => simp [save, hf]
      | cons n ns =>
        rw [save, if_neg hf, List.length_cons, Nat.add_lt_add_iff_right, ← ih]
        cases save fs ns <;> simp

/-- The table has one row per file, and a row holds the results of its file. -/
theorem C171_rows {R : Type} (f : Folder R) : (rows f).length = f.files.length ∧ ∀ (i : Nat) (x : R), (rows f)[i]? = some (some x) ↔ i < f.size ∧ f.files[i]? = some (some x) := by
  refine ⟨by simp [rows], fun i x => ?_⟩
  simp only [rows, List.getElem?_mapIdx, Option.map_eq_some_iff]
  constructor
  · rintro ⟨y, h1, h2⟩
    split at h2
    · cases h2
    · exact ⟨by omega, h2 ▸ h1⟩
  · rintro ⟨h1, h2⟩
    exact ⟨some x, h2, by rw [if_neg (by omega)]⟩

/-- Rows of files that are skipped are part of the table without ever being set. -/
theorem C171_rows_violation {R : Type} (f : Folder R) (i : Nat) (hi : i < f.files.length) (h : f.size ≤ i ∨ f.files[i]? = some none) : (rows f)[i]? = some none := by
  simp only [rows, List.getElem?_mapIdx, Option.map_eq_some_iff]
  refine ⟨f.files[i], by simp, ?_⟩
  split
  · rfl
  · rcases h with h | h
    · omega
    · rw [List.getElem?_eq_getElem hi] at h
      exact Option.some.inj h

private theorem mark (c : List Nat) (v : List Nat) (p : Nat) (hp : p < v.length) :
    (c.foldl (fun v p => v.set p 1) v).length = v.length ∧ (c.foldl (fun v p => v.set p 1) v)[p]? = if p ∈ c then some 1 else v[p]? := by
  induction c generalizing v with
  | nil => simp
  | cons q c ih =>
    obtain ⟨a, b⟩ := ih (v.set q 1) (by simpa using hp)
    refine ⟨by rw [List.foldl_cons, a]; simp, ?_⟩
    rw [List.foldl_cons, b]
    by_cases h1 : p ∈ c
    · simp [h1]
    · by_cases h2 : q = p
      · subst h2; simp [hp]
      · simp [h1, h2, Ne.symm h2]

/-- A point is marked once if at least one grain covers it, and not at all otherwise. -/
theorem C171_covered (n : Nat) (coverage : List (List Nat)) (p : Nat) (hp : p < n) : (covered n coverage)[p]? = some (if ∃ c ∈ coverage, p ∈ c then 1 else 0) := by
  have key : ∀ (cs : List (List Nat)) (v : List Nat), p < v.length → (cs.foldl (fun v c => c.foldl (fun v p => v.set p 1) v) v)[p]? = if ∃ c ∈ cs, p ∈ c then some 1 else v[p]? := by
    intro cs
    induction cs with
    | nil => intro v _; simp
    | cons c cs ih =>
      intro v hv
      obtain ⟨a, b⟩ := mark c v p hv
      rw [List.foldl_cons, ih _ (by rw [a]; exact hv), b]
      by_cases h1 : ∃ c ∈ cs, p ∈ c
      · simp [h1]
      · by_cases h2 : p ∈ c
        · simp [h2]
        · simp [h1, h2]
  unfold covered
  rw [key _ _ (by simpa using hp)]
  split
  · rfl
  · simp [hp]

variable {K : Type} [Field K] [LinearOrder K] [IsStrictOrderedRing K]

/-- C171, partial: in three dimensions the coordination number is the mean number of contacts. Missing: two dimensions. -/
theorem C171_coordination_partial {dist : Nat → Nat → K} (hd : ∀ i j, dist i j = dist j i) {r : Nat → K} {n : Nat} {nb : Nat → List Nat} (h : Candidates dist r n nb) :
    coordination 3 dist r nb n = .ok ((((List.range n).map (degree dist r n)).sum : Nat) / (n : K)) := by
  obtain ⟨l, hl, -⟩ := C170_pairs hd h
  have := C170_degree h hl
  unfold coordination
  rw [if_neg (by simp), hl, ← this]
  simp

omit [IsStrictOrderedRing K] in
/-- In two dimensions the script stops as soon as a grain has a neighbour. -/
theorem C171_plane_violation (dist : Nat → Nat → K) (r : Nat → K) (nb : Nat → List Nat) (n : Nat) {i j : Nat} (hi : i < n) (hj : j ∈ nb i) (hij : j ≠ i) :
    coordination 2 dist r nb n = .exc .invalidArgument := by
  unfold coordination
  refine if_pos ⟨by omega, i, List.mem_range.2 hi, fun e => ?_⟩
  have : j ∈ (nb i).filter (fun j => decide (j ≠ i)) := List.mem_filter.2 ⟨hj, by simpa using hij⟩
  rw [e] at this
  cases this

namespace Ex171

/-- C171_save_partial, C171_save_violation: the second folder has no files, so that its name goes to the third one. -/
example : save [⟨1, [some 5]⟩, ⟨1, []⟩, ⟨1, [some 7]⟩] ["a", "b", "c"] = .ok [("a", [some 5]), ("b", [some 7])] := by decide

/-- C171_rows, C171_rows_violation: two rows are not set. -/
example : rows ⟨2, [some 5, none, some 7]⟩ = [some 5, none, none] := by decide

/-- C171_names -/
example : save [⟨1, [some 5]⟩, ⟨1, []⟩, ⟨1, [some 7]⟩] ["a"] = .exc .outOfRange := by decide

/-- C171_covered -/
example : covered 4 [[0, 2], [2], []] = [1, 0, 1, 0] := by decide

/-- C171_coordination_partial, C171_plane_violation: three balls in a line. -/
example : coordination (K := Rat) 3 (fun i j => if i = j then 0 else if i + j = 2 then 4 else 2) (fun _ => 1) (fun _ => [2, 0, 1]) 3 = .ok (4 / 3) ∧
    coordination (K := Rat) 2 (fun i j => if i = j then 0 else if i + j = 2 then 4 else 2) (fun _ => 1) (fun _ => [2, 0, 1]) 3 = .exc .invalidArgument := by decide +kernel

end Ex171

end Verif.Props
