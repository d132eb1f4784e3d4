/-
C172: copies of results.
-/
import Verif.Model.CopyResults

namespace Verif.Props

open Verif.CopyResults

/-- C172, partial: every file found is copied once, if all job files are wanted or none is found. Missing: one job file among others, the default of the option. -/
theorem C172_mask_partial (o : Opts) (fs : List File) (hd : ∀ f ∈ fs, f.dir = false) (h : o.all = true ∨ ∀ f ∈ fs, f.ext ≠ o.jobExt) :
    copyMask o fs = .ok (fs.map fun f => (f.base, if f.ext = o.jobExt then join o.folder f.base else o.out ++ f.base)) := by
  induction fs with
  | nil => rfl
  | cons f fs ih =>
    have h1 : ¬ (f.ext = o.jobExt ∧ o.all = false) := by
      rintro ⟨a, b⟩
      rcases h with h | h
      · rw [h] at b; cases b
      · exact h f (by simp) a
    rw [copyMask, hd f (by simp), if_neg (by simp), if_neg h1,
      ih (fun g hg => hd g (by simp [hg])) (h.imp id fun h g hg => h g (by simp [hg]))]
    rfl

/-- The masks of one call one after the other. -/
theorem C172_all_partial (o : Opts) (glob : Name → List File) (ms : List Name) (hd : ∀ m ∈ ms, ∀ f ∈ glob m, f.dir = false) (h : o.all = true ∨ ∀ m ∈ ms, ∀ f ∈ glob m, f.ext ≠ o.jobExt) :
    copyAll o glob (masks (some ms)) = .ok ((ms.flatMap glob).map fun f => (f.base, if f.ext = o.jobExt then join o.folder f.base else o.out ++ f.base)) := by
  show copyAll o glob ms = _
  induction ms with
  | nil => rfl
  | cons m ms ih =>
    rw [copyAll, C172_mask_partial o (glob m) (hd m (by simp)) (h.imp id fun h => h m (by simp)),
      ih (fun g hg => hd g (by simp [hg])) (h.imp id fun h g hg => h g (by simp [hg]))]
    simp

/-- After the first job file, no other file of the mask is copied, be it a job file or not. -/
theorem C172_break_violation (o : Opts) (ha : o.all = false) (pre post : List File) (j : File) (hj : j.ext = o.jobExt) (hjd : j.dir = false)
    (hd : ∀ f ∈ pre, f.dir = false) (hp : ∀ f ∈ pre, f.ext ≠ o.jobExt) :
    copyMask o (pre ++ j :: post) = .ok (pre.map (fun f => (f.base, o.out ++ f.base)) ++ [(j.base, o.out ++ afterDot j.base)]) := by
  induction pre with
  | nil =>
    rw [List.nil_append, copyMask, hjd, if_neg (by simp), if_pos ⟨hj, ha⟩]
    rfl
  | cons f pre ih =>
    have hf := hp f (by simp)
    rw [List.cons_append, copyMask, hd f (by simp), if_neg (by simp), if_neg (fun h => hf h.1), ih (fun g hg => hd g (by simp [hg])) fun g hg => hp g (by simp [hg]), if_neg hf]
    rfl

/-- The name of a copied job file is what follows the first dot. -/
theorem C172_job (a b : Name) (h : '.' ∉ a) : afterDot (a ++ '.' :: b) = b := by
  unfold afterDot
  induction a with
  | nil => rfl
  | cons c a ih =>
    rw [List.mem_cons, not_or] at h
    rw [List.cons_append, List.dropWhile_cons, if_pos (by simpa using Ne.symm h.1)]
    exact ih h.2

/-- Folder and name are joined by exactly one separator, and by none without a folder. -/
theorem C172_join (a b : Name) : join [] b = b ∧ join (a ++ ['/']) b = a ++ '/' :: b ∧ (a ≠ [] → a.getLast? ≠ some '/' → join a b = a ++ '/' :: b) := by
  refine ⟨rfl, ?_, fun h1 h2 => ?_⟩
  · simp [join]
  · rw [join, if_neg h1, if_neg h2]

/-- With the default of the option the masks are single characters; a folder that has no files of such names is not copied at all: the mask `.` gives the folder itself, which ends the script. -/
theorem C172_default_violation (o : Opts) (glob : Name → List File) (h1 : ∀ c, c ≠ '.' → glob [c] = []) (h2 : ∃ f fs, glob ['.'] = f :: fs ∧ f.dir = true) :
    copyAll o glob (masks none) = .exc .invalidArgument := by
  obtain ⟨f, fs, h2, h3⟩ := h2
  have hm : masks none = [['s'], ['o'], ['l'], ['u'], ['t'], ['i'], ['o'], ['n'], ['.'], ['l'], ['o'], ['g']] := by decide
  rw [hm]
  simp [copyAll, copyMask, h1, h2, h3]

namespace Ex172

def opts (all : Bool) : Opts := ⟨"out".toList, all, "d/a_".toList, "d".toList⟩

def fs : List File := [⟨"x.log".toList, "log".toList, false⟩, ⟨"job.7.out".toList, "out".toList, false⟩, ⟨"y.log".toList, "log".toList, false⟩]

/-- C172_mask_partial, C172_all_partial -/
example : copyAll (opts true) (fun _ => fs) (masks (some [['*']])) =
    .ok [("x.log".toList, "d/a_x.log".toList), ("job.7.out".toList, "d/job.7.out".toList), ("y.log".toList, "d/a_y.log".toList)] := by decide

/-- C172_break_violation, C172_job: the last file is lost. -/
example : copyMask (opts false) fs = .ok [("x.log".toList, "d/a_x.log".toList), ("job.7.out".toList, "d/a_7.out".toList)] := by decide

/-- C172_join -/
example : join "d".toList "x".toList = "d/x".toList ∧ join "d/".toList "x".toList = "d/x".toList := by decide

/-- C172_default_violation -/
example : copyAll (opts false) (fun m => if m = ['.'] then [⟨['.'], [], true⟩] else []) (masks none) = .exc .invalidArgument := by decide

end Ex172

end Verif.Props
