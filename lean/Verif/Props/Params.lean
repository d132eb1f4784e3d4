import Verif.Lemmas.Params

/-!
# C129: parameters of a run

Every entry of the parameters sets its own member and no other one; the last request wins; a run is refused exactly when a file cannot be read, an
option names no entry, or a value does not fit.
-/

namespace Verif.Props

open Verif.BaseTools (Call parseParams)
open Verif.Params
open Verif.Params.Spec

seal decls members initial

/-- `add_parameters` closes every subsection it opens; no path is declared twice, no member is bound twice, and every entry is bound to a member. -/
theorem C129_table : declare [] addParameters = .ok ([], decls) ∧ (decls.map (·.path)).Nodup ∧ (decls.map (·.member)).Nodup ∧
    (members.map (·.name)).Nodup ∧ ∀ d ∈ decls, d.member ∈ members.map (·.name) :=
  ⟨declare_table, paths_nodup, members_nodup, names_nodup, member_of_bound⟩

/-- Every member but one has an entry of its own. -/
theorem C129_settable_partial : ∀ m ∈ members, m.name ≠ forgotten → ∃ d ∈ decls, d.member = m.name ∧ ∀ e ∈ decls, e.member = m.name → e = d := by
  intro m hm hf
  obtain ⟨d, hd, hdm⟩ := List.mem_map.mp (bound_of_member m hm hf)
  exact ⟨d, hd, hdm, fun e he hem =>
    (List.nodup_map_iff_inj_on members_nodup.of_map).mp members_nodup e he d hd (hem.trans hdm.symm)⟩

/-- Every entry is bound to the member that is called like it, in the struct that is called like its section. -/
theorem C129_names : ∀ d ∈ decls, Called d.path d.member := called

/-- After any calls each member bound to an entry has the value requested last for its path (files and options alike), or its old value; all other
members are as before. -/
theorem C129_values (w : World) (x y : Vals) (cs : List Call) (h : calls w decls x cs = .ok y) :
    (∀ d ∈ decls, y d.member = (lastValue (cs.flatMap (requests w)) d.path).getD (x d.member)) ∧
      ∀ m, m ∉ decls.map (·.member) → y m = x m :=
  calls_ok cs x y h

/-- The calls succeed exactly if every file can be read, every option names an entry, and every value given for an entry fits; other entries of files
do not matter. -/
theorem C129_accepted (w : World) (x : Vals) (cs : List Call) (hc : Call.check ∉ cs) :
    (∃ y, calls w decls x cs = .ok y) ↔
      (∀ f, Call.file f ∈ cs → ∃ es, w.content f = some es) ∧
      (∀ n v, Call.set n v ∈ cs → ∃ d ∈ decls, d.path = (splitDots n).map String.ofList) ∧
      ∀ c ∈ cs, ∀ r ∈ requests w c, ∀ d ∈ decls, d.path = r.1 → Fits w d r.2 := by
  rw [calls_iff cs hc x]
  constructor
  · intro h
    refine ⟨fun f hf => ?_, fun n v hn => ?_, fun c hcm r hr d hd hp => ?_⟩
    · obtain ⟨es, he, _⟩ := h _ hf; exact ⟨es, he⟩
    · obtain ⟨d, hd, hp, _⟩ := h _ hn; exact ⟨d, hd, hp⟩
    · cases c with
      | file f =>
        obtain ⟨es, he, hE⟩ := h _ hcm
        simp only [requests, he, Option.getD_some] at hr
        exact (accepts_iff hd).mp (hE r hr d hd hp)
      | set n v =>
        obtain ⟨e, he, hpe, ha⟩ := h _ hcm
        simp only [requests, List.mem_singleton] at hr
        subst hr
        have : d = e := (List.nodup_map_iff_inj_on paths_nodup.of_map).mp paths_nodup d hd e he (hp.trans hpe.symm)
        subst this
        exact (accepts_iff hd).mp ha
      | check => exact absurd hcm hc
  · rintro ⟨h1, h2, h3⟩ c hcm
    cases c with
    | file f =>
      obtain ⟨es, he⟩ := h1 f hcm
      refine ⟨es, he, fun e hes d hd hp => (accepts_iff hd).mpr (h3 _ hcm e ?_ d hd hp)⟩
      simp only [requests, he, Option.getD_some]; exact hes
    | set n v =>
      obtain ⟨d, hd, hp⟩ := h2 n v hcm
      exact ⟨d, hd, hp, (accepts_iff hd).mpr (h3 _ hcm ((splitDots n).map String.ofList, v) (by simp [requests]) d hd hp)⟩
    | check => exact trivial

/-- An option on the command line, `--Path.To.Option=value`, reaches its entry: the member gets the value and nothing else changes; a value that does
not fit is refused. -/
theorem C129_option (w : World) (x : Vals) (d : Decl) (hd : d ∈ decls) (v : List Char) (hq : ∀ l, v ≠ '"' :: l)
    (hv : ∀ c ∈ v, BaseTools.isDot c = true) (pre : List (List Char)) :
    ∃ cs, parseParams pre.length (pre ++ ['-' :: '-' :: (dotted d.path ++ '=' :: v)]) = .ok (cs ++ [.check]) ∧
      (Fits w d v → ∃ y, calls w decls x cs = .ok y ∧ y d.member = v ∧ ∀ m, m ≠ d.member → y m = x m) ∧
      (¬ Fits w d v → calls w decls x cs = .exc .assertThrow) := by
  obtain ⟨hne, hw⟩ := paths_words d hd
  have hn := dotted_name d.path hw
  have hsplit := split_dotted d.path hne (fun s hs => word_no_dot (hw s hs))
  have htake : (dotted d.path ++ '=' :: v).takeWhile BaseTools.isNameChar = dotted d.path := by
    rw [List.takeWhile_append_of_pos hn, List.takeWhile_cons_of_neg (by decide), List.append_nil]
  have hdrop : (dotted d.path ++ '=' :: v).dropWhile BaseTools.isNameChar = '=' :: v := by
    rw [List.dropWhile_append_of_pos hn, List.dropWhile_cons_of_neg (by decide)]
  have hskip : BaseTools.skipQuote v = v := by
    cases v with
    | nil => rfl
    | cons c l =>
      unfold BaseTools.skipQuote
      split
      · rename_i l' h; exact absurd h (hq _)
      · rfl
  have htv : v.takeWhile BaseTools.isDot = v := takeWhile_self hv
  refine ⟨[.set (dotted d.path) v], ?_, fun hf => ?_, fun hf => ?_⟩
  · unfold parseParams
    rw [List.drop_left]
    simp [BaseTools.arguments, BaseTools.argument, BaseTools.search, BaseTools.matchName, htake, hdrop, hskip, htv, Res.ok_bind]
  · have ha := (accepts_iff (w := w) hd).mpr hf
    refine ⟨store d v x, ?_, by simp [store], fun m hm => by simp [store, hm]⟩
    simp only [calls, List.foldlM_cons, List.foldlM_nil, call, Params.set, hsplit, assign_declared hd, ha, if_true]
    rfl
  · have ha : ¬ accepts w d v = true := fun h => hf ((accepts_iff hd).mp h)
    simp only [calls, List.foldlM_cons, List.foldlM_nil, call, Params.set, hsplit, assign_declared hd, if_neg ha]
    rfl

/-- An option that names no entry is refused. -/
theorem C129_undeclared (w : World) (x : Vals) (n v : List Char) (cs : List Call)
    (h : ∀ d ∈ decls, d.path ≠ (splitDots n).map String.ofList) : calls w decls x (.set n v :: cs) = .exc .assertThrow := by
  have hp : (splitDots n).map String.ofList ∉ decls.map (·.path) := by
    intro hm
    obtain ⟨d, hd, hde⟩ := List.mem_map.mp hm
    exact h d hd hde
  unfold calls
  rw [List.foldlM_cons]
  show (do let z ← Params.set w decls x n v; List.foldlM (call w decls) z cs) = _
  rw [Params.set, assign_undeclared hp]
  rfl

/-- The initial value of every selection is one of its alternatives. -/
theorem C129_defaults : ∀ d ∈ decls, ∀ l, d.sel = some l → ∃ v, initial.lookup d.member = some v ∧ v ∈ l := initial_fits

/-- Nothing that is given to a run changes the unit of the activation energies. -/
theorem C129_forgotten (w : World) (x y : Vals) (cs : List Call) (h : calls w decls x cs = .ok y) : y forgotten = x forgotten :=
  (calls_ok cs x y h).2 _ forgotten_unbound

namespace Ex129

/-- Not every member can be set. -/
theorem C129_settable_violated : ¬ ∀ m ∈ members, ∃ (w : World) (x y : Vals) (cs : List Call), calls w decls x cs = .ok y ∧ y m.name ≠ x m.name := by
  intro h
  obtain ⟨m, hm, hmn⟩ := List.mem_map.mp forgotten_member
  obtain ⟨w, x, y, cs, hc, hne⟩ := h m hm
  rw [hmn] at hne
  exact hne (C129_forgotten w x y cs hc)

/-- A world with one file: a misspelt entry, and two for the same path. -/
def world : World where
  reads := fun _ v => v != "x".toList
  content := fun f => if f = "a.prm".toList then
    some [(["Geometry", "Periodik"], "true".toList), (["Geometry", "MaxPrime"], "7".toList), (["Geometry", "MaxPrime"], "9".toList)] else none
  number := fun v => v.length
  feDegree := some 1
  nQPoints1D := none

def start : Vals := fun _ => "1".toList

def line : List Call := [.file "a.prm".toList, .set "Material.Mechanics.Type".toList "PlaneStress".toList, .check]

unseal decls members in
set_option maxRecDepth 4000 in
/-- The file and the option are taken; the misspelt entry is lost without a word. -/
example : (match calls world decls start line with
    | .ok y => y ["geometry_data", "max_prime"] == "9".toList && y ["material_data", "mechanics_data", "plane_type"] == "PlaneStress".toList &&
        y ["geometry_data", "periodic"] == "1".toList
    | _ => false) = true := by decide +kernel

unseal decls members in
/-- The same entry as an option is refused, and so is a value that is no alternative. -/
example : (match calls world decls start [.set "Geometry.Periodik".toList "true".toList] with | .exc .assertThrow => true | _ => false) = true ∧
    (match calls world decls start [.set "Material.Mechanics.Type".toList "Plane".toList] with | .exc .assertThrow => true | _ => false) = true := by
  decide +kernel

unseal decls in
/-- The hypotheses of `C129_option` can be met. -/
example : ∃ d ∈ decls, d.path = ["Preconditioners", "BlockPreconditioner2", "Block1", "ILU", "ILUFill"] ∧
    d.member = ["preconditioners_data", "block_preconditioner_2_data", "block_1", "ilu_data", "ilu_fill"] := by decide +kernel

end Ex129

end Verif.Props
