/-
C166: particles written for visualisation.
-/
import Verif.Model.PrintParticles
import Verif.Spec.PrintParticles
import Verif.Props.InitialValues

namespace Verif.Props

open Verif.PrintParticles Verif.PrintParticles.Spec Verif.Cloud

variable {K P : Type}

private theorem assign_all (op : Nat) (l v : List Nat) (h : ∀ j ∈ l, j < v.length) :
    ∃ w, l.foldlM (assign op) v = .ok w ∧ w.length = v.length ∧ ∀ p, p < v.length → w[p]? = if p ∈ l then some op else v[p]? := by
  induction l generalizing v with
  | nil => exact ⟨v, rfl, rfl, by simp⟩
  | cons j l ih =>
    have hj := h j (by simp)
    obtain ⟨w, h1, h2, h3⟩ := ih (v.set j op) fun i hi => by rw [List.length_set]; exact h i (by simp [hi])
    rw [List.length_set] at h2 h3
    refine ⟨w, ?_, h2, fun p hp => ?_⟩
    · rw [List.foldlM_cons, assign, if_pos hj]
      exact h1
    · rw [h3 p hp]
      by_cases e : p ∈ l
      · simp [e]
      · by_cases e' : j = p
        · subst e'; simp [e, hj]
        · simp [e, Ne.symm e', List.getElem?_set_ne e']

private theorem invert_all (t : OMap (List Nat)) (v : List Nat) (hb : ∀ e ∈ t, ∀ j ∈ e.2, j < v.length) :
    ∃ w, t.foldlM (fun v e => e.2.foldlM (assign e.1) v) v = .ok w ∧ w.length = v.length ∧
      ∀ p, p < v.length → (∃ e ∈ t, p ∈ e.2 ∧ w[p]? = some e.1) ∨ ((∀ e ∈ t, p ∉ e.2) ∧ w[p]? = v[p]?) := by
  induction t generalizing v with
  | nil => exact ⟨v, rfl, rfl, fun p _ => .inr ⟨by simp, rfl⟩⟩
  | cons e t ih =>
    obtain ⟨u, h1, h2, h3⟩ := assign_all e.1 e.2 v (hb e (by simp))
    obtain ⟨w, g1, g2, g3⟩ := ih u fun e' he j hj => by rw [h2]; exact hb e' (by simp [he]) j hj
    rw [h2] at g2 g3
    refine ⟨w, ?_, g2, fun p hp => ?_⟩
    · rw [List.foldlM_cons, h1]
      exact g1
    · rcases g3 p hp with ⟨e', he, a, b⟩ | ⟨a, b⟩
      · exact .inl ⟨e', by simp [he], a, b⟩
      · have := h3 p hp
        by_cases hpe : p ∈ e.2
        · rw [if_pos hpe] at this
          exact .inl ⟨e, by simp, hpe, b.trans this⟩
        · rw [if_neg hpe] at this
          refine .inr ⟨fun e' he => ?_, b.trans this⟩
          rcases List.mem_cons.1 he with rfl | he
          · exact hpe
          · exact a e' he

private theorem mapM_ok' {A B : Type} (l : List A) (f : A → Res B) (g : A → B) (h : ∀ a ∈ l, f a = .ok (g a)) : l.mapM f = .ok (l.map g) := by
  induction l with
  | nil => rfl
  | cons a l ih => rw [List.mapM_cons, h a (by simp), ih fun b hb => h b (by simp [hb])]; rfl

/-- For a table that gives order parameters to all particles, each particle is written with its own. -/
theorem C166_records {ps : List (Part K P)} {t : OMap (List Nat)} {touch : Nat → Nat → Prop} (hs : t.Sorted) (ht : IsAssignment t ps.length touch) :
    ∃ rs, records ps t = .ok rs ∧ Records ps t rs := by
  have hb : ∀ e ∈ t, ∀ j ∈ e.2, j < (List.replicate ps.length 0).length := fun e he j hj => by
    rw [List.length_replicate]
    exact ht.bound e.1 e.2 (OMap.get?_of_mem hs he) j hj
  obtain ⟨w, h1, h2, h3⟩ := invert_all t _ hb
  rw [List.length_replicate] at h2 h3
  have h4 : ∀ p, p < ps.length → ∃ e ∈ t, p ∈ e.2 ∧ w[p]? = some e.1 := by
    intro p hp
    rcases h3 p hp with h | ⟨h, _⟩
    · exact h
    · obtain ⟨op, l, a, b⟩ := ht.total p hp
      exact absurd b (h (op, l) (OMap.mem_of_get? a))
  have key : ∀ p ∈ List.range ps.length, (do
      let a ← Res.index ps p
      let op ← Res.index w p
      (.ok ⟨a.center, p, a.radius, op⟩ : Res (Rec K P))) = Res.bind (Res.index ps p) fun a => .ok ⟨a.center, p, a.radius, w.getD p 0⟩ := by
    intro p hp
    have hp := List.mem_range.1 hp
    rw [Res.index_ok hp, Res.index_ok (by omega : p < w.length)]
    simp [List.getD_eq_getElem?_getD, List.getElem?_eq_getElem (by omega : p < w.length)]
  cases ps with
  | nil => exact ⟨[], by unfold records invert; rw [h1]; rfl, rfl, by simp⟩
  | cons a0 ps =>
    refine ⟨(List.range (a0 :: ps).length).map fun p => ⟨((a0 :: ps).getD p a0).center, p, ((a0 :: ps).getD p a0).radius, w.getD p 0⟩, ?_, by simp, ?_⟩
    · unfold records invert
      rw [h1]
      refine mapM_ok' _ _ _ fun p hp => ?_
      rw [key p hp, Res.index_ok (List.mem_range.1 hp)]
      simp only [Res.bind, List.getD_eq_getElem?_getD, List.getElem?_eq_getElem (List.mem_range.1 hp), Option.getD_some]
    · intro p a hp
      have hl : p < (a0 :: ps).length := by
        by_contra h
        rw [List.getElem?_eq_none (by omega)] at hp
        cases hp
      obtain ⟨e, he, hpe, hw⟩ := h4 p hl
      refine ⟨e.1, e.2, ?_, OMap.get?_of_mem hs he, hpe⟩
      rw [List.getElem?_map, List.getElem?_range hl]
      simp only [Option.map_some, List.getD_eq_getElem?_getD, hp, hw, Option.getD_some]

private theorem cloud_sorted (n : Nat) (minimize : Bool) (colours : List Nat) : (cloudTable n minimize colours).Sorted := by
  unfold cloudTable
  have : ∀ (l : List Nat) (f : Nat → Nat) (t : OMap (List Nat)), t.Sorted → (l.foldl (fun t i => Initial.push t (f i) i) t).Sorted := by
    intro l f
    induction l with
    | nil => intro t h; exact h
    | cons i l ih => intro t h; exact ih _ (OMap.sorted_set h)
  exact this _ _ _ OMap.sorted_nil

/-- The program as a whole with the colours of the particles: close particles are written with different order parameters, all below the number of colours. -/
theorem C166_cloud {ps : List (Part K P)} {colours : List Nat} {k : Nat} (hl : colours.length = ps.length) (hcol : ∀ c, c ∈ colours ↔ 1 ≤ c ∧ c ≤ k)
    (close : Nat → Nat → Prop) (hirr : ∀ g h, close g h → g ≠ h) (hclose : ∀ g h a b, colours[g]? = some a → colours[h]? = some b → close g h → a ≠ b) :
    ∃ rs, records ps (cloudTable ps.length true colours) = .ok rs ∧ rs.length = ps.length ∧ (∀ r ∈ rs, r.op < k) ∧
      ∀ p q r s, rs[p]? = some r → rs[q]? = some s → close p q → r.op ≠ s.op := by
  obtain ⟨ha, hk⟩ := C58_cloud ps.length true colours k hl hcol close hirr hclose
  obtain ⟨rs, h1, h2, h3⟩ := C166_records (ps := ps) (cloud_sorted _ _ _) ha
  have key : ∀ p r, rs[p]? = some r → ∃ l, (cloudTable ps.length true colours).get? r.op = some l ∧ p ∈ l := by
    intro p r hr
    have hp : p < ps.length := by
      by_contra h
      rw [List.getElem?_eq_none (by omega)] at hr
      cases hr
    obtain ⟨op, l, a, b, c⟩ := h3 p _ (List.getElem?_eq_getElem hp)
    rw [hr, Option.some.injEq] at a
    rw [a]
    exact ⟨l, b, c⟩
  refine ⟨rs, h1, h2, fun r hr => ?_, fun p q r s hr hs hc he => ?_⟩
  · obtain ⟨p, hp⟩ := List.mem_iff_getElem?.1 hr
    obtain ⟨l, hl, _⟩ := key p r hp
    have := (ha.contiguous r.op).1 (by rw [hl]; rfl)
    rw [hk] at this
    simpa using this
  · obtain ⟨l, a, b⟩ := key p r hr
    obtain ⟨l', a', b'⟩ := key q s hs
    rw [← he, a, Option.some.injEq] at a'
    subst a'
    exact ha.separated p q r.op l a b b' hc

/-- The files for grid and particles are never the same. -/
theorem C166_files_differ (p q : Path) : gridFile p ≠ particleFile q := by
  intro h
  have := congrArg (fun x : List Char × List Char => x.2[3]?) h
  simp [gridFile, particleFile] at this

/-- C166, partial: inputs write to the same files only if folder and stem are the same. Missing: inputs with the same name and different extensions. -/
theorem C166_files_partial (p q : Path) : (particleFile p = particleFile q ↔ p.parent = q.parent ∧ p.stem = q.stem) ∧
    (gridFile p = gridFile q ↔ p.parent = q.parent ∧ p.stem = q.stem) := by
  simp [gridFile, particleFile]

/-- Two inputs that differ in their extensions only: the output of the first is lost. -/
theorem C166_files_violation (parent stem e e' : List Char) (h : e ≠ e') :
    (⟨parent, stem, e⟩ : Path) ≠ ⟨parent, stem, e'⟩ ∧ ∃ fs, filesWritten [⟨parent, stem, e⟩, ⟨parent, stem, e'⟩] = .ok fs ∧ ¬ fs.Nodup ∧ fs[0]? = fs[2]? ∧ fs[1]? = fs[3]? :=
  ⟨by simpa using h, _, rfl, by simp [gridFile, particleFile], rfl, rfl⟩

namespace Ex166

example : records [⟨(), 2, 7⟩, ⟨(), 3, 8⟩, ⟨(), (4 : Int), 9⟩] (cloudTable 3 true [1, 2, 1]) = .ok [⟨(), 0, 2, 0⟩, ⟨(), 1, 3, 1⟩, ⟨(), 2, 4, 0⟩] := by decide +kernel
example : filesWritten [] = .exc .assertThrow := by decide +kernel
example : filesWritten [⟨"a".toList, "b".toList, "c".toList⟩] = .ok [("a".toList, "my_grid_b".toList), ("a".toList, "my_particles_b".toList)] := by decide +kernel

end Ex166

end Verif.Props
