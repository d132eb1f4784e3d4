/-
Lemmas on the benchmark of the grain tracker.
-/
import Verif.Spec.TrackerBench
import Verif.Props.Remap

set_option linter.unusedSectionVars false

namespace Verif.TrackerBench

open Verif.Spec Verif.TrackerBench.Spec Verif.Props

section arguments

variable {K : Type} [Field K] [LinearOrder K]

theorem positive_ok {o : Option K} {x : K} (h : positive o = .ok x) : o = some x ∧ 0 < x := by
  unfold positive at h
  split at h
  · split at h
    · injection h with h
      subst h
      exact ⟨rfl, by assumption⟩
    · cases h
  · cases h

theorem positive_ne_ub (o : Option K) : positive o ≠ .ub := by
  unfold positive
  split
  · split <;> simp
  · simp

theorem given {E : Env K} {argv : List String} {i : Nat} {dflt x : K} (h : optional E argv i dflt = some x) : Given E argv i dflt x := by
  unfold optional at h
  split at h
  · exact Or.inl ⟨_, by assumption, h⟩
  · injection h with h
    exact Or.inr ⟨by assumption, h.symm⟩

theorem bind_ok {α β : Type} {r : Res α} {f : α → Res β} {b : β} (h : r.bind f = .ok b) : ∃ a, r = .ok a ∧ f a = .ok b := by
  cases r with
  | ok a => exact ⟨a, rfl, h⟩
  | exc e => cases h
  | ub => cases h

theorem bind_ne_ub {α β : Type} {r : Res α} {f : α → Res β} (h : r ≠ .ub) (hf : ∀ a, f a ≠ .ub) : r.bind f ≠ .ub := by
  cases r with
  | ok a => exact hf a
  | exc e => simp
  | ub => exact absurd rfl h

theorem counter_eq (k : Nat) (h : k + 2 < 2 ^ 32) : counter k = k + 2 := by
  induction k with
  | zero => rfl
  | succ k ih =>
    rw [counter, ih (by omega), next]
    omega

theorem counter_lt (k : Nat) : counter k < 2 ^ 32 := by
  cases k with
  | zero => decide
  | succ k => exact Nat.mod_lt _ (by decide)

end arguments

variable {P K D : Type} [DecidableEq D] [Zero K]

theorem reassigned_get (f : Nat → Nat) (grains : OMap (Grain P K)) (g : Nat) :
    (reassigned f grains).get? g = (grains.get? g).map fun G => { G with op := f G.op } := by
  induction grains with
  | nil => rfl
  | cons p l ih =>
    unfold reassigned at ih ⊢
    rw [List.map_cons, OMap.get?, OMap.get?, ih]
    split <;> rfl

theorem get_mem {α : Type} {m : OMap α} {k : Nat} {v : α} (h : m.get? k = some v) : (k, v) ∈ m := by
  induction m with
  | nil => cases h
  | cons p l ih =>
    rw [OMap.get?] at h
    split at h
    · injection h with h
      subst h
      rename_i hk
      subst hk
      exact List.mem_cons_self
    · exact List.mem_cons_of_mem _ (ih h)

/-- The grains at a cell after the reassignment. -/
theorem grainAt_reassigned {f : Nat → Nat} {lookup : Lookup} {grains : OMap (Grain P K)} {c : RCell D} {g : Nat} {G' : Grain P K} :
    GrainAt lookup (reassigned f grains) c g G' ↔ ∃ G, GrainAt lookup grains c g G ∧ G' = { G with op := f G.op } := by
  unfold GrainAt
  rw [reassigned_get]
  constructor
  · rintro ⟨h1, h2⟩
    obtain ⟨G, h3, rfl⟩ := Option.map_eq_some_iff.1 h2
    exact ⟨G, ⟨h1, h3⟩, rfl⟩
  · rintro ⟨G, ⟨h1, h2⟩, rfl⟩
    exact ⟨h1, by rw [h2]; rfl⟩

theorem remappable_of {n nb : Nat} {f : Nat → Nat} {F : Found P K D} (h : Good n F) (hn : n ≤ nb) (hf : ∀ a < n, f a < nb)
    (hinj : ∀ a < n, ∀ b < n, f a = f b → a = b) : Remappable nb 0 (reassigned f F.grains) F.lookup F.cells where
  sorted := by
    have := h.sorted
    unfold OMap.Sorted reassigned at *
    rw [List.pairwise_map]
    exact this
  ids := by
    intro p hp
    obtain ⟨q, hq, rfl⟩ := List.mem_map.1 hp
    exact h.ids q hq
  valid := h.valid
  home := by
    intro c hc op g G' hp hG
    obtain ⟨G, hG2, rfl⟩ := Option.map_eq_some_iff.1 ((reassigned_get f F.grains g).symm.trans hG)
    exact h.home c hc op g G hp hG2
  apart := by
    intro c hc g g' G G' hg hg' hne heq
    obtain ⟨G1, hG1, rfl⟩ := grainAt_reassigned.1 hg
    obtain ⟨G2, hG2, rfl⟩ := grainAt_reassigned.1 hg'
    have m1 := h.same _ (get_mem hG1.2)
    have m2 := h.same _ (get_mem hG2.2)
    have e := hinj _ m1.2 _ m2.2 heq
    obtain ⟨op, hp⟩ := hG1.1
    obtain ⟨op', hp'⟩ := hG2.1
    have e1 := h.home c hc op g G1 hp hG1.2
    have e2 := h.home c hc op' g' G2 hp' hG2.2
    have : op = op' := by
      have a1 : G1.op = G1.oldOp := m1.1
      have a2 : G2.op = G2.oldOp := m2.1
      have a3 : G1.op = G2.op := e
      omega
    subst this
    exact hne (present_unique hp hp')
  blocks := by
    intro p hp
    obtain ⟨q, hq, rfl⟩ := List.mem_map.1 hp
    have := h.same q hq
    refine ⟨hf _ this.2, ?_⟩
    show q.2.oldOp + 0 < nb
    omega

theorem remapOnce_ok {x : RemapExt} (hx : x.Ok) {F : Found P K D} {grains : OMap (Grain P K)} {s : St D K} (h : Remappable s.blocks 0 grains F.lookup F.cells) :
    ∃ sol', remapOnce x F grains s = .ok { s with sol := sol' } ∧ Remapped 0 grains F.lookup F.cells s.sol sol' := by
  obtain ⟨sol', h1, h2⟩ := C10_remap_partial hx h s.sol
  refine ⟨sol', ?_, h2⟩
  unfold remapOnce
  rw [h1]
  rfl

theorem measured_ok {x : RemapExt} (hx : x.Ok) {F : Found P K D} {grains : OMap (Grain P K)} (k : Nat) {s : St D K} (h : Remappable s.blocks 0 grains F.lookup F.cells) :
    ∃ sols : Nat → Fld D K, sols 0 = s.sol ∧ measured (remapOnce x F grains) k s = .ok { s with sol := sols k } ∧
      ∀ j < k, Remapped 0 grains F.lookup F.cells (sols j) (sols (j + 1)) := by
  induction k generalizing s with
  | zero => exact ⟨fun _ => s.sol, rfl, rfl, fun j hj => absurd hj (Nat.not_lt_zero _)⟩
  | succ k ih =>
    obtain ⟨sol', h1, h2⟩ := remapOnce_ok hx h
    obtain ⟨sols, h3, h4, h5⟩ := ih (s := { s with sol := sol' }) h
    refine ⟨fun j => match j with | 0 => s.sol | j + 1 => sols j, rfl, ?_, fun j hj => ?_⟩
    · rw [measured, h1]
      exact h4
    · cases j with
      | zero =>
        show Remapped 0 grains F.lookup F.cells s.sol (sols 0)
        rw [h3]
        exact h2
      | succ j => exact h5 j (by omega)

/-- The order parameter `o` at `d` after `j` shifts. -/
theorem shift_zero {n : Nat} {F : Found P K D} (hF : Good n F) {d : D} (hu : Uniform F d) {sols : Nat → Fld D K} {k : Nat}
    (h : ∀ j < k, Remapped 0 (reassigned (· + 1) F.grains) F.lookup F.cells (sols j) (sols (j + 1))) (o j : Nat) (hj : o < j) (hk : j ≤ k)
    (ho : ∃ c ∈ F.cells, d ∈ c.dofs ∧ ∃ g G, GrainAt F.lookup F.grains c g G ∧ (G.op = o ∨ G.op + 1 = o)) : sols j o d = 0 := by
  induction o generalizing j with
  | zero =>
    obtain ⟨c, hc, hdc, g, G, hG, h0⟩ := ho
    obtain ⟨j, rfl⟩ : ∃ i, j = i + 1 := ⟨j - 1, by omega⟩
    refine (h j (by omega)).vacated 0 d (fun c' hc' hd' g' G' hG' => ?_) ⟨c, hc, hdc, g, _, grainAt_reassigned.2 ⟨G, hG, rfl⟩, ?_⟩
    · obtain ⟨G1, -, rfl⟩ := grainAt_reassigned.1 hG'
      exact Nat.succ_ne_zero _
    · have := (hF.same _ (get_mem hG.2)).1
      show G.oldOp = 0
      have e : G.op = G.oldOp := this
      omega
  | succ o ih =>
    obtain ⟨c, hc, hdc, g, G, hG, h0⟩ := ho
    obtain ⟨j, rfl⟩ : ∃ i, j = i + 1 := ⟨j - 1, by omega⟩
    by_cases hex : ∃ g1 G1, GrainAt F.lookup F.grains c g1 G1 ∧ G1.op = o
    · obtain ⟨g1, G1, hG1, e1⟩ := hex
      have e2 := (h j (by omega)).grain g1 _ d ⟨c, hc, hdc⟩ fun c' hc' hd' => grainAt_reassigned.2 ⟨G1, hu c hc hdc c' hc' hd' g1 G1 hG1, rfl⟩
      have e3 : G1.op = G1.oldOp := (hF.same _ (get_mem hG1.2)).1
      have e4 : sols (j + 1) (G1.op + 1 + 0) d = sols j (G1.oldOp + 0) d := e2
      rw [← e3, e1, Nat.add_zero, Nat.add_zero] at e4
      rw [e4]
      exact ih j (by omega) (by omega) ⟨c, hc, hdc, g1, G1, hG1, Or.inl e1⟩
    · have h1 : G.op = o + 1 := by
        rcases h0 with h0 | h0
        · exact h0
        · exact absurd ⟨g, G, hG, by omega⟩ hex
      refine (h j (by omega)).vacated (o + 1) d (fun c' hc' hd' g' G' hG' => ?_) ⟨c, hc, hdc, g, _, grainAt_reassigned.2 ⟨G, hG, rfl⟩, ?_⟩
      · obtain ⟨G1, hG1, rfl⟩ := grainAt_reassigned.1 hG'
        intro he
        refine hex ⟨g', G1, hu c' hc' hd' c hc hdc g' G1 hG1, ?_⟩
        have : G1.op + 1 = o + 1 := he
        omega
      · have e : G.op = G.oldOp := (hF.same _ (get_mem hG.2)).1
        show G.oldOp = o + 1
        omega

end Verif.TrackerBench
