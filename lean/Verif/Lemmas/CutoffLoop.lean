/-
Lemmas on dropping neglected order parameters.
-/
import Verif.Spec.CutoffLoop
import Verif.Lemmas.FreeEnergy
import Mathlib.Algebra.BigOperators.Group.List.Basic
import Mathlib.Tactic.Ring
import Mathlib.Tactic.Abel

set_option linter.unusedSectionVars false

namespace Verif.CutoffLoop

open Verif.SinteringKernel Verif.FreeEnergy Verif.Mobility

section lists

variable {α β : Type}

/-- `l'` arises from `l` by dropping elements marked `false`, which have to satisfy `null`. -/
inductive Drop (null : α → Prop) : List Bool → List α → List α → Prop
  | nil : Drop null [] [] []
  | keep {fs l l'} (a : α) : Drop null fs l l' → Drop null (true :: fs) (a :: l) (a :: l')
  | drop {fs l l'} (a : α) : null a → Drop null fs l l' → Drop null (false :: fs) (a :: l) l'

/-- Positions marked `true`, counted from `k`. -/
def pos (k : Nat) : List Bool → List Nat
  | [] => []
  | true :: fs => k :: pos (k + 1) fs
  | false :: fs => pos (k + 1) fs

/-- Results of the marked elements put back to their positions. -/
def spread [Zero β] : List Bool → List β → List β
  | [], _ => []
  | true :: fs, r :: rs => r :: spread fs rs
  | true :: fs, [] => 0 :: spread fs []
  | false :: fs, rs => 0 :: spread fs rs

theorem Drop.gather {null : α → Prop} {fs : List Bool} {l l' : List α} (h : Drop null fs l l') (pre : List α) :
    gather (pre ++ l) (pos pre.length fs) = .ok l' := by
  induction h generalizing pre with
  | nil => rfl
  | @keep fs l l' a h ih =>
    have h1 := ih (pre ++ [a])
    rw [List.length_append, List.length_singleton, List.append_assoc, List.singleton_append] at h1
    unfold CutoffLoop.gather at h1 ⊢
    rw [pos, List.mapM_cons, h1]
    have : Res.index (pre ++ a :: l) pre.length = .ok a := by
      rw [Res.index_eq_ok]; simp
    rw [this]; rfl
  | @drop fs l l' a _ h ih =>
    have h1 := ih (pre ++ [a])
    rw [List.length_append, List.length_singleton, List.append_assoc, List.singleton_append] at h1
    rw [pos]; exact h1

theorem scatter_spread [AddMonoid β] (fs : List Bool) (rs pre : List β) (h : rs.length = (fs.filter id).length) :
    scatter (pre ++ fs.map fun _ => 0) (pos pre.length fs) rs = .ok (pre ++ spread fs rs) := by
  induction fs generalizing rs pre with
  | nil => cases rs <;> simp [pos, scatter, spread]
  | cons f fs ih =>
    cases f with
    | false =>
      have := ih rs (pre ++ [0]) (by simpa using h)
      simpa [pos, spread] using this
    | true =>
      cases rs with
      | nil => simp at h
      | cons r rs =>
        have := ih rs (pre ++ [r]) (by simpa using h)
        rw [pos, scatter]
        simp only [List.map_cons, List.getElem?_append_right (Nat.le_refl _), Nat.sub_self,
          List.getElem?_cons_zero, zero_add, List.set_append_right _ _ (Nat.le_refl _), List.set_cons_zero]
        simpa [spread] using this

theorem Drop.spread_map [Zero β] {null : α → Prop} {fs : List Bool} {l l' : List α} (h : Drop null fs l l')
    (f : α → β) (hf : ∀ a, null a → f a = 0) : spread fs (l'.map f) = l.map f := by
  induction h with
  | nil => rfl
  | keep a _ ih => simp [spread, ih]
  | drop a ha _ ih => simp [spread, ih, hf a ha]

theorem Drop.sum_map [AddCommMonoid β] {null : α → Prop} {fs : List Bool} {l l' : List α} (h : Drop null fs l l')
    (f : α → β) (hf : ∀ a, null a → f a = 0) : (l'.map f).sum = (l.map f).sum := by
  induction h with
  | nil => rfl
  | keep a _ ih => simp [ih]
  | drop a ha _ ih => simp [ih, hf a ha]

theorem Drop.length {null : α → Prop} {fs : List Bool} {l l' : List α} (h : Drop null fs l l') :
    l'.length = (fs.filter id).length ∧ l.length = fs.length := by
  induction h with
  | nil => simp
  | keep a _ ih => simp [ih]
  | drop a _ _ ih => simp [ih]

theorem Drop.le {null : α → Prop} {fs : List Bool} {l l' : List α} (h : Drop null fs l l') : l'.length ≤ l.length := by
  have := h.length
  rw [this.1, this.2]; exact List.length_filter_le _ _

theorem Drop.map {null : α → Prop} {null' : β → Prop} {fs : List Bool} {l l' : List α} (h : Drop null fs l l')
    (f : α → β) (hf : ∀ a, null a → null' (f a)) : Drop null' fs (l.map f) (l'.map f) := by
  induction h with
  | nil => exact .nil
  | keep a _ ih => exact .keep _ ih
  | drop a ha _ ih => exact .drop _ (hf a ha) ih

/-- Dropping by position. -/
theorem Drop.ofFlags {null : α → Prop} (l : List α) (k : Nat) (keep : Nat → Bool)
    (h : ∀ i a, l[i]? = some a → keep (k + i) = false → null a) :
    ∃ l', Drop null ((List.range' k l.length).map keep) l l' := by
  induction l generalizing k with
  | nil => exact ⟨[], .nil⟩
  | cons a l ih =>
    obtain ⟨l', hl⟩ := ih (k + 1) (fun i b hb hk => h (i + 1) b (by simpa using hb) (by
      rw [show k + (i + 1) = k + 1 + i by omega]; exact hk))
    rw [List.length_cons, List.range'_succ, List.map_cons]
    by_cases hk : keep k = true
    · rw [hk]; exact ⟨_, .keep a hl⟩
    · have hk' : keep k = false := by simpa using hk
      rw [hk']; exact ⟨_, .drop a (h 0 a (by simp) (by simpa using hk')) hl⟩

theorem pos_range' (k n : Nat) (keep : Nat → Bool) :
    pos k ((List.range' k n).map keep) = (List.range' k n).filter keep := by
  induction n generalizing k with
  | zero => rfl
  | succ n ih =>
    rw [List.range'_succ, List.map_cons]
    by_cases hk : keep k = true
    · rw [hk, pos, ih, List.filter_cons_of_pos hk]
    · have hk' : keep k = false := by simpa using hk
      rw [hk', pos, ih, List.filter_cons_of_neg hk]

theorem shift_filter (n k : Nat) (keep : Nat → Bool) :
    ((List.range' k n).filter keep).map (· + 2) = (List.range' (k + 2) n).filter fun b => keep (b - 2) := by
  induction n generalizing k with
  | zero => rfl
  | succ n ih =>
    rw [List.range'_succ, List.range'_succ]
    by_cases hk : keep k = true
    · rw [List.filter_cons_of_pos hk, List.filter_cons_of_pos (by simpa using hk), List.map_cons, ih]
    · rw [List.filter_cons_of_neg hk, List.filter_cons_of_neg (by simpa using hk), ih]

open Verif.CutoffLoop.Spec in
theorem vmultBlocks_eq (n : Nat) (keep : Nat → Bool) :
    vmultBlocks (relevant n keep) = pos 0 ((List.range' 0 (n + 2)).map (active keep)) := by
  rw [pos_range', vmultBlocks, relevant, List.range_eq_range', shift_filter]
  rw [List.range'_succ, List.range'_succ, List.filter_cons_of_pos (by simp [active]),
    List.filter_cons_of_pos (by simp [active])]
  congr 2
  apply List.filter_congr
  intro b hb
  have := (List.mem_range'_1.1 hb).1
  simp [active, show ¬ b < 2 by omega]

open Verif.CutoffLoop.Spec in
theorem residualBlocks_eq (n : Nat) (keep : Nat → Bool) (hn : n ≤ 254) :
    residualBlocks (relevant n keep) = vmultBlocks (relevant n keep) := by
  unfold residualBlocks vmultBlocks
  congr 2
  apply List.map_congr_left
  intro b hb
  have := List.mem_range.1 (List.mem_filter.1 hb).1
  omega

end lists

section kernels

variable {K : Type} [Field K] [LinearOrder K] {V : Type} [AddCommGroup V] [Module K V]

theorem advect_form (c : K) (g : V) (l : List (Option V × K × V)) :
    advect c g l = (g - c • (l.map fun t => t.1.getD 0).sum, l.map fun t => t.2.2 - t.2.1 • t.1.getD 0) := by
  induction l generalizing g with
  | nil => simp [advect]
  | cons t l ih =>
    rcases t with ⟨_ | v, e, h⟩
    · simp [advect, ih]
    · simp [advect, ih, smul_add, sub_sub]

theorem mixedLoop_form (fe : Eval K) (a : K) (l : List (K × K)) :
    mixedLoop fe a l = a - (l.map fun t => fe.d2f_dcdetai t.1 * t.2).sum := by
  induction l generalizing a with
  | nil => simp [mixedLoop]
  | cons t l ih =>
    rcases t with ⟨e, v⟩
    simp [mixedLoop, ih]
    ring

theorem factorLoop_form (s a : K) (l : List (K × K)) :
    factorLoop s a l = a + (l.map fun t => (s - t.1) * t.2).sum := by
  induction l generalizing a with
  | nil => simp [factorLoop]
  | cons t l ih =>
    rcases t with ⟨e, d⟩
    simp [factorLoop, ih]
    ring

theorem preFold (a e : K) (pre : List K) : pre.foldl (fun a f => a + e * f) a = a + e * pre.sum := by
  induction pre generalizing a with
  | nil => simp
  | cons f pre ih => simp [ih]; ring

theorem pairLoop_drop {fs : List Bool} {l l' : List K} (h : Drop (· = 0) fs l l') (a : K) (pre pre' : List K)
    (hp : pre'.sum = pre.sum) : pairLoop a pre' l' = pairLoop a pre l := by
  induction h generalizing a pre pre' with
  | nil => rfl
  | keep e _ ih =>
    rw [pairLoop, pairLoop, preFold, preFold, hp]
    exact ih _ _ _ (by simp [hp])
  | drop e he _ ih =>
    rw [pairLoop, preFold, he, zero_mul, add_zero]
    exact ih _ _ _ (by simp [hp])

theorem scalarM_drop (m : Coeff K) (c : K) {fs : List Bool} {l l' : List K} (h : Drop (· = 0) fs l l') :
    scalarM m c l' = scalarM m c l := by
  rw [scalarM, scalarM, pairLoop_drop h 0 [] [] rfl]

theorem etaSum_form (a : K) (l : List (K × K)) : l.foldl (fun a e => a + e.1) a = a + (l.map (·.1)).sum := by
  induction l generalizing a with
  | nil => simp
  | cons e l ih => simp [ih, add_assoc]

theorem zip_map_id {α β : Type} (l : List α) (f : α → β) : l.zip (l.map f) = l.map fun a => (a, f a) := by
  induction l with
  | nil => rfl
  | cons a l ih => simp [ih]

theorem zip_maps {α β γ : Type} (l : List α) (f : α → β) (g : α → γ) :
    (l.map f).zip (l.map g) = l.map fun a => (f a, g a) := by
  induction l with
  | nil => rfl
  | cons a l ih => simp [ih]

theorem eval_form (with3 : Bool) (A B c mu : K) (etas : List K) :
    FreeEnergy.eval with3 A B (c :: mu :: etas) etas.length =
      .ok { A := A, B := B, c := c, p2 := (etas.map (· ^ 2)).sum,
            p3 := if with3 then some ((etas.map (· ^ 3)).sum) else none } := by
  have := eval_ok with3 A B c mu etas []
  simpa using this

/-- The order parameter has no influence on the residual. -/
def NullGrain (g : Grain K V) : Prop := g.eta = 0 ∧ g.grad = 0 ∧ g.vel = none ∧ g.buf = 0

/-- The residual with neglected order parameters left out. -/
theorem residual_drop (p : Par K) (mode : Nat) (c mu : K) (gC gM : V) (bC : K) {fs : List Bool}
    {l l' : List (Grain K V)} (h : Drop NullGrain fs l l') :
    ∃ (u : K × V) (w : K × V) (e e' : List (K × V)), e'.length = l'.length ∧ spread fs e' = e ∧
      residual p mode { c := c, mu := mu, gradC := gC, gradMu := gM, grains := l', bufC := bC } =
        .ok ⟨u.1, u.2, w.1, w.2, e'⟩ ∧
      residual p mode { c := c, mu := mu, gradC := gC, gradMu := gM, grains := l, bufC := bC } =
        .ok ⟨u.1, u.2, w.1, w.2, e⟩ := by
  have hs : ∀ k, k ≠ 0 → (l'.map fun g => g.eta ^ k).sum = (l.map fun g => g.eta ^ k).sum := fun k hk =>
    h.sum_map _ fun g hg => by rw [hg.1, zero_pow hk]
  have hm : scalarM p.mob c (l'.map (·.eta)) = scalarM p.mob c (l.map (·.eta)) :=
    scalarM_drop _ _ (h.map _ fun g hg => hg.1)
  have hv : (l'.map fun g => g.vel.getD 0).sum = (l.map fun g => g.vel.getD 0).sum :=
    h.sum_map _ fun g hg => by rw [hg.2.2.1]; rfl
  have hs2 := hs 2 (by omega)
  have hs3 := hs 3 (by omega)
  unfold SinteringKernel.residual
  simp only [eval_form, Res.ok_bind, Eval.df_dc, if_true, List.map_map, Function.comp_def, zip_map_id, advect_form,
    applyM, hs2, hs3, hm, hv, zip_maps, Eval.df_detai]
  refine ⟨(_, _), (_, _), _, _, ?_, ?_, rfl, rfl⟩
  · simp
  · apply h.spread_map
    intro g hg
    rcases hg with ⟨h1, h2, h3, h4⟩
    simp [h1, h2, h3, h4]

/-- The order parameter and its increment have no influence on the Jacobian. -/
def NullPair (t : Grain K V × K × V) : Prop := t.1.eta = 0 ∧ t.1.vel = none ∧ t.2.1 = 0 ∧ t.2.2 = 0

/-- The Jacobian with neglected order parameters left out. -/
theorem vmult_drop (p : Par K) (c mu bC dc dmu : K) (gC gM dgC dgM : V) {fs : List Bool}
    {l l' : List (Grain K V × K × V)} (h : Drop NullPair fs l l') :
    ∃ (u : K × V) (w : K × V) (e e' : List (K × V)), e'.length = l'.length ∧ spread fs e' = e ∧
      vmult p { c := c, mu := mu, gradC := gC, gradMu := gM, grains := l'.map (·.1), bufC := bC }
        { c := dc, mu := dmu, gradC := dgC, gradMu := dgM, etas := l'.map (·.2) } = .ok ⟨u.1, u.2, w.1, w.2, e'⟩ ∧
      vmult p { c := c, mu := mu, gradC := gC, gradMu := gM, grains := l.map (·.1), bufC := bC }
        { c := dc, mu := dmu, gradC := dgC, gradMu := dgM, etas := l.map (·.2) } = .ok ⟨u.1, u.2, w.1, w.2, e⟩ := by
  have hs2 : (l'.map fun t => t.1.eta ^ 2).sum = (l.map fun t => t.1.eta ^ 2).sum :=
    h.sum_map _ fun g hg => by rw [hg.1, zero_pow (by omega)]
  have hm : scalarM p.mob c (l'.map fun t => t.1.eta) = scalarM p.mob c (l.map fun t => t.1.eta) :=
    scalarM_drop _ _ (h.map _ fun g hg => hg.1)
  have hv : (l'.map fun t => t.1.vel.getD 0).sum = (l.map fun t => t.1.vel.getD 0).sum :=
    h.sum_map _ fun g hg => by rw [hg.2.1]; rfl
  have he : (l'.map fun t => t.1.eta).sum = (l.map fun t => t.1.eta).sum := h.sum_map _ fun g hg => hg.1
  have hf : ∀ s : K, (l'.map fun t => (s - t.1.eta) * t.2.1).sum = (l.map fun t => (s - t.1.eta) * t.2.1).sum :=
    fun s => h.sum_map _ fun g hg => by rw [hg.2.2.1, mul_zero]
  have hx : ∀ fe : Eval K, (l'.map fun t => fe.d2f_dcdetai t.1.eta * t.2.1).sum =
      (l.map fun t => fe.d2f_dcdetai t.1.eta * t.2.1).sum :=
    fun fe => h.sum_map _ fun g hg => by rw [hg.2.2.1, mul_zero]
  have hd : (l'.map fun t => t.1.eta * t.2.1).sum = (l.map fun t => t.1.eta * t.2.1).sum :=
    h.sum_map _ fun g hg => by rw [hg.1, zero_mul]
  unfold SinteringKernel.vmult
  simp only [eval_form, Res.ok_bind, List.map_map, Function.comp_def, zip_maps, zip_map_id, advect_form,
    applyMDerivative, etaSum_form, factorLoop_form, mixedLoop_form, applyD2f_eq, hs2, hm, hv, he, hf, hx, hd]
  refine ⟨(_, _), (_, _), _, _, ?_, ?_, rfl, rfl⟩
  · simp
  · apply h.spread_map
    intro g hg
    rcases hg with ⟨h1, h2, h3, h4⟩
    simp [h1, h2, h3, h4, Eval.d2f_dcdetai]

end kernels

end Verif.CutoffLoop
