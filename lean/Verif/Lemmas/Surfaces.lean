/-
Lemmas for files with surfaces.
-/
import Verif.Spec.Surfaces
import Mathlib.Algebra.BigOperators.Group.List.Basic
import Mathlib.Data.Multiset.Bind

namespace Verif.Surfaces

open Verif.Cycle Verif.OutTrack Verif.Surfaces.Spec

set_option linter.unusedSectionVars false

variable {P K Cell Q : Type}

/-- number written if the answer is a number -/
def lab (ask : Res (Option Nat)) : Int := match ask with
  | .ok g => (g.getD invalidUInt : Nat)
  | _ => 0

theorem cellElems_ok (t : Option (State P K)) (index : Cell → Nat) (r b : Nat) (c : Cell) (qs : List Q) :
    ∀ acc f, cellElems t index r b c qs acc = .ok f ↔
      (qs ≠ [] → ∃ g, numberOf t b (index c) = .ok g) ∧
        f = acc ++ qs.map fun q => (⟨q, lab (numberOf t b (index c)), b, r⟩ : Elem Q) := by
  induction qs with
  | nil => intro acc f; simp [cellElems, eq_comm]
  | cons q qs ih =>
    intro acc f
    unfold cellElems
    cases h : numberOf t b (index c) with
    | ok g =>
      have := ih (acc ++ [⟨q, (g.getD invalidUInt : Nat), b, r⟩]) f
      rw [h] at this
      show cellElems t index r b c qs _ = .ok f ↔ _
      rw [this]
      simp [lab]
    | exc e => simp [Res.bind]
    | ub => simp [Res.bind]

theorem blockElems_ok (t : Option (State P K)) (index : Cell → Nat) (mc : Nat → Cell → List Q) (r b : Nat) (cs : List Cell) :
    ∀ acc f, blockElems t index mc r b cs acc = .ok f ↔
      (∀ c ∈ cs, mc b c ≠ [] → ∃ g, numberOf t b (index c) = .ok g) ∧
        f = acc ++ cs.flatMap fun c => (mc b c).map fun q => (⟨q, lab (numberOf t b (index c)), b, r⟩ : Elem Q) := by
  induction cs with
  | nil => intro acc f; simp [blockElems, eq_comm]
  | cons c cs ih =>
    intro acc f
    unfold blockElems
    constructor
    · intro h
      obtain ⟨a, h1, h2⟩ := (Res.bind_eq_ok).1 h
      obtain ⟨x1, x2⟩ := (cellElems_ok t index r b c (mc b c) acc a).1 h1
      obtain ⟨y1, y2⟩ := (ih a f).1 h2
      refine ⟨fun c' hc' => ?_, by rw [y2, x2]; simp⟩
      rcases List.mem_cons.1 hc' with e | e
      · rw [e]; exact x1
      · exact y1 c' e
    · rintro ⟨h1, h2⟩
      have e1 := (cellElems_ok t index r b c (mc b c) acc _).2 ⟨h1 c (by simp), rfl⟩
      rw [e1]
      exact (ih _ f).2 ⟨fun c' hc' => h1 c' (by simp [hc']), by rw [h2]; simp⟩

theorem rankElems_ok (t : Option (State P K)) (index : Cell → Nat) (mc : Nat → Cell → List Q) (r : Nat) (owned : List Cell) (bs : List Nat) :
    ∀ acc f, rankElems t index mc r owned bs acc = .ok f ↔
      (∀ b ∈ bs, ∀ c ∈ owned, mc b c ≠ [] → ∃ g, numberOf t b (index c) = .ok g) ∧
        f = acc ++ bs.flatMap fun b => owned.flatMap fun c => (mc b c).map fun q => (⟨q, lab (numberOf t b (index c)), b, r⟩ : Elem Q) := by
  induction bs with
  | nil => intro acc f; simp [rankElems, eq_comm]
  | cons b bs ih =>
    intro acc f
    unfold rankElems
    constructor
    · intro h
      obtain ⟨a, h1, h2⟩ := (Res.bind_eq_ok).1 h
      obtain ⟨x1, x2⟩ := (blockElems_ok t index mc r b owned acc a).1 h1
      obtain ⟨y1, y2⟩ := (ih a f).1 h2
      refine ⟨fun c' hc' => ?_, by rw [y2, x2]; simp⟩
      rcases List.mem_cons.1 hc' with e | e
      · rw [e]; exact x1
      · exact y1 c' e
    · rintro ⟨h1, h2⟩
      have e1 := (blockElems_ok t index mc r b owned acc _).2 ⟨h1 b (by simp), rfl⟩
      rw [e1]
      exact (ih _ f).2 ⟨fun c' hc' => h1 c' (by simp [hc']), by rw [h2]; simp⟩

/-- pieces of one rank -/
def piecesOf (t : Option (State P K)) (index : Cell → Nat) (mc : Nat → Cell → List Q) (nBlocks r : Nat) (owned : List Cell) : List (Elem Q) :=
  (List.range nBlocks).flatMap fun b => owned.flatMap fun c => (mc b c).map fun q => ⟨q, lab (numberOf t b (index c)), b, r⟩

theorem writeFrom_ok (dofs : Bool) (t : Option (State P K)) (index : Cell → Nat) (mc : Nat → Cell → List Q) (cube : Q) (nBlocks : Nat)
    (ranks : List (List Cell)) (hs : dofs = false → ∀ owned ∈ ranks, owned = []) :
    ∀ r f, writeFrom dofs t index mc cube nBlocks r ranks = .ok f ↔
      (∀ owned ∈ ranks, ∀ c ∈ owned, ∀ b < nBlocks, mc b c ≠ [] → ∃ g, numberOf t b (index c) = .ok g) ∧
        f = (ranks.zipIdx r).flatMap fun o => orDummy cube o.2 (piecesOf t index mc nBlocks o.2 o.1) := by
  induction ranks with
  | nil => intro r f; simp [writeFrom, eq_comm]
  | cons owned rest ih =>
    intro r f
    have ih := ih (fun h o ho => hs h o (by simp [ho])) (r + 1)
    unfold writeFrom
    have hrank : ∀ es, (if dofs then rankElems t index mc r owned (List.range nBlocks) [] else .ok []) = .ok es ↔
        (∀ c ∈ owned, ∀ b < nBlocks, mc b c ≠ [] → ∃ g, numberOf t b (index c) = .ok g) ∧ es = piecesOf t index mc nBlocks r owned := by
      intro es
      cases hd : dofs with
      | true =>
        rw [if_pos rfl, rankElems_ok]
        simp only [List.mem_range, List.nil_append, piecesOf]
        constructor
        · rintro ⟨a, b⟩; exact ⟨fun c hc b hb => a b hb c hc, b⟩
        · rintro ⟨a, b⟩; exact ⟨fun b hb c hc => a c hc b hb, b⟩
      | false =>
        have := hs hd owned (by simp)
        subst this
        simp only [piecesOf, List.flatMap_nil]
        simp [List.flatMap_eq_nil_iff.2, eq_comm]
    constructor
    · intro h
      obtain ⟨es, h1, h2⟩ := (Res.bind_eq_ok).1 h
      obtain ⟨g, h3, h4⟩ := (Res.bind_eq_ok).1 h2
      obtain ⟨x1, x2⟩ := (hrank es).1 h1
      obtain ⟨y1, y2⟩ := (ih g).1 h3
      simp only [Res.ok.injEq] at h4
      refine ⟨fun o ho => ?_, by rw [← h4, y2, x2]; simp [List.zipIdx_cons]⟩
      rcases List.mem_cons.1 ho with e | e
      · rw [e]; exact x1
      · exact y1 o e
    · rintro ⟨h1, h2⟩
      have e1 := (hrank _).2 ⟨h1 owned (by simp), rfl⟩
      have e2 := (ih _).2 ⟨fun o ho => h1 o (by simp [ho]), rfl⟩
      rw [e1]
      show (writeFrom dofs t index mc cube nBlocks (r + 1) rest).bind _ = _
      rw [e2, h2]
      simp [List.zipIdx_cons, Res.bind]

theorem mem_piecesOf {t : Option (State P K)} {index : Cell → Nat} {mc : Nat → Cell → List Q} {nBlocks r : Nat} {owned : List Cell} {e : Elem Q} :
    e ∈ piecesOf t index mc nBlocks r owned ↔
      ∃ b < nBlocks, ∃ c ∈ owned, ∃ q ∈ mc b c, e = ⟨q, lab (numberOf t b (index c)), b, r⟩ := by
  simp only [piecesOf, List.mem_flatMap, List.mem_range, List.mem_map]
  constructor
  · rintro ⟨b, hb, c, hc, q, hq, rfl⟩; exact ⟨b, hb, c, hc, q, hq, rfl⟩
  · rintro ⟨b, hb, c, hc, q, hq, rfl⟩; exact ⟨b, hb, c, hc, q, hq, rfl⟩

theorem filter_pieces (t : Option (State P K)) (index : Cell → Nat) (mc : Nat → Cell → List Q) (nBlocks r : Nat) (owned : List Cell) (cube : Q) :
    (orDummy cube r (piecesOf t index mc nBlocks r owned)).filter (fun e => decide (0 ≤ e.op)) = piecesOf t index mc nBlocks r owned := by
  unfold orDummy
  split
  · rename_i h
    rw [List.isEmpty_iff.1 h]
    simp
  · rw [List.filter_eq_self]
    intro e he
    obtain ⟨b, -, c, -, q, -, rfl⟩ := mem_piecesOf.1 he
    simp

theorem piecesOf_nil {t : Option (State P K)} {index : Cell → Nat} {mc : Nat → Cell → List Q} {nBlocks r : Nat} {owned : List Cell} :
    piecesOf t index mc nBlocks r owned = [] ↔ Bare mc nBlocks owned := by
  rw [List.eq_nil_iff_forall_not_mem]
  constructor
  · intro h c hc b hb
    rw [List.eq_nil_iff_forall_not_mem]
    intro q hq
    exact h _ (mem_piecesOf.2 ⟨b, hb, c, hc, q, hq, rfl⟩)
  · intro h e he
    obtain ⟨b, hb, c, hc, q, hq, -⟩ := mem_piecesOf.1 he
    rw [h c hc b hb] at hq
    simp at hq

theorem flatMap_swap {α β γ : Type} (l : List α) (m : List β) (f : α → β → List γ) :
    (l.flatMap fun a => m.flatMap fun b => f a b).Perm (m.flatMap fun b => l.flatMap fun a => f a b) := by
  rw [← Multiset.coe_eq_coe]
  have h := Multiset.bind_bind (l : Multiset α) (m : Multiset β) (f := fun a b => (f a b : Multiset γ))
  simpa [Multiset.coe_bind] using h

theorem filter_flatMap' {α β : Type} (l : List α) (f : α → List β) (p : β → Bool) :
    (l.flatMap f).filter p = l.flatMap fun a => (f a).filter p := by
  induction l with
  | nil => rfl
  | cons a l ih => simp [ih]

theorem map_flatMap' {α β γ : Type} (l : List α) (f : α → List β) (g : β → γ) :
    (l.flatMap f).map g = l.flatMap fun a => (f a).map g := by
  induction l with
  | nil => rfl
  | cons a l ih => simp [ih]

theorem perm_flatMap {α β : Type} (l : List α) {f g : α → List β} (h : ∀ a, (f a).Perm (g a)) : (l.flatMap f).Perm (l.flatMap g) := by
  induction l with
  | nil => exact .refl _
  | cons a l ih => simpa using (h a).append ih

/-- what is written on success -/
theorem write_spec {steps : Nat} {filter : Option (Mesh Cell Q → Mesh Cell Q)} {mesh coarse used : Mesh Cell Q} {cube : Q} {nBlocks : Nat}
    {st : State P K} {ghosted : Bool} (hu : Uses steps filter mesh coarse used) (hs : Sound used) (f : List (Elem Q)) :
    (writeContours steps filter mesh coarse cube nBlocks st ghosted).1 = .ok f ↔
      Answered used nBlocks (numberOf (if steps = 0 then some st else none)) ∧
        f = used.ranks.zipIdx.flatMap fun o => orDummy cube o.2 (piecesOf (if steps = 0 then some st else none) used.index used.mc nBlocks o.2 o.1) := by
  have key := writeFrom_ok used.dofs (if steps = 0 then some st else none) used.index used.mc cube nBlocks used.ranks hs 0 f
  have hused : usedMesh steps filter mesh coarse = used := by
    unfold usedMesh
    obtain ⟨h1, h2, h3⟩ := hu
    cases hf : filter with
    | none =>
      by_cases hz : steps = 0
      · simp [hz, h1 hz hf]
      · simp [hz, h2 hz hf]
    | some g =>
      obtain ⟨a, b⟩ := h3 g hf
      by_cases hz : steps = 0
      · simp [hz, a hz]
      · simp [hz, b hz]
  unfold writeContours
  simp only [hused]
  rw [show Answered used nBlocks (numberOf (if steps = 0 then some st else none)) = _ from rfl]
  unfold Answered
  rw [← key]
  generalize writeFrom used.dofs (if steps = 0 then some st else none) used.index used.mc cube nBlocks 0 used.ranks = x
  cases x <;> simp

theorem write_ghost {steps : Nat} {filter : Option (Mesh Cell Q → Mesh Cell Q)} {mesh coarse : Mesh Cell Q} {cube : Q} {nBlocks : Nat}
    {st : State P K} {ghosted : Bool} :
    (∀ f, (writeContours steps filter mesh coarse cube nBlocks st ghosted).1 = .ok f →
      (writeContours steps filter mesh coarse cube nBlocks st ghosted).2 = ghosted) ∧
    ((∀ f, (writeContours steps filter mesh coarse cube nBlocks st ghosted).1 ≠ .ok f) →
      (writeContours steps filter mesh coarse cube nBlocks st ghosted).2 = true) := by
  unfold writeContours
  simp only
  generalize writeFrom _ _ _ _ _ _ _ _ = x
  cases x <;> simp

theorem sum_surface {M : Type} [AddCommMonoid M] (μ : Q → M) (mc : Cell → List Q) (cube : Q) (ranks : List (List Cell)) :
    ∀ r, ((writeSurface mc cube r ranks).map fun e => μ e.1).sum =
      ((ranks.flatMap fun o => o.flatMap mc).map μ).sum + (ranks.countP fun o => (o.flatMap mc).isEmpty) • μ cube := by
  induction ranks with
  | nil => intro r; simp [writeSurface]
  | cons o rest ih =>
    intro r
    unfold writeSurface
    rw [List.map_append, List.sum_append, ih (r + 1), List.countP_cons]
    by_cases h : (o.flatMap mc).isEmpty = true
    · rw [if_pos h, if_pos h, List.flatMap_cons, List.isEmpty_iff.1 h, add_nsmul, one_nsmul]
      simp only [List.map_cons, List.map_nil, List.sum_cons, List.sum_nil, add_zero, List.nil_append]
      rw [add_left_comm, add_comm (μ cube)]
    · rw [if_neg h, if_neg h, List.flatMap_cons, List.map_append, List.sum_append, add_zero]
      simp only [List.map_map, Function.comp_def, add_assoc]

theorem count_spheres [DecidableEq P] [DecidableEq K] (n : Nat) (grains : OMap (Grain P K)) (x : P × Nat × K × Nat) :
    (writeSpheres n grains).count x = n * (spheres grains).count x := by
  unfold writeSpheres
  induction n with
  | zero => simp
  | succ n ih => rw [List.range_succ, List.flatMap_append, List.count_append, ih]; simp [Nat.add_mul]

end Verif.Surfaces
