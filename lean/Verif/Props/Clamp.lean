/-
C84: clamped sections. C85: choice of the origin.
-/
import Verif.Model.Clamp
import Verif.Spec.Clamp
import Verif.Lemmas.Clamp
import Mathlib.Tactic.LinearCombination
import Mathlib.Tactic.Ring
import Mathlib.Tactic.FinCases
import Mathlib.Tactic.Linarith
import Mathlib.Algebra.Order.Field.Basic
import Mathlib.Algebra.Order.Ring.Rat
import Mathlib.Algebra.Field.Rat

namespace Verif.Props

open Verif.Clamp Verif.Spec.Clamp

variable {K : Type} {dim : Nat}

/-! ### C84 -/

/-- **C84** (which unknowns).  A direction of the mask is constrained at exactly the unknowns of faces of owned cells whose centre lies in
the section; any other direction at most at the origin. Nothing is listed twice. -/
theorem C84_section [Ring K] [LinearOrder K] (tol : K) (cells : List (Cell K dim)) (origin : Fin dim → K) (mask : Fin dim → Bool)
    (here : Bool) (point : Nat) (d : Fin dim) :
    (clampSection tol cells origin mask here point d).Nodup ∧
    ∀ i, i ∈ clampSection tol cells origin mask here point d ↔
      if mask d then ∃ c ∈ cells, ∃ f ∈ c.faces, |f.center d - origin d| < tol ∧ i ∈ f.dofs
      else i = point ∧ here = true ∧ (directions mask).length < dim - 1 := by
  unfold clampSection sectionDofs pointwise
  by_cases hm : mask d
  · simp only [hm, if_true, Bool.not_true, Bool.and_false, Bool.false_eq_true, if_false, List.append_nil]
    refine ⟨List.nodup_dedup _, fun i => ?_⟩
    simp only [List.mem_dedup, List.mem_flatMap, List.mem_filter, inSection, decide_eq_true_eq]
    constructor
    · rintro ⟨f, ⟨⟨c, hc, hf⟩, ht⟩, hi⟩; exact ⟨c, hc, f, hf, ht, hi⟩
    · rintro ⟨c, hc, f, hf, ht, hi⟩; exact ⟨f, ⟨⟨c, hc, hf⟩, ht⟩, hi⟩
  · simp only [hm, Bool.false_eq_true, if_false, List.nil_append, Bool.not_false, Bool.and_true, Bool.and_eq_true,
      decide_eq_true_eq]
    by_cases hh : here = true ∧ (directions mask).length < dim - 1
    · simp [hh]
    · rw [if_neg hh]
      refine ⟨List.nodup_nil, fun i => ?_⟩
      constructor
      · intro h; cases h
      · rintro ⟨_, h⟩; exact absurd h hh

/-- **C84** (which unknowns, within a particle). -/
theorem C84_particle [Ring K] [LinearOrder K] (tol threshold : K) (cells : List (Cell K dim)) (value : Nat → K) (op particle : Nat)
    (origin : Fin dim → K) (mask : Fin dim → Bool) (here : Bool) (point : Nat) (d : Fin dim) :
    (clampParticle tol threshold cells value op particle origin mask here point d).Nodup ∧
    ∀ i, i ∈ clampParticle tol threshold cells value op particle origin mask here point d ↔
      if mask d then ∃ c ∈ cells, c.particle op = some particle ∧ ∃ f ∈ c.faces, |f.center d - origin d| < tol ∧ i ∈ f.dofs ∧
        threshold < value i
      else i = point ∧ here = true := by
  unfold clampParticle particleDofs pointwise
  by_cases hm : mask d
  · simp only [hm, if_true, Bool.not_true, Bool.and_false, Bool.false_eq_true, if_false, List.append_nil]
    refine ⟨List.nodup_dedup _, fun i => ?_⟩
    simp only [List.mem_dedup, List.mem_flatMap, List.mem_filter, inSection, decide_eq_true_eq, beq_iff_eq]
    constructor
    · rintro ⟨⟨f, ⟨⟨c, ⟨hc, hp⟩, hf⟩, ht⟩, hi⟩, hv⟩; exact ⟨c, hc, hp, f, hf, ht, hi, hv⟩
    · rintro ⟨c, hc, hp, f, hf, ht, hi, hv⟩; exact ⟨⟨f, ⟨⟨c, ⟨hc, hp⟩, hf⟩, ht⟩, hi⟩, hv⟩
  · have hl : (directions mask).length < dim := by
      have h1 : (directions mask).length < (List.finRange dim).length := by
        unfold directions
        refine lt_of_le_of_ne (List.length_filter_le _ _) fun e => ?_
        have := List.length_filter_eq_length_iff.1 e d (List.mem_finRange d)
        exact hm this
      simpa using h1
    simp only [hm, Bool.false_eq_true, if_false, List.nil_append, Bool.not_false, Bool.and_true, hl, decide_true]
    cases here <;> simp

/-- **C84** (translations, violated).  If all directions but one are requested, which in the plane is any single direction,
`clamp_section` constrains nothing in the remaining direction on any rank: translations along it respect all constraints. -/
theorem C84_translation_violated [Ring K] [LinearOrder K] [Nontrivial K] (tol : K) (ranks : List (List (Cell K dim) × Bool))
    (origin : Fin dim → K) (mask : Fin dim → Bool) (point : Nat) {d : Fin dim} (hd : ∀ e, mask e = true ↔ e ≠ d) :
    Respects (ranks.map fun r => clampSection tol r.1 origin mask r.2 point)
      (fun _ e => if e = d then (1 : K) else 0) := by
  have hlen : ¬ (directions mask).length < dim - 1 := by
    have h1 : directions mask = (List.finRange dim).filter (fun e => decide (e ≠ d)) := by
      unfold directions
      refine List.filter_congr fun e _ => ?_
      rw [Bool.eq_iff_iff, hd e, decide_eq_true_eq]
    have h2 : (List.finRange dim).filter (fun e => decide (e ≠ d)) = (List.finRange dim).erase d := by
      rw [(List.nodup_finRange dim).erase_eq_filter]
      refine List.filter_congr fun e _ => ?_
      simp [bne, beq_eq_decide]
    rw [h1, h2, List.length_erase_of_mem (List.mem_finRange d), List.length_finRange]
    exact lt_irrefl _
  intro c hc e i hi
  obtain ⟨r, _, rfl⟩ := List.mem_map.1 hc
  have := ((C84_section tol r.1 origin mask r.2 point e).2 i).1 hi
  by_cases hm : mask e
  · exact if_neg ((hd e).1 hm)
  · rw [if_neg hm] at this
    exact absurd this.2.2 hlen

/-- **C84** (rotations, violated).  In space with one direction requested, the rotation about the axis through the origin in this
direction respects all constraints; the same within a particle. -/
theorem C84_rotation_violated [CommRing K] [LinearOrder K] (tol threshold : K) (ranks : List (List (Cell K 3) × Bool))
    (value : Nat → K) (op particle : Nat) (origin : Fin 3 → K) (point : Nat) (x : Nat → Fin 3 → K) :
    let mask : Fin 3 → Bool := ![true, false, false]
    let u := motion3 ![0, x point 2, -x point 1] ![1, 0, 0] x
    Respects (ranks.map fun r => clampSection tol r.1 origin mask r.2 point) u ∧
    Respects (ranks.map fun r => clampParticle tol threshold r.1 value op particle origin mask r.2 point) u ∧
    ∀ i, u i = ![0, x point 2 - x i 2, x i 1 - x point 1] := by
  intro mask u
  have hu : ∀ i, u i = ![0, x point 2 - x i 2, x i 1 - x point 1] := by
    intro i
    funext e
    fin_cases e <;> simp [u, motion3] <;> ring
  refine ⟨?_, ?_, hu⟩
  · intro c hc e i hi
    obtain ⟨r, _, rfl⟩ := List.mem_map.1 hc
    have h := ((C84_section tol r.1 origin mask r.2 point e).2 i).1 hi
    rw [hu]
    fin_cases e
    · rfl
    · have hp : i = point := h.1
      subst hp
      show x i 2 - x i 2 = 0
      exact sub_self _
    · have hp : i = point := h.1
      subst hp
      show x i 1 - x i 1 = 0
      exact sub_self _
  · intro c hc e i hi
    obtain ⟨r, _, rfl⟩ := List.mem_map.1 hc
    have h := ((C84_particle tol threshold r.1 value op particle origin mask r.2 point e).2 i).1 hi
    rw [hu]
    fin_cases e
    · rfl
    · have hp : i = point := h.1
      subst hp
      show x i 2 - x i 2 = 0
      exact sub_self _
    · have hp : i = point := h.1
      subst hp
      show x i 1 - x i 1 = 0
      exact sub_self _

/-- **C84** (plane).  If the first section contains two unknowns at different heights and the second direction is constrained
anywhere, no rigid motion of the plane remains. -/
theorem C84_plane_partial [Field K] (constraints : List (Fin 2 → List Nat)) (x : Nat → Fin 2 → K) {a b e : Nat}
    (ha : ∃ c ∈ constraints, a ∈ c 0) (hb : ∃ c ∈ constraints, b ∈ c 0) (hab : x a 1 ≠ x b 1)
    (he : ∃ c ∈ constraints, e ∈ c 1) (t : Fin 2 → K) (w : K) (h : Respects constraints (motion2 t w x)) : t = 0 ∧ w = 0 := by
  obtain ⟨ca, hca, ha⟩ := ha
  obtain ⟨cb, hcb, hb⟩ := hb
  obtain ⟨ce, hce, he⟩ := he
  have e1 : t 0 - w * x a 1 = 0 := h ca hca 0 a ha
  have e2 : t 0 - w * x b 1 = 0 := h cb hcb 0 b hb
  have e3 : t 1 + w * x e 0 = 0 := h ce hce 1 e he
  have hw : w = 0 := by
    have : w * (x a 1 - x b 1) = 0 := by linear_combination e2 - e1
    exact (mul_eq_zero.1 this).resolve_right (sub_ne_zero.2 hab)
  subst hw
  refine ⟨?_, rfl⟩
  funext d
  fin_cases d
  · simpa using e1
  · simpa using e3

/-- **C84** (space).  If the first section contains three unknowns that are not on a line, the second one two unknowns with different
third coordinates, and the third direction is constrained anywhere, no rigid motion of space remains. -/
theorem C84_space_partial [Field K] (constraints : List (Fin 3 → List Nat)) (x : Nat → Fin 3 → K) {a b c e f g : Nat}
    (ha : ∃ q ∈ constraints, a ∈ q 0) (hb : ∃ q ∈ constraints, b ∈ q 0) (hc : ∃ q ∈ constraints, c ∈ q 0)
    (habc : (x b 1 - x a 1) * (x c 2 - x a 2) - (x b 2 - x a 2) * (x c 1 - x a 1) ≠ 0)
    (he : ∃ q ∈ constraints, e ∈ q 1) (hf : ∃ q ∈ constraints, f ∈ q 1) (hef : x e 2 ≠ x f 2)
    (hg : ∃ q ∈ constraints, g ∈ q 2) (t w : Fin 3 → K) (h : Respects constraints (motion3 t w x)) : t = 0 ∧ w = 0 := by
  obtain ⟨qa, hqa, ha⟩ := ha
  obtain ⟨qb, hqb, hb⟩ := hb
  obtain ⟨qc, hqc, hc⟩ := hc
  obtain ⟨qe, hqe, he⟩ := he
  obtain ⟨qf, hqf, hf⟩ := hf
  obtain ⟨qg, hqg, hg⟩ := hg
  have e1 : t 0 + (w 1 * x a 2 - w 2 * x a 1) = 0 := h qa hqa 0 a ha
  have e2 : t 0 + (w 1 * x b 2 - w 2 * x b 1) = 0 := h qb hqb 0 b hb
  have e3 : t 0 + (w 1 * x c 2 - w 2 * x c 1) = 0 := h qc hqc 0 c hc
  have e4 : t 1 + (w 2 * x e 0 - w 0 * x e 2) = 0 := h qe hqe 1 e he
  have e5 : t 1 + (w 2 * x f 0 - w 0 * x f 2) = 0 := h qf hqf 1 f hf
  have e6 : t 2 + (w 0 * x g 1 - w 1 * x g 0) = 0 := h qg hqg 2 g hg
  have w1 : w 1 = 0 := by
    have : w 1 * ((x b 1 - x a 1) * (x c 2 - x a 2) - (x b 2 - x a 2) * (x c 1 - x a 1)) = 0 := by
      linear_combination (x b 1 - x a 1) * (e3 - e1) - (x c 1 - x a 1) * (e2 - e1)
    exact (mul_eq_zero.1 this).resolve_right habc
  have w2 : w 2 = 0 := by
    have : w 2 * ((x b 1 - x a 1) * (x c 2 - x a 2) - (x b 2 - x a 2) * (x c 1 - x a 1)) = 0 := by
      linear_combination (x b 2 - x a 2) * (e3 - e1) - (x c 2 - x a 2) * (e2 - e1)
    exact (mul_eq_zero.1 this).resolve_right habc
  rw [w1, w2] at e1
  rw [w2] at e4 e5
  have w0 : w 0 = 0 := by
    have : w 0 * (x e 2 - x f 2) = 0 := by linear_combination e5 - e4
    exact (mul_eq_zero.1 this).resolve_right (sub_ne_zero.2 hef)
  rw [w0] at e4 e6
  rw [w1] at e6
  constructor
  · funext d
    fin_cases d
    · simpa using e1
    · simpa using e4
    · simpa using e6
  · funext d
    fin_cases d
    · exact w0
    · exact w1
    · exact w2

/-- **C84** (domain).  `clamp_domain` constrains direction `d` at the unknowns of the faces with boundary id `2 * d`. -/
theorem C84_domain (cells : List (Cell K dim)) (d : Fin dim) (i : Nat) :
    i ∈ clampDomain cells d ↔ ∃ c ∈ cells, ∃ f ∈ c.faces, f.boundary = some (2 * d.1) ∧ i ∈ f.dofs := by
  simp only [clampDomain, List.mem_flatMap, List.mem_filter, beq_iff_eq]
  constructor
  · rintro ⟨f, ⟨⟨c, hc, hf⟩, hb⟩, hi⟩; exact ⟨c, hc, f, hf, hb, hi⟩
  · rintro ⟨c, hc, f, hf, hb, hi⟩; exact ⟨f, ⟨⟨c, hc, hf⟩, hb⟩, hi⟩

/-- **C84** (domain, violated).  An unknown shared by faces of two cells at the same side of the domain is listed twice. -/
theorem C84_domain_violated (c₁ c₂ : Cell K dim) (before between after : List (Cell K dim)) {f₁ f₂ : Face K dim} {d : Fin dim} {i : Nat}
    (h₁ : f₁ ∈ c₁.faces) (h₂ : f₂ ∈ c₂.faces) (b₁ : f₁.boundary = some (2 * d.1)) (b₂ : f₂.boundary = some (2 * d.1))
    (i₁ : i ∈ f₁.dofs) (i₂ : i ∈ f₂.dofs) : ¬ (clampDomain (before ++ c₁ :: (between ++ c₂ :: after)) d).Nodup := by
  have split : ∀ xs ys : List (Cell K dim), clampDomain (xs ++ ys) d = clampDomain xs d ++ clampDomain ys d := by
    intro xs ys; simp [clampDomain]
  intro h
  rw [split] at h
  have h := (List.nodup_append.1 h).2.1
  rw [show c₁ :: (between ++ c₂ :: after) = [c₁] ++ (between ++ c₂ :: after) from rfl, split] at h
  refine (List.nodup_append.1 h).2.2 i ?_ i ?_ rfl
  · exact (C84_domain _ _ _).2 ⟨c₁, List.mem_singleton.2 rfl, f₁, h₁, b₁, i₁⟩
  · exact (C84_domain _ _ _).2 ⟨c₂, by simp, f₂, h₂, b₂, i₂⟩

/-- **C84** (mask, violated).  The mask of directions is read uninitialised for every direction that is not requested. For any such
direction the constraints depend on the value found there: both values are consistent with the mask, and an unknown of the section is
constrained or not. -/
theorem C84_mask_violated [Ring K] [LinearOrder K] (tol : K) (cells : List (Cell K dim)) (origin : Fin dim → K) (here : Bool)
    (point : Nat) (requested : List Nat) {d : Fin dim} (hd : d.1 ∉ requested) {c : Cell K dim} (hc : c ∈ cells) {f : Face K dim}
    (hf : f ∈ c.faces) (ht : |f.center d - origin d| < tol) {i : Nat} (hi : i ∈ f.dofs) (hp : i ≠ point) :
    ∃ m₁ m₂ : Fin dim → Bool, (∀ e v, requestedMask dim requested e = some v → m₁ e = v ∧ m₂ e = v) ∧
      i ∈ clampSection tol cells origin m₁ here point d ∧ i ∉ clampSection tol cells origin m₂ here point d := by
  refine ⟨fun _ => true, fun e => decide (e.1 ∈ requested), ?_, ?_, ?_⟩
  · intro e v h
    by_cases he : e.1 ∈ requested
    · rw [requestedMask, if_pos he] at h
      cases h
      exact ⟨rfl, decide_eq_true he⟩
    · rw [requestedMask, if_neg he] at h
      cases h
  · exact ((C84_section tol cells origin _ here point d).2 i).2 ⟨c, hc, f, hf, ht, hi⟩
  · intro h
    have := ((C84_section tol cells origin _ here point d).2 i).1 h
    rw [if_neg (by simp [hd])] at this
    exact hp this.1

namespace Ex84

/-- Square of two by two unit cells in two dimensions with unknowns 0..8 at the grid points; lower left cell. -/
def cellAt (i j : Nat) (particle : Option Nat) : Cell ℚ 2 :=
  let p := fun a b => 3 * b + a
  { faces :=
      [⟨![i, j + 1 / 2], [p i j, p i (j + 1)], if i = 0 then some 0 else none⟩,
       ⟨![i + 1, j + 1 / 2], [p (i + 1) j, p (i + 1) (j + 1)], if i = 1 then some 1 else none⟩,
       ⟨![i + 1 / 2, j], [p i j, p (i + 1) j], if j = 0 then some 2 else none⟩,
       ⟨![i + 1 / 2, j + 1], [p i (j + 1), p (i + 1) (j + 1)], if j = 1 then some 3 else none⟩]
    particle := fun _ => particle }

def cells : List (Cell ℚ 2) := [cellAt 0 0 (some 0), cellAt 1 0 (some 0), cellAt 0 1 (some 0), cellAt 1 1 (some 0)]

/-- Section at the centre (1, 1) along x: unknowns 1, 4, 7; nothing along y. -/
example : clampSection (1 / 10) cells ![1, 1] ![true, false] true 4 0 = [1, 4, 7] ∧
    clampSection (1 / 10) cells ![1, 1] ![true, false] true 4 1 = [] := by decide +kernel

/-- Both directions: the conditions of `C84_plane_partial` hold. -/
example : clampSection (1 / 10) cells ![1, 1] ![true, true] true 4 0 = [1, 4, 7] ∧
    clampSection (1 / 10) cells ![1, 1] ![true, true] true 4 1 = [3, 4, 5] := by decide +kernel

/-- The lower left corner of the upper left cell is listed twice by `clamp_domain`. -/
example : clampDomain cells 0 = [0, 3, 3, 6] := by decide +kernel

/-- **C84** (section, violated).  A large cell beside smaller ones: the centre of its lower face, from (0, 1) to (2, 1), lies in the section
x = 1 although the face is perpendicular to it; the unknowns 0 and 1 at its ends are constrained. -/
theorem C84_section_violated :
    let large : Cell ℚ 2 := { faces := [⟨![1, 1], [0, 1], none⟩], particle := fun _ => none }
    let x : Nat → Fin 2 → ℚ := fun i => if i = 0 then ![0, 1] else ![2, 1]
    0 ∈ clampSection (1 / 1000000000) [large] ![1, 0] ![true, true] false 9 0 ∧ x 0 0 ≠ 1 := by
  decide +kernel

/-- **C84** (partition, violated).  Within a particle: the right cell does not belong to the particle. If it is on another rank, that rank
constrains nothing, though it stores the same unknown 4 with the same value; in serial the unknown is constrained. -/
theorem C84_partition_violated :
    let left := [cellAt 0 0 (some 0), cellAt 0 1 (some 0)]
    let right := [cellAt 1 0 none, cellAt 1 1 none]
    let mask : Fin 2 → Bool := ![true, true]
    4 ∈ clampParticle (1 / 10) (1 / 10 : ℚ) (left ++ right) (fun _ => 1) 0 0 ![1, 1] mask true 4 0 ∧
    4 ∈ clampParticle (1 / 10) (1 / 10 : ℚ) left (fun _ => 1) 0 0 ![1, 1] mask true 4 0 ∧
    4 ∉ clampParticle (1 / 10) (1 / 10 : ℚ) right (fun _ => 1) 0 0 ![1, 1] mask false 4 0 := by
  decide +kernel

end Ex84

/-! ### C85 -/

/-- **C85** (rank).  The rank that treats the origin owns a cell around it: the first rank that found an owned cell directly, otherwise the
first one that has an owned cell among all cells around the point; without such a rank the program stops with an exception. -/
theorem C85_owner (ranks : List (Option Bool × Bool)) :
    (∀ r, ownerRank ranks = .ok r → ∃ h : r < ranks.length, ranks[r].1 = some true ∨ ranks[r].1.isSome ∧ ranks[r].2 = true) ∧
    (ownerRank ranks = .exc .assertThrow ↔ ∀ x ∈ ranks, x.1 ≠ some true ∧ (x.1.isSome → x.2 = false)) := by
  unfold ownerRank
  dsimp only
  by_cases h1 : ranks.findIdx (fun r => r.1 == some true) < ranks.length
  · rw [if_pos h1]
    have hx := List.findIdx_getElem (w := h1)
    refine ⟨?_, ?_⟩
    · intro r hr
      cases hr
      exact ⟨h1, Or.inl (by simpa using hx)⟩
    · constructor
      · intro h; cases h
      · intro h
        exact absurd (by simpa using hx) (h _ (List.getElem_mem h1)).1
  · rw [if_neg h1]
    have hn : ∀ x ∈ ranks, x.1 ≠ some true := by
      intro x hx e
      exact h1 (List.findIdx_lt_length_of_exists ⟨x, hx, by simp [e]⟩)
    by_cases h2 : ranks.findIdx (fun r => r.1.isSome && r.2) < ranks.length
    · rw [if_pos h2]
      have hx := List.findIdx_getElem (w := h2)
      rw [Bool.and_eq_true] at hx
      refine ⟨?_, ?_⟩
      · intro r hr
        cases hr
        exact ⟨h2, Or.inr hx⟩
      · constructor
        · intro h; cases h
        · intro h
          have := (h _ (List.getElem_mem h2)).2 hx.1
          rw [hx.2] at this
          exact absurd this (by decide)
    · rw [if_neg h2]
      refine ⟨fun r hr => (by cases hr), ?_⟩
      refine ⟨fun _ x hx => ⟨hn x hx, fun hs => ?_⟩, fun _ => rfl⟩
      by_contra hne
      exact h2 (List.findIdx_lt_length_of_exists ⟨x, hx, by simp [hs, hne]⟩)

/-- **C85** (vertex).  The vertex chosen is one with the smallest distance. -/
theorem C85_vertex [LinearOrder K] {α : Type} (xs : List (K × α)) (hx : xs ≠ []) :
    ∃ r ∈ xs, nearest xs = some r ∧ ∀ x ∈ xs, r.1 ≤ x.1 := by
  cases xs with
  | nil => exact absurd rfl hx
  | cons b xs =>
    obtain ⟨r, hr, hm, hl⟩ := nearest_fold xs b
    exact ⟨r, hm, hr, hl⟩

/-- **C85** (nearest segment).  Without preference for growing grains the segment nearest to the centre is chosen; without segments none,
so that the origin of coordinates is returned. -/
theorem C85_nearest [LinearOrder K] (xs : List (Candidate K)) :
    (xs ≠ [] → ∃ r ∈ xs, findOrigin false xs = some r ∧ ∀ x ∈ xs, r.dist ≤ x.dist) ∧ (xs = [] → findOrigin false xs = none) := by
  have key : ∀ (xs : List (Candidate K)) (b : Candidate K),
      ∃ r, xs.foldl (originStep false) (some b) = some r ∧ r ∈ b :: xs ∧ ∀ x ∈ b :: xs, r.dist ≤ x.dist := by
    intro xs
    induction xs with
    | nil => exact fun b => ⟨b, rfl, by simp, by simp⟩
    | cons x xs ih =>
      intro b
      rw [List.foldl_cons]
      by_cases h : x.dist < b.dist
      · rw [show originStep false (some b) x = some x by simp [originStep, h]]
        obtain ⟨r, hr, hm, hl⟩ := ih x
        refine ⟨r, hr, List.mem_cons_of_mem _ hm, ?_⟩
        intro y hy
        rcases List.mem_cons.1 hy with rfl | hy
        · exact le_trans (hl x List.mem_cons_self) h.le
        · exact hl y hy
      · rw [show originStep false (some b) x = some b by simp [originStep, h]]
        obtain ⟨r, hr, hm, hl⟩ := ih b
        refine ⟨r, hr, ?_, ?_⟩
        · rcases List.mem_cons.1 hm with rfl | hm
          · exact List.mem_cons_self
          · exact List.mem_cons_of_mem _ (List.mem_cons_of_mem _ hm)
        · intro y hy
          rcases List.mem_cons.1 hy with rfl | hy
          · exact hl y List.mem_cons_self
          · rcases List.mem_cons.1 hy with rfl | hy
            · exact le_trans (hl b List.mem_cons_self) (not_lt.1 h)
            · exact hl y (List.mem_cons_of_mem _ hy)
  constructor
  · intro hx
    cases xs with
    | nil => exact absurd rfl hx
    | cons b xs =>
      obtain ⟨r, hr, hm, hl⟩ := key xs b
      exact ⟨r, hm, hr, hl⟩
  · rintro rfl; rfl

/-- **C85** (preference).  With preference for growing grains the segment chosen has no smaller dynamics than the first segment of the
loop and is nearest among the segments with the largest dynamics if all segments have the same dynamics. -/
theorem C85_growing_partial [LinearOrder K] (xs : List (Candidate K)) (b : Candidate K) :
    ∃ r ∈ b :: xs, findOrigin true (b :: xs) = some r ∧ b.dynamics ≤ r.dynamics ∧ r.dist ≤ b.dist ∧
      ∀ x ∈ b :: xs, x.dynamics = r.dynamics → (∀ y ∈ b :: xs, y.dynamics ≤ r.dynamics) → b.dynamics = r.dynamics →
        r.dist ≤ x.dist := by
  have key : ∀ (xs : List (Candidate K)) (b : Candidate K),
      ∃ r, xs.foldl (originStep true) (some b) = some r ∧ r ∈ b :: xs ∧ b.dynamics ≤ r.dynamics ∧ r.dist ≤ b.dist ∧
        (b.dynamics = r.dynamics → ∀ x ∈ b :: xs, x.dynamics = r.dynamics → r.dist ≤ x.dist) := by
    intro xs
    induction xs with
    | nil => exact fun b => ⟨b, rfl, by simp, le_refl _, le_refl _, by simp⟩
    | cons x xs ih =>
      intro b
      rw [List.foldl_cons]
      by_cases h : x.dist < b.dist ∧ b.dynamics ≤ x.dynamics
      · rw [show originStep true (some b) x = some x by simp [originStep, h]]
        obtain ⟨r, hr, hm, h1, h2, h3⟩ := ih x
        refine ⟨r, hr, List.mem_cons_of_mem _ hm, le_trans h.2 h1, le_trans h2 h.1.le, ?_⟩
        intro hb y hy hyd
        have hx : x.dynamics = r.dynamics := le_antisymm h1 (hb ▸ h.2)
        rcases List.mem_cons.1 hy with rfl | hy
        · exact le_trans h2 h.1.le
        · exact h3 hx y hy hyd
      · rw [show originStep true (some b) x = some b by
          simp only [originStep, Bool.not_true, Bool.false_and, Bool.true_and, Bool.false_or, Bool.and_eq_true, decide_eq_true_eq]
          exact if_neg h]
        obtain ⟨r, hr, hm, h1, h2, h3⟩ := ih b
        refine ⟨r, hr, ?_, h1, h2, ?_⟩
        · rcases List.mem_cons.1 hm with rfl | hm
          · exact List.mem_cons_self
          · exact List.mem_cons_of_mem _ (List.mem_cons_of_mem _ hm)
        · intro hb y hy hyd
          rcases List.mem_cons.1 hy with rfl | hy
          · exact h2
          · rcases List.mem_cons.1 hy with rfl | hy
            · refine le_trans h2 (not_lt.1 fun h4 => h ⟨h4, ?_⟩)
              rw [hb, hyd]
            · exact h3 hb y (List.mem_cons_of_mem _ hy) hyd
  obtain ⟨r, hr, hm, h1, h2, h3⟩ := key xs b
  exact ⟨r, hm, hr, h1, h2, fun x hx hxd _ hb => h3 hb x hx hxd⟩

/-- **C85** (primary particle).  The particle chosen at the origin has the largest measure of all particles there; without particle of
positive measure the program stops with an exception. -/
theorem C85_primary [LinearOrder K] [Zero K] (ops : List (Option (Nat × K))) :
    (∀ ig p, primary ops = .ok (ig, p) →
      ∃ m, ops[ig]? = some (some (p, m)) ∧ 0 < m ∧ ∀ p' m', some (p', m') ∈ ops → m' ≤ m) ∧
    (primary ops = .exc .assertThrow ↔ ∀ p m, some (p, m) ∈ ops → m ≤ 0) := by
  let step := fun (best : Option (Nat × Nat) × K) (x : Option (Nat × K) × Nat) =>
      match x.1 with
      | none => best
      | some (p, m) => if best.2 < m then (some (x.2, p), m) else best
  have key : ∀ (l : List (Option (Nat × K) × Nat)),
      (∀ p m i, (some (p, m), i) ∈ l → m ≤ (l.foldl step (none, 0)).2) ∧
      ((l.foldl step (none, 0)).1 = none → (l.foldl step (none, 0)).2 = 0) ∧
      ∀ i p, (l.foldl step (none, 0)).1 = some (i, p) →
        (some (p, (l.foldl step (none, 0)).2), i) ∈ l ∧ 0 < (l.foldl step (none, 0)).2 := by
    intro l
    induction l using List.reverseRecOn with
    | nil => exact ⟨fun _ _ _ h => (by cases h), fun _ => rfl, fun _ _ h => (by cases h)⟩
    | append_singleton l x ih =>
      obtain ⟨h1, h2, h3⟩ := ih
      rw [List.foldl_append, List.foldl_cons, List.foldl_nil]
      generalize l.foldl step (none, 0) = best at h1 h2 h3 ⊢
      obtain ⟨x, i⟩ := x
      rcases x with _ | ⟨p, m⟩
      · show (∀ p m j, _ → m ≤ best.2) ∧ (best.1 = none → best.2 = 0) ∧ ∀ j p, best.1 = some (j, p) → _
        refine ⟨?_, h2, ?_⟩
        · intro p m j hj
          rcases List.mem_append.1 hj with hj | hj
          · exact h1 p m j hj
          · simp at hj
        · intro j p hj
          exact ⟨List.mem_append_left _ (h3 j p hj).1, (h3 j p hj).2⟩
      · have hnn : 0 ≤ best.2 := by
          rcases hb : best.1 with _ | ⟨j, q⟩
          · exact (h2 hb).ge
          · exact (h3 j q hb).2.le
        by_cases hlt : best.2 < m
        · rw [show step best (some (p, m), i) = (some (i, p), m) from if_pos hlt]
          refine ⟨?_, by simp, ?_⟩
          · intro p' m' j hj
            rcases List.mem_append.1 hj with hj | hj
            · exact le_trans (h1 p' m' j hj) hlt.le
            · simp only [List.mem_singleton, Prod.mk.injEq, Option.some.injEq] at hj
              exact hj.1.2.le
          · intro j q hj
            simp only [Option.some.injEq, Prod.mk.injEq] at hj
            obtain ⟨rfl, rfl⟩ := hj
            exact ⟨by simp, lt_of_le_of_lt hnn hlt⟩
        · rw [show step best (some (p, m), i) = best from if_neg hlt]
          refine ⟨?_, h2, ?_⟩
          · intro p' m' j hj
            rcases List.mem_append.1 hj with hj | hj
            · exact h1 p' m' j hj
            · simp only [List.mem_singleton, Prod.mk.injEq, Option.some.injEq] at hj
              rw [hj.1.2]; exact not_lt.1 hlt
          · intro j q hj
            exact ⟨List.mem_append_left _ (h3 j q hj).1, (h3 j q hj).2⟩
  obtain ⟨h1, h2, h3⟩ := key ops.zipIdx
  have hp : primary ops = match (ops.zipIdx.foldl step (none, 0)).1 with
      | none => .exc .assertThrow
      | some q => .ok q := rfl
  rw [hp]
  have mem : ∀ x, x ∈ ops → ∃ i, (x, i) ∈ ops.zipIdx := by
    intro x hx
    obtain ⟨i, hi, rfl⟩ := List.mem_iff_getElem.1 hx
    exact ⟨i, by rw [List.mem_zipIdx_iff_getElem?]; simp [hi]⟩
  rcases hb : (ops.zipIdx.foldl step (none, 0)).1 with _ | ⟨j, q⟩
  · refine ⟨fun _ _ h => (by cases h), fun _ p m hm => ?_, fun _ => rfl⟩
    obtain ⟨i, hi⟩ := mem _ hm
    rw [← h2 hb]; exact h1 p m i hi
  · obtain ⟨h4, h5⟩ := h3 j q hb
    refine ⟨fun ig p h => ?_, ⟨fun h => by simp at h, fun h => ?_⟩⟩
    · simp only [Res.ok.injEq, Prod.mk.injEq] at h
      obtain ⟨rfl, rfl⟩ := h
      refine ⟨_, List.mem_zipIdx_iff_getElem?.1 h4, h5, fun p' m' hm => ?_⟩
      obtain ⟨i, hi⟩ := mem _ hm
      exact h1 p' m' i hi
    · have := h q _ (List.mem_of_getElem? (List.mem_zipIdx_iff_getElem?.1 h4))
      exact absurd h5 (not_lt.2 this)

namespace Ex85

/-- **C85** (preference, violated).  A shrinking grain at distance 1 visited first is kept although a growing grain at distance 2 exists. -/
theorem C85_growing_violated :
    findOrigin true [(⟨1, -1⟩ : Candidate ℚ), ⟨2, 1⟩] = some ⟨1, -1⟩ ∧
    findOrigin true [(⟨2, 1⟩ : Candidate ℚ), ⟨1, -1⟩] = some ⟨2, 1⟩ := by
  constructor <;> rfl

example : ownerRank [(none, false), (some false, true), (some true, true)] = .ok 2 := by decide
example : ownerRank [(none, false), (some false, true), (some false, true)] = .ok 1 := by decide
example : ownerRank [(none, false), (some false, false)] = .exc .assertThrow := by decide
example : (nearest [((3 : ℚ), 'a'), (2, 'b'), (2, 'c')]) = some (2, 'b') := by decide +kernel
example : primary [none, some (4, (2 : ℚ)), some (1, 3), none] = .ok (2, 1) := by decide +kernel
example : primary [none, some (4, (0 : ℚ))] = .exc .assertThrow := by decide +kernel

end Ex85

end Verif.Props
