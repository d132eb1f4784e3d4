import Verif.Model.Grain
import Mathlib.Order.Lattice
import Mathlib.Order.MinMax
import Mathlib.Algebra.BigOperators.Group.List.Basic
/-! # Lemmas about grain aggregates and distances -/
namespace Verif
variable {P K : Type}

theorem foldl_min_spec [LinearOrder K] {α : Type} (f : α → K) : ∀ (l : List α) (init : K),
    let m := l.foldl (fun acc a => min (f a) acc) init
    m ≤ init ∧ (∀ a ∈ l, m ≤ f a) ∧ (m = init ∨ ∃ a ∈ l, m = f a)
  | [], init => by simp
  | a :: l, init => by
    obtain ⟨h1, h2, h3⟩ := foldl_min_spec f l (min (f a) init)
    simp only [List.foldl_cons] at *
    refine ⟨h1.trans (min_le_right _ _), ?_, ?_⟩
    · intro b hb
      rcases List.mem_cons.1 hb with rfl | hb
      · exact h1.trans (min_le_left _ _)
      · exact h2 b hb
    · rcases h3 with h3 | ⟨b, hb, h3⟩
      · rcases min_choice (f a) init with h | h
        · exact Or.inr ⟨a, by simp, by rw [h3, h]⟩
        · exact Or.inl (by rw [h3, h])
      · exact Or.inr ⟨b, by simp [hb], h3⟩

theorem minOverPairs_spec [LinearOrder K] (f : Segment P K → Segment P K → K)
    (l₂ : List (Segment P K)) : ∀ (l₁ : List (Segment P K)) (init : K),
    let m := Grain.minOverPairs f init l₁ l₂
    m ≤ init ∧ (∀ s ∈ l₁, ∀ t ∈ l₂, m ≤ f s t) ∧ (m = init ∨ ∃ s ∈ l₁, ∃ t ∈ l₂, m = f s t)
  | [], init => by simp [Grain.minOverPairs]
  | a :: l, init => by
    obtain ⟨g1, g2, g3⟩ := foldl_min_spec (f a) l₂ init
    obtain ⟨h1, h2, h3⟩ := minOverPairs_spec f l₂ l (l₂.foldl (fun acc b => min (f a b) acc) init)
    simp only [Grain.minOverPairs, List.foldl_cons] at *
    refine ⟨h1.trans g1, ?_, ?_⟩
    · intro s hs t ht
      rcases List.mem_cons.1 hs with rfl | hs
      · exact h1.trans (g2 t ht)
      · exact h2 s hs t ht
    · rcases h3 with h3 | ⟨s, hs, t, ht, h3⟩
      · rcases g3 with g3 | ⟨t, ht, g3⟩
        · exact Or.inl (by rw [h3, g3])
        · exact Or.inr ⟨a, by simp, t, ht, by rw [h3, g3]⟩
      · exact Or.inr ⟨s, by simp [hs], t, ht, h3⟩

theorem minOverPairs_symm [LinearOrder K] {f : Segment P K → Segment P K → K}
    (hf : ∀ s t, f s t = f t s) (init : K) (l₁ l₂ : List (Segment P K)) :
    Grain.minOverPairs f init l₁ l₂ = Grain.minOverPairs f init l₂ l₁ := by
  have key : ∀ l₁ l₂ : List (Segment P K),
      Grain.minOverPairs f init l₁ l₂ ≤ Grain.minOverPairs f init l₂ l₁ := by
    intro l₁ l₂
    obtain ⟨g1, g2, -⟩ := minOverPairs_spec f l₂ l₁ init
    obtain ⟨-, -, h3⟩ := minOverPairs_spec f l₁ l₂ init
    rcases h3 with h3 | ⟨s, hs, t, ht, h3⟩
    · rw [h3]; exact g1
    · rw [h3, hf]; exact g2 t ht s hs
  exact le_antisymm (key _ _) (key _ _)

section
variable [Field K] [LinearOrder K]

/-- aggregates after adding segments -/
theorem addSegments_spec : ∀ (l : List (Segment P K)) (g : Grain P K),
    let r := l.foldl Grain.addSegment g
    r.segments = g.segments ++ l ∧ r.measure = g.measure + (l.map (·.measure)).sum ∧
    (g.maxRadius ≤ r.maxRadius ∧ (∀ s ∈ l, s.radius ≤ r.maxRadius) ∧
      (r.maxRadius = g.maxRadius ∨ ∃ s ∈ l, r.maxRadius = s.radius)) ∧
    (g.maxValue ≤ r.maxValue ∧ (∀ s ∈ l, s.maxValue ≤ r.maxValue) ∧
      (r.maxValue = g.maxValue ∨ ∃ s ∈ l, r.maxValue = s.maxValue)) ∧
    r.grainId = g.grainId ∧ r.op = g.op ∧ r.oldOp = g.oldOp ∧ r.nearest = g.nearest ∧
      r.dynamics = g.dynamics
  | [], g => by simp
  | a :: l, g => by
    obtain ⟨h1, h2, ⟨h3, h4, h5⟩, ⟨h6, h7, h8⟩, h9⟩ := addSegments_spec l (g.addSegment a)
    simp only [List.foldl_cons] at *
    refine ⟨by rw [h1]; simp [Grain.addSegment], by rw [h2]; simp [Grain.addSegment, add_assoc],
      ⟨le_trans (le_max_left _ _) h3, ?_, ?_⟩, ⟨le_trans (le_max_left _ _) h6, ?_, ?_⟩, h9⟩
    · intro s hs
      rcases List.mem_cons.1 hs with rfl | hs
      · exact le_trans (le_max_right _ _) h3
      · exact h4 s hs
    · rcases h5 with h5 | ⟨s, hs, h5⟩
      · rcases max_choice g.maxRadius a.radius with h | h
        · exact Or.inl (by rw [h5]; exact h)
        · exact Or.inr ⟨a, by simp, by rw [h5]; exact h⟩
      · exact Or.inr ⟨s, by simp [hs], h5⟩
    · intro s hs
      rcases List.mem_cons.1 hs with rfl | hs
      · exact le_trans (le_max_right _ _) h6
      · exact h7 s hs
    · rcases h8 with h8 | ⟨s, hs, h8⟩
      · rcases max_choice g.maxValue a.maxValue with h | h
        · exact Or.inl (by rw [h8]; exact h)
        · exact Or.inr ⟨a, by simp, by rw [h8]; exact h⟩
      · exact Or.inr ⟨s, by simp [hs], h8⟩

end
end Verif
