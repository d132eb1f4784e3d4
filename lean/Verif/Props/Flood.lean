import Mathlib.Algebra.Order.Ring.Rat
import Verif.Lemmas.Flood
/-!
# Flood filling (C12)
-/
namespace Verif.Props
open Verif Spec
variable {K : Type} [LinearOrder K] {M : FMesh K} {thr lowest : K} {active : List Nat} {H : Nat}
  {height : Nat → Nat}

/-- **C12.** On every finite mesh whose face neighbourhood is symmetric (as is the case without local
refinement inside the regions), the detection terminates and delivers exactly the connected regions of
cells exceeding the threshold, numbered `0..n-1`, with their maxima. -/
theorem C12_regions (hM : MeshOk M active height H)
    (hlow : ∀ c, Inside M thr c → lowest ≤ M.cellMax c)
    (hsym : ∀ a b, Inside M thr a → Inside M thr b → Across M a b → Across M b a) {fuel : Nat}
    (hf : active.length * (H + 1) + H < fuel) :
    ∃ r, detectLocal M thr lowest fuel active = some r ∧ LocalRegions M thr active r := by
  obtain ⟨r, e, I, q⟩ := detectLocal_ok (thr := thr) hM hlow hf
    (fun ids => ∀ a b, ids a ≠ none → Inside M thr a → Across M a b → Inside M thr b → ids a = ids b)
    (by simp)
    (by
      intro r r' pre c k mv hI hq F a b ha hia hab hib
      by_cases h : r.1.ids a = none
      · have hb' : r'.1.ids b ≠ none := F.closed a h ha b hab hib
        have hb : r.1.ids b = none := by
          by_contra hb
          exact hI.closed b a hb (hsym a b hia hib hab) hia h
        have e1 := (F.new a h ha).1
        have e2 := (F.new b hb hb').1
        simp only at e1 e2
        rw [e1, e2]
      · have h1 := F.keep a h
        have h2 : r.1.ids b ≠ none := hI.closed a b h hab hib
        have h3 := F.keep b h2
        simp only at h1 h3
        rw [h1, h3]
        exact hq a b h hia hab hib)
  refine ⟨r, e, ?_, ?_, ?_, ?_, ?_⟩
  · intro c hc
    constructor
    · intro hi
      exact (I.ids c (I.done c hc hi)).2.2
    · rintro ⟨k, -, hk⟩
      exact (I.ids c (by simp only [hk]; simp)).1
  · intro c hc
    by_contra h
    obtain ⟨h1, h2, -⟩ := I.ids c h
    rcases hc with hc | hc
    · exact hc h1
    · exact hc h2
  · intro k hk
    obtain ⟨a, ha, -⟩ := I.start k hk
    exact ⟨a, (I.ids a (by rw [ha]; simp)).2.1, ha⟩
  · intro a ha b hb hia hib
    have conn : ∀ x y, Connected M thr x y → Inside M thr x → x ∈ active →
        r.ids x = r.ids y ∧ Connected M thr y x ∧ Inside M thr y ∧ y ∈ active := by
      intro x y hxy hx hxa
      induction hxy with
      | refl => exact ⟨rfl, .refl, hx, hxa⟩
      | tail _ hstep ih =>
        obtain ⟨i1, i2, i3, i4⟩ := ih
        refine ⟨i1.trans (q _ _ (I.done _ i4 i3) i3 hstep.1 hstep.2), ?_, hstep.2,
          hM.reach _ i4 _ hstep.1⟩
        exact Relation.ReflTransGen.head ⟨hsym _ _ i3 hstep.2 hstep.1, i3⟩ i2
    constructor
    · intro hab
      obtain ⟨-, -, k, hk, hak⟩ := I.ids a (I.done a ha hia)
      simp only at hak hk
      obtain ⟨s, hs, hsc⟩ := I.start k hk
      have h1 := hsc a hak
      have h2 := hsc b (by simp only; rw [← hab]; exact hak)
      obtain ⟨hsi, hsa, -⟩ := I.ids s (by rw [hs]; simp)
      exact (conn s a h1 hsi hsa).2.1.trans h2
    · intro h
      exact (conn a b h hia ha).1
  · intro k m hm
    obtain ⟨⟨c, c1, c2⟩, c3⟩ := I.maxs k m hm
    exact ⟨⟨c, (I.ids c (by rw [c1]; simp)).2.1, c1, c2⟩, fun x _ hx => c3 x hx⟩

/-- **C12.** Without symmetry (locally refined meshes) the detection still terminates, numbers exactly
the cells inside by `0..n-1`, records the maxima, and every particle is connected: all its cells are
reached from one of them. -/
theorem C12_any_mesh (hM : MeshOk M active height H)
    (hlow : ∀ c, Inside M thr c → lowest ≤ M.cellMax c) {fuel : Nat}
    (hf : active.length * (H + 1) + H < fuel) :
    ∃ r, detectLocal M thr lowest fuel active = some r ∧
      (∀ c, (∃ k < r.maxs.length, r.ids c = some k) ↔ Inside M thr c ∧ c ∈ active) ∧
      (∀ c, r.ids c = none ↔ ¬ (Inside M thr c ∧ c ∈ active)) ∧
      (∀ k < r.maxs.length, ∃ a ∈ active, r.ids a = some k ∧
        ∀ c, r.ids c = some k → Connected M thr a c) ∧
      (∀ (k : Nat) (m : K), r.maxs[k]? = some m →
        (∃ c ∈ active, r.ids c = some k ∧ M.cellMax c = m) ∧ ∀ c, r.ids c = some k → M.cellMax c ≤ m) := by
  obtain ⟨r, e, I, -⟩ := detectLocal_ok (thr := thr) hM hlow hf (fun _ => True) trivial
    (fun _ _ _ _ _ _ _ _ _ => trivial)
  refine ⟨r, e, ?_, ?_, ?_, ?_⟩
  · intro c
    constructor
    · rintro ⟨k, -, hk⟩
      obtain ⟨h1, h2, -⟩ := I.ids c (by simp only [hk]; simp)
      exact ⟨h1, h2⟩
    · rintro ⟨h1, h2⟩
      exact (I.ids c (I.done c h2 h1)).2.2
  · intro c
    constructor
    · rintro h ⟨h1, h2⟩
      exact I.done c h2 h1 h
    · intro h
      by_contra hc
      obtain ⟨h1, h2, -⟩ := I.ids c hc
      exact h ⟨h1, h2⟩
  · intro k hk
    obtain ⟨a, ha, hc⟩ := I.start k hk
    exact ⟨a, (I.ids a (by rw [ha]; simp)).2.1, ha, hc⟩
  · intro k m hm
    obtain ⟨⟨c, c1, c2⟩, c3⟩ := I.maxs k m hm
    exact ⟨⟨c, (I.ids c (by rw [c1]; simp)).2.1, c1, c2⟩, c3⟩

namespace Ex12

/-- six cells in a row -/
def row : FMesh Rat where
  children := fun _ => []
  owned := fun c => decide (c < 6)
  nbrs := fun c => (if c = 0 then [] else [c - 1]) ++ (if c < 5 then [c + 1] else [])
  cellMax := fun c => [3, 4, 1, 2, 0, 7].getD c 0

example : MeshOk row (List.range 6) (fun _ => 0) 0 where
  nodup := List.nodup_range
  leaves := by simp [row]
  reach := by
    intro c hc b hb
    obtain ⟨n, hn, hl⟩ := hb
    rw [leafOf_leaf rfl] at hl
    subst hl
    simp only [List.mem_range] at hc ⊢
    simp [row] at hn
    rcases hn with ⟨h1, h2⟩ | ⟨h1, h2⟩ <;> omega
  depth := by simp [row]
  bound := by simp

example : ∀ a b, Inside row 1 a → Inside row 1 b → Across row a b → Across row b a := by
  intro a b ha hb ⟨n, hn, hl⟩
  rw [leafOf_leaf rfl] at hl
  subst hl
  have h1 : a < 6 := by simpa [row] using ha.2.1
  have h2 : b < 6 := by simpa [row] using hb.2.1
  refine ⟨a, ?_, .leaf rfl⟩
  simp [row] at hn ⊢
  rcases hn with ⟨h1, h2⟩ | ⟨h1, h2⟩
  · right; omega
  · left; omega

/-- three regions: cells 0-1, cell 3 and cell 5; the value 1 of cell 2 does not exceed the threshold -/
example : (detectLocal row 1 (-100) 7 (List.range 6)).map
      (fun r => ((List.range 6).map r.ids, r.maxs)) =
    some ([some 0, some 0, none, some 1, none, some 2], [4, 2, 7]) := by decide +kernel

/-- A coarse cell 0 beside a cell 1 that is refined into 2, 3 (at the face of cell 0) and 4, 5 (behind
them). Neighbours of the children: 2 has 0, 3, 4; 3 has 0, 2, 5; 4 has 2, 5; 5 has 3, 4. -/
def refined : FMesh Rat where
  children := fun c => if c = 1 then [2, 3, 4, 5] else []
  owned := fun _ => true
  nbrs := fun c => [[1], [0], [0, 3, 4], [0, 2, 5], [2, 5], [3, 4]].getD c []
  cellMax := fun c => [1, 0, 0, 0, 1, 0].getD c 0

end Ex12

/-- **C12, refined meshes.** Cells 0 and 4 exceed the threshold, the two cells 2 and 3 between them do
not. Starting from the coarse cell 0 the flooding enters all children of the refined neighbour, also
those not at the common face, and merges the two regions; starting from cell 4 they are kept apart. So
the result depends on the order of the cells, and two regions without a common face may be merged. -/
theorem C12_refined_counterexample :
    (detectLocal Ex12.refined 0 (-100) 100 [0, 2, 3, 4, 5]).map (fun r => (r.ids 0, r.ids 4)) =
      some (some 0, some 0) ∧
    (detectLocal Ex12.refined 0 (-100) 100 [4, 2, 3, 0, 5]).map (fun r => (r.ids 0, r.ids 4)) =
      some (some 1, some 0) ∧
    0 ∉ Ex12.refined.nbrs 4 ∧ ¬ Across Ex12.refined 4 0 := by
  refine ⟨by decide +kernel, by decide +kernel, by decide, ?_⟩
  rintro ⟨n, hn, hl⟩
  simp [Ex12.refined] at hn
  rcases hn with rfl | rfl <;>
    · rw [leafOf_leaf (by simp [Ex12.refined])] at hl
      simp at hl

end Verif.Props
