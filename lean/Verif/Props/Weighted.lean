/-
C150: forces between grains weighted by their contacts.
-/
import Verif.Lemmas.Weighted
import Mathlib.Algebra.Order.BigOperators.Group.Finset
import Mathlib.Algebra.Order.AbsoluteValue.Basic
import Mathlib.Tactic.Positivity
import Mathlib.Tactic.NormNum
import Mathlib.Tactic.Linarith
import Mathlib.Algebra.Order.Ring.Rat

namespace Verif.Props
open Verif Verif.Weighted Verif.Weighted.Spec

section
variable {dim : Nat} {K : Type} [Field K] [LinearOrder K]

/-- C150: with tables that cover all order parameters and segments numbered below their number nothing undefined
happens, and every segment gets its volume, the sum over the segments in contact of force per contact, and no torque. -/
theorem C150_forces (P : Par K) (nSeg n : Nat) (ranks : List (List (Batch dim K))) (h : Valid n nSeg ranks) :
    evaluate P nSeg n ranks = .ok ((List.range nSeg).map fun i =>
      volume n (cellsOf ranks) i :: List.ofFn (force P n nSeg (cellsOf ranks) i) ++
        List.replicate (if dim = 3 then 3 else 1) 0) := by
  unfold evaluate
  rw [allRanks_ok P ranks h, Res.ok_bind]
  refine rows_ok _ _ (fun i hi => ?_)
  unfold rowOf
  rw [forceOf_ok P ranks h hi, Res.ok_bind]
  unfold readAt
  rw [if_pos hi, Res.ok_bind, total_volumes]

/-- C150: action and reaction: in every direction the forces on all segments sum up to zero, however cells, order
parameters and segments are distributed over batches and ranks. -/
theorem C150_balance [CharZero K] (P : Par K) (nSeg n : Nat) (ranks : List (List (Batch dim K)))
    (h : Valid n nSeg ranks) (d : Fin dim) :
    ∃ rows, evaluate P nSeg n ranks = .ok rows ∧ rows.length = nSeg ∧ (rows.map fun r => forceIn r d).sum = 0 := by
  refine ⟨_, C150_forces P nSeg n ranks h, by simp, ?_⟩
  rw [List.map_map, range_sum]
  simp only [Function.comp_def, forceIn_row]
  set cs := cellsOf ranks
  have hs : ∑ i ∈ Finset.range nSeg, force P n nSeg cs i d = - ∑ i ∈ Finset.range nSeg, force P n nSeg cs i d := by
    conv_lhs =>
      unfold force
      rw [Finset.sum_comm]
    unfold force
    rw [← Finset.sum_neg_distrib]
    refine Finset.sum_congr rfl (fun j _ => ?_)
    rw [← Finset.sum_neg_distrib]
    refine Finset.sum_congr rfl (fun i _ => ?_)
    rw [contact_swap n cs j i, rawForce_swap P n cs j i d]
    by_cases hc : j ≠ i ∧ 1 / 10 ^ 10 < |contact n cs j i|
    · rw [if_pos hc, if_pos ⟨hc.1.symm, hc.2⟩, neg_div]
    · rw [if_neg hc, if_neg (fun h' => hc ⟨h'.1.symm, h'.2⟩), neg_zero]
  exact self_eq_neg.1 hs

/-- C150: volumes and forces do not depend on how the cells are distributed over batches and ranks, provided an order
parameter that is not relevant in a batch belongs to no segment there. -/
theorem C150_ranks_partial (P : Par K) (nSeg n : Nat) (ranks ranks' : List (List (Batch dim K)))
    (h : Valid n nSeg ranks) (h' : Valid n nSeg ranks') (hc : Covered ranks) (hc' : Covered ranks')
    (hp : (plainCells ranks).Perm (plainCells ranks')) :
    evaluate P nSeg n ranks = evaluate P nSeg n ranks' := by
  have pairs : ∀ (R : List (List (Batch dim K))), Covered R → ∀ i j f,
      ((cellsOf R).map (overPairs n i j f)).sum =
        ((plainCells R).map fun c => overPairs n i j f (c, fun _ => true)).sum := by
    intro R hR i j f
    unfold cellsOf plainCells
    rw [List.map_flatMap, List.map_flatMap]
    congr 1
    refine List.flatMap_congr (fun b hb => ?_)
    obtain ⟨r, hr, hb⟩ := List.mem_flatten.1 hb
    rw [List.map_map]
    refine List.map_congr_left (fun c hcc => ?_)
    rw [Function.comp_apply]
    unfold overPairs
    refine Finset.sum_congr rfl (fun a _ => Finset.sum_congr rfl fun a' _ => ?_)
    refine if_congr ?_ rfl rfl
    have hrel : ∀ g s, c.seg g = some s → (b.g2r[g]? != some 255) = true := by
      intro g s hg
      by_contra hcon
      have : b.g2r[g]? = some 255 := by simpa using hcon
      rw [hR r hr b hb c hcc g this] at hg
      cases hg
    constructor
    · rintro ⟨h1, -, -, h4, h5⟩; exact ⟨h1, rfl, rfl, h4, h5⟩
    · rintro ⟨h1, -, -, h4, h5⟩; exact ⟨h1, hrel _ _ h4, hrel _ _ h5, h4, h5⟩
  have vols : ∀ (R : List (List (Batch dim K))), Covered R → ∀ i, volume n (cellsOf R) i =
      ((plainCells R).map fun c => ∑ a ∈ Finset.range n,
        if c.seg a = some i then cellInt c (fun p => p.eta a) else 0).sum := by
    intro R hR i
    unfold volume cellsOf plainCells
    rw [List.map_flatMap, List.map_flatMap]
    congr 1
    refine List.flatMap_congr (fun b hb => ?_)
    obtain ⟨r, hr, hb⟩ := List.mem_flatten.1 hb
    rw [List.map_map]
    refine List.map_congr_left (fun c hcc => ?_)
    rw [Function.comp_apply]
    refine Finset.sum_congr rfl (fun a _ => ?_)
    refine if_congr ?_ rfl rfl
    constructor
    · rintro ⟨-, h2⟩; exact h2
    · intro hg
      refine ⟨?_, hg⟩
      by_contra hcon
      have : b.g2r[a]? = some 255 := by simpa using hcon
      rw [hR r hr b hb c hcc a this] at hg
      cases hg
  have e1 : ∀ i, volume n (cellsOf ranks) i = volume n (cellsOf ranks') i := by
    intro i
    rw [vols _ hc, vols _ hc']
    exact (hp.map _).sum_eq
  have e2 : ∀ i j f, ((cellsOf ranks).map (overPairs n i j f)).sum =
      ((cellsOf ranks').map (overPairs n i j f)).sum := by
    intro i j f
    rw [pairs _ hc, pairs _ hc']
    exact (hp.map _).sum_eq
  have e3 : force P n nSeg (cellsOf ranks) = force P n nSeg (cellsOf ranks') := by
    funext i d
    unfold force
    refine Finset.sum_congr rfl (fun j _ => ?_)
    have e4 : contact n (cellsOf ranks) i j = contact n (cellsOf ranks') i j := e2 _ _ _
    have e5 : rawForce P n (cellsOf ranks) i j d = rawForce P n (cellsOf ranks') i j d := e2 _ _ _
    rw [e4, e5]
  rw [C150_forces P nSeg n ranks h, C150_forces P nSeg n ranks' h', e3]
  simp only [e1]

/-! ### Another unit of volume -/

/-- C150: the force is a force per contact, it does not depend on the unit of volume, provided the same contacts are
above the fixed bound in both units. -/
theorem C150_unit_partial (P : Par K) (nSeg n : Nat) (ranks : List (List (Batch dim K))) (h : Valid n nSeg ranks)
    (t : K) (ht : t ≠ 0)
    (hb : ∀ i < nSeg, ∀ j < nSeg, i ≠ j →
      (1 / 10 ^ 10 < |contact n (cellsOf ranks) i j| ↔ 1 / 10 ^ 10 < |t * contact n (cellsOf ranks) i j|)) :
    ∃ rows rows', evaluate P nSeg n ranks = .ok rows ∧ evaluate P nSeg n (scale t ranks) = .ok rows' ∧
      rows.length = nSeg ∧ rows'.length = nSeg ∧
      ∀ i < nSeg, ∀ d : Fin dim, forceIn (rows'.getD i []) d = forceIn (rows.getD i []) d := by
  refine ⟨_, _, C150_forces P nSeg n ranks h, C150_forces P nSeg n _ (valid_scale t h), by simp, by simp,
    fun i hi d => ?_⟩
  rw [getD_map_range _ hi, getD_map_range _ hi, forceIn_row, forceIn_row]
  unfold force
  refine Finset.sum_congr rfl (fun j hj => ?_)
  rw [contact_scale, rawForce_scale, mul_div_mul_left _ _ ht]
  by_cases he : i = j
  · simp [he]
  · refine if_congr ?_ rfl rfl
    rw [hb i hi j (Finset.mem_range.1 hj) he]

/-- C150 does not hold for the unit of volume itself: whatever the grains, there is a unit in which every force is
zero. -/
theorem C150_unit_violated [IsStrictOrderedRing K] (P : Par K) (nSeg n : Nat) (ranks : List (List (Batch dim K)))
    (h : Valid n nSeg ranks) :
    ∃ t : K, 0 < t ∧ ∃ rows, evaluate P nSeg n (scale t ranks) = .ok rows ∧ rows.length = nSeg ∧
      ∀ i < nSeg, ∀ d : Fin dim, forceIn (rows.getD i []) d = 0 := by
  set S : K := ∑ i ∈ Finset.range nSeg, ∑ j ∈ Finset.range nSeg, |contact n (cellsOf ranks) i j| with hS
  have hS0 : 0 ≤ S := Finset.sum_nonneg fun i _ => Finset.sum_nonneg fun j _ => abs_nonneg _
  have hle : ∀ i < nSeg, ∀ j < nSeg, |contact n (cellsOf ranks) i j| ≤ S := by
    intro i hi j hj
    have h1 := Finset.single_le_sum (f := fun j => |contact n (cellsOf ranks) i j|)
      (fun j _ => abs_nonneg _) (Finset.mem_range.2 hj)
    have h2 := Finset.single_le_sum (f := fun i => ∑ j ∈ Finset.range nSeg, |contact n (cellsOf ranks) i j|)
      (fun i _ => Finset.sum_nonneg fun j _ => abs_nonneg _) (Finset.mem_range.2 hi)
    exact h1.trans h2
  have hpos : (0 : K) < 1 / 10 ^ 10 := by positivity
  have ht : (0 : K) < 1 / 10 ^ 10 / (1 + S) := div_pos hpos (by linarith)
  refine ⟨1 / 10 ^ 10 / (1 + S), ht, _, C150_forces P nSeg n _ (valid_scale _ h), by simp, fun i hi d => ?_⟩
  rw [getD_map_range _ hi, forceIn_row]
  unfold force
  refine Finset.sum_eq_zero (fun j hj => if_neg ?_)
  rintro ⟨-, hlt⟩
  rw [contact_scale, abs_mul, abs_of_pos ht] at hlt
  have h1 : 1 / 10 ^ 10 / (1 + S) * |contact n (cellsOf ranks) i j| ≤ 1 / 10 ^ 10 / (1 + S) * (1 + S) :=
    mul_le_mul_of_nonneg_left (by linarith [hle i hi j (Finset.mem_range.1 hj)]) ht.le
  rw [div_mul_cancel₀ _ (ne_of_gt (by linarith : (0 : K) < 1 + S))] at h1
  exact absurd (lt_of_lt_of_le hlt h1) (lt_irrefl _)
end

namespace Ex150

/-- Two order parameters on a grain boundary. -/
def pt (w c e0 e1 g0 g1 : Rat) : Point 1 Rat :=
  ⟨w, c, fun k => if k = 0 then e0 else e1, fun k _ => if k = 0 then g0 else g1⟩

def P : Par Rat := ⟨2, 1 / 10, 1 / 2, none⟩

def c1 : Cell 1 Rat := ⟨[pt (1 / 2) 1 (1 / 2) (1 / 2) (-1) 1, pt (1 / 2) 1 1 0 0 0], fun g => if g < 2 then some g else none⟩
def c2 : Cell 1 Rat := ⟨[pt 1 1 (1 / 2) (1 / 4) (-2) 3], fun g => if g < 2 then some (g + 1) else none⟩

def ranks : List (List (Batch 1 Rat)) := [[⟨[c1, c2], [0, 1]⟩]]
def ranks2 : List (List (Batch 1 Rat)) := [[⟨[c2], [0, 1]⟩], [⟨[c1], [0, 1]⟩]]

theorem valid : Valid 2 3 ranks := by
  intro r hr b hb
  simp only [ranks, List.mem_singleton] at hr
  subst hr
  simp only [List.mem_singleton] at hb
  subst hb
  refine ⟨by decide, fun c hc g s hs => ?_⟩
  simp only [List.mem_cons, List.not_mem_nil, or_false] at hc
  rcases hc with rfl | rfl <;> simp only [c1, c2] at hs <;> split at hs <;> cases hs <;> omega

theorem valid2 : Valid 2 3 ranks2 := by
  intro r hr b hb
  simp only [ranks2, List.mem_cons, List.not_mem_nil, or_false] at hr
  rcases hr with rfl | rfl <;> simp only [List.mem_singleton] at hb <;> subst hb <;>
    refine ⟨by decide, fun c hc g s hs => ?_⟩ <;> simp only [List.mem_singleton] at hc <;> subst hc <;>
    simp only [c1, c2] at hs <;> split at hs <;> cases hs <;> omega

/-- Three segments in a row: the forces are not zero and balance. -/
example : evaluate P 3 2 ranks = .ok [[3 / 4, -8, 0], [3 / 4, -32, 0], [1 / 4, 40, 0]] := by decide +kernel

example : evaluate P 3 2 ranks2 = evaluate P 3 2 ranks := by decide +kernel

example : ∃ rows, evaluate P 3 2 ranks = .ok rows ∧ rows.length = 3 ∧ (rows.map fun r => forceIn r 0).sum = 0 :=
  C150_balance P 3 2 ranks valid 0

example : evaluate P 3 2 ranks = evaluate P 3 2 ranks2 :=
  C150_ranks_partial P 3 2 ranks ranks2 valid valid2
    (by
      intro r hr b hb c hc g hg
      simp only [ranks, List.mem_singleton] at hr; subst hr
      simp only [List.mem_singleton] at hb; subst hb
      match g with
      | 0 => simp at hg
      | 1 => simp at hg
      | g + 2 => simp at hg)
    (by
      intro r hr b hb c hc g hg
      simp only [ranks2, List.mem_cons, List.not_mem_nil, or_false] at hr
      rcases hr with rfl | rfl <;> simp only [List.mem_singleton] at hb <;> subst hb <;>
      match g with
      | 0 => simp at hg
      | 1 => simp at hg
      | g + 2 => simp at hg)
    (List.Perm.swap _ _ _)

/-- In SI units all forces vanish. -/
example : evaluate P 3 2 (scale (1 / 10 ^ 18) ranks) =
    .ok [[3 / 4 / 10 ^ 18, 0, 0], [3 / 4 / 10 ^ 18, 0, 0], [1 / 4 / 10 ^ 18, 0, 0]] := by decide +kernel

/-- An order parameter that is not relevant is left out although it belongs to a segment: the result depends on the
batches (here the second cell shares a batch with the first or not). -/
theorem C150_batches_violated :
    evaluate P 3 2 [[⟨[c1], [0, 1]⟩], [⟨[c2], [0, 255]⟩]] ≠ evaluate P 3 2 ranks ∧
      plainCells [[⟨[c1], [0, 1]⟩], [⟨[c2], [0, 255]⟩]] = plainCells ranks := ⟨by decide +kernel, rfl⟩

end Ex150
end Verif.Props
