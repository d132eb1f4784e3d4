import Verif.Lemmas.ContourFile
import Verif.Lemmas.Connect
import Mathlib.Algebra.Order.Field.Basic
import Mathlib.Algebra.Field.Rat
import Mathlib.Algebra.Order.Ring.Rat
import Mathlib.Data.Rat.Encodable
import Mathlib.Data.Fin.VecNotation
import Mathlib.Tactic.LinearCombination
import Mathlib.Tactic.Linarith
import Mathlib.Tactic.NormNum
/-!
# C116, C117: files with contours of grains and of sections
-/
namespace Verif.Props
open ContourFile ContourFile.Spec

section C116
variable {dim : Nat} {K : Type} [Field K] [LinearOrder K] {F : Fmt K} {round : K → K}

/-- the points collected on one rank: one list per segment -/
theorem C116_gather {P : Type} (big : K) (grains : List (Nat × Grain dim K)) (hg : (grains.map (·.1)).Nodup)
    (T : Tracker) (pieces : Nat → Nat → List P) (nBlocks : Nat) (owned : List Nat)
    (hc : Consistent T (keys grains) nBlocks owned) :
    gather T (collect big grains) pieces nBlocks owned =
      .ok ((keys grains).map (segmentPoints T pieces nBlocks owned)) := by
  unfold gather
  rw [collect_eq big grains hg]
  have h0 : List.replicate (segments grains).length ([] : List P) = (keys grains).map fun _ => [] := by
    rw [List.map_const']
    simp [keys]
  dsimp only
  rw [h0, gather_blocks T (keys grains) (keys_nodup grains hg) pieces owned (List.range nBlocks) (fun _ => [])
    (fun b hb => hc b (List.mem_range.1 hb))]
  simp only [List.nil_append]
  rfl

/-- a grain or segment that is not among those of the tracker ends the output with an exception -/
theorem C116_missing {P : Type} (big : K) (grains : List (Nat × Grain dim K)) (hg : (grains.map (·.1)).Nodup)
    (T : Tracker) (pieces : Nat → Nat → List P) (b cell p g s : Nat) (pts : List (List P))
    (hp : T.particle b cell = some p) (hs : T.grainSegment b p = .ok (some g, s)) (hm : (g, s) ∉ keys grains) :
    gatherCell T (collect big grains).index pieces b pts cell = .exc .outOfRange := by
  have hl : (keys grains).zipIdx.lookup (g, s) = none := by
    refine lookup_none_of_not_mem _ _ ?_
    rwa [List.zipIdx_map_fst]
  unfold gatherCell
  rw [collect_eq big grains hg, hp]
  simp only [hs, Res.ok_bind, hl]
  rfl

/-- The ranks may write in any order: the file is the header followed by the streams of the ranks, without holes and
without overwriting anything. -/
theorem C116_file (head : List Char) (streams : List (List Char)) (order : List Nat) (hh : head.length < 2 ^ 32)
    (ho : order.Perm (List.range streams.length)) (i : Nat) :
    writeFile head streams order i = (head ++ streams.flatten)[i]? := writeFile_eq head streams order hh ho i

/-- Writing and reading back: the reader recovers every segment of every grain with its representation, and the
points of every segment on all ranks, up to the rounding of printed numbers. -/
theorem C116_partial (hF : Lawful F round) (hd : 0 < dim) (big : K) (grains : List (Nat × Grain dim K))
    (hg : (grains.map (·.1)).Nodup) (T : Tracker) (pieces : Nat → Nat → List (Fin dim → K)) (nBlocks : Nat)
    (ranks : List (List Nat)) (hc : ∀ owned ∈ ranks, Consistent T (keys grains) nBlocks owned) (lo hi : Fin dim → K)
    (hh : (header F dim nBlocks (collect big grains) (List.ofFn lo) (List.ofFn hi)).length < 2 ^ 32)
    (order : List Nat) (ho : order.Perm (List.range ranks.length)) :
    ∃ pts cs offset, ranks.mapM (gather T (collect big grains) pieces nBlocks) = .ok pts ∧
      (∀ i, writeFile (header F dim nBlocks (collect big grains) (List.ofFn lo) (List.ofFn hi))
        (pts.map (rankStream F)) order i = cs[i]?) ∧
      (∀ me ds, ∃ m, IsNearest big me ds m ∧ offset me ds = m / 2) ∧
      readFile F cs = some (expected round offset nBlocks lo hi grains fun k =>
        ranks.flatMap fun owned => segmentPoints T pieces nBlocks owned k) := by
  have hgather : ranks.mapM (gather T (collect big grains) pieces nBlocks) =
      .ok (ranks.map fun owned => (keys grains).map (segmentPoints T pieces nBlocks owned)) := by
    revert hc
    clear ho
    induction ranks with
    | nil => intro _; rfl
    | cons r l ih =>
      intro hc
      rw [List.mapM_cons, C116_gather big grains hg T pieces nBlocks r (hc r (by simp)), Res.ok_bind,
        ih (fun o ho => hc o (by simp [ho]))]
      rfl
  refine ⟨_, _, fun me ds => frontMin big me ds / 2, hgather,
    fun i => C116_file _ _ order hh (by simpa using ho) i, fun me ds => ⟨_, frontMin_nearest me ds big, rfl⟩, ?_⟩
  generalize hR : (ranks.map fun owned => (keys grains).map (segmentPoints T pieces nBlocks owned)) = R
  unfold readFile header
  have hnat : ∀ l : List Nat, ∀ w ∈ l.map F.showNat, '\n' ∉ w := by
    intro l w hw
    obtain ⟨n, -, rfl⟩ := List.mem_map.1 hw
    exact hF.nat_end n
  have hnum : ∀ l : List K, ∀ w ∈ l.map F.showNum, '\n' ∉ w := by
    intro l w hw
    obtain ⟨n, -, rfl⟩ := List.mem_map.1 hw
    exact hF.num_end n
  have hd1 : ((collect big grains).data.map fun e => F.showNat e.1) =
      ((collect big grains).data.map (·.1)).map F.showNat := by rw [List.map_map]; rfl
  have hd2 : ((collect big grains).data.map fun e => F.showNat e.2) =
      ((collect big grains).data.map (·.2)).map F.showNat := by rw [List.map_map]; rfl
  rw [hd1, hd2]
  simp only [List.append_assoc, List.cons_append, List.nil_append]
  rw [linesAux_line _ _ _ (hF.nat_end _), linesAux_line _ _ _ (hF.nat_end _), linesAux_line _ _ _ (hF.nat_end _),
    linesAux_words _ _ (hnat _), linesAux_words _ _ (hnat _), linesAux_words _ _ (hnum _), linesAux_words _ _ (hnum _),
    linesAux_words _ _ (hnum _)]
  simp only [List.nil_append]
  rw [oneNat_show hF, oneNat_show hF, oneNat_show hF, nats_show hF, nats_show hF, nums_show hF, nums_show hF,
    nums_show hF]
  have hparams : (collect big grains).parameters = ((segments grains).map fun e => e.2.2).flatMap (save big) := by
    rw [collect_eq big grains hg, List.flatMap_map]
  have hcounter : (collect big grains).counter = (segments grains).length := by rw [collect_eq big grains hg]
  have hdata : (collect big grains).data = (segments grains).map fun e => (e.2.1.id, e.2.1.op) := by
    rw [collect_eq big grains hg]
  rw [hparams, hcounter, hdata]
  have hsh := readShapes_save (dim := dim) hF big ((segments grains).map fun e => e.2.2)
    _ (Nat.le_refl _)
  have hrep : List.replicate (segments grains).length ([] : List K) =
      (List.range (segments grains).length).map fun _ => [] := by
    rw [List.map_const']; simp
  have hpts := readPoints_ranks (dim := dim) hF (segments grains).length R (fun _ => []) (by
    intro r hr
    rw [← hR] at hr
    obtain ⟨o, -, rfl⟩ := List.mem_map.1 hr
    simp [keys])
  simp only [Option.bind_eq_bind, Option.bind_some]
  rw [hsh, hrep, hpts]
  simp only [Option.bind_some, expected, List.map_map]
  congr 1
  congr 1
  · simp [List.map_ofFn, Function.comp_def]
  · simp [List.map_ofFn, Function.comp_def]
  · apply List.ext_getElem
    · simp [keys]
    · intro k h1 h2
      have hk : k < (keys grains).length := by simpa using h2
      simp only [List.getElem_map, List.getElem_range, Function.comp, List.nil_append]
      rw [chunk_coords hd]
      congr 1
      rw [← hR, List.flatMap_map]
      congr 1
      funext o
      rw [List.getElem?_map, List.getElem?_eq_getElem hk]
      rfl

end C116

section C117
variable {K : Type} [Field K] [LinearOrder K] {F : Fmt K} {round : K → K}

/-- Files of sections: the writer puts no type in front of the numbers of a segment, so that the reader takes the
first coordinate of the centre for the type. Unless this happens to be one of the three types, reading fails. -/
theorem C117_format_violated (hF : Lawful F round) (root : K → K) (c origin normal : Fin 3 → K) (r : K) (more : List K)
    (nOp : Nat) (l : Lists K) (lo hi : List K) (rest : List Char)
    (hl : l.parameters = projectedParameters root c origin normal r ++ more)
    (h1 : F.trunc (round (circleCenter c origin normal 0)) ≠ 1)
    (h2 : F.trunc (round (circleCenter c origin normal 0)) ≠ 2)
    (h3 : F.trunc (round (circleCenter c origin normal 0)) ≠ 3) :
    readFile F (header F 2 nOp l lo hi ++ rest) = none := by
  refine readFile_shapes (dim := 2) hF nOp l lo hi rest ?_
  obtain ⟨tail, ht⟩ : ∃ tail, l.parameters = circleCenter c origin normal 0 :: tail := by
    rw [hl]; unfold projectedParameters; rw [List.ofFn_succ]; exact ⟨_, rfl⟩
  rw [ht, List.map_cons, List.length_cons, readShapes]
  unfold readShape
  rw [if_neg h1, if_neg h2, if_neg h3]
  rfl

/-- If the first coordinate happens to be a one, the reader takes the other two coordinates for the centre. -/
theorem C117_misread (root : K → K) (c origin normal : Fin 3 → K) (r : K) (more : List K)
    (h1 : F.trunc (round (circleCenter c origin normal 0)) = 1) :
    ∃ rad, readShape F 2 (round (circleCenter c origin normal 0))
        (((projectedParameters root c origin normal r ++ more).map round).drop 1) =
      some (.sphere [round (circleCenter c origin normal 1), round (circleCenter c origin normal 2)] rad, 3) := by
  refine ⟨round (((circleRadicand c origin normal r).map root).getD 0), ?_⟩
  unfold readShape
  rw [if_pos h1]
  simp [projectedParameters, slice, List.ofFn_succ]

/-- The centre of the circle is the foot of the perpendicular exactly if the centre of the sphere lies in the plane:
the code adds the distance along the normal where it had to be subtracted. -/
theorem C117_center_partial [IsStrictOrderedRing K] (c origin normal : Fin 3 → K) (hn : dot3 normal normal = 1) :
    IsFoot c origin normal (circleCenter c origin normal) ↔ planeDist c origin normal = 0 := by
  have hk : dot3 (fun d => circleCenter c origin normal d - origin d) normal = 2 * planeDist c origin normal := by
    have : planeDist c origin normal * dot3 normal normal = planeDist c origin normal := by rw [hn, mul_one]
    simp only [circleCenter, dot3] at this ⊢
    have hp : planeDist c origin normal = (c 0 - origin 0) * normal 0 + (c 1 - origin 1) * normal 1 +
        (c 2 - origin 2) * normal 2 := rfl
    linear_combination this - hp
  constructor
  · rintro ⟨h, -⟩
    rw [hk] at h
    linarith
  · intro h
    exact ⟨by rw [hk, h, mul_zero], planeDist c origin normal, fun d => rfl⟩

/-- The radius: within reach of the plane its square is that of the circle of intersection and not negative; beyond
the plane in direction of the normal it is zero. -/
theorem C117_radius_partial [IsStrictOrderedRing K] (c origin normal : Fin 3 → K) (r : K) :
    (-r ≤ planeDist c origin normal → planeDist c origin normal ≤ r →
      ∃ x, circleRadicand c origin normal r = some x ∧ 0 ≤ x ∧
        x + planeDist c origin normal * planeDist c origin normal = r * r) ∧
    (r < planeDist c origin normal → circleRadicand c origin normal r = none) := by
  constructor
  · intro h1 h2
    refine ⟨_, if_pos h2, ?_, by ring⟩
    nlinarith
  · intro h
    exact if_neg (not_le.2 h)

/-- A sphere that lies wholly on the side of the plane the normal points away from gets the root of a negative
number. -/
theorem C117_radius_violated [IsStrictOrderedRing K] (c origin normal : Fin 3 → K) (r : K) (hr : 0 ≤ r)
    (h : planeDist c origin normal < -r) :
    ∃ x, circleRadicand c origin normal r = some x ∧ x < 0 := by
  refine ⟨_, if_pos (by linarith), ?_⟩
  nlinarith

omit [Field K] in
/-- The box of a section: if some rank has cells of the section, the lower corner is the smallest one of these ranks
(all coordinates being below `big`), and the upper corner is the largest one, provided that it is at least the smallest
positive number or that no rank is without cells. -/
theorem C117_box_partial (tiny big : K) (ranks : List (Option K)) (m : K) (hm : some m ∈ ranks) :
    ((∀ x, some x ∈ ranks → m ≤ x) → m ≤ big → lowerCorner big ranks = some m) ∧
    ((∀ x, some x ∈ ranks → x ≤ m) → (tiny ≤ m ∨ none ∉ ranks) → upperCorner tiny ranks = some m) := by
  obtain ⟨a, l, rfl⟩ := List.exists_cons_of_ne_nil (List.ne_nil_of_mem hm)
  constructor
  · intro h1 h2
    unfold lowerCorner
    rw [List.map_cons]
    obtain ⟨k1, k2, k3⟩ := foldl_min_spec (l.map (·.getD big)) (a.getD big)
    have hge : ∀ o ∈ a :: l, m ≤ o.getD big := by
      intro o ho
      cases o with
      | none => exact h2
      | some x => exact h1 x ho
    rw [Option.some.injEq]
    apply le_antisymm
    · rcases List.mem_cons.1 hm with rfl | hm
      · exact k1
      · exact k2 _ (List.mem_map.2 ⟨_, hm, rfl⟩)
    · rcases k3 with k3 | k3
      · rw [k3]; exact hge a (by simp)
      · obtain ⟨o, ho, ho'⟩ := List.mem_map.1 k3
        rw [← ho']; exact hge o (by simp [ho])
  · intro h1 h2
    unfold upperCorner
    rw [List.map_cons]
    obtain ⟨k1, k2, k3⟩ := foldl_max_spec (l.map (·.getD tiny)) (a.getD tiny)
    have hle : ∀ o ∈ a :: l, o.getD tiny ≤ m := by
      intro o ho
      cases o with
      | none =>
        rcases h2 with h2 | h2
        · exact h2
        · exact absurd ho h2
      | some x => exact h1 x ho
    rw [Option.some.injEq]
    apply le_antisymm
    · rcases k3 with k3 | k3
      · rw [k3]; exact hle a (by simp)
      · obtain ⟨o, ho, ho'⟩ := List.mem_map.1 k3
        rw [← ho']; exact hle o (by simp [ho])
    · rcases List.mem_cons.1 hm with rfl | hm
      · exact k1
      · exact k2 _ (List.mem_map.2 ⟨_, hm, rfl⟩)

omit [Field K] in
/-- If some rank has no cells of the section and the section lies below the smallest positive number, then the upper
corner is not one of the section. -/
theorem C117_box_violated (tiny : K) (ranks : List (Option K)) (hn : none ∈ ranks)
    (h : ∀ x, some x ∈ ranks → x < tiny) : ∃ u, upperCorner tiny ranks = some u ∧ some u ∉ ranks := by
  obtain ⟨a, l, rfl⟩ := List.exists_cons_of_ne_nil (List.ne_nil_of_mem hn)
  unfold upperCorner
  rw [List.map_cons]
  obtain ⟨k1, k2, -⟩ := foldl_max_spec (l.map (·.getD tiny)) (a.getD tiny)
  refine ⟨_, rfl, fun hmem => ?_⟩
  refine absurd (h _ hmem) (not_lt.2 ?_)
  rcases List.mem_cons.1 hn with rfl | hn
  · exact k1
  · exact k2 _ (List.mem_map.2 ⟨none, hn, rfl⟩)

end C117

namespace Ex116
open Encodable

/-- numbers printed in unary, through an enumeration of the rationals -/
def fmt : Fmt ℚ where
  showNat n := List.replicate (n + 1) '1'
  readNat w := some (w.length - 1)
  showNum x := List.replicate (encode x + 1) '1'
  readNum w := decode (w.length - 1)
  trunc x := x.num.tdiv x.den

theorem fmt_lawful : Lawful fmt id where
  nat_ne n := by simp [fmt]
  nat_blank n := by simp [fmt]
  nat_end n := by simp [fmt]
  nat_read n := by simp [fmt]
  num_ne n := by simp [fmt]
  num_blank n := by simp [fmt]
  num_end n := by simp [fmt]
  num_read n := by simp [fmt]
  one := by decide +kernel
  two := by decide +kernel
  three := by decide +kernel

/-- a sphere, an ellipse and a front in two grains -/
def grains : List (Nat × Grain 2 ℚ) :=
  [(4, ⟨4, 0, [.sphere ![1, 2] 3, .front (0, 1) ![5, 5] [((0, 0), 6), ((1, 0), 2)]]⟩),
   (7, ⟨7, 1, [.ellipse ![0, 1] ![![1, 0], ![0, 1]] ![2, 1]]⟩)]

example : (collect 1000 grains).parameters = [1, 1, 2, 3, 3, 5, 5, 3, 2, 0, 1, 1, 0, 0, 1, 2, 1] := by
  decide +kernel

example : (collect 1000 grains).index = [((4, 0), 0), ((4, 1), 1), ((7, 0), 2)] := by decide +kernel

/-- cells 0 and 1 belong to the segments of grain 4, cell 2 to grain 7 for the second order parameter -/
def tracker : Tracker where
  particle b cell := if b = 0 then (if cell < 2 then some cell else none) else if cell = 2 then some 0 else none
  grainSegment b p := if b = 0 then (if p < 2 then .ok (some 4, p) else .ub) else .ok (some 7, 0)

def pieces (b cell : Nat) : List (Fin 2 → ℚ) := [![(b : ℚ), (cell : ℚ)], ![(cell : ℚ), 9]]

theorem consistent (owned : List Nat) : Consistent tracker (keys grains) 2 owned := by
  intro b hb cell _ p hp
  have hb' : b = 0 ∨ b = 1 := by omega
  rcases hb' with rfl | rfl
  · simp only [tracker, if_true] at hp ⊢
    split_ifs at hp with h
    simp only [Option.some.injEq] at hp
    subst hp
    refine ⟨(some 4, cell), by simp [h], fun g hg => ?_⟩
    simp only [Option.some.injEq] at hg
    subst hg
    have : cell = 0 ∨ cell = 1 := by omega
    rcases this with rfl | rfl <;> decide +kernel
  · refine ⟨(some 7, 0), rfl, fun g hg => ?_⟩
    simp only [Option.some.injEq] at hg
    subst hg
    decide +kernel

theorem short : (header fmt 2 2 (collect 1000 grains) (List.ofFn ![0, 0]) (List.ofFn ![9, 9])).length < 2 ^ 32 := by
  decide +kernel

example : ∃ pts cs offset, [[0, 2], [1]].mapM (gather tracker (collect 1000 grains) pieces 2) = .ok pts ∧
      (∀ i, writeFile (header fmt 2 2 (collect 1000 grains) (List.ofFn ![0, 0]) (List.ofFn ![9, 9]))
        (pts.map (rankStream fmt)) [1, 0] i = cs[i]?) ∧
      (∀ me ds, ∃ m, IsNearest 1000 me ds m ∧ offset me ds = m / 2) ∧
      readFile fmt cs = some (expected id offset 2 ![0, 0] ![9, 9] grains fun k =>
        [[0, 2], [1]].flatMap fun owned => segmentPoints tracker pieces 2 owned k) :=
  C116_partial fmt_lawful (by decide) 1000 grains (by decide) tracker pieces 2 [[0, 2], [1]]
    (fun o _ => consistent o) ![0, 0] ![9, 9] short [1, 0] (by decide)

example : (gather tracker (collect 1000 grains) (fun b cell => [(b, cell)]) 2 [0, 1, 2]) =
    .ok [[(0, 0)], [(0, 1)], [(1, 2)]] := by decide +kernel

example : (List.range 8).map (writeFile ['a', 'b'] [['c'], [], ['d', 'e', 'f']] [2, 0, 1]) =
    ['a', 'b', 'c', 'd', 'e', 'f'].map some ++ [none, none] := by decide +kernel

/-- a sphere around (0, 0, 1/2) of radius 1 cut by the plane of the first two axes -/
example : readFile fmt (header fmt 2 1
    ⟨1, projectedParameters (fun x => x) ![0, 0, 1 / 2] ![0, 0, 0] ![0, 0, 1] 1, [((0, 0), 0)], [(0, 0)]⟩ [0, 0] [1, 1] ++
      []) = none :=
  C117_format_violated fmt_lawful (fun x => x) ![0, 0, 1 / 2] ![0, 0, 0] ![0, 0, 1] 1 [] 1 _ [0, 0] [1, 1] [] (by simp)
    (by decide +kernel) (by decide +kernel) (by decide +kernel)

example : ¬ IsFoot (![0, 0, 1 / 2] : Fin 3 → ℚ) ![0, 0, 0] ![0, 0, 1] (circleCenter ![0, 0, 1 / 2] ![0, 0, 0] ![0, 0, 1]) := by
  rw [C117_center_partial _ _ _ (by decide +kernel)]
  decide +kernel

example : ∃ x : ℚ, circleRadicand ![0, 0, -2] ![0, 0, 0] ![0, 0, 1] 1 = some x ∧ x < 0 :=
  C117_radius_violated _ _ _ _ (by decide +kernel) (by decide +kernel)

example : upperCorner (1 / 1000 : ℚ) [some (-3), none] = some (1 / 1000) := by decide +kernel
example : upperCorner (1 / 1000 : ℚ) [some (-3), some (-5)] = some (-3) := by decide +kernel

end Ex116

end Verif.Props
