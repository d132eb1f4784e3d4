/-
C68: control boxes and plane sections.  C69: which control boxes are used and how their output is named.
-/
import Verif.Model.BoxFilter
import Mathlib.Tactic.Linarith
import Mathlib.Tactic.Ring
import Mathlib.Tactic.FieldSimp
import Mathlib.Tactic.NormNum
import Mathlib.Algebra.Order.Ring.Rat
import Mathlib.Algebra.Field.Rat
import Mathlib.Data.Fin.VecNotation
import Mathlib.Algebra.BigOperators.Fin
import Mathlib.Algebra.Order.BigOperators.Ring.Finset

set_option linter.unusedSectionVars false

namespace Verif.Props
open Verif.BoxFilter

variable {K : Type} [Field K] [LinearOrder K] [IsStrictOrderedRing K] {d : Nat}

theorem boxFilter_fold (b : Box K d) (p : Fin d → K) (l : List (Fin d)) (v : K) :
    l.foldl (fun v i =>
      let v := if b.lower i < p i then v else 0
      if p i < b.upper i then v else 0) v
    = if ∀ i ∈ l, b.lower i < p i ∧ p i < b.upper i then v else 0 := by
  induction l generalizing v with
  | nil => simp
  | cons i l ih =>
    rw [List.foldl_cons, ih]
    by_cases h1 : b.lower i < p i <;> by_cases h2 : p i < b.upper i <;> simp [h1, h2]

/-- The quadrature weight of the box is one at the points strictly inside of it and zero elsewhere. -/
theorem C68_filter (b : Box K d) (p : Fin d → K) :
    filter b p = if ∀ i, b.lower i < p i ∧ p i < b.upper i then 1 else 0 := by
  unfold filter
  rw [boxFilter_fold]
  simp

theorem pointInside_iff (eps : K) (b : Box K d) (p : Fin d → K) :
    pointInside eps b p = true ↔ ∀ i, b.lower i - eps * (b.upper i - b.lower i) ≤ p i
      ∧ p i ≤ b.upper i + eps * (b.upper i - b.lower i) := by
  unfold pointInside
  simp [List.all_eq_true]

/-- Exact description of the three positions. -/
theorem C68_position (eps : K) (b : Box K d) (p : Fin d → K) :
    (position eps b p = .outside ↔ ∃ i, p i < b.lower i - eps * (b.upper i - b.lower i)
        ∨ b.upper i + eps * (b.upper i - b.lower i) < p i)
    ∧ (position eps b p = .boundary ↔
        (∀ i, b.lower i - eps * (b.upper i - b.lower i) ≤ p i ∧ p i ≤ b.upper i + eps * (b.upper i - b.lower i))
        ∧ ∃ i, |b.lower i - p i| < eps ∨ |b.upper i - p i| < eps)
    ∧ (position eps b p = .inside ↔
        (∀ i, b.lower i - eps * (b.upper i - b.lower i) ≤ p i ∧ p i ≤ b.upper i + eps * (b.upper i - b.lower i))
        ∧ ∀ i, eps ≤ |b.lower i - p i| ∧ eps ≤ |b.upper i - p i|) := by
  have hin := pointInside_iff eps b p
  have hbd : ((List.finRange d).any fun i => decide (|b.lower i - p i| < eps) || decide (|b.upper i - p i| < eps)) = true
      ↔ ∃ i, |b.lower i - p i| < eps ∨ |b.upper i - p i| < eps := by simp [List.any_eq_true]
  unfold position
  by_cases h : pointInside eps b p = true
  · have h' := hin.mp h
    have hno : ¬ ∃ i, p i < b.lower i - eps * (b.upper i - b.lower i) ∨ b.upper i + eps * (b.upper i - b.lower i) < p i := by
      rintro ⟨i, hi⟩
      rcases hi with hi | hi
      · exact absurd (h' i).1 (not_le.mpr hi)
      · exact absurd (h' i).2 (not_le.mpr hi)
    by_cases hb : ∃ i, |b.lower i - p i| < eps ∨ |b.upper i - p i| < eps
    · rw [if_pos h, if_pos (hbd.mpr hb)]
      refine ⟨⟨nofun, fun q => absurd q hno⟩, ⟨fun _ => ⟨h', hb⟩, fun _ => rfl⟩, ⟨nofun, fun q => ?_⟩⟩
      obtain ⟨i, hi⟩ := hb
      rcases hi with hi | hi
      · exact absurd (q.2 i).1 (not_le.mpr hi)
      · exact absurd (q.2 i).2 (not_le.mpr hi)
    · rw [if_pos h, if_neg (fun q => hb (hbd.mp q))]
      refine ⟨⟨nofun, fun q => absurd q hno⟩, ⟨nofun, fun q => absurd q.2 hb⟩, ⟨fun _ => ⟨h', fun i => ?_⟩, fun _ => rfl⟩⟩
      exact ⟨le_of_not_gt fun q => hb ⟨i, Or.inl q⟩, le_of_not_gt fun q => hb ⟨i, Or.inr q⟩⟩
  · rw [if_neg h]
    have hex : ∃ i, p i < b.lower i - eps * (b.upper i - b.lower i) ∨ b.upper i + eps * (b.upper i - b.lower i) < p i := by
      by_contra hc
      apply h
      rw [hin]
      intro i
      exact ⟨le_of_not_gt fun q => hc ⟨i, Or.inl q⟩, le_of_not_gt fun q => hc ⟨i, Or.inr q⟩⟩
    refine ⟨⟨fun _ => hex, fun _ => rfl⟩, ⟨nofun, fun q => absurd (hin.mpr q.1) h⟩, ⟨nofun, fun q => absurd (hin.mpr q.1) h⟩⟩

/-- A point with weight one is never reported as outside, whatever the box. -/
theorem C68_weight_not_outside (eps : K) (heps : 0 ≤ eps) (b : Box K d) (p : Fin d → K) (h : filter b p = 1) :
    position eps b p ≠ .outside := by
  rw [C68_filter] at h
  split at h
  · rename_i hs
    rw [ne_eq, (C68_position eps b p).1]
    rintro ⟨i, hi⟩
    have hi1 := (hs i).1
    have hi2 := (hs i).2
    have : 0 ≤ eps * (b.upper i - b.lower i) := mul_nonneg heps (by linarith)
    rcases hi with hi | hi <;> linarith
  · exact absurd h.symm one_ne_zero

/-- A point reported as inside has weight one provided that all sides of the box are shorter than one unit (the
tolerance of `point_inside` is relative to the side, the one of the boundary test is absolute). -/
theorem C68_inside_weight_partial (eps : K) (heps : 0 < eps) (b : Box K d) (p : Fin d → K)
    (hside : ∀ i, b.upper i - b.lower i < 1) (h : position eps b p = .inside) : filter b p = 1 := by
  rw [(C68_position eps b p).2.2] at h
  rw [C68_filter, if_pos]
  intro i
  have hs : eps * (b.upper i - b.lower i) < eps := by
    calc eps * (b.upper i - b.lower i) < eps * 1 := mul_lt_mul_of_pos_left (hside i) heps
      _ = eps := mul_one _
  obtain ⟨a1, a2⟩ := h.1 i
  obtain ⟨c1, c2⟩ := h.2 i
  constructor
  · by_contra hc
    have hc := le_of_not_gt hc
    rw [abs_of_nonneg (by linarith)] at c1
    linarith
  · by_contra hc
    have hc := le_of_not_gt hc
    rw [abs_of_nonpos (by linarith)] at c2
    linarith

/-- For longer boxes it is violated: a point just below the box is reported as inside although its weight is zero. -/
theorem C68_inside_weight_violated : ∃ (b : Box ℚ 1) (p : Fin 1 → ℚ),
    position (1 / 1000) b p = .inside ∧ filter b p = 0 ∧ ∃ i, p i < b.lower i := by
  refine ⟨⟨fun _ => 0, fun _ => 10⟩, fun _ => -1 / 200, by decide +kernel, by decide +kernel, 0, by norm_num⟩

/-- A cell is reported as cut exactly if its vertices are neither all inside nor all outside. -/
theorem C68_intersects (eps : K) (b : Box K d) (vs : List (Fin d → K)) :
    intersects eps b vs = true ↔ (∃ v ∈ vs, position eps b v ≠ .inside) ∧ ∃ v ∈ vs, position eps b v ≠ .outside := by
  have key : ∀ q : Position, vs.countP (fun v => position eps b v == q) < vs.length ↔ ∃ v ∈ vs, position eps b v ≠ q := by
    intro q
    rw [lt_iff_le_and_ne]
    constructor
    · rintro ⟨-, h⟩
      by_contra hc
      exact h (List.countP_eq_length.mpr fun v hv => by
        by_contra hq
        exact hc ⟨v, hv, by simpa using hq⟩)
    · rintro ⟨v, hv, hq⟩
      refine ⟨List.countP_le_length, fun h => hq ?_⟩
      simpa using List.countP_eq_length.mp h v hv
  unfold intersects
  simp only [Bool.and_eq_true, decide_eq_true_eq]
  rw [key .inside, key .outside]

/-- The test misses cells that are larger than the box: all vertices of the cell are outside although the whole box
lies in the cell. -/
theorem C68_intersects_violated : ∃ (b : Box ℚ 1) (vs : List (Fin 1 → ℚ)),
    intersects (1 / 1000) b vs = false
      ∧ (∃ v ∈ vs, v 0 < b.lower 0) ∧ (∃ v ∈ vs, b.upper 0 < v 0) ∧ b.lower 0 < b.upper 0 := by
  refine ⟨⟨fun _ => 2, fun _ => 3⟩, [fun _ => 0, fun _ => 8], by decide +kernel, ⟨_, List.mem_cons_self, by norm_num⟩,
    ⟨fun _ => 8, by simp, by norm_num⟩, by norm_num⟩

/-- The returned point is the only point of the line on the plane. -/
theorem C68_line_plane (tol : K) (htol : 0 ≤ tol) (p0 p1 origin normal : Fin d → K) {fac : K} {r : Fin d → K}
    (h : intersectLinePlane tol p0 p1 origin normal = some (fac, r)) :
    normal ⬝ᵥ (r - origin) = 0
    ∧ (∀ i, r i = p0 i + fac * (p0 i - p1 i))
    ∧ ∀ s : K, normal ⬝ᵥ ((p0 + s • (p0 - p1)) - origin) = 0 → s = fac := by
  unfold intersectLinePlane at h
  dsimp only at h
  split at h
  · rename_i hd
    have hne : normal ⬝ᵥ (p0 - p1) ≠ 0 := by
      intro h0
      rw [h0, abs_zero] at hd
      exact absurd hd (not_lt.mpr htol)
    simp only [Option.some.injEq, Prod.mk.injEq] at h
    obtain ⟨rfl, rfl⟩ := h
    have hlin : ∀ s : K, normal ⬝ᵥ ((p0 + s • (p0 - p1)) - origin)
        = normal ⬝ᵥ (p0 - origin) + s * (normal ⬝ᵥ (p0 - p1)) := by
      intro s
      rw [show (p0 + s • (p0 - p1)) - origin = (p0 - origin) + s • (p0 - p1) by
        funext i; simp only [Pi.sub_apply, Pi.add_apply, Pi.smul_apply]; ring]
      rw [dotProduct_add, dotProduct_smul, smul_eq_mul]
    refine ⟨?_, fun i => by simp [smul_eq_mul], fun s hs => ?_⟩
    · rw [hlin]; field_simp; ring
    · rw [hlin] at hs
      rw [eq_div_iff hne]
      linarith
  · cases h

/-- No point is returned only if the line is parallel to the plane up to the tolerance. -/
theorem C68_line_plane_none (tol : K) (p0 p1 origin normal : Fin d → K) :
    intersectLinePlane tol p0 p1 origin normal = none ↔ |normal ⬝ᵥ (p0 - p1)| ≤ tol := by
  unfold intersectLinePlane
  dsimp only
  split <;> simp_all

/-- The clipping test `d0 * d1 < 0` accepts exactly the points strictly between the two end points. -/
theorem C68_between (p0 p1 : Fin d → K) (hp : p0 ≠ p1) (fac : K) (r : Fin d → K)
    (hr : ∀ i, r i = p0 i + fac * (p0 i - p1 i)) :
    (r - p0) ⬝ᵥ (r - p1) < 0 ↔ -1 < fac ∧ fac < 0 := by
  have e0 : r - p0 = fac • (p0 - p1) := by funext i; simp only [Pi.sub_apply, Pi.smul_apply, smul_eq_mul, hr]; ring
  have e1 : r - p1 = (1 + fac) • (p0 - p1) := by funext i; simp only [Pi.sub_apply, Pi.smul_apply, smul_eq_mul, hr]; ring
  have hpos : 0 < (p0 - p1) ⬝ᵥ (p0 - p1) := by
    have h0 : 0 ≤ (p0 - p1) ⬝ᵥ (p0 - p1) := Finset.sum_nonneg fun i _ => mul_self_nonneg _
    refine lt_of_le_of_ne h0 fun h => hp ?_
    have := (Finset.sum_eq_zero_iff_of_nonneg (s := Finset.univ) (f := fun i => (p0 - p1) i * (p0 - p1) i)
      (fun i _ => mul_self_nonneg _)).mp h.symm
    funext i
    have := mul_self_eq_zero.mp (this i (Finset.mem_univ i))
    exact sub_eq_zero.mp this
  rw [e0, e1, smul_dotProduct, dotProduct_smul, smul_eq_mul, smul_eq_mul, ← mul_assoc]
  constructor
  · intro h
    have h' : fac * (1 + fac) < 0 := by
      by_contra hc
      exact absurd h (not_lt.mpr (mul_nonneg (le_of_not_gt hc) hpos.le))
    constructor <;> nlinarith
  · rintro ⟨a, b⟩
    exact mul_neg_of_neg_of_pos (mul_neg_of_neg_of_pos b (by linarith)) hpos

/-- The test `|fac| < 1` alone also accepts points outside of the segment. -/
theorem C68_guard_violated : ∃ (p0 p1 o n : Fin 1 → ℚ) (fac : ℚ) (r : Fin 1 → ℚ),
    intersectLinePlane (1 / 1000000) p0 p1 o n = some (fac, r) ∧ |fac| < 1 ∧ r 0 < p0 0 ∧ p0 0 < p1 0 := by
  refine ⟨fun _ => 0, fun _ => 2, fun _ => -1, fun _ => 1, 1 / 2, fun _ => -1, ?_, ?_, ?_, ?_⟩
  · unfold intersectLinePlane
    norm_num [dotProduct]
    funext i
    norm_num
  all_goals norm_num [abs_lt]

/-- Values on a section: fields that are affine along the edge are reproduced. -/
theorem C68_section_value (a : Fin d → K) (c : K) (p0 p1 r : Fin d → K) (fac : K)
    (hr : ∀ i, r i = p0 i + fac * (p0 i - p1 i)) :
    projectValue fac (a ⬝ᵥ p0 + c) (a ⬝ᵥ p1 + c) = a ⬝ᵥ r + c := by
  have : r = p0 + fac • (p0 - p1) := by funext i; simp [hr, smul_eq_mul]
  rw [this, dotProduct_add, dotProduct_smul, dotProduct_sub, smul_eq_mul]
  unfold projectValue
  ring

/-- Clipping at a box plane: after the smaller nodal value has been replaced, the linear interpolant along the edge takes
the iso value exactly at the plane. -/
theorem C68_clip (iso len fac v0 v1 : K) (hl : len ≠ 0) (h1 : -1 < fac) (h0 : fac < 0) :
    let c := clipValue iso len fac v0 v1
    let w0 := if c.1 then v0 else c.2
    let w1 := if c.1 then c.2 else v1
    (c.1 = true ↔ v1 < v0) ∧ w0 + |fac| * (w1 - w0) = iso := by
  have hf : |fac| = -fac := abs_of_neg h0
  have hne : fac ≠ 0 := ne_of_lt h0
  have hne1 : 1 + fac ≠ 0 := by intro h; linarith
  unfold clipValue
  by_cases h : v1 < v0
  · simp only [if_pos h, h, hf, if_true, true_iff, true_and]
    field_simp
    ring
  · simp only [if_neg h, h, hf]
    simp only [Bool.false_eq_true, if_false, sub_neg_eq_add, iff_false, not_false_eq_true, true_and]
    field_simp
    ring

/-- ... and the replaced value is below the iso value if the larger one is above. -/
theorem C68_clip_below (iso len fac v0 v1 : K) (hl : 0 < len) (h1 : -1 < fac) (h0 : fac < 0) (hiso : iso < max v0 v1) :
    (clipValue iso len fac v0 v1).2 < iso := by
  have hf : |fac| = -fac := abs_of_neg h0
  have key : ∀ m t : K, 0 < t → t < 1 → iso < m → -(m - iso) / (t * len) * len + m < iso := by
    intro m t ht ht1 hm
    have : -(m - iso) / (t * len) * len = -((m - iso) / t) := by field_simp
    rw [this]
    have : m - iso < (m - iso) / t := by
      rw [lt_div_iff₀ ht]
      nlinarith
    linarith
  unfold clipValue
  by_cases h : v1 < v0
  · simp only [if_pos h, hf]
    rw [max_eq_left h.le] at hiso
    exact key v0 (-fac) (by linarith) (by linarith) hiso
  · simp only [if_neg h, hf]
    rw [max_eq_right (le_of_not_gt h)] at hiso
    exact key v1 _ (by linarith) (by linarith) hiso

namespace Ex68
def bx : Box ℚ 2 := ⟨![0, 0], ![1 / 2, 1 / 2]⟩
example : filter bx ![1 / 4, 1 / 3] = 1 ∧ filter bx ![1 / 4, 1 / 2] = 0 := by decide +kernel
example : position (1 / 1000) bx ![1 / 4, 1 / 2] = .boundary ∧ position (1 / 1000) bx ![1 / 4, 1 / 3] = .inside
    ∧ position (1 / 1000) bx ![1 / 4, 3 / 4] = .outside := by decide +kernel
example : ∀ i, bx.upper i - bx.lower i < 1 := by decide +kernel
example : intersects (1 / 1000) bx [![1 / 4, 1 / 4], ![1 / 4, 3 / 4], ![3 / 4, 1 / 4], ![3 / 4, 3 / 4]] = true := by
  decide +kernel
example : clipValue (1 / 2 : ℚ) 2 (-1 / 4) 1 (3 / 4) = (true, -1) := by
  unfold clipValue; norm_num [abs_of_neg]
example : clipValue (1 / 2 : ℚ) 2 (-1 / 4) (3 / 4) 1 = (false, 1 / 3) := by
  unfold clipValue; norm_num [abs_of_neg]
example : (intersectLinePlane (1 / 1000000 : ℚ) ![0, 0] ![2, 2] ![1, 5] ![-1, 0]).map (·.1) = some (-1 / 2) := by
  unfold intersectLinePlane; norm_num [dotProduct, Fin.sum_univ_succ]
end Ex68

/-! ### C69 -/

/-- Boxes of the input file are used exactly if all their sides are positive, in the order of the file. -/
theorem C69_user_boxes (l : List (Box K d)) :
    userBoxes l = l.filter (fun b => decide (∀ i, b.lower i < b.upper i)) := by
  unfold userBoxes
  congr 1
  funext b
  rw [Bool.eq_iff_iff]
  simp [List.any_eq_true]

/-- Every control box is processed, the whole domain is processed unless it was switched off and there is a box; in
particular there is always something to process. -/
theorem C69_filters {B : Type} (boxes : List B) (only : Bool) :
    (∀ b, some b ∈ boxFilters boxes only ↔ b ∈ boxes)
    ∧ (none ∈ boxFilters boxes only ↔ boxes = [] ∨ only = false)
    ∧ boxFilters boxes only ≠ []
    ∧ (boxFilters boxes only).filterMap id = boxes := by
  unfold boxFilters
  cases boxes <;> cases only <;> simp

/-- The `k`-th control box always writes to the name with suffix `_k`, the whole domain to the plain name. -/
theorem C69_names {B : Type} (str : Nat → List Char) (boxes : List B) (only : Bool) (name : List Char) (i : Nat)
    (hi : i < (boxFilters boxes only).length) :
    match (boxFilters boxes only)[i] with
    | none => generateName str (!boxes.isEmpty) only name i = name
    | some b => ∃ k, boxes[k]? = some b ∧ generateName str (!boxes.isEmpty) only name i = name ++ '_' :: str k := by
  unfold boxFilters at hi ⊢
  unfold generateName
  cases boxes with
  | nil =>
    simp only [List.isEmpty_nil, Bool.true_or, if_true, List.map_nil, List.length_cons, List.length_nil] at hi ⊢
    have : i = 0 := by omega
    subst this
    simp
  | cons b bs =>
    cases only with
    | true =>
      simp only [List.isEmpty_cons, Bool.false_or, Bool.not_true, Bool.false_eq_true, if_false, List.length_map] at hi ⊢
      rw [List.getElem_map]
      exact ⟨i, List.getElem?_eq_getElem _, by simp⟩
    | false =>
      simp only [List.isEmpty_cons, Bool.false_or, Bool.not_false, if_true, List.length_cons, List.length_map] at hi ⊢
      cases i with
      | zero => simp
      | succ i =>
        simp only [List.getElem_cons_succ, List.getElem_map]
        exact ⟨i, List.getElem?_eq_getElem _, by simp⟩

/-- Different outputs have different names. -/
theorem C69_names_distinct {B : Type} (str : Nat → List Char) (hstr : Function.Injective str) (boxes : List B)
    (only : Bool) (name : List Char) (i j : Nat) (hi : i < (boxFilters boxes only).length)
    (hj : j < (boxFilters boxes only).length)
    (h : generateName str (!boxes.isEmpty) only name i = generateName str (!boxes.isEmpty) only name j) : i = j := by
  unfold boxFilters at hi hj
  unfold generateName at h
  cases boxes with
  | nil => simp at hi hj; omega
  | cons b bs =>
    cases only with
    | true =>
      simp at h
      exact hstr h
    | false =>
      simp only [List.isEmpty_cons, Bool.not_false, Bool.not_true, Bool.false_eq_true, if_false] at h
      cases i with
      | zero =>
        cases j with
        | zero => rfl
        | succ j => simp at h
      | succ i =>
        cases j with
        | zero => simp at h
        | succ j =>
          simp at h
          rw [hstr h]

/-- The automatic box keeps the distance `padding + r` from the domain boundary on every side. -/
theorem C69_auto_box (rel r : K) (lower upper : Fin d → K) {b : Box K d} (h : autoBox rel r lower upper = some b) (i : Fin d) :
    b.lower i - lower i = rel * (upper i - lower i) + r ∧ upper i - b.upper i = rel * (upper i - lower i) + r := by
  unfold autoBox at h
  dsimp only at h
  split at h
  · cases h
  · simp only [Option.some.injEq] at h
    subst h
    simp [smul_eq_mul]

/-- It is a proper box if the domain leaves room for the padding on both sides. -/
theorem C69_auto_box_proper_partial (rel r : K) (lower upper : Fin d → K) (hrel : 0 ≤ rel) (hlu : ∀ i, lower i ≤ upper i)
    (h : ∀ i, 2 * (rel * (upper i - lower i) + r) < upper i - lower i) :
    ∃ b, autoBox rel r lower upper = some b ∧ ∀ i, b.lower i < b.upper i := by
  have hno : ¬ ((List.finRange d).any fun i => decide (((upper - lower) - rel • (upper - lower)) i - 2 * r ≤ 0)) = true := by
    simp only [List.any_eq_true, List.mem_finRange, decide_eq_true_eq, true_and, not_exists, not_le]
    intro i
    have := h i
    have h2 : 0 ≤ rel * (upper i - lower i) := mul_nonneg hrel (by linarith [hlu i])
    simp only [Pi.sub_apply, Pi.smul_apply, smul_eq_mul]
    linarith
  refine ⟨_, if_neg hno, fun i => ?_⟩
  have := h i
  simp only [Pi.sub_apply, Pi.smul_apply, smul_eq_mul]
  linarith

/-- Violated otherwise: the size check counts the padding once, the box is shrunk by it twice, so an inverted box is
accepted (and every point is then outside of it). -/
theorem C69_auto_box_violated : ∃ (rel r : ℚ) (lower upper : Fin 1 → ℚ) (b : Box ℚ 1),
    0 ≤ rel ∧ 0 ≤ r ∧ lower 0 < upper 0 ∧ autoBox rel r lower upper = some b ∧ b.upper 0 < b.lower 0
      ∧ ∀ p, filter b p = 0 := by
  refine ⟨3 / 5, 0, fun _ => 0, fun _ => 10, ⟨fun _ => 6, fun _ => 4⟩, by norm_num, le_refl _, by norm_num, ?_, by norm_num, ?_⟩
  · unfold autoBox
    norm_num
  · intro p
    rw [C68_filter, if_neg]
    intro h
    have := h 0
    simp only at this
    linarith

namespace Ex69
example : autoBox (1 / 10 : ℚ) 1 (fun _ : Fin 1 => 0) (fun _ => 10) = some ⟨fun _ => 2, fun _ => 8⟩ := by
  unfold autoBox
  norm_num
example : boxFilters ["a", "b"] false = [none, some "a", some "b"] := by decide
example : (generateName (fun n => (toString n).toList) true false "log".toList 2) = "log_1".toList := by decide +kernel
end Ex69

end Verif.Props
