/-
C63: initial values from polygons.
-/
import Verif.Model.Microstructure
import Verif.Props.Cloud
import Mathlib.Algebra.Field.Rat
import Mathlib.Algebra.Order.Ring.Rat
import Mathlib.Tactic.Linarith
import Mathlib.Tactic.Ring
import Mathlib.Tactic.FieldSimp
import Mathlib.Tactic.LinearCombination

namespace Verif.Props

open Verif.Initial Verif.Micro

section
set_option linter.unusedSectionVars false
variable {K : Type} [Field K] [LinearOrder K] [IsStrictOrderedRing K]

/-! ### Point in polygon -/

/-- x-coordinate of the edge at the height of the point. -/
private theorem edge_x_bounds (p a b : K × K) (h : (p.2 < a.2) ≠ (p.2 < b.2)) (m M : K) (ha : m ≤ a.1 ∧ a.1 ≤ M)
    (hb : m ≤ b.1 ∧ b.1 ≤ M) :
    m ≤ (b.1 - a.1) * (p.2 - a.2) / (b.2 - a.2) + a.1 ∧ (b.1 - a.1) * (p.2 - a.2) / (b.2 - a.2) + a.1 ≤ M := by
  have hne : b.2 - a.2 ≠ 0 := by
    intro e
    exact h (by rw [sub_eq_zero.1 e])
  set t := (p.2 - a.2) / (b.2 - a.2) with ht
  have hx : (b.1 - a.1) * (p.2 - a.2) / (b.2 - a.2) + a.1 = (1 - t) * a.1 + t * b.1 := by
    rw [mul_div_assoc, ← ht]; ring
  have h01 : 0 ≤ t ∧ t ≤ 1 := by
    by_cases hp : p.2 < a.2
    · have hq : ¬ p.2 < b.2 := fun hq => h (by simp [hp, hq])
      have hneg : b.2 - a.2 < 0 := by linarith [not_lt.1 hq]
      exact ⟨div_nonneg_of_nonpos (by linarith) hneg.le, (div_le_one_of_neg hneg).2 (by linarith [not_lt.1 hq])⟩
    · have hq : p.2 < b.2 := by
        by_contra hq; exact h (by simp [hp, hq])
      have hpos : 0 < b.2 - a.2 := by linarith [not_lt.1 hp]
      exact ⟨div_nonneg (by linarith [not_lt.1 hp]) hpos.le, (div_le_one hpos).2 (by linarith)⟩
  rw [hx]
  constructor <;> nlinarith [h01.1, h01.2, ha.1, ha.2, hb.1, hb.2]

private theorem crosses_symm (p a b : K × K) : crosses p a b = crosses p b a := by
  unfold crosses
  by_cases h : (decide (p.2 < a.2)) = (decide (p.2 < b.2))
  · simp [h]
  · have h' : ¬ (decide (p.2 < b.2)) = (decide (p.2 < a.2)) := fun e => h e.symm
    have hne : b.2 - a.2 ≠ 0 := by
      intro e
      exact h (by rw [sub_eq_zero.1 e])
    have hne' : a.2 - b.2 ≠ 0 := fun e => hne (by linarith)
    have e : (b.1 - a.1) * (p.2 - a.2) / (b.2 - a.2) + a.1 = (a.1 - b.1) * (p.2 - b.2) / (a.2 - b.2) + b.1 := by
      field_simp
      ring
    rw [e]
    simp [h, h']

private theorem crosses_self (p a : K × K) : crosses p a a = false := by simp [crosses]

private theorem insideLoop_append (p : K × K) (s : K × K) (l : List (K × K)) (x : K × K) (l' : List (K × K)) (b : Bool) :
    insideLoop p s (l ++ x :: l') b = insideLoop p x l' (insideLoop p s (l ++ [x]) b) := by
  induction l generalizing s b with
  | nil => rfl
  | cons y l ih =>
    simp only [List.cons_append, insideLoop]
    exact ih y _

private theorem insideLoop_not (p : K × K) (s : K × K) (l : List (K × K)) (b : Bool) :
    insideLoop p s l b = (b ^^ insideLoop p s l false) := by
  induction l generalizing s b with
  | nil => simp [insideLoop]
  | cons y l ih =>
    simp only [insideLoop]
    rw [ih, ih (b := if crosses p y s then !false else false)]
    cases crosses p y s <;> cases b <;> simp

/-- Specification: a closed polygon, the first vertex is the last one. -/
def polygon (v : K × K) (vs : List (K × K)) (lo hi : K × K) : MicroSegment K := ⟨v :: vs ++ [v], lo, hi⟩

private theorem pointInside_eq (v : K × K) (vs : List (K × K)) (lo hi p : K × K) :
    pointInside (polygon v vs lo hi) p = insideLoop p v (vs ++ [v]) false := by
  unfold pointInside polygon
  dsimp only
  rw [List.getLast?_concat]
  dsimp only
  rw [List.cons_append, insideLoop, crosses_self]
  rfl

/-- C63, point in polygon: a point outside of the bounding box of the contour is not inside, so the test of the box does
not change the result. -/
theorem C63_outside (v : K × K) (vs : List (K × K)) (lo hi p : K × K) (m M : K × K)
    (hbox : ∀ u ∈ v :: vs, (m.1 ≤ u.1 ∧ u.1 ≤ M.1) ∧ (m.2 ≤ u.2 ∧ u.2 ≤ M.2))
    (hp : p.1 < m.1 ∨ M.1 < p.1 ∨ p.2 < m.2 ∨ M.2 < p.2) : pointInside (polygon v vs lo hi) p = false := by
  rw [pointInside_eq]
  have hall : ∀ u ∈ vs ++ [v], (m.1 ≤ u.1 ∧ u.1 ≤ M.1) ∧ (m.2 ≤ u.2 ∧ u.2 ≤ M.2) := by
    intro u hu
    rcases List.mem_append.1 hu with h | h
    · exact hbox u (by simp [h])
    · exact hbox u (by simpa using Or.inl (List.mem_singleton.1 h))
  have hv := hbox v (by simp)
  by_cases hl : p.1 < m.1
  · -- every change of the side counts
    have hc : ∀ a b : K × K, ((m.1 ≤ a.1 ∧ a.1 ≤ M.1) ∧ (m.2 ≤ a.2 ∧ a.2 ≤ M.2)) →
        ((m.1 ≤ b.1 ∧ b.1 ≤ M.1) ∧ (m.2 ≤ b.2 ∧ b.2 ≤ M.2)) →
        crosses p a b = (decide (p.2 < a.2) ^^ decide (p.2 < b.2)) := by
      intro a b ha hb
      unfold crosses
      by_cases h : (decide (p.2 < a.2)) = (decide (p.2 < b.2))
      · simp [h]
      · have h' : (p.2 < a.2) ≠ (p.2 < b.2) := fun e => h (by simp [e])
        have := (edge_x_bounds p a b h' m.1 M.1 ha.1 hb.1).1
        have hlt : p.1 < (b.1 - a.1) * (p.2 - a.2) / (b.2 - a.2) + a.1 := lt_of_lt_of_le hl this
        simp only [hlt, decide_true, Bool.and_true]
        cases h1 : decide (p.2 < a.2) <;> cases h2 : decide (p.2 < b.2) <;> simp_all
    have hloop : ∀ (l : List (K × K)) (s : K × K) (b : Bool) (x : K × K),
        ((m.1 ≤ s.1 ∧ s.1 ≤ M.1) ∧ (m.2 ≤ s.2 ∧ s.2 ≤ M.2)) →
        (∀ u ∈ l ++ [x], (m.1 ≤ u.1 ∧ u.1 ≤ M.1) ∧ (m.2 ≤ u.2 ∧ u.2 ≤ M.2)) →
        insideLoop p s (l ++ [x]) b = (b ^^ decide (p.2 < s.2) ^^ decide (p.2 < x.2)) := by
      intro l
      induction l with
      | nil =>
        intro s b x hs hu
        simp only [List.nil_append, insideLoop]
        rw [hc x s (hu x (by simp)) hs]
        cases b <;> cases decide (p.2 < x.2) <;> cases decide (p.2 < s.2) <;> rfl
      | cons y l ih =>
        intro s b x hs hu
        simp only [List.cons_append, insideLoop]
        rw [ih y _ x (hu y (by simp)) (fun u h => hu u (by simp only [List.cons_append, List.mem_cons]; exact .inr h)),
          hc y s (hu y (by simp)) hs]
        cases b <;> cases decide (p.2 < x.2) <;> cases decide (p.2 < s.2) <;> cases decide (p.2 < y.2) <;> rfl
    rw [hloop vs v false v hv hall]
    simp
  · -- no edge counts
    have hc : ∀ a b : K × K, ((m.1 ≤ a.1 ∧ a.1 ≤ M.1) ∧ (m.2 ≤ a.2 ∧ a.2 ≤ M.2)) →
        ((m.1 ≤ b.1 ∧ b.1 ≤ M.1) ∧ (m.2 ≤ b.2 ∧ b.2 ≤ M.2)) → crosses p a b = false := by
      intro a b ha hb
      unfold crosses
      by_cases h : (decide (p.2 < a.2)) = (decide (p.2 < b.2))
      · simp [h]
      · have h' : (p.2 < a.2) ≠ (p.2 < b.2) := fun e => h (by simp [e])
        rcases hp with hp | hp | hp | hp
        · exact absurd hp hl
        · have := (edge_x_bounds p a b h' m.1 M.1 ha.1 hb.1).2
          have hn : ¬ p.1 < (b.1 - a.1) * (p.2 - a.2) / (b.2 - a.2) + a.1 := not_lt.2 (le_trans this hp.le)
          simp [hn]
        · exact absurd (by rw [decide_eq_true (lt_of_lt_of_le hp ha.2.1), decide_eq_true (lt_of_lt_of_le hp hb.2.1)]) h
        · exact absurd (by
            rw [decide_eq_false (not_lt.2 (le_trans ha.2.2 hp.le)), decide_eq_false (not_lt.2 (le_trans hb.2.2 hp.le))]) h
    have hloop : ∀ (l : List (K × K)) (s : K × K), ((m.1 ≤ s.1 ∧ s.1 ≤ M.1) ∧ (m.2 ≤ s.2 ∧ s.2 ≤ M.2)) →
        (∀ u ∈ l, (m.1 ≤ u.1 ∧ u.1 ≤ M.1) ∧ (m.2 ≤ u.2 ∧ u.2 ≤ M.2)) → insideLoop p s l false = false := by
      intro l
      induction l with
      | nil => intro s _ _; rfl
      | cons y l ih =>
        intro s hs hu
        rw [insideLoop, hc y s (hu y (by simp)) hs]
        exact ih y (hu y (by simp)) (fun u h => hu u (by simp [h]))
    exact hloop _ v hv hall

/-- C63: if a polygon is cut in two along a chord from `a` to `b`, then a point is inside of the polygon if and only if it
is inside of exactly one of the pieces: neighbouring grains neither overlap nor leave gaps at their common edge. -/
theorem C63_cut (a b : K × K) (xs ys : List (K × K)) (lo hi p : K × K) :
    pointInside (polygon a (xs ++ b :: ys) lo hi) p =
      (pointInside (polygon a (xs ++ [b]) lo hi) p ^^ pointInside (polygon b (ys ++ [a]) lo hi) p) := by
  rw [pointInside_eq, pointInside_eq, pointInside_eq]
  rw [show xs ++ b :: ys ++ [a] = xs ++ b :: (ys ++ [a]) by simp, insideLoop_append p a xs b (ys ++ [a]),
    show xs ++ [b] ++ [a] = xs ++ b :: [a] by simp, insideLoop_append p a xs b [a],
    show ys ++ [a] ++ [b] = ys ++ a :: [b] by simp, insideLoop_append p b ys a [b], insideLoop_not p b (ys ++ [a])]
  simp only [insideLoop]
  rw [crosses_symm p b a]
  cases insideLoop p a (xs ++ [b]) false <;> cases insideLoop p b (ys ++ [a]) false <;> cases crosses p a b <;> rfl

/-! ### Distance -/

/-- Points of an edge. -/
def onEdge (a b : K × K) (t : K) : K × K := (a.1 + t * (b.1 - a.1), a.2 + t * (b.2 - a.2))

private theorem distSq_nonneg (a b : K × K) : 0 ≤ distSq a b := by
  unfold distSq
  have := mul_self_nonneg (a.1 - b.1)
  have := mul_self_nonneg (a.2 - b.2)
  linarith

private theorem distSq_onEdge (p a b : K × K) (t : K) : distSq p (onEdge a b t) =
    distSq p a - 2 * t * ((b.1 - a.1) * (p.1 - a.1) + (b.2 - a.2) * (p.2 - a.2)) + t * t * distSq a b := by
  unfold distSq onEdge
  ring

/-- C63, distance to an edge: the computed value is the smallest distance to a point of the edge. -/
theorem C63_edge_distance (p a b : K × K) (hab : a ≠ b) :
    ∃ d, edgeDistSq p a b = some d ∧ (∃ t, 0 ≤ t ∧ t ≤ 1 ∧ d = distSq p (onEdge a b t)) ∧
      ∀ t, 0 ≤ t → t ≤ 1 → d ≤ distSq p (onEdge a b t) := by
  have hl : 0 < distSq a b := by
    refine lt_of_le_of_ne (distSq_nonneg a b) fun e => hab ?_
    have h1 := mul_self_nonneg (a.1 - b.1)
    have h2 := mul_self_nonneg (a.2 - b.2)
    have e1 : (a.1 - b.1) * (a.1 - b.1) = 0 := by unfold distSq at e; linarith
    have e2 : (a.2 - b.2) * (a.2 - b.2) = 0 := by unfold distSq at e; linarith
    exact Prod.ext (sub_eq_zero.1 (mul_self_eq_zero.1 e1)) (sub_eq_zero.1 (mul_self_eq_zero.1 e2))
  unfold edgeDistSq
  dsimp only
  rw [if_neg hl.ne']
  set s := (b.1 - a.1) * (p.1 - a.1) + (b.2 - a.2) * (p.2 - a.2) with hs
  set l := distSq a b with hldef
  have hsr : s = s / l * l := by field_simp
  set r := s / l with hr
  have hq : ∀ t, distSq p (onEdge a b t) = distSq p a + l * (t * t - 2 * t * r) := by
    intro t
    rw [distSq_onEdge, ← hs, hsr]; ring
  by_cases h0 : r < 0
  · rw [if_pos h0]
    refine ⟨_, rfl, ⟨0, le_refl _, zero_le_one, by rw [hq]; ring⟩, fun t ht0 ht1 => ?_⟩
    rw [hq]
    have : 0 ≤ l * (t * t - 2 * t * r) := mul_nonneg hl.le (by nlinarith)
    linarith
  · rw [if_neg h0]
    by_cases h1 : 1 < r
    · rw [if_pos h1]
      have e1 : distSq b p = distSq p (onEdge a b 1) := by unfold distSq onEdge; ring
      refine ⟨_, rfl, ⟨1, zero_le_one, le_refl _, e1⟩, fun t ht0 ht1 => ?_⟩
      rw [e1, hq, hq]
      have : l * (1 * 1 - 2 * 1 * r) ≤ l * (t * t - 2 * t * r) := mul_le_mul_of_nonneg_left (by nlinarith) hl.le
      linarith
    · rw [if_neg h1]
      refine ⟨_, rfl, ⟨r, not_lt.1 h0, not_lt.1 h1, by rw [hq]; ring⟩, fun t ht0 ht1 => ?_⟩
      rw [hq]
      have : 0 ≤ l * ((t - r) * (t - r)) := mul_nonneg hl.le (mul_self_nonneg _)
      nlinarith

/-- Consecutive vertices. -/
def edges : List (K × K) → List ((K × K) × (K × K))
  | a :: b :: l => (a, b) :: edges (b :: l)
  | _ => []

/-- C63, distance to a contour without repeated vertices: the smallest distance to any of its points (or the start value
`big`, if everything is farther away). -/
theorem C63_distance (big : K) (s : MicroSegment K) (hne : ∀ e ∈ edges s.vertices, e.1 ≠ e.2) (p : K × K) :
    ∃ d, distance big s p = some d ∧ d ≤ big ∧
      (∀ e ∈ edges s.vertices, ∀ t, 0 ≤ t → t ≤ 1 → d ≤ distSq p (onEdge e.1 e.2 t)) ∧
      (d = big ∨ ∃ e ∈ edges s.vertices, ∃ t, 0 ≤ t ∧ t ≤ 1 ∧ d = distSq p (onEdge e.1 e.2 t)) := by
  unfold distance
  generalize s.vertices = vs at hne
  have aux : ∀ (vs : List (K × K)) (best : K), (∀ e ∈ edges vs, e.1 ≠ e.2) →
      ∃ d, distanceLoop p vs (some best) = some d ∧ d ≤ best ∧
      (∀ e ∈ edges vs, ∀ t, 0 ≤ t → t ≤ 1 → d ≤ distSq p (onEdge e.1 e.2 t)) ∧
      (d = best ∨ ∃ e ∈ edges vs, ∃ t, 0 ≤ t ∧ t ≤ 1 ∧ d = distSq p (onEdge e.1 e.2 t)) := by
    intro vs
    induction vs with
    | nil => intro best _; exact ⟨best, rfl, le_refl _, by simp [edges], .inl rfl⟩
    | cons a vs ih =>
      intro best hne
      cases vs with
      | nil => exact ⟨best, rfl, le_refl _, by simp [edges], .inl rfl⟩
      | cons b vs =>
        obtain ⟨d0, e1, ⟨t0, ht0, ht1, e2⟩, e3⟩ := C63_edge_distance p a b (hne (a, b) (by simp [edges]))
        rw [distanceLoop, e1, minNan]
        obtain ⟨d, g1, g2, g3, g4⟩ := ih (if best < d0 then best else d0) (fun e he => hne e (by simp [edges, he]))
        have hmin : (if best < d0 then best else d0) ≤ best ∧ (if best < d0 then best else d0) ≤ d0 := by
          split
          · exact ⟨le_refl _, le_of_lt ‹_›⟩
          · exact ⟨not_lt.1 ‹_›, le_refl _⟩
        refine ⟨d, ?_, le_trans g2 hmin.1, ?_, ?_⟩
        · rw [← g1]; congr 1; split <;> rfl
        · intro e he
          simp only [edges, List.mem_cons] at he
          rcases he with rfl | he
          · intro t h0 h1
            exact le_trans (le_trans g2 hmin.2) (e3 t h0 h1)
          · exact g3 e he
        · rcases g4 with h | ⟨e, he, h⟩
          · by_cases hb : best < d0
            · rw [if_pos hb] at h; exact .inl h
            · rw [if_neg hb] at h
              exact .inr ⟨(a, b), by simp [edges], t0, ht0, ht1, h.trans e2⟩
          · exact .inr ⟨e, by simp only [edges, List.mem_cons]; exact .inr he, h⟩
  exact aux vs big hne

/-- C63, violated for contours in the file whose first point is repeated at the end: the distance is NaN everywhere, so
there is no diffuse interface at all. -/
theorem C63_repeated_vertex (big : K) (w : K) (d : Direction) (v : K × K) (vs : List (K × K)) (s : MicroSegment K)
    (hs : mkSegment w d (v :: vs ++ [v]) = .ok s) (p : K × K) :
    distance big s p = none ∧ insideValue d w (distance big s p) = 1 ∧ outsideValue d w (distance big s p) = 0 := by
  have hv : s.vertices = (v :: vs) ++ [v, v] := by
    simp only [mkSegment, List.cons_append] at hs
    cases hs
    simp
  have aux : ∀ (l : List (K × K)) (best : Option K), distanceLoop p (l ++ [v, v]) best = none := by
    intro l
    induction l with
    | nil => intro best; simp [distanceLoop, edgeDistSq, distSq, minNan]
    | cons a l ih =>
      intro best
      cases l with
      | nil => exact ih _
      | cons b l => exact ih _
  have hd : distance big s p = none := by rw [distance, hv]; exact aux _ _
  refine ⟨hd, ?_, ?_⟩
  · rw [hd, insideValue]; split <;> rfl
  · rw [hd, outsideValue]; split <;> rfl

/-! ### Values -/

/-- C63, values: between 0 and 1, and no jump at the contour. -/
theorem C63_values (d : Direction) (w : K) (hw : 0 < w) (dist : K) (hd : 0 ≤ dist) :
    (0 ≤ insideValue d w (some dist) ∧ insideValue d w (some dist) ≤ 1) ∧
    (0 ≤ outsideValue d w (some dist) ∧ outsideValue d w (some dist) ≤ 1) ∧
    insideValue d w (some 0) = outsideValue d w (some 0) := by
  have hh : 0 < w / 2 := half_pos hw
  have key : ∀ h : K, 0 < h → dist < h → 0 ≤ dist / h ∧ dist / h ≤ 1 := fun h hh hlt =>
    ⟨div_nonneg hd hh.le, (div_le_one hh).2 hlt.le⟩
  cases d with
  | middle =>
    simp only [insideValue, outsideValue, refH, refK, refB, hw, hw.ne', reduceCtorEq, false_or, if_false, if_true, ne_eq,
      not_false_eq_true, and_self, hh, mul_zero, zero_div, add_zero, sub_zero]
    refine ⟨?_, ?_, trivial⟩
    · split
      · have := key _ hh ‹_›
        rw [mul_div_assoc]; constructor <;> linarith [this.1, this.2]
      · exact ⟨zero_le_one, le_refl _⟩
    · split
      · have := key _ hh ‹_›
        rw [mul_div_assoc]; constructor <;> linarith [this.1, this.2]
      · exact ⟨le_refl _, zero_le_one⟩
  | inside =>
    simp only [insideValue, outsideValue, refH, refK, refB, hw, hw.ne', reduceCtorEq, false_or, if_false, if_true, ne_eq,
      not_true_eq_false, and_false, mul_zero, zero_div, add_zero, one_mul, zero_add]
    refine ⟨?_, ⟨le_refl _, zero_le_one⟩, trivial⟩
    split
    · exact key _ hw ‹_›
    · exact ⟨zero_le_one, le_refl _⟩
  | outside =>
    simp only [insideValue, outsideValue, refH, refK, refB, hw, reduceCtorEq, true_or, if_false, if_true, ne_eq,
      not_false_eq_true, and_self, mul_zero, zero_div, sub_zero, one_mul]
    refine ⟨⟨zero_le_one, le_refl _⟩, ?_, trivial⟩
    split
    · have := key _ hw ‹_›
      constructor <;> linarith [this.1, this.2]
    · exact ⟨le_refl _, zero_le_one⟩

/-- C63: where the interface is; `inside` puts it inside of the contour and `outside` outside (for spheres it is the other
way round, `C57_directions`). -/
theorem C63_directions (w : K) (hw : 0 < w) (dist : K) :
    (insideValue .outside w (some dist) = 1 ∧ (w ≤ dist → outsideValue .outside w (some dist) = 0)) ∧
    ((w ≤ dist → insideValue .inside w (some dist) = 1) ∧ outsideValue .inside w (some dist) = 0) ∧
    ((w / 2 ≤ dist → insideValue .middle w (some dist) = 1 ∧ outsideValue .middle w (some dist) = 0) ∧
      insideValue .middle w (some 0) = 1 / 2) := by
  have hh : 0 < w / 2 := half_pos hw
  refine ⟨⟨?_, ?_⟩, ⟨?_, ?_⟩, ?_, ?_⟩
  · simp [insideValue]
  · intro h; simp [outsideValue, refH, not_lt.2 h]
  · intro h; simp [insideValue, refH, not_lt.2 h]
  · simp [outsideValue]
  · intro h; simp [insideValue, outsideValue, refH, not_lt.2 h]
  · simp [insideValue, refH, refB, refK, hh, hw.ne']

/-- C63: an order parameter from polygons lies between 0 and 1 everywhere. -/
theorem C63_opValue (d : Direction) (w : K) (hw : 0 < w) (gs : List (At K)) (hd : ∀ g ∈ gs, ∀ x, g.dist = some x → 0 ≤ x) :
    0 ≤ opValue d w gs ∧ opValue d w gs ≤ 1 := by
  have hin : ∀ g ∈ gs, 0 ≤ insideValue d w g.dist ∧ insideValue d w g.dist ≤ 1 := by
    intro g hg
    cases h : g.dist with
    | none => simp only [insideValue]; split <;> exact ⟨zero_le_one, le_refl _⟩
    | some x => exact (C63_values d w hw x (hd g hg x h)).1
  have hout : ∀ g ∈ gs, 0 ≤ outsideValue d w g.dist ∧ outsideValue d w g.dist ≤ 1 := by
    intro g hg
    cases h : g.dist with
    | none => simp only [outsideValue]; split <;> exact ⟨le_refl _, zero_le_one⟩
    | some x => exact (C63_values d w hw x (hd g hg x h)).2.1
  have aux : ∀ (l : List (At K)) (v : K), (∀ g ∈ l, g ∈ gs) → 0 ≤ v → v ≤ 1 → 0 ≤ opLoop d w l v ∧ opLoop d w l v ≤ 1 := by
    intro l
    induction l with
    | nil => intro v _ h0 h1; exact ⟨h0, h1⟩
    | cons g l ih =>
      intro v hl h0 h1
      rw [opLoop]
      split
      · exact hin g (hl g (by simp))
      · have := hout g (hl g (by simp))
        refine ih _ (fun a ha => hl a (by simp [ha])) ?_ ?_
        · split
          · split
            · exact this.1
            · exact h0
          · exact h0
        · split
          · split
            · exact this.2
            · exact h1
          · exact h1
  exact aux _ 0 (fun g hg => (List.mem_filter.1 hg).1) (le_refl _) zero_le_one

private theorem boxOf_spec (vs : List (K × K)) (b : (K × K) × (K × K)) :
    let r := vs.foldl (fun b v => ((min b.1.1 v.1, min b.1.2 v.2), (max b.2.1 v.1, max b.2.2 v.2))) b
    (r.1.1 ≤ b.1.1 ∧ r.1.2 ≤ b.1.2 ∧ b.2.1 ≤ r.2.1 ∧ b.2.2 ≤ r.2.2) ∧
    ∀ u ∈ vs, (r.1.1 ≤ u.1 ∧ u.1 ≤ r.2.1) ∧ (r.1.2 ≤ u.2 ∧ u.2 ≤ r.2.2) := by
  induction vs generalizing b with
  | nil => exact ⟨⟨le_refl _, le_refl _, le_refl _, le_refl _⟩, by simp⟩
  | cons v vs ih =>
    obtain ⟨⟨h1, h2, h3, h4⟩, h5⟩ := ih ((min b.1.1 v.1, min b.1.2 v.2), (max b.2.1 v.1, max b.2.2 v.2))
    simp only [List.foldl_cons]
    refine ⟨⟨le_trans h1 (min_le_left _ _), le_trans h2 (min_le_left _ _), le_trans (le_max_left _ _) h3,
      le_trans (le_max_left _ _) h4⟩, fun u hu => ?_⟩
    rcases List.mem_cons.1 hu with rfl | hu
    · exact ⟨⟨le_trans h1 (min_le_right _ _), le_trans (le_max_right _ _) h3⟩,
        le_trans h2 (min_le_right _ _), le_trans (le_max_right _ _) h4⟩
    · exact h5 u hu

private theorem sq_le_pos {e z : K} (h0 : 0 ≤ e) (h : e ≤ z) : e * e ≤ z * z := mul_self_le_mul_self h0 h

private theorem sq_le_neg {e z : K} (h0 : 0 ≤ e) (h : e ≤ -z) : e * e ≤ z * z := by
  have := mul_self_le_mul_self h0 h
  linarith [neg_mul_neg z z]

private theorem between {t a b m M : K} (h0 : 0 ≤ t) (h1 : t ≤ 1) (ha : m ≤ a ∧ a ≤ M) (hb : m ≤ b ∧ b ≤ M) :
    m ≤ a + t * (b - a) ∧ a + t * (b - a) ≤ M := by
  constructor <;> nlinarith [ha.1, ha.2, hb.1, hb.2]

/-- C63: a point outside of the extended box of a contour is not inside and at least the reference distance away from the
contour, so skipping such grains does not change any value. -/
theorem C63_box (sqrt : K → K) (hsq : SqrtOk sqrt) (big w : K) (hw : 0 < w) (d : Direction) (contour : List (K × K))
    (s : MicroSegment K) (hs : mkSegment w d contour = .ok s) (hne : ∀ e ∈ edges s.vertices, e.1 ≠ e.2)
    (hbig : w * w ≤ big) (p : K × K) (hp : pointInsideBox s p = false) :
    pointInside s p = false ∧ outsideValue d w ((distance big s p).map sqrt) = 0 := by
  cases contour with
  | nil => cases hs
  | cons v vs =>
    simp only [mkSegment] at hs
    set ext := (if d = .outside then w else if d = .middle then w / 2 else 0) with hext
    have hext0 : 0 ≤ ext := by
      rw [hext]; split
      · exact hw.le
      · split
        · linarith
        · exact le_refl _
    set B := boxOf v (vs ++ [v]) with hB
    have hbox : ∀ u ∈ v :: vs ++ [v], (B.1.1 ≤ u.1 ∧ u.1 ≤ B.2.1) ∧ (B.1.2 ≤ u.2 ∧ u.2 ≤ B.2.2) := by
      obtain ⟨⟨h1, h2, h3, h4⟩, h5⟩ := boxOf_spec (vs ++ [v]) (v, v)
      intro u hu
      rcases List.mem_append.1 hu with h | h
      · rcases List.mem_cons.1 h with rfl | h
        · exact ⟨⟨h1, h3⟩, h2, h4⟩
        · exact h5 u (by simp [h])
      · exact h5 u (by simp at h; simp [h])
    injection hs with hs
    have hp' : p.1 < B.1.1 - ext ∨ B.2.1 + ext < p.1 ∨ p.2 < B.1.2 - ext ∨ B.2.2 + ext < p.2 := by
      rw [← hs] at hp
      simp only [pointInsideBox, decide_eq_false_iff_not] at hp
      by_contra hc
      simp only [not_or, not_lt] at hc
      exact hp ⟨hc.1, hc.2.1, hc.2.2.1, hc.2.2.2⟩
    constructor
    · have := C63_outside v vs (B.1.1 - ext, B.1.2 - ext) (B.2.1 + ext, B.2.2 + ext) p B.1 B.2
        (fun u hu => hbox u (List.mem_append_left _ hu)) (by
          rcases hp' with h | h | h | h
          · exact .inl (by linarith)
          · exact .inr (.inl (by linarith))
          · exact .inr (.inr (.inl (by linarith)))
          · exact .inr (.inr (.inr (by linarith))))
      rw [← hs]
      exact this
    · by_cases hdi : d = .inside
      · simp [outsideValue, hdi]
      have hexth : ext = refH d w := by
        rw [hext, refH]
        cases d with
        | inside => exact absurd rfl hdi
        | outside => simp
        | middle => simp
      obtain ⟨dd, g1, -, -, g4⟩ := C63_distance big s hne p
      have hmem : ∀ e ∈ edges s.vertices, e.1 ∈ s.vertices ∧ e.2 ∈ s.vertices := by
        have aux : ∀ (l : List (K × K)), ∀ e ∈ edges l, e.1 ∈ l ∧ e.2 ∈ l := by
          intro l
          induction l with
          | nil => simp [edges]
          | cons a l ih =>
            cases l with
            | nil => simp [edges]
            | cons b l =>
              intro e he
              simp only [edges, List.mem_cons] at he
              rcases he with rfl | he
              · simp
              · have := ih e he
                exact ⟨by simp only [List.mem_cons] at this ⊢; exact .inr this.1, by
                  simp only [List.mem_cons] at this ⊢; exact .inr this.2⟩
        exact aux _
      have hverts : s.vertices = v :: vs ++ [v] := by rw [← hs]
      have hdd : ext * ext ≤ dd := by
        rcases g4 with e | ⟨e, he, t, t0, t1, e'⟩
        · rw [e]
          have : ext ≤ w := by
            rw [hext]; split
            · exact le_refl _
            · split <;> linarith
          nlinarith
        · obtain ⟨m1, m2⟩ := hmem e he
          rw [hverts] at m1 m2
          have b1 := hbox _ m1
          have b2 := hbox _ m2
          have hx : B.1.1 ≤ (onEdge e.1 e.2 t).1 ∧ (onEdge e.1 e.2 t).1 ≤ B.2.1 := by
            exact between t0 t1 b1.1 b2.1
          have hy : B.1.2 ≤ (onEdge e.1 e.2 t).2 ∧ (onEdge e.1 e.2 t).2 ≤ B.2.2 := by
            exact between t0 t1 b1.2 b2.2
          rw [e']
          unfold distSq
          have q1 := mul_self_nonneg (p.1 - (onEdge e.1 e.2 t).1)
          have q2 := mul_self_nonneg (p.2 - (onEdge e.1 e.2 t).2)
          rcases hp' with h | h | h | h
          · have := sq_le_neg hext0 (z := p.1 - (onEdge e.1 e.2 t).1) (by linarith [hx.1])
            linarith
          · have := sq_le_pos hext0 (z := p.1 - (onEdge e.1 e.2 t).1) (by linarith [hx.2])
            linarith
          · have := sq_le_neg hext0 (z := p.2 - (onEdge e.1 e.2 t).2) (by linarith [hy.1])
            linarith
          · have := sq_le_pos hext0 (z := p.2 - (onEdge e.1 e.2 t).2) (by linarith [hy.2])
            linarith
      rw [g1, Option.map_some]
      have hsqrt : refH d w ≤ sqrt dd := by
        obtain ⟨z0, z1⟩ := hsq dd (le_trans (mul_self_nonneg ext) hdd)
        rw [← hexth]
        by_contra hc
        have := mul_self_lt_mul_self z0 (not_le.1 hc)
        linarith
      unfold outsideValue
      split
      · dsimp only
        rw [if_neg (not_lt.2 hsqrt)]
      · rfl
end

namespace Ex63

/-- A square cut along its diagonal. -/
def sq : List (ℚ × ℚ) := [(0, 0), (4, 0), (4, 4), (0, 4)]

example : (mkSegment (1 : ℚ) .middle sq) =
    .ok ⟨[(0, 0), (4, 0), (4, 4), (0, 4), (0, 0)], (-1 / 2, -1 / 2), (9 / 2, 9 / 2)⟩ := by decide +kernel
example : pointInside (polygon ((0, 0) : ℚ × ℚ) [(4, 0), (4, 4), (0, 4)] (0, 0) (4, 4)) (1, 2) = true := by decide +kernel
/-- A point of the diagonal belongs to one piece only. -/
example : pointInside (polygon ((0, 0) : ℚ × ℚ) [(4, 0), (4, 4)] (0, 0) (4, 4)) (2, 2) = true ∧
    pointInside (polygon ((4, 4) : ℚ × ℚ) [(0, 4), (0, 0)] (0, 0) (4, 4)) (2, 2) = false := by decide +kernel
example : distance (100 : ℚ) ⟨sq ++ [(0, 0)], (0, 0), (4, 4)⟩ (1, 2) = some 1 := by decide +kernel
example : distance (100 : ℚ) ⟨sq ++ [(0, 0)], (0, 0), (4, 4)⟩ (7, 8) = some 25 := by decide +kernel
/-- With the first point repeated at the end of the line. -/
example : distance (100 : ℚ) ⟨sq ++ [(0, 0), (0, 0)], (0, 0), (4, 4)⟩ (1, 2) = none := by decide +kernel
/-- A repeated vertex in the middle: the distances to the edges before it are forgotten. -/
example : distance (100 : ℚ) ⟨[(0, 0), (4, 0), (4, 4), (4, 4), (0, 4), (0, 0)], (0, 0), (4, 4)⟩ (3, 1) = some 9 := by
  decide +kernel
example : ∀ e ∈ edges (sq ++ [(0, 0)]), e.1 ≠ e.2 := by decide +kernel
example : opValue .middle (1 : ℚ) [⟨true, false, some (1 / 4)⟩, ⟨true, true, some (1 / 4)⟩, ⟨false, false, some 7⟩] = 3 / 4 := by
  decide +kernel

end Ex63

end Verif.Props
