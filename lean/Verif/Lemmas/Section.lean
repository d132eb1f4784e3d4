import Verif.Spec.Section
import Mathlib.Algebra.Order.Field.Basic
import Mathlib.Tactic.FinCases
import Mathlib.Tactic.Ring
import Mathlib.Tactic.FieldSimp
import Mathlib.Tactic.Linarith
/-!
# Lemmas on sections of the mesh
-/
namespace Verif.Section
open BoxFilter Spec

variable {K : Type} [Field K] [LinearOrder K] [IsStrictOrderedRing K]

omit [LinearOrder K] [IsStrictOrderedRing K] in
theorem unit_dot (dir : Fin 3) (x : Fin 3 → K) : (fun d => if d = dir then (1 : K) else 0) ⬝ᵥ x = x dir := by
  simp [dotProduct]

/-- lines along the plane are skipped -/
theorem lineStep_along (eps tol : K) (he : 0 ≤ eps) (dir : Fin 3) (loc : K) (co : Bool) (value : Nat → Nat → K)
    (c : Cell K) (st : Local K) (l : Fin 8 × Fin 8) (h : l.1.val.testBit dir = l.2.val.testBit dir) :
    lineStep eps tol dir loc co value c st l = .ok st := by
  unfold lineStep
  have : intersectLinePlane eps (vertex c.box l.1) (vertex c.box l.2) (fun d => if d = dir then loc else 0)
      (fun d => if d = dir then (1 : K) else 0) = none := by
    unfold intersectLinePlane
    dsimp only
    rw [unit_dot]
    simp [vertex, h, he]
  rw [this]

theorem foldlM_filter {α σ : Type} (step : σ → α → Res σ) (keep : α → Bool)
    (h : ∀ s a, keep a = false → step s a = .ok s) :
    ∀ (l : List α) (s : σ), l.foldlM step s = (l.filter keep).foldlM step s := by
  intro l
  induction l with
  | nil => intro s; rfl
  | cons a l ih =>
    intro s
    cases hk : keep a
    · rw [List.filter_cons, hk, List.foldlM_cons, h s a hk]
      simpa using ih s
    · rw [List.filter_cons, hk]
      simp only [if_true, List.foldlM_cons]
      congr 1
      funext s
      exact ih s

/-- fraction of the cell below the plane -/
def frac (b : Box K 3) (dir : Fin 3) (loc : K) : K := (loc - b.lower dir) / (b.upper dir - b.lower dir)

/-- the line from vertex `u` to vertex `v` crosses the plane -/
theorem lineStep_across (eps tol t : K) (htol : t < tol) (dir : Fin 3) (loc : K) (co : Bool)
    (value : Nat → Nat → K) (c : Cell K) (hp : Proper eps dir c.box) (hh : Hit t dir loc c.box) (st : Local K)
    (u v : Fin 8) (hu : u.val.testBit dir = false) (hv : v.val.testBit dir = true)
    (hr : ∀ d, d ≠ dir → u.val.testBit d = v.val.testBit d) (hc : st.counter < st.cell.length) :
    lineStep eps tol dir loc co value c st (u, v) =
      .ok { vertices := st.vertices ++ [project dir fun d => if d = dir then loc else vertex c.box u d]
            solution := st.solution.mapIdx fun b s => s.set st.numerator
              (value b (c.dofs u) * (1 - frac c.box dir loc) + value b (c.dofs v) * frac c.box dir loc)
            cell := st.cell.set st.counter st.numerator
            material := if co then st.material else c.id
            counter := st.counter + 1
            numerator := st.numerator + 1 } := by
  obtain ⟨hlt, heps⟩ := hp
  have hpos : 0 < c.box.upper dir - c.box.lower dir := sub_pos.2 (hlt dir)
  have hint : intersectLinePlane eps (vertex c.box u) (vertex c.box v) (fun d => if d = dir then loc else 0)
      (fun d => if d = dir then (1 : K) else 0) =
      some (-frac c.box dir loc, fun d => if d = dir then loc else vertex c.box u d) := by
    unfold intersectLinePlane
    dsimp only
    rw [unit_dot, unit_dot]
    have h1 : (vertex c.box u - vertex c.box v) dir = -(c.box.upper dir - c.box.lower dir) := by
      simp [vertex, hu, hv]
    rw [h1, abs_neg, abs_of_pos hpos, if_pos heps]
    have hne : c.box.upper dir - c.box.lower dir ≠ 0 := ne_of_gt hpos
    have h2 : -(vertex c.box u - fun d => if d = dir then loc else 0) dir / -(c.box.upper dir - c.box.lower dir) =
        -frac c.box dir loc := by
      simp only [Pi.sub_apply, vertex, hu, if_true, Bool.false_eq_true, if_false, frac]
      field_simp
      ring
    rw [h2]
    congr 2
    funext d
    by_cases hd : d = dir
    · subst hd
      simp only [Pi.add_apply, Pi.smul_apply, smul_eq_mul, if_true]
      rw [h1]
      simp only [vertex, hu, Bool.false_eq_true, if_false, frac]
      field_simp
      ring
    · simp only [Pi.add_apply, Pi.smul_apply, smul_eq_mul, if_neg hd, Pi.sub_apply]
      have : vertex c.box u d = vertex c.box v d := by simp [vertex, hr d hd]
      rw [this, sub_self, mul_zero, add_zero]
  unfold lineStep
  rw [hint]
  have hfac : |(-frac c.box dir loc)| < 1 + tol := by
    rw [abs_neg, abs_lt]
    unfold frac
    obtain ⟨h1, h2⟩ := hh
    constructor
    · rw [lt_div_iff₀ hpos]; nlinarith
    · rw [div_lt_iff₀ hpos]; nlinarith
  dsimp only
  rw [if_pos hfac, if_pos hc]
  congr 2
  congr 1
  funext b s
  congr 1
  unfold projectValue
  ring

theorem mapIdx_range {α β : Type} (f : Nat → α → β) (S : Nat → α) (n : Nat) :
    ((List.range n).map S).mapIdx f = (List.range n).map fun b => f b (S b) := by
  apply List.ext_getElem
  · simp
  · intro i h1 h2
    simp

theorem set_four {α : Type} (s : List α) (z v0 v1 v2 v3 : α) :
    ((((s ++ List.replicate 4 z).set s.length v0).set (s.length + 1) v1).set (s.length + 1 + 1) v2).set
      (s.length + 1 + 1 + 1) v3 = s ++ [v0, v1, v2, v3] := by
  induction s with
  | nil => rfl
  | cons x s ih => exact congrArg (x :: ·) ih

/-- the four lines that cross the plane, from below to above -/
def edges (dir : Fin 3) : List (Fin 8 × Fin 8) := lines.filter fun l => l.1.val.testBit dir != l.2.val.testBit dir

theorem edges_zero : edges 0 = [(0, 1), (2, 3), (4, 5), (6, 7)] := by decide
theorem edges_one : edges 1 = [(0, 2), (1, 3), (4, 6), (5, 7)] := by decide
theorem edges_two : edges 2 = [(0, 4), (1, 5), (2, 6), (3, 7)] := by decide

/-- all four lines of a cell -/
theorem edges_fold (eps tol t : K) (htol : t < tol) (dir : Fin 3) (loc : K) (co : Bool)
    (value : Nat → Nat → K) (c : Cell K) (hp : Proper eps dir c.box) (hh : Hit t dir loc c.box)
    (vs : List (Fin 2 → K)) (S : Nat → List K) (nB n : Nat) (hS : ∀ b, (S b).length = n) (e : Fin 4 → Fin 8 × Fin 8)
    (h1 : ∀ j, (e j).1.val.testBit dir = false) (h2 : ∀ j, (e j).2.val.testBit dir = true)
    (h3 : ∀ j d, d ≠ dir → (e j).1.val.testBit d = (e j).2.val.testBit d) :
    [e 0, e 1, e 2, e 3].foldlM (lineStep eps tol dir loc co value c)
      { vertices := vs, solution := (List.range nB).map fun b => S b ++ List.replicate 4 0,
        cell := List.replicate 4 4294967295, material := 0, counter := 0, numerator := n } =
      .ok { vertices := vs ++ List.ofFn fun j => project dir fun d => if d = dir then loc else vertex c.box (e j).1 d
            solution := (List.range nB).map fun b => S b ++ List.ofFn fun j =>
              value b (c.dofs (e j).1) * (1 - frac c.box dir loc) + value b (c.dofs (e j).2) * frac c.box dir loc
            cell := [n, n + 1, n + 2, n + 3]
            material := if co then 0 else c.id
            counter := 4
            numerator := n + 4 } := by
  have hstep := fun st j hc => lineStep_across eps tol t htol dir loc co value c hp hh st (e j).1 (e j).2
    (h1 j) (h2 j) (h3 j) hc
  simp only [List.foldlM_cons, List.foldlM_nil]
  rw [hstep _ 0 (by simp), Res.ok_bind, hstep _ 1 (by simp), Res.ok_bind, hstep _ 2 (by simp), Res.ok_bind,
    hstep _ 3 (by simp), Res.ok_bind, Res.pure_def]
  congr 1
  dsimp only
  rw [mapIdx_range, mapIdx_range, mapIdx_range, mapIdx_range]
  congr 1
  · simp [List.ofFn_succ]
  · apply List.map_congr_left
    intro b _
    have := hS b
    subst this
    rw [set_four]
    simp [List.ofFn_succ]
  · cases co <;> rfl

theorem pointInside_ref (t : K) (ht : 0 ≤ t) (dir : Fin 3) (loc : K) (b : Box K 3) (hb : ∀ d, b.lower d < b.upper d) :
    pointInside t b (fun d => if d = dir then loc else (b.lower d + b.upper d) / 2) = true ↔ Hit t dir loc b := by
  unfold pointInside Hit
  simp only [List.all_eq_true, List.mem_finRange, true_implies, Bool.not_eq_true', Bool.or_eq_false_iff,
    decide_eq_false_iff_not, not_lt]
  constructor
  · intro h
    have := h dir
    simpa using this
  · intro h d
    by_cases hd : d = dir
    · subst hd; simpa using h
    · have := hb d
      have h4 : 0 ≤ t * (b.upper d - b.lower d) := mul_nonneg ht (by linarith)
      simp only [if_neg hd]
      constructor <;> linarith

/-- the weights of the trilinear function at a corner of the section -/
theorem weight_side (b : Box K 3) (hb : ∀ d, b.lower d < b.upper d) (p : Fin 3 → K) (d : Fin 3) (side up : Bool)
    (h : p d = if side then b.upper d else b.lower d) : weight b p d up = if up = side then 1 else 0 := by
  have hne : b.upper d - b.lower d ≠ 0 := ne_of_gt (sub_pos.2 (hb d))
  unfold weight
  cases side <;> cases up <;> simp_all

omit [LinearOrder K] [IsStrictOrderedRing K] in
theorem weight_plane (b : Box K 3) (p : Fin 3 → K) (dir : Fin 3) (loc : K) (h : p dir = loc) (up : Bool) :
    weight b p dir up = if up then frac b dir loc else 1 - frac b dir loc := by
  subst h; rfl

omit [LinearOrder K] [IsStrictOrderedRing K] in
theorem point_dir (dir : Fin 3) (loc : K) (b : Box K 3) (j : Fin 4) : point dir loc b j dir = loc := by
  simp [point]

omit [LinearOrder K] [IsStrictOrderedRing K] in
theorem point_side (dir : Fin 3) (loc : K) (b : Box K 3) (j : Fin 4) (k : Fin 2) :
    point dir loc b j (dir.succAbove k) =
      if j.val.testBit k then b.upper (dir.succAbove k) else b.lower (dir.succAbove k) := by
  simp [point, corner]

/-- the line through corner `j` -/
def edge (dir : Fin 3) (j : Fin 4) : Fin 8 × Fin 8 := (edges dir).getD j (0, 0)

theorem edges_eq (dir : Fin 3) : edges dir = [edge dir 0, edge dir 1, edge dir 2, edge dir 3] := by
  revert dir; decide

theorem edge_low : ∀ (dir : Fin 3) (j : Fin 4), (edge dir j).1.val.testBit dir = false := by decide
theorem edge_high : ∀ (dir : Fin 3) (j : Fin 4), (edge dir j).2.val.testBit dir = true := by decide
theorem edge_rest : ∀ (dir : Fin 3) (j : Fin 4) (d : Fin 3), d ≠ dir →
    (edge dir j).1.val.testBit d = (edge dir j).2.val.testBit d := by decide
theorem edge_corner : ∀ (dir : Fin 3) (j : Fin 4) (k : Fin 2),
    (edge dir j).1.val.testBit (dir.succAbove k) = j.val.testBit k := by decide
theorem projector_eq : ∀ (dir : Fin 3) (k : Fin 2), (projector dir).getD k 0 = dir.succAbove k := by decide

omit [LinearOrder K] [IsStrictOrderedRing K] in
theorem project_edge (dir : Fin 3) (loc : K) (b : Box K 3) (j : Fin 4) :
    project dir (fun d => if d = dir then loc else vertex b (edge dir j).1 d) = corner dir b j := by
  funext k
  unfold project
  rw [projector_eq]
  dsimp only
  rw [if_neg (Fin.succAbove_ne dir k)]
  unfold vertex corner
  rw [edge_corner]

theorem trilinear_zero (b : Box K 3) (hb : ∀ d, b.lower d < b.upper d) (v : Fin 8 → K) (p : Fin 3 → K) (loc : K)
    (s1 s2 : Bool) (h0 : p 0 = loc) (h1 : p 1 = if s1 then b.upper 1 else b.lower 1)
    (h2 : p 2 = if s2 then b.upper 2 else b.lower 2) :
    trilinear b v p = v (if s2 then (if s1 then 6 else 4) else if s1 then 2 else 0) * (1 - frac b 0 loc) +
      v (if s2 then (if s1 then 7 else 5) else if s1 then 3 else 1) * frac b 0 loc := by
  unfold trilinear
  rw [Fin.sum_univ_eight]
  simp only [weight_plane b p 0 loc h0, weight_side b hb p 1 s1 _ h1, weight_side b hb p 2 s2 _ h2]
  cases s1 <;> cases s2 <;> simp [Nat.testBit]

theorem trilinear_one (b : Box K 3) (hb : ∀ d, b.lower d < b.upper d) (v : Fin 8 → K) (p : Fin 3 → K) (loc : K)
    (s1 s2 : Bool) (h0 : p 1 = loc) (h1 : p 0 = if s1 then b.upper 0 else b.lower 0)
    (h2 : p 2 = if s2 then b.upper 2 else b.lower 2) :
    trilinear b v p = v (if s2 then (if s1 then 5 else 4) else if s1 then 1 else 0) * (1 - frac b 1 loc) +
      v (if s2 then (if s1 then 7 else 6) else if s1 then 3 else 2) * frac b 1 loc := by
  unfold trilinear
  rw [Fin.sum_univ_eight]
  simp only [weight_plane b p 1 loc h0, weight_side b hb p 0 s1 _ h1, weight_side b hb p 2 s2 _ h2]
  cases s1 <;> cases s2 <;> simp [Nat.testBit]

theorem trilinear_two (b : Box K 3) (hb : ∀ d, b.lower d < b.upper d) (v : Fin 8 → K) (p : Fin 3 → K) (loc : K)
    (s1 s2 : Bool) (h0 : p 2 = loc) (h1 : p 0 = if s1 then b.upper 0 else b.lower 0)
    (h2 : p 1 = if s2 then b.upper 1 else b.lower 1) :
    trilinear b v p = v (if s2 then (if s1 then 3 else 2) else if s1 then 1 else 0) * (1 - frac b 2 loc) +
      v (if s2 then (if s1 then 7 else 6) else if s1 then 5 else 4) * frac b 2 loc := by
  unfold trilinear
  rw [Fin.sum_univ_eight]
  simp only [weight_plane b p 2 loc h0, weight_side b hb p 0 s1 _ h1, weight_side b hb p 1 s2 _ h2]
  cases s1 <;> cases s2 <;> simp [Nat.testBit]

theorem trilinear_edge (dir : Fin 3) (loc : K) (b : Box K 3) (hb : ∀ d, b.lower d < b.upper d) (v : Fin 8 → K)
    (j : Fin 4) :
    v (edge dir j).1 * (1 - frac b dir loc) + v (edge dir j).2 * frac b dir loc =
      trilinear b v (point dir loc b j) := by
  have hd := point_dir dir loc b j
  have h0 := point_side dir loc b j 0
  have h1 := point_side dir loc b j 1
  fin_cases dir
  · rw [trilinear_zero b hb v _ loc _ _ hd h0 h1]
    fin_cases j <;> rfl
  · rw [trilinear_one b hb v _ loc _ _ hd h0 h1]
    fin_cases j <;> rfl
  · rw [trilinear_two b hb v _ loc _ _ hd h0 h1]
    fin_cases j <;> rfl

/-- one cell that the plane meets -/
theorem cellStep_hit (eps tol t : K) (he : 0 ≤ eps) (ht : 0 ≤ t) (htol : t < tol) (dir : Fin 3) (loc : K) (co : Bool)
    (value : Nat → Nat → K) (c : Cell K) (hp : Proper eps dir c.box) (hh : Hit t dir loc c.box)
    (vs : List (Fin 2 → K)) (cs : List (List Nat × Nat)) (S : Nat → List K) (nB n : Nat) (hn : 0 < nB)
    (hS : ∀ b, (S b).length = n) :
    cellStep eps tol t dir loc co value ⟨vs, cs, (List.range nB).map S⟩ c =
      .ok ⟨vs ++ List.ofFn (corner dir c.box), cs ++ [([n, n + 1, n + 2, n + 3], if co then 0 else c.id)],
        (List.range nB).map fun b => S b ++ List.ofFn fun j =>
          trilinear c.box (fun i => value b (c.dofs i)) (point dir loc c.box j)⟩ := by
  unfold cellStep
  dsimp only
  rw [if_pos ((pointInside_ref t ht dir loc c.box hp.1).2 hh)]
  have hlen : (((List.range nB).map S).headD []).length = n := by
    obtain ⟨m, rfl⟩ : ∃ m, nB = m + 1 := ⟨nB - 1, by omega⟩
    rw [List.range_succ_eq_map, List.map_cons]
    exact hS 0
  have hmap : ((List.range nB).map S).map (· ++ List.replicate 4 (0 : K)) =
      (List.range nB).map fun b => S b ++ List.replicate 4 0 := by rw [List.map_map]; rfl
  rw [hlen, hmap, foldlM_filter _ (fun l : Fin 8 × Fin 8 => l.1.val.testBit dir != l.2.val.testBit dir)
    (fun s a ha => lineStep_along eps tol he dir loc co value c s a (by simpa using ha))]
  show ((edges dir).foldlM _ _ >>= _) = _
  rw [edges_eq, edges_fold eps tol t htol dir loc co value c hp hh vs S nB n hS (edge dir) (edge_low dir)
    (edge_high dir) (edge_rest dir), Res.ok_bind]
  dsimp only
  congr 2
  · congr 2
    funext j
    exact project_edge dir loc c.box j
  · apply List.map_congr_left
    intro b _
    congr 1
    congr 1
    funext j
    exact trilinear_edge dir loc c.box hp.1 (fun i => value b (c.dofs i)) j

theorem cellStep_miss (eps tol t : K) (ht : 0 ≤ t) (dir : Fin 3) (loc : K) (co : Bool)
    (value : Nat → Nat → K) (c : Cell K) (hp : Proper eps dir c.box) (hh : ¬ Hit t dir loc c.box) (st : Proj K) :
    cellStep eps tol t dir loc co value st c = .ok st := by
  unfold cellStep
  dsimp only
  rw [if_neg (fun h => hh ((pointInside_ref t ht dir loc c.box hp.1).1 h))]

end Verif.Section
