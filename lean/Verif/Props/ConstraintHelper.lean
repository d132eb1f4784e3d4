/-
Properties C97 (cells with hanging nodes), C98 (sparsity pattern of cells).
-/
import Verif.Model.ConstraintHelper
import Mathlib.Tactic.Linarith
import Mathlib.Tactic.NormNum
import Mathlib.Tactic.Ring
import Mathlib.Tactic.IntervalCases
import Mathlib.Algebra.Order.BigOperators.Group.List

namespace Verif.Props

open Verif Verif.ConstraintHelper

/-! ### C97: the table of the children of a line -/

section table

variable {K : Type} [Field K] [CharZero K]

/-- A cube, by its lowest corner and its size; vertices and children in the numbering of deal.II, the first coordinate fastest. -/
structure Cube (K : Type) where
  x : K
  y : K
  z : K
  s : K

def bit (v : Nat) (d : Nat) : K := if v / 2 ^ d % 2 = 1 then 1 else 0

def Cube.vertex (c : Cube K) (v : Nat) : K × K × K := (c.x + bit v 0 * c.s, c.y + bit v 1 * c.s, c.z + bit v 2 * c.s)

/-- Child at vertex `v`. -/
def Cube.child (c : Cube K) (v : Nat) : Cube K := ⟨c.x + bit v 0 * (c.s / 2), c.y + bit v 1 * (c.s / 2), c.z + bit v 2 * (c.s / 2), c.s / 2⟩

/-- Vertices of the lines of a hexahedron in deal.II (`GeometryInfo<3>`). -/
def lineVertices : Nat → Nat × Nat
  | 0 => (0, 2) | 1 => (1, 3) | 2 => (0, 1) | 3 => (2, 3)
  | 4 => (4, 6) | 5 => (5, 7) | 6 => (4, 5) | 7 => (6, 7)
  | 8 => (0, 4) | 9 => (1, 5) | 10 => (2, 6) | _ => (3, 7)

/-- Ends of line `k`. -/
def Cube.line (c : Cube K) (k : Nat) : (K × K × K) × (K × K × K) := (c.vertex (lineVertices k).1, c.vertex (lineVertices k).2)

def middle (l : (K × K × K) × (K × K × K)) : K × K × K :=
  ((l.1.1 + l.2.1) / 2, (l.1.2.1 + l.2.2.1) / 2, (l.1.2.2 + l.2.2.2) / 2)

/-- C97: for each line of any cube, the two children in the table have on their line of the same number the two halves of it. -/
theorem C97_table (c : Cube K) (k : Nat) (hk : k < 12) : ∃ v, lineToChildren[k]? = some v ∧
    (c.child v.1).line k = ((c.line k).1, middle (c.line k)) ∧ (c.child v.2).line k = (middle (c.line k), (c.line k).2) := by
  interval_cases k <;> refine ⟨_, rfl, ?_, ?_⟩ <;>
    simp [Cube.line, Cube.child, Cube.vertex, middle, lineVertices, bit] <;> (repeat' apply And.intro) <;> ring

end table

/-! ### C97: cells of a line -/

/-- Cell `o` has the line `l`. -/
def OnLine (cells : List Cell) (active : Bool) (o l : Nat) : Prop := ∃ c, cells[o]? = some c ∧ c.active = active ∧ l ∈ c.lines

/-- Some cell with this line is refined. -/
def Refined (cells : List Cell) (l : Nat) : Prop := ∃ p, OnLine cells false p l

/-- Numbering of lines by deal.II: the halves of a line are lines of the children; `half l` are the two halves. -/
structure LinesOk (cells : List Cell) (nLines : Nat) (half : Nat → Bool → Nat) : Prop where
  range : ∀ c ∈ cells, ∀ l ∈ c.lines, l < nLines
  distinct : ∀ l s, Refined cells l → half l s ≠ l
  children : ∀ (p k l : Nat) (c : Cell), cells[p]? = some c → c.active = false → c.lines[k]? = some l →
    ∃ v, lineToChildren[k]? = some v ∧
      (∃ (n : Nat) (d : Cell), c.children[v.1]? = some n ∧ cells[n]? = some d ∧ d.lines[k]? = some (half l false)) ∧
      (∃ (n : Nat) (d : Cell), c.children[v.2]? = some n ∧ cells[n]? = some d ∧ d.lines[k]? = some (half l true))

/-- `a` is `l` or a line that `l` is a part of. -/
inductive Anc (cells : List Cell) (half : Nat → Bool → Nat) (a : Nat) : Nat → Prop
  | refl : Anc cells half a a
  | step {l : Nat} (s : Bool) : Anc cells half a l → Refined cells l → Anc cells half a (half l s)

theorem mem_cellsOfLine {cells : List Cell} {act : Bool} {l o k : Nat} :
    (o, k) ∈ cellsOfLine cells act l ↔ ∃ c, cells[o]? = some c ∧ c.active = act ∧ c.lines[k]? = some l := by
  unfold cellsOfLine
  rw [List.mem_flatMap]
  constructor
  · rintro ⟨⟨c, i⟩, hc, hm⟩
    have hci := List.mem_zipIdx_iff_getElem?.mp hc
    split at hm
    · rename_i ha
      rw [List.mem_map] at hm
      obtain ⟨⟨x, j⟩, hx, he⟩ := hm
      rw [List.mem_filter] at hx
      have hxj := List.mem_zipIdx_iff_getElem?.mp hx.1
      simp only [Prod.mk.injEq] at he
      have hxl : x = l := by simpa using hx.2
      refine ⟨c, ?_, ha, ?_⟩
      · rw [← he.1]; simpa using hci
      · rw [← he.2, ← hxl]; simpa using hxj
    · simp at hm
  · rintro ⟨c, hc, ha, hl⟩
    refine ⟨(c, o), List.mem_zipIdx_iff_getElem?.mpr (by simpa using hc), ?_⟩
    rw [if_pos ha, List.mem_map]
    exact ⟨(l, k), List.mem_filter.mpr ⟨List.mem_zipIdx_iff_getElem?.mpr (by simpa using hl), by simp⟩, rfl⟩

theorem onLine_iff {cells : List Cell} {act : Bool} {o l : Nat} : OnLine cells act o l ↔ ∃ k, (o, k) ∈ cellsOfLine cells act l := by
  constructor
  · rintro ⟨c, h1, h2, h3⟩
    obtain ⟨k, hk⟩ := List.mem_iff_getElem?.mp h3
    exact ⟨k, mem_cellsOfLine.mpr ⟨c, h1, h2, hk⟩⟩
  · rintro ⟨k, h⟩
    obtain ⟨c, h1, h2, h3⟩ := mem_cellsOfLine.mp h
    exact ⟨c, h1, h2, List.mem_of_getElem? h3⟩

theorem childLine_ok {cells : List Cell} {p v k n l : Nat} {c d : Cell} (h1 : cells[p]? = some c) (h2 : c.children[v]? = some n)
    (h3 : cells[n]? = some d) (h4 : d.lines[k]? = some l) : childLine cells p v k = .ok l := by
  simp [childLine, Res.index_eq_ok.mpr h1, Res.index_eq_ok.mpr h2, Res.index_eq_ok.mpr h3, Res.index_eq_ok.mpr h4]

theorem propagate_spec {cells : List Cell} {nLines : Nat} {half : Nat → Bool → Nat} (H : LinesOk cells nLines half) (T : Table) (l : Nat) :
    ∃ T', propagate cells T l = .ok T' ∧
      ∀ m x, x ∈ T' m ↔ x ∈ T m ∨ (Refined cells l ∧ (∃ s, m = half l s) ∧ x ∈ T l) := by
  unfold propagate
  by_cases hT : T l = []
  · exact ⟨T, by rw [if_pos hT], fun m x => by simp [hT]⟩
  rw [if_neg hT]
  rcases hi : cellsOfLine cells false l with _ | ⟨⟨p, k⟩, rest⟩
  · refine ⟨T, rfl, fun m x => ?_⟩
    have : ¬ Refined cells l := by
      rintro ⟨p, hp⟩
      obtain ⟨k, hk⟩ := onLine_iff.mp hp
      rw [hi] at hk
      simp at hk
    simp [this]
  · have hm : (p, k) ∈ cellsOfLine cells false l := by rw [hi]; simp
    have hr : Refined cells l := ⟨p, onLine_iff.mpr ⟨k, hm⟩⟩
    obtain ⟨c, h1, h2, h3⟩ := mem_cellsOfLine.mp hm
    obtain ⟨v, hv, ⟨n0, d0, a1, a2, a3⟩, ⟨n1, d1, b1, b2, b3⟩⟩ := H.children p k l c h1 h2 h3
    have d0' := H.distinct l false hr
    have d1' := H.distinct l true hr
    have e0 : push T l (half l false) = .ok fun x => if x = half l false then T x ++ T l else T x := if_neg d0'
    refine ⟨fun x => if x = half l true then (if x = half l false then T x ++ T l else T x) ++ T l
        else (if x = half l false then T x ++ T l else T x), ?_, ?_⟩
    · simp only [Res.index_eq_ok.mpr hv, Res.ok_bind, childLine_ok h1 a1 a2 a3, childLine_ok h1 b1 b2 b3, e0]
      rw [push, if_neg d1', if_neg (Ne.symm d0')]
    · intro m x
      have hs : (∃ s, m = half l s) ↔ m = half l false ∨ m = half l true := by
        constructor
        · rintro ⟨s, h⟩; cases s
          · exact Or.inl h
          · exact Or.inr h
        · rintro (h | h)
          · exact ⟨_, h⟩
          · exact ⟨_, h⟩
      rw [hs]
      dsimp only
      by_cases m1 : m = half l true <;> by_cases m0 : m = half l false
      · rw [if_pos m1, if_pos m0, List.mem_append, List.mem_append]; tauto
      · rw [if_pos m1, if_neg m0, List.mem_append]; tauto
      · rw [if_neg m1, if_pos m0, List.mem_append]; tauto
      · rw [if_neg m1, if_neg m0]; tauto

/-- What holds after the first `m` lines. -/
structure Inv (cells : List Cell) (half : Nat → Bool → Nat) (m : Nat) (T : Table) : Prop where
  mono : ∀ l x, x ∈ cellsOfLine cells true l → x ∈ T l
  sound : ∀ l x, x ∈ T l → ∃ a, Anc cells half a l ∧ x ∈ cellsOfLine cells true a
  done : ∀ l s x, l < m → Refined cells l → x ∈ cellsOfLine cells true l → x ∈ T (half l s)
  deep : (∀ l s, Refined cells l → l < half l s) → ∀ l s x, l < m → Refined cells l → x ∈ T l → x ∈ T (half l s)

theorem reinit_inv {cells : List Cell} {nLines : Nat} {half : Nat → Bool → Nat} (H : LinesOk cells nLines half) (m : Nat) :
    ∃ T, (List.range m).foldlM (propagate cells) (cellsOfLine cells true) = .ok T ∧ Inv cells half m T := by
  induction m with
  | zero =>
    exact ⟨_, rfl, fun _ _ h => h, fun l x h => ⟨l, .refl, h⟩, fun l s x h => absurd h (by omega), fun _ l s x h => absurd h (by omega)⟩
  | succ m ih =>
    obtain ⟨T, hT, hI⟩ := ih
    obtain ⟨T', hT', hspec⟩ := propagate_spec H T m
    refine ⟨T', ?_, ?_, ?_, ?_, ?_⟩
    · rw [List.range_succ, List.foldlM_append, hT, Res.ok_bind, List.foldlM_cons, hT', Res.ok_bind]
      rfl
    · exact fun l x h => (hspec l x).mpr (Or.inl (hI.mono l x h))
    · intro l x h
      rcases (hspec l x).mp h with h | ⟨hr, ⟨s, rfl⟩, h'⟩
      · exact hI.sound l x h
      · obtain ⟨a, ha, hx⟩ := hI.sound m x h'
        exact ⟨a, .step s ha hr, hx⟩
    · intro l s x hl hr hx
      by_cases he : l = m
      · subst he
        exact (hspec _ x).mpr (Or.inr ⟨hr, ⟨s, rfl⟩, hI.mono l x hx⟩)
      · exact (hspec _ x).mpr (Or.inl (hI.done l s x (by omega) hr hx))
    · intro ho l s x hl hr hx
      have hx0 : x ∈ T l := by
        rcases (hspec l x).mp hx with h | ⟨hr', ⟨s', he⟩, h⟩
        · exact h
        · have := ho m s' hr'
          omega
      by_cases he : l = m
      · subst he
        exact (hspec _ x).mpr (Or.inr ⟨hr, ⟨s, rfl⟩, hx0⟩)
      · exact (hspec _ x).mpr (Or.inl (hI.deep ho l s x (by omega) hr hx0))

/-- C97: the lists of cells are defined; they have only active cells of the line or of lines it is a part of; all active cells of the line itself
and, whatever the numbering, of the line it is a half of; if halves have larger numbers, those of all lines it is a part of. -/
theorem C97_lists (cells : List Cell) (nLines : Nat) (half : Nat → Bool → Nat) (H : LinesOk cells nLines half) :
    ∃ T, reinit cells nLines = .ok T ∧
      (∀ l o, (∃ k, (o, k) ∈ T l) → ∃ a, Anc cells half a l ∧ OnLine cells true o a) ∧
      (∀ l o, OnLine cells true o l → ∃ k, (o, k) ∈ T l) ∧
      (∀ l s o, OnLine cells true o l → Refined cells l → ∃ k, (o, k) ∈ T (half l s)) ∧
      ((∀ l s, Refined cells l → l < half l s) → ∀ a l o, Anc cells half a l → OnLine cells true o a → ∃ k, (o, k) ∈ T l) := by
  obtain ⟨T, hT, hI⟩ := reinit_inv H nLines
  have hlt : ∀ {act o l}, OnLine cells act o l → l < nLines := by
    rintro act o l ⟨c, hc, _, hl⟩
    exact H.range c (List.mem_of_getElem? hc) l hl
  refine ⟨T, hT, ?_, ?_, ?_, ?_⟩
  · rintro l o ⟨k, h⟩
    obtain ⟨a, ha, hx⟩ := hI.sound l _ h
    exact ⟨a, ha, onLine_iff.mpr ⟨k, hx⟩⟩
  · intro l o h
    obtain ⟨k, hk⟩ := onLine_iff.mp h
    exact ⟨k, hI.mono l _ hk⟩
  · intro l s o h hr
    obtain ⟨k, hk⟩ := onLine_iff.mp h
    exact ⟨k, hI.done l s _ (hlt h) hr hk⟩
  · intro ho a l o hanc h
    obtain ⟨k, hk⟩ := onLine_iff.mp h
    refine ⟨k, ?_⟩
    induction hanc with
    | refl => exact hI.mono a _ hk
    | step s _ hr ih =>
      obtain ⟨p, hp⟩ := hr
      exact hI.deep ho _ s _ (hlt hp) ⟨p, hp⟩ ih

/-- C97: in a mesh where active cells at an edge differ by one level at most (any active cell on a line that contains a line of `c` is on that line or on
the one it is a half of), a cell is marked for its edges exactly if a coarser active cell is on one of its lines or on a line that one of
its lines is a half of; only cells of this rank, and only in 3D. -/
theorem C97_edges (cells : List Cell) (nLines : Nat) (half : Nat → Bool → Nat) (H : LinesOk cells nLines half) (dim3 : Bool) (c : Cell)
    (hone : ∀ l ∈ c.lines, ∀ a o, Anc cells half a l → OnLine cells true o a →
      OnLine cells true o l ∨ ∃ l' s, half l' s = l ∧ Refined cells l' ∧ OnLine cells true o l') :
    ∃ T, reinit cells nLines = .ok T ∧
      (edgeConstrained cells T dim3 c = true ↔ dim3 = true ∧ c.owned = true ∧ ∃ l ∈ c.lines, ∃ o x, cells[o]? = some x ∧ x.level < c.level ∧
        (OnLine cells true o l ∨ ∃ l' s, half l' s = l ∧ Refined cells l' ∧ OnLine cells true o l')) := by
  obtain ⟨T, hT, hs, h0, h1, _⟩ := C97_lists cells nLines half H
  refine ⟨T, hT, ?_⟩
  unfold edgeConstrained
  rw [Bool.and_eq_true, Bool.and_eq_true, and_assoc]
  refine and_congr_right fun _ => and_congr_right fun _ => ?_
  rw [List.any_eq_true]
  refine exists_congr fun l => and_congr_right fun hl => ?_
  rw [List.any_eq_true]
  constructor
  · rintro ⟨⟨o, k⟩, hm, hd⟩
    obtain ⟨a, ha, ho⟩ := hs l o ⟨k, hm⟩
    simp only at hd
    rcases hx : cells[o]? with _ | x
    · simp [hx] at hd
    · refine ⟨o, x, hx, by simpa [hx] using hd, hone l hl a o ha ho⟩
  · rintro ⟨o, x, hx, hlt, h⟩
    have : ∃ k, (o, k) ∈ T l := by
      rcases h with h | ⟨l', s, rfl, hr, ho⟩
      · exact h0 l o h
      · exact h1 l' s o ho hr
    obtain ⟨k, hk⟩ := this
    exact ⟨(o, k), hk, by simp [hx, hlt]⟩

/-- C97: a cell is marked for its faces exactly if it is of this rank and a neighbour is coarser. -/
theorem C97_faces (c : Cell) : faceConstrained c = true ↔ c.owned = true ∧ ∃ l, some l ∈ c.neighbors ∧ l < c.level := by
  unfold faceConstrained
  rw [Bool.and_eq_true, List.any_eq_true]
  refine and_congr_right fun _ => ?_
  constructor
  · rintro ⟨n, hn, h⟩
    cases n with
    | none => simp at h
    | some l => exact ⟨l, hn, by simpa using h⟩
  · rintro ⟨l, hl, h⟩
    exact ⟨some l, hl, by simpa using h⟩

/-- C97: the weight is 10000 for cells without hanging nodes, of other ranks or refined, and else 10000 times the parameter without the fraction;
a parameter of -0.0001 or less is undefined. -/
theorem C97_weight (active owned constrained : Bool) (w : ℚ) :
    ((active = false ∨ owned = false ∨ constrained = false) → cellWeight active owned constrained w = .ok 10000) ∧
    (0 ≤ w → 10000 * w < 2 ^ 32 → ∃ n : Nat, cellWeight true true true w = .ok n ∧ (n : ℚ) ≤ 10000 * w ∧ 10000 * w < n + 1) ∧
    (10000 * w ≤ -1 → cellWeight true true true w = .ub) := by
  refine ⟨?_, ?_, ?_⟩
  · rintro (h | h | h) <;> subst h <;> simp [cellWeight]
  · intro h0 h1
    have hx : (0 : ℚ) ≤ 10000 * w := by linarith
    refine ⟨(10000 * w).floor.toNat, ?_, ?_⟩
    · have : -1 < 10000 * w ∧ 10000 * w < 2 ^ 32 := ⟨by linarith, h1⟩
      simp only [cellWeight]
      rw [if_neg (by simp), if_pos trivial, if_pos this]
    · have hf : 0 ≤ (10000 * w).floor := Rat.le_floor_iff.mpr (by simpa using hx)
      have e : (((10000 * w).floor.toNat : Nat) : ℚ) = (((10000 * w).floor : Int) : ℚ) := by
        have : (((10000 * w).floor.toNat : Nat) : Int) = (10000 * w).floor := Int.toNat_of_nonneg hf
        exact_mod_cast congrArg (fun z : Int => (z : ℚ)) this
      rw [e]
      exact ⟨Rat.floor_le _, by exact_mod_cast Rat.lt_floor_add_one (10000 * w)⟩
  · intro h
    have : ¬ (-1 < 10000 * w ∧ 10000 * w < 2 ^ 32) := fun h' => by linarith [h'.1]
    simp only [cellWeight]
    rw [if_neg (by simp), if_pos trivial, if_neg this]

/-! ### C98 -/

theorem maskSum_eq (nq : Nat) (f : Nat → ℚ) : (List.range nq).foldl (fun s q => s + f q) 0 = ((List.range nq).map f).sum := by
  rw [List.sum_eq_foldl, List.foldl_map]

/-- C98: for shape functions without negative values, as of the linear elements, two shape functions are coupled exactly if some quadrature point is in
the support of both. -/
theorem C98_scalar_partial (nq : Nat) (phi : Nat → Nat → ℚ) (hnn : ∀ q i, 0 ≤ phi q i) (i j : Nat) :
    scalarMask nq phi i j = true ↔ ∃ q, q < nq ∧ phi q i ≠ 0 ∧ phi q j ≠ 0 := by
  unfold scalarMask
  rw [decide_eq_true_iff, maskSum_eq nq (fun q => phi q i * phi q j)]
  constructor
  · intro h
    by_contra hne
    apply h
    apply List.sum_eq_zero
    intro x hx
    obtain ⟨q, hq, rfl⟩ := List.mem_map.mp hx
    by_contra hx0
    exact hne ⟨q, List.mem_range.mp hq, left_ne_zero_of_mul hx0, right_ne_zero_of_mul hx0⟩
  · rintro ⟨q, hq, h1, h2⟩ hsum
    have hpos : 0 < phi q i * phi q j := mul_pos (lt_of_le_of_ne (hnn q i) (Ne.symm h1)) (lt_of_le_of_ne (hnn q j) (Ne.symm h2))
    have hle : phi q i * phi q j ≤ ((List.range nq).map fun q => phi q i * phi q j).sum :=
      List.single_le_sum (by
        intro x hx
        obtain ⟨r, _, rfl⟩ := List.mem_map.mp hx
        exact mul_nonneg (hnn r i) (hnn r j)) _ (List.mem_map.mpr ⟨q, List.mem_range.mpr hq, rfl⟩)
    rw [hsum] at hle
    linarith

/-- C98: if in addition the gradient vanishes at the quadrature points where the shape function does, no entry of a cell matrix with values and gradients is
left out of the pattern. -/
theorem C98_nothing_lost_partial (nq d : Nat) (phi : Nat → Nat → ℚ) (grad : Nat → Nat → Nat → ℚ) (hnn : ∀ q i, 0 ≤ phi q i)
    (hg : ∀ q i, phi q i = 0 → ∀ k, grad q i k = 0) (vv : Nat → ℚ) (vg gv : Nat → Nat → ℚ) (gg : Nat → Nat → Nat → ℚ) (i j : Nat)
    (h : scalarMask nq phi i j = false) :
    ((List.range nq).map fun q => vv q * phi q i * phi q j
      + ((List.range d).map fun k => vg q k * phi q i * grad q j k + gv q k * grad q i k * phi q j
        + ((List.range d).map fun l => gg q k l * grad q i k * grad q j l).sum).sum).sum = 0 := by
  apply List.sum_eq_zero
  intro x hx
  obtain ⟨q, hq, rfl⟩ := List.mem_map.mp hx
  have hz : phi q i = 0 ∨ phi q j = 0 := by
    by_contra hne
    push Not at hne
    have := (C98_scalar_partial nq phi hnn i j).mpr ⟨q, List.mem_range.mp hq, hne.1, hne.2⟩
    rw [h] at this
    simp at this
  rcases hz with hz | hz
  · have := hg q i hz
    simp [hz, this]
  · have := hg q j hz
    simp [hz, this]

/-- C98 does not hold in general: with signs the products may cancel; with a quadrature at the nodes (here the end points of an interval) the mask has only
the diagonal although gradients couple. -/
theorem C98_violated :
    (∃ phi : Nat → Nat → ℚ, scalarMask 2 phi 0 1 = false ∧ phi 0 0 ≠ 0 ∧ phi 0 1 ≠ 0) ∧
    ∃ (phi : Nat → Nat → ℚ) (grad : Nat → Nat → ℚ), (∀ q i, 0 ≤ phi q i) ∧ scalarMask 2 phi 0 1 = false ∧
      ((List.range 2).map fun q => grad q 0 * grad q 1).sum ≠ 0 := by
  refine ⟨⟨fun q i => if q = 0 then 1 else if i = 0 then 1 else -1, ?_, by norm_num, by norm_num⟩,
    fun q i => if q = i then 1 else 0, fun q i => if i = 0 then -1 else 1, ?_, ?_, ?_⟩
  · decide +kernel
  · intro q i
    dsimp only
    split_ifs <;> norm_num
  · decide +kernel
  · decide +kernel

/-- C98: with more components the mask couples all components of coupled scalar shape functions, in the numbering with the components of each scalar shape
function next to each other. -/
theorem C98_components (m n : Nat) (hn : 0 < n) (scalar : Nat → Nat → Bool) (a b : Nat) (ha : a < m * n) (hb : b < m * n) :
    systemMask m n scalar a b = scalar (a / n) (b / n) := by
  unfold systemMask
  by_cases h1 : n = 1
  · subst h1
    simp
  rw [if_neg h1]
  have key : ∀ a i ic : Nat, ic < n → a = i * n + ic → i = a / n := by
    intro a i ic hic he
    rw [he, Nat.mul_comm, Nat.mul_add_div hn, Nat.div_eq_of_lt hic]
    omega
  rw [Bool.eq_iff_iff]
  simp only [List.any_eq_true, List.mem_range, Bool.and_eq_true, decide_eq_true_iff]
  constructor
  · rintro ⟨i, _, j, _, hs, ic, hic, jc, hjc, h1, h2⟩
    rw [← key a i ic hic h1, ← key b j jc hjc h2]
    exact hs
  · intro hs
    refine ⟨a / n, Nat.div_lt_of_lt_mul (by rw [Nat.mul_comm]; exact ha), b / n, Nat.div_lt_of_lt_mul (by rw [Nat.mul_comm]; exact hb), hs,
      a % n, Nat.mod_lt _ hn, b % n, Nat.mod_lt _ hn, ?_, ?_⟩
    · rw [Nat.mul_comm]; exact (Nat.div_add_mod a n).symm
    · rw [Nat.mul_comm]; exact (Nat.div_add_mod b n).symm

/-- Numbering of `FESystem`: the shape functions of an object (vertex, line, ...) with `k` of them per component, the first of them being number
`offset` for one component: component by component. -/
def systemIndex (n offset k local' comp : Nat) : Nat := n * offset + comp * k + local'

/-- C98: for elements with at most one shape function per object and component the numbering is the one of the mask. -/
theorem C98_numbering_partial (n offset comp : Nat) (hc : comp < n) : systemIndex n offset 1 0 comp / n = offset := by
  unfold systemIndex
  rw [Nat.add_zero, Nat.mul_one, Nat.mul_add_div (by omega), Nat.div_eq_of_lt hc]
  omega

/-- C98 does not hold if an object has two or more: for two or more components, component `n - 1` of the first shape function of the object is taken
for another scalar shape function. -/
theorem C98_numbering_violated (n offset k : Nat) (hn : 2 ≤ n) (hk : 2 ≤ k) :
    offset < systemIndex n offset k 0 (n - 1) / n := by
  unfold systemIndex
  rw [Nat.add_zero, Nat.mul_add_div (by omega)]
  have : 1 ≤ (n - 1) * k / n := by
    rw [Nat.le_div_iff_mul_le (by omega)]
    calc 1 * n ≤ (n - 1) * 2 := by omega
      _ ≤ (n - 1) * k := Nat.mul_le_mul_left _ hk
  omega

/-! Concrete cases -/
namespace Ex97

/-- A refined cell 0 and a coarse cell 1 share line 0, which is line 0 of both; the halves are lines 12 and 13, of the children 2 and 4 of cell 0; lines of the
other cells that do not matter are left out. -/
def child (l : Nat) : Cell := ⟨1, true, true, [l], [], []⟩
def cells : List Cell := [⟨0, false, false, [0], [2, 3, 4, 5, 6, 7, 8, 9], []⟩, ⟨0, true, true, [0], [], [none, some 0]⟩,
  child 12, child 14, child 13, child 15, child 16, child 17, child 18, child 19]

def half (l : Nat) (s : Bool) : Nat := if l = 0 then (if s then 13 else 12) else l + 100

theorem ok : LinesOk cells 20 half where
  range := by decide
  distinct l s _ := by unfold half; split_ifs <;> omega
  children p k l c hc ha hl := by
    have hp : p < 10 := by
      have := (List.getElem?_eq_some_iff.mp hc).1
      simpa [cells] using this
    have hp0 : p = 0 := by
      by_contra hne
      have : ∀ q < 10, q ≠ 0 → ∀ c, cells[q]? = some c → c.active = true := by decide
      rw [this p hp hne c hc] at ha
      simp at ha
    subst hp0
    simp [cells] at hc
    subst hc
    have hk : k = 0 ∧ l = 0 := by
      rcases k with _ | k
      · simpa using hl.symm
      · simp at hl
    obtain ⟨rfl, rfl⟩ := hk
    exact ⟨(0, 2), rfl, ⟨2, child 12, rfl, rfl, rfl⟩, ⟨4, child 13, rfl, rfl, rfl⟩⟩

example : ∃ T, reinit cells 20 = .ok T ∧ T 12 = [(2, 0), (1, 0)] ∧ T 13 = [(4, 0), (1, 0)] ∧ T 14 = [(3, 0)] ∧
    edgeConstrained cells T true (child 12) = true ∧ edgeConstrained cells T true (child 14) = false := by
  refine ⟨_, rfl, ?_⟩
  decide

example : ∃ T, reinit cells 20 = .ok T ∧ ∃ k, (1, k) ∈ T (half 0 true) := by
  obtain ⟨T, h, _, _, h1, _⟩ := C97_lists cells 20 half ok
  exact ⟨T, h, h1 0 true 1 ⟨_, rfl, rfl, by decide⟩ ⟨0, _, rfl, rfl, by decide⟩⟩

example : cellWeight true true true (3 / 2) = .ok 15000 ∧ cellWeight true true true (1 / 30000) = .ok 0 := by decide +kernel

/-- Cubic element of the iterated linear kind in one dimension: two vertices, then two inner nodes; vertex 0 is coupled to inner node 2 but not to 3. -/
def coupled (i j : Nat) : Bool := decide (i = j) || decide ((i, j) ∈ [(0, 2), (2, 0), (2, 3), (3, 2), (3, 1), (1, 3)])

/-- Component 1 of node 2 has number 6, and its coupling with component 0 of vertex 0 is not in the mask of two components. -/
example : systemIndex 2 2 2 0 1 = 6 ∧ coupled 0 2 = true ∧ systemMask 4 2 coupled 0 6 = false := by decide

end Ex97

end Verif.Props
