import Verif.Model.Numerics
import Mathlib.Data.List.Sort
import Mathlib.Data.List.Perm.Basic
import Mathlib.Tactic.Linarith
import Mathlib.Tactic.FieldSimp
import Mathlib.Tactic.Ring
import Mathlib.Algebra.Order.Field.Basic
import Mathlib.Algebra.Field.Rat
import Mathlib.Algebra.Order.Ring.Rat
/-! # Piecewise linear functions and limiting of vectors: C36, C37 -/
set_option linter.unusedSectionVars false
namespace Verif.Props
open Verif Numerics

/-! ## C36 -/
section
variable {K : Type} [Field K] [LinearOrder K]

private theorem addPair_perm (l : List (K × K)) (x y : K) : (addPair l x y).Perm ((x, y) :: l) := by
  unfold addPair
  refine List.perm_middle.trans (List.Perm.cons _ ?_)
  rw [List.takeWhile_append_dropWhile]

private theorem addPair_sorted {l : List (K × K)} (h : l.Pairwise (fun a b => a.1 ≤ b.1)) (x y : K) :
    (addPair l x y).Pairwise (fun a b => a.1 ≤ b.1) := by
  induction l with
  | nil => simp [addPair]
  | cons p l ih =>
    rw [List.pairwise_cons] at h
    by_cases hp : x < p.1
    · have : addPair (p :: l) x y = (x, y) :: p :: l := by simp [addPair, hp]
      rw [this, List.pairwise_cons]
      refine ⟨?_, List.pairwise_cons.2 h⟩
      intro q hq
      rcases List.mem_cons.1 hq with rfl | hq
      · exact hp.le
      · exact hp.le.trans (h.1 q hq)
    · have : addPair (p :: l) x y = p :: addPair l x y := by simp [addPair, hp]
      rw [this, List.pairwise_cons]
      refine ⟨?_, ih h.2⟩
      intro q hq
      rcases List.mem_cons.1 ((addPair_perm l x y).mem_iff.1 hq) with rfl | hq
      · exact not_lt.1 hp
      · exact h.1 q hq

/-- Adding points in any order keeps them all and sorts them. -/
theorem C36_sorted (pts : List (K × K)) :
    (addPairs pts).Perm pts ∧ (addPairs pts).Pairwise (fun a b => a.1 ≤ b.1) := by
  have key : ∀ (pts acc : List (K × K)), acc.Pairwise (fun a b => a.1 ≤ b.1) →
      (pts.foldl (fun l p => addPair l p.1 p.2) acc).Perm (pts ++ acc) ∧
      (pts.foldl (fun l p => addPair l p.1 p.2) acc).Pairwise (fun a b => a.1 ≤ b.1) := by
    intro pts
    induction pts with
    | nil => exact fun acc h => ⟨List.Perm.refl _, h⟩
    | cons p pts ih =>
      intro acc h
      obtain ⟨h1, h2⟩ := ih _ (addPair_sorted h p.1 p.2)
      refine ⟨h1.trans ?_, h2⟩
      exact ((addPair_perm acc p.1 p.2).append_left pts).trans List.perm_middle
  obtain ⟨h1, h2⟩ := key pts [] List.Pairwise.nil
  exact ⟨by unfold addPairs; simpa using h1, h2⟩

/-- strictly sorted: the points have different abscissae -/
abbrev Strict (l : List (K × K)) : Prop := l.Pairwise (fun a b => a.1 < b.1)

theorem C36_strict (pts : List (K × K)) (hd : (pts.map (·.1)).Nodup) : Strict (addPairs pts) := by
  obtain ⟨h1, h2⟩ := C36_sorted pts
  have hd' : ((addPairs pts).map (·.1)).Nodup := (h1.map _).nodup_iff.2 hd
  have hd'' : (addPairs pts).Pairwise (fun a b => a.1 ≠ b.1) := List.pairwise_map.1 hd'
  exact (h2.and hd'').imp (fun h => lt_of_le_of_ne h.1 h.2)

/-- For points with different abscissae the order of adding them does not matter. -/
theorem C36_order (pts pts' : List (K × K)) (hp : pts.Perm pts') (hd : (pts.map (·.1)).Nodup) :
    addPairs pts = addPairs pts' := by
  have h1 := C36_strict pts hd
  have h2 := C36_strict pts' ((hp.map _).nodup_iff.1 hd)
  have h3 : (addPairs pts).Perm (addPairs pts') :=
    (C36_sorted pts).1.trans (hp.trans (C36_sorted pts').1.symm)
  exact List.Perm.eq_of_pairwise (fun a b _ _ hab hba => absurd hab (lt_asymm hba)) h1 h2 h3

private theorem takeWhile_split {pre post : List (K × K)} {x : K} (h1 : ∀ p ∈ pre, p.1 < x)
    (h2 : ∀ p ∈ post.head?, ¬ p.1 < x) :
    (pre ++ post).takeWhile (fun p => decide (p.1 < x)) = pre ∧
    (pre ++ post).dropWhile (fun p => decide (p.1 < x)) = post := by
  induction pre with
  | nil =>
    cases post with
    | nil => exact ⟨rfl, rfl⟩
    | cons q post =>
      have := h2 q (by simp)
      simp [this]
  | cons p pre ih =>
    have hp := h1 p (by simp)
    obtain ⟨i1, i2⟩ := ih (fun q hq => h1 q (by simp [hq]))
    simp [hp, i1, i2]

/-- In between: for neighbouring points `a`, `b` (all other points are below `a` or above `b`) and
`a.1 < x ≤ b.1` the value is that of the straight line through both points, in both modes. -/
theorem C36_between (e : Bool) (pre post : List (K × K)) (a b : K × K)
    (hs : Strict (pre ++ a :: b :: post)) (x : K) (ha : a.1 < x) (hb : x ≤ b.1) :
    value e (pre ++ a :: b :: post) x =
      .ok (some (a.2 + (b.2 - a.2) * ((x - a.1) / (b.1 - a.1)))) := by
  have hpre : ∀ p ∈ pre ++ [a], p.1 < x := by
    intro p hp
    rcases List.mem_append.1 hp with hp | hp
    · exact lt_trans ((List.pairwise_append.1 hs).2.2 p hp a (by simp)) ha
    · rw [List.mem_singleton.1 hp]; exact ha
  have hlist : pre ++ a :: b :: post = (pre ++ [a]) ++ (b :: post) := by simp
  obtain ⟨s1, s2⟩ := takeWhile_split (post := b :: post) hpre (by
    intro p hp
    simp only [List.head?_cons, Option.mem_def, Option.some.injEq] at hp
    rw [← hp]; exact not_lt.2 hb)
  have hlt : a.1 < b.1 := lt_of_lt_of_le ha hb
  have hv : value e (pre ++ a :: b :: post) x = .ok (line a b x) := by
    rw [hlist]
    unfold value
    have hne : ∃ p0 rest, (pre ++ [a]) ++ (b :: post) = p0 :: rest := by
      cases pre with
      | nil => exact ⟨_, _, rfl⟩
      | cons p pre => exact ⟨_, _, rfl⟩
    obtain ⟨p0, rest, hpr⟩ := hne
    rw [hpr] at s1 s2 ⊢
    dsimp only
    rw [s1, s2]
    simp
  rw [hv, line, if_neg hlt.ne]
  have h1 : a.1 - b.1 ≠ 0 := sub_ne_zero.2 hlt.ne
  have h2 : b.1 - a.1 ≠ 0 := sub_ne_zero.2 hlt.ne'
  congr 2
  have h3 : b.1 - a.1 = -(a.1 - b.1) := by ring
  rw [h3]
  field_simp
  ring_nf

section
variable [IsStrictOrderedRing K]

/-- In between neighbouring points the value lies between the values at both points. -/
theorem C36_bounds (e : Bool) (pre post : List (K × K)) (a b : K × K)
    (hs : Strict (pre ++ a :: b :: post)) (x : K) (ha : a.1 < x) (hb : x ≤ b.1) :
    ∃ v, value e (pre ++ a :: b :: post) x = .ok (some v) ∧ min a.2 b.2 ≤ v ∧ v ≤ max a.2 b.2 := by
  refine ⟨_, C36_between e pre post a b hs x ha hb, ?_⟩
  have hlt : 0 < b.1 - a.1 := by linarith
  obtain ⟨t, ht⟩ : ∃ t, t = (x - a.1) / (b.1 - a.1) := ⟨_, rfl⟩
  rw [← ht]
  have h0 : 0 ≤ t := by rw [ht]; exact div_nonneg (by linarith) hlt.le
  have h1 : t ≤ 1 := by rw [ht, div_le_one hlt]; linarith
  constructor
  · rcases le_total a.2 b.2 with h | h
    · rw [min_eq_left h]; nlinarith
    · rw [min_eq_right h]; nlinarith
  · rcases le_total a.2 b.2 with h | h
    · rw [max_eq_right h]; nlinarith
    · rw [max_eq_left h]; nlinarith
end

/-- Left of (or at) the first point: its value, or the line through the first two points. -/
theorem C36_left (a b : K × K) (post : List (K × K)) (hs : Strict (a :: b :: post)) (x : K) (hx : x ≤ a.1) :
    value false (a :: b :: post) x = .ok (some a.2) ∧
    value true (a :: b :: post) x = .ok (some (a.2 + (b.2 - a.2) / (b.1 - a.1) * (x - a.1))) := by
  have hab : a.1 < b.1 := (List.pairwise_cons.1 hs).1 b (by simp)
  have hn : ¬ a.1 < x := not_lt.2 hx
  have h1 : a.1 - b.1 ≠ 0 := sub_ne_zero.2 hab.ne
  have h2 : b.1 - a.1 ≠ 0 := sub_ne_zero.2 hab.ne'
  constructor
  · simp [value, hn]
  · simp only [value, hn, decide_false, Bool.false_eq_true, not_false_eq_true, List.takeWhile_cons_of_neg,
      List.getLast?_nil, if_true, line, if_neg hab.ne]
    congr 2
    have h3 : b.1 - a.1 = -(a.1 - b.1) := by ring
    rw [h3]
    field_simp
    ring

/-- Right of the last point: its value, or the line through the last two points. -/
theorem C36_right (pre : List (K × K)) (a b : K × K) (hs : Strict (pre ++ [a, b])) (x : K) (hx : b.1 < x) :
    value false (pre ++ [a, b]) x = .ok (some b.2) ∧
    value true (pre ++ [a, b]) x = .ok (some (b.2 + (b.2 - a.2) / (b.1 - a.1) * (x - b.1))) := by
  have hp := List.pairwise_append.1 hs
  have hab : a.1 < b.1 := (List.pairwise_cons.1 hp.2.1).1 b (by simp)
  have hpre : ∀ p ∈ pre ++ [a, b], p.1 < x := by
    intro p h
    rcases List.mem_append.1 h with h | h
    · exact lt_trans (hp.2.2 p h b (by simp)) hx
    · rcases List.mem_cons.1 h with rfl | h
      · exact lt_trans hab hx
      · rw [List.mem_singleton.1 h]; exact hx
  obtain ⟨s1, s2⟩ := takeWhile_split (post := []) hpre (by simp)
  rw [List.append_nil] at s1 s2
  have h1 : a.1 - b.1 ≠ 0 := sub_ne_zero.2 hab.ne
  have h2 : b.1 - a.1 ≠ 0 := sub_ne_zero.2 hab.ne'
  obtain ⟨p0, rest, hpr⟩ : ∃ p0 rest, pre ++ [a, b] = p0 :: rest := by
    cases pre with
    | nil => exact ⟨_, _, rfl⟩
    | cons p pre => exact ⟨_, _, rfl⟩
  have hl : (p0 :: rest).getLast? = some b := by rw [← hpr]; simp
  have hl2 : (p0 :: rest).dropLast.getLast? = some a := by
    rw [← hpr, show pre ++ [a, b] = (pre ++ [a]) ++ [b] by simp, List.dropLast_concat]; simp
  rw [hpr] at s1 s2 ⊢
  constructor
  · unfold value
    dsimp only
    rw [s1, s2, hl]
    simp
  · unfold value
    dsimp only
    rw [s1, s2, hl]
    simp only [if_true, hl2, line, if_neg hab.ne]
    congr 2
    have h3 : b.1 - a.1 = -(a.1 - b.1) := by ring
    rw [h3]
    field_simp
    ring

/-- The given value is returned at each given point, for any order of adding the points (two or more if
extrapolation is requested). -/
theorem C36_points (e : Bool) (pts : List (K × K)) (hd : (pts.map (·.1)).Nodup)
    (h2 : e = true → 2 ≤ pts.length) (p : K × K) (hp : p ∈ pts) :
    value e (addPairs pts) p.1 = .ok (some p.2) := by
  have hs := C36_strict pts hd
  have hperm := (C36_sorted pts).1
  have hmem := hperm.mem_iff.2 hp
  have hlen := hperm.length_eq
  generalize addPairs pts = l at *
  obtain ⟨pre, post, rfl⟩ := List.append_of_mem hmem
  rcases List.eq_nil_or_concat pre with rfl | ⟨pre', a, rfl⟩
  · cases post with
    | nil =>
      cases e with
      | false => simp [value]
      | true =>
        have := h2 rfl
        simp at hlen; omega
    | cons b post =>
      obtain ⟨h3, h4⟩ := C36_left p b post hs p.1 le_rfl
      cases e with
      | false => exact h3
      | true => rw [List.nil_append, h4]; simp
  · have e1 : pre'.concat a ++ p :: post = pre' ++ a :: p :: post := by simp
    rw [e1] at hs ⊢
    have hap : a.1 < p.1 := (List.pairwise_cons.1 (List.pairwise_append.1 hs).2.1).1 p (by simp)
    rw [C36_between e pre' post a p hs p.1 hap le_rfl, div_self (sub_ne_zero.2 hap.ne'), mul_one]
    rw [add_sub_cancel]

/-- no points: zero; a single point with extrapolation: undefined behaviour -/
theorem C36_degenerate (e : Bool) (p : K × K) (x : K) :
    value e ([] : List (K × K)) x = .ok (some 0) ∧ value false [p] x = .ok (some p.2) ∧
    value true [p] x = .ub := by
  refine ⟨rfl, ?_, ?_⟩ <;> by_cases h : p.1 < x <;> simp [value, h]
end

namespace Ex36
def pts : List (Rat × Rat) := [(2, 5), (0, 1), (1, 3), (4, 1)]
example : addPairs pts = [(0, 1), (1, 3), (2, 5), (4, 1)] := by decide +kernel
example : (pts.map (·.1)).Nodup := by decide +kernel
example : [-1, 1/2, 3, 5].map (value false (addPairs pts)) =
    [.ok (some 1), .ok (some 2), .ok (some 3), .ok (some 1)] := by decide +kernel
example : [-1, 5].map (value true (addPairs pts)) = [.ok (some (-1)), .ok (some (-1))] := by decide +kernel
/-- a doubled first point makes the extrapolation fail even at the point itself -/
theorem C36_doubled : value true (addPairs [((0 : Rat), (1 : Rat)), (0, 2), (1, 3)]) 0 = .ok none := by
  decide +kernel
end Ex36

/-! ## C37 -/
section
variable {K : Type} [LinearOrder K]

private theorem limitValue_cases {lo hi : K} (h : lo ≤ hi) (v : K) :
    ∃ w, limitValue lo hi (some v) = some w ∧ lo ≤ w ∧ w ≤ hi ∧ (lo ≤ v → v ≤ hi → w = v) ∧
      (v < lo → w = lo) ∧ (hi < v → w = hi) := by
  unfold limitValue
  dsimp only
  split_ifs with h1 h2
  · exact ⟨lo, rfl, le_rfl, h, fun h' => absurd h1 (not_lt.2 h'), fun _ => rfl,
      fun h' => absurd (lt_of_lt_of_le h1 h) (lt_asymm h')⟩
  · exact ⟨hi, rfl, h, le_rfl, fun _ h' => absurd h2 (not_lt.2 h'), fun h' => absurd h' h1, fun _ => rfl⟩
  · exact ⟨v, rfl, not_lt.1 h1, not_lt.1 h2, fun _ _ => rfl, fun h' => absurd h' h1, fun h' => absurd h' h2⟩

/-- whether block `b` is selected -/
def selected (mask : List Bool) (b : Nat) : Prop := mask = [] ∨ mask[b]? = some true

/-- Limiting acts on each value on its own: selected values end up in the interval, values inside and
unselected values are unchanged, values outside are moved to the nearest bound; not-a-number stays. -/
theorem C37_limit {lo hi : K} (h : lo ≤ hi) (mask : List Bool) (vec : List (List (Option K)))
    (hm : mask = [] ∨ vec.length = mask.length) :
    ∃ out, limitVector lo hi mask vec = .ok out ∧ out.length = vec.length ∧
      ∀ b vs, vec[b]? = some vs → ∃ ws, out[b]? = some ws ∧
        (¬ selected mask b → ws = vs) ∧
        (selected mask b → List.Forall₂ (fun v w : Option K => (v = none → w = none) ∧
          ∀ x, v = some x → ∃ y, w = some y ∧ lo ≤ y ∧ y ≤ hi ∧ (lo ≤ x → x ≤ hi → y = x) ∧
            (x < lo → y = lo) ∧ (hi < x → y = hi)) vs ws) := by
  have key : ∀ m : Option (List Bool),
      ∀ (b : Nat) (vs : List (Option K)), vec[b]? = some vs → ∃ ws, (limitBlocks lo hi m vec)[b]? = some ws ∧
        (¬ (m = none ∨ ∃ l, m = some l ∧ l[b]? = some true) → ws = vs) ∧
        ((m = none ∨ ∃ l, m = some l ∧ l[b]? = some true) → ws = vs.map (limitValue lo hi)) := by
    intro m b vs hb
    refine ⟨_, by rw [limitBlocks, List.getElem?_mapIdx, hb]; rfl, ?_⟩
    cases m with
    | none => simp
    | some l =>
      simp only [reduceCtorEq, false_or, Option.some.injEq, exists_eq_left']
      cases hl : l[b]? with
      | none => simp [List.getD, hl]
      | some t => cases t <;> simp [List.getD, hl]
  have hvals : ∀ vs : List (Option K), List.Forall₂ (fun v w : Option K => (v = none → w = none) ∧
          ∀ x, v = some x → ∃ y, w = some y ∧ lo ≤ y ∧ y ≤ hi ∧ (lo ≤ x → x ≤ hi → y = x) ∧
            (x < lo → y = lo) ∧ (hi < x → y = hi)) vs (vs.map (limitValue lo hi)) := by
    intro vs
    rw [List.forall₂_map_right_iff, List.forall₂_same]
    intro v _
    refine ⟨fun e => by rw [e]; rfl, fun x e => by rw [e]; exact limitValue_cases h x⟩
  unfold limitVector
  by_cases h0 : mask = []
  · rw [if_pos h0]
    refine ⟨_, rfl, by simp [limitBlocks], fun b vs hb => ?_⟩
    obtain ⟨ws, k1, k2, k3⟩ := key none b vs hb
    refine ⟨ws, k1, fun hn => absurd (Or.inl h0) hn, fun _ => ?_⟩
    rw [k3 (Or.inl rfl)]; exact hvals vs
  · rw [if_neg h0, if_pos (hm.resolve_left h0)]
    refine ⟨_, rfl, by simp [limitBlocks], fun b vs hb => ?_⟩
    obtain ⟨ws, k1, k2, k3⟩ := key (some mask) b vs hb
    simp only [reduceCtorEq, false_or, Option.some.injEq, exists_eq_left'] at k2 k3
    simp only [selected, h0, false_or]
    exact ⟨ws, k1, k2, fun hs => by rw [k3 hs]; exact hvals vs⟩

/-- Limiting twice has no further effect. -/
theorem C37_idempotent {lo hi : K} (h : lo ≤ hi) (mask : List Bool) (vec out : List (List (Option K)))
    (h1 : limitVector lo hi mask vec = .ok out) : limitVector lo hi mask out = .ok out := by
  have hv : ∀ v : Option K, limitValue lo hi (limitValue lo hi v) = limitValue lo hi v := by
    intro v
    cases v with
    | none => rfl
    | some v =>
      obtain ⟨w, e, h1, h2, _⟩ := limitValue_cases h v
      obtain ⟨w', e', _, _, h3, _⟩ := limitValue_cases h w
      rw [e, e', h3 h1 h2]
  have hb : ∀ m, limitBlocks lo hi m (limitBlocks lo hi m vec) = limitBlocks lo hi m vec := by
    intro m
    unfold limitBlocks
    rw [List.mapIdx_mapIdx]
    congr 1
    funext b vs
    simp only [Function.comp]
    split_ifs <;> simp [hv]
  have hlen : ∀ m, (limitBlocks lo hi m vec).length = vec.length := fun m => by simp [limitBlocks]
  unfold limitVector at h1 ⊢
  split_ifs at h1 ⊢ with h2 h3 h4 h4
  · obtain rfl := Res.ok.inj h1; rw [hb]
  · obtain rfl := Res.ok.inj h1; rw [hb]
  · obtain rfl := Res.ok.inj h1; rw [hlen] at h3; exact absurd h4 h3

/-- A mask of wrong size is rejected. -/
theorem C37_wrong_mask (lo hi : K) (mask : List Bool) (vec : List (List (Option K))) (h0 : mask ≠ [])
    (hl : vec.length ≠ mask.length) : limitVector lo hi mask vec = .exc .assertThrow := by
  unfold limitVector; rw [if_neg h0, if_neg hl]
end

namespace Ex37
example : limitVector (0 : Rat) 1 [true, false] [[some (-1), some (1/2), none], [some 7]] =
    .ok [[some 0, some (1/2), none], [some 7]] := by decide +kernel
/-- with exchanged bounds limiting is not idempotent -/
example : limitVector (1 : Rat) 0 [] [[some (-1)]] = .ok [[some 1]] ∧
    limitVector (1 : Rat) 0 [] [[some 1]] = .ok [[some 0]] := by decide +kernel
end Ex37
end Verif.Props
