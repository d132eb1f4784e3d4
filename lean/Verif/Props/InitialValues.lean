/-
C44: domain of the initial packing.
C57: initial fields are physical.
C58: order parameters of the generated arrangements.
-/
import Verif.Model.Cloud
import Verif.Lemmas.Cutoff
import Mathlib.Data.List.Nodup
import Mathlib.Data.List.Induction
import Mathlib.Algebra.Field.Rat
import Mathlib.Algebra.Order.Ring.Rat
import Mathlib.Tactic.Linarith
import Mathlib.Tactic.Ring
import Mathlib.Tactic.FieldSimp
import Mathlib.Tactic.Positivity

namespace Verif.Props

open Verif.Initial

/-! ### C44 -/

section
variable {K : Type} [Field K] [LinearOrder K] [IsStrictOrderedRing K]

private theorem cloudBoundaries_spec (ps : List (K × K)) (b : K × K) :
    let f := fun (b : K × K) (p : K × K) =>
      ((if p.1 - p.2 < b.1 then p.1 - p.2 else b.1, if b.2 < p.1 + p.2 then p.1 + p.2 else b.2) : K × K)
    let r := ps.foldl f b
    (r.1 ≤ b.1 ∧ b.2 ≤ r.2) ∧ (∀ p ∈ ps, r.1 ≤ p.1 - p.2 ∧ p.1 + p.2 ≤ r.2) ∧
    (r.1 = b.1 ∨ ∃ p ∈ ps, r.1 = p.1 - p.2) ∧ (r.2 = b.2 ∨ ∃ p ∈ ps, r.2 = p.1 + p.2) := by
  intro f r
  induction ps generalizing b with
  | nil => exact ⟨⟨le_refl _, le_refl _⟩, by simp, .inl rfl, .inl rfl⟩
  | cons p ps ih =>
    obtain ⟨⟨h1, h2⟩, h3, h4, h5⟩ := ih (f b p)
    have e1 : (f b p).1 ≤ b.1 ∧ (f b p).1 ≤ p.1 - p.2 := by
      show (if p.1 - p.2 < b.1 then p.1 - p.2 else b.1) ≤ b.1 ∧ (if p.1 - p.2 < b.1 then p.1 - p.2 else b.1) ≤ p.1 - p.2
      split
      · exact ⟨by linarith, le_refl _⟩
      · exact ⟨le_refl _, by linarith⟩
    have e2 : b.2 ≤ (f b p).2 ∧ p.1 + p.2 ≤ (f b p).2 := by
      show b.2 ≤ (if b.2 < p.1 + p.2 then p.1 + p.2 else b.2) ∧ p.1 + p.2 ≤ (if b.2 < p.1 + p.2 then p.1 + p.2 else b.2)
      split
      · exact ⟨by linarith, le_refl _⟩
      · exact ⟨le_refl _, by linarith⟩
    have e3 : (f b p).1 = b.1 ∨ (f b p).1 = p.1 - p.2 := by
      show (if p.1 - p.2 < b.1 then p.1 - p.2 else b.1) = b.1 ∨ (if p.1 - p.2 < b.1 then p.1 - p.2 else b.1) = p.1 - p.2
      split <;> simp
    have e4 : (f b p).2 = b.2 ∨ (f b p).2 = p.1 + p.2 := by
      show (if b.2 < p.1 + p.2 then p.1 + p.2 else b.2) = b.2 ∨ (if b.2 < p.1 + p.2 then p.1 + p.2 else b.2) = p.1 + p.2
      split <;> simp
    refine ⟨⟨le_trans h1 e1.1, le_trans e2.1 h2⟩, ?_, ?_, ?_⟩
    · intro q hq
      rcases List.mem_cons.1 hq with rfl | hq
      · exact ⟨le_trans h1 e1.2, le_trans e2.2 h2⟩
      · exact h3 q hq
    · rcases h4 with h | ⟨q, hq, h⟩
      · rcases e3 with e | e
        · exact .inl (h.trans e)
        · exact .inr ⟨p, by simp, h.trans e⟩
      · exact .inr ⟨q, by simp [hq], h⟩
    · rcases h5 with h | ⟨q, hq, h⟩
      · rcases e4 with e | e
        · exact .inl (h.trans e)
        · exact .inr ⟨p, by simp, h.trans e⟩
      · exact .inr ⟨q, by simp [hq], h⟩

/-- Specification: `(lo, hi)` is the smallest interval with all particles (pairs of coordinate and radius). -/
def IsHull (ps : List (K × K)) (b : K × K) : Prop :=
  (∀ p ∈ ps, b.1 ≤ p.1 - p.2 ∧ p.1 + p.2 ≤ b.2) ∧
  ∀ lo hi, (∀ p ∈ ps, lo ≤ p.1 - p.2 ∧ p.1 + p.2 ≤ hi) → lo ≤ b.1 ∧ b.2 ≤ hi

/-- C44, clouds of particles: the domain encloses all particles. -/
theorem C44_encloses (big tiny : K) (ps : List (K × K)) :
    ∀ p ∈ ps, (cloudBoundaries big tiny ps).1 ≤ p.1 - p.2 ∧ p.1 + p.2 ≤ (cloudBoundaries big tiny ps).2 :=
  (cloudBoundaries_spec ps (big, tiny)).2.1

/-- C44, partial: the domain of a cloud is the smallest one if in every coordinate some particle reaches to positive
values (not below the smallest positive number `tiny`). Missing: packings which are entirely on the negative side. -/
theorem C44_cloud_partial (big tiny : K) (ps : List (K × K)) (hbig : ∀ p ∈ ps, p.1 - p.2 ≤ big)
    (hpos : ∃ p ∈ ps, tiny ≤ p.1 + p.2) : IsHull ps (cloudBoundaries big tiny ps) := by
  obtain ⟨⟨h1, h2⟩, h3, h4, h5⟩ := cloudBoundaries_spec ps (big, tiny)
  refine ⟨h3, fun lo hi h => ⟨?_, ?_⟩⟩
  · rcases h4 with e | ⟨p, hp, e⟩
    · obtain ⟨p, hp, -⟩ := hpos
      exact le_trans (h p hp).1 (le_trans (hbig p hp) (le_of_eq e.symm))
    · exact le_trans (h p hp).1 (le_of_eq e.symm)
  · rcases h5 with e | ⟨p, hp, e⟩
    · obtain ⟨p, hp, ht⟩ := hpos
      exact le_trans (le_of_eq e) (le_trans ht (h p hp).2)
    · exact le_trans (le_of_eq e) (h p hp).2

/-- C44, violated: for a packing on the negative side of a coordinate the domain reaches up to `tiny`. -/
theorem C44_negative (big tiny : K) (ps : List (K × K)) (hneg : ∀ p ∈ ps, p.1 + p.2 < tiny) (hne : ps ≠ []) :
    (cloudBoundaries big tiny ps).2 = tiny ∧ ¬ IsHull ps (cloudBoundaries big tiny ps) := by
  have e : (cloudBoundaries big tiny ps).2 = tiny := by
    obtain ⟨⟨h1, h2⟩, h3, h4, h5⟩ := cloudBoundaries_spec ps (big, tiny)
    rcases h5 with e | ⟨p, hp, e⟩
    · exact e
    · have h2' : tiny ≤ (ps.foldl (fun (b : K × K) (p : K × K) =>
        ((if p.1 - p.2 < b.1 then p.1 - p.2 else b.1, if b.2 < p.1 + p.2 then p.1 + p.2 else b.2) : K × K)) (big, tiny)).2 := h2
      rw [e] at h2'
      exact absurd (hneg p hp) (not_lt.2 h2')
  refine ⟨e, fun h => ?_⟩
  -- the largest coordinate is a smaller upper bound
  have hex : ∀ (l : List (K × K)), l ≠ [] → (∀ p ∈ l, p.1 + p.2 < tiny) → ∃ m < tiny, ∀ p ∈ l, p.1 + p.2 ≤ m := by
    intro l
    induction l with
    | nil => intro h; exact absurd rfl h
    | cons p l ih =>
      intro _ hl
      by_cases hn : l = []
      · subst hn
        exact ⟨p.1 + p.2, hl p (by simp), by simp⟩
      · obtain ⟨m, hm, h⟩ := ih hn (fun q hq => hl q (by simp [hq]))
        refine ⟨max m (p.1 + p.2), max_lt hm (hl p (by simp)), fun q hq => ?_⟩
        rcases List.mem_cons.1 hq with rfl | hq
        · exact le_max_right _ _
        · exact le_trans (h q hq) (le_max_left _ _)
  obtain ⟨m, hm, hall⟩ := hex ps hne hneg
  have := (h.2 _ m (fun p hp => ⟨(h.1 p hp).1, hall p hp⟩)).2
  rw [e] at this
  exact absurd this (not_le.2 hm)

private theorem maxElement_spec (l : List K) (h : l ≠ []) : ∃ m, maxElement l = .ok m ∧ m ∈ l ∧ ∀ x ∈ l, x ≤ m := by
  have aux : ∀ (l : List K) (x : K), l.foldl (fun m y => if m < y then y else m) x ∈ x :: l ∧
      ∀ y ∈ x :: l, y ≤ l.foldl (fun m y => if m < y then y else m) x := by
    intro l
    induction l with
    | nil => intro x; simp
    | cons a l ih =>
      intro x
      obtain ⟨h1, h2⟩ := ih (if x < a then a else x)
      rw [List.foldl_cons]
      constructor
      · rcases List.mem_cons.1 h1 with h | h
        · rw [h]; split <;> simp
        · simp [h]
      · intro y hy
        have h3 := h2 _ (List.mem_cons_self ..)
        rcases List.mem_cons.1 hy with rfl | hy
        · refine le_trans ?_ h3; split <;> [exact le_of_lt ‹_›; exact le_refl _]
        · rcases List.mem_cons.1 hy with rfl | hy
          · refine le_trans ?_ h3; split <;> [exact le_refl _; exact not_lt.1 ‹_›]
          · exact h2 y (by simp [hy])
  cases l with
  | nil => exact absurd rfl h
  | cons x l => exact ⟨_, rfl, aux l x⟩

private theorem minElement_spec (l : List K) (h : l ≠ []) : ∃ m, minElement l = .ok m ∧ m ∈ l ∧ ∀ x ∈ l, m ≤ x := by
  have aux : ∀ (l : List K) (x : K), l.foldl (fun m y => if y < m then y else m) x ∈ x :: l ∧
      ∀ y ∈ x :: l, l.foldl (fun m y => if y < m then y else m) x ≤ y := by
    intro l
    induction l with
    | nil => intro x; simp
    | cons a l ih =>
      intro x
      obtain ⟨h1, h2⟩ := ih (if a < x then a else x)
      rw [List.foldl_cons]
      constructor
      · rcases List.mem_cons.1 h1 with h | h
        · rw [h]; split <;> simp
        · simp [h]
      · intro y hy
        have h3 := h2 _ (List.mem_cons_self ..)
        rcases List.mem_cons.1 hy with rfl | hy
        · refine le_trans h3 ?_; split <;> [exact le_of_lt ‹_›; exact le_refl _]
        · rcases List.mem_cons.1 hy with rfl | hy
          · refine le_trans h3 ?_; split <;> [exact le_refl _; exact not_lt.1 ‹_›]
          · exact h2 y (by simp [hy])
  cases l with
  | nil => exact absurd rfl h
  | cons x l => exact ⟨_, rfl, aux l x⟩

/-- C44, regular arrangements: the domain is the smallest one around all grains, at any position; without grains the
behaviour is undefined. -/
theorem C44_array (coords : List K) (r0 : K) :
    (coords ≠ [] → ∃ b, arrayBoundaries coords r0 = .ok b ∧ IsHull (coords.map fun x => (x, r0)) b) ∧
    (coords = [] → arrayBoundaries coords r0 = .ub) := by
  constructor
  · intro h
    obtain ⟨mx, h1, h2, h3⟩ := maxElement_spec coords h
    obtain ⟨mn, g1, g2, g3⟩ := minElement_spec coords h
    refine ⟨(mn - r0, mx + r0), by rw [arrayBoundaries, h1, g1]; rfl, ?_, ?_⟩
    · intro p hp
      obtain ⟨x, hx, rfl⟩ := List.mem_map.1 hp
      exact ⟨sub_le_sub_right (g3 x hx) _, add_le_add_left (h3 x hx) _⟩
    · intro lo hi hb
      exact ⟨(hb (mn, r0) (List.mem_map.2 ⟨mn, g2, rfl⟩)).1, (hb (mx, r0) (List.mem_map.2 ⟨mx, h2, rfl⟩)).2⟩
  · rintro rfl; rfl
end

namespace Ex44

example : cloudBoundaries (10 ^ 9 : ℚ) (1 / 10 ^ 9) [(-1, 2), (5, 1), (4, 3)] = (-3, 7) := by
  norm_num [cloudBoundaries]

/-- Two particles in the negative half: they end at -1, the domain at `tiny`. -/
example : cloudBoundaries (10 ^ 9 : ℚ) (1 / 10 ^ 9) [(-3, 2), (-5, 1)] = (-6, 1 / 10 ^ 9) := by
  norm_num [cloudBoundaries]

example : arrayBoundaries [(-7 : ℚ), -5, -6] 1 = .ok (-8, -4) := by decide +kernel

end Ex44

/-! ### C57 -/

section
variable {K P : Type} [Field K] [LinearOrder K] [IsStrictOrderedRing K]

/-- Values of a cosine. -/
def CosOk (E : Ext K P) : Prop := ∀ x, -1 ≤ E.cosPi x ∧ E.cosPi x ≤ 1

/-- C57, a diffuse sphere: values between 0 and 1, one in the core and zero outside of the interface. -/
theorem C57_sphere (E : Ext K P) (hcos : CosOk E) (d : Direction) (w : K) (hw : 0 < w) (p c : P) (r : K) :
    0 ≤ isInSphere E d w p c r ∧ isInSphere E d w p c r ≤ 1 ∧
    (E.dist c p ≤ r - interfaceOffset d w - w / 2 → isInSphere E d w p c r = 1) ∧
    (r - interfaceOffset d w + w / 2 ≤ E.dist c p → isInSphere E d w p c r = 0) := by
  unfold isInSphere
  dsimp only
  have hh : 0 < w / 2 := half_pos hw
  split
  · rename_i h1
    refine ⟨zero_le_one, le_refl _, fun _ => rfl, fun h => ?_⟩
    linarith
  · rename_i h1
    split
    · rename_i h2
      obtain ⟨c1, c2⟩ := hcos ((E.dist c p - (r - interfaceOffset d w) + w / 2) / w)
      refine ⟨by linarith, by linarith, fun h => absurd h h1, fun h => ?_⟩
      linarith
    · exact ⟨le_refl _, zero_le_one, fun h => absurd h h1, fun _ => rfl⟩

/-- C57: the values decrease with the distance from the centre, if the cosine decreases over half a period. -/
theorem C57_monotone (E : Ext K P) (hcos : CosOk E) (hanti : ∀ x y, 0 ≤ x → x ≤ y → y ≤ 1 → E.cosPi y ≤ E.cosPi x)
    (d : Direction) (w : K) (hw : 0 < w) (p q c : P) (r : K) (h : E.dist c p ≤ E.dist c q) :
    isInSphere E d w q c r ≤ isInSphere E d w p c r := by
  have hh : 0 < w / 2 := half_pos hw
  unfold isInSphere
  dsimp only
  by_cases h1 : E.dist c p ≤ r - interfaceOffset d w - w / 2
  · rw [if_pos h1]
    exact (C57_sphere E hcos d w hw q c r).2.1
  · have h1' : ¬ E.dist c q ≤ r - interfaceOffset d w - w / 2 := fun hc => h1 (le_trans h hc)
    rw [if_neg h1, if_neg h1']
    by_cases h2 : E.dist c q < r - interfaceOffset d w + w / 2
    · rw [if_pos h2, if_pos (lt_of_le_of_lt h h2)]
      have := hanti ((E.dist c p - (r - interfaceOffset d w) + w / 2) / w)
        ((E.dist c q - (r - interfaceOffset d w) + w / 2) / w)
        (div_nonneg (by linarith [not_le.1 h1]) hw.le) (div_le_div_of_nonneg_right (by linarith) hw.le)
        ((div_le_one hw).2 (by linarith))
      linarith
    · rw [if_neg h2]
      split
      · have := (hcos ((E.dist c p - (r - interfaceOffset d w) + w / 2) / w)).1
        linarith
      · exact le_refl _

/-- C57: where the interface is. With `middle` it is centred at the radius; with `inside` the sphere is filled up to the
radius and the interface is outside of it; with `outside` the interface is inside the radius. (This is opposite to the
initial values from polygons, see `C63_directions`.) -/
theorem C57_directions (E : Ext K P) (hcos : CosOk E) (w : K) (hw : 0 < w) (p c : P) (r : K) :
    (E.dist c p ≤ r - w / 2 → isInSphere E .middle w p c r = 1) ∧
    (r + w / 2 ≤ E.dist c p → isInSphere E .middle w p c r = 0) ∧
    (E.dist c p ≤ r → isInSphere E .inside w p c r = 1) ∧
    (r + w ≤ E.dist c p → isInSphere E .inside w p c r = 0) ∧
    (E.dist c p ≤ r - w → isInSphere E .outside w p c r = 1) ∧
    (r ≤ E.dist c p → isInSphere E .outside w p c r = 0) := by
  refine ⟨fun h => ?_, fun h => ?_, fun h => ?_, fun h => ?_, fun h => ?_, fun h => ?_⟩
  · exact (C57_sphere E hcos .middle w hw p c r).2.2.1 (by simp [interfaceOffset]; linarith)
  · exact (C57_sphere E hcos .middle w hw p c r).2.2.2 (by simp [interfaceOffset]; linarith)
  · exact (C57_sphere E hcos .inside w hw p c r).2.2.1 (by simp [interfaceOffset]; linarith)
  · exact (C57_sphere E hcos .inside w hw p c r).2.2.2 (by simp [interfaceOffset]; linarith)
  · exact (C57_sphere E hcos .outside w hw p c r).2.2.1 (by simp [interfaceOffset]; linarith)
  · exact (C57_sphere E hcos .outside w hw p c r).2.2.2 (by simp [interfaceOffset]; linarith)

private theorem foldl_add_eq (l : List K) (a : K) : l.foldl (· + ·) a = a + l.sum := by
  induction l generalizing a with
  | nil => simp
  | cons x l ih => rw [List.foldl_cons, ih, List.sum_cons, add_assoc]

private theorem sum_nonneg' (l : List K) (h : ∀ x ∈ l, 0 ≤ x) : 0 ≤ l.sum ∧ ∀ x ∈ l, x ≤ l.sum := by
  induction l with
  | nil => simp
  | cons a l ih =>
    obtain ⟨h1, h2⟩ := ih (fun x hx => h x (by simp [hx]))
    have ha := h a (by simp)
    rw [List.sum_cons]
    refine ⟨by linarith, fun x hx => ?_⟩
    rcases List.mem_cons.1 hx with rfl | hx
    · linarith
    · linarith [h2 x hx]

/-- C57, concentration: it is the sum of the order parameters limited to one, or their maximum (or one minus it), lies
between 0 and 1 and is not smaller than any order parameter. Without order parameters the maximum is undefined. -/
theorem C57_concentration (ops : List K) (hops : ∀ x ∈ ops, 0 ≤ x ∧ x ≤ 1) (hne : ops ≠ []) (acc void : Bool) :
    ∃ c v, concentration acc void ops = .ok v ∧ v = (if void then 1 - c else c) ∧ 0 ≤ c ∧ c ≤ 1 ∧ (∀ x ∈ ops, x ≤ c) ∧
      (acc = true → c = min 1 ops.sum) ∧ (acc = false → c ∈ ops) := by
  cases acc with
  | true =>
    obtain ⟨h1, h2⟩ := sum_nonneg' ops (fun x hx => (hops x hx).1)
    have he : (if ops.foldl (· + ·) 0 < (1 : K) then ops.foldl (· + ·) 0 else 1) = min 1 ops.sum := by
      rw [foldl_add_eq, zero_add]
      split
      · exact (min_eq_right (le_of_lt ‹_›)).symm
      · exact (min_eq_left (not_lt.1 ‹_›)).symm
    refine ⟨min 1 ops.sum, _, ?_, rfl, le_min zero_le_one h1, min_le_left _ _, fun x hx => le_min (hops x hx).2 (h2 x hx),
      fun _ => rfl, fun h => by simp at h⟩
    rw [concentration, if_pos rfl]
    dsimp only
    rw [he, Res.ok_bind]
  | false =>
    obtain ⟨m, h1, h2, h3⟩ := maxElement_spec ops hne
    refine ⟨m, _, ?_, rfl, (hops m h2).1, (hops m h2).2, h3, fun h => by simp at h, fun _ => h2⟩
    rw [concentration, if_neg (by simp), h1, Res.ok_bind]

theorem C57_no_order_parameters (void : Bool) : concentration false void ([] : List K) = .ub := rfl

/-- C57, all components: with physical order parameters every component has a value between 0 and 1, the component of
an order parameter is its value, and (unless it is the void fraction) the concentration, component 0, is at least
every order parameter. -/
theorem C57_components (opOffset nOp : Nat) (hoff : opOffset = 1 ∨ opOffset = 2) (hn : 0 < nOp) (acc void : Bool)
    (opv : Nat → Res K) (val : Nat → K) (hval : ∀ op < nOp, opv op = .ok (val op) ∧ 0 ≤ val op ∧ val op ≤ 1) :
    ∃ c, doValue opOffset nOp acc void opv 0 = .ok c ∧ 0 ≤ c ∧ c ≤ 1 ∧
      (∀ op < nOp, doValue opOffset nOp acc void opv (opOffset + op) = .ok (val op) ∧ (void = false → val op ≤ c) ∧
        (void = true → val op ≤ 1 - c)) ∧
      (opOffset = 2 → doValue opOffset nOp acc void opv 1 = .ok 0) := by
  have hm : (List.range nOp).mapM opv = .ok ((List.range nOp).map val) :=
    Res.mapM_eq _ _ _ (fun op hop => (hval op (List.mem_range.1 hop)).1)
  obtain ⟨c, v, h1, h2, h3, h4, h5, -, -⟩ := C57_concentration ((List.range nOp).map val) (by
    intro x hx
    obtain ⟨op, hop, rfl⟩ := List.mem_map.1 hx
    exact (hval op (List.mem_range.1 hop)).2) (by simp; omega) acc void
  have hcond : (2 ≤ opOffset ∧ 0 = opOffset - 2) ∨ (opOffset = 1 ∧ (0 : Nat) = 0) := by omega
  refine ⟨v, by rw [doValue, if_pos hcond, hm, Res.ok_bind, h1], ?_, ?_, ?_, ?_⟩
  · rw [h2]; split <;> linarith
  · rw [h2]; split <;> linarith
  · intro op hop
    have hle := h5 (val op) (List.mem_map.2 ⟨op, List.mem_range.2 hop, rfl⟩)
    refine ⟨?_, ?_, ?_⟩
    · rw [doValue, if_neg (by omega), if_neg (by omega), if_pos (by omega), Nat.add_sub_cancel_left]
      exact (hval op hop).1
    · rintro rfl; simpa [h2] using hle
    · rintro rfl; simpa [h2] using hle
  · rintro rfl
    rw [doValue, if_neg (by omega), if_pos (by omega)]

theorem firstNonzero_spec {K : Type} [Field K] [LinearOrder K] (value : Nat → Res K) (val : Nat → K) (gs : List Nat)
    (h : ∀ g ∈ gs, value g = .ok (val g)) :
    ∃ v, firstNonzero value gs 0 = .ok v ∧ (v = 0 ↔ ∀ g ∈ gs, val g = 0) ∧ (v ≠ 0 → ∃ g ∈ gs, v = val g) := by
  induction gs with
  | nil => exact ⟨0, rfl, by simp, by simp⟩
  | cons g gs ih =>
    rw [firstNonzero, h g (by simp), Res.ok_bind]
    by_cases hg : val g = 0
    · rw [if_neg (by simp [hg]), hg]
      obtain ⟨v, h1, h2, h3⟩ := ih (fun g hg => h g (by simp [hg]))
      refine ⟨v, h1, by simp [h2, hg], fun hv => ?_⟩
      obtain ⟨g', hg', e⟩ := h3 hv
      exact ⟨g', by simp [hg'], e⟩
    · rw [if_pos hg]
      exact ⟨val g, rfl, by simp [hg], fun _ => ⟨g, by simp, rfl⟩⟩

/-- C57, regular arrangements: an order parameter has physical values; it vanishes exactly where all of its grains
vanish, otherwise it has the value of one of its grains. -/
theorem C57_array (E : Ext K P) (hcos : CosOk E) (d : Direction) (w : K) (hw : 0 < w) (r0 : K) (centers : List P)
    (table : OMap (List Nat)) (op : Nat) (gs : List Nat) (hgs : table.get? op = some gs)
    (hb : ∀ g ∈ gs, g < centers.length) (p : P) :
    ∃ v, arrayOp E d w r0 centers table p op = .ok v ∧ 0 ≤ v ∧ v ≤ 1 ∧
      (v = 0 ↔ ∀ g ∈ gs, ∀ c, centers[g]? = some c → isInSphere E d w p c r0 = 0) ∧
      (v ≠ 0 → ∃ g ∈ gs, ∃ c, centers[g]? = some c ∧ v = isInSphere E d w p c r0) := by
  have hval : ∀ g ∈ gs, (do
      let c ← Res.at? centers[g]?
      Res.ok (isInSphere E d w p c r0)) = Res.ok (match centers[g]? with
        | some c => isInSphere E d w p c r0
        | none => 0) := by
    intro g hg
    rw [List.getElem?_eq_getElem (hb g hg)]
    rfl
  obtain ⟨v, h1, h2, h3⟩ := firstNonzero_spec (fun g => do
      let c ← Res.at? centers[g]?
      Res.ok (isInSphere E d w p c r0)) _ gs hval
  have h3' : v ≠ 0 → ∃ g ∈ gs, ∃ c, centers[g]? = some c ∧ v = isInSphere E d w p c r0 := by
    intro hv
    obtain ⟨g, hg, e⟩ := h3 hv
    rw [List.getElem?_eq_getElem (hb g hg)] at e
    exact ⟨g, hg, _, List.getElem?_eq_getElem (hb g hg), e⟩
  refine ⟨v, by rw [arrayOp, hgs, Res.at?_some, Res.ok_bind]; exact h1, ?_, ?_, ?_, h3'⟩
  · by_cases hv : v = 0
    · rw [hv]
    · obtain ⟨g, _, c, _, rfl⟩ := h3' hv
      exact (C57_sphere E hcos d w hw p c r0).1
  · by_cases hv : v = 0
    · rw [hv]; exact zero_le_one
    · obtain ⟨g, _, c, _, rfl⟩ := h3' hv
      exact (C57_sphere E hcos d w hw p c r0).2.1
  · rw [h2]
    constructor
    · intro h g hg c hc
      have := h g hg
      rwa [hc] at this
    · intro h g hg
      rw [List.getElem?_eq_getElem (hb g hg)]
      exact h g hg _ (List.getElem?_eq_getElem (hb g hg))
end

namespace Ex57

/-- Points of a line, and a linear function between 1 and -1 in place of the cosine. -/
def E : Ext ℚ ℚ := ⟨fun x y => if x < y then y - x else x - y, fun x => if x < 0 then 1 else if x < 1 then 1 - 2 * x else -1, fun x => x⟩

example : CosOk E := by
  intro x
  simp only [E]
  split_ifs <;> constructor <;> linarith

example : isInSphere E .middle 2 (21 / 2) 0 (10 : ℚ) = 1 / 4 := by decide +kernel
example : isInSphere E .inside 2 (21 / 2) 0 (10 : ℚ) = 3 / 4 := by decide +kernel
example : isInSphere E .outside 2 (21 / 2) 0 (10 : ℚ) = 0 := by decide +kernel

example : arrayOp E .middle (2 : ℚ) 10 [0, 20, 40] [(0, [0, 2]), (1, [1])] (30 : ℚ) 0 = .ok (1 / 2) := by decide +kernel
example : concentration true false [(1 / 2 : ℚ), 3 / 4] = .ok 1 ∧ concentration false true [(1 / 2 : ℚ), 3 / 4] = .ok (1 / 4) := by
  decide +kernel

end Ex57

/-! ### C58 -/

/-- Specification: the table gives every one of the `n` grains exactly one order parameter, numbers the order parameters
consecutively, and separates touching grains. -/
structure IsAssignment (t : OMap (List Nat)) (n : Nat) (touch : Nat → Nat → Prop) : Prop where
  contiguous : ∀ op, (t.get? op).isSome ↔ op < t.length
  bound : ∀ op l, t.get? op = some l → ∀ g ∈ l, g < n
  nodup : ∀ op l, t.get? op = some l → l.Nodup
  total : ∀ g < n, ∃ op l, t.get? op = some l ∧ g ∈ l
  unique : ∀ g op op' l l', t.get? op = some l → t.get? op' = some l' → g ∈ l → g ∈ l' → op = op'
  separated : ∀ g h op l, t.get? op = some l → g ∈ l → h ∈ l → ¬ touch g h

private theorem length_of_keys {α : Type} (t : OMap α) (hs : OMap.Sorted t) (N : Nat)
    (h : ∀ op, (t.get? op).isSome ↔ op < N) : t.length = N := by
  have hp : (OMap.keys t).Perm (List.range N) := by
    rw [List.perm_ext_iff_of_nodup (OMap.keys_nodup hs) List.nodup_range]
    intro a
    rw [← OMap.get?_isSome_iff_mem_keys, h, List.mem_range]
  have := hp.length_eq
  rw [List.length_range] at this
  simpa [OMap.keys] using this

private theorem assignment_of_colour (t : OMap (List Nat)) (hs : OMap.Sorted t) (n N : Nat) (col : Nat → Nat)
    (hcol : ∀ g < n, col g < N)
    (ht : ∀ op, t.get? op = if op < N then some ((List.range n).filter fun g => col g = op) else none)
    (touch : Nat → Nat → Prop) (htouch : ∀ g h, g < n → h < n → touch g h → col g ≠ col h) :
    IsAssignment t n touch ∧ t.length = N := by
  have hsome : ∀ op, (t.get? op).isSome ↔ op < N := by
    intro op; rw [ht]; split <;> simp_all
  have hlen := length_of_keys t hs N hsome
  have hmem : ∀ op l, t.get? op = some l → l = (List.range n).filter (fun g => col g = op) ∧ op < N := by
    intro op l h
    rw [ht] at h
    split at h
    · exact ⟨(Option.some.inj h).symm, ‹_›⟩
    · cases h
  refine ⟨⟨?_, ?_, ?_, ?_, ?_, ?_⟩, hlen⟩
  · intro op; rw [hsome, hlen]
  · intro op l h g hg
    rw [(hmem op l h).1] at hg
    exact List.mem_range.1 (List.mem_filter.1 hg).1
  · intro op l h
    rw [(hmem op l h).1]
    exact List.nodup_range.filter _
  · intro g hg
    refine ⟨col g, (List.range n).filter (fun g' => decide (col g' = col g)), ?_, ?_⟩
    · rw [ht, if_pos (hcol g hg)]
    · simp [hg]
  · intro g op op' l l' h h' hg hg'
    rw [(hmem op l h).1] at hg
    rw [(hmem op' l' h').1] at hg'
    simp only [List.mem_filter, decide_eq_true_eq] at hg hg'
    exact hg.2.symm.trans hg'.2
  · intro g h op l hl hg hh ht'
    rw [(hmem op l hl).1] at hg hh
    simp only [List.mem_filter, decide_eq_true_eq, List.mem_range] at hg hh
    exact htouch g h hg.1 hh.1 ht' (hg.2.trans hh.2.symm)

private theorem filter_self (n op : Nat) : (List.range n).filter (fun g => decide (g = op)) = if op < n then [op] else [] := by
  induction n with
  | zero => simp
  | succ n ih =>
    rw [List.range_succ, List.filter_append, ih]
    by_cases h : n = op
    · subst h; simp
    · by_cases h1 : op < n
      · rw [if_pos h1, if_pos (by omega)]; simp [h]
      · rw [if_neg h1, if_neg (by omega)]; simp [h]

private theorem singles (n : Nat) :
    OMap.Sorted ((List.range n).foldl (fun t ip => OMap.set t ip [ip]) ([] : OMap (List Nat))) ∧
    ∀ op, OMap.get? ((List.range n).foldl (fun t ip => OMap.set t ip [ip]) ([] : OMap (List Nat))) op =
      if op < n then some ((List.range n).filter fun g => g = op) else none := by
  induction n with
  | zero => exact ⟨OMap.sorted_nil, by simp⟩
  | succ n ih =>
    rw [List.range_succ, List.foldl_append]
    refine ⟨OMap.sorted_set ih.1, fun op => ?_⟩
    rw [List.foldl_cons, List.foldl_nil, OMap.get?_set ih.1, ih.2]
    have e := filter_self (n + 1) op
    rw [List.range_succ] at e
    rw [e, filter_self]
    by_cases h : op = n
    · subst h; simp
    · by_cases h1 : op < n
      · simp [h, h1, show op < n + 1 by omega]
      · simp [h, h1, show ¬ op < n + 1 by omega]

/-- Neighbours on a circle of `n` grains. -/
def cyclicNeighbours (n g h : Nat) : Prop := g ≠ h ∧ ((g + 1) % n = h ∨ (h + 1) % n = g)

private theorem circle_loop (m : Nat) : ∃ t, (List.range m).foldlM (fun t ip => pushAt t (ip % 2) ip) [(0, []), (1, [])] = Res.ok t ∧
    OMap.Sorted t ∧ ∀ op, OMap.get? t op = if op < 2 then some ((List.range m).filter fun g => g % 2 = op) else none := by
  induction m with
  | zero =>
    refine ⟨_, rfl, by decide, fun op => ?_⟩
    match op with
    | 0 => rfl
    | 1 => rfl
    | op + 2 => simp [OMap.get?]
  | succ m ih =>
    obtain ⟨t, h1, h2, h3⟩ := ih
    have hm : OMap.get? t (m % 2) = some ((List.range m).filter fun g => g % 2 = m % 2) := by
      rw [h3, if_pos (Nat.mod_lt _ (by omega))]
    refine ⟨t.set (m % 2) (((List.range m).filter fun g => g % 2 = m % 2) ++ [m]), ?_, OMap.sorted_set h2, fun op => ?_⟩
    · rw [List.range_succ, List.foldlM_append, h1, Res.ok_bind]
      simp only [List.foldlM_cons, List.foldlM_nil, pushAt, hm, Res.at?_some, Res.ok_bind, Res.pure_def]
    · rw [OMap.get?_set h2, h3, List.range_succ, List.filter_append]
      by_cases h : op = m % 2
      · subst h
        rw [if_pos rfl, if_pos (Nat.mod_lt _ (by omega))]
        simp
      · rw [if_neg h]
        have : ¬ m % 2 = op := fun e => h e.symm
        simp [this]

/-- C58, circle: every grain has exactly one order parameter and neighbours on the circle have different ones. Two order
parameters are sufficient for even numbers of grains, three for odd ones. -/
theorem C58_circle (n : Nat) (hn : 0 < n) (minimize : Bool) :
    ∃ t, circleTable n minimize = .ok t ∧ IsAssignment t n (cyclicNeighbours n) ∧
      t.length = if minimize then (if n = 1 then 1 else if n % 2 = 0 then 2 else 3) else n := by
  cases minimize with
  | false =>
    obtain ⟨h1, h2⟩ := singles n
    obtain ⟨h3, h4⟩ := assignment_of_colour _ h1 n n id (fun g hg => hg) h2 (cyclicNeighbours n)
      (fun g h _ _ ht => ht.1)
    exact ⟨_, rfl, h3, h4⟩
  | true =>
    by_cases hn1 : n = 1
    · subst hn1
      obtain ⟨h3, h4⟩ := assignment_of_colour [(0, [0])] (by decide) 1 1 (fun _ => 0) (by omega) (fun op => by
        match op with
        | 0 => rfl
        | op + 1 => simp [OMap.get?]) (cyclicNeighbours 1) (fun g h hg hh ht => by
          exfalso; exact ht.1 (by omega))
      exact ⟨_, rfl, h3, h4⟩
    · obtain ⟨t, h1, h2, h3⟩ := circle_loop n
      rw [circleTable, if_pos rfl, if_neg hn1, h1, Res.ok_bind]
      have hstep : ∀ g, g < n → (g + 1) % n = if g + 1 = n then 0 else g + 1 := by
        intro g hg
        split
        · rename_i e; rw [e]; exact Nat.mod_self n
        · exact Nat.mod_eq_of_lt (by omega)
      by_cases he : n % 2 = 0
      · rw [if_neg (by omega)]
        obtain ⟨g1, g2⟩ := assignment_of_colour t h2 n 2 (fun g => g % 2) (fun g _ => Nat.mod_lt _ (by omega)) h3
          (cyclicNeighbours n) (fun g h hg hh ht => by
            obtain ⟨-, h | h⟩ := ht
            · rw [hstep g hg] at h; split at h <;> omega
            · rw [hstep _ hh] at h; split at h <;> omega)
        refine ⟨t, rfl, g1, ?_⟩
        rw [g2, if_pos rfl, if_neg hn1, if_pos he]
      · rw [if_pos (by omega), h3, if_pos (by omega), Res.at?_some, Res.ok_bind]
        obtain ⟨m, rfl⟩ : ∃ m, n = m + 1 := ⟨n - 1, by omega⟩
        have hm : m % 2 = 0 := by omega
        have hsplit : ((List.range (m + 1)).filter fun g => decide (g % 2 = 0)) =
            ((List.range m).filter fun g => decide (g % 2 = 0)) ++ [m] := by
          rw [List.range_succ, List.filter_append]; simp [hm]
        rw [hsplit, List.getLast?_concat, List.dropLast_concat]
        dsimp only
        have hs0 := OMap.sorted_set (k := 0) (v := (List.range m).filter fun g => decide (g % 2 = 0)) h2
        obtain ⟨g1, g2⟩ := assignment_of_colour ((t.set 0 ((List.range m).filter fun g => decide (g % 2 = 0))).set 2 [m])
          (OMap.sorted_set hs0) (m + 1) 3
          (fun g => if g = m then 2 else g % 2) (fun g _ => by
            show (if g = m then 2 else g % 2) < 3
            split <;> omega) (fun op => by
              rw [OMap.get?_set hs0, OMap.get?_set h2, h3, List.range_succ, List.filter_append, List.filter_append]
              have hcong : ∀ op, op ≠ 2 → (List.range m).filter (fun g => decide ((if g = m then 2 else g % 2) = op)) =
                  (List.range m).filter (fun g => decide (g % 2 = op)) := by
                intro op _
                refine List.filter_congr fun g hg => ?_
                have := List.mem_range.1 hg
                rw [if_neg (by omega)]
              by_cases h2' : op = 2
              · subst h2'
                rw [if_pos rfl, if_pos (by omega)]
                have : (List.range m).filter (fun g => decide ((if g = m then 2 else g % 2) = 2)) = [] := by
                  rw [List.filter_eq_nil_iff]
                  intro g hg
                  have := List.mem_range.1 hg
                  rw [if_neg (by omega)]; simp; omega
                rw [this]; simp
              · rw [if_neg h2', hcong op h2']
                by_cases h0 : op = 0
                · subst h0; rw [if_pos rfl]; simp
                · rw [if_neg h0]
                  by_cases h1' : op = 1
                  · subst h1'; simp [hm]
                  · rw [if_neg (by omega), if_neg (by omega)])
          (cyclicNeighbours (m + 1)) (fun g h hg hh ht => by
            obtain ⟨hne, h | h⟩ := ht
            · rw [hstep g hg] at h; split at h <;> grind
            · rw [hstep _ hh] at h; split at h <;> grind)
        refine ⟨_, rfl, g1, ?_⟩
        rw [g2, if_pos rfl, if_neg hn1, if_neg he]

/-- Neighbours in a grid: the index tuples differ by one in one direction. -/
def gridNeighbours (ns : List Nat) (g h : Nat) : Prop :=
  ∃ a b, (indices ns)[g]? = some a ∧ (indices ns)[h]? = some b ∧
    ∃ d x, a[d]? = some x ∧ (b = a.set d (x + 1))

private theorem indices_sum (ns : List Nat) : ∀ a ∈ indices ns, a.sum < ns.foldr (· * ·) 1 := by
  induction ns with
  | nil => simp [indices]
  | cons n ns ih =>
    intro a ha
    simp only [indices, List.mem_flatMap, List.mem_range, List.mem_map] at ha
    obtain ⟨i, hi, a', ha', rfl⟩ := ha
    have h := ih a' ha'
    simp only [List.sum_cons, List.foldr_cons]
    generalize ns.foldr (· * ·) 1 = p at h
    obtain ⟨q, rfl⟩ : ∃ q, p = q + 1 := ⟨p - 1, by omega⟩
    obtain ⟨m, rfl⟩ : ∃ m, n = m + 1 := ⟨n - 1, by omega⟩
    calc i + a'.sum ≤ m + q := by omega
      _ < (m + 1) * (q + 1) := by
        have : (m + 1) * (q + 1) = m * q + m + q + 1 := by ring
        omega

private theorem foldl_mul (ns : List Nat) (a : Nat) : ns.foldl (· * ·) a = a * ns.foldr (· * ·) 1 := by
  induction ns generalizing a with
  | nil => simp
  | cons n ns ih => rw [List.foldl_cons, ih, List.foldr_cons, Nat.mul_assoc]

private theorem emplace_range (N : Nat) :
    OMap.Sorted ((List.range N).foldl (fun t op => OMap.emplace t op []) ([] : OMap (List Nat))) ∧
    ∀ op, OMap.get? ((List.range N).foldl (fun t op => OMap.emplace t op []) ([] : OMap (List Nat))) op =
      if op < N then some [] else none := by
  induction N with
  | zero => exact ⟨OMap.sorted_nil, by simp⟩
  | succ N ih =>
    rw [List.range_succ, List.foldl_append]
    refine ⟨OMap.sorted_emplace ih.1, fun op => ?_⟩
    rw [List.foldl_cons, List.foldl_nil, OMap.get?_emplace ih.1, ih.2]
    by_cases h : op = N
    · subst h; simp [ih.2]
    · by_cases h1 : op < N
      · simp [h, h1, ih.2, show op < N + 1 by omega]
      · simp [h, h1, ih.2, show ¬ op < N + 1 by omega]

private theorem hyper_fold (nOp N : Nat) (L : List (List Nat)) (hL : ∀ a ∈ L, a.sum % nOp < N) (t0 : OMap (List Nat))
    (hs : OMap.Sorted t0) (h0 : ∀ op, OMap.get? t0 op = if op < N then some [] else none) :
    OMap.Sorted (L.zipIdx.foldl (fun t (x : List Nat × Nat) => push t (x.1.sum % nOp) x.2) t0) ∧
    ∀ op, OMap.get? (L.zipIdx.foldl (fun t (x : List Nat × Nat) => push t (x.1.sum % nOp) x.2) t0) op =
      if op < N then some ((List.range L.length).filter fun g => (L.getD g []).sum % nOp = op) else none := by
  induction L using List.reverseRecOn with
  | nil => exact ⟨hs, by simpa using h0⟩
  | append_singleton L a ih =>
    obtain ⟨h1, h2⟩ := ih (fun b hb => hL b (by simp [hb]))
    have ha := hL a (by simp)
    rw [List.zipIdx_append, List.foldl_append]
    simp only [List.zipIdx_singleton, List.foldl_cons, List.foldl_nil, Nat.zero_add]
    refine ⟨OMap.sorted_set h1, fun op => ?_⟩
    rw [push, OMap.get?_set h1, h2, h2, if_pos ha, List.length_append, List.length_singleton, List.range_succ, List.filter_append]
    have hc : ∀ op, (List.range L.length).filter (fun g => decide (((L ++ [a]).getD g []).sum % nOp = op)) =
        (List.range L.length).filter (fun g => decide ((L.getD g []).sum % nOp = op)) := by
      intro op
      refine List.filter_congr fun g hg => ?_
      have := List.mem_range.1 hg
      rw [List.getD_eq_getElem?_getD, List.getElem?_append_left this, ← List.getD_eq_getElem?_getD]
    have hlast : (L ++ [a]).getD L.length [] = a := by simp
    by_cases h : op = a.sum % nOp
    · subst h
      rw [if_pos rfl, if_pos ha, hc]
      simp [hlast]
    · rw [if_neg h, hc]
      have : ¬ a.sum % nOp = op := fun e => h e.symm
      simp [hlast, this]

/-- C58, grid: every grain has exactly one order parameter; with more than one order parameter touching grains have
different ones. The number of order parameters is the given one (limited by the number of grains). -/
theorem C58_hypercube (ns : List Nat) (nOp : Nat) (hop : nOp ≠ 1) :
    IsAssignment (hypercubeTable ns nOp) (indices ns).length (gridNeighbours ns) ∧
      (hypercubeTable ns nOp).length =
        if 0 < nOp then min (ns.foldl (· * ·) 1) nOp else (indices ns).length := by
  have hsum : ∀ (a b : List Nat) (d x : Nat), a[d]? = some x → b = a.set d (x + 1) → b.sum = a.sum + 1 := by
    intro a
    induction a with
    | nil => intro b d x h; simp at h
    | cons y a ih =>
      rintro b d x h rfl
      cases d with
      | zero =>
        simp only [List.getElem?_cons_zero, Option.some.injEq] at h
        subst h
        simp only [List.set_cons_zero, List.sum_cons]; omega
      | succ d =>
        simp only [List.getElem?_cons_succ] at h
        have := ih _ d x h rfl
        simp only [List.set_cons_succ, List.sum_cons, this]; omega
  unfold hypercubeTable
  dsimp only
  by_cases h0 : 0 < nOp
  · simp only [if_pos h0]
    obtain ⟨e1, e2⟩ := emplace_range (min (ns.foldl (· * ·) 1) nOp)
    have hlt : ∀ a ∈ indices ns, a.sum % nOp < min (ns.foldl (· * ·) 1) nOp := by
      intro a ha
      have := indices_sum ns a ha
      rw [foldl_mul, Nat.one_mul]
      exact lt_min (lt_of_le_of_lt (Nat.mod_le _ _) this) (Nat.mod_lt _ h0)
    obtain ⟨h1, h2⟩ := hyper_fold nOp _ (indices ns) hlt _ e1 e2
    refine assignment_of_colour _ h1 _ _ (fun g => ((indices ns).getD g []).sum % nOp) ?_ h2 _ ?_
    · intro g hg
      refine hlt _ ?_
      rw [List.getD_eq_getElem?_getD, List.getElem?_eq_getElem hg]
      exact List.getElem_mem hg
    · rintro g h hg hh ⟨a, b, ha, hb, d, x, hx, hbx⟩
      simp only [List.getD_eq_getElem?_getD, ha, hb, Option.getD_some, hsum a b d x hx hbx]
      intro e
      have : (a.sum + 1) % nOp = a.sum % nOp := e.symm
      have h2' : 2 ≤ nOp := by omega
      rw [Nat.add_mod] at this
      rw [Nat.mod_eq_of_lt (by omega : 1 < nOp)] at this
      have hm := Nat.mod_lt a.sum h0
      by_cases hw : a.sum % nOp + 1 = nOp
      · rw [hw, Nat.mod_self] at this; omega
      · rw [Nat.mod_eq_of_lt (by omega)] at this; omega
  · simp only [if_neg h0]
    have hfold : ∀ L : List (List Nat), L.zipIdx.foldl (fun t (x : List Nat × Nat) => OMap.set t x.2 [x.2]) ([] : OMap (List Nat)) =
        (List.range L.length).foldl (fun t ip => OMap.set t ip [ip]) [] := by
      intro L
      induction L using List.reverseRecOn with
      | nil => rfl
      | append_singleton L a ih =>
        rw [List.zipIdx_append, List.foldl_append, ih, List.length_append, List.length_singleton, List.range_succ, List.foldl_append]
        simp
    have := hfold (indices ns)
    obtain ⟨h1, h2⟩ := singles (indices ns).length
    have hres := assignment_of_colour _ h1 _ _ id (fun g hg => hg) h2 (gridNeighbours ns) (by
      rintro g h hg hh ⟨a, b, ha, hb, d, x, hx, hbx⟩ e
      simp only [id] at e
      subst e
      rw [ha] at hb
      cases hb
      have := hsum a a d x hx hbx
      omega)
    rw [← this] at hres
    exact hres

/-- C58, clouds: the colours given to the particles (consecutive, starting with 1, different for close particles)
become the order parameters; without minimisation every particle has its own. -/
theorem C58_cloud (n : Nat) (minimize : Bool) (colours : List Nat) (k : Nat) (hl : colours.length = n)
    (hcol : ∀ c, c ∈ colours ↔ 1 ≤ c ∧ c ≤ k) (close : Nat → Nat → Prop) (hirr : ∀ g h, close g h → g ≠ h)
    (hclose : ∀ g h a b, colours[g]? = some a → colours[h]? = some b → close g h → a ≠ b) :
    IsAssignment (Cloud.cloudTable n minimize colours) n close ∧
      (Cloud.cloudTable n minimize colours).length = if minimize then k else n := by
  have hfold : ∀ (col : Nat → Nat) (m : Nat),
      OMap.Sorted ((List.range m).foldl (fun t i => push t (col i) i) ([] : OMap (List Nat))) ∧
      ∀ op, OMap.get? ((List.range m).foldl (fun t i => push t (col i) i) ([] : OMap (List Nat))) op =
        if (∃ i < m, col i = op) then some ((List.range m).filter fun g => col g = op) else none := by
    intro col m
    induction m with
    | zero => exact ⟨OMap.sorted_nil, by simp⟩
    | succ m ih =>
      rw [List.range_succ, List.foldl_append]
      refine ⟨OMap.sorted_set ih.1, fun op => ?_⟩
      rw [List.foldl_cons, List.foldl_nil, push, OMap.get?_set ih.1, ih.2, ih.2, List.filter_append]
      by_cases h : op = col m
      · subst h
        have hex : ∃ i < m + 1, col i = col m := ⟨m, by omega, rfl⟩
        rw [if_pos rfl, if_pos hex]
        split
        · simp
        · rename_i hne
          have : (List.range m).filter (fun g => decide (col g = col m)) = [] := by
            rw [List.filter_eq_nil_iff]
            intro g hg hc
            exact hne ⟨g, List.mem_range.1 hg, by simpa using hc⟩
          rw [this]; simp
      · rw [if_neg h]
        have h' : ¬ col m = op := fun e => h e.symm
        have : (∃ i < m + 1, col i = op) ↔ ∃ i < m, col i = op := by
          constructor
          · rintro ⟨i, hi, e⟩
            refine ⟨i, ?_, e⟩
            by_contra hc
            have : i = m := by omega
            subst this; exact h' e
          · rintro ⟨i, hi, e⟩; exact ⟨i, by omega, e⟩
        simp only [this, List.filter_cons, h', decide_false, List.filter_nil]
        simp
  unfold Cloud.cloudTable
  cases minimize with
  | false =>
    obtain ⟨h1, h2⟩ := hfold id n
    simp only [id] at h1 h2
    refine assignment_of_colour _ h1 n n id (fun g hg => hg) (fun op => ?_) close (fun g h _ _ hc => hirr g h hc)
    refine (h2 op).trans ?_
    by_cases h : op < n
    · rw [if_pos ⟨op, h, rfl⟩, if_pos h]; rfl
    · rw [if_neg (by rintro ⟨i, hi, rfl⟩; exact h hi), if_neg h]
  | true =>
    obtain ⟨h1, h2⟩ := hfold (fun i => colours.getD i 0 - 1) n
    have hget : ∀ g < n, ∃ a, colours[g]? = some a ∧ colours.getD g 0 = a ∧ 1 ≤ a ∧ a ≤ k := by
      intro g hg
      have hg' : g < colours.length := by omega
      refine ⟨colours[g], List.getElem?_eq_getElem hg', ?_, (hcol _).1 (List.getElem_mem hg')⟩
      rw [List.getD_eq_getElem?_getD, List.getElem?_eq_getElem hg']; rfl
    refine assignment_of_colour _ h1 n k (fun i => colours.getD i 0 - 1) ?_ (fun op => ?_) close ?_
    · intro g hg
      obtain ⟨a, -, h2, h3, h4⟩ := hget g hg
      show colours.getD g 0 - 1 < k
      omega
    · refine (h2 op).trans ?_
      by_cases h : op < k
      · rw [if_pos h, if_pos]
        have hm := (hcol (op + 1)).2 ⟨by omega, by omega⟩
        obtain ⟨i, hi, e⟩ := List.mem_iff_getElem.1 hm
        refine ⟨i, by omega, ?_⟩
        show colours.getD i 0 - 1 = op
        rw [List.getD_eq_getElem?_getD, List.getElem?_eq_getElem hi, Option.getD_some, e]; omega
      · rw [if_neg h, if_neg]
        rintro ⟨i, hi, e⟩
        obtain ⟨a, -, h2, h3, h4⟩ := hget i hi
        have e' : colours.getD i 0 - 1 = op := e
        omega
    · intro g h hg hh hc
      obtain ⟨a, a1, a2, a3, a4⟩ := hget g hg
      obtain ⟨b, b1, b2, b3, b4⟩ := hget h hh
      have := hclose g h a b a1 b1 hc
      show colours.getD g 0 - 1 ≠ colours.getD h 0 - 1
      omega

namespace Ex58

example : circleTable 5 true = .ok [(0, [0, 2]), (1, [1, 3]), (2, [4])] := by decide +kernel
example : circleTable 4 true = .ok [(0, [0, 2]), (1, [1, 3])] := by decide +kernel
example : hypercubeTable [2, 3] 2 = [(0, [0, 2, 4]), (1, [1, 3, 5])] := by decide +kernel
/-- An order parameter may stay without grains. -/
example : hypercubeTable [2, 2] 4 = [(0, [0]), (1, [1, 2]), (2, [3]), (3, [])] := by decide +kernel
/-- A single order parameter does not separate. -/
example : hypercubeTable [2] 1 = [(0, [0, 1])] := by decide +kernel
example : Cloud.cloudTable 4 true [1, 2, 1, 3] = [(0, [0, 2]), (1, [1]), (2, [3])] := by decide +kernel
example : cyclicNeighbours 5 4 0 := ⟨by decide, .inl (by decide)⟩
example : gridNeighbours [2, 3] 1 4 := ⟨[0, 1], [1, 1], by decide, by decide, 0, 0, by decide, by decide⟩

end Ex58

end Verif.Props
