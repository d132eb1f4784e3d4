/-
C167: transformed packings.
-/
import Verif.Model.Packing
import Verif.Spec.Packing
import Mathlib.Tactic.LinearCombination
import Mathlib.Tactic.Linarith
import Mathlib.Tactic.Ring
import Mathlib.Tactic.FinCases
import Mathlib.Data.Matrix.Mul
import Mathlib.Tactic.Positivity
import Mathlib.Algebra.Order.Field.Rat

namespace Verif.Props

open Verif.Packing Verif.Packing.Spec

variable {K : Type} [Field K] [LinearOrder K]

private theorem sim_map (f : Particle K → Particle K) (s : K) (ps : List (Particle K)) (h1 : ∀ p, (f p).r = s * p.r) (h2 : ∀ p q, dist2 (f p) (f q) = s ^ 2 * dist2 p q) :
    Similar s ps (ps.map f) := by
  refine ⟨by simp, fun i p q hp hq => ?_, fun i j p q p' q' hp hq hp' hq' => ?_⟩
  · rw [List.getElem?_map, hp] at hq
    simp only [Option.map_some, Option.some.injEq] at hq
    rw [← hq, h1]
  · rw [List.getElem?_map, hp] at hp'
    rw [List.getElem?_map, hq] at hq'
    simp only [Option.map_some, Option.some.injEq] at hp' hq'
    rw [← hp', ← hq', h2]

private theorem sim_refl (ps : List (Particle K)) : Similar 1 ps ps := by
  have := sim_map (fun p : Particle K => p) 1 ps (by simp) (by simp)
  rwa [List.map_id'] at this

private theorem sim_trans {s t : K} {a b c : List (Particle K)} (h : Similar s a b) (g : Similar t b c) : Similar (t * s) a c := by
  have get : ∀ (i : Nat) (p : Particle K), a[i]? = some p → ∃ q, b[i]? = some q := by
    intro i p hp
    have : i < a.length := by
      by_contra hn
      rw [List.getElem?_eq_none (by omega)] at hp
      cases hp
    exact ⟨_, List.getElem?_eq_getElem (by rw [← h.1]; exact this)⟩
  refine ⟨h.1.trans g.1, fun i p q hp hq => ?_, fun i j p q p' q' hp hq hp' hq' => ?_⟩
  · obtain ⟨m, hm⟩ := get i p hp
    rw [g.2.1 i m q hm hq, h.2.1 i p m hp hm, mul_assoc]
  · obtain ⟨m, hm⟩ := get i p hp
    obtain ⟨n, hn⟩ := get j q hq
    rw [g.2.2 i j m n p' q' hm hn hp' hq', h.2.2 i j p q m n hp hq hm hn]
    ring

private theorem sim_centred (smax : K) (ps : List (Particle K)) : Similar 1 ps (centred smax ps) :=
  sim_map _ 1 ps (by simp) fun p q => by simp only [dist2]; ring

private theorem sim_shifted (o : Fin 3 → K) (ps : List (Particle K)) : Similar 1 ps (shifted o ps) :=
  sim_map _ 1 ps (by simp) fun p q => by simp only [dist2]; ring

private theorem sim_scaled (s : K) (ps : List (Particle K)) : Similar s ps (scaled s ps) :=
  sim_map _ s ps (fun p => mul_comm _ _) fun p q => by simp only [dist2]; ring

private theorem sim_rotated (a : Fin 3 → K × K) (ha : ∀ i, (a i).1 ^ 2 + (a i).2 ^ 2 = 1) (ps : List (Particle K)) : Similar 1 ps (rotated a ps) := by
  refine sim_map _ 1 ps (by simp) fun p q => ?_
  have x : ∀ (v w : Fin 3 → K) (r : K), dist2 ⟨rx (a 0) v, r⟩ ⟨rx (a 0) w, r⟩ = dist2 ⟨v, r⟩ ⟨w, r⟩ := fun v w r => by
    simp only [dist2, rx, Matrix.cons_val]
    linear_combination ((v 1 - w 1) ^ 2 + (v 2 - w 2) ^ 2) * ha 0
  have y : ∀ (v w : Fin 3 → K) (r : K), dist2 ⟨ry (a 1) v, r⟩ ⟨ry (a 1) w, r⟩ = dist2 ⟨v, r⟩ ⟨w, r⟩ := fun v w r => by
    simp only [dist2, ry, Matrix.cons_val]
    linear_combination ((v 0 - w 0) ^ 2 + (v 2 - w 2) ^ 2) * ha 1
  have z : ∀ (v w : Fin 3 → K) (r : K), dist2 ⟨rz (a 2) v, r⟩ ⟨rz (a 2) w, r⟩ = dist2 ⟨v, r⟩ ⟨w, r⟩ := fun v w r => by
    simp only [dist2, rz, Matrix.cons_val]
    linear_combination ((v 0 - w 0) ^ 2 + (v 1 - w 1) ^ 2) * ha 2
  have e := (z (ry (a 1) (rx (a 0) p.pos)) (ry (a 1) (rx (a 0) q.pos)) 0).trans ((y (rx (a 0) p.pos) (rx (a 0) q.pos) 0).trans (x p.pos q.pos 0))
  rw [one_pow, one_mul]
  exact e

/-- All transformations keep the shape of the packing. -/
theorem C167_similar (smax : K) (o : Opts K) (ho : ∀ w, o.rotate = some w → ∀ i, (w i).1 ^ 2 + (w i).2 ^ 2 = 1) (ps : List (Particle K)) :
    Similar (factor o) ps (transform smax o ps) := by
  unfold transform factor
  dsimp only
  have h1 : ∀ x : List (Particle K), x = (if o.centrify then centred smax ps else match o.offset with
      | some d => shifted d ps
      | none => ps) → Similar 1 ps x := by
    rintro x rfl
    split
    · exact sim_centred smax ps
    · split
      · exact sim_shifted _ ps
      · exact sim_refl ps
  generalize hx : (if o.centrify then centred smax ps else match o.offset with
      | some d => shifted d ps
      | none => ps) = x
  have h1 := h1 x hx.symm
  have h2 : Similar (match o.scale with | some s => if s ≠ 0 then s else 1 | none => 1) ps (match o.scale with | some s => if s ≠ 0 then scaled s x else x | none => x) := by
    cases o.scale with
    | none => exact h1
    | some s =>
      dsimp only
      by_cases hs : s ≠ 0
      · rw [if_pos hs, if_pos hs]
        have := sim_trans h1 (sim_scaled s x)
        rwa [mul_one] at this
      · rw [if_neg hs, if_neg hs]; exact h1
  cases hr : o.rotate with
  | none => exact h2
  | some w =>
    have := sim_trans h2 (sim_rotated w (ho w hr) _)
    rwa [one_mul] at this

/-- Particles touch after the transformation exactly if they did before. -/
theorem C167_touch [IsStrictOrderedRing K] (smax : K) (o : Opts K) (ho : ∀ w, o.rotate = some w → ∀ i, (w i).1 ^ 2 + (w i).2 ^ 2 = 1) {ps : List (Particle K)} {i j : Nat} {p q p' q' : Particle K}
    (hp : ps[i]? = some p) (hq : ps[j]? = some q) (hp' : (transform smax o ps)[i]? = some p') (hq' : (transform smax o ps)[j]? = some q') : Touch p' q' ↔ Touch p q := by
  obtain ⟨_, h1, h2⟩ := C167_similar smax o ho ps
  unfold Touch
  rw [h2 i j p q p' q' hp hq hp' hq', h1 i p p' hp hp', h1 j q q' hq hq', ← mul_add, mul_pow]
  have : factor o ≠ 0 := by
    unfold factor
    split
    · split
      · assumption
      · exact one_ne_zero
    · exact one_ne_zero
  exact mul_le_mul_iff_right₀ (by positivity)

/-- The limits are the extent of the packing. -/
theorem C167_limits [IsStrictOrderedRing K] (smax : K) (i : Fin 3) {ps : List (Particle K)} (h : ps ≠ []) (hb : ∀ p ∈ ps, p.pos i - p.r ≤ smax ∧ -smax ≤ p.pos i + p.r) :
    Extent i ps (limits smax i ps).1 (limits smax i ps).2 := by
  have key : ∀ (ps : List (Particle K)) (l : K × K), let m := ps.foldl (fun l p => (min (p.pos i - p.r) l.1, max (p.pos i + p.r) l.2)) l
      (m.1 ≤ l.1 ∧ l.2 ≤ m.2) ∧ (∀ p ∈ ps, m.1 ≤ p.pos i - p.r ∧ p.pos i + p.r ≤ m.2) ∧ (m.1 = l.1 ∨ ∃ p ∈ ps, p.pos i - p.r = m.1) ∧ (m.2 = l.2 ∨ ∃ p ∈ ps, p.pos i + p.r = m.2) := by
    intro ps
    induction ps with
    | nil => intro l; exact ⟨⟨le_rfl, le_rfl⟩, by simp, .inl rfl, .inl rfl⟩
    | cons p ps ih =>
      intro l
      obtain ⟨⟨a1, a2⟩, b, c, d⟩ := ih (min (p.pos i - p.r) l.1, max (p.pos i + p.r) l.2)
      refine ⟨⟨le_trans a1 (min_le_right _ _), le_trans (le_max_right _ _) a2⟩, fun q hq => ?_, ?_, ?_⟩
      · rcases List.mem_cons.1 hq with rfl | hq
        · exact ⟨le_trans a1 (min_le_left _ _), le_trans (le_max_left _ _) a2⟩
        · exact b q hq
      · rcases c with c | ⟨q, hq, e⟩
        · rcases min_choice (p.pos i - p.r) l.1 with e | e
          · exact .inr ⟨p, by simp, (c.trans e).symm⟩
          · exact .inl (c.trans e)
        · exact .inr ⟨q, by simp [hq], e⟩
      · rcases d with d | ⟨q, hq, e⟩
        · rcases max_choice (p.pos i + p.r) l.2 with e | e
          · exact .inr ⟨p, by simp, (d.trans e).symm⟩
          · exact .inl (d.trans e)
        · exact .inr ⟨q, by simp [hq], e⟩
  obtain ⟨_, b, c, d⟩ := key ps (smax, -smax)
  obtain ⟨p, hp⟩ := List.exists_mem_of_ne_nil ps h
  refine ⟨b, ?_, ?_⟩
  · rcases c with c | c
    · exact ⟨p, hp, le_antisymm (by rw [limits, c]; exact (hb p hp).1) (b p hp).1⟩
    · exact c
  · rcases d with d | d
    · exact ⟨p, hp, le_antisymm (b p hp).2 (by rw [limits, d]; exact (hb p hp).2)⟩
    · exact d

/-- Extent after centring. -/
private theorem extent_centred [IsStrictOrderedRing K] (smax : K) (i : Fin 3) {ps : List (Particle K)} {lo hi : K} (h : Extent i ps lo hi)
    (e : limits smax i ps = (lo, hi)) : Extent i (centred smax ps) (lo - (hi - lo) / 2) (hi - (hi - lo) / 2) := by
  unfold centred
  refine ⟨fun p hp => ?_, ?_, ?_⟩
  · obtain ⟨q, hq, rfl⟩ := List.mem_map.1 hp
    obtain ⟨a, b⟩ := h.inside q hq
    dsimp only
    rw [e]
    constructor <;> linarith
  · obtain ⟨q, hq, a⟩ := h.low
    refine ⟨_, List.mem_map.2 ⟨q, hq, rfl⟩, ?_⟩
    dsimp only
    rw [e]
    linarith
  · obtain ⟨q, hq, a⟩ := h.high
    refine ⟨_, List.mem_map.2 ⟨q, hq, rfl⟩, ?_⟩
    dsimp only
    rw [e]
    linarith

private theorem extent_unique {i : Fin 3} {ps : List (Particle K)} {lo hi lo' hi' : K} (h : Extent i ps lo hi) (g : Extent i ps lo' hi') : lo = lo' ∧ hi = hi' := by
  obtain ⟨p, hp, a⟩ := h.low
  obtain ⟨q, hq, b⟩ := g.low
  obtain ⟨p', hp', a'⟩ := h.high
  obtain ⟨q', hq', b'⟩ := g.high
  exact ⟨le_antisymm (b ▸ (h.inside q hq).1) (a ▸ (g.inside p hp).1), le_antisymm (a' ▸ (g.inside p' hp').2) (b' ▸ (h.inside q' hq').2)⟩

/-- C167, partial: a packing is centred in a coordinate exactly if it starts at 0 there; its middle is moved to where the packing started. Missing: all other packings. -/
theorem C167_centre_partial [IsStrictOrderedRing K] (smax : K) (i : Fin 3) {ps : List (Particle K)} (h : ps ≠ []) (hb : ∀ p ∈ ps, p.pos i - p.r ≤ smax ∧ -smax ≤ p.pos i + p.r) :
    (Centred i (centred smax ps) ↔ (limits smax i ps).1 = 0) ∧
      ∃ lo hi, Extent i (centred smax ps) lo hi ∧ (lo + hi) / 2 = (limits smax i ps).1 := by
  have e := C167_limits smax i h hb
  have g := extent_centred smax i e rfl
  refine ⟨⟨?_, fun h0 => ?_⟩, _, _, g, by ring⟩
  · rintro ⟨r, hr⟩
    obtain ⟨a, b⟩ := extent_unique g hr
    linarith
  · refine ⟨(limits smax i ps).2 - ((limits smax i ps).2 - (limits smax i ps).1) / 2, ?_⟩
    have : -((limits smax i ps).2 - ((limits smax i ps).2 - (limits smax i ps).1) / 2) = (limits smax i ps).1 - ((limits smax i ps).2 - (limits smax i ps).1) / 2 := by
      rw [h0]; ring
    rw [this]
    exact g

/-- A packing that is centred already is moved away. -/
theorem C167_centre_violation [IsStrictOrderedRing K] (smax : K) (i : Fin 3) {ps : List (Particle K)} (hb : ∀ p ∈ ps, p.pos i - p.r ≤ smax ∧ -smax ≤ p.pos i + p.r)
    (hr : ∀ p ∈ ps, 0 < p.r) (h : Centred i ps) : ¬ Centred i (centred smax ps) := by
  obtain ⟨r, g⟩ := h
  obtain ⟨p, hp, e⟩ := g.low
  have hn : ps ≠ [] := List.ne_nil_of_mem hp
  intro hc
  have h0 := (C167_centre_partial smax i hn hb).1.1 hc
  obtain ⟨a, b⟩ := extent_unique g (C167_limits smax i hn hb)
  have := (g.inside p hp).2
  have := hr p hp
  linarith

private theorem rx_mat (a : K × K) (v : Fin 3 → K) : rx a v = (matX a).mulVec v := by
  funext i
  fin_cases i <;> (simp [rx, matX, Matrix.mulVec, dotProduct, Fin.sum_univ_three]; try ring)

private theorem ry_mat (a : K × K) (v : Fin 3 → K) : ry a v = (matY a).mulVec v := by
  funext i
  fin_cases i <;> simp [ry, matY, Matrix.mulVec, dotProduct, Fin.sum_univ_three]

private theorem rz_mat (a : K × K) (v : Fin 3 → K) : rz a v = (matZ a).mulVec v := by
  funext i
  fin_cases i <;> (simp [rz, matZ, Matrix.mulVec, dotProduct, Fin.sum_univ_three]; try ring)

/-- Without centring, particles are moved by the offset, scaled and rotated, in this order. -/
theorem C167_position (smax : K) (o : Opts K) (hc : o.centrify = false) {ps : List (Particle K)} {i : Nat} {p : Particle K} (hp : ps[i]? = some p) :
    (transform smax o ps)[i]? = some ⟨(rotation o).mulVec (factor o • (p.pos + o.offset.getD 0)), factor o * p.r⟩ := by
  obtain ⟨c, d, s, w⟩ := o
  dsimp only at hc
  subst hc
  have hd : ∀ d, (shifted d ps)[i]? = some ⟨p.pos + d, p.r⟩ := fun d => by
    simp only [shifted, List.getElem?_map, hp, Option.map_some]
    rfl
  have hs : ∀ (x : List (Particle K)) v r s, x[i]? = some ⟨v, r⟩ → (scaled s x)[i]? = some ⟨s • v, s * r⟩ := fun x v r s h => by
    simp only [scaled, List.getElem?_map, h, Option.map_some, Option.some.injEq, Particle.mk.injEq]
    exact ⟨funext fun i => by simp [mul_comm], mul_comm _ _⟩
  have hr : ∀ (x : List (Particle K)) v r w, x[i]? = some ⟨v, r⟩ → (rotated w x)[i]? = some ⟨(matZ (w 2) * matY (w 1) * matX (w 0)).mulVec v, r⟩ := fun x v r w h => by
    simp only [rotated, List.getElem?_map, h, Option.map_some, Option.some.injEq, Particle.mk.injEq, and_true]
    rw [rz_mat, ry_mat, rx_mat, Matrix.mulVec_mulVec, Matrix.mulVec_mulVec, Matrix.mul_assoc]
  have h2 : ∀ (x : List (Particle K)) v, x[i]? = some ⟨v, p.r⟩ →
      (transform smax ⟨false, none, s, w⟩ x)[i]? = some ⟨(rotation ⟨false, d, s, w⟩).mulVec (factor ⟨false, d, s, w⟩ • v), factor ⟨false, d, s, w⟩ * p.r⟩ := by
    intro x v hx
    unfold transform rotation factor
    cases s with
    | none =>
      cases w with
      | none => simpa using hx
      | some w => simpa using hr x _ _ w hx
    | some s =>
      by_cases h0 : s = 0
      · cases w with
        | none => simpa [h0] using hx
        | some w => simpa [h0] using hr x _ _ w hx
      · cases w with
        | none => simpa [h0] using hs x _ _ s hx
        | some w => simpa [h0] using hr _ _ _ w (hs x _ _ s hx)
  cases d with
  | none => exact h2 ps _ (by simpa using hp)
  | some d => exact h2 (shifted d ps) _ (hd d)

/-- With centring, the same is done to the centred packing; an offset is ignored. -/
theorem C167_centrify (smax : K) (d : Option (Fin 3 → K)) (s : Option K) (w : Option (Fin 3 → K × K)) (ps : List (Particle K)) :
    transform smax ⟨true, d, s, w⟩ ps = transform smax ⟨false, none, s, w⟩ (centred smax ps) := by
  simp [transform]

/-- Zero as scale does nothing. -/
theorem C167_scale_zero (smax : K) (c : Bool) (d : Option (Fin 3 → K)) (w : Option (Fin 3 → K × K)) (ps : List (Particle K)) :
    transform smax ⟨c, d, some 0, w⟩ ps = transform smax ⟨c, d, none, w⟩ ps := by
  simp [transform]

namespace Ex167

def two : List (Particle Rat) := [⟨![0, 0, 0], 1⟩, ⟨![2, 0, 0], 1⟩]
def shown (ps : List (Particle Rat)) : List (Rat × Rat × Rat × Rat) := ps.map fun p => (p.pos 0, p.pos 1, p.pos 2, p.r)

example : limits 100 0 two = (-1, 3) := by decide +kernel
example : shown (centred 100 two) = [(-2, -1, -1, 1), (0, -1, -1, 1)] := by decide +kernel
example : shown (transform 100 ⟨false, some ![1, 0, 0], some 2, some ![(1, 0), (1, 0), (0, 1)]⟩ two) = [(0, 2, 0, 2), (0, 6, 0, 2)] := by decide +kernel

end Ex167

end Verif.Props
