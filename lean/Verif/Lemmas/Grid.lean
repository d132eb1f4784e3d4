import Verif.Model.Grid
import Verif.Spec.Grid
import Mathlib.Algebra.Order.Floor.Semiring
import Mathlib.Data.Nat.Log
import Mathlib.Tactic.Linarith
import Mathlib.Tactic.Positivity
import Mathlib.Tactic.FieldSimp
import Mathlib.Tactic.Push

set_option linter.unusedSectionVars false
namespace Verif.Grid
open Verif.Mesh Verif.Spec.Grid

variable {K : Type} [Field K] [LinearOrder K] [IsStrictOrderedRing K] [FloorSemiring K]

theorem okb {α β : Type} (a : α) (f : α → Res β) : (Res.ok a).bind f = f a := rfl

/-- the kind of initial refinement moves refinements between the two numbers only -/
def Moved (a b : Res (List Nat × Nat × Nat)) (r : Refine) : Prop :=
  (∃ subs nb ni, a = .ok (subs, initialRefines r nb ni) ∧ b = .ok (subs, initialRefines .none nb ni)) ∨
  (a = .ub ∧ b = .ub) ∨ ∃ e, a = .exc e ∧ b = .exc e

theorem interface_moved (sizes : List K) (w e e0 : K) (r : Refine) (mp : Nat) :
    Moved (meshFromInterface sizes w e e0 r mp) (meshFromInterface sizes w e e0 .none mp) r := by
  unfold meshFromInterface
  cases h : ceilLog2 (e / e0) with
  | ub => exact .inr (.inl ⟨rfl, rfl⟩)
  | exc x => exact .inr (.inr ⟨x, rfl, rfl⟩)
  | ok s =>
    simp only [okb]
    cases h2 : adjust mp (sizes.map fun x => ⌈x / (w / e) / 2 ^ s⌉₊) with
    | ub => exact .inr (.inl ⟨rfl, rfl⟩)
    | exc x => exact .inr (.inr ⟨x, rfl, rfl⟩)
    | ok a => exact .inl ⟨a.2, a.1, s, rfl, rfl⟩

theorem radius_moved (sizes : List K) (w e rad : K) (r : Refine) (mp : Nat) :
    Moved (meshFromRadius sizes w e rad r mp) (meshFromRadius sizes w e rad .none mp) r := by
  unfold meshFromRadius
  cases h : ceilLog2 (2 * rad / (w / e)) with
  | ub => exact .inr (.inl ⟨by simp only [h]; rfl, by simp only [h]; rfl⟩)
  | exc x => exact .inr (.inr ⟨x, by simp only [h]; rfl, by simp only [h]; rfl⟩)
  | ok s =>
    simp only [h, okb]
    cases h1 : roundAll (2 * rad) sizes with
    | ub => exact .inr (.inl ⟨rfl, rfl⟩)
    | exc x => exact .inr (.inr ⟨x, rfl, rfl⟩)
    | ok subs =>
      simp only [okb]
      cases h2 : adjust mp subs with
      | ub => exact .inr (.inl ⟨rfl, rfl⟩)
      | exc x => exact .inr (.inr ⟨x, rfl, rfl⟩)
      | ok a => exact .inl ⟨a.2, a.1, s, rfl, rfl⟩

theorem refines_sum (r : Refine) (nb ni : Nat) :
    (initialRefines r nb ni).1 + (initialRefines r nb ni).2 = nb + ni := by
  cases r <;> simp [initialRefines]

theorem moved_made {a b : Res (List Nat × Nat × Nat)} {r : Refine} (h : Moved a b r) (dom : List (K × K))
    (per : Bool) {m : Made K} (hm : a.bind (hyperRectangle dom per) = .ok m) :
    ∃ m', b.bind (hyperRectangle dom per) = .ok m' ∧ m'.coarse = m.coarse ∧ m'.done = 0 ∧
      m'.remaining = m.done + m.remaining := by
  rcases h with ⟨subs, nb, ni, rfl, rfl⟩ | ⟨rfl, _⟩ | ⟨e, rfl, _⟩
  · simp only [okb, hyperRectangle] at hm ⊢
    split at hm
    · cases hm
    · rename_i h0
      cases hm
      exact ⟨_, if_neg h0, rfl, rfl, (refines_sum r nb ni).symm⟩
  · cases hm
  · cases hm

theorem createGrid_none {p : Params K} {g : Packing K} {r : Refine} {m : Made K}
    (h : createGrid p g r = .ok m) (hp : p.kind ≠ .divisions) :
    ∃ m', createGrid p g .none = .ok m' ∧ m'.coarse = m.coarse ∧ m'.done = 0 ∧
      m'.remaining = m.done + m.remaining := by
  unfold createGrid at h ⊢
  cases hk : p.kind with
  | interface =>
    simp only [hk] at h ⊢
    exact moved_made (interface_moved _ _ _ _ r _) _ _ h
  | maxRadius =>
    simp only [hk] at h ⊢
    exact moved_made (radius_moved _ _ _ _ r _) _ _ h
  | divisions => exact absurd hk hp

theorem createGrid_divisions {p : Params K} {g : Packing K} {r : Refine} {m : Made K}
    (h : createGrid p g r = .ok m) (hp : p.kind = .divisions) (r' : Refine) :
    createGrid p g r' = .ok m ∧ m.done = p.nRefinements ∧ m.remaining = 0 := by
  unfold createGrid at h ⊢
  simp only [hp] at h ⊢
  refine ⟨h, ?_⟩
  simp only [meshFromDivisions, okb, hyperRectangle] at h
  split at h
  · cases h
  · cases h; exact ⟨rfl, rfl⟩

theorem createGrid_domain {p : Params K} {g : Packing K} {r : Refine} {m : Made K}
    (h : createGrid p g r = .ok m) : m.coarse.domain = domainOf p g ∧ m.coarse.periodic = p.periodic ∧
      0 ∉ m.coarse.subs := by
  have key : ∀ (a : Res (List Nat × Nat × Nat)),
      a.bind (hyperRectangle (domainOf p g) p.periodic) = .ok m →
      m.coarse.domain = domainOf p g ∧ m.coarse.periodic = p.periodic ∧ 0 ∉ m.coarse.subs := by
    intro a ha
    obtain ⟨x, -, hx⟩ := (Res.bind_eq_ok (x := a)).1 ha
    unfold hyperRectangle at hx
    split at hx
    · cases hx
    · rename_i h0
      cases hx; exact ⟨rfl, rfl, h0⟩
  unfold createGrid at h
  cases hk : p.kind <;> simp only [hk] at h <;> exact key _ h

theorem createGrid_flexible (p : Params K) (b : Bool) (g : Packing K) (r : Refine) :
    createGrid { p with flexible := b } g r = createGrid p g r := rfl

theorem roundNat_bounds {x : K} (hx : 1 / 2 ≤ x) :
    ∃ n, roundNat x = .ok n ∧ 0 < n ∧ (n : K) ≤ x + 1 / 2 ∧ x < (n : K) + 1 / 2 := by
  refine ⟨⌊x + 1 / 2⌋₊, if_neg ?_, ?_, Nat.floor_le (by linarith), ?_⟩
  · push Not; linarith
  · exact Nat.floor_pos.2 (by linarith)
  · have := Nat.lt_floor_add_one (x + 1 / 2)
    linarith

theorem roundAll_bounds {h : K} : ∀ {sizes : List K}, (∀ x ∈ sizes, 1 / 2 ≤ x / h) →
    ∃ ns, roundAll h sizes = .ok ns ∧
      List.Forall₂ (fun x (n : Nat) => 0 < n ∧ (n : K) ≤ x / h + 1 / 2 ∧ x / h < (n : K) + 1 / 2) sizes ns
  | [], _ => ⟨[], rfl, .nil⟩
  | x :: xs, hx => by
    obtain ⟨n, hn, h1⟩ := roundNat_bounds (hx x (by simp))
    obtain ⟨ns, hns, h2⟩ := roundAll_bounds (sizes := xs) fun y hy => hx y (by simp [hy])
    exact ⟨n :: ns, by simp only [roundAll, hn, hns, okb], .cons h1 h2⟩

theorem ceilLog2_bounds {r : K} (hr : 1 / 2 < r) :
    ∃ s, ceilLog2 r = .ok s ∧ r ≤ 2 ^ s ∧ (2 : K) ^ s < 2 * r := by
  refine ⟨Nat.clog 2 ⌈r⌉₊, if_neg (not_le.2 hr), ?_, ?_⟩
  · have h1 := Nat.le_ceil r
    have h2 : ((⌈r⌉₊ : ℕ) : K) ≤ ((2 ^ Nat.clog 2 ⌈r⌉₊ : ℕ) : K) :=
      Nat.cast_le.2 (Nat.le_pow_clog (by omega) _)
    push_cast at h2
    exact h1.trans h2
  · rcases Nat.lt_or_ge 1 ⌈r⌉₊ with h | h
    · have h1 : 2 ^ (Nat.clog 2 ⌈r⌉₊).pred < ⌈r⌉₊ := Nat.pow_pred_clog_lt_self (by omega) h
      have hpos : 0 < Nat.clog 2 ⌈r⌉₊ := Nat.clog_pos (by omega) h
      have h2 : ((2 ^ (Nat.clog 2 ⌈r⌉₊).pred : ℕ) : K) < r := Nat.lt_ceil.1 h1
      push_cast at h2
      obtain ⟨k, hk⟩ : ∃ k, Nat.clog 2 ⌈r⌉₊ = k + 1 := ⟨_, (Nat.succ_pred_eq_of_pos hpos).symm⟩
      rw [hk] at h2 ⊢
      simp only [Nat.pred_succ] at h2
      rw [pow_succ]
      linarith
    · rw [Nat.clog_of_right_le_one h]
      simp only [pow_zero]
      linarith

theorem cell_bounds {x he href : K} {n s : Nat} (hhe : 0 < he) (hhr : 0 < href) (hn : 0 < n)
    (h1 : (n : K) ≤ x / href + 1 / 2) (h2 : x / href < (n : K) + 1 / 2)
    (h3 : href / he ≤ 2 ^ s) (h4 : (2 : K) ^ s < 2 * (href / he)) :
    he / 4 < cellSize x n s ∧ cellSize x n s < 3 / 2 * he := by
  unfold cellSize
  have hn1 : (1 : K) ≤ (n : K) := by exact_mod_cast hn
  have hp : (0 : K) < 2 ^ s := by positivity
  have hx : x = x / href * href := by field_simp
  generalize hy : x / href = y at h1 h2 hx
  generalize hz : href / he = z at h3 h4
  have hr : href = z * he := by rw [← hz]; field_simp
  have hzp : 0 < z := by rw [← hz]; positivity
  generalize (2 : K) ^ s = q at hp h3 h4 ⊢
  subst hx; subst hr
  have hzh : 0 < z * he := mul_pos hzp hhe
  constructor
  · rw [lt_div_iff₀ (by positivity)]
    have a1 : he / 4 * ((n : K) * q) < he / 4 * ((n : K) * (2 * z)) := by
      have : (n : K) * q < (n : K) * (2 * z) := by
        apply mul_lt_mul_of_pos_left h4; linarith
      have h8 : 0 < he / 4 := by positivity
      exact mul_lt_mul_of_pos_left this h8
    have a2 : (n : K) / 2 * (z * he) ≤ y * (z * he) :=
      mul_le_mul_of_nonneg_right (by linarith) hzh.le
    linarith
  · rw [div_lt_iff₀ (by positivity)]
    have a1 : y * (z * he) < 3 / 2 * (n : K) * (z * he) :=
      mul_lt_mul_of_pos_right (by linarith) hzh
    have a2 : 3 / 2 * (n : K) * (z * he) ≤ 3 / 2 * (n : K) * (q * he) := by
      apply mul_le_mul_of_nonneg_left _ (by positivity)
      exact mul_le_mul_of_nonneg_right h3 hhe.le
    linarith

theorem roundAll_zero {h : K} : ∀ {sizes : List K}, (∃ x ∈ sizes, x / h < 1 / 2) →
    roundAll h sizes = .ub ∨ ∃ ns, roundAll h sizes = .ok ns ∧ 0 ∈ ns
  | [], hx => by obtain ⟨x, hx, _⟩ := hx; cases hx
  | y :: ys, hx => by
    unfold roundAll
    have one : roundNat (y / h) = .ub ∨ ∃ n, roundNat (y / h) = .ok n := by
      unfold roundNat; split
      · exact .inl rfl
      · exact .inr ⟨_, rfl⟩
    rcases one with h1 | ⟨n, h1⟩
    · left; rw [h1]; rfl
    · rw [h1, okb]
      by_cases hy : y / h < 1 / 2
      · have hn0 : n = 0 := by
          unfold roundNat at h1
          split at h1
          · cases h1
          · cases h1
            exact Nat.floor_eq_zero.2 (by linarith)
        have two : ∀ l : List K, roundAll h l = .ub ∨ ∃ n, roundAll h l = .ok n := by
          intro l
          induction l with
          | nil => exact .inr ⟨_, rfl⟩
          | cons a l ih =>
            unfold roundAll roundNat
            split
            · exact .inl rfl
            · rw [okb]
              rcases ih with h | ⟨n, h⟩
              · left; rw [h]; rfl
              · right; exact ⟨_, by rw [h]; rfl⟩
        rcases two ys with h2 | ⟨ns, h2⟩
        · left; rw [h2]; rfl
        · right; exact ⟨n :: ns, by rw [h2]; rfl, by simp [hn0]⟩
      · obtain ⟨x, hxm, hx⟩ := hx
        have hm : x ∈ ys := by
          rcases List.mem_cons.1 hxm with e | e
          · exact absurd (e ▸ hx) hy
          · exact e
        rcases roundAll_zero (sizes := ys) ⟨x, hm, hx⟩ with h2 | ⟨ns, h2, h0⟩
        · left; rw [h2]; rfl
        · right; exact ⟨n :: ns, by rw [h2]; rfl, by simp [h0]⟩
end Verif.Grid
