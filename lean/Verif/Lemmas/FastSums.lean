/-
Lemmas on the kernel of the benchmarks: sums over shape functions and points.
-/
import Verif.Lemmas.FastKernel

set_option linter.unusedSectionVars false

namespace Verif.FastKernel

open Finset Verif.FastKernel.Spec

variable {K M : Type} [Field K] [LinearOrder K] [IsStrictOrderedRing K] [AddCommGroup M] [Module K M]

theorem hat_node {n : Nat} (hn : 0 < n) (j e : Nat) : hat (K := K) n j ((e : K) / n) = if j = e then 1 else 0 := by
  have h0 : (n : K) ≠ 0 := Nat.cast_ne_zero.2 (by omega)
  unfold hat
  rw [mul_div_cancel₀ _ h0]
  split
  · rename_i h
    subst h
    simp
  · rename_i h
    refine max_eq_left ?_
    rcases Nat.lt_or_gt_of_ne h with h | h
    · have : (j : K) + 1 ≤ e := by exact_mod_cast h
      have := le_abs_self ((e : K) - j)
      linarith
    · have : (e : K) + 1 ≤ j := by exact_mod_cast h
      have := neg_le_abs ((e : K) - j)
      linarith

theorem slope_table {n : Nat} (hn : 0 < n) (j p : Nat) : slope (K := K) n j p = (if j = p / 2 + 1 then (n : K) else 0) - if j = p / 2 then (n : K) else 0 := by
  unfold slope
  rw [hat_node hn, hat_node hn]
  split <;> split <;> first | omega | simp

theorem val_table {xi : K} (h0 : 0 ≤ xi) (h1 : xi ≤ 1) {n : Nat} (hn : 0 < n) (j p : Nat) :
    val xi n j p = (if j = p / 2 then (if p % 2 = 0 then 1 - xi else xi) else 0) + if j = p / 2 + 1 then (if p % 2 = 0 then xi else 1 - xi) else 0 := by
  have hne : (n : K) ≠ 0 := Nat.cast_ne_zero.2 (by omega)
  have key : ∀ s : K, 0 ≤ s → s ≤ 1 → hat n j ((((p / 2 : Nat) : K) + s) / n) = (if j = p / 2 then 1 - s else 0) + if j = p / 2 + 1 then s else 0 := by
    intro s hs hs'
    unfold hat
    rw [mul_div_cancel₀ _ hne]
    generalize p / 2 = e
    by_cases c : j = e
    · subst c
      rw [if_pos rfl, if_neg (by omega), add_sub_cancel_left, abs_of_nonneg hs, add_zero]
      exact max_eq_right (by linarith)
    · rw [if_neg c]
      by_cases c' : j = e + 1
      · subst c'
        rw [if_pos rfl, Nat.cast_add, Nat.cast_one, show (e : K) + s - (e + 1) = -(1 - s) by ring, abs_neg, abs_of_nonneg (by linarith), zero_add]
        rw [max_eq_right (by linarith)]
        ring
      · rw [if_neg c', add_zero]
        refine max_eq_left ?_
        rcases Nat.lt_or_gt_of_ne c with h | h
        · have : (j : K) + 1 ≤ e := by exact_mod_cast h
          have := le_abs_self ((e : K) + s - j)
          linarith
        · have : (e : K) + 1 + 1 ≤ j := by
            have : e + 1 + 1 ≤ j := by omega
            exact_mod_cast this
          have := neg_le_abs ((e : K) + s - j)
          linarith
  unfold Spec.val pos
  by_cases c : p % 2 = 0
  · simp only [if_pos c]
    exact key xi h0 h1
  · simp only [if_neg c]
    rw [key (1 - xi) (by linarith) (by linarith), sub_sub_cancel]

theorem val_first {xi : K} (h0 : 0 ≤ xi) (h1 : xi ≤ 1) {n : Nat} (hn : 0 < n) : val xi n 0 0 = 1 - xi ∧ val xi n 0 1 = xi := by
  constructor
  · rw [val_table h0 h1 hn]; simp
  · rw [val_table h0 h1 hn]; simp

/-- Derivatives are differences of values at the two points of a part. -/
theorem val_slope {xi : K} (h0 : 0 ≤ xi) (h1 : xi ≤ 1) (h2 : 1 - xi - xi ≠ 0) {n : Nat} (hn : 0 < n) (j p : Nat) :
    (val xi n j (2 * (p / 2) + 1) - val xi n j (2 * (p / 2))) * (n / (1 - xi - xi)) = slope n j p := by
  rw [val_table h0 h1 hn, val_table h0 h1 hn, slope_table hn, if_neg (show ¬ (2 * (p / 2) + 1) % 2 = 0 by omega), if_neg (show ¬ (2 * (p / 2) + 1) % 2 = 0 by omega),
    if_pos (show 2 * (p / 2) % 2 = 0 by omega), if_pos (show 2 * (p / 2) % 2 = 0 by omega), show (2 * (p / 2) + 1) / 2 = p / 2 by omega, show 2 * (p / 2) / 2 = p / 2 by omega,
    mul_div_assoc', div_eq_iff h2]
  by_cases c : j = p / 2
  · rw [if_pos c, if_pos c, if_pos c, if_neg (by omega), if_neg (by omega), if_neg (by omega)]
    ring
  · rw [if_neg c, if_neg c, if_neg c]
    by_cases c' : j = p / 2 + 1
    · rw [if_pos c', if_pos c', if_pos c']
      ring
    · rw [if_neg c', if_neg c', if_neg c']
      ring

theorem up_sum {xi : K} (h0 : 0 ≤ xi) (h1 : xi ≤ 1) {n : Nat} (hn : 0 < n) (f : Nat → M) {p : Nat} (hp : p < 2 * n) :
    up (1 - xi) xi f p = ∑ j ∈ range (n + 1), val xi n j p • f j := by
  simp only [val_table h0 h1 hn, add_smul, sum_add_distrib, ite_smul, zero_smul]
  rw [sum_ite_eq', sum_ite_eq', if_pos (mem_range.2 (by omega)), if_pos (mem_range.2 (by omega))]
  unfold up
  split
  · rfl
  · rw [add_comm]

theorem sum_pairs (n : Nat) (F : Nat → M) : ∑ p ∈ range (2 * n), F p = ∑ e ∈ range n, (F (2 * e) + F (2 * e + 1)) := by
  induction n with
  | zero => rfl
  | succ n ih => rw [show 2 * (n + 1) = 2 * n + 1 + 1 by omega, sum_range_succ, sum_range_succ, ih, sum_range_succ, add_assoc]

theorem down_sum {xi : K} (h0 : 0 ≤ xi) (h1 : xi ≤ 1) {n : Nat} (hn : 0 < n) (f : Nat → M) {j : Nat} (hj : j < n + 1) :
    down (1 - xi) xi n f j = ∑ p ∈ range (2 * n), val xi n j p • f p := by
  have e : ∀ e, val xi n j (2 * e) • f (2 * e) + val xi n j (2 * e + 1) • f (2 * e + 1) =
      (if j = e + 1 then xi • f (2 * e) + (1 - xi) • f (2 * e + 1) else 0) + if j = e then (1 - xi) • f (2 * e) + xi • f (2 * e + 1) else 0 := by
    intro e
    rw [val_table h0 h1 hn, val_table h0 h1 hn, if_pos (show 2 * e % 2 = 0 by omega), if_pos (show 2 * e % 2 = 0 by omega), if_neg (show ¬ (2 * e + 1) % 2 = 0 by omega),
      if_neg (show ¬ (2 * e + 1) % 2 = 0 by omega), show 2 * e / 2 = e by omega, show (2 * e + 1) / 2 = e by omega]
    split <;> split <;> module
  rw [sum_pairs, sum_congr rfl fun k _ => e k, sum_add_distrib, sum_ite_eq]
  unfold down
  congr 1
  · cases j with
    | zero =>
      rw [if_neg (by omega)]
      refine (sum_eq_zero fun k _ => ?_).symm
      rw [if_neg (by omega)]
    | succ k =>
      rw [if_pos (by omega)]
      simp only [Nat.add_right_cancel_iff]
      rw [sum_ite_eq, if_pos (mem_range.2 (by omega)), show 2 * (k + 1) - 2 = 2 * k by omega, show 2 * (k + 1) - 1 = 2 * k + 1 by omega]
  · simp only [mem_range]

/-- Only derivatives. -/
theorem der_sum {xi : K} (h0 : 0 ≤ xi) (h1 : xi ≤ 1) (h2 : 1 - xi - xi ≠ 0) {n : Nat} (hn : 0 < n) (h : Nat → M) (j : Nat) :
    ∑ p ∈ range (2 * n), val xi n j p • plusD (n / (1 - xi - xi) : K) (fun _ => 0) h p = ∑ p ∈ range (2 * n), slope (K := K) n j p • h p := by
  rw [sum_pairs, sum_pairs]
  refine sum_congr rfl fun e _ => ?_
  rw [plusD_even, plusD_odd]
  have k1 := val_slope h0 h1 h2 hn j (2 * e)
  have k2 := val_slope h0 h1 h2 hn j (2 * e + 1)
  rw [show 2 * e / 2 = e by omega] at k1
  rw [show (2 * e + 1) / 2 = e by omega] at k2
  rw [← k1, ← k2]
  module

theorem plusD_split (g : K) (v h : Nat → M) (p : Nat) : plusD g v h p = v p + plusD g (fun _ => 0) h p := by
  unfold plusD
  split <;> module

theorem flatten (A B C : Finset Nat) (a b c : Nat → K) (F : Nat → Nat → Nat → M) :
    ∑ i ∈ A, a i • ∑ j ∈ B, b j • ∑ k ∈ C, c k • F i j k = ∑ i ∈ A, ∑ j ∈ B, ∑ k ∈ C, (a i * b j * c k) • F i j k := by
  refine sum_congr rfl fun i _ => ?_
  rw [smul_sum]
  refine sum_congr rfl fun j _ => ?_
  rw [smul_smul, smul_sum]
  refine sum_congr rfl fun k _ => ?_
  rw [smul_smul]

variable {xi : K} (h0 : 0 ≤ xi) (h1 : xi ≤ 1) (h2 : 1 - xi - xi ≠ 0) {n : Nat} (hn : 0 < n)
include h0 h1 h2 hn

/-- Values at the points after interpolation. -/
theorem values_field (old : Mem M × Mem M) (u : Mem M) {pz py px : Nat} (hz : pz < 2 * n) (hy : py < 2 * n) (hx : px < 2 * n) :
    (columnsUp (1 - xi) xi (n / (1 - xi - xi)) n (planesUp (1 - xi) xi n u old.1, old.2)).1 (point n (pz, py, px)) = field n (val xi n) (val xi n) (val xi n) u (pz, py, px) ∧
    (columnsUp (1 - xi) xi (n / (1 - xi - xi)) n (planesUp (1 - xi) xi n u old.1, old.2)).2 (point n (pz, py, px)) = field n (slope n) (val xi n) (val xi n) u (pz, py, px) := by
  have hi : py * (2 * n) + px < 2 * n * (2 * n) := by
    have : (py + 1) * (2 * n) ≤ 2 * n * (2 * n) := Nat.mul_le_mul_right _ (by omega)
    rw [Nat.add_mul] at this
    omega
  have ha : point n (pz, py, px) = py * (2 * n) + px + pz * (2 * n) * (2 * n) := by unfold point; ring
  obtain ⟨e1, e2⟩ := columnsUp_spec (1 - xi) xi (n / (1 - xi - xi)) hn (planesUp (1 - xi) xi n u old.1, old.2) hi hz
  have hW : ∀ kz, kz < n + 1 → planesUp (1 - xi) xi n u old.1 (py * (2 * n) + px + kz * (2 * n) * (2 * n)) =
      ∑ ky ∈ range (n + 1), val xi n ky py • ∑ kx ∈ range (n + 1), val xi n kx px • u (node n (kz, ky, kx)) := by
    intro kz hk
    rw [show py * (2 * n) + px + kz * (2 * n) * (2 * n) = kz * (2 * n) * (2 * n) + py * (2 * n) + px by ring, planesUp_spec _ _ hn _ _ hk hy hx, up_sum h0 h1 hn _ hy]
    refine sum_congr rfl fun ky _ => ?_
    rw [up_sum h0 h1 hn _ hx]
    rfl
  have hU : ∀ q, q < 2 * n → up (1 - xi) xi (fun j => planesUp (1 - xi) xi n u old.1 (py * (2 * n) + px + j * (2 * n) * (2 * n))) q =
      ∑ kz ∈ range (n + 1), val xi n kz q • ∑ ky ∈ range (n + 1), val xi n ky py • ∑ kx ∈ range (n + 1), val xi n kx px • u (node n (kz, ky, kx)) := by
    intro q hq
    rw [up_sum h0 h1 hn _ hq]
    exact sum_congr rfl fun kz hk => by rw [hW kz (mem_range.1 hk)]
  rw [ha, e1, e2]
  constructor
  · rw [hU pz hz, flatten]
    rfl
  · rw [hU _ (by omega), hU _ (by omega), ← sum_sub_distrib, smul_sum]
    refine (sum_congr rfl fun kz _ => ?_).trans (flatten _ _ _ (fun kz => slope n kz pz) _ _ _)
    rw [← val_slope h0 h1 h2 hn kz pz]
    module

omit h0 h1 h2 hn in
theorem field_congr (f e d : Nat → Nat → K) (u : Mem M) (p q : Nat × Nat × Nat) (h : ∀ kz ky kx, f kz p.1 * e ky p.2.1 * d kx p.2.2 = f kz q.1 * e ky q.2.1 * d kx q.2.2) :
    field n f e d u p = field n f e d u q := by
  unfold field
  simp only [h]

theorem field_dx (u : Mem M) (pz py px : Nat) :
    ((n : K) / (1 - xi - xi)) • (field n (val xi n) (val xi n) (val xi n) u (pz, py, 2 * (px / 2) + 1) - field n (val xi n) (val xi n) (val xi n) u (pz, py, 2 * (px / 2))) =
      field n (val xi n) (val xi n) (slope n) u (pz, py, px) := by
  unfold field
  rw [← sum_sub_distrib, smul_sum]
  refine sum_congr rfl fun kz _ => ?_
  rw [← sum_sub_distrib, smul_sum]
  refine sum_congr rfl fun ky _ => ?_
  rw [← sum_sub_distrib, smul_sum]
  refine sum_congr rfl fun kx _ => ?_
  rw [← val_slope h0 h1 h2 hn kx px]
  module

theorem field_dy (u : Mem M) (pz py px : Nat) :
    ((n : K) / (1 - xi - xi)) • (field n (val xi n) (val xi n) (val xi n) u (pz, 2 * (py / 2) + 1, px) - field n (val xi n) (val xi n) (val xi n) u (pz, 2 * (py / 2), px)) =
      field n (val xi n) (slope n) (val xi n) u (pz, py, px) := by
  unfold field
  rw [← sum_sub_distrib, smul_sum]
  refine sum_congr rfl fun kz _ => ?_
  rw [← sum_sub_distrib, smul_sum]
  refine sum_congr rfl fun ky _ => ?_
  rw [← sum_sub_distrib, smul_sum]
  refine sum_congr rfl fun kx _ => ?_
  rw [← val_slope h0 h1 h2 hn ky py]
  module

/-- The operation at the points. -/
theorem outAt_eq (op : Nat → M → Grad M → M × Grad M) (o : Geo K) (old : Mem M × Mem M) (u : Mem M) {pz i1 i0 : Nat} (hz : pz < 2 * n) (hy : i1 < n) (hx : i0 < n) {ky kx : Nat}
    (k1 : ky < 2) (k2 : kx < 2) :
    outAt op (n / (1 - xi - xi)) o (2 * n) (first n (pz, i1, i0)) (columnsUp (1 - xi) xi (n / (1 - xi - xi)) n (planesUp (1 - xi) xi n u old.1, old.2)) ky kx =
      atPoint op xi n o u (pz, 2 * i1 + ky, 2 * i0 + kx) := by
  have ad : ∀ ky kx, first n (pz, i1, i0) + ky * (2 * n) + kx = point n (pz, 2 * i1 + ky, 2 * i0 + kx) := fun ky kx => first_corner n (pz, i1, i0) ky kx
  have ad0 : ∀ ky, first n (pz, i1, i0) + ky * (2 * n) = point n (pz, 2 * i1 + ky, 2 * i0 + 0) := fun ky => ad ky 0
  have ad1 : ∀ kx, first n (pz, i1, i0) + 2 * n + kx = point n (pz, 2 * i1 + 1, 2 * i0 + kx) := fun kx => by have := ad 1 kx; rwa [Nat.one_mul] at this
  have ad2 : ∀ kx, first n (pz, i1, i0) + kx = point n (pz, 2 * i1 + 0, 2 * i0 + kx) := fun kx => by have := ad 0 kx; rwa [Nat.zero_mul, Nat.add_zero] at this
  have dx := field_dx h0 h1 h2 hn u pz (2 * i1 + ky) (2 * i0 + kx)
  have dy := field_dy h0 h1 h2 hn u pz (2 * i1 + ky) (2 * i0 + kx)
  rw [show (2 * i0 + kx) / 2 = i0 by omega] at dx
  rw [show (2 * i1 + ky) / 2 = i1 by omega] at dy
  unfold outAt atPoint
  rw [ad, ad, ad0, ad1, ad2, (values_field h0 h1 h2 hn old u hz (by omega) (by omega)).1, (values_field h0 h1 h2 hn old u hz (by omega) (by omega)).1,
    (values_field h0 h1 h2 hn old u hz (by omega) (by omega)).1, (values_field h0 h1 h2 hn old u hz (by omega) (by omega)).1,
    (values_field h0 h1 h2 hn old u hz (by omega) (by omega)).1, (values_field h0 h1 h2 hn old u hz (by omega) (by omega)).2, ← dx, ← dy]
  congr 2
  · rw [mul_comm, mul_smul]
    rfl
  · congr 1
    rw [mul_comm, mul_smul]
    rfl

/-- What the loop over the points leaves. -/
theorem stage_eq (op : Nat → M → Grad M → M × Grad M) (o : Geo K) (old : Mem M × Mem M) (u : Mem M) {pz py px : Nat} (hz : pz < 2 * n) (hy : py < 2 * n) (hx : px < 2 * n) :
    ((cells n).foldl (fun s c => cell5 op (n / (1 - xi - xi)) o (2 * n) (first n c) s)
      (columnsUp (1 - xi) xi (n / (1 - xi - xi)) n (planesUp (1 - xi) xi n u old.1, old.2))).1 (point n (pz, py, px)) =
      o.jxw • (atPoint op xi n o u (pz, py, px)).1 +
        plusD (n / (1 - xi - xi) : K) (fun _ => 0) (fun px => (o.jxw * o.j0) • (atPoint op xi n o u (pz, py, px)).2.1) px +
        plusD (n / (1 - xi - xi) : K) (fun _ => 0) (fun py => (o.jxw * o.j1) • (atPoint op xi n o u (pz, py, px)).2.2.1) py ∧
    ((cells n).foldl (fun s c => cell5 op (n / (1 - xi - xi)) o (2 * n) (first n c) s)
      (columnsUp (1 - xi) xi (n / (1 - xi - xi)) n (planesUp (1 - xi) xi n u old.1, old.2))).2 (point n (pz, py, px)) =
      (o.jxw * o.j2) • (atPoint op xi n o u (pz, py, px)).2.2.2 := by
  obtain ⟨i1, ky, hk, rfl, hi1⟩ : ∃ i1 ky, ky < 2 ∧ 2 * i1 + ky = py ∧ i1 < n := ⟨py / 2, py % 2, by omega, by omega, by omega⟩
  obtain ⟨i0, kx, hl, rfl, hi0⟩ : ∃ i0 kx, kx < 2 ∧ 2 * i0 + kx = px ∧ i0 < n := ⟨px / 2, px % 2, by omega, by omega, by omega⟩
  obtain ⟨e1, e2⟩ := cells_spec op (n / (1 - xi - xi)) o hn (columnsUp (1 - xi) xi (n / (1 - xi - xi)) n (planesUp (1 - xi) xi n u old.1, old.2)) (c := (pz, i1, i0)) hz hi1 hi0 hk hl
  rw [first_corner] at e1 e2
  have ho : ∀ ky kx, ky < 2 → kx < 2 → _ := fun ky kx => outAt_eq h0 h1 h2 hn op o old u hz hi1 hi0 (ky := ky) (kx := kx)
  refine ⟨e1.trans ?_, e2.trans (by rw [ho ky kx hk hl])⟩
  unfold cellVal
  rw [ho ky kx hk hl, ho ky 0 hk (by omega), ho ky 1 hk (by omega), ho 0 kx (by omega) hl, ho 1 kx (by omega) hl]
  unfold plusD
  rw [show (2 * i0 + kx) / 2 = i0 by omega, show (2 * i1 + ky) / 2 = i1 by omega]
  simp only [Nat.add_zero]
  rcases two_cases hk with rfl | rfl <;> rcases two_cases hl with rfl | rfl
  · rw [if_pos rfl, if_pos rfl, if_pos (by omega), if_pos (by omega)]
    module
  · rw [if_neg (by omega), if_pos rfl, if_neg (by omega), if_pos (by omega)]
    module
  · rw [if_pos rfl, if_neg (by omega), if_pos (by omega), if_neg (by omega)]
    module
  · rw [if_neg (by omega), if_neg (by omega), if_neg (by omega), if_neg (by omega)]
    module

/-- The kernel is the weak form. -/
theorem kernel_weak (op : Nat → M → Grad M → M × Grad M) (o : Geo K) (old : Mem M × Mem M) (u : Mem M) {jz jy jx : Nat} (hz : jz < n + 1) (hy : jy < n + 1) (hx : jx < n + 1) :
    (kernel (1 - xi) xi (n / (1 - xi - xi)) n (cell5 op (n / (1 - xi - xi)) o (2 * n)) old u).1 (node n (jz, jy, jx)) = weak op xi n o u (jz, jy, jx) := by
  unfold kernel
  dsimp only
  have S := fun pz py px => stage_eq h0 h1 h2 hn op o old u (pz := pz) (py := py) (px := px)
  generalize (cells n).foldl _ _ = s at S ⊢
  unfold node
  rw [planesDown_spec _ _ hn _ _ hz hy hx, down_sum h0 h1 hn _ hx]
  have step : ∀ px ∈ range (2 * n), ∀ py ∈ range (2 * n),
      columnsDown (1 - xi) xi (n / (1 - xi - xi)) n s.2 s.1 (jz * (2 * n) * (2 * n) + py * (2 * n) + px) =
        ∑ pz ∈ range (2 * n), val xi n jz pz • (o.jxw • (atPoint op xi n o u (pz, py, px)).1 +
          plusD (n / (1 - xi - xi) : K) (fun _ => 0) (fun px => (o.jxw * o.j0) • (atPoint op xi n o u (pz, py, px)).2.1) px +
          plusD (n / (1 - xi - xi) : K) (fun _ => 0) (fun py => (o.jxw * o.j1) • (atPoint op xi n o u (pz, py, px)).2.2.1) py) +
        ∑ pz ∈ range (2 * n), slope (K := K) n jz pz • ((o.jxw * o.j2) • (atPoint op xi n o u (pz, py, px)).2.2.2) := by
    intro px hpx py hpy
    rw [mem_range] at hpx hpy
    have hi : py * (2 * n) + px < 2 * n * (2 * n) := by
      have : (py + 1) * (2 * n) ≤ 2 * n * (2 * n) := Nat.mul_le_mul_right _ (by omega)
      rw [Nat.add_mul] at this
      omega
    have ha : ∀ pz, py * (2 * n) + px + pz * (2 * n) * (2 * n) = point n (pz, py, px) := fun pz => by unfold point; ring
    rw [show jz * (2 * n) * (2 * n) + py * (2 * n) + px = py * (2 * n) + px + jz * (2 * n) * (2 * n) by ring, columnsDown_spec _ _ _ hn _ _ hi hz]
    simp only [ha]
    rw [down_sum h0 h1 hn _ hz, ← der_sum h0 h1 h2 hn (fun pz => (o.jxw * o.j2) • (atPoint op xi n o u (pz, py, px)).2.2.2), ← sum_add_distrib]
    refine sum_congr rfl fun pz hpz => ?_
    rw [mem_range] at hpz
    rw [← smul_add]
    congr 1
    rw [plusD_split]
    congr 1
    · exact (S pz py px hpz hpy hpx).1
    · unfold plusD
      dsimp only
      rw [(S (2 * (pz / 2)) py px (by omega) hpy hpx).2, (S (2 * (pz / 2) + 1) py px (by omega) hpy hpx).2]
  have e1 : ∀ px ∈ range (2 * n), val xi n jx px • down (1 - xi) xi n (fun py => columnsDown (1 - xi) xi (n / (1 - xi - xi)) n s.2 s.1 (jz * (2 * n) * (2 * n) + py * (2 * n) + px)) jy =
      val xi n jx px • ∑ py ∈ range (2 * n), val xi n jy py • (∑ pz ∈ range (2 * n), val xi n jz pz • (o.jxw • (atPoint op xi n o u (pz, py, px)).1 +
          plusD (n / (1 - xi - xi) : K) (fun _ => 0) (fun px => (o.jxw * o.j0) • (atPoint op xi n o u (pz, py, px)).2.1) px +
          plusD (n / (1 - xi - xi) : K) (fun _ => 0) (fun py => (o.jxw * o.j1) • (atPoint op xi n o u (pz, py, px)).2.2.1) py) +
        ∑ pz ∈ range (2 * n), slope (K := K) n jz pz • ((o.jxw * o.j2) • (atPoint op xi n o u (pz, py, px)).2.2.2)) := by
    intro px hpx
    rw [down_sum h0 h1 hn _ hy]
    congr 1
    exact sum_congr rfl fun py hpy => by rw [step px hpx py hpy]
  rw [sum_congr rfl e1]
  simp only [smul_add, sum_add_distrib]
  unfold weak
  dsimp only
  simp only [smul_add, sum_add_distrib]
  have rot : ∀ (F : Nat → Nat → Nat → M), ∑ px ∈ range (2 * n), ∑ py ∈ range (2 * n), ∑ pz ∈ range (2 * n), F px py pz =
      ∑ pz ∈ range (2 * n), ∑ py ∈ range (2 * n), ∑ px ∈ range (2 * n), F px py pz := by
    intro F
    rw [sum_comm]
    rw [sum_congr rfl fun py _ => sum_comm]
    rw [sum_comm]
  rw [flatten, flatten, flatten, flatten]
  congr 1
  · congr 1
    · congr 1
      · refine (rot _).trans (sum_congr rfl fun pz _ => ?_)
        refine sum_congr rfl fun py _ => sum_congr rfl fun px _ => ?_
        module
      · refine (rot _).trans (sum_congr rfl fun pz _ => ?_)
        refine sum_congr rfl fun py _ => ?_
        have := der_sum h0 h1 h2 hn (fun px => (o.jxw * o.j0) • (atPoint op xi n o u (pz, py, px)).2.1) jx
        calc _ = (val xi n jy py * val xi n jz pz) • ∑ px ∈ range (2 * n), val xi n jx px • plusD (n / (1 - xi - xi) : K) (fun _ => 0) (fun px => (o.jxw * o.j0) • (atPoint op xi n o u (pz, py, px)).2.1) px := by
              rw [smul_sum]
              exact sum_congr rfl fun px _ => by module
          _ = _ := by
              rw [this, smul_sum]
              exact sum_congr rfl fun px _ => by module
    · refine (rot _).trans (sum_congr rfl fun pz _ => ?_)
      refine sum_comm.trans (Eq.trans (sum_congr rfl fun px _ => ?_) sum_comm)
      have := der_sum h0 h1 h2 hn (fun py => (o.jxw * o.j1) • (atPoint op xi n o u (pz, py, px)).2.2.1) jy
      calc _ = (val xi n jx px * val xi n jz pz) • ∑ py ∈ range (2 * n), val xi n jy py • plusD (n / (1 - xi - xi) : K) (fun _ => 0) (fun py => (o.jxw * o.j1) • (atPoint op xi n o u (pz, py, px)).2.2.1) py := by
            rw [smul_sum]
            exact sum_congr rfl fun px _ => by module
        _ = _ := by
            rw [this, smul_sum]
            exact sum_congr rfl fun px _ => by module
  · refine (rot _).trans (sum_congr rfl fun pz _ => ?_)
    refine sum_congr rfl fun py _ => sum_congr rfl fun px _ => ?_
    module

omit [LinearOrder K] [IsStrictOrderedRing K] h0 h1 h2 hn in
theorem scatter (c : Nat → Nat) (k : Mem M) (N : Nat) (dst : Mem M) (i : Nat) :
    (List.range N).foldl (fun dst i => put dst (c i) (dst (c i) + k i)) dst i = dst i + ∑ j ∈ range N, if c j = i then k j else 0 := by
  induction N with
  | zero => simp
  | succ N ih =>
    rw [List.range_succ, List.foldl_append, List.foldl_cons, List.foldl_nil, sum_range_succ]
    by_cases h : c N = i
    · rw [if_pos h, ← h, put_same, h, ih, add_assoc]
    · rw [if_neg h, put_ne _ _ (Ne.symm h), ih, add_zero]

omit [LinearOrder K] [IsStrictOrderedRing K] h0 h1 h2 hn in
theorem sum_blocks (a b : Nat) (F : Nat → M) : ∑ i ∈ range (a * b), F i = ∑ i ∈ range a, ∑ j ∈ range b, F (i * b + j) := by
  induction a with
  | zero => simp
  | succ a ih => rw [Nat.succ_mul, sum_range_add, ih, sum_range_succ]

/-- The loop over the cells, whatever the arrays held before. -/
theorem fold_assembled (op : Nat → M → Grad M → M × Grad M) (o : Geo K) (src : Mem M) (cs : List (Nat → Nat)) (r : Mem M × Mem M × Mem M) (i : Nat) :
    (cs.foldl (fun (r : Mem M × Mem M × Mem M) c =>
      let k := kernel (1 - xi) xi (n / (1 - xi - xi)) n (cell5 op (n / (1 - xi - xi)) o (2 * n)) r.2 fun i => src (c i)
      ((List.range ((n + 1) * (n + 1) * (n + 1))).foldl (fun dst i => put dst (c i) (dst (c i) + k.1 i)) r.1, k.2)) r).1 i =
      r.1 i + assembled op xi n (cs.map fun c => (o, c)) src i := by
  induction cs generalizing r with
  | nil => exact (add_zero _).symm
  | cons c cs ih =>
    rw [List.foldl_cons, ih]
    dsimp only
    rw [scatter, sum_blocks, sum_blocks]
    unfold assembled
    rw [List.map_cons, List.map_cons, List.sum_cons, ← add_assoc]
    congr 2
    refine sum_congr rfl fun kz hz => sum_congr rfl fun ky hy => sum_congr rfl fun kx hx => ?_
    rw [mem_range] at hz hy hx
    rw [show (kz * (n + 1) + ky) * (n + 1) + kx = node n (kz, ky, kx) by unfold node; ring, kernel_weak h0 h1 h2 hn op o r.2 _ hz hy hx]

end Verif.FastKernel
