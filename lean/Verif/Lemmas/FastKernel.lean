/-
Lemmas on the kernel of the benchmarks.
-/
import Verif.Spec.FastKernel
import Mathlib.Algebra.BigOperators.Intervals
import Mathlib.Data.List.ProdSigma
import Mathlib.Tactic.Module
import Mathlib.Tactic.Ring
import Mathlib.Tactic.Linarith

set_option linter.unusedSectionVars false
set_option linter.unusedSimpArgs false

namespace Verif.FastKernel

open Finset

section memory
variable {K M : Type} [Field K] [AddCommGroup M] [Module K M]

theorem put_same (m : Mem M) (i : Nat) (v : M) : put m i v i = v := if_pos rfl
theorem put_ne (m : Mem M) {i j : Nat} (v : M) (h : j ≠ i) : put m i v j = m j := if_neg h

/-- A loop over blocks of memory that do not overlap. -/
theorem loop_blocks {S α ι N : Type} (get : S → α → N) (f : S → ι → S) (foot : ι → α → Prop) (val : S → ι → α → N) (l : List ι)
    (hv : ∀ i ∈ l, ∀ s x, foot i x → get (f s i) x = val s i x) (hf : ∀ i ∈ l, ∀ s x, ¬ foot i x → get (f s i) x = get s x)
    (hc : ∀ i ∈ l, ∀ s s', (∀ x, foot i x → get s x = get s' x) → ∀ x, foot i x → val s i x = val s' i x)
    (hd : l.Pairwise fun i j => ∀ x, foot i x → ¬ foot j x) (s : S) :
    (∀ i ∈ l, ∀ x, foot i x → get (l.foldl f s) x = val s i x) ∧ ∀ x, (∀ i ∈ l, ¬ foot i x) → get (l.foldl f s) x = get s x := by
  induction l generalizing s with
  | nil => exact ⟨by simp, fun x _ => rfl⟩
  | cons i l ih =>
    rw [List.pairwise_cons] at hd
    obtain ⟨h1, h2⟩ := ih (fun i hi => hv i (by simp [hi])) (fun i hi => hf i (by simp [hi])) (fun i hi => hc i (by simp [hi])) hd.2 (f s i)
    constructor
    · intro j hj x hx
      rw [List.foldl_cons]
      rcases List.mem_cons.1 hj with rfl | hj
      · rw [h2 x fun k hk => hd.1 k hk x hx]
        exact hv j (by simp) s x hx
      · rw [h1 j hj x hx]
        refine hc j (by simp [hj]) _ _ (fun y hy => ?_) x hx
        exact hf i (by simp) s y fun hi => hd.1 j hj y hi hy
    · intro x hx
      rw [List.foldl_cons, h2 x fun k hk => hx k (by simp [hk])]
      exact hf i (by simp) s x (hx i (by simp))

theorem addr_eq {m i j p q : Nat} (hp : p < m) (hq : q < m) (h : i * m + p = j * m + q) : i = j ∧ p = q := by
  have e : ∀ k r, r < m → (k * m + r) / m = k := fun k r hr => by
    rw [Nat.mul_comm, Nat.mul_add_div (by omega), Nat.div_eq_of_lt hr, Nat.add_zero]
  have hij : i = j := by rw [← e i p hp, h, e j q hq]
  subst hij
  exact ⟨rfl, by omega⟩

theorem range_disjoint {α : Type} {foot : Nat → α → Prop} (N : Nat) (h : ∀ i j x, i < N → j < N → foot i x → foot j x → i = j) :
    (List.range N).Pairwise fun i j => ∀ x, foot i x → ¬ foot j x := by
  refine List.Pairwise.imp_of_mem ?_ List.pairwise_lt_range
  intro i j hi hj hij x h1 h2
  have := h i j x (List.mem_range.1 hi) (List.mem_range.1 hj) h1 h2
  omega

/-- Values at the points of a line. -/
def up (a b : K) (f : Nat → M) (p : Nat) : M := if p % 2 = 0 then a • f (p / 2) + b • f (p / 2 + 1) else a • f (p / 2 + 1) + b • f (p / 2)

theorem up_even (a b : K) (f : Nat → M) (k : Nat) : up a b f (2 * k) = a • f k + b • f (k + 1) := by
  unfold up
  rw [if_pos (by omega), show 2 * k / 2 = k by omega]

theorem up_odd (a b : K) (f : Nat → M) (k : Nat) : up a b f (2 * k + 1) = a • f (k + 1) + b • f k := by
  unfold up
  rw [if_neg (by omega), show (2 * k + 1) / 2 = k by omega]

theorem lineUp_spec (a b : K) {n : Nat} (hn : 0 < n) (rd : Nat → M) (wr : Nat → Nat) (hw : ∀ p q, p < 2 * n → q < 2 * n → wr p = wr q → p = q) (t : Mem M) :
    (∀ p, p < 2 * n → lineUp a b n rd wr t (wr p) = up a b rd p) ∧ ∀ x, (∀ p, p < 2 * n → x ≠ wr p) → lineUp a b n rd wr t x = t x := by
  have key : ∀ k, k ≤ n - 1 → (∀ p, p < 2 * k + 1 → (List.range k).foldl (fun t i0 =>
      put (put t (wr (2 * i0 + 1)) (a • rd (1 + i0) + b • rd i0)) (wr (2 * i0 + 2)) (a • rd (1 + i0) + b • rd (i0 + 2))) (put t (wr 0) (a • rd 0 + b • rd 1)) (wr p) = up a b rd p) ∧
      ∀ x, (∀ p, p < 2 * n → x ≠ wr p) → (List.range k).foldl (fun t i0 =>
      put (put t (wr (2 * i0 + 1)) (a • rd (1 + i0) + b • rd i0)) (wr (2 * i0 + 2)) (a • rd (1 + i0) + b • rd (i0 + 2))) (put t (wr 0) (a • rd 0 + b • rd 1)) x = t x := by
    intro k
    induction k with
    | zero =>
      intro _
      refine ⟨fun p hp => ?_, fun x hx => put_ne _ _ (hx 0 (by omega))⟩
      obtain rfl : p = 0 := by omega
      exact (put_same _ _ _).trans (up_even a b rd 0).symm
    | succ k ih =>
      intro hk
      obtain ⟨h1, h2⟩ := ih (by omega)
      rw [List.range_succ]
      simp only [List.foldl_append, List.foldl_cons, List.foldl_nil]
      constructor
      · intro p hp
        by_cases e2 : p = 2 * k + 2
        · subst e2
          rw [put_same, show 2 * k + 2 = 2 * (k + 1) by omega, up_even, Nat.add_comm 1 k]
        · rw [put_ne _ _ fun h => e2 (hw _ _ (by omega) (by omega) h)]
          by_cases e1 : p = 2 * k + 1
          · subst e1
            rw [put_same, up_odd, Nat.add_comm 1 k]
          · rw [put_ne _ _ fun h => e1 (hw _ _ (by omega) (by omega) h)]
            exact h1 p (by omega)
      · intro x hx
        rw [put_ne _ _ (hx _ (by omega)), put_ne _ _ (hx _ (by omega))]
        exact h2 x hx
  obtain ⟨h1, h2⟩ := key (n - 1) le_rfl
  unfold lineUp
  dsimp only
  constructor
  · intro p hp
    by_cases e : p = 2 * n - 1
    · subst e
      rw [put_same]
      obtain ⟨k, rfl⟩ : ∃ k, n = k + 1 := ⟨n - 1, by omega⟩
      rw [show 2 * (k + 1) - 1 = 2 * k + 1 by omega, up_odd]
      rfl
    · rw [put_ne _ _ fun h => e (hw _ _ (by omega) (by omega) h)]
      exact h1 p (by omega)
  · intro x hx
    rw [put_ne _ _ (hx _ (by omega))]
    exact h2 x hx

theorem planesUp_spec (a b : K) {n : Nat} (hn : 0 < n) (dof vq : Mem M) {iz py px : Nat} (hz : iz < n + 1) (hy : py < 2 * n) (hx : px < 2 * n) :
    planesUp a b n dof vq (iz * (2 * n) * (2 * n) + py * (2 * n) + px) =
      up a b (fun ky => up a b (fun kx => dof (iz * (n + 1) * (n + 1) + ky * (n + 1) + kx)) px) py := by
  have ht : ∀ iz i1 p, i1 < n + 1 → p < 2 * n → (List.range (n + 1)).foldl (fun t i1 => lineUp a b n
      (fun j => dof (iz * (n + 1) * (n + 1) + i1 * (n + 1) + j)) (fun p => i1 * (2 * n) + p) t) (fun _ => 0) (i1 * (2 * n) + p) =
      up a b (fun kx => dof (iz * (n + 1) * (n + 1) + i1 * (n + 1) + kx)) p := by
    intro iz i1 p hi hp
    have := (loop_blocks (S := Mem M) (fun m => m) (fun t i1 => lineUp a b n (fun j => dof (iz * (n + 1) * (n + 1) + i1 * (n + 1) + j)) (fun p => i1 * (2 * n) + p) t)
      (fun i x => ∃ p, p < 2 * n ∧ x = i * (2 * n) + p) (fun _ i x => up a b (fun kx => dof (iz * (n + 1) * (n + 1) + i * (n + 1) + kx)) (x - i * (2 * n))) (List.range (n + 1))
      (fun i _ s x ⟨p, hp, hx⟩ => by
        subst hx
        rw [(lineUp_spec a b hn _ _ (fun p q _ _ h => by omega) s).1 p hp, Nat.add_sub_cancel_left])
      (fun i _ s x hx => (lineUp_spec a b hn _ _ (fun p q _ _ h => by omega) s).2 x fun p hp e => hx ⟨p, hp, e⟩)
      (fun i _ s s' _ x _ => rfl)
      (range_disjoint _ fun i j x _ _ ⟨p, hp, e⟩ ⟨q, hq, e'⟩ => (addr_eq hp hq (e.symm.trans e')).1) (fun _ => 0)).1 i1 (List.mem_range.2 hi) (i1 * (2 * n) + p) ⟨p, hp, rfl⟩
    rw [this, Nat.add_sub_cancel_left]
  -- one plane
  have hp : ∀ iz (vq : Mem M), (∀ py px, py < 2 * n → px < 2 * n → ((List.range (2 * n)).foldl (fun vq i1 => lineUp a b n (fun j =>
      (List.range (n + 1)).foldl (fun t i1 => lineUp a b n (fun j => dof (iz * (n + 1) * (n + 1) + i1 * (n + 1) + j)) (fun p => i1 * (2 * n) + p) t) (fun _ => (0 : M)) (i1 + j * (2 * n)))
      (fun p => iz * (2 * n) * (2 * n) + i1 + p * (2 * n)) vq) vq) (iz * (2 * n) * (2 * n) + py * (2 * n) + px) =
      up a b (fun ky => up a b (fun kx => dof (iz * (n + 1) * (n + 1) + ky * (n + 1) + kx)) px) py) ∧
      ∀ x, (∀ py px, py < 2 * n → px < 2 * n → x ≠ iz * (2 * n) * (2 * n) + py * (2 * n) + px) → ((List.range (2 * n)).foldl (fun vq i1 => lineUp a b n (fun j =>
      (List.range (n + 1)).foldl (fun t i1 => lineUp a b n (fun j => dof (iz * (n + 1) * (n + 1) + i1 * (n + 1) + j)) (fun p => i1 * (2 * n) + p) t) (fun _ => (0 : M)) (i1 + j * (2 * n)))
      (fun p => iz * (2 * n) * (2 * n) + i1 + p * (2 * n)) vq) vq) x = vq x := by
    intro iz vq
    have hw : ∀ i p q, p < 2 * n → q < 2 * n → iz * (2 * n) * (2 * n) + i + p * (2 * n) = iz * (2 * n) * (2 * n) + i + q * (2 * n) → p = q := fun i p q _ _ h =>
      Nat.eq_of_mul_eq_mul_right (by omega : 0 < 2 * n) (by omega)
    have L := loop_blocks (S := Mem M) (fun m => m) (fun vq i1 => lineUp a b n (fun j =>
      (List.range (n + 1)).foldl (fun t i1 => lineUp a b n (fun j => dof (iz * (n + 1) * (n + 1) + i1 * (n + 1) + j)) (fun p => i1 * (2 * n) + p) t) (fun _ => (0 : M)) (i1 + j * (2 * n)))
      (fun p => iz * (2 * n) * (2 * n) + i1 + p * (2 * n)) vq) (fun i x => ∃ p, p < 2 * n ∧ x = iz * (2 * n) * (2 * n) + i + p * (2 * n))
      (fun _ i x => up a b (fun j => (List.range (n + 1)).foldl (fun t i1 => lineUp a b n (fun j => dof (iz * (n + 1) * (n + 1) + i1 * (n + 1) + j)) (fun p => i1 * (2 * n) + p) t)
        (fun _ => (0 : M)) (i + j * (2 * n))) ((x - iz * (2 * n) * (2 * n) - i) / (2 * n))) (List.range (2 * n))
      (fun i _ s x ⟨p, hp, hx⟩ => by
        subst hx
        rw [(lineUp_spec a b hn _ _ (hw i) s).1 p hp, Nat.add_assoc, Nat.add_sub_cancel_left, Nat.add_sub_cancel_left, Nat.mul_div_cancel _ (by omega)])
      (fun i _ s x hx => (lineUp_spec a b hn _ _ (hw i) s).2 x fun p hp e => hx ⟨p, hp, e⟩)
      (fun i _ s s' _ x _ => rfl)
      (range_disjoint _ fun i j x hi hj ⟨p, hp, e⟩ ⟨q, hq, e'⟩ => (addr_eq (i := p) (j := q) hi hj (by omega)).2) vq
    constructor
    · intro py px hy hx
      have := L.1 px (List.mem_range.2 hx) (iz * (2 * n) * (2 * n) + py * (2 * n) + px) ⟨py, hy, by omega⟩
      rw [this, show iz * (2 * n) * (2 * n) + py * (2 * n) + px - iz * (2 * n) * (2 * n) - px = py * (2 * n) by omega, Nat.mul_div_cancel _ (by omega)]
      have e : ∀ j, j < n + 1 → _ := fun j hj => ht iz j px hj hx
      unfold up at e ⊢
      simp only [Nat.add_comm px]
      rw [e (py / 2) (by omega), e (py / 2 + 1) (by omega)]
    · intro x hx
      exact L.2 x fun i hi ⟨p, hp, e⟩ => hx p i hp (List.mem_range.1 hi) (by omega)
  have L := loop_blocks (S := Mem M) (fun m => m) (fun vq iz =>
      (List.range (2 * n)).foldl (fun vq i1 => lineUp a b n (fun j =>
      (List.range (n + 1)).foldl (fun t i1 => lineUp a b n (fun j => dof (iz * (n + 1) * (n + 1) + i1 * (n + 1) + j)) (fun p => i1 * (2 * n) + p) t) (fun _ => (0 : M)) (i1 + j * (2 * n)))
      (fun p => iz * (2 * n) * (2 * n) + i1 + p * (2 * n)) vq) vq)
    (fun iz x => ∃ py px, py < 2 * n ∧ px < 2 * n ∧ x = iz * (2 * n) * (2 * n) + py * (2 * n) + px)
    (fun _ iz x => up a b (fun ky => up a b (fun kx => dof (iz * (n + 1) * (n + 1) + ky * (n + 1) + kx)) (x % (2 * n))) (x / (2 * n) % (2 * n))) (List.range (n + 1))
    (fun i _ s x ⟨py, px, h1, h2, e⟩ => by
      have e1 : x % (2 * n) = px := by
        rw [e, show i * (2 * n) * (2 * n) + py * (2 * n) + px = px + (2 * n) * (i * (2 * n) + py) by ring, Nat.add_mul_mod_self_left, Nat.mod_eq_of_lt h2]
      have e2 : x / (2 * n) % (2 * n) = py := by
        rw [e, show i * (2 * n) * (2 * n) + py * (2 * n) + px = px + (2 * n) * (i * (2 * n) + py) by ring, Nat.add_mul_div_left _ _ (by omega), Nat.div_eq_of_lt h2, Nat.zero_add,
          Nat.mul_comm, Nat.add_comm, Nat.add_mul_mod_self_left, Nat.mod_eq_of_lt h1]
      rw [e1, e2, e]
      exact (hp i s).1 py px h1 h2)
    (fun i _ s x hx => (hp i s).2 x fun py px h1 h2 e => hx ⟨py, px, h1, h2, e⟩)
    (fun i _ s s' _ x _ => rfl)
    (range_disjoint _ fun i j x _ _ ⟨py, px, h1, h2, e⟩ ⟨qy, qx, k1, k2, e'⟩ => by
      have := addr_eq (i := i * (2 * n) + py) (j := j * (2 * n) + qy) h2 k2 (by rw [Nat.add_mul, Nat.add_mul]; omega)
      exact (addr_eq h1 k1 this.1).1) vq
  have := L.1 iz (List.mem_range.2 hz) _ ⟨py, px, hy, hx, rfl⟩
  have e1 : (iz * (2 * n) * (2 * n) + py * (2 * n) + px) % (2 * n) = px := by
    rw [show iz * (2 * n) * (2 * n) + py * (2 * n) + px = px + (2 * n) * (iz * (2 * n) + py) by ring, Nat.add_mul_mod_self_left, Nat.mod_eq_of_lt hx]
  have e2 : (iz * (2 * n) * (2 * n) + py * (2 * n) + px) / (2 * n) % (2 * n) = py := by
    rw [show iz * (2 * n) * (2 * n) + py * (2 * n) + px = px + (2 * n) * (iz * (2 * n) + py) by ring, Nat.add_mul_div_left _ _ (by omega), Nat.div_eq_of_lt hx, Nat.zero_add,
      Nat.mul_comm, Nat.add_comm, Nat.add_mul_mod_self_left, Nat.mod_eq_of_lt hy]
  rw [e1, e2] at this
  exact this

end memory

section columns
variable {K M : Type} [Field K] [AddCommGroup M] [Module K M]

/-- State of the descending loop. -/
structure InvUp (a b g : K) (n : Nat) (ad : Nat → Nat) (v0 z0 : Mem M) (k : Nat) (s : (Mem M × Mem M) × M × M) : Prop where
  done : ∀ p, 2 * k + 1 ≤ p → p < 2 * n → s.1.1 (ad p) = up a b (fun j => v0 (ad j)) p
  left : ∀ j, j ≤ k → s.1.1 (ad j) = v0 (ad j)
  t0 : s.2.1 = v0 (ad (k + 1))
  t1 : s.2.2 = v0 (ad k)
  der : ∀ e, k < e → e < n → s.1.2 (ad (2 * e)) = g • (up a b (fun j => v0 (ad j)) (2 * e + 1) - up a b (fun j => v0 (ad j)) (2 * e)) ∧
    s.1.2 (ad (2 * e + 1)) = g • (up a b (fun j => v0 (ad j)) (2 * e + 1) - up a b (fun j => v0 (ad j)) (2 * e))
  frame : ∀ x, (∀ p, p < 2 * n → x ≠ ad p) → s.1.1 x = v0 x ∧ s.1.2 x = z0 x

theorem columnUp_loop (a b g : K) {n : Nat} (ad : Nat → Nat) (hw : ∀ p q, p < 2 * n → q < 2 * n → ad p = ad q → p = q) (v0 z0 : Mem M) (k : Nat) (hk : k < n)
    (s : (Mem M × Mem M) × M × M) (h : InvUp a b g n ad v0 z0 k s) :
    InvUp a b g n ad v0 z0 0 (((List.range k).reverse.map (· + 1)).foldl (fun (s : (Mem M × Mem M) × M × M) i0 =>
      ((put (put s.1.1 (ad (2 * i0)) (a • s.2.2 + b • s.2.1)) (ad (2 * i0 - 1)) (a • s.2.2 + b • (put s.1.1 (ad (2 * i0)) (a • s.2.2 + b • s.2.1)) (ad (i0 - 1))),
        put (put s.1.2 (ad (2 * i0)) (g • ((put s.1.1 (ad (2 * i0)) (a • s.2.2 + b • s.2.1)) (ad (2 * i0 + 1)) - (put s.1.1 (ad (2 * i0)) (a • s.2.2 + b • s.2.1)) (ad (2 * i0)))))
          (ad (2 * i0 + 1)) (g • ((put s.1.1 (ad (2 * i0)) (a • s.2.2 + b • s.2.1)) (ad (2 * i0 + 1)) - (put s.1.1 (ad (2 * i0)) (a • s.2.2 + b • s.2.1)) (ad (2 * i0))))),
        s.2.2, (put s.1.1 (ad (2 * i0)) (a • s.2.2 + b • s.2.1)) (ad (i0 - 1)))) s) := by
  induction k generalizing s with
  | zero => exact h
  | succ k ih =>
    rw [List.range_succ, List.reverse_append, List.reverse_singleton, List.singleton_append, List.map_cons, List.foldl_cons]
    refine ih (by omega) _ ?_
    have ne : ∀ p q, p < 2 * n → q < 2 * n → p ≠ q → ad p ≠ ad q := fun p q hp hq hpq e => hpq (hw p q hp hq e)
    have e1 : put s.1.1 (ad (2 * (k + 1))) (a • s.2.2 + b • s.2.1) (ad (k + 1 - 1)) = v0 (ad k) := by
      rw [put_ne _ _ (ne _ _ (by omega) (by omega) (by omega)), Nat.add_sub_cancel]
      exact h.left k (by omega)
    have e2 : put s.1.1 (ad (2 * (k + 1))) (a • s.2.2 + b • s.2.1) (ad (2 * (k + 1) + 1)) = up a b (fun j => v0 (ad j)) (2 * (k + 1) + 1) := by
      rw [put_ne _ _ (ne _ _ (by omega) (by omega) (by omega))]
      exact h.done _ (by omega) (by omega)
    have e3 : a • s.2.2 + b • s.2.1 = up a b (fun j => v0 (ad j)) (2 * (k + 1)) := by rw [up_even, h.t0, h.t1]
    rw [e1, e2, put_same, e3]
    refine ⟨?_, ?_, h.t1, rfl, ?_, ?_⟩
    · intro p hp hp'
      dsimp only
      by_cases c1 : p = 2 * (k + 1) - 1
      · subst c1
        rw [put_same, show 2 * (k + 1) - 1 = 2 * k + 1 by omega, up_odd, h.t1]
      · rw [put_ne _ _ (ne _ _ (by omega) (by omega) c1)]
        by_cases c2 : p = 2 * (k + 1)
        · subst c2
          rw [put_same]
        · rw [put_ne _ _ (ne _ _ (by omega) (by omega) c2)]
          exact h.done p (by omega) hp'
    · intro j hj
      dsimp only
      by_cases hk0 : j = 2 * (k + 1) - 1
      · omega
      · rw [put_ne _ _ (ne _ _ (by omega) (by omega) hk0), put_ne _ _ (ne _ _ (by omega) (by omega) (by omega))]
        exact h.left j (by omega)
    · intro e he he'
      dsimp only
      by_cases c : e = k + 1
      · subst c
        rw [put_same, put_ne _ _ (ne _ _ (by omega) (by omega) (by omega)), put_same]
        exact ⟨rfl, rfl⟩
      · rw [put_ne _ _ (ne _ _ (by omega) (by omega) (by omega)), put_ne _ _ (ne _ _ (by omega) (by omega) (by omega)),
          put_ne _ _ (ne _ _ (by omega) (by omega) (by omega)), put_ne _ _ (ne _ _ (by omega) (by omega) (by omega))]
        exact h.der e (by omega) he'
    · intro x hx
      dsimp only
      rw [put_ne _ _ (hx _ (by omega)), put_ne _ _ (hx _ (by omega)), put_ne _ _ (hx _ (by omega)), put_ne _ _ (hx _ (by omega))]
      exact h.frame x hx

theorem columnUp_spec (a b g : K) {n : Nat} (hn : 0 < n) (ad : Nat → Nat) (hw : ∀ p q, p < 2 * n → q < 2 * n → ad p = ad q → p = q) (s : Mem M × Mem M) :
    (∀ p, p < 2 * n → (columnUp a b g n ad s).1 (ad p) = up a b (fun j => s.1 (ad j)) p ∧
      (columnUp a b g n ad s).2 (ad p) = g • (up a b (fun j => s.1 (ad j)) (2 * (p / 2) + 1) - up a b (fun j => s.1 (ad j)) (2 * (p / 2)))) ∧
    ∀ x, (∀ p, p < 2 * n → x ≠ ad p) → (columnUp a b g n ad s).1 x = s.1 x ∧ (columnUp a b g n ad s).2 x = s.2 x := by
  have ne : ∀ p q, p < 2 * n → q < 2 * n → p ≠ q → ad p ≠ ad q := fun p q hp hq hpq e => hpq (hw p q hp hq e)
  have I0 : InvUp a b g n ad s.1 s.2 (n - 1) ((put s.1 (ad (2 * n - 1)) (a • s.1 (ad n) + b • s.1 (ad (n - 1))), s.2), s.1 (ad n), s.1 (ad (n - 1))) := by
    refine ⟨?_, ?_, ?_, rfl, ?_, ?_⟩
    · intro p hp hp'
      obtain rfl : p = 2 * n - 1 := by omega
      dsimp only
      rw [put_same]
      obtain ⟨k, rfl⟩ : ∃ k, n = k + 1 := ⟨n - 1, by omega⟩
      rw [show 2 * (k + 1) - 1 = 2 * k + 1 by omega, up_odd]
      rfl
    · intro j hj
      dsimp only
      by_cases c : j = 2 * n - 1
      · omega
      · exact put_ne _ _ (ne _ _ (by omega) (by omega) c)
    · rw [show n - 1 + 1 = n by omega]
    · intro e he he'
      omega
    · intro x hx
      exact ⟨put_ne _ _ (hx _ (by omega)), rfl⟩
  have I := columnUp_loop a b g ad hw s.1 s.2 (n - 1) (by omega) _ I0
  unfold columnUp
  dsimp only
  generalize ((List.range (n - 1)).reverse.map (· + 1)).foldl _ _ = r at I ⊢
  have e0 : a • r.2.2 + b • r.2.1 = up a b (fun j => s.1 (ad j)) 0 := by rw [show (0 : Nat) = 2 * 0 by rfl, up_even, I.t0, I.t1]
  have e1 : put r.1.1 (ad 0) (a • r.2.2 + b • r.2.1) (ad 1) = up a b (fun j => s.1 (ad j)) 1 := by
    rw [put_ne _ _ (ne _ _ (by omega) (by omega) (by omega))]
    exact I.done 1 (by omega) (by omega)
  rw [e1, put_same, e0]
  constructor
  · intro p hp
    constructor
    · by_cases c : p = 0
      · subst c; exact put_same _ _ _
      · rw [put_ne _ _ (ne _ _ (by omega) (by omega) c)]
        exact I.done p (by omega) hp
    · by_cases c : p = 0
      · subst c; exact put_same _ _ _
      · rw [put_ne _ _ (ne _ _ (by omega) (by omega) c)]
        by_cases c1 : p = 1
        · subst c1; exact put_same _ _ _
        · rw [put_ne _ _ (ne _ _ (by omega) (by omega) c1)]
          have := I.der (p / 2) (by omega) (by omega)
          rcases Nat.mod_two_eq_zero_or_one p with hm | hm
          · rw [← this.1, show 2 * (p / 2) = p by omega]
          · rw [← this.2, show 2 * (p / 2) + 1 = p by omega]
  · intro x hx
    rw [put_ne _ _ (hx _ (by omega)), put_ne _ _ (hx _ (by omega)), put_ne _ _ (hx _ (by omega))]
    exact I.frame x hx

theorem ad_inj {n i : Nat} (hn : 0 < n) : ∀ p q, p < 2 * n → q < 2 * n → i + p * (2 * n) * (2 * n) = i + q * (2 * n) * (2 * n) → p = q := by
  intro p q _ _ h
  have : p * (2 * n) * (2 * n) = q * (2 * n) * (2 * n) := by omega
  exact Nat.eq_of_mul_eq_mul_right (by omega : 0 < 2 * n) (Nat.eq_of_mul_eq_mul_right (by omega : 0 < 2 * n) this)

/-- A pair of arrays as one array. -/
def both (s : Mem M × Mem M) (x : Bool × Nat) : M := if x.1 then s.2 x.2 else s.1 x.2

theorem col_addr {n i k : Nat} (h : i < 2 * n * (2 * n)) : (i + k * (2 * n) * (2 * n)) % (2 * n * (2 * n)) = i ∧ (i + k * (2 * n) * (2 * n)) / (2 * n * (2 * n)) = k := by
  rw [Nat.mul_assoc k, Nat.mul_comm k]
  exact ⟨by rw [Nat.add_mul_mod_self_left, Nat.mod_eq_of_lt h], by rw [Nat.add_mul_div_left _ _ (by omega), Nat.div_eq_of_lt h, Nat.zero_add]⟩

theorem columnsUp_spec (a b g : K) {n : Nat} (hn : 0 < n) (s : Mem M × Mem M) {i p : Nat} (hi : i < 2 * n * (2 * n)) (hp : p < 2 * n) :
    (columnsUp a b g n s).1 (i + p * (2 * n) * (2 * n)) = up a b (fun j => s.1 (i + j * (2 * n) * (2 * n))) p ∧
      (columnsUp a b g n s).2 (i + p * (2 * n) * (2 * n)) =
        g • (up a b (fun j => s.1 (i + j * (2 * n) * (2 * n))) (2 * (p / 2) + 1) - up a b (fun j => s.1 (i + j * (2 * n) * (2 * n))) (2 * (p / 2))) := by
  have L := loop_blocks both (fun s i => columnUp a b g n (fun k => i + k * (2 * n) * (2 * n)) s) (fun i x => ∃ p, p < 2 * n ∧ x.2 = i + p * (2 * n) * (2 * n))
    (fun s i x => if x.1 then g • (up a b (fun j => s.1 (i + j * (2 * n) * (2 * n))) (2 * (x.2 / (2 * n * (2 * n)) / 2) + 1) -
        up a b (fun j => s.1 (i + j * (2 * n) * (2 * n))) (2 * (x.2 / (2 * n * (2 * n)) / 2)))
      else up a b (fun j => s.1 (i + j * (2 * n) * (2 * n))) (x.2 / (2 * n * (2 * n)))) (List.range (2 * n * (2 * n)))
    (fun i hi s x ⟨p, hp, e⟩ => by
      obtain ⟨h1, h2⟩ := (columnUp_spec a b g hn (fun k => i + k * (2 * n) * (2 * n)) (ad_inj hn) s).1 p hp
      unfold both
      rw [e, (col_addr (List.mem_range.1 hi)).2]
      split
      · exact h2
      · exact h1)
    (fun i _ s x hx => by
      obtain ⟨h1, h2⟩ := (columnUp_spec a b g hn (fun k => i + k * (2 * n) * (2 * n)) (ad_inj hn) s).2 x.2 fun p hp e => hx ⟨p, hp, e⟩
      unfold both
      rw [h1, h2])
    (fun i hi s s' h x ⟨p, hp, e⟩ => by
      have hs : ∀ j, j < 2 * n → s.1 (i + j * (2 * n) * (2 * n)) = s'.1 (i + j * (2 * n) * (2 * n)) := fun j hj => h (false, _) ⟨j, hj, rfl⟩
      rw [e, (col_addr (List.mem_range.1 hi)).2]
      have hu : ∀ q, q < 2 * n → up a b (fun j => s.1 (i + j * (2 * n) * (2 * n))) q = up a b (fun j => s'.1 (i + j * (2 * n) * (2 * n))) q := fun q hq => by
        unfold up
        dsimp only
        rw [hs (q / 2) (by omega), hs (q / 2 + 1) (by omega)]
      rw [hu _ (by omega), hu _ (by omega), hu _ (by omega)])
    (range_disjoint _ fun i j x hi hj ⟨p, hp, e⟩ ⟨q, hq, e'⟩ => by
      rw [← (col_addr (k := p) hi).1, ← (col_addr (k := q) hj).1, ← e, ← e']) s
  have h := L.1 i (List.mem_range.2 hi)
  have h1 := h (false, i + p * (2 * n) * (2 * n)) ⟨p, hp, rfl⟩
  have h2 := h (true, i + p * (2 * n) * (2 * n)) ⟨p, hp, rfl⟩
  simp only [both, (col_addr hi).2, if_true, Bool.false_eq_true, if_false] at h1 h2
  exact ⟨h1, h2⟩

/-- Contributions of the points of a line to a node. -/
def down (a b : K) (n : Nat) (f : Nat → M) (j : Nat) : M :=
  (if 0 < j then b • f (2 * j - 2) + a • f (2 * j - 1) else 0) + (if j < n then a • f (2 * j) + b • f (2 * j + 1) else 0)

/-- Value and derivative at a point of a line. -/
def plusD (g : K) (v z : Nat → M) (p : Nat) : M :=
  if p % 2 = 0 then v p - g • (z (2 * (p / 2)) + z (2 * (p / 2) + 1)) else v p + g • (z (2 * (p / 2)) + z (2 * (p / 2) + 1))

theorem plusD_even (g : K) (v z : Nat → M) (k : Nat) : plusD g v z (2 * k) = v (2 * k) - g • (z (2 * k) + z (2 * k + 1)) := by
  unfold plusD
  rw [if_pos (by omega), show 2 * k / 2 = k by omega]

theorem plusD_odd (g : K) (v z : Nat → M) (k : Nat) : plusD g v z (2 * k + 1) = v (2 * k + 1) + g • (z (2 * k) + z (2 * k + 1)) := by
  unfold plusD
  rw [if_neg (by omega), show (2 * k + 1) / 2 = k by omega]

theorem lineDown_spec (a b : K) {n : Nat} (hn : 0 < n) (rd : Nat → M) (wr : Nat → Nat) (hw : ∀ p q, p < n + 1 → q < n + 1 → wr p = wr q → p = q) (t : Mem M) :
    (∀ j, j < n + 1 → lineDown a b n rd wr t (wr j) = down a b n rd j) ∧ ∀ x, (∀ j, j < n + 1 → x ≠ wr j) → lineDown a b n rd wr t x = t x := by
  have ne : ∀ p q, p < n + 1 → q < n + 1 → p ≠ q → wr p ≠ wr q := fun p q hp hq hpq e => hpq (hw p q hp hq e)
  have key : ∀ k, k ≤ n - 1 → ∀ r : Mem M × M × M, r = ((List.range k).map (· + 1)).foldl (fun (s : Mem M × M × M) i0 =>
      (put s.1 (wr i0) (b • s.2.1 + a • s.2.2 + a • rd (2 * i0) + b • rd (2 * i0 + 1)), rd (2 * i0), rd (2 * i0 + 1))) (put t (wr 0) (a • rd 0 + b • rd 1), rd 0, rd 1) →
      r.2 = (rd (2 * k), rd (2 * k + 1)) ∧ (∀ j, j ≤ k → r.1 (wr j) = down a b n rd j) ∧ ∀ x, (∀ j, j < n + 1 → x ≠ wr j) → r.1 x = t x := by
    intro k
    induction k with
    | zero =>
      intro _ r hr
      subst hr
      refine ⟨rfl, fun j hj => ?_, fun x hx => put_ne _ _ (hx 0 (by omega))⟩
      obtain rfl : j = 0 := by omega
      refine (put_same _ _ _).trans ?_
      unfold down
      rw [if_neg (by omega), if_pos hn, zero_add]
    | succ k ih =>
      intro hk r hr
      obtain ⟨h1, h2, h3⟩ := ih (by omega) _ rfl
      rw [List.range_succ, List.map_append, List.foldl_append] at hr
      generalize ((List.range k).map (· + 1)).foldl _ _ = r0 at h1 h2 h3 hr
      simp only [List.map_cons, List.map_nil, List.foldl_cons, List.foldl_nil] at hr
      subst hr
      refine ⟨rfl, fun j hj => ?_, fun x hx => (put_ne _ _ (hx _ (by omega))).trans (h3 x hx)⟩
      by_cases c : j = k + 1
      · subst c
        refine (put_same _ _ _).trans ?_
        unfold down
        rw [if_pos (by omega), if_pos (by omega), h1, show 2 * (k + 1) - 2 = 2 * k by omega, show 2 * (k + 1) - 1 = 2 * k + 1 by omega]
        module
      · exact (put_ne _ _ (ne _ _ (by omega) (by omega) c)).trans (h2 j (by omega))
  obtain ⟨h1, h2, h3⟩ := key (n - 1) le_rfl _ rfl
  unfold lineDown
  dsimp only
  generalize ((List.range (n - 1)).map (· + 1)).foldl _ _ = r at h1 h2 h3 ⊢
  refine ⟨fun j hj => ?_, fun x hx => (put_ne _ _ (hx _ (by omega))).trans (h3 x hx)⟩
  by_cases c : j = n
  · subst c
    rw [put_same, h1]
    unfold down
    rw [if_pos hn, if_neg (by omega), add_zero, show 2 * (j - 1) = 2 * j - 2 by omega, show 2 * j - 2 + 1 = 2 * j - 1 by omega]
  · rw [put_ne _ _ (ne _ _ (by omega) (by omega) c)]
    exact h2 j (by omega)

theorem columnDown_spec (a b g : K) {n : Nat} (hn : 0 < n) (ad : Nat → Nat) (hw : ∀ p q, p < 2 * n → q < 2 * n → ad p = ad q → p = q) (z v : Mem M) :
    (∀ j, j < n + 1 → columnDown a b g n ad z v (ad j) = down a b n (plusD g (fun p => v (ad p)) fun p => z (ad p)) j) ∧
      (∀ p, n < p → p < 2 * n → columnDown a b g n ad z v (ad p) = v (ad p)) ∧ ∀ x, (∀ p, p < 2 * n → x ≠ ad p) → columnDown a b g n ad z v x = v x := by
  have ne : ∀ p q, p < 2 * n → q < 2 * n → p ≠ q → ad p ≠ ad q := fun p q hp hq hpq e => hpq (hw p q hp hq e)
  have key : ∀ k, k ≤ n - 1 → ∀ r : Mem M × M × M, r = ((List.range k).map (· + 1)).foldl (fun (s : Mem M × M × M) i0 =>
      (put s.1 (ad i0) (b • s.2.1 + a • s.2.2 + a • (s.1 (ad (2 * i0)) - g • (z (ad (2 * i0)) + z (ad (2 * i0 + 1)))) +
        b • (s.1 (ad (2 * i0 + 1)) + g • (z (ad (2 * i0)) + z (ad (2 * i0 + 1))))),
        s.1 (ad (2 * i0)) - g • (z (ad (2 * i0)) + z (ad (2 * i0 + 1))), s.1 (ad (2 * i0 + 1)) + g • (z (ad (2 * i0)) + z (ad (2 * i0 + 1)))))
      (put v (ad 0) (a • (v (ad 0) - g • (z (ad 0) + z (ad 1))) + b • (v (ad 1) + g • (z (ad 0) + z (ad 1)))), v (ad 0) - g • (z (ad 0) + z (ad 1)), v (ad 1) + g • (z (ad 0) + z (ad 1))) →
      r.2 = (plusD g (fun p => v (ad p)) (fun p => z (ad p)) (2 * k), plusD g (fun p => v (ad p)) (fun p => z (ad p)) (2 * k + 1)) ∧
      (∀ j, j ≤ k → r.1 (ad j) = down a b n (plusD g (fun p => v (ad p)) fun p => z (ad p)) j) ∧ (∀ p, k < p → p < 2 * n → r.1 (ad p) = v (ad p)) ∧
      ∀ x, (∀ j, j < 2 * n → x ≠ ad j) → r.1 x = v x := by
    intro k
    induction k with
    | zero =>
      intro _ r hr
      subst hr
      have p0 := plusD_even g (fun p => v (ad p)) (fun p => z (ad p)) 0
      have p1 := plusD_odd g (fun p => v (ad p)) (fun p => z (ad p)) 0
      simp only [Nat.mul_zero, Nat.zero_add] at p0 p1
      refine ⟨Prod.ext p0.symm p1.symm, fun j hj => ?_, fun p hp hp' => put_ne _ _ (ne _ _ hp' (by omega) (by omega)), fun x hx => put_ne _ _ (hx 0 (by omega))⟩
      obtain rfl : j = 0 := by omega
      refine (put_same _ _ _).trans ?_
      unfold down
      rw [if_neg (by omega), if_pos hn, zero_add, Nat.mul_zero, Nat.zero_add, p0, p1]
    | succ k ih =>
      intro hk r hr
      obtain ⟨h1, h2, h4, h3⟩ := ih (by omega) _ rfl
      rw [List.range_succ, List.map_append, List.foldl_append] at hr
      generalize ((List.range k).map (· + 1)).foldl _ _ = r0 at h1 h2 h3 h4 hr
      simp only [List.map_cons, List.map_nil, List.foldl_cons, List.foldl_nil] at hr
      rw [h4 (2 * (k + 1)) (by omega) (by omega), h4 (2 * (k + 1) + 1) (by omega) (by omega)] at hr
      have p0 := plusD_even g (fun p => v (ad p)) (fun p => z (ad p)) (k + 1)
      have p1 := plusD_odd g (fun p => v (ad p)) (fun p => z (ad p)) (k + 1)
      rw [← p0, ← p1] at hr
      subst hr
      refine ⟨rfl, fun j hj => ?_, fun p hp hp' => (put_ne _ _ (ne _ _ hp' (by omega) (by omega))).trans (h4 p (by omega) hp'), fun x hx => (put_ne _ _ (hx _ (by omega))).trans (h3 x hx)⟩
      by_cases c : j = k + 1
      · subst c
        refine (put_same _ _ _).trans ?_
        rw [h1]
        unfold down
        rw [if_pos (by omega), if_pos (by omega), show 2 * (k + 1) - 2 = 2 * k by omega, show 2 * (k + 1) - 1 = 2 * k + 1 by omega]
        module
      · exact (put_ne _ _ (ne _ _ (by omega) (by omega) c)).trans (h2 j (by omega))
  obtain ⟨h1, h2, h4, h3⟩ := key (n - 1) le_rfl _ rfl
  unfold columnDown
  dsimp only
  generalize ((List.range (n - 1)).map (· + 1)).foldl _ _ = r at h1 h2 h3 h4 ⊢
  refine ⟨fun j hj => ?_, fun p hp hp' => (put_ne _ _ (ne _ _ hp' (by omega) (by omega))).trans (h4 p (by omega) hp'), fun x hx => ?_⟩
  swap
  · by_cases h1n : n < 2 * n
    · exact (put_ne _ _ (hx _ h1n)).trans (h3 x hx)
    · omega
  by_cases c : j = n
  · subst c
    rw [put_same, h1]
    unfold down
    rw [if_pos hn, if_neg (by omega), add_zero, show 2 * (j - 1) = 2 * j - 2 by omega, show 2 * j - 2 + 1 = 2 * j - 1 by omega]
  · rw [put_ne _ _ (ne _ _ (by omega) (by omega) c)]
    exact h2 j (by omega)

theorem down_congr (a b : K) {n j : Nat} (hj : j < n + 1) {f f' : Nat → M} (h : ∀ p, p < 2 * n → f p = f' p) : down a b n f j = down a b n f' j := by
  unfold down
  congr 1
  · split
    · rw [h _ (by omega), h _ (by omega)]
    · rfl
  · split
    · rw [h _ (by omega), h _ (by omega)]
    · rfl

theorem columnsDown_spec (a b g : K) {n : Nat} (hn : 0 < n) (z v : Mem M) {i j : Nat} (hi : i < 2 * n * (2 * n)) (hj : j < n + 1) :
    columnsDown a b g n z v (i + j * (2 * n) * (2 * n)) =
      down a b n (plusD g (fun p => v (i + p * (2 * n) * (2 * n))) fun p => z (i + p * (2 * n) * (2 * n))) j := by
  have L := loop_blocks (S := Mem M) (fun m => m) (fun v i => columnDown a b g n (fun k => i + k * (2 * n) * (2 * n)) z v) (fun i x => ∃ p, p < 2 * n ∧ x = i + p * (2 * n) * (2 * n))
    (fun v i x => columnDown a b g n (fun k => i + k * (2 * n) * (2 * n)) z v x) (List.range (2 * n * (2 * n)))
    (fun i hi s x _ => rfl)
    (fun i _ s x hx => (columnDown_spec a b g hn (fun k => i + k * (2 * n) * (2 * n)) (ad_inj hn) z s).2.2 x fun p hp e => hx ⟨p, hp, e⟩)
    (fun i hi s s' h x ⟨p, hp, e⟩ => by
      subst e
      obtain ⟨a1, a2, _⟩ := columnDown_spec a b g hn (fun k => i + k * (2 * n) * (2 * n)) (ad_inj hn) z s
      obtain ⟨b1, b2, _⟩ := columnDown_spec a b g hn (fun k => i + k * (2 * n) * (2 * n)) (ad_inj hn) z s'
      have hs : ∀ j, j < 2 * n → s (i + j * (2 * n) * (2 * n)) = s' (i + j * (2 * n) * (2 * n)) := fun j hj => h _ ⟨j, hj, rfl⟩
      by_cases c : n < p
      · rw [a2 p c hp, b2 p c hp, hs p hp]
      · rw [a1 p (by omega), b1 p (by omega)]
        refine down_congr a b (by omega) fun q hq => ?_
        unfold plusD
        dsimp only
        rw [hs q hq])
    (range_disjoint _ fun i j x hi hj ⟨p, hp, e⟩ ⟨q, hq, e'⟩ => by
      rw [← (col_addr (k := p) hi).1, ← (col_addr (k := q) hj).1, ← e, ← e']) v
  have h := L.1 i (List.mem_range.2 hi) (i + j * (2 * n) * (2 * n)) ⟨j, by omega, rfl⟩
  exact h.trans ((columnDown_spec a b g hn (fun k => i + k * (2 * n) * (2 * n)) (ad_inj hn) z v).1 j hj)

end columns

section rest
variable {K M : Type} [Field K] [AddCommGroup M] [Module K M]

theorem planesDown_spec (a b : K) {n : Nat} (hn : 0 < n) (vq dof : Mem M) {iz jy jx : Nat} (hz : iz < n + 1) (hy : jy < n + 1) (hx : jx < n + 1) :
    planesDown a b n vq dof (iz * (n + 1) * (n + 1) + jy * (n + 1) + jx) =
      down a b n (fun px => down a b n (fun py => vq (iz * (2 * n) * (2 * n) + py * (2 * n) + px)) jy) jx := by
  have ht : ∀ iz j p, j < n + 1 → p < 2 * n → (List.range (2 * n)).foldl (fun t i1 => lineDown a b n
      (fun p => vq (iz * (2 * n) * (2 * n) + i1 + p * (2 * n))) (fun j => i1 + j * (2 * n)) t) (fun _ => 0) (p + j * (2 * n)) =
      down a b n (fun py => vq (iz * (2 * n) * (2 * n) + p + py * (2 * n))) j := by
    intro iz j p hj hp
    have hw : ∀ i p q, p < n + 1 → q < n + 1 → i + p * (2 * n) = i + q * (2 * n) → p = q := fun i p q _ _ h =>
      Nat.eq_of_mul_eq_mul_right (by omega : 0 < 2 * n) (by omega)
    have := (loop_blocks (S := Mem M) (fun m => m) (fun t i1 => lineDown a b n (fun p => vq (iz * (2 * n) * (2 * n) + i1 + p * (2 * n))) (fun j => i1 + j * (2 * n)) t)
      (fun i x => ∃ j, j < n + 1 ∧ x = i + j * (2 * n)) (fun _ i x => down a b n (fun py => vq (iz * (2 * n) * (2 * n) + i + py * (2 * n))) ((x - i) / (2 * n))) (List.range (2 * n))
      (fun i _ s x ⟨p, hp, hx⟩ => by
        subst hx
        rw [(lineDown_spec a b hn _ _ (hw i) s).1 p hp, Nat.add_sub_cancel_left, Nat.mul_div_cancel _ (by omega)])
      (fun i _ s x hx => (lineDown_spec a b hn _ _ (hw i) s).2 x fun p hp e => hx ⟨p, hp, e⟩)
      (fun i _ s s' _ x _ => rfl)
      (range_disjoint _ fun i j x hi hj ⟨p, hp, e⟩ ⟨q, hq, e'⟩ => (addr_eq (i := p) (j := q) hi hj (by omega)).2) (fun _ => 0)).1 p (List.mem_range.2 hp) (p + j * (2 * n)) ⟨j, hj, rfl⟩
    rw [this, Nat.add_sub_cancel_left, Nat.mul_div_cancel _ (by omega)]
  have hp : ∀ iz (dof : Mem M), (∀ jy jx, jy < n + 1 → jx < n + 1 → ((List.range (n + 1)).foldl (fun dof i1 => lineDown a b n (fun p =>
      (List.range (2 * n)).foldl (fun t i1 => lineDown a b n (fun p => vq (iz * (2 * n) * (2 * n) + i1 + p * (2 * n))) (fun j => i1 + j * (2 * n)) t) (fun _ => (0 : M)) (i1 * (2 * n) + p))
      (fun j => iz * (n + 1) * (n + 1) + i1 * (n + 1) + j) dof) dof) (iz * (n + 1) * (n + 1) + jy * (n + 1) + jx) =
      down a b n (fun px => down a b n (fun py => vq (iz * (2 * n) * (2 * n) + px + py * (2 * n))) jy) jx) ∧
      ∀ x, (∀ jy jx, jy < n + 1 → jx < n + 1 → x ≠ iz * (n + 1) * (n + 1) + jy * (n + 1) + jx) → ((List.range (n + 1)).foldl (fun dof i1 => lineDown a b n (fun p =>
      (List.range (2 * n)).foldl (fun t i1 => lineDown a b n (fun p => vq (iz * (2 * n) * (2 * n) + i1 + p * (2 * n))) (fun j => i1 + j * (2 * n)) t) (fun _ => (0 : M)) (i1 * (2 * n) + p))
      (fun j => iz * (n + 1) * (n + 1) + i1 * (n + 1) + j) dof) dof) x = dof x := by
    intro iz dof
    have hw : ∀ i p q, p < n + 1 → q < n + 1 → iz * (n + 1) * (n + 1) + i * (n + 1) + p = iz * (n + 1) * (n + 1) + i * (n + 1) + q → p = q := fun i p q _ _ h => by omega
    have L := loop_blocks (S := Mem M) (fun m => m) (fun dof i1 => lineDown a b n (fun p =>
      (List.range (2 * n)).foldl (fun t i1 => lineDown a b n (fun p => vq (iz * (2 * n) * (2 * n) + i1 + p * (2 * n))) (fun j => i1 + j * (2 * n)) t) (fun _ => (0 : M)) (i1 * (2 * n) + p))
      (fun j => iz * (n + 1) * (n + 1) + i1 * (n + 1) + j) dof) (fun i x => ∃ j, j < n + 1 ∧ x = iz * (n + 1) * (n + 1) + i * (n + 1) + j)
      (fun _ i x => down a b n (fun p => (List.range (2 * n)).foldl (fun t i1 => lineDown a b n (fun p => vq (iz * (2 * n) * (2 * n) + i1 + p * (2 * n))) (fun j => i1 + j * (2 * n)) t)
        (fun _ => (0 : M)) (i * (2 * n) + p)) (x - (iz * (n + 1) * (n + 1) + i * (n + 1)))) (List.range (n + 1))
      (fun i _ s x ⟨p, hp, hx⟩ => by
        subst hx
        rw [(lineDown_spec a b hn _ _ (hw i) s).1 p hp, Nat.add_sub_cancel_left])
      (fun i _ s x hx => (lineDown_spec a b hn _ _ (hw i) s).2 x fun p hp e => hx ⟨p, hp, e⟩)
      (fun i _ s s' _ x _ => rfl)
      (range_disjoint _ fun i j x hi hj ⟨p, hp, e⟩ ⟨q, hq, e'⟩ => (addr_eq hp hq (by omega)).1) dof
    constructor
    · intro jy jx hy hx
      have := L.1 jy (List.mem_range.2 hy) (iz * (n + 1) * (n + 1) + jy * (n + 1) + jx) ⟨jx, hx, rfl⟩
      rw [this, Nat.add_sub_cancel_left]
      refine down_congr a b hx fun p hp => ?_
      rw [Nat.add_comm (jy * (2 * n)) p]
      exact ht iz jy p hy hp
    · intro x hx
      exact L.2 x fun i hi ⟨p, hp, e⟩ => hx i p (List.mem_range.1 hi) hp e
  have L := loop_blocks (S := Mem M) (fun m => m) (fun dof iz => (List.range (n + 1)).foldl (fun dof i1 => lineDown a b n (fun p =>
      (List.range (2 * n)).foldl (fun t i1 => lineDown a b n (fun p => vq (iz * (2 * n) * (2 * n) + i1 + p * (2 * n))) (fun j => i1 + j * (2 * n)) t) (fun _ => (0 : M)) (i1 * (2 * n) + p))
      (fun j => iz * (n + 1) * (n + 1) + i1 * (n + 1) + j) dof) dof)
    (fun iz x => ∃ jy jx, jy < n + 1 ∧ jx < n + 1 ∧ x = iz * (n + 1) * (n + 1) + jy * (n + 1) + jx)
    (fun _ iz x => down a b n (fun px => down a b n (fun py => vq (iz * (2 * n) * (2 * n) + px + py * (2 * n))) (x / (n + 1) % (n + 1))) (x % (n + 1))) (List.range (n + 1))
    (fun i _ s x ⟨jy, jx, h1, h2, e⟩ => by
      have e1 : x % (n + 1) = jx := by
        rw [e, show i * (n + 1) * (n + 1) + jy * (n + 1) + jx = jx + (n + 1) * (i * (n + 1) + jy) by ring, Nat.add_mul_mod_self_left, Nat.mod_eq_of_lt h2]
      have e2 : x / (n + 1) % (n + 1) = jy := by
        rw [e, show i * (n + 1) * (n + 1) + jy * (n + 1) + jx = jx + (n + 1) * (i * (n + 1) + jy) by ring, Nat.add_mul_div_left _ _ (by omega), Nat.div_eq_of_lt h2, Nat.zero_add,
          Nat.mul_comm, Nat.add_comm, Nat.add_mul_mod_self_left, Nat.mod_eq_of_lt h1]
      rw [e1, e2, e]
      exact (hp i s).1 jy jx h1 h2)
    (fun i _ s x hx => (hp i s).2 x fun py px h1 h2 e => hx ⟨py, px, h1, h2, e⟩)
    (fun i _ s s' _ x _ => rfl)
    (range_disjoint _ fun i j x _ _ ⟨py, px, h1, h2, e⟩ ⟨qy, qx, k1, k2, e'⟩ => by
      have := addr_eq (i := i * (n + 1) + py) (j := j * (n + 1) + qy) h2 k2 (by rw [Nat.add_mul (i * (n + 1)), Nat.add_mul (j * (n + 1))]; omega)
      exact (addr_eq h1 k1 this.1).1) dof
  have := L.1 iz (List.mem_range.2 hz) _ ⟨jy, jx, hy, hx, rfl⟩
  have e1 : (iz * (n + 1) * (n + 1) + jy * (n + 1) + jx) % (n + 1) = jx := by
    rw [show iz * (n + 1) * (n + 1) + jy * (n + 1) + jx = jx + (n + 1) * (iz * (n + 1) + jy) by ring, Nat.add_mul_mod_self_left, Nat.mod_eq_of_lt hx]
  have e2 : (iz * (n + 1) * (n + 1) + jy * (n + 1) + jx) / (n + 1) % (n + 1) = jy := by
    rw [show iz * (n + 1) * (n + 1) + jy * (n + 1) + jx = jx + (n + 1) * (iz * (n + 1) + jy) by ring, Nat.add_mul_div_left _ _ (by omega), Nat.div_eq_of_lt hx, Nat.zero_add,
      Nat.mul_comm, Nat.add_comm, Nat.add_mul_mod_self_left, Nat.mod_eq_of_lt hy]
  rw [e1, e2] at this
  refine this.trans ?_
  simp only [Nat.add_right_comm _ _ (_ * (2 * n))]

/-- Result of the operation at a corner of a cell of two by two points. -/
def outAt (op : Nat → M → Grad M → M × Grad M) (g : K) (o : Geo K) (mm idx : Nat) (s : Mem M × Mem M) (ky kx : Nat) : M × Grad M :=
  op (idx + ky * mm + kx) (s.1 (idx + ky * mm + kx)) ((g * o.j0) • (s.1 (idx + ky * mm + 1) - s.1 (idx + ky * mm)),
    (g * o.j1) • (s.1 (idx + mm + kx) - s.1 (idx + kx)), o.j2 • s.2 (idx + ky * mm + kx))

/-- What a cell leaves at its corners. -/
def cellVal (op : Nat → M → Grad M → M × Grad M) (g : K) (o : Geo K) (mm idx : Nat) (s : Mem M × Mem M) (ky kx : Nat) : M :=
  o.jxw • (outAt op g o mm idx s ky kx).1 +
    g • ((if kx = 0 then -((o.jxw * o.j0) • (outAt op g o mm idx s ky 0).2.1 + (o.jxw * o.j0) • (outAt op g o mm idx s ky 1).2.1)
        else (o.jxw * o.j0) • (outAt op g o mm idx s ky 0).2.1 + (o.jxw * o.j0) • (outAt op g o mm idx s ky 1).2.1) +
      (if ky = 0 then -((o.jxw * o.j1) • (outAt op g o mm idx s 0 kx).2.2.1 + (o.jxw * o.j1) • (outAt op g o mm idx s 1 kx).2.2.1)
        else (o.jxw * o.j1) • (outAt op g o mm idx s 0 kx).2.2.1 + (o.jxw * o.j1) • (outAt op g o mm idx s 1 kx).2.2.1))

theorem two_cases {k : Nat} (h : k < 2) : k = 0 ∨ k = 1 := by omega

theorem cell5_spec (op : Nat → M → Grad M → M × Grad M) (g : K) (o : Geo K) {mm : Nat} (hm : 2 ≤ mm) (idx : Nat) (s : Mem M × Mem M) :
    (∀ ky kx, ky < 2 → kx < 2 → (cell5 op g o mm idx s).1 (idx + ky * mm + kx) = cellVal op g o mm idx s ky kx ∧
      (cell5 op g o mm idx s).2 (idx + ky * mm + kx) = (o.jxw * o.j2) • (outAt op g o mm idx s ky kx).2.2.2) ∧
    ∀ x, (∀ ky kx, ky < 2 → kx < 2 → x ≠ idx + ky * mm + kx) → (cell5 op g o mm idx s).1 x = s.1 x ∧ (cell5 op g o mm idx s).2 x = s.2 x := by
  have r4 : List.range 4 = [0, 1, 2, 3] := rfl
  constructor
  · intro ky kx hy hx
    unfold cell5
    rw [r4]
    simp only [List.foldl_cons, List.foldl_nil, corner, if_true, if_neg (show ¬ (1 : Nat) = 0 by omega), if_neg (show ¬ (2 : Nat) = 0 by omega),
      if_neg (show ¬ (2 : Nat) = 1 by omega), if_neg (show ¬ (3 : Nat) = 0 by omega), if_neg (show ¬ (3 : Nat) = 1 by omega), if_neg (show ¬ (3 : Nat) = 2 by omega),
      show (0 : Nat) / 2 = 0 by rfl, show (1 : Nat) / 2 = 0 by rfl, show (2 : Nat) / 2 = 1 by rfl, show (3 : Nat) / 2 = 1 by rfl,
      show (0 : Nat) % 2 = 0 by rfl, show (1 : Nat) % 2 = 1 by rfl, show (2 : Nat) % 2 = 0 by rfl, show (3 : Nat) % 2 = 1 by rfl]
    have n1 : idx + 1 ≠ idx := by omega
    have n2 : idx + mm ≠ idx := by omega
    have n3 : idx + mm + 1 ≠ idx := by omega
    have n4 : idx + mm ≠ idx + 1 := by omega
    have n5 : idx + mm + 1 ≠ idx + 1 := by omega
    have n6 : idx + mm + 1 ≠ idx + mm := by omega
    rcases two_cases hy with rfl | rfl <;> rcases two_cases hx with rfl | rfl <;>
      simp only [cellVal, outAt, Nat.zero_mul, Nat.one_mul, Nat.add_zero, put, if_true, if_neg n1, if_neg n2, if_neg n3, if_neg n4, if_neg n5, if_neg n6,
        if_neg n1.symm, if_neg n2.symm, if_neg n3.symm, if_neg n4.symm, if_neg n5.symm, if_neg n6.symm, if_neg (show ¬ (1 : Nat) = 0 by omega), and_true] <;> module
  · intro x hx
    have m0 := hx 0 0 (by omega) (by omega)
    have m1 := hx 0 1 (by omega) (by omega)
    have m2 := hx 1 0 (by omega) (by omega)
    have m3 := hx 1 1 (by omega) (by omega)
    simp only [Nat.zero_mul, Nat.one_mul, Nat.add_zero] at m0 m1 m2 m3
    unfold cell5
    rw [r4]
    simp only [List.foldl_cons, List.foldl_nil, corner, if_true, if_neg (show ¬ (1 : Nat) = 0 by omega), if_neg (show ¬ (2 : Nat) = 0 by omega),
      if_neg (show ¬ (2 : Nat) = 1 by omega), if_neg (show ¬ (3 : Nat) = 0 by omega), if_neg (show ¬ (3 : Nat) = 1 by omega), if_neg (show ¬ (3 : Nat) = 2 by omega),
      put_ne _ _ m0, put_ne _ _ m1, put_ne _ _ m2, put_ne _ _ m3, and_self]

theorem cell4_eq (g : K) (o : Geo K) {mm : Nat} (hm : 2 ≤ mm) (idx : Nat) (s : Mem M × Mem M) : cell4 g o mm idx s = cell5 helmholtz g o mm idx s := by
  have n1 : idx + 1 ≠ idx := by omega
  have n2 : idx + mm ≠ idx := by omega
  have n3 : idx + mm + 1 ≠ idx := by omega
  have n4 : idx + mm ≠ idx + 1 := by omega
  have n5 : idx + mm + 1 ≠ idx + 1 := by omega
  have n6 : idx + mm + 1 ≠ idx + mm := by omega
  obtain ⟨h1, h2⟩ := cell5_spec (helmholtz (M := M)) g o hm idx s
  have key : ∀ x, (cell4 g o mm idx s).1 x = (cell5 helmholtz g o mm idx s).1 x ∧ (cell4 g o mm idx s).2 x = (cell5 helmholtz g o mm idx s).2 x := by
    intro x
    by_cases hx : ∃ ky kx, ky < 2 ∧ kx < 2 ∧ x = idx + ky * mm + kx
    · obtain ⟨ky, kx, hy, hx, rfl⟩ := hx
      obtain ⟨e1, e2⟩ := h1 ky kx hy hx
      rw [e1, e2]
      unfold cell4
      rcases two_cases hy with rfl | rfl <;> rcases two_cases hx with rfl | rfl <;>
        simp only [cellVal, outAt, helmholtz, Nat.zero_mul, Nat.one_mul, Nat.add_zero, put, if_true, if_neg n1, if_neg n2, if_neg n3, if_neg n4, if_neg n5, if_neg n6,
          if_neg n1.symm, if_neg n2.symm, if_neg n3.symm, if_neg n4.symm, if_neg n5.symm, if_neg n6.symm, if_neg (show ¬ (1 : Nat) = 0 by omega)] <;>
        constructor <;> module
    · have hx' : ∀ ky kx, ky < 2 → kx < 2 → x ≠ idx + ky * mm + kx := fun ky kx hy hk e => hx ⟨ky, kx, hy, hk, e⟩
      rw [(h2 x hx').1, (h2 x hx').2]
      have m0 := hx' 0 0 (by omega) (by omega)
      have m1 := hx' 0 1 (by omega) (by omega)
      have m2 := hx' 1 0 (by omega) (by omega)
      have m3 := hx' 1 1 (by omega) (by omega)
      simp only [Nat.zero_mul, Nat.one_mul, Nat.add_zero] at m0 m1 m2 m3
      unfold cell4
      simp only [put_ne _ _ m0, put_ne _ _ m1, put_ne _ _ m2, put_ne _ _ m3, and_self]
  exact Prod.ext (funext fun x => (key x).1) (funext fun x => (key x).2)

theorem first_corner (n : Nat) (c : Nat × Nat × Nat) (ky kx : Nat) :
    first n c + ky * (2 * n) + kx = c.1 * (2 * n) * (2 * n) + (2 * c.2.1 + ky) * (2 * n) + (2 * c.2.2 + kx) := by
  unfold first
  ring

theorem cells_spec (op : Nat → M → Grad M → M × Grad M) (g : K) (o : Geo K) {n : Nat} (hn : 0 < n) (s : Mem M × Mem M) {c : Nat × Nat × Nat} (hz : c.1 < 2 * n) (hy : c.2.1 < n)
    (hx : c.2.2 < n) {ky kx : Nat} (h1 : ky < 2) (h2 : kx < 2) :
    ((cells n).foldl (fun s c => cell5 op g o (2 * n) (first n c) s) s).1 (first n c + ky * (2 * n) + kx) = cellVal op g o (2 * n) (first n c) s ky kx ∧
      ((cells n).foldl (fun s c => cell5 op g o (2 * n) (first n c) s) s).2 (first n c + ky * (2 * n) + kx) =
        (o.jxw * o.j2) • (outAt op g o (2 * n) (first n c) s ky kx).2.2.2 := by
  have mem : ∀ c, c ∈ cells n ↔ c.1 < 2 * n ∧ c.2.1 < n ∧ c.2.2 < n := fun c => by
    unfold cells
    rw [show c = (c.1, c.2.1, c.2.2) by rfl, List.pair_mem_product, List.pair_mem_product]
    simp
  have nd : (cells n).Nodup := List.Nodup.product List.nodup_range (List.Nodup.product List.nodup_range List.nodup_range)
  have L := loop_blocks both (fun s c => cell5 op g o (2 * n) (first n c) s) (fun c x => ∃ ky kx, ky < 2 ∧ kx < 2 ∧ x.2 = first n c + ky * (2 * n) + kx)
    (fun s c x => both (cell5 op g o (2 * n) (first n c) s) x) (cells n) (fun _ _ _ _ _ => rfl)
    (fun c _ s x hx => by
      obtain ⟨e1, e2⟩ := (cell5_spec op g o (by omega : 2 ≤ 2 * n) (first n c) s).2 x.2 fun ky kx h1 h2 e => hx ⟨ky, kx, h1, h2, e⟩
      unfold both
      rw [e1, e2])
    (fun c _ s s' h x ⟨ky, kx, h1, h2, e⟩ => by
      obtain ⟨e1, e2⟩ := (cell5_spec op g o (by omega : 2 ≤ 2 * n) (first n c) s).1 ky kx h1 h2
      obtain ⟨f1, f2⟩ := (cell5_spec op g o (by omega : 2 ≤ 2 * n) (first n c) s').1 ky kx h1 h2
      have hv : ∀ ky kx, ky < 2 → kx < 2 → s.1 (first n c + ky * (2 * n) + kx) = s'.1 (first n c + ky * (2 * n) + kx) := fun ky kx h1 h2 => h (false, _) ⟨ky, kx, h1, h2, rfl⟩
      have hw : ∀ ky kx, ky < 2 → kx < 2 → s.2 (first n c + ky * (2 * n) + kx) = s'.2 (first n c + ky * (2 * n) + kx) := fun ky kx h1 h2 => h (true, _) ⟨ky, kx, h1, h2, rfl⟩
      have ho : ∀ ky kx, ky < 2 → kx < 2 → outAt op g o (2 * n) (first n c) s ky kx = outAt op g o (2 * n) (first n c) s' ky kx := fun ky kx h1 h2 => by
        unfold outAt
        have a0 := hv ky 0 h1 (by omega)
        have a1 := hv 0 kx (by omega) h2
        have a2 := hv 1 kx (by omega) h2
        simp only [Nat.zero_mul, Nat.one_mul, Nat.add_zero] at a0 a1 a2
        rw [hv ky kx h1 h2, hw ky kx h1 h2, hv ky 1 h1 (by omega), a0, a1, a2]
      have hc : cellVal op g o (2 * n) (first n c) s ky kx = cellVal op g o (2 * n) (first n c) s' ky kx := by
        unfold cellVal
        rw [ho ky kx h1 h2, ho ky 0 h1 (by omega), ho ky 1 h1 (by omega), ho 0 kx (by omega) h2, ho 1 kx (by omega) h2]
      unfold both
      rw [e, e1, e2, f1, f2, hc, ho ky kx h1 h2])
    (List.Pairwise.imp_of_mem (fun {c c'} hc hc' hne x ⟨ky, kx, h1, h2, e⟩ ⟨qy, qx, k1, k2, e'⟩ => by
      obtain ⟨b1, b2, b3⟩ := (mem c).1 hc
      obtain ⟨d1, d2, d3⟩ := (mem c').1 hc'
      rw [e] at e'
      rw [first_corner, first_corner, ← Nat.add_mul, ← Nat.add_mul] at e'
      obtain ⟨i1, i2⟩ := addr_eq (by omega) (by omega) e'
      obtain ⟨i3, i4⟩ := addr_eq (by omega) (by omega) i1
      exact hne (Prod.ext i3 (Prod.ext (by omega) (by omega)))) nd) s
  have h := L.1 c ((mem c).2 ⟨hz, hy, hx⟩)
  have e1 := h (false, first n c + ky * (2 * n) + kx) ⟨ky, kx, h1, h2, rfl⟩
  have e2 := h (true, first n c + ky * (2 * n) + kx) ⟨ky, kx, h1, h2, rfl⟩
  obtain ⟨f1, f2⟩ := (cell5_spec op g o (by omega : 2 ≤ 2 * n) (first n c) s).1 ky kx h1 h2
  simp only [both, if_true, Bool.false_eq_true, if_false] at e1 e2
  exact ⟨e1.trans f1, e2.trans f2⟩

end rest

end Verif.FastKernel
