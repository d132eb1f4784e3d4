/-
C140: all blocks of all past solutions are transferred to the new mesh, the error is estimated from the order parameters of the current solution, and the
residual finds as many blocks as it reads.
-/
import Verif.Lemmas.HistBlocks
import Verif.Props.History

namespace Verif.Props

open Verif.HistBlocks
open Verif.History (Hist Pass)
open Verif.History.Spec (Ready past)

variable {B : Type}

/-- The refinement for all histories: every block of every vector is transferred and the estimate uses the blocks from `off` to `nOP` of the current
solution, or an access is out of range - exactly if the total number of blocks is no multiple of the number of components. -/
theorem C140_refine (T : B → B) (n off nOP : Nat) (cur : List B) (olds : List (List B)) (hn : 0 < n) (ho : off ≤ nOP) (hc : nOP ≤ cur.length) :
    (n ∣ (cur :: olds).flatten.length → refineAll T n off nOP (cur :: olds) = .ok ((cur :: olds).map (List.map T), (cur.take nOP).drop off)) ∧
    (¬ n ∣ (cur :: olds).flatten.length → refineAll T n off nOP (cur :: olds) = .ub) := by
  have hlen : (cur :: olds).flatten.length = cur.length + olds.flatten.length := by simp
  have hest : view (cur :: olds).flatten off (nOP - off) = .ok ((cur.take nOP).drop off) := by
    rw [view_ok _ _ _ (by omega), List.flatten_cons, List.drop_append_of_le_length (by omega),
      List.take_append_of_le_length (by rw [List.length_drop]; omega), List.drop_take]
  constructor
  · intro hd
    obtain ⟨v, hv⟩ := views_ok (cur :: olds).flatten n hn hd
    unfold refineAll
    simp only [hest, Res.ok_bind, hv, interpolate_ok T n hn, split_flatten]
    rfl
  · intro hd
    unfold refineAll
    simp only [hest, Res.ok_bind, views_ub (cur :: olds).flatten n hn hd]
    rfl

theorem flatten_length_eq (l : List (List B)) (n : Nat) (h : ∀ v ∈ l, v.length = n) : l.flatten.length = l.length * n := by
  induction l with
  | nil => simp
  | cons v l ih =>
    rw [List.flatten_cons, List.length_append, h v (by simp), ih fun w hw => h w (by simp [hw]), List.length_cons, Nat.succ_mul, Nat.add_comm]

/-- In particular if all vectors have the components of the operator. -/
theorem C140_uniform (T : B → B) (n off nOP : Nat) (cur : List B) (olds : List (List B)) (hn : 0 < n) (ho : off ≤ nOP) (hc : nOP ≤ n)
    (hu : ∀ v ∈ cur :: olds, v.length = n) :
    refineAll T n off nOP (cur :: olds) = .ok ((cur :: olds).map (List.map T), (cur.take nOP).drop off) ∧
      ∀ k ≤ n, readAll k olds = .ok (olds.map (List.take k)) := by
  constructor
  · refine (C140_refine T n off nOP cur olds hn ho (by rw [hu cur (by simp)]; exact hc)).1 ?_
    rw [flatten_length_eq _ n hu]
    exact Nat.dvd_mul_left _ _
  · intro k hk
    refine Res.mapM_eq _ _ _ ?_
    intro v hv
    rw [view_ok _ _ _ (by rw [hu v (by simp [hv])]; omega), List.drop_zero]

/-- If the tracker changes the number of components from `m` to `n` inside of a step, the history contains a vector with the old number: the next
refinement is defined exactly if `n` divides `m`, the next residual exactly if `n` is not larger than `m` (all histories, steps, remappings). -/
theorem C140_inner (a : Pass (List B)) (c : Bool) (h : Hist (List B)) (hr : Ready h) (sol : List B) (R : List B → List B)
    (ho : a.outcome = .success sol (some R)) (hm : a.more = []) (m n off nOP : Nat) (T : B → B) (hn : 0 < n) (hoff : off ≤ nOP) (hop : nOP ≤ n)
    (hR : ∀ v : List B, v.length = m → (R v).length = n) (hs : sol.length = m) (hold : h.old ≠ [])
    (hb : ∀ v ∈ Verif.History.Spec.begin a c (past h), v.length = m) :
    ∃ h' s, Verif.History.pass a c h = .ok (h', true, s) ∧ Ready h' ∧
      ((∃ r, refineAll T n off nOP (past h') = .ok r) ↔ n ∣ m) ∧
      ((∃ r, readAll n (past h') = .ok r) ↔ n ≤ m) := by
  obtain ⟨q, ql, h', s, h1, hl, hp, hready, hpast, _⟩ := C139_inner a c h hr sol R ho hm
  rw [h1] at hb
  have hq : q.length = m := hb q (by simp)
  have hne : ql ≠ [] := by
    intro h0; rw [h0] at hl; exact hold (List.length_eq_zero_iff.mp hl.symm)
  have hql : ∀ v ∈ (ql.map R).dropLast, v.length = n := by
    intro v hv
    obtain ⟨x, hx, rfl⟩ := List.mem_map.mp ((List.dropLast_sublist _).subset hv)
    exact hR x (hb x (by simp [hx]))
  have hdrop : (q :: ql.map R).dropLast = q :: (ql.map R).dropLast := by
    rw [List.dropLast_cons_of_ne_nil (by simpa using hne)]
  rw [hdrop] at hpast
  refine ⟨h', s, hp, hready, ?_, ?_⟩
  · rw [hpast]
    have hk := C140_refine T n off nOP (R sol) (q :: (ql.map R).dropLast) hn hoff (by rw [hR sol hs]; exact hop)
    have hdv : n ∣ (R sol :: q :: (ql.map R).dropLast).flatten.length ↔ n ∣ m := by
      rw [List.flatten_cons, List.length_append, hR sol hs, List.flatten_cons, List.length_append, hq, flatten_length_eq _ n hql]
      have : n + (m + (ql.map R).dropLast.length * n) = m + n * (1 + (ql.map R).dropLast.length) := by
        rw [Nat.mul_add, Nat.mul_one, Nat.mul_comm n]; omega
      rw [this]
      exact (Nat.dvd_add_iff_left (Nat.dvd_mul_right _ _)).symm
    rw [hdv] at hk
    constructor
    · rintro ⟨r, hr2⟩
      by_contra hd
      rw [hk.2 hd] at hr2
      cases hr2
    · intro hd; exact ⟨_, hk.1 hd⟩
  · rw [hpast]
    constructor
    · rintro ⟨r, hr2⟩
      by_contra hlt
      have hub : readAll n (R sol :: q :: (ql.map R).dropLast) = .ub := by
        refine Res.mapM_ub _ _ (fun v _ => view_or v 0 n) ⟨q, by simp, view_ub _ _ _ (by omega) hn⟩
      rw [hub] at hr2
      cases hr2
    · intro hle
      refine ⟨_, Res.mapM_eq _ _ (List.take n) ?_⟩
      intro v hv
      have : n ≤ v.length := by
        simp only [List.mem_cons] at hv
        rcases hv with rfl | rfl | hv
        · rw [hR sol hs]
        · rw [hq]; exact hle
        · rw [hql v hv]
      rw [view_ok _ _ _ (by omega), List.drop_zero]

namespace Ex140

/-- Concentration, potential, three order parameters; one vanishes. -/
def drop (v : List Nat) : List Nat := v.take 4

def pass : Pass (List Nat) := ⟨id, none, none, none, .success [1, 2, 3, 4, 5] (some drop), none, []⟩

def start : Hist (List Nat) := ⟨⟨[11, 12, 13, 14, 15], none⟩, ⟨[], none⟩, [⟨[21, 22, 23, 24, 25], some [21, 22, 23, 24, 25]⟩]⟩

def result : Hist (List Nat) :=
  ⟨⟨[1, 2, 3, 4], none⟩, ⟨[11, 12, 13, 14, 15], none⟩, [⟨[11, 12, 13, 14, 15], some [11, 12, 13, 14, 15]⟩]⟩

example : Ready start := ⟨rfl, by decide⟩

/-- The refinement that follows reads behind the end of the blocks. -/
theorem C140_inner_violated : (∃ s, Verif.History.pass pass true start = .ok (result, true, s)) ∧
    refineAll (· + 100) 4 2 4 (past result) = .ub := by
  refine ⟨⟨_, rfl⟩, by decide⟩

example : refineAll (· + 100) 4 2 4 [[1, 2, 3, 4], [11, 12, 13, 14]] = .ok ([[101, 102, 103, 104], [111, 112, 113, 114]], [3, 4]) := by decide

/-- The hypotheses of the theorem on the tracker inside of a step, for a number that grows. -/
example : ∃ h' s, Verif.History.pass { pass with outcome := .success [1, 2, 3, 4, 5] (some fun v => v ++ [0]) } true start = .ok (h', true, s) ∧ Ready h' ∧
    ((∃ r, refineAll (· + 100) 6 2 6 (past h') = .ok r) ↔ 6 ∣ 5) ∧ ((∃ r, readAll 6 (past h') = .ok r) ↔ 6 ≤ 5) := by
  refine C140_inner _ _ _ ⟨rfl, by decide⟩ _ _ rfl rfl 5 6 2 6 _ (by decide) (by decide) (by decide) ?_ rfl (by decide) (by decide)
  intro v hv
  simp [hv]

end Ex140

end Verif.Props
