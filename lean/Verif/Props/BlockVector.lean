import Verif.Lemmas.BlockArith
import Mathlib.Algebra.Order.Ring.Rat
import Mathlib.Algebra.Field.Rat
/-! # Block vectors: C17, C18, C19 -/
namespace Verif.Props
open Verif
variable {B K : Type}

/-! ## C17 -/

/-- Insertion puts the block at the given position and keeps the others in order; every other position
is undefined. -/
theorem C17_insert (d : B) (l : List B) (b : B) (i : Nat) :
    (i ≤ l.length → insertBlocks d l b i = .ok (l.take i ++ [b] ++ l.drop i)) ∧
    (¬ i ≤ l.length → insertBlocks d l b i = .ub) :=
  ⟨fun h => by rw [insertBlocks_ok d b h]; simp, fun h => insertBlocks_ub d b h⟩

/-- Removal takes out exactly the block at the given position. -/
theorem C17_remove (l : List B) (i : Nat) :
    (∀ h : i < l.length, removeBlocks l i = .ok (l.take i ++ l.drop (i + 1), l[i])) ∧
    (¬ i < l.length → removeBlocks l i = .ub) :=
  ⟨fun h => removeBlocks_ok h, fun h => removeBlocks_ub h⟩

/-- Inserting and removing at the same position is the identity and hands back the block. -/
theorem C17_insert_remove (d : B) (l : List B) (b : B) (i : Nat) (h : i ≤ l.length) :
    (insertBlocks d l b i >>= fun m => removeBlocks m i) = .ok (l, b) := by
  have hl : i < (l.take i ++ b :: l.drop i).length := by
    simp only [List.length_append, List.length_take, List.length_cons, List.length_drop]
    omega
  rw [insertBlocks_ok d b h, Res.ok_bind, removeBlocks_ok hl, take_insert_drop h]
  congr 2
  rw [List.getElem_append_right (by rw [List.length_take]; omega)]
  simp [Nat.min_eq_left h]

/-- Removing and reinserting restores the vector. -/
theorem C17_remove_insert (d : B) (l : List B) (i : Nat) (h : i < l.length) :
    (removeBlocks l i >>= fun r => insertBlocks d r.1 r.2 i) = .ok l := by
  have hl : i ≤ (l.take i ++ l.drop (i + 1)).length := by
    simp only [List.length_append, List.length_take, List.length_drop]
    omega
  rw [removeBlocks_ok h, Res.ok_bind, insertBlocks_ok d _ hl]
  simp only
  rw [take_remove_insert h]

/-- Moving is removing and inserting. -/
theorem C17_move (d : B) (l : List B) (i j : Nat) (hi : i < l.length) (hj : j < l.length) :
    moveBlocks l i j = (removeBlocks l i >>= fun r => insertBlocks d r.1 r.2 j) := by
  have hl : j ≤ (l.take i ++ l.drop (i + 1)).length := by
    simp only [List.length_append, List.length_take, List.length_drop]
    omega
  rw [moveBlocks_ok hi hj, removeBlocks_ok hi, Res.ok_bind, insertBlocks_ok d _ hl]

/-- The move is defined exactly for positions in range. -/
theorem C17_move_range (l : List B) (i j : Nat) :
    (∃ r, moveBlocks l i j = .ok r) ↔ i < l.length ∧ j < l.length :=
  ⟨fun ⟨_, h⟩ => moveBlocks_range h, fun ⟨hi, hj⟩ => ⟨_, moveBlocks_ok hi hj⟩⟩

/-- Resizing yields the requested number of blocks, keeps the leading ones, and new ones are zero
vectors laid out like the first block. -/
theorem C17_reinit [Zero K] (l : List (List K)) (n : Nat) :
    (reinitBlocks l n).length = n ∧
    (∀ i : Nat, i < n → i < l.length → (reinitBlocks l n)[i]? = l[i]?) ∧
    (∀ i : Nat, i < n → l.length ≤ i → ∃ z, (reinitBlocks l n)[i]? = some z ∧
      z.length = (l.head?.map List.length).getD 0 ∧ ∀ x ∈ z, x = 0) := by
  refine ⟨?_, ?_, ?_⟩
  · simp only [reinitBlocks, List.length_append, List.length_take, List.length_replicate]; omega
  · intro i h1 h2
    rw [reinitBlocks, List.getElem?_append_left (by rw [List.length_take]; omega),
      List.getElem?_take_of_lt h1]
  · intro i h1 h2
    refine ⟨List.replicate (l.headD []).length 0, ?_, ?_, ?_⟩
    · rw [reinitBlocks, List.getElem?_append_right (by rw [List.length_take]; omega),
        List.length_take, List.getElem?_replicate, if_pos (by omega)]
    · cases l <;> simp
    · intro x hx; exact (List.mem_replicate.1 hx).2

/-- Stripping the stationary blocks keeps the blocks at all other positions in order, hands back the
stationary blocks, and putting them back restores the vector. -/
theorem C17_strip_restore (d : B) (l : List B) (idx : List Nat) (hs : idx.Pairwise (· < ·))
    (hr : ∀ i ∈ idx, i < l.length) :
    ∃ kept bs, stripBlocks l idx = .ok (kept, bs) ∧
      kept = (l.zipIdx.filter fun p => decide (p.2 ∉ idx)).map Prod.fst ∧
      bs.map some = idx.map (l[·]?) ∧
      restoreBlocks d kept idx bs = .ok l := by
  obtain ⟨bs, h1, h2⟩ := stripBlocks_ok l idx hs hr
  refine ⟨_, bs, h1, rfl, h2, ?_⟩
  clear h2
  induction idx using List.reverseRecOn generalizing l bs with
  | nil =>
    have : bs = [] := by simp [stripBlocks, keptBlocks_nil] at h1; exact h1
    subst this
    change restoreBlocks d (keptBlocks l []) [] [] = _
    rw [keptBlocks_nil]
    rfl
  | append_singleton idx i ih =>
    rw [List.pairwise_append] at hs
    have hi : i < l.length := hr i (by simp)
    have hlt : ∀ j ∈ idx, j < i := fun j hj => hs.2.2 j hj i (by simp)
    have hr' : ∀ j ∈ idx, j < (l.take i ++ l.drop (i + 1)).length := by
      intro j hj
      have := hlt j hj
      simp only [List.length_append, List.length_take, List.length_drop]
      omega
    obtain ⟨bs', g1, g2⟩ := stripBlocks_ok (l.take i ++ l.drop (i + 1)) idx hs.1 hr'
    have hlen : idx.length = bs'.length := by
      have := congrArg List.length g2; simpa using this.symm
    rw [stripBlocks_concat, removeBlocks_ok hi, Res.ok_bind] at h1
    simp only [g1, Res.ok_bind, Res.pure_def, Res.ok.injEq, Prod.mk.injEq] at h1
    obtain ⟨_, rfl⟩ := h1
    have := ih (l.take i ++ l.drop (i + 1)) hs.1 hr' bs' g1
    change restoreBlocks d (keptBlocks _ _) _ _ = _ at this
    change restoreBlocks d (keptBlocks _ _) _ _ = _
    rw [restoreBlocks_concat _ _ _ _ _ _ hlen, keptBlocks_remove hi hlt, this, Res.ok_bind,
      insertBlocks_ok _ _ (by
        simp only [List.length_append, List.length_take, List.length_drop]; omega),
      take_remove_insert hi]

/-- Whatever the integrator leaves in the other blocks, after putting the stationary blocks back they
are at their positions and the other blocks are in order (this is also the inner round trip, insertion
before and removal after the evaluation of the right-hand side). -/
theorem C17_restore_strip (d : B) (l : List B) (idx : List Nat) (bs : List B)
    (hs : idx.Pairwise (· < ·)) (hlen : idx.length = bs.length)
    (hr : ∀ k i : Nat, idx[k]? = some i → i ≤ l.length + k) :
    ∃ r, restoreBlocks d l idx bs = .ok r ∧ stripBlocks r idx = .ok (l, bs) ∧
      idx.map (r[·]?) = bs.map some ∧
      (r.zipIdx.filter fun p => decide (p.2 ∉ idx)).map Prod.fst = l := by
  obtain ⟨r, h1, h2, h3⟩ := restoreBlocks_ok d l idx bs hs hlen hr
  have hr' : ∀ i ∈ idx, i < r.length := by
    intro i hi
    obtain ⟨k, hk⟩ := List.getElem?_of_mem hi
    have := hr k i hk
    have := (List.getElem?_eq_some_iff.1 hk).1
    omega
  obtain ⟨bs', g1, g2⟩ := stripBlocks_ok r idx hs hr'
  rw [h3] at g1
  simp only [Res.ok.injEq, Prod.mk.injEq] at g1
  obtain ⟨e1, rfl⟩ := g1
  exact ⟨r, h1, h3, g2.symm, e1.symm⟩

namespace Ex17

example : insertBlocks 0 [1, 2, 3] 9 1 = .ok [1, 9, 2, 3] := by decide
example : removeBlocks [1, 9, 2, 3] 1 = .ok ([1, 2, 3], 9) := by decide
example : moveBlocks [1, 2, 3, 4] 0 2 = .ok [2, 3, 1, 4] := by decide
example : moveBlocks [1, 2, 3, 4] 3 1 = .ok [1, 4, 2, 3] := by decide
example : moveBlocks [1, 2] 0 2 = .ub := by decide
example : reinitBlocks [[1, 2], [3, 4]] 3 = [[1, 2], [3, 4], [0, (0 : Rat)]] := by decide +kernel
example : stripBlocks [10, 11, 12, 13, 14] [1, 3] = .ok ([10, 12, 14], [11, 13]) := by decide
example : restoreBlocks 0 [20, 22, 24] [1, 3] [11, 13] = .ok [20, 11, 22, 13, 24] := by decide
/-- the hypotheses of the round trip are met -/
example : ∃ kept bs, stripBlocks [10, 11, 12, 13, 14] [1, 3] = .ok (kept, bs) ∧
    restoreBlocks 0 kept [1, 3] bs = .ok [10, 11, 12, 13, 14] := by
  obtain ⟨k, b, h, _, _, h2⟩ := C17_strip_restore 0 [10, 11, 12, 13, 14] [1, 3] (by decide) (by decide)
  exact ⟨k, b, h, h2⟩
/-- the order of the indices matters: with descending stationary indices the wrong block is taken -/
example : stripBlocks [10, 11, 12] [1, 0] = .ok ([11], [12, 10]) := by decide

end Ex17

/-! ## C18 -/

/-- Operations after which the index table is right: moving blocks is harmless only among blocks of the
same size, as `move_block` does not recompute the table. -/
def HarmlessOp (v : DBV K) : DBV.Op K → Prop
  | .move _ _ => ∀ a ∈ v.blocks, ∀ b ∈ v.blocks, a.length = b.length
  | _ => True

/-- Global indices address the concatenation of the blocks after every history of operations that moves
blocks of equal sizes only; an index beyond the end is undefined. -/
theorem C18_access_partial [Zero K] (ops : List (DBV.Op K)) (v : DBV K) (hv : DBV.run ops = .ok v)
    (hh : ∀ (pre : List (DBV.Op K)) op post w, ops = pre ++ op :: post → DBV.run pre = .ok w →
      HarmlessOp w op) :
    v.size = v.blocks.flatten.length ∧ ∀ i, v.get i = Res.index v.blocks.flatten i := by
  have hc : v.Consistent := by
    induction ops using List.reverseRecOn generalizing v with
    | nil =>
      simp [DBV.run] at hv
      subst hv; rfl
    | append_singleton ops op ih =>
      unfold DBV.run at hv
      rw [List.foldlM_append, Res.bind_eq_ok] at hv
      obtain ⟨w, hw, hs⟩ := hv
      rw [List.foldlM_cons, Res.bind_eq_ok] at hs
      obtain ⟨u, hs, hu⟩ := hs
      simp only [List.foldlM_nil, Res.pure_def, Res.ok.injEq] at hu
      subst hu
      have hwc : w.Consistent := ih w hw (by
        intro pre o post x e hx
        exact hh pre o (post ++ [op]) x (by rw [e]; simp) hx)
      have hop := hh ops op [] w rfl hw
      cases op with
      | reinit n => simp only [DBV.step, Res.ok.injEq] at hs; subst hs; rfl
      | insert b i =>
        simp only [DBV.step, Res.bind_eq_ok, Res.pure_def, Res.ok.injEq] at hs
        obtain ⟨l, _, rfl⟩ := hs; rfl
      | remove i =>
        simp only [DBV.step, Res.bind_eq_ok, Res.pure_def, Res.ok.injEq] at hs
        obtain ⟨l, _, rfl⟩ := hs; rfl
      | move i j =>
        simp only [DBV.step, Res.bind_eq_ok, Res.pure_def, Res.ok.injEq] at hs
        obtain ⟨l, hl, rfl⟩ := hs
        unfold DBV.Consistent at hwc ⊢
        simp only
        rw [moveBlocks_map_length hl hop, hwc]
      | assign x => simp only [DBV.step, Res.ok.injEq] at hs; subst hs; rfl
      | entries f =>
        simp only [DBV.step, Res.ok.injEq] at hs; subst hs
        unfold DBV.Consistent at hwc ⊢
        simp only
        rw [mapIdx_map_length, hwc]
  have e : v = DBV.collect v.blocks := by
    unfold DBV.Consistent at hc
    cases v; simp only at hc; subst hc; rfl
  refine ⟨?_, fun i => ?_⟩
  · rw [DBV.size, hc, List.length_flatten]
  · rw [e]; exact DBV.get_collect v.blocks i

namespace Ex18

/-- a non-trivial history meeting the hypotheses: sizes differ, blocks are inserted and removed -/
def hist : List (DBV.Op Rat) :=
  [.assign ⟨[[1, 2], [3]], []⟩, .reinit 3, .insert [7, 8, 9] 1, .entries (fun b x => x + b), .remove 0]
example : DBV.run hist = .ok ⟨[[8, 9, 10], [5], [3, 3]], [3, 1, 2]⟩ := by decide +kernel
example : (DBV.mk [[8, 9, 10], [5], [3, (3 : Rat)]] [3, 1, 2]).get 3 = .ok 5 := by decide +kernel

/-- `move_block` leaves the table behind: the element at global index 1 of `[3], [1, 2]` is read from
the wrong place, and one element cannot be reached. -/
theorem C18_violated : ∃ v : DBV Rat,
    DBV.run [.assign ⟨[[1, 2], [3]], []⟩, .move 0 1] = .ok v ∧ v.blocks = [[3], [1, 2]] ∧
    v.get 1 = .ub ∧ v.get 2 = .ok 1 ∧ Res.index v.blocks.flatten 1 = .ok 1 ∧
      Res.index v.blocks.flatten 2 = .ok 2 :=
  ⟨⟨[[3], [1, 2]], [2, 1]⟩, by decide +kernel⟩

/-- A view has no table at all: its size is 0 and no element can be accessed. -/
theorem C18_view_violated (v : DBV K) (s e : Nat) :
    (v.view s e).size = 0 ∧ ∀ i, (v.view s e).get i = .ub := ⟨rfl, fun _ => rfl⟩

example : (DBV.view (DBV.collect [[1], [2, (3 : Rat)], [4]]) 1 3).blocks = [[2, 3], [4]] := by
  decide +kernel

end Ex18

/-! ## C19 -/

/-- Growth with the flag set: the new order parameters are zero and sit between the old ones and the
displacements, before the grains are remapped. -/
theorem C19_growth [Zero K] (remap : List (List K) → List (List K)) (cm ops mech : List (List K))
    (k : Nat) (hk : 0 < k) (hcm : cm ≠ []) :
    ∃ z : List K, z.length = (cm.head hcm).length ∧ (∀ x ∈ z, x = 0) ∧
      changeComponents remap true (cm.length + ops.length) (cm.length + ops.length + mech.length)
        ops.length (ops.length + k) (cm ++ ops ++ mech) =
      .ok (remap (cm ++ ops ++ List.replicate k z ++ mech)) := by
  have hhd : (cm ++ ops ++ mech).headD [] = cm.head hcm := by
    cases cm with
    | nil => exact absurd rfl hcm
    | cons a cm => simp
  refine ⟨List.replicate (cm.head hcm).length 0, by simp, fun x hx => (List.mem_replicate.1 hx).2, ?_⟩
  have hn : (cm ++ ops ++ mech).length = cm.length + ops.length + mech.length := by
    simp only [List.length_append]
  have h1 : cm.length + ops.length + mech.length - ops.length + (ops.length + k)
      = cm.length + ops.length + mech.length + k := by omega
  have h2 : cm.length + ops.length + mech.length - (cm.length + ops.length) = mech.length := by omega
  have e := reinitBlocks_append (cm ++ ops ++ mech) k
  rw [hn, hhd] at e
  simp only [changeComponents, hn, h1, h2, true_and]
  rw [if_neg (by omega)]
  simp only [Res.pure_def, Res.ok_bind]
  rw [e, if_pos (by omega)]
  by_cases hm : mech.length > 0
  · rw [if_pos hm]
    have g := growLoop (cm ++ ops) mech (List.replicate (cm.head hcm).length 0) k 0
    simp only [List.length_append, Nat.add_zero, List.replicate_zero, List.append_nil, Nat.zero_add]
      at g
    rw [g, Res.ok_bind]
  · rw [if_neg hm]
    have : mech = [] := List.length_eq_zero_iff.1 (by omega)
    subst this
    simp

/-- Shrinking without displacements: after the remapping exactly the trailing order parameters
disappear. Missing for the full claim: the case with displacements, which is violated. -/
theorem C19_shrink_partial [Zero K] (remap : List (List K) → List (List K)) (cm ops ops' gone : List (List K))
    (hg : gone ≠ []) (hlen : ops.length = ops'.length + gone.length)
    (hremap : remap (cm ++ ops) = cm ++ ops' ++ gone) :
    changeComponents remap true (cm.length + ops.length) (cm.length + ops.length) ops.length
      ops'.length (cm ++ ops) = .ok (cm ++ ops') := by
  have hgl : 0 < gone.length := List.length_pos_iff.2 hg
  have hn : (cm ++ ops).length = cm.length + ops.length := by simp only [List.length_append]
  have h1 : cm.length + ops.length - ops.length + ops'.length = cm.length + ops'.length := by omega
  simp only [changeComponents, hn, h1, Nat.sub_self, true_and, gt_iff_lt,
    Nat.lt_irrefl, if_false]
  rw [if_pos (by omega)]
  simp only [Res.pure_def, Res.ok_bind]
  rw [if_neg (by omega), hremap, reinitBlocks_take _ (by simp),
    List.take_left' (by simp)]

/-- Shrinking with displacements always loses displacements: if at most as many order parameters
vanish as there are displacement components, exactly the last displacement components are dropped and
all order parameters, also the vacated ones, stay. -/
theorem C19_shrink_loses [Zero K] (remap : List (List K) → List (List K))
    (cm ops ops' mech : List (List K)) (k : Nat) (hk : 0 < k) (hkm : k ≤ mech.length)
    (hko : k ≤ ops.length) (hcm : cm ≠ [])
    (hremap : remap (cm ++ ops ++ mech) = cm ++ ops' ++ mech) (hl : ops'.length = ops.length) :
    changeComponents remap true (cm.length + ops.length) (cm.length + ops.length + mech.length)
      ops.length (ops.length - k) (cm ++ ops ++ mech) =
    .ok (cm ++ ops' ++ mech.take (mech.length - k)) := by
  have hcl : 0 < cm.length := List.length_pos_iff.2 hcm
  have hn : (cm ++ ops ++ mech).length = cm.length + ops.length + mech.length := by
    simp only [List.length_append]
  have h1 : cm.length + ops.length + mech.length - ops.length + (ops.length - k)
      = cm.length + ops.length + mech.length - k := by omega
  have h2 : cm.length + ops.length + mech.length - (cm.length + ops.length) = mech.length := by omega
  simp only [changeComponents, hn, h1, h2, true_and]
  rw [if_pos (by omega), if_pos (by omega), downTo_nil (by omega)]
  simp only [List.foldlM_nil, Res.pure_def, Res.ok_bind]
  rw [if_neg (by omega), hremap, reinitBlocks_take _ (by simp; omega), List.take_append,
    List.take_of_length_le (by simp; omega)]
  congr 3
  simp only [List.length_append]
  omega

/-- Without the flag the number of blocks is right but new blocks are put behind the displacements, so
that the first displacement takes the place of an order parameter. -/
theorem C19_growth_without_reassignment [Zero K] (remap : List (List K) → List (List K))
    (cm ops mech : List (List K)) (k : Nat) (hcm : cm ≠ []) :
    ∃ z : List K, z.length = (cm.head hcm).length ∧ (∀ x ∈ z, x = 0) ∧
      changeComponents remap false (cm.length + ops.length) (cm.length + ops.length + mech.length)
        ops.length (ops.length + k) (cm ++ ops ++ mech) =
      .ok (cm ++ ops ++ mech ++ List.replicate k z) := by
  have hhd : (cm ++ ops ++ mech).headD [] = cm.head hcm := by
    cases cm with
    | nil => exact absurd rfl hcm
    | cons a cm => simp
  refine ⟨List.replicate (cm.head hcm).length 0, by simp, fun x hx => (List.mem_replicate.1 hx).2, ?_⟩
  have hn : (cm ++ ops ++ mech).length = cm.length + ops.length + mech.length := by
    simp only [List.length_append]
  have h1 : cm.length + ops.length + mech.length - ops.length + (ops.length + k)
      = cm.length + ops.length + mech.length + k := by omega
  have e := reinitBlocks_append (cm ++ ops ++ mech) k
  rw [hn, hhd] at e
  simp only [changeComponents, hn, h1, Bool.false_eq_true, false_and, if_false, Res.pure_def,
    Res.ok_bind]
  rw [e]

namespace Ex19

/-- concentration, potential, three order parameters, two displacements -/
def v : List (List Rat) := [[1], [2], [10], [11], [12], [100], [101]]
example : changeComponents id true 5 7 3 5 v =
    .ok [[1], [2], [10], [11], [12], [0], [0], [100], [101]] := by decide +kernel
example : changeComponents id true 5 5 3 2 [[1], [2], [10], [11], [(12 : Rat)]] =
    .ok [[1], [2], [10], [11]] := by decide +kernel

/-- One order parameter vanishes: the second displacement is lost and the vacated order parameter is
kept in its place. -/
theorem C19_violated : changeComponents id true 5 7 3 2 v = .ok [[1], [2], [10], [11], [12], [100]] ∧
    changeComponents id true 5 7 3 2 v ≠ .ok [[1], [2], [10], [11], [100], [101]] := by
  decide +kernel

/-- Three vanish, more than there are displacements: one displacement is lost all the same. -/
example : changeComponents id true 5 7 3 0 v = .ok [[1], [2], [10], [11]] := by decide +kernel

example : changeComponents id false 5 7 3 4 v =
    .ok [[1], [2], [10], [11], [12], [100], [101], [0]] := by decide +kernel

end Ex19

/-! ## C48 -/

section
variable [Field K]

/-- The inner product is that of the concatenated vectors; a second vector with fewer blocks is
undefined (the dimension check is for debug builds only). -/
theorem C48_dot (v w : DBV K) (h : v.blocks.map List.length = w.blocks.map List.length) :
    v.dot w = .ok (List.zipWith (· * ·) v.blocks.flatten w.blocks.flatten).sum := by
  have := DBV.dot_loop v.blocks w.blocks [] 0 h
  simpa [DBV.dot, DBV.dotV] using this

theorem C48_dot_ub (v w : DBV K) (h : w.blocks = []) (hv : v.blocks ≠ []) : v.dot w = .ub := by
  unfold DBV.dot
  rw [h]
  cases e : v.blocks with
  | nil => exact absurd e hv
  | cons x l => rfl

/-- Linear combinations act on the concatenated vector and keep the layout and the index table. -/
theorem C48_sadd (s a : K) (v w : DBV K) (h : v.blocks.map List.length = w.blocks.map List.length) :
    ∃ r, v.sadd s a w = .ok r ∧ r.indices = v.indices ∧
      r.blocks.map List.length = v.blocks.map List.length ∧
      r.blocks.flatten =
        List.zipWith (fun x y => s * x + a * y) v.blocks.flatten w.blocks.flatten := by
  obtain ⟨l, h1, h2, h3⟩ := DBV.sadd_loop s a v.blocks w.blocks [] h
  refine ⟨⟨l, v.indices⟩, ?_, rfl, h2, h3⟩
  simp only [List.nil_append, List.length_nil] at h1
  unfold DBV.sadd
  rw [h1]
  rfl

/-- `equ` overwrites everything, independently of what the vector held, including the index table. -/
theorem C48_equ (a : K) (w : DBV K) :
    (DBV.equ a w).blocks.flatten = w.blocks.flatten.map (a * ·) ∧
      (DBV.equ a w).indices = (DBV.equ a w).blocks.map List.length := by
  refine ⟨?_, ?_⟩
  · simp [DBV.equ, List.map_flatten]
  · simp [DBV.equ, Function.comp_def]

/-- The squared Euclidean norm is the sum of the squares of all elements. -/
theorem C48_l2 (v : DBV K) : v.normSq = (v.blocks.flatten.map fun x => x * x).sum := by
  rw [DBV.normSq, DBV.foldl_add_sum (fun x => DBV.dotV x x), zero_add, ← DBV.dotV_flatten, DBV.dotV]
  congr 1
  generalize v.blocks.flatten = l
  induction l with
  | nil => rfl
  | cons x l ih => simp

variable [LinearOrder K]

theorem C48_l1 (v : DBV K) : v.l1 = (v.blocks.flatten.map fun x => |x|).sum := by
  rw [DBV.l1, DBV.foldl_add_sum (fun x : List K => (x.map abs).sum), zero_add, DBV.sum_flatten_map]

variable [IsStrictOrderedRing K]

/-- The maximum norm bounds all elements and is attained, and it vanishes exactly for the zero vector
(`all_zero`). -/
theorem C48_linfty (v : DBV K) :
    (∀ x ∈ v.blocks.flatten, |x| ≤ v.linfty) ∧
    (v.blocks.flatten ≠ [] → ∃ x ∈ v.blocks.flatten, |x| = v.linfty) ∧
    (v.linfty = 0 ↔ ∀ x ∈ v.blocks.flatten, x = 0) := by
  have e : v.linfty = DBV.linftyV v.blocks.flatten := by
    rw [DBV.linfty, DBV.linfty_flatten _ _ le_rfl, max_eq_right (DBV.linftyV_nonneg _)]
  have hs := DBV.linftyV_spec v.blocks.flatten
  rw [← e] at hs
  have h2 : v.blocks.flatten ≠ [] → ∃ x ∈ v.blocks.flatten, |x| = v.linfty := by
    intro h
    obtain ⟨x, hx, h2⟩ := hs.2 h
    exact ⟨x, hx, by rw [← h2, max_eq_right (abs_nonneg x)]⟩
  refine ⟨hs.1, h2, ?_, ?_⟩
  · intro h0 x hx
    have := hs.1 x hx
    rw [h0] at this
    exact abs_eq_zero.1 (le_antisymm this (abs_nonneg x))
  · intro h0
    by_cases hne : v.blocks.flatten = []
    · rw [e, hne]; rfl
    · obtain ⟨x, hx, h3⟩ := h2 hne
      rw [← h3, h0 x hx, abs_zero]

/-- The mean value of a vector with a right index table is the mean of all elements; it is undefined
(not-a-number) for a view, which has an empty table. -/
theorem C48_mean (v : DBV K) (hc : v.indices = v.blocks.map List.length)
    (hne : v.blocks.flatten ≠ []) :
    v.mean = some (v.blocks.flatten.sum / (v.blocks.flatten.length : K)) := by
  have hs : v.size = v.blocks.flatten.length := by rw [DBV.size, hc, List.length_flatten]
  have hpos : 0 < v.blocks.flatten.length := List.length_pos_iff.2 hne
  have hb : ∀ x : List K, x.sum / (x.length : K) * (x.length : K) = x.sum := by
    intro x
    by_cases hx : x = []
    · subst hx; simp
    · exact div_mul_cancel₀ _ (Nat.cast_ne_zero.2 (by
        have := List.length_pos_iff.2 hx; omega))
  unfold DBV.mean
  dsimp only
  rw [DBV.foldl_add_sum (fun x : List K => x.sum / (x.length : K) * (x.length : K)), zero_add, hs,
    if_neg (by omega)]
  congr 2
  simp only [hb]
  simp

omit [LinearOrder K] [IsStrictOrderedRing K] in
theorem C48_mean_view (v : DBV K) (s e : Nat) : (v.view s e).mean = none := rfl

end

namespace Ex48

def a : DBV Rat := DBV.collect [[1, -2], [3], [-4, 0, 5]]
def b : DBV Rat := DBV.collect [[1, 1], [2], [0, 1, -1]]
example : a.dot b = .ok 0 := by decide +kernel
example : a.normSq = 55 ∧ a.l1 = 15 ∧ a.linfty = 5 := by decide +kernel
example : a.mean = some (1 / 2) := by decide +kernel
example : a.sadd 2 3 b = .ok (DBV.collect [[5, -1], [12], [-8, 3, 7]]) := by decide +kernel

end Ex48
end Verif.Props
