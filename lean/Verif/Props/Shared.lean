import Verif.Lemmas.Shared
/-!
# Vectors that share blocks (C144)

The class holds shared pointers to its blocks. Programs that never take views or insert pointers of other vectors behave as if every vector had its
own blocks, for all sequences of operations. Views and vectors made from the blocks of others show the entries of these as long as only entries
change, and writing to a view changes the blocks it covers and nothing else.
-/
namespace Verif.Props
open Verif Verif.Shared
variable {K : Type}

/-- Programs without views: the outcome is that of vectors as values, including when it is undefined. -/
theorem C144_values [Zero K] (ops : List (Op K)) (ho : ∀ op ∈ ops, Spec.owning op = true) :
    (∀ s, run ops St.init = .ok s → Spec.run ops (fun _ => []) = .ok s.val) ∧
    (∀ m, Spec.run ops (fun _ => []) = .ok m → ∃ s, run ops St.init = .ok s ∧ s.val = m) ∧
    (run ops (St.init : St K) = .ub ↔ Spec.run ops (fun _ => ([] : List (List K))) = .ub) := by
  have h := run_agree ops sep_init ho
  have hi : (St.init : St K).val = fun _ => [] := rfl
  rw [hi] at h
  rcases h with ⟨s, h1, _, h3⟩ | ⟨h1, h2⟩
  · rw [h1, h3]
    refine ⟨fun t ht => by rw [Res.ok.inj ht], fun m hm => ⟨s, rfl, Res.ok.inj hm⟩, by simp⟩
  · rw [h1, h2]
    simp

/-- Programs without views never make two vectors, or two places of a vector, refer to the same block. -/
theorem C144_apart [Zero K] (ops : List (Op K)) (ho : ∀ op ∈ ops, Spec.owning op = true) (s : St K) (h : run ops St.init = .ok s)
    (x y i j : Nat) (a : Nat) (hx : (s.vars x)[i]? = some a) (hy : (s.vars y)[j]? = some a) : x = y ∧ i = j := by
  rcases run_agree ops sep_init ho with ⟨t, h1, h2, _⟩ | ⟨h1, _⟩
  · obtain rfl : s = t := Res.ok.inj (h.symm.trans h1)
    have hxy : x = y := by
      by_contra hne
      exact h2.apart x y hne a (List.mem_of_getElem? hx) (List.mem_of_getElem? hy)
    subst hxy
    refine ⟨rfl, ?_⟩
    obtain ⟨hi, hi'⟩ := List.getElem?_eq_some_iff.1 hx
    obtain ⟨hj, hj'⟩ := List.getElem?_eq_some_iff.1 hy
    exact (h2.nodup x).getElem_inj_iff.1 (hi'.trans hj'.symm)
  · rw [h1] at h
    simp at h

/-- Whatever is shared, an operation leaves every vector alone that is not named on its left side, unless it has a block in common with a vector that is
written to. -/
theorem C144_frame [Zero K] (s s' : St K) (op : Op K) (h : exec s op = .ok s') (w : Nat) (hw : w ∉ Spec.changed op)
    (hb : ∀ a ∈ s.vars w, a < s.next) (hd : ∀ x ∈ Spec.written op, ∀ a ∈ s.vars x, a ∉ s.vars w) :
    s'.val w = s.val w := (exec_frame h hw hb hd).2

/-- While only entries change, by operations on any vector, a view shows the blocks of its vector. -/
theorem C144_view [Zero K] (s t u : St K) (z y b e : Nat) (hz : z ≠ y) (hv : exec s (.view z y b e) = .ok t)
    (ops : List (Op K)) (hc : ∀ op ∈ ops, Spec.content op = true) (hr : run ops t = .ok u) :
    u.val z = ((u.val y).drop b).take (e - b) := by
  simp only [exec] at hv
  split at hv
  · obtain rfl := Res.ok.inj hv
    have h := content_run ops hc hr
    simp only [St.val, h, point_same, point_other _ _ (Ne.symm hz), List.map_take, List.map_drop]
  · simp at hv

/-- While only entries change, by operations on any vector, a vector made of the blocks of others shows their blocks, one vector after the other. -/
theorem C144_gather [Zero K] (s t u : St K) (z : Nat) (ys : List Nat) (hz : z ∉ ys) (hv : exec s (.gather z ys) = .ok t)
    (ops : List (Op K)) (hc : ∀ op ∈ ops, Spec.content op = true) (hr : run ops t = .ok u) :
    u.val z = ys.flatMap u.val := by
  obtain rfl := Res.ok.inj hv
  have h := content_run ops hc hr
  have : ∀ l : List Nat, z ∉ l → (l.flatMap s.vars).map u.heap = l.flatMap u.val := by
    intro l hl
    induction l with
    | nil => rfl
    | cons a l ih =>
      simp only [List.mem_cons, not_or] at hl
      rw [List.flatMap_cons, List.flatMap_cons, List.map_append, ih hl.2]
      congr 1
      rw [St.val, h, point_other _ _ (Ne.symm hl.1)]
  rw [St.val, h, point_same]
  exact this ys hz

/-- Writing to a view: the view gets the values the operation is meant to give, the vector gets them in place of the blocks of the view, and no
other vector changes. The vector itself must not be read by the same operation (`C144_self_violated`). -/
theorem C144_write_partial [Zero K] (ops : List (Op K)) (ho : ∀ op ∈ ops, Spec.owning op = true) (s t u : St K) (h : run ops St.init = .ok s)
    (z y b e : Nat) (hz : z ≠ y) (hv : exec s (.view z y b e) = .ok t) (op : Op K) (hc : Spec.content op = true) (hx : Spec.changed op = [z])
    (hy : y ∉ Spec.sources op) (hu : exec t op = .ok u) :
    (∃ m, Spec.exec t.val op = .ok m ∧ u.val z = m z) ∧
    u.val y = (s.val y).take b ++ u.val z ++ (s.val y).drop e ∧
    ∀ w, w ≠ z → w ≠ y → u.val w = s.val w := by
  obtain ⟨s0, h1, hs, _⟩ : ∃ s0, run ops St.init = .ok s0 ∧ Sep s0 ∧ Spec.run ops (St.init : St K).val = .ok s0.val := by
    rcases run_agree ops sep_init ho with h' | ⟨h', _⟩
    · exact h'
    · rw [h'] at h; simp at h
  obtain rfl : s = s0 := Res.ok.inj (h.symm.trans h1)
  simp only [exec] at hv
  split at hv
  swap
  · simp at hv
  rename_i hbe
  obtain rfl := Res.ok.inj hv
  have hty : (s.point z (((s.vars y).drop b).take (e - b))).vars y = s.vars y := point_other _ _ (Ne.symm hz)
  have htz : (s.point z (((s.vars y).drop b).take (e - b))).vars z = ((s.vars y).drop b).take (e - b) := point_same ..
  have hsplit : s.vars y = (s.vars y).take b ++ ((s.vars y).drop b).take (e - b) ++ (s.vars y).drop e := by
    have h2 : (s.vars y).drop e = ((s.vars y).drop b).drop (e - b) := by rw [List.drop_drop]; congr 1; omega
    rw [h2, List.append_assoc, List.take_append_drop, List.take_append_drop]
  have hsub : ∀ a ∈ ((s.vars y).drop b).take (e - b), a ∈ s.vars y := fun a ha => List.mem_of_mem_drop (List.mem_of_mem_take ha)
  have hnz : (((s.vars y).drop b).take (e - b)).Nodup :=
    (hs.nodup y).sublist ((List.take_sublist _ _).trans (List.drop_sublist _ _))
  have hframe : ∀ w, w ≠ z → w ≠ y → u.val w = s.val w := by
    intro w hwz hwy
    have hwt : (s.point z (((s.vars y).drop b).take (e - b))).vars w = s.vars w := point_other _ _ hwz
    have h3 := (exec_frame hu (w := w) (by rw [hx]; simpa using hwz) (by rw [hwt]; exact hs.below w) (by
      intro x hxw a ha
      have hxz : x = z := by
        cases op with
        | map _ _ => simp only [Spec.changed, Spec.written, List.mem_cons, List.not_mem_nil, or_false, List.cons.injEq, and_true] at hx hxw; omega
        | zip _ _ _ => simp only [Spec.changed, Spec.written, List.mem_cons, List.not_mem_nil, or_false, List.cons.injEq, and_true] at hx hxw; omega
        | put _ _ _ => simp only [Spec.changed, Spec.written, List.mem_cons, List.not_mem_nil, or_false, List.cons.injEq, and_true] at hx hxw; omega
        | _ => simp [Spec.content] at hc
      subst hxz
      rw [htz] at ha
      rw [hwt]
      exact hs.apart y w (Ne.symm hwy) a (hsub a ha))).2
    rw [h3, St.val, hwt]
    rfl
  have hA : ((s.vars y).take b).map s.heap = (s.val y).take b := by rw [St.val, List.map_take]
  have hB : ((s.vars y).drop e).map s.heap = (s.val y).drop e := by rw [St.val, List.map_drop]
  cases op with
  | map x f =>
    obtain rfl : x = z := by simpa [Spec.changed] using hx
    obtain rfl := Res.ok.inj hu
    obtain ⟨k1, k2⟩ := keep_part (fun o _ => f o) (s.point x (((s.vars y).drop b).take (e - b))) y x
      (((s.point x (((s.vars y).drop b).take (e - b))).vars x).map fun a => (some a, a)) ((s.vars y).take b) ((s.vars y).drop e)
      (by rw [hty, htz]; exact hsplit) (by rw [hty]; exact hs.nodup y) (by rw [hty]; exact hs.below y) (diag_some _) (targets_diag _)
      (clear_diag _ (by rw [htz]; exact hnz)) (fun _ _ => Or.inr fun _ _ _ => rfl)
    refine ⟨⟨_, rfl, ?_⟩, ?_, hframe⟩
    · rw [k1]
      simp [Spec.put, St.val]
      rfl
    · rw [k2, k1, point_heap, hA, hB]
  | zip x v f =>
    obtain rfl : x = z := by simpa [Spec.changed] using hx
    have hvy : v ≠ y := by simpa [Spec.sources, eq_comm] using hy
    simp only [exec] at hu
    split at hu
    swap
    · simp at hu
    rename_i hl
    obtain rfl := Res.ok.inj hu
    have hvb : ∀ a ∈ (s.point x (((s.vars y).drop b).take (e - b))).vars v, a < s.next := by
      intro a ha
      by_cases hvx : v = x
      · subst hvx
        rw [htz] at ha
        exact hs.below y a (hsub a ha)
      · rw [point_other _ _ hvx] at ha
        exact hs.below v a ha
    have hclear : Clear ((((s.point x (((s.vars y).drop b).take (e - b))).vars x).map some).zip
        ((s.point x (((s.vars y).drop b).take (e - b))).vars v)) := by
      by_cases hvx : v = x
      · subst hvx
        rw [zip_self]
        exact clear_diag _ (by rw [htz]; exact hnz)
      · refine clear_apart _ fun a ha r hr hra => ?_
        rw [targets_zip _ _ hl, htz] at ha
        have h2 := (List.of_mem_zip (a := r.1) (b := r.2) hr).2
        rw [point_other _ _ hvx] at h2
        exact hs.apart y v (Ne.symm hvy) a (hsub a ha) (hra ▸ h2)
    obtain ⟨k1, k2⟩ := keep_part f (s.point x (((s.vars y).drop b).take (e - b))) y x _ ((s.vars y).take b) ((s.vars y).drop e)
      (by rw [hty, htz]; exact hsplit) (by rw [hty]; exact hs.nodup y) (by rw [hty]; exact hs.below y) (zip_some _ _) (targets_zip _ _ hl)
      hclear (fun r hr => Or.inl (hvb _ (List.of_mem_zip (a := r.1) (b := r.2) hr).2))
    refine ⟨⟨_, by simp only [Spec.exec, val_length]; rw [if_pos hl], ?_⟩, ?_, hframe⟩
    · rw [k1, values_zip]
      simp [Spec.put, St.val]
    · rw [k2, k1, point_heap, hA, hB]
  | put x k f =>
    obtain rfl : x = z := by simpa [Spec.changed] using hx
    obtain ⟨a, ha, hu⟩ := Res.bind_eq_ok.1 hu
    obtain rfl := Res.ok.inj hu
    obtain ⟨hk, hka⟩ : ∃ hk : k < (((s.vars y).drop b).take (e - b)).length, (((s.vars y).drop b).take (e - b))[k] = a := by
      rw [htz] at ha
      simp only [Res.index] at ha
      cases hx : (((s.vars y).drop b).take (e - b))[k]? with
      | none => simp [hx] at ha
      | some v =>
        rw [hx] at ha
        obtain rfl := Res.ok.inj ha
        exact List.getElem?_eq_some_iff.1 hx
    have key : ∀ l : List Nat, (∀ c ∈ l, c ≠ a) →
        l.map ((s.point x (((s.vars y).drop b).take (e - b))).write a (f (s.heap a))).heap = l.map s.heap := by
      intro l hl
      exact List.map_congr_left fun c hc => by simp [St.write, hl c hc]
    have hn := hs.nodup y
    rw [hsplit] at hn
    have hn1 := List.nodup_append.1 hn
    have hn2 := List.nodup_append.1 hn1.1
    have ham : a ∈ ((s.vars y).drop b).take (e - b) := hka ▸ List.getElem_mem hk
    refine ⟨⟨_, by
      simp only [Spec.exec, val_length]
      rw [dif_pos (by rw [htz]; exact hk)], ?_⟩, ?_, hframe⟩
    · simp only [Spec.put, if_true, St.val]
      have hvw : ((s.point x (((s.vars y).drop b).take (e - b))).write a (f (s.heap a))).vars x = ((s.vars y).drop b).take (e - b) := htz
      simp only [point_heap]
      rw [hvw]
      simp only [htz]
      refine List.ext_getElem (by simp) fun i hi1 hi2 => ?_
      simp only [List.getElem_map, List.getElem_set]
      by_cases hik : k = i
      · subst hik
        rw [if_pos rfl]
        simp only [St.write, hka, if_true]
      · rw [if_neg hik]
        simp only [St.write, point_heap]
        rw [if_neg]
        intro he
        exact hik (hnz.getElem_inj_iff.1 (he.trans hka.symm)).symm
    · simp only [point_heap]
      have hvw : ((s.point x (((s.vars y).drop b).take (e - b))).write a (f (s.heap a))).vars y = s.vars y := hty
      have hvz : ((s.point x (((s.vars y).drop b).take (e - b))).write a (f (s.heap a))).vars x = ((s.vars y).drop b).take (e - b) := htz
      rw [← hA, ← hB]
      simp only [St.val]
      rw [hvw, hvz]
      conv_lhs => rw [hsplit]
      rw [List.map_append, List.map_append]
      congr 1
      · congr 1
        exact key _ fun c hc' hca => hn2.2.2 c hc' a ham hca
      · exact key _ fun c hc' hca => hn1.2.2 a (by simp [ham]) c hc' hca.symm
  | _ => simp [Spec.content] at hc

/-- Insertion of the pointer to a block of any vector: defined exactly for an existing block and a place not behind the end; the values come in at
this place, nothing else changes, and both vectors have the same block from then on. -/
theorem C144_insert [Zero K] (s : St K) (x j y i : Nat) :
    ((∃ t, exec s (.insert x j y i) = .ok t) ↔ i < (s.val y).length ∧ j ≤ (s.val x).length) ∧
    ∀ t, exec s (.insert x j y i) = .ok t → (s.val y)[i]?.map (fun v => (s.val x).take j ++ v :: (s.val x).drop j) = some (t.val x) ∧
      (∀ w, w ≠ x → t.val w = s.val w) ∧ ∃ a, (s.vars y)[i]? = some a ∧ (t.vars x)[j]? = some a := by
  simp only [val_length]
  by_cases hi : i < (s.vars y).length
  · by_cases hj : j ≤ (s.vars x).length
    · have he : exec s (.insert x j y i) = .ok (s.point x ((s.vars x).take j ++ (s.vars y)[i] :: (s.vars x).drop j)) := by
        simp only [exec, Res.index_ok hi, Res.ok_bind, insertBlocks_ok 0 _ hj]
        rfl
      refine ⟨⟨fun _ => ⟨hi, hj⟩, fun _ => ⟨_, he⟩⟩, ?_⟩
      intro t ht
      rw [he, Res.ok.injEq] at ht
      subst ht
      refine ⟨?_, ?_, (s.vars y)[i], List.getElem?_eq_getElem hi, ?_⟩
      · simp only [St.val, point_same, point_heap, List.getElem?_map, List.getElem?_eq_getElem hi, Option.map_some, List.map_append,
          List.map_cons, List.map_take, List.map_drop]
      · intro w hw
        simp only [St.val, point_other _ _ hw, point_heap]
      · rw [point_same, List.getElem?_append_right (by simp)]
        simp [Nat.min_eq_left hj]
    · have he : exec s (.insert x j y i) = .ub := by
        simp only [exec, Res.index_ok hi, Res.ok_bind, insertBlocks_ub 0 _ hj]
        rfl
      rw [he]
      exact ⟨⟨fun ⟨t, ht⟩ => by simp at ht, fun h => absurd h.2 hj⟩, fun t ht => by simp at ht⟩
  · have he : exec s (.insert x j y i) = .ub := by
      simp only [exec, Res.index, List.getElem?_eq_none (Nat.le_of_not_lt hi)]
      rfl
    rw [he]
    exact ⟨⟨fun ⟨t, ht⟩ => by simp at ht, fun h => absurd h.1 hi⟩, fun t ht => by simp at ht⟩

/-- A view is defined exactly for a range of existing blocks; it has the blocks of the range and nothing else changes. -/
theorem C144_view_range [Zero K] (s : St K) (z y b e : Nat) :
    ((∃ t, exec s (.view z y b e) = .ok t) ↔ b ≤ e ∧ e ≤ (s.val y).length) ∧
    ∀ t, exec s (.view z y b e) = .ok t → (t.vars z).length = e - b ∧ (∀ k, k < e - b → (t.vars z)[k]? = (s.vars y)[b + k]?) ∧
      t.heap = s.heap ∧ ∀ w, w ≠ z → t.vars w = s.vars w := by
  simp only [val_length, exec]
  by_cases h : b ≤ e ∧ e ≤ (s.vars y).length
  · rw [if_pos h]
    refine ⟨⟨fun _ => h, fun _ => ⟨_, rfl⟩⟩, ?_⟩
    intro t ht
    rw [Res.ok.injEq] at ht
    subst ht
    refine ⟨?_, ?_, point_heap _ _ _, fun w hw => point_other _ _ hw⟩
    · rw [point_same, List.length_take, List.length_drop]; omega
    · intro k hk
      rw [point_same, List.getElem?_take_of_lt hk, List.getElem?_drop]
  · rw [if_neg h]
    exact ⟨⟨fun ⟨t, ht⟩ => by simp at ht, fun h' => absurd h' h⟩, fun t ht => by simp at ht⟩

namespace Ex144

/-- a vector of two blocks and a copy that is changed -/
def prog : List (Op Nat) := [.create 0 2, .put 0 0 (fun _ => [1, 2]), .put 0 1 (fun _ => [3]), .copy 1 0, .map 1 (·.map (10 * ·)), .shift 0 0 1,
  .transfer 1 0 0 2, .zip 0 0 (List.zipWith (· + ·)), .resize 1 3]

example : ∃ s, run prog St.init = .ok s ∧ s.val 0 = [[6], [2, 4], [20, 40]] ∧ s.val 1 = [[30], [0], [0]] := ⟨_, rfl, rfl, rfl⟩
example : ∀ op ∈ prog, Spec.owning op = true := by simp [prog, Spec.owning]

/-- three blocks and a view of the last two -/
def base : List (Op Nat) := [.create 0 3, .put 0 0 (fun _ => [1]), .put 0 1 (fun _ => [2]), .put 0 2 (fun _ => [4])]

example : ∃ s, run (base ++ [.view 1 0 1 3, .map 1 (·.map (· + 1)), .put 0 2 (fun _ => [7])]) St.init = .ok s ∧
    s.val 0 = [[1], [3], [7]] ∧ s.val 1 = [[3], [7]] := ⟨_, rfl, rfl, rfl⟩

/-- Vectors made of all blocks of two vectors, as for the history of solutions at refinement. -/
example : ∃ s, run [.create 0 1, .create 1 2, .gather 2 [0, 1], .put 2 2 (fun _ => [5]), .put 0 0 (fun _ => [3])] St.init = .ok s ∧
    s.val 2 = [[3], [], [5]] ∧ s.val 1 = [[], [5]] := ⟨_, rfl, rfl, rfl⟩

/-- Adding a vector to a view of itself that starts behind its first block adds blocks that were changed before. -/
theorem C144_self_violated : ∃ s t : St Nat, run (base ++ [.view 1 0 1 3]) St.init = .ok s ∧
    exec s (.zip 1 0 (List.zipWith (· + ·))) = .ok t ∧ s.val 1 = [[2], [4]] ∧ s.val 0 = [[1], [2], [4]] ∧
    t.val 1 = [[3], [7]] ∧ t.val 1 ≠ List.zipWith (List.zipWith (· + ·)) (s.val 1) (s.val 0) :=
  ⟨_, _, rfl, rfl, rfl, rfl, rfl, by decide⟩

/-- After `move_block`, assigning from a view taken before does not give the values of the view: a block is overwritten before it is read. -/
theorem C144_assign_violated : ∃ s t : St Nat, run (base ++ [.view 1 0 0 3, .shift 0 0 1]) St.init = .ok s ∧
    exec s (.assign 0 1) = .ok t ∧ s.val 1 = [[1], [2], [4]] ∧ t.val 0 = [[1], [1], [4]] :=
  ⟨_, _, rfl, rfl, rfl, rfl⟩

/-- A view does not follow changes of the array of blocks: after `remove_block` it shows the old blocks, and it does not show blocks that
`swap` or a move puts in. -/
theorem C144_stale_violated :
    (∃ s : St Nat, run (base ++ [.view 1 0 1 3, .remove 0 1]) St.init = .ok s ∧ s.val 0 = [[1], [4]] ∧ s.val 1 = [[2], [4]]) ∧
    (∃ s : St Nat, run (base ++ [.view 1 0 0 3, .create 2 1, .swap 0 2, .put 0 0 (fun _ => [8])]) St.init = .ok s ∧
      s.val 0 = [[8]] ∧ s.val 1 = [[1], [2], [4]]) := ⟨⟨_, rfl, rfl, rfl⟩, ⟨_, rfl, rfl, rfl⟩⟩

/-- Assigning a longer vector to a view changes the blocks in common only; the others are new and unknown to the vector. -/
theorem C144_grow_violated : ∃ s : St Nat, run (base ++ [.view 1 0 1 2, .create 2 2, .put 2 0 (fun _ => [8]), .put 2 1 (fun _ => [9]), .assign 1 2])
    St.init = .ok s ∧ s.val 1 = [[8], [9]] ∧ s.val 0 = [[1], [8], [4]] := ⟨_, rfl, rfl, rfl⟩

/-- The third block of one vector inserted in the middle of another. -/
example : ∃ s : St Nat, run (base ++ [.create 1 2, .insert 1 1 0 2, .put 1 1 (fun v => v ++ [5])]) St.init = .ok s ∧
    s.val 1 = [[], [4, 5], []] ∧ s.val 0 = [[1], [2], [4, 5]] := ⟨_, rfl, rfl, rfl⟩

/-- A block inserted by its pointer belongs to both vectors, also for later assignments. -/
theorem C144_insert_violated : ∃ s : St Nat, run (base ++ [.create 1 1, .insert 1 1 0 2, .map 1 (fun _ => [6])]) St.init = .ok s ∧
    s.val 1 = [[6], [6]] ∧ s.val 0 = [[1], [2], [6]] := ⟨_, rfl, rfl, rfl⟩

end Ex144
end Verif.Props
