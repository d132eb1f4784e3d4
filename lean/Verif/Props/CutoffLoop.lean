/-
C135: leaving out irrelevant order parameters does not change the residual and the Jacobian.
-/
import Verif.Lemmas.CutoffLoop
import Verif.Props.Cutoff
import Mathlib.Algebra.Order.Ring.Rat
import Mathlib.Algebra.Field.Rat

namespace Verif.Props

open Verif.CutoffLoop Verif.CutoffLoop.Spec Verif.SinteringKernel

section

variable {K : Type} [Field K] [LinearOrder K] {V : Type} [AddCommGroup V] [Module K V]

private theorem flags_two (n : Nat) (keep : Nat → Bool) : (List.range' 0 (n + 2)).map (active keep) =
    true :: true :: (List.range' 2 n).map (active keep) := by
  rw [List.range'_succ, List.range'_succ]; simp [active]

private theorem two {α : Type} (l : List α) (n : Nat) (h : l.length = n + 2) :
    ∃ a b r, l = a :: b :: r ∧ r.length = n := by
  rcases l with _ | ⟨a, _ | ⟨b, r⟩⟩
  · simp at h
  · simp at h
  · exact ⟨a, b, r, rfl, by simpa using h⟩

private theorem dispatch_ok (mg n : Nat) (h1 : 1 ≤ n) (h2 : n ≤ mg) :
    dispatchAll mg n = .ok () ∧ ∀ k, 2 ≤ k → k ≤ n + 2 → dispatchNt mg k = .ok () := by
  refine ⟨by simp [dispatchAll, Res.assertThrow, h1, h2], fun k hk hk' => ?_⟩
  have : k ≤ mg + 2 := by omega
  simp [dispatchNt, Res.assertThrow, hk, this]

/-- C135, residual: if every order parameter that is not listed for the cell vanishes there together with its gradient and its
old values and is not advected, the loop over the listed order parameters gives the same contribution to every
block as the loop over all of them. -/
theorem C135_residual_partial (mg n : Nat) (h1 : 1 ≤ n) (h2 : n ≤ mg) (h254 : n ≤ 254) (p : Par K) (mode : Nat)
    (blocks : List (Blk K V)) (hlen : blocks.length = n + 2) (keep : Nat → Bool)
    (hnull : ∀ i b, keep i = false → blocks[i + 2]? = some b → Neglected b) :
    ∃ r, residualNt mg p mode blocks (relevant n keep) = .ok r ∧ residualAll mg p mode blocks = .ok r := by
  obtain ⟨b0, b1, gs, rfl, hgs⟩ := two blocks n hlen
  obtain ⟨gs', hd⟩ := Drop.ofFlags (null := Neglected) gs 2 (active keep) (fun i a ha hk => by
    refine hnull i a ?_ (by simpa using ha)
    simpa [active, show ¬ 2 + i < 2 by omega] using hk)
  rw [hgs] at hd
  have hD : Drop Neglected ((List.range' 0 (n + 2)).map (active keep)) (b0 :: b1 :: gs) (b0 :: b1 :: gs') := by
    rw [flags_two]; exact .keep _ (.keep _ hd)
  obtain ⟨d1, d2⟩ := dispatch_ok mg n h1 h2
  have hle : gs'.length ≤ n := hgs ▸ hd.le
  obtain ⟨u, w, e, e', hel, hsp, hr', hr⟩ := residual_drop p mode b0.val b1.val b0.grad b1.grad b0.buf
    (hd.map (null' := NullGrain) (fun b => { eta := b.val, grad := b.grad, vel := b.vel, buf := b.buf })
      fun b hb => ⟨hb.1, hb.2.1, hb.2.2.2, hb.2.2.1⟩)
  refine ⟨(u.1, u.2) :: (w.1, w.2) :: e, ?_, ?_⟩
  · have hg := hD.gather []
    rw [List.nil_append, List.length_nil] at hg
    unfold residualNt
    dsimp only
    rw [residualBlocks_eq n keep h254, vmultBlocks_eq, hg, d2 _ (by simp) (by simp [hgs]), Res.ok_bind, Res.ok_bind,
      d2 _ (by simp) (by simp; omega), Res.ok_bind, toPoint, Res.ok_bind, hr', Res.ok_bind]
    have hs := scatter_spread (β := K × V) ((List.range' 0 (n + 2)).map (active keep))
      ((u.1, u.2) :: (w.1, w.2) :: e') [] (by
        rw [← hD.length.1, List.length_cons, List.length_cons, List.length_cons, List.length_cons, hel,
          List.length_map])
    rw [List.nil_append, List.nil_append, List.length_nil] at hs
    have hz : ((b0 :: b1 :: gs).map fun _ => ((0 : K), (0 : V))) =
        ((List.range' 0 (n + 2)).map (active keep)).map fun _ => (0 : K × V) := by
      rw [List.map_const', List.map_const', List.length_map, List.length_range', hlen]; rfl
    rw [hz, rows, hs, flags_two, spread, spread, hsp]
  · unfold residualAll
    rw [show (b0 :: b1 :: gs).length - 2 = n by simp [hgs], d1, Res.ok_bind, toPoint, Res.ok_bind, hr, Res.ok_bind, rows]

private theorem drop_zip {α β : Type} (null : α → Prop) (z : β) (l : List α) (r : List β) (h : l.length = r.length)
    (k : Nat) (keep : Nat → Bool) (hn : ∀ i a, l[i]? = some a → keep (k + i) = false → null a) :
    ∃ t, Drop (fun t : α × β => null t.1 ∧ t.2 = z) ((List.range' k l.length).map keep)
        (l.zip (r.mapIdx fun i x => if keep (k + i) then x else z)) t ∧
      Drop (fun _ => True) ((List.range' k l.length).map keep) l (t.map (·.1)) ∧
      Drop (fun _ => True) ((List.range' k l.length).map keep) r (t.map (·.2)) := by
  induction l generalizing r k with
  | nil =>
    have : r = [] := List.eq_nil_of_length_eq_zero (by simpa using h.symm)
    subst this
    exact ⟨[], .nil, .nil, .nil⟩
  | cons a l ih =>
    rcases r with _ | ⟨x, r⟩
    · simp at h
    obtain ⟨t, ht1, ht2, ht3⟩ := ih r (by simpa using h) (k + 1) (fun i b hb hk => hn (i + 1) b (by simpa using hb) (by
      rw [show k + (i + 1) = k + 1 + i by omega]; exact hk))
    have hfun : (fun i x => if keep (k + (i + 1)) = true then x else z) =
        fun (i : Nat) (x : β) => if keep (k + 1 + i) = true then x else z := by
      funext i x; rw [show k + (i + 1) = k + 1 + i by omega]
    rw [List.length_cons, List.range'_succ, List.map_cons, List.mapIdx_cons, List.zip_cons_cons, hfun, Nat.add_zero]
    by_cases hk : keep k = true
    · rw [hk, show (if keep (k + 0) = true then x else z) = x by simp [hk]]
      exact ⟨_, .keep _ ht1, .keep _ ht2, .keep _ ht3⟩
    · have hk' : keep k = false := by simpa using hk
      rw [hk', show (if keep (k + 0) = true then x else z) = z by simp [hk']]
      exact ⟨t, .drop _ ⟨hn 0 a (by simp) (by simpa using hk'), rfl⟩ ht1, .drop _ trivial ht2, .drop _ trivial ht3⟩

/-- C135, Jacobian: if every order parameter that is not listed for the cell vanishes there and is not advected, the loop over
the listed order parameters is the loop over all of them applied to the increment without those of the order
parameters that are not listed. -/
theorem C135_vmult_partial (mg n : Nat) (h1 : 1 ≤ n) (h2 : n ≤ mg) (p : Par K) (lin : List (Blk K V))
    (src : List (K × V)) (hlin : lin.length = n + 2) (hsrc : src.length = n + 2) (keep : Nat → Bool)
    (hnull : ∀ i b, keep i = false → lin[i + 2]? = some b → NeglectedLin b) :
    ∃ r, vmultNt mg p lin src (relevant n keep) = .ok r ∧ vmultAll mg p lin (truncate keep src) = .ok r := by
  obtain ⟨b0, b1, gs, rfl, hgs⟩ := two lin n hlin
  obtain ⟨s0, s1, ds, rfl, hds⟩ := two src n hsrc
  obtain ⟨t, ht, ht1, ht2⟩ := drop_zip (NeglectedLin (K := K) (V := V)) ((0 : K), (0 : V)) gs ds (by omega) 2 (active keep)
    (fun i a ha hk => by
      refine hnull i a ?_ (by simpa using ha)
      simpa [active, show ¬ 2 + i < 2 by omega] using hk)
  rw [hgs] at ht ht1 ht2
  have hD1 : Drop (fun _ => True) ((List.range' 0 (n + 2)).map (active keep)) (b0 :: b1 :: gs) (b0 :: b1 :: t.map (·.1)) := by
    rw [flags_two]; exact .keep _ (.keep _ ht1)
  have hD2 : Drop (fun _ => True) ((List.range' 0 (n + 2)).map (active keep)) (s0 :: s1 :: ds) (s0 :: s1 :: t.map (·.2)) := by
    rw [flags_two]; exact .keep _ (.keep _ ht2)
  obtain ⟨d1, d2⟩ := dispatch_ok mg n h1 h2
  have hle : t.length ≤ n := by have := ht1.le; rw [List.length_map] at this; omega
  obtain ⟨u, w, e, e', hel, hsp, hr', hr⟩ := vmult_drop p b0.val b1.val b0.buf s0.1 s1.1 b0.grad b1.grad s0.2 s1.2
    (ht.map (null' := NullPair)
      (fun t => (({ eta := t.1.val, grad := t.1.grad, vel := t.1.vel, buf := t.1.buf } : Grain K V), t.2))
      fun b hb => ⟨hb.1.1, hb.1.2, by rw [hb.2], by rw [hb.2]⟩)
  have htr : truncate keep (s0 :: s1 :: ds) =
      s0 :: s1 :: ds.mapIdx (fun i x => if active keep (2 + i) then x else (0, 0)) := by
    unfold truncate
    rw [List.mapIdx_cons, List.mapIdx_cons]
    simp only [show active keep 0 = true by simp [active], show active keep (0 + 1) = true by simp [active], if_true]
    congr 3
    funext i x
    rw [show i + 1 + 1 = 2 + i by omega]
  have hz1 : (gs.zip (ds.mapIdx fun i x => if active keep (2 + i) then x else ((0 : K), (0 : V)))).map Prod.fst = gs :=
    List.map_fst_zip (by simp [hgs, hds])
  have hz2 : (gs.zip (ds.mapIdx fun i x => if active keep (2 + i) then x else ((0 : K), (0 : V)))).map Prod.snd =
      ds.mapIdx fun i x => if active keep (2 + i) then x else ((0 : K), (0 : V)) :=
    List.map_snd_zip (by simp [hgs, hds])
  refine ⟨(u.1, u.2) :: (w.1, w.2) :: e, ?_, ?_⟩
  · have hg1 := hD1.gather []
    have hg2 := hD2.gather []
    rw [List.nil_append, List.length_nil] at hg1 hg2
    unfold vmultNt
    dsimp only
    rw [vmultBlocks_eq, hg1, hg2, d2 _ (by simp) (by simp [hds]), Res.ok_bind, Res.ok_bind,
      d2 _ (by simp) (by simp; omega), Res.ok_bind, Res.ok_bind, toPoint, Res.ok_bind, toIncr, Res.ok_bind]
    simp only [List.map_map, Function.comp_def] at hr' ⊢
    rw [hr', Res.ok_bind]
    have hs := scatter_spread (β := K × V) ((List.range' 0 (n + 2)).map (active keep))
      ((u.1, u.2) :: (w.1, w.2) :: e') [] (by
        rw [← hD2.length.1, List.length_cons, List.length_cons, List.length_cons, List.length_cons, hel,
          List.length_map, List.length_map])
    rw [List.nil_append, List.nil_append, List.length_nil] at hs
    have hz : ((s0 :: s1 :: ds).map fun _ => ((0 : K), (0 : V))) =
        ((List.range' 0 (n + 2)).map (active keep)).map fun _ => (0 : K × V) := by
      rw [List.map_const', List.map_const', List.length_map, List.length_range', hsrc]; rfl
    rw [hz, rows, hs, flags_two, spread, spread, hsp]
  · unfold vmultAll
    rw [htr, show (s0 :: s1 :: ds.mapIdx (fun i x => if active keep (2 + i) then x else ((0 : K), (0 : V)))).length - 2 = n by
      simp [hds], d1, Res.ok_bind, toPoint, Res.ok_bind, toIncr, Res.ok_bind]
    simp only [List.map_map, Function.comp_def] at hr
    have e1 : (gs.zip (ds.mapIdx fun i x => if active keep (2 + i) then x else ((0 : K), (0 : V)))).map
        (fun t => ({ eta := t.1.val, grad := t.1.grad, vel := t.1.vel, buf := t.1.buf } : Grain K V)) =
        gs.map fun b => ({ eta := b.val, grad := b.grad, vel := b.vel, buf := b.buf } : Grain K V) := by
      conv_rhs => rw [← hz1, List.map_map]
      rfl
    rw [e1] at hr
    have e2 := hz2
    change (gs.zip (ds.mapIdx fun i x => if active keep (2 + i) then x else ((0 : K), (0 : V)))).map (fun t => t.2) = _ at e2
    rw [e2] at hr
    rw [hr, Res.ok_bind, rows]

private theorem scatter_other {α : Type} [Add α] (idx : List Nat) (rs dst : List α) (r : List α) (b : Nat) (hb : b ∉ idx)
    (h : scatter dst idx rs = .ok r) : r[b]? = dst[b]? := by
  induction idx generalizing rs dst with
  | nil => simp only [scatter, Res.ok.injEq] at h; rw [h]
  | cons a idx ih =>
    rw [List.mem_cons, not_or] at hb
    cases rs with
    | nil => simp only [scatter, Res.ok.injEq] at h; rw [h]
    | cons x rs =>
      rw [scatter] at h
      split at h
      · rw [ih _ _ hb.2 h, List.getElem?_set_ne (Ne.symm hb.1)]
      · cases h

private theorem not_mem_blocks (n : Nat) (keep : Nat → Bool) (i : Nat) (hk : keep i = false) :
    i + 2 ∉ vmultBlocks (relevant n keep) := by
  intro h
  rw [vmultBlocks, List.mem_cons, List.mem_cons, List.mem_map] at h
  rcases h with h | h | ⟨j, hj, h⟩
  · omega
  · omega
  · have : j = i := by omega
    subst this
    rw [relevant, List.mem_filter] at hj
    rw [hk] at hj; exact absurd hj.2 (by simp)

/-- C135: whatever the values, an order parameter that is not listed for a cell gets no contribution from the cell, neither to the
residual nor to the product with the Jacobian.  Where it is listed for no cell it keeps its values, also those below
the tolerance, and its rows of the Jacobian vanish. -/
theorem C135_frozen (mg n : Nat) (h254 : n ≤ 254) (p : Par K) (mode : Nat) (blocks : List (Blk K V))
    (src : List (K × V)) (keep : Nat → Bool) (i : Nat) (hk : keep i = false) (r : List (K × V)) :
    (residualNt mg p mode blocks (relevant n keep) = .ok r → i + 2 < blocks.length → r[i + 2]? = some (0, 0)) ∧
    (vmultNt mg p blocks src (relevant n keep) = .ok r → i + 2 < src.length → r[i + 2]? = some (0, 0)) := by
  have hm := not_mem_blocks n keep i hk
  constructor
  · intro h hi
    unfold residualNt at h
    dsimp only at h
    rw [residualBlocks_eq n keep h254] at h
    simp only [Res.bind_eq_ok] at h
    obtain ⟨_, _, _, _, _, _, _, _, _, _, h⟩ := h
    rw [scatter_other _ _ _ _ _ hm h, List.getElem?_map, List.getElem?_eq_getElem hi]; rfl
  · intro h hi
    unfold vmultNt at h
    dsimp only at h
    simp only [Res.bind_eq_ok] at h
    obtain ⟨_, _, _, _, _, _, _, _, _, _, _, _, _, _, h⟩ := h
    rw [scatter_other _ _ _ _ _ hm h, List.getElem?_map, List.getElem?_eq_getElem hi]; rfl

end

section calls

private theorem run_flat (n : Nat) : run false n (.vmult .flat) = none ∧ run false n (.internal .flat) = none := by
  induction n with
  | zero => exact ⟨rfl, rfl⟩
  | succ n ih => exact ⟨by simpa [run, next] using ih.2, by simpa [run, next] using ih.1⟩

private theorem run_block (n : Nat) : run false n (.vmult .block) = none ∧ run false n (.internal .block) = none := by
  induction n with
  | zero => exact ⟨rfl, rfl⟩
  | succ n ih => exact ⟨by simpa [run, next] using ih.2, by simpa [run, next] using ih.1⟩

/-- C135, calls: a product with the sintering operator comes to an end exactly if there is a matrix or the vector is of the type with a
varying number of blocks; without a matrix, for the other two types `vmult` and `vmult_internal` call each
other for ever. -/
theorem C135_ends (matrixBased : Bool) (v : Vec) :
    (∃ e, Ends matrixBased (.vmult v) e) ↔ (matrixBased = true ∨ v = .dynamic) := by
  constructor
  · rintro ⟨e, n, h⟩
    cases matrixBased with
    | true => exact .inl rfl
    | false =>
      cases v with
      | dynamic => exact .inr rfl
      | flat => rw [(run_flat n).1] at h; cases h
      | block => rw [(run_block n).1] at h; cases h
  · intro h
    cases matrixBased with
    | true =>
      cases v
      · exact ⟨_, 2, rfl⟩
      · exact ⟨_, 3, rfl⟩
      · exact ⟨_, 3, rfl⟩
    | false =>
      rcases h with h | h
      · cases h
      · subst h; exact ⟨_, 3, rfl⟩

end calls

section storage

open Verif.Cutoff

private theorem ptrAfter_lin (b s q : Nat) : ptrAfter b s q = b + q * s := by
  induction q with
  | zero => simp [ptrAfter]
  | succ q ih => rw [ptrAfter, ih, Nat.add_mul]; omega

private theorem valuePtr_last {K : Type} [LinearOrder K] [AddCommGroup K] (cf : Conf) (tol : K)
    (cells : List (List (Nat → List K))) (m : Mask) (h : setMask cf tol cells = .ok m) :
    m.valuePtr[cells.length]? = some (m.valuePtr.getLastD 0) := by
  rw [setMask, Res.bind_eq_ok] at h
  obtain ⟨_, _, h⟩ := h
  split at h
  · cases h
  split at h
  · cases h
  rw [mask_eq] at h
  simp only [Res.ok.injEq] at h
  rw [← h]
  dsimp only
  rw [ptrs_last, ptrs_get _ _ (by simp [componentTable])]
  rw [List.take_of_length_le (by simp [componentTable])]

/-- C135, diagonal and matrix: they are computed with the kernel for all order parameters (operator_base.h:380, 489, 611, 700-711)
which reads the linearisation point as if it were stored for all of them.  With a table in which an order parameter is not
listed for the last cell, it reads beyond the storage there. -/
theorem C135_diagonal_undefined {K X Y : Type} [LinearOrder K] [AddCommGroup K] [Zero X] [Zero Y] (cf : Conf) (tol : K)
    (h0 : 0 ≤ tol) (cells : List (List (Nat → List K))) (hl : cf.nGrains ≤ cf.nLanes) (h255 : cf.nGrains ≤ 255)
    (h2 : cf.offset = 2) (hq : 1 ≤ cf.nq) (hb : cf.nComponents ≤ cf.nBlocks)
    (hs : cf.saveAll = true → cf.nBlocks = cf.nComponents) (hg : cf.gradMask = cf.gradFill)
    (val : Nat → Nat → Nat → X) (grad : Nat → Nat → Nat → Y)
    (last : List (Nat → List K)) (hlast : cells.getLast? = some last) (b : Nat) (hbn : b < cf.nGrains)
    (hirr : ¬ Relevant tol last (2 + b)) :
    ∃ (m : Mask) (v : Cutoff.Field X) (g : Cutoff.Field Y), setMask cf tol cells = .ok m ∧
      fill cf (some m) val grad cells.length = .ok (v, g) ∧
      linValue cf (some m) v (cells.length - 1) (cf.nq - 1) cf.nGrains (1 + cf.nGrains) = .ub := by
  have hne : cells ≠ [] := by rintro rfl; simp at hlast
  have hpos : 0 < cells.length := List.length_pos_iff.2 hne
  obtain ⟨m, v, g, hm, hf, hlen, _, hc⟩ := C40_storage_partial cf tol h0 cells hne hl h255 hb hs hg val grad
  refine ⟨m, v, g, hm, hf, ?_⟩
  obtain ⟨rel, hrp, hrel, _, _, ⟨p, hp, hp1, _⟩, _⟩ := hc (cells.length - 1) last (by
    rw [← List.getLast?_eq_getElem?]; exact hlast)
  rw [show cells.length - 1 + 1 = cells.length by omega, valuePtr_last cf tol cells m hm] at hp1
  simp only [Option.some.injEq] at hp1
  rw [linValue, linBase]
  rw [Res.index_eq_ok.2 hp]
  simp only [Res.ok_bind, ptrAfter_lin]
  have hsub : rel.length + 1 ≤ cf.nGrains := by
    have hbr : b ∉ rel := fun h => hirr (by have := ((hrel b).1 h).2; rwa [h2] at this)
    have hnd : (b :: rel).Nodup := List.nodup_cons.2 ⟨hbr, hrp.imp (fun h => Nat.ne_of_lt h)⟩
    have hss : (b :: rel) ⊆ List.range cf.nGrains := by
      intro x hx
      rw [List.mem_cons] at hx
      rcases hx with rfl | hx
      · exact List.mem_range.2 hbn
      · exact List.mem_range.2 ((hrel x).1 hx).1
    have := (hnd.subperm hss).length_le
    simpa using this
  have hst : (storedComponents cf.offset rel).length = 2 + rel.length := by simp [storedComponents, h2]
  rw [hst] at hp1
  have hge : v.compact.length ≤ p + (cf.nq - 1) * (2 + cf.nGrains) + (1 + cf.nGrains) := by
    rw [hlen, hp1]
    obtain ⟨k, hk⟩ : ∃ k, cf.nq = k + 1 := ⟨cf.nq - 1, by omega⟩
    rw [hk, Nat.add_sub_cancel, Nat.add_mul, Nat.one_mul]
    have : k * (2 + rel.length) ≤ k * (2 + cf.nGrains) := Nat.mul_le_mul_left _ (by omega)
    omega
  rw [Res.index, List.getElem?_eq_none hge]

end storage

/-- The results of a cell are added: a block gets the sum of all results whose entry of the view is this block. -/
theorem C135_scatter {A : Type} [AddCommMonoid A] (idx : List Nat) (rs dst r : List A) (h : scatter dst idx rs = .ok r) (b : Nat) (d : A)
    (hd : dst[b]? = some d) : r[b]? = some (d + (((idx.zip rs).filter (·.1 == b)).map (·.2)).sum) := by
  induction idx generalizing rs dst d with
  | nil =>
    simp only [scatter, Res.ok.injEq] at h
    subst h
    simp [hd]
  | cons a idx ih =>
    cases rs with
    | nil =>
      simp only [scatter, Res.ok.injEq] at h
      subst h
      simp [hd]
    | cons x rs =>
      rw [scatter] at h
      split at h
      · rename_i e he
        by_cases hab : a = b
        · subst hab
          obtain rfl : e = d := by rw [hd] at he; exact (Option.some.inj he).symm
          have hlt : a < dst.length := (List.getElem?_eq_some_iff.1 hd).1
          rw [ih _ _ h _ (by rw [List.getElem?_set_self hlt])]
          simp [add_assoc]
        · rw [ih _ _ h _ (by rw [List.getElem?_set_ne hab]; exact hd)]
          simp [hab]
      · cases h

section
variable {K : Type} [Field K] [LinearOrder K] {V : Type} [AddCommGroup V] [Module K V]

/-- The loops over all blocks refuse a solution without order parameters or with more than instantiated; the loops over the relevant ones refuse
only the latter. -/
theorem C135_instantiated (mg : Nat) (p : Par K) (mode : Nat) (blocks : List (Blk K V)) (src : List (K × V)) :
    (blocks.length = 2 → residualAll mg p mode blocks = .exc .assertThrow) ∧ (src.length = 2 → vmultAll mg p blocks src = .exc .assertThrow) ∧
    (mg + 2 < blocks.length → residualAll mg p mode blocks = .exc .assertThrow ∧
      ∀ rel, residualNt mg p mode blocks rel = .exc .assertThrow) ∧
    (mg + 2 < src.length → vmultAll mg p blocks src = .exc .assertThrow ∧ ∀ rel, vmultNt mg p blocks src rel = .exc .assertThrow) := by
  have hA : ∀ n, ¬ (1 ≤ n ∧ n ≤ mg) → dispatchAll mg n = .exc .assertThrow := by
    intro n hn
    simp [dispatchAll, Res.assertThrow, hn]
  have hN : ∀ n, mg + 2 < n → dispatchNt mg n = .exc .assertThrow := by
    intro n hn
    have : ¬ (2 ≤ n ∧ n ≤ mg + 2) := by omega
    simp [dispatchNt, Res.assertThrow, this]
  refine ⟨fun h => ?_, fun h => ?_, fun h => ⟨?_, fun rel => ?_⟩, fun h => ⟨?_, fun rel => ?_⟩⟩
  · rw [residualAll, hA _ (by omega)]; rfl
  · rw [vmultAll, hA _ (by omega)]; rfl
  · rw [residualAll, hA _ (by omega)]; rfl
  · rw [residualNt, hN _ h]; rfl
  · rw [vmultAll, hA _ (by omega)]; rfl
  · rw [vmultNt, hN _ h]; rfl

end

/-- From 255 order parameters on, the numbers of the blocks of the residual do not fit: the last one is taken for the concentration, while the Jacobian
takes the right one. -/
theorem C135_width_violated : residualBlocks (relevant 255 fun i => i == 254) = [0, 1, 0] ∧
    vmultBlocks (relevant 255 fun i => i == 254) = [0, 1, 256] := by
  have h : relevant 255 (fun i => i == 254) = [254] := by decide +kernel
  rw [h]
  exact ⟨rfl, rfl⟩

namespace Ex135

example : scatter [(1 : Nat), 2, 3] [0, 2, 0] [10, 20, 30] = .ok [41, 2, 23] := rfl

open Verif.Mobility

/-- Two order parameters, all coefficients simple. -/
def par : Par ℚ :=
  { A := 16, B := 1, mob := ⟨1, 1/100, 4, 2, 1⟩, kappaC := 1, kappaP := 1/2, weight := 10, weightAlg := 1 }

def zeroBlk : Blk ℚ ℚ := ⟨0, 0, 0, none⟩

/-- Concentration, chemical potential and three order parameters; the second one vanishes. -/
def blocks : List (Blk ℚ ℚ) :=
  [⟨1/2, 1, -4, none⟩, ⟨1/10, 2, 0, none⟩, ⟨1/2, -1, -5, some 3⟩, zeroBlk, ⟨1/3, 1, -3, none⟩]

def keep (i : Nat) : Bool := i != 1

example : ∃ r, residualNt 4 par 2 blocks [0, 2] = .ok r ∧ residualAll 4 par 2 blocks = .ok r :=
  C135_residual_partial 4 3 (by omega) (by omega) (by omega) par 2 blocks rfl keep (by
    intro i b hi hb
    have : i = 1 := by simpa [keep] using hi
    subst this
    simp only [blocks, List.getElem?_cons_succ, List.getElem?_cons_zero, Option.some.injEq] at hb
    subst hb; exact ⟨rfl, rfl, rfl, rfl⟩)

example : residualNt 4 par 2 blocks [0, 2] ≠ .ok [0, 0, 0, 0, 0] := by decide +kernel

def incr : List (ℚ × ℚ) := [(1, 2), (3, 4), (5, 6), (7, 8), (9, 10)]

example : ∃ r, vmultNt 4 par blocks incr [0, 2] = .ok r ∧
    vmultAll 4 par blocks [(1, 2), (3, 4), (5, 6), (0, 0), (9, 10)] = .ok r :=
  C135_vmult_partial 4 3 (by omega) (by omega) par blocks incr rfl rfl keep (by
    intro i b hi hb
    have : i = 1 := by simpa [keep] using hi
    subst this
    simp only [blocks, List.getElem?_cons_succ, List.getElem?_cons_zero, Option.some.injEq] at hb
    subst hb; exact ⟨rfl, rfl⟩)

/-- C135 is violated for the residual: an order parameter below the tolerance but not zero (here 1/1000) is not damped,
its residual vanishes, and it is missing in the other rows. -/
theorem C135_tolerance_violated :
    ∃ r r' : List (ℚ × ℚ), residualNt 4 par 2 (blocks.set 3 ⟨1/1000, 0, -1/100, none⟩) [0, 2] = .ok r ∧
      residualAll 4 par 2 (blocks.set 3 ⟨1/1000, 0, -1/100, none⟩) = .ok r' ∧
      r[3]? = some (0, 0) ∧ r'[3]? ≠ some (0, 0) ∧ r[0]? ≠ r'[0]? ∧ r[2]? ≠ r'[2]? := by
  refine ⟨_, _, rfl, rfl, ?_⟩
  decide +kernel

/-- C135 is violated for the Jacobian even where the order parameter vanishes: its own row and its influence on the row of
the concentration are lost. -/
theorem C135_jacobian_violated :
    ∃ r r' : List (ℚ × ℚ), vmultNt 4 par blocks incr [0, 2] = .ok r ∧ vmultAll 4 par blocks incr = .ok r' ∧
      r[3]? = some (0, 0) ∧ r'[3]? ≠ some (0, 0) ∧ r[0]? ≠ r'[0]? := by
  refine ⟨_, _, rfl, rfl, ?_⟩
  decide +kernel

/-- The last cell does not contain the order parameters 0 and 1. -/
example : ∃ m v g, Cutoff.setMask Ex40.cf 0 Ex40.cells = .ok m ∧
    Cutoff.fill Ex40.cf (some m) (fun _ _ c => (c : Int)) (fun _ _ c => (c : Int)) 2 = .ok (v, g) ∧
    Cutoff.linValue Ex40.cf (some m) v 1 1 3 4 = .ub :=
  C135_diagonal_undefined Ex40.cf 0 (by omega) Ex40.cells (by decide) (by decide) rfl (by decide) (by decide)
    (fun _ => rfl) rfl _ _ [fun b => [if b = 4 then -3 else 0], fun _ => [0, 0]] rfl 0 (by decide) (by
      rintro ⟨v, hv, x, hx, h⟩
      change v ∈ [_, _] at hv
      rw [List.mem_cons, List.mem_singleton] at hv
      rcases hv with rfl | rfl
      · simp at hx; subst hx; simp at h
      · simp at hx; subst hx; simp at h)

/-- The call never comes to an end for a vector. -/
example : ¬ ∃ e, Ends false (.vmult .flat) e := by rw [C135_ends]; decide

example : Ends false (.vmult .dynamic) (.cellLoop .dynamic) := ⟨3, rfl⟩

end Ex135

end Verif.Props
