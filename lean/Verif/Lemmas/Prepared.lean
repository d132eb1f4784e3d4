import Verif.Spec.Prepared
import Mathlib.Data.List.Basic

/-! Lemmas for the life of the preconditioners. -/

set_option linter.unusedSectionVars false

namespace Verif.Prepared
open Verif.Spec.Prepared

theorem mapM_ok {α β : Type} (f : α → Res β) (g : α → β) :
    ∀ l : List α, (∀ a ∈ l, f a = .ok (g a)) → l.mapM f = .ok (l.map g)
  | [], _ => rfl
  | a :: l, h => by
    rw [List.mapM_cons, h a (by simp), Res.ok_bind, mapM_ok f g l (fun b hb => h b (by simp [hb]))]
    rfl

section
variable {S D M : Type} [DecidableEq S] [AddMonoid M]

/-- Number of matrices of blocks. -/
def nBlocks (o : Disc S D M) (s : S) : Nat := if o.own then o.unique s else o.comps s

/-- Matrices of the operator have the shape of the problem. -/
def OpInv (o : Disc S D M) (s : S) (op : Op S M) : Prop :=
  (∀ m, op.sys = some m → m.1 = s) ∧ (op.blocks = [] ∨ (op.blocks.length = nBlocks o s ∧ ∀ m ∈ op.blocks, m.1 = s))

/-- Content after an update with data `d`. -/
def held (o : Disc S D M) (k : Kind) (s : S) (d : D) : List (S × M) :=
  match k with
  | .identity | .gmg => []
  | .inverseDiagonal => [(s, o.diagonal s d)]
  | .componentBlocks | .cellBlocks | .amg | .ilu | .ic => [(s, o.system s d)]
  | .blockAmg | .blockIlu => (List.range (nBlocks o s)).map fun b => (s, o.block s d b)

/-- Work vectors have the shape of the problem, or will be made anew by the update. -/
def WorkInv (k : Kind) (s : S) (w : Option S) : Prop := k = .componentBlocks ∨ w = none ∨ (k ∈ [Kind.amg, .ilu, .ic] ∧ w = some s)

theorem opInv_clear (o : Disc S D M) (s : S) (op : Op S M) : OpInv o s op.clear :=
  ⟨fun m h => by simp [Op.clear] at h, Or.inl rfl⟩

theorem initSystem_ok (o : Disc S D M) (s : S) (d : D) (op : Op S M) (hi : o.implemented s = true) (h : OpInv o s op) :
    initSystem o s d op = .ok { op with sys := some (s, o.system s d) } := by
  unfold initSystem
  rw [if_neg (by simp [hi])]
  cases hs : op.sys with
  | none => simp [added]
  | some m =>
    have := h.1 m hs
    simp [added, zeroed, this]

theorem zipIdx_map_take_shape (o : Disc S D M) (s : S) (d : D) (n : Nat) (l : List (S × M)) (hl : l.length = n)
    (h : ∀ m ∈ l, m = (s, 0)) : addBlocks o s d n l = .ok ((List.range n).map fun b => (s, o.block s d b)) := by
  unfold addBlocks
  have hrep : l = List.replicate n (s, 0) := List.eq_replicate_iff.2 ⟨hl, h⟩
  subst hrep
  rw [mapM_ok _ (fun mb => (s, o.block s d mb.2))]
  · simp only [Res.ok_bind]
    rw [List.take_of_length_le (by simp), List.drop_of_length_le (by simp), List.append_nil]
    congr 1
    apply List.ext_getElem
    · simp
    · intro i h1 h2
      simp
  · intro a ha
    have : a.1 ∈ (List.replicate n ((s, 0) : S × M)).take n := by
      have := List.mem_zipIdx' ha
      rw [this.2]
      exact List.getElem_mem _
    have h2 := h a.1 (List.mem_of_mem_take this)
    simp [added, h2]

theorem initBlocks_ok (o : Disc S D M) (s : S) (d : D) (op : Op S M) (n : Nat) (hn : 0 < n) (hi : o.implemented s = true)
    (h : op.blocks = [] ∨ (op.blocks.length = n ∧ ∀ m ∈ op.blocks, m.1 = s)) :
    initBlocks o n s d op = .ok { op with blocks := (List.range n).map fun b => (s, o.block s d b) } := by
  unfold initBlocks
  cases hb : op.blocks with
  | nil =>
    simp only [if_neg (Nat.pos_iff_ne_zero.1 hn), Res.ok_bind]
    rw [if_neg (by simp [hi]), zipIdx_map_take_shape o s d n _ (by simp) (fun m hm => List.eq_of_mem_replicate hm)]
    rfl
  | cons x l =>
    rw [hb] at h
    obtain ⟨hlen, hsh⟩ := h.resolve_left (by simp)
    have hz : zeroBlocks n (x :: l) = .ok ((x :: l).map zeroed) := by
      unfold zeroBlocks
      rw [if_pos (by omega), List.take_of_length_le (by omega), List.drop_of_length_le (by omega), List.append_nil]
    simp only [hz, Res.ok_bind]
    rw [if_neg (by simp [hi]), zipIdx_map_take_shape o s d n _ (by simpa using hlen)]
    · rfl
    · intro m hm
      obtain ⟨y, hy, rfl⟩ := List.mem_map.1 hm
      simp [zeroed, hsh y hy]

/-- State of a part between two steps. -/
structure PartInv (i : Item S D M) (k : Kind) (s0 s : S) (x : Op S M × Part S M) : Prop where
  op : OpInv i.disc s x.1
  kind : x.2.kind = k
  single : x.2.single = decide (i.disc.unique s0 = 1)
  work : WorkInv k s x.2.work

/-- The part was updated with data `d`. -/
def Holds (o : Disc S D M) (k : Kind) (s : S) (d : D) (p : Part S M) : Prop :=
  (k = .identity ∨ p.content = held o k s d) ∧ (p.work = none ∨ p.work = some s ∨ k ∉ [Kind.componentBlocks, .amg, .ilu, .ic])

theorem nBlocks_pos (o : Disc S D M) (k : Kind) (inner : Bool) (s0 s : S) (hk : k = .blockAmg ∨ k = .blockIlu) (hf : Fits o k inner s0 s) :
    0 < nBlocks o s ∧ o.own = inner := by
  unfold nBlocks
  rcases hk with rfl | rfl
  · obtain ⟨_, h1, h2, h3⟩ := hf
    refine ⟨?_, h1⟩
    split <;> omega
  · obtain ⟨_, h1, h2, h3, h4⟩ := hf
    refine ⟨?_, h1⟩
    split <;> omega

theorem blocks_inv (o : Disc S D M) (s : S) (d : D) (op : Op S M) (h : ∀ m, op.sys = some m → m.1 = s) :
    OpInv o s { op with blocks := (List.range (nBlocks o s)).map fun b => (s, o.block s d b) } :=
  ⟨h, Or.inr ⟨by simp, fun m hm => by obtain ⟨b, _, rfl⟩ := List.mem_map.1 hm; rfl⟩⟩

theorem refresh_ok (i : Item S D M) (k : Kind) (s0 s : S) (d : D) (x : Op S M × Part S M) (h : PartInv i k s0 s x)
    (hf : Fits i.disc k i.inner s0 s) :
    ∃ y, refresh i s d x = .ok y ∧ PartInv i k s0 s y ∧ Holds i.disc k s d y.2 := by
  obtain ⟨op, p⟩ := x
  obtain ⟨hop, hk, hsg, hw⟩ := h
  simp only at hop hk hsg hw
  have hi := hf.1
  have hsysInv : OpInv i.disc s { op with sys := some (s, i.disc.system s d) } :=
    ⟨fun m hm => by simp at hm; rw [← hm], hop.2⟩
  -- the matrices before `do_update`
  have key : ∃ op', refresh i s d (op, p) = updatePart i.disc s d op' p ∧ OpInv i.disc s op' ∧
      (entity k = .system → op'.sys = some (s, i.disc.system s d)) ∧
      (i.inner = false → entity k = .blocks → op'.blocks = (List.range (nBlocks i.disc s)).map fun b => (s, i.disc.block s d b)) := by
    unfold refresh
    simp only
    by_cases hin : i.inner = true
    · rw [if_pos hin, initSystem_ok i.disc s d op hi hop, Res.ok_bind]
      exact ⟨_, rfl, hsysInv, fun _ => rfl, fun h => by simp [hin] at h⟩
    · rw [if_neg hin, hk]
      cases he : entity k with
      | none => exact ⟨op, rfl, hop, fun h => by simp at h, fun _ h => by simp at h⟩
      | system =>
        rw [initSystem_ok i.disc s d op hi hop, Res.ok_bind]
        exact ⟨_, rfl, hsysInv, fun _ => rfl, fun _ h => by simp at h⟩
      | blocks =>
        have hkb : k = .blockAmg ∨ k = .blockIlu := by cases k <;> simp_all [entity]
        obtain ⟨hpos, hown⟩ := nBlocks_pos i.disc k i.inner s0 s hkb hf
        have hown' : i.disc.own = false := by rw [hown]; simpa using hin
        have hn : i.disc.comps s = nBlocks i.disc s := by simp [nBlocks, hown']
        simp only
        rw [hn, initBlocks_ok i.disc s d op _ hpos hi hop.2, Res.ok_bind]
        exact ⟨_, rfl, blocks_inv i.disc s d op hop.1, fun h => by simp at h, fun _ _ => rfl⟩
  obtain ⟨op', hr, hop', hs, hb⟩ := key
  rw [hr]
  -- the matrices of the blocks at `do_update`
  have hget : k = .blockAmg ∨ k = .blockIlu → ∃ op'', getBlocks i.disc s d op' = .ok op'' ∧ OpInv i.disc s op'' ∧
      op''.blocks = (List.range (nBlocks i.disc s)).map fun b => (s, i.disc.block s d b) := by
    intro hkb
    obtain ⟨hpos, hown⟩ := nBlocks_pos i.disc k i.inner s0 s hkb hf
    unfold getBlocks
    by_cases hin : i.inner = true
    · have ho : i.disc.own = true := by rw [hown, hin]
      have hn : i.disc.unique s = nBlocks i.disc s := by simp [nBlocks, ho]
      rw [if_pos ho, hn, initBlocks_ok i.disc s d op' _ hpos hi hop'.2]
      exact ⟨_, rfl, blocks_inv i.disc s d op' hop'.1, rfl⟩
    · have ho : i.disc.own = false := by rw [hown]; simpa using hin
      rw [if_neg (by simp [ho])]
      refine ⟨op', rfl, hop', hb (by simpa using hin) ?_⟩
      rcases hkb with rfl | rfl <;> rfl
  have hwork : ∀ q : Part S M, q.work = p.work → (k ≠ .componentBlocks) →
      (q.work = none ∨ q.work = some s ∨ k ∉ [Kind.componentBlocks, .amg, .ilu, .ic]) := by
    intro q hq hkc
    rcases hw with h | h | h
    · exact absurd h hkc
    · exact Or.inl (hq.trans h)
    · exact Or.inr (Or.inl (hq.trans h.2))
  unfold updatePart
  rw [hk]
  cases k with
  | identity => exact ⟨_, rfl, ⟨hop', hk, hsg, hw⟩, Or.inl rfl, hwork p rfl (by simp)⟩
  | inverseDiagonal =>
    simp only [hi, if_true]
    exact ⟨_, rfl, ⟨hop', rfl, hsg, hw⟩, Or.inr rfl, hwork _ rfl (by simp)⟩
  | componentBlocks =>
    simp only [hs rfl]
    exact ⟨_, rfl, ⟨hop', rfl, hsg, Or.inl rfl⟩, Or.inr rfl, Or.inl rfl⟩
  | cellBlocks =>
    simp only [hs rfl]
    exact ⟨_, rfl, ⟨hop', rfl, hsg, hw⟩, Or.inr rfl, hwork _ rfl (by simp)⟩
  | amg =>
    simp only [hs rfl]
    exact ⟨_, rfl, ⟨hop', rfl, hsg, hw⟩, Or.inr rfl, hwork _ rfl (by simp)⟩
  | ilu =>
    simp only [hs rfl]
    exact ⟨_, rfl, ⟨hop', rfl, hsg, hw⟩, Or.inr rfl, hwork _ rfl (by simp)⟩
  | ic =>
    simp only [hs rfl]
    exact ⟨_, rfl, ⟨hop', rfl, hsg, hw⟩, Or.inr rfl, hwork _ rfl (by simp)⟩
  | blockAmg =>
    obtain ⟨op'', h1, h2, h3⟩ := hget (Or.inl rfl)
    simp only [h1, Res.ok_bind]
    exact ⟨_, rfl, ⟨h2, rfl, hsg, hw⟩, Or.inr h3, hwork _ rfl (by simp)⟩
  | blockIlu =>
    obtain ⟨op'', h1, h2, h3⟩ := hget (Or.inr rfl)
    simp only [h1, Res.ok_bind]
    have hc : p.single = false ∨ op''.blocks.length = 1 := by
      obtain ⟨_, hown, _, hu, h | h⟩ := hf
      · left
        rw [hsg]
        simp [h.1]
      · right
        rw [h3]
        simp only [List.length_map, List.length_range, nBlocks]
        split
        · exact h.2.1
        · next ho =>
          have := hu (by rw [← hown]; simpa using ho)
          omega
    rw [if_pos hc]
    exact ⟨_, rfl, ⟨h2, rfl, hsg, hw⟩, Or.inr h3, hwork _ rfl (by simp)⟩
  | gmg => exact absurd hf.2 (by simp)

theorem blockMatrix_ok (s : S) (l : List (S × M)) (b : Nat) (m : M) (h : l[b]? = some (s, m)) : blockMatrix s l b = .ok m := by
  unfold blockMatrix
  rw [Res.index_eq_ok.2 h]
  simp [usable]

theorem range_blocks (o : Disc S D M) (s : S) (d : D) (n : Nat) (h : o.comps s ≤ n) :
    (List.range (o.comps s)).mapM (blockMatrix s ((List.range n).map fun b => (s, o.block s d b))) =
      .ok ((List.range (o.comps s)).map fun b => o.block s d b) := by
  apply mapM_ok
  intro b hb
  apply blockMatrix_ok
  have : b < n := by have := List.mem_range.1 hb; omega
  simp [this]

theorem map_one (o : Disc S D M) (s : S) (d : D) (h : o.unique s = o.comps s) :
    (List.range (o.comps s)).map (fun b => o.block s d b) =
      (List.range (o.comps s)).map (fun b => o.block s d (if o.unique s = 1 then 0 else b)) := by
  apply List.map_congr_left
  intro b hb
  have := List.mem_range.1 hb
  split
  · rw [show b = 0 by omega]
  · rfl

theorem applyPart_ok (i : Item S D M) (k : Kind) (s0 s : S) (d : D) (x : Op S M × Part S M) (h : PartInv i k s0 s x)
    (hf : Fits i.disc k i.inner s0 s) (hh : Holds i.disc k s d x.2) :
    ∃ p, applyPart i.disc s x.2 = .ok (wanted i.disc k s d, p) ∧ PartInv i k s0 s (x.1, p) ∧ Holds i.disc k s d p := by
  obtain ⟨op, p⟩ := x
  obtain ⟨hop, hk, hsg, hw⟩ := h
  obtain ⟨hc, hwk⟩ := hh
  simp only at hop hk hsg hw hc hwk
  have sysCase : k ∈ [Kind.componentBlocks, .amg, .ilu, .ic] → workShape s p = s := by
    intro hm
    unfold workShape
    rcases hwk with h | h | h
    · simp [h]
    · simp [h]
    · exact absurd hm h
  unfold applyPart
  rw [hk]
  cases k with
  | identity => exact ⟨_, rfl, ⟨hop, hk, hsg, hw⟩, hc, hwk⟩
  | inverseDiagonal =>
    simp only
    rw [blockMatrix_ok s p.content 0 _ (by rw [hc.resolve_left (by simp)]; rfl)]
    exact ⟨_, rfl, ⟨hop, hk, hsg, hw⟩, hc, hwk⟩
  | cellBlocks =>
    simp only
    rw [blockMatrix_ok s p.content 0 _ (by rw [hc.resolve_left (by simp)]; rfl)]
    exact ⟨_, rfl, ⟨hop, hk, hsg, hw⟩, hc, hwk⟩
  | componentBlocks =>
    simp only
    rw [if_pos (sysCase (by simp)), blockMatrix_ok s p.content 0 _ (by rw [hc.resolve_left (by simp)]; rfl)]
    exact ⟨_, rfl, ⟨hop, rfl, hsg, Or.inl rfl⟩, hc, Or.inr (Or.inl rfl)⟩
  | amg =>
    simp only
    rw [if_pos (sysCase (by simp)), blockMatrix_ok s p.content 0 _ (by rw [hc.resolve_left (by simp)]; rfl)]
    exact ⟨_, rfl, ⟨hop, rfl, hsg, Or.inr (Or.inr ⟨by simp, rfl⟩)⟩, hc, Or.inr (Or.inl rfl)⟩
  | ilu =>
    simp only
    rw [if_pos (sysCase (by simp)), blockMatrix_ok s p.content 0 _ (by rw [hc.resolve_left (by simp)]; rfl)]
    exact ⟨_, rfl, ⟨hop, rfl, hsg, Or.inr (Or.inr ⟨by simp, rfl⟩)⟩, hc, Or.inr (Or.inl rfl)⟩
  | ic =>
    simp only
    rw [if_pos (sysCase (by simp)), blockMatrix_ok s p.content 0 _ (by rw [hc.resolve_left (by simp)]; rfl)]
    exact ⟨_, rfl, ⟨hop, rfl, hsg, Or.inr (Or.inr ⟨by simp, rfl⟩)⟩, hc, Or.inr (Or.inl rfl)⟩
  | blockAmg =>
    obtain ⟨_, hown, hpos, hu⟩ := hf
    have hn : nBlocks i.disc s = i.disc.comps s := by unfold nBlocks; split <;> omega
    have hcont : p.content = (List.range (nBlocks i.disc s)).map fun b => (s, i.disc.block s d b) := hc.resolve_left (by simp)
    simp only
    rw [hcont, range_blocks i.disc s d _ (by omega), map_one i.disc s d hu]
    exact ⟨_, rfl, ⟨hop, hk, hsg, hw⟩, hc, hwk⟩
  | blockIlu =>
    obtain ⟨_, hown, hpos, hu0, h⟩ := hf
    have hcont : p.content = (List.range (nBlocks i.disc s)).map fun b => (s, i.disc.block s d b) := hc.resolve_left (by simp)
    simp only
    rcases h with ⟨h1, hu⟩ | ⟨h1, hu, h20⟩
    · have hn : nBlocks i.disc s = i.disc.comps s := by unfold nBlocks; split <;> omega
      rw [if_neg (by simp [hsg, h1]), hcont, range_blocks i.disc s d _ (by omega), map_one i.disc s d hu]
      exact ⟨_, rfl, ⟨hop, hk, hsg, hw⟩, hc, hwk⟩
    · have hn : 0 < nBlocks i.disc s := by unfold nBlocks; split <;> omega
      rw [if_pos (by simp [hsg, h1]), hcont, blockMatrix_ok s _ 0 (i.disc.block s d 0) (by simp [hn]), Res.ok_bind, if_pos h20]
      have : List.replicate (i.disc.comps s) (i.disc.block s d 0) = wanted i.disc .blockIlu s d := by
        unfold wanted
        simp only [hu, if_true]
        apply List.ext_getElem
        · simp
        · intro n h1 h2
          simp
      rw [this]
      exact ⟨_, rfl, ⟨hop, hk, hsg, hw⟩, hc, hwk⟩
  | gmg => exact absurd hf.2 (by simp)

/-! ### All parts -/

/-- Invariant of all parts; `ks` are items and classes. -/
def AllInv (ks : List (Item S D M × Kind)) (s0 s : S) (l : List (Item S D M × Op S M × Part S M)) : Prop :=
  List.Forall₂ (fun ik x => x.1 = ik.1 ∧ PartInv ik.1 ik.2 s0 s x.2) ks l

/-- All parts hold data `d`. -/
def AllHold (ks : List (Item S D M × Kind)) (s : S) (d : D) (l : List (Item S D M × Op S M × Part S M)) : Prop :=
  List.Forall₂ (fun ik x => Holds ik.1.disc ik.2 s d x.2.2) ks l

theorem refreshAll_ok (s0 s : S) (d : D) : ∀ (ks : List (Item S D M × Kind)) (l : List (Item S D M × Op S M × Part S M)),
    (∀ ik ∈ ks, Fits ik.1.disc ik.2 ik.1.inner s0 s) → AllInv ks s0 s l →
    ∃ l', refreshAll s d l = .ok l' ∧ AllInv ks s0 s l' ∧ AllHold ks s d l'
  | [], l, _, h => by
    cases h
    exact ⟨[], rfl, .nil, .nil⟩
  | ik :: ks, l, hf, h => by
    obtain ⟨x, l, ⟨hx, hp⟩, ht, rfl⟩ : ∃ x l', (x.1 = ik.1 ∧ PartInv ik.1 ik.2 s0 s x.2) ∧ AllInv ks s0 s l' ∧ l = x :: l' := by
      cases h with | cons h1 h2 => exact ⟨_, _, h1, h2, rfl⟩
    obtain ⟨y, hy, hyi, hyh⟩ := refresh_ok ik.1 ik.2 s0 s d x.2 hp (hf ik (by simp))
    obtain ⟨l', hl, hli, hlh⟩ := refreshAll_ok s0 s d ks l (fun a ha => hf a (by simp [ha])) ht
    refine ⟨(x.1, y) :: l', ?_, .cons ⟨hx, hyi⟩ hli, .cons hyh hlh⟩
    unfold refreshAll at hl ⊢
    rw [List.mapM_cons, hx, hy, Res.ok_bind, Res.ok_bind, hl]
    rfl

theorem applyMap_ok (s0 s : S) (d : D) : ∀ (ks : List (Item S D M × Kind)) (l : List (Item S D M × Op S M × Part S M)),
    (∀ ik ∈ ks, Fits ik.1.disc ik.2 ik.1.inner s0 s) → AllInv ks s0 s l → AllHold ks s d l →
    ∃ r, (l.mapM fun x => do
        let y ← applyPart x.1.disc s x.2.2
        .ok (y.1, x.1, x.2.1, y.2) : Res (List (List M × Item S D M × Op S M × Part S M))) = .ok r ∧
      r.map (·.1) = ks.map (fun ik => wanted ik.1.disc ik.2 s d) ∧ AllInv ks s0 s (r.map (·.2)) ∧ AllHold ks s d (r.map (·.2))
  | [], l, _, h, _ => by
    cases h
    exact ⟨[], rfl, rfl, .nil, .nil⟩
  | ik :: ks, l, hf, h, hh => by
    obtain ⟨x, l, ⟨hx, hp⟩, ht, rfl⟩ : ∃ x l', (x.1 = ik.1 ∧ PartInv ik.1 ik.2 s0 s x.2) ∧ AllInv ks s0 s l' ∧ l = x :: l' := by
      cases h with | cons h1 h2 => exact ⟨_, _, h1, h2, rfl⟩
    obtain ⟨h1, h2⟩ := List.forall₂_cons.1 hh
    obtain ⟨p, hpok, hpi, hph⟩ := applyPart_ok ik.1 ik.2 s0 s d x.2 hp (hf ik (by simp)) h1
    obtain ⟨r, hr, hro, hri, hrh⟩ := applyMap_ok s0 s d ks l (fun a ha => hf a (by simp [ha])) ht h2
    refine ⟨(wanted ik.1.disc ik.2 s d, x.1, x.2.1, p) :: r, ?_, by simp [hro], .cons ⟨hx, hpi⟩ hri, .cons hph hrh⟩
    rw [List.mapM_cons, hx, hpok, Res.ok_bind, Res.ok_bind, hr]
    rfl

theorem applyAll_ok (ks : List (Item S D M × Kind)) (s0 s : S) (d : D) (l : List (Item S D M × Op S M × Part S M))
    (hf : ∀ ik ∈ ks, Fits ik.1.disc ik.2 ik.1.inner s0 s) (h : AllInv ks s0 s l) (hh : AllHold ks s d l) :
    ∃ l', applyAll s l = .ok (ks.map (fun ik => wanted ik.1.disc ik.2 s d), l') ∧ AllInv ks s0 s l' ∧ AllHold ks s d l' := by
  obtain ⟨r, hr, ho, hi, hl⟩ := applyMap_ok s0 s d ks l hf h hh
  refine ⟨_, ?_, hi, hl⟩
  unfold applyAll
  rw [hr, Res.ok_bind, ho]

theorem clearAll_inv (s0 s s' : S) : ∀ (ks : List (Item S D M × Kind)) (l : List (Item S D M × Op S M × Part S M)),
    AllInv ks s0 s l → AllInv ks s0 s' (clearAll l)
  | [], l, h => by
    cases h
    exact .nil
  | ik :: ks, l, h => by
    obtain ⟨x, l, ⟨hx, hp⟩, ht, rfl⟩ : ∃ x l', (x.1 = ik.1 ∧ PartInv ik.1 ik.2 s0 s x.2) ∧ AllInv ks s0 s l' ∧ l = x :: l' := by
      cases h with | cons h1 h2 => exact ⟨_, _, h1, h2, rfl⟩
    have hkind : x.2.2.clear.kind = ik.2 := by
      rw [← hp.kind]
      unfold Part.clear
      cases hk : x.2.2.kind <;> simp [hk]
    have hsingle : x.2.2.clear.single = decide (ik.1.disc.unique s0 = 1) := by
      rw [← hp.single]
      unfold Part.clear
      cases hk : x.2.2.kind <;> simp
    have hwork : WorkInv ik.2 s' x.2.2.clear.work := by
      have h1 := hp.work
      have h2 := hp.kind
      unfold WorkInv at h1 ⊢
      unfold Part.clear
      rw [h2]
      cases hk : ik.2 <;> simp_all
    exact .cons ⟨hx, opInv_clear ik.1.disc s' x.2.1, hkind, hsingle, hwork⟩ (clearAll_inv s0 s s' ks l ht)

/-! ### Newton steps -/

/-- Number of linear iterations of the last step. -/
def lastLinear (past : List (D × Nat)) : Nat := (past.getLast?.map (·.2)).getD 0

/-- State of a run with the steps `past` since the last change. -/
structure RunInv (c : Newton) (ks : List (Item S D M × Kind)) (s0 : S) (past : List (D × Nat)) (st : St S D M) : Prop where
  parts : AllInv ks s0 st.shape st.parts
  count : st.newtonCount = past.length
  last : st.linearLast = lastLinear past
  held : past ≠ [] → ∃ d, Source c.thresholdNewton c.thresholdLinear past d ∧ AllHold ks st.shape d st.parts

theorem due_append {every limit : Nat} {past : List (D × Nat)} {it : D × Nat} {j : Nat} (hj : j ≤ past.length) :
    Due every limit (past ++ [it]) j ↔ (every ∣ j ∨ (0 < j ∧ ∃ x, past[j - 1]? = some x ∧ limit < x.2)) := by
  unfold Due
  constructor
  · rintro (h | ⟨x, h0, hx, hl⟩)
    · exact Or.inl h
    · rw [List.getElem?_append_left (by omega)] at hx
      exact Or.inr ⟨h0, x, hx, hl⟩
  · rintro (h | ⟨h0, x, hx, hl⟩)
    · exact Or.inl h
    · refine Or.inr ⟨x, h0, ?_, hl⟩
      rw [List.getElem?_append_left (by omega)]
      exact hx

theorem due_now {every limit : Nat} {past : List (D × Nat)} {it : D × Nat} :
    Due every limit (past ++ [it]) past.length ↔ (past.length % every = 0 ∨ limit < lastLinear past) := by
  rw [due_append (Nat.le_refl _)]
  unfold lastLinear
  rw [List.getLast?_eq_getElem?]
  constructor
  · rintro (h | ⟨h0, x, hx, hl⟩)
    · exact Or.inl (Nat.mod_eq_zero_of_dvd h)
    · right
      rw [hx]
      simpa using hl
  · rintro (h | h)
    · exact Or.inl (Nat.dvd_of_mod_eq_zero h)
    · right
      cases hx : past[past.length - 1]? with
      | none => rw [hx] at h; simp at h
      | some x =>
        refine ⟨?_, x, rfl, by rw [hx] at h; simpa using h⟩
        by_contra h0
        have : past = [] := List.length_eq_zero_iff.1 (by omega)
        subst this
        simp at hx

theorem source_now {every limit : Nat} {past : List (D × Nat)} {it : D × Nat} (h : Due every limit (past ++ [it]) past.length) :
    Source every limit (past ++ [it]) it.1 :=
  ⟨past.length, it.2, by simp, h, fun i h1 h2 => by simp at h2; omega⟩

theorem source_keep {every limit : Nat} {past : List (D × Nat)} {it : D × Nat} {d : D}
    (h : ¬ Due every limit (past ++ [it]) past.length) (hs : Source every limit past d) : Source every limit (past ++ [it]) d := by
  obtain ⟨j, n, hj, hd, hl⟩ := hs
  have hjl : j < past.length := by
    by_contra hc
    rw [List.getElem?_eq_none (by omega)] at hj
    simp at hj
  refine ⟨j, n, by rw [List.getElem?_append_left hjl]; exact hj, ?_, ?_⟩
  · rw [due_append (by omega)]
    rcases hd with h | ⟨x, h0, hx, hlx⟩
    · exact Or.inl h
    · exact Or.inr ⟨h0, x, hx, hlx⟩
  · intro i h1 h2
    by_cases hi : i = past.length
    · rw [hi]; exact h
    · have hil : i < past.length := by simp at h2; omega
      intro hd'
      apply hl i h1 hil
      rw [due_append (by omega)] at hd'
      rcases hd' with h | ⟨h0, x, hx, hlx⟩
      · exact Or.inl h
      · exact Or.inr ⟨x, h0, hx, hlx⟩

theorem newtonStep_ok (c : Newton) (hc : c.thresholdNewton ≠ 0) (ks : List (Item S D M × Kind)) (s0 : S) (past : List (D × Nat))
    (st : St S D M) (it : D × Nat) (hf : ∀ ik ∈ ks, Fits ik.1.disc ik.2 ik.1.inner s0 st.shape) (h : RunInv c ks s0 past st) :
    ∃ d st', Source c.thresholdNewton c.thresholdLinear (past ++ [it]) d ∧
      newtonStep c st it = .ok (ks.map (fun ik => wanted ik.1.disc ik.2 st.shape d), st') ∧ st'.shape = st.shape ∧
      RunInv c ks s0 (past ++ [it]) st' := by
  unfold newtonStep
  rw [if_neg hc]
  have hlast : it.2 = lastLinear (past ++ [it]) := by simp [lastLinear]
  by_cases hd : Due c.thresholdNewton c.thresholdLinear (past ++ [it]) past.length
  · have hcond : st.newtonCount % c.thresholdNewton = 0 ∨ c.thresholdLinear < st.linearLast := by
      rw [h.count, h.last]; exact due_now.1 hd
    rw [if_pos hcond]
    obtain ⟨l, hl, hi, hh⟩ := refreshAll_ok s0 st.shape it.1 ks st.parts hf h.parts
    obtain ⟨l', hl', hi', hh'⟩ := applyAll_ok ks s0 st.shape it.1 l hf hi hh
    simp only [hl, Res.ok_bind, hl']
    exact ⟨it.1, _, source_now hd, rfl, rfl, hi', by simp [h.count], hlast, fun _ => ⟨it.1, source_now hd, hh'⟩⟩
  · have hcond : ¬ (st.newtonCount % c.thresholdNewton = 0 ∨ c.thresholdLinear < st.linearLast) := by
      rw [h.count, h.last]; exact fun hx => hd (due_now.2 hx)
    rw [if_neg hcond]
    have hne : past ≠ [] := by
      rintro rfl
      exact hd (Or.inl (by simp))
    obtain ⟨d, hs, hh⟩ := h.held hne
    obtain ⟨l', hl', hi', hh'⟩ := applyAll_ok ks s0 st.shape d st.parts hf h.parts hh
    simp only [Res.ok_bind, hl']
    exact ⟨d, _, source_keep hd hs, rfl, rfl, hi', by simp [h.count], hlast, fun _ => ⟨d, source_keep hd hs, hh'⟩⟩

theorem steps_cons (past : List (D × Nat)) (it : D × Nat) (its : List (D × Nat)) :
    steps past (it :: its) = (past ++ [it]) :: steps (past ++ [it]) its := by
  unfold steps
  rw [List.length_cons, List.range_succ_eq_map, List.map_cons, List.map_map]
  simp [Function.comp_def]

/-- One step used the matrices it should. -/
def StepOk (c : Newton) (ks : List (Item S D M × Kind)) (sh : S × List (D × Nat)) (out : List (List M)) : Prop :=
  ∃ d, Source c.thresholdNewton c.thresholdLinear sh.2 d ∧ out = ks.map fun ik => wanted ik.1.disc ik.2 sh.1 d

theorem newtonLoop_ok (c : Newton) (hc : c.thresholdNewton ≠ 0) (ks : List (Item S D M × Kind)) (s0 : S) :
    ∀ (its past : List (D × Nat)) (st : St S D M), (∀ ik ∈ ks, Fits ik.1.disc ik.2 ik.1.inner s0 st.shape) → RunInv c ks s0 past st →
    ∃ outs st', newtonLoop c its st = .ok (outs, st') ∧ st'.shape = st.shape ∧ RunInv c ks s0 (past ++ its) st' ∧
      List.Forall₂ (StepOk c ks) ((steps past its).map fun h => (st.shape, h)) outs
  | [], past, st, _, h => ⟨[], st, rfl, rfl, by simpa using h, by simp [steps]⟩
  | it :: its, past, st, hf, h => by
    obtain ⟨d, st', hs, hok, hsh, hi⟩ := newtonStep_ok c hc ks s0 past st it hf h
    obtain ⟨outs, st'', hok', hsh', hi', hall⟩ := newtonLoop_ok c hc ks s0 its (past ++ [it]) st' (by rw [hsh]; exact hf) hi
    refine ⟨(ks.map fun ik => wanted ik.1.disc ik.2 st.shape d) :: outs, st'', ?_, hsh'.trans hsh, by simpa using hi', ?_⟩
    · unfold newtonLoop
      rw [hok, Res.ok_bind, hok', Res.ok_bind]
    · rw [steps_cons, List.map_cons]
      exact .cons ⟨d, hs, rfl⟩ (by rw [← hsh]; exact hall)

/-- Events of the run as events of the problem. -/
def toEv : Event S D → Ev S D
  | .solve its => .solve its
  | .reshape s => .change s
  | .failed => .reset

theorem clearNewton_inv (c : Newton) (ks : List (Item S D M × Kind)) (s0 : S) (st : St S D M) (h : AllInv ks s0 st.shape st.parts) :
    RunInv c ks s0 [] (clearNewton st) :=
  ⟨h, rfl, rfl, fun hn => absurd rfl hn⟩

theorem run_ok (c : Newton) (hc : c.thresholdNewton ≠ 0) (ks : List (Item S D M × Kind)) (s0 : S) :
    ∀ (es : List (Event S D)) (past : List (D × Nat)) (st : St S D M), RunInv c ks s0 past st →
    (∀ s ∈ st.shape :: shapes (es.map toEv), ∀ ik ∈ ks, Fits ik.1.disc ik.2 ik.1.inner s0 s) →
    ∃ outs st', run c es st = .ok (outs, st') ∧
      List.Forall₂ (List.Forall₂ (StepOk c ks)) (trace c.reuse (es.map toEv) st.shape past) outs
  | [], past, st, _, _ => ⟨[], st, rfl, .nil⟩
  | e :: es, past, st, h, hf => by
    cases e with
    | solve its =>
      have hf' : ∀ s ∈ st.shape :: shapes (es.map toEv), ∀ ik ∈ ks, Fits ik.1.disc ik.2 ik.1.inner s0 s := hf
      have hstart : RunInv c ks s0 (if c.reuse then past else []) (if c.reuse = false then clearNewton st else st) := by
        cases hr : c.reuse with
        | true => simpa using h
        | false => simpa using clearNewton_inv c ks s0 st h.parts
      have hshape : (if c.reuse = false then clearNewton st else st).shape = st.shape := by split <;> rfl
      obtain ⟨o, st', h1, h2, h3, h4⟩ := newtonLoop_ok c hc ks s0 its _ _ (by rw [hshape]; exact hf' st.shape (by simp)) hstart
      rw [hshape] at h2
      obtain ⟨outs, st'', h5, h6⟩ := run_ok c hc ks s0 es _ st' h3 (by rw [h2]; exact hf')
      refine ⟨o :: outs, st'', ?_, ?_⟩
      · unfold run event
        simp only
        rw [h1, Res.ok_bind, h5, Res.ok_bind]
      · simp only [List.map_cons, toEv, trace]
        rw [hshape] at h4
        rw [h2] at h6
        exact .cons h4 h6
    | reshape s =>
      have hi : RunInv c ks s0 [] { clearNewton { st with parts := clearAll st.parts } with shape := s } :=
        ⟨clearAll_inv s0 st.shape s ks st.parts h.parts, rfl, rfl, fun hn => absurd rfl hn⟩
      obtain ⟨outs, st'', h5, h6⟩ := run_ok c hc ks s0 es [] _ hi
        (fun t ht => hf t (by simp only [List.map_cons, toEv, shapes]; exact List.mem_cons_of_mem _ ht))
      refine ⟨[] :: outs, st'', ?_, ?_⟩
      · unfold run event
        simp only [Res.ok_bind]
        rw [h5, Res.ok_bind]
      · simp only [List.map_cons, toEv, trace]
        exact .cons .nil h6
    | failed =>
      have hi : RunInv c ks s0 [] (clearNewton { st with parts := clearAll st.parts }) :=
        ⟨clearAll_inv s0 st.shape st.shape ks st.parts h.parts, rfl, rfl, fun hn => absurd rfl hn⟩
      obtain ⟨outs, st'', h5, h6⟩ := run_ok c hc ks s0 es [] _ hi (fun t ht => hf t (by simpa [toEv, shapes, clearNewton] using ht))
      refine ⟨[] :: outs, st'', ?_, ?_⟩
      · unfold run event
        simp only [Res.ok_bind]
        rw [h5, Res.ok_bind]
      · simp only [List.map_cons, toEv, trace]
        exact .cons .nil h6

end
end Verif.Prepared
