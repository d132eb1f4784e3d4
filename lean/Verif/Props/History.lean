/-
C139: the residual of a step sees the past solutions of the last steps, on the present mesh, in the present numbering of the order parameters, and with
current ghost values; restart files contain the same.
-/
import Verif.Lemmas.History
import Mathlib.Algebra.BigOperators.Ring.List
import Mathlib.Algebra.Field.Rat
import Mathlib.Data.Fin.VecNotation

namespace Verif.Props

open Verif.History
open Verif.History.Spec hiding run pass

variable {V : Type}

/-- For all sequences of passes (accepted, failed, inconsistent, refined, tracked, limited, predicted, saved) in which the tracker remaps nothing inside of
a step: no check fails, every residual reads, and every file contains, the past solutions of the specification with current ghost values, and the history
is ready for the next pass. -/
theorem C139_history_partial (l : List (Pass V)) (c : Bool) (h : Hist V) (hr : Ready h) (hp : ∀ a ∈ l, Plain a) :
    ∃ h', run l c h = .ok (h', (Spec.run l c (past h)).2.1,
        (Spec.run l c (past h)).2.2.map fun s => (⟨s.1.map fresh, s.2.map fresh⟩ : Seen V)) ∧
      Ready h' ∧ past h' = (Spec.run l c (past h)).1 := by
  induction l generalizing c h with
  | nil => exact ⟨h, rfl, hr, rfl⟩
  | cons a l ih =>
    obtain ⟨h1, e1, r1, p1⟩ := pass_mk a c h hr (hp a (by simp))
    obtain ⟨h2, e2, r2, p2⟩ := ih (Spec.pass a c (past h)).2.1 h1 r1 (fun b hb => hp b (by simp [hb]))
    refine ⟨h2, ?_, r2, ?_⟩
    · rw [run, e1]
      simp only [Res.bind]
      rw [e2, p1]
      rfl
    · rw [p2, p1]; rfl

theorem shift_own (p : Vec V) (l : List (Vec V)) : shift p l = ((p.own :: l.map fun v => v.own).dropLast).map fresh := by
  induction l generalizing p with
  | nil => rfl
  | cons v l ih =>
    rw [shift, ih, update_assign]
    rfl

/-- The tracker inside of an accepted step (`check_inconsistency`): the last solution is not remapped, the new and the older ones are. -/
theorem C139_inner (a : Pass V) (c : Bool) (h : Hist V) (hr : Ready h) (sol : V) (R : V → V) (ho : a.outcome = .success sol (some R))
    (hm : a.more = []) :
    ∃ q ql h' s, begin a c (past h) = q :: ql ∧ ql.length = h.old.length ∧ pass a c h = .ok (h', true, s) ∧
      Ready h' ∧ past h' = R sol :: (q :: ql.map R).dropLast ∧
      (past h' = (Spec.pass a c (past h)).1 ↔ h.old = [] ∨ R q = q) := by
  obtain ⟨q, ql, x, h1, hl, h2, _⟩ := prepare_mk a c h hr
  have hi : inner (some R) (⟨⟨sol, none⟩, fresh q, ql.map fresh⟩ : Hist V) = ⟨⟨R sol, none⟩, fresh q, (ql.map R).map fresh⟩ := by
    rw [inner, track_mk]; simp [fresh, List.map_map, Function.comp_def]
  obtain ⟨r, hc⟩ := commit_mk (R sol) q (ql.map R)
  have hpass : ∃ s, pass a c h = .ok ((⟨⟨R sol, none⟩, r, ((q :: ql.map R).dropLast).map fresh⟩ : Hist V), true, s) := by
    unfold pass
    rw [h2, ho, hm]
    simp only [Res.bind]
    rw [hi, hc, save_mk]
    exact ⟨_, rfl⟩
  obtain ⟨s, hs⟩ := hpass
  refine ⟨q, ql, _, s, h1, hl, hs, ready_mk _ _ _, past_mk _ _ _ _, ?_⟩
  rw [past_mk]
  unfold Spec.pass
  rw [h1, ho, hm]
  simp only [List.foldl_nil, accepted, all, Option.getD_some]
  have hold : h.old = [] ↔ ql = [] := by
    rw [← List.length_eq_zero_iff, ← hl, List.length_eq_zero_iff]
  rw [hold]
  cases ql with
  | nil => simp
  | cons v l =>
    simp only [List.map_cons, List.dropLast_cons_cons, List.map_dropLast, List.cons.injEq, true_and, reduceCtorEq, false_or]
    constructor
    · intro h; exact h.1.symm
    · intro h; exact ⟨h.symm, trivial⟩

/-- An inconsistency found after the remapping: the last solution is taken back, the remapping of the older ones is not. -/
theorem C139_inconsistent (a : Pass V) (c : Bool) (h : Hist V) (hr : Ready h) (sol : V) (R : V → V)
    (ho : a.outcome = .inconsistent sol (some R)) :
    ∃ q ql h' s, begin a c (past h) = q :: ql ∧ ql.length = h.old.length ∧ pass a c h = .ok (h', false, s) ∧
      past h' = q :: ql.map R ∧ (∀ v ∈ h'.old, ∃ x ∈ ql, v = ⟨R x, some x⟩) ∧
      (past h' = (Spec.pass a c (past h)).1 ↔ ∀ v ∈ ql, R v = v) := by
  obtain ⟨q, ql, x, h1, hl, h2, _⟩ := prepare_mk a c h hr
  have hpass : ∃ s, pass a c h = .ok ((⟨⟨q, none⟩, ⟨q, none⟩, ql.map fun v => ⟨R v, some v⟩⟩ : Hist V), false, s) := by
    unfold pass
    rw [h2, ho]
    simp only [Res.bind, innerThrown, trackBegin, remap, Verif.History.fail, Vec.change, Vec.update, fresh, Vec.zeroOut, Vec.assign, List.map_map, Function.comp_def]
    exact ⟨_, rfl⟩
  obtain ⟨s, hs⟩ := hpass
  have hpa : past (⟨⟨q, none⟩, ⟨q, none⟩, ql.map fun v => ⟨R v, some v⟩⟩ : Hist V) = q :: ql.map R := by
    simp [past, List.map_map, Function.comp_def]
  refine ⟨q, ql, _, s, h1, hl, hs, hpa, ?_, ?_⟩
  · intro v hv
    obtain ⟨y, hy, rfl⟩ := List.mem_map.mp hv
    exact ⟨y, hy, rfl⟩
  · rw [hpa]
    unfold Spec.pass
    rw [h1, ho]
    simp only [List.cons.injEq, true_and]
    constructor
    · intro he v hv
      obtain ⟨i, hi, rfl⟩ := List.mem_iff_getElem.mp hv
      have := congrArg (fun l => l[i]?) he
      simpa [List.getElem?_eq_getElem hi] using this
    · intro he
      exact (List.map_congr_left he).trans (List.map_id' _)

/-- After an accepted step everything is right again, whatever ghost values there were before. -/
theorem C139_recovers (a : Pass V) (c : Bool) (h : Hist V) (hc : h.cur.ghost = none) (sol : V) (R : Option (V → V))
    (ho : a.outcome = .success sol R) :
    ∃ h' s, pass a c h = .ok (h', true, s) ∧ Ready h' ∧ ∀ v ∈ s.saved, v.ghost = some v.own := by
  have hA : (adapt a c h).cur.ghost = none := by
    unfold adapt
    cases c with
    | false => simpa using hc
    | true => cases a.refine <;> cases a.track <;> simp [Verif.History.refine, track, trackEnd, Vec.zeroOut, Vec.change, hc]
  have hP : ∃ h1, prepare a c h = .ok h1 := by
    unfold prepare setRecent
    rw [hA]
    simp only [Option.isSome_none, Bool.false_eq_true, if_false, Res.bind]
    cases a.guess <;> exact ⟨_, rfl⟩
  obtain ⟨h1, hP⟩ := hP
  unfold pass
  rw [hP, ho]
  simp only [Res.bind]
  have hI : ∃ (x : V) (r : Vec V) (l : List V), commit (inner R { h1 with cur := ⟨sol, none⟩ }) = (⟨⟨x, none⟩, r, l.map fresh⟩ : Hist V) := by
    unfold commit
    rw [shift_own]
    cases R with
    | none => exact ⟨_, _, _, rfl⟩
    | some f => exact ⟨_, _, _, rfl⟩
  obtain ⟨x, r, l, hI⟩ := hI
  rw [hI, save_mk]
  obtain ⟨c', o', _, hf2⟩ := foldl_refine a.more x r l
  simp only
  rw [hf2]
  refine ⟨_, _, rfl, ready_mk _ _ _, ?_⟩
  intro v hv
  obtain ⟨y, _, rfl⟩ := List.mem_map.mp hv
  rfl

/-- The first step after a start from vectors without ghost values (restart with history), if neither refinement nor tracker run before: only the recent
solution has ghost values. -/
theorem C139_cold (a : Pass V) (h : Hist V) (hc : h.cur.ghost = none) (hcold : ∀ v ∈ h.old, v.ghost = none) (hf : a.refine = none)
    (ht : a.track = none) :
    ∃ h' b s, pass a true h = .ok (h', b, s) ∧
      s.reads = fresh (a.limit h.cur.own) :: h.old.map fun v => (⟨v.own, none⟩ : Vec V) := by
  have hold : h.old = h.old.map fun v => (⟨v.own, none⟩ : Vec V) := by
    refine (List.map_id' _).symm.trans (List.map_congr_left ?_)
    intro v hv
    have := hcold v hv
    rcases v with ⟨x, g⟩
    simp only at this
    subst this
    rfl
  have hP : ∃ x, prepare a true h = .ok ⟨x, fresh (a.limit h.cur.own), h.old⟩ := by
    unfold prepare setRecent adapt
    rw [hf, ht]
    simp only [if_true, Vec.change, hc, Option.isSome_none, Bool.false_eq_true, if_false, Res.bind]
    cases a.guess <;> exact ⟨_, rfl⟩
  obtain ⟨x, hP⟩ := hP
  rw [← hold]
  unfold pass
  rw [hP]
  simp only [Res.bind]
  cases a.outcome with
  | success sol R => exact ⟨_, _, _, rfl, rfl⟩
  | failure g => exact ⟨_, _, _, rfl, rfl⟩
  | inconsistent sol R => exact ⟨_, _, _, rfl, rfl⟩

theorem contribution_zero {K : Type} [Semiring K] (w : List K) (l : List K) : contribution w (l.map fun _ => (0 : K)) = 0 := by
  induction l generalizing w with
  | nil => simp [contribution]
  | cons v l ih =>
    cases w with
    | nil => simp [contribution]
    | cons a w =>
      have := ih w
      simp only [contribution, List.map_cons, List.zipWith_cons_cons, List.sum_cons] at this ⊢
      rw [this]; simp

/-- In this step owners and other ranks disagree by what the older solutions contribute; they agree in particular if all weights of older solutions vanish
(ordinary start with a first-order step). -/
theorem C139_cold_contribution {K : Type} [Ring K] (a : Pass K) (h : Hist K) (hc : h.cur.ghost = none)
    (hcold : ∀ v ∈ h.old, v.ghost = none) (hf : a.refine = none) (ht : a.track = none) (w1 : K) (w : List K) :
    ∃ h' b s, pass a true h = .ok (h', b, s) ∧
      contribution (w1 :: w) (ownerReads s.reads) =
        contribution (w1 :: w) (ghostReads s.reads) + contribution w (h.old.map fun v => v.own) ∧
      ((∀ x ∈ w, x = 0) → contribution (w1 :: w) (ownerReads s.reads) = contribution (w1 :: w) (ghostReads s.reads)) := by
  obtain ⟨h', b, s, h1, h2⟩ := C139_cold a h hc hcold hf ht
  have hkey : contribution (w1 :: w) (ownerReads s.reads) =
        contribution (w1 :: w) (ghostReads s.reads) + contribution w (h.old.map fun v => v.own) := by
    rw [h2]
    have h0 := contribution_zero w (h.old.map fun v => v.own)
    rw [List.map_map] at h0
    simp only [contribution, ownerReads, ghostReads, fresh, List.map_cons, List.map_map, List.zipWith_cons_cons, List.sum_cons, Function.comp_def,
      Option.getD_some, Option.getD_none] at h0 ⊢
    rw [h0, add_zero]
  refine ⟨h', b, s, h1, hkey, ?_⟩
  intro hw
  have : contribution w (h.old.map fun v => v.own) = 0 := by
    clear hkey hcold
    generalize h.old.map (fun v => v.own) = l
    induction w generalizing l with
    | nil => simp [contribution]
    | cons x w ih =>
      cases l with
      | nil => simp [contribution]
      | cons y l =>
        have := ih (fun z hz => hw z (by simp [hz])) l
        simp only [contribution, List.zipWith_cons_cons, List.sum_cons] at this ⊢
        rw [this, hw x (by simp)]; simp
  rw [hkey, this, add_zero]

namespace Ex139

/-- Values of two order parameters at a node. -/
abbrev W := ℤ × ℤ

def swap (x : W) : W := (x.2, x.1)

def base : Pass W := ⟨id, none, none, none, .failure (9, 9), none, []⟩

def start : Hist W := ⟨⟨(10, 1), none⟩, ⟨(0, 0), none⟩, [fresh (20, 2), fresh (30, 3)]⟩

/-- Refinement and remapping before an accepted step that is saved, a failure, an inconsistency and a predicted step. -/
def passes : List (Pass W) :=
  [{ base with refine := some fun x => (x.1 + 100, x.2), track := some swap, outcome := .success (5, 6) none, save := some true,
               more := [fun x => (x.1 + 1000, x.2)] },
   base,
   { base with outcome := .inconsistent (7, 7) none },
   { base with guess := some (8, 8), outcome := .success (11, 12) (some id), save := some false }]

theorem start_ready : Ready start := ⟨rfl, by decide⟩

theorem passes_plain : ∀ a ∈ passes, Plain a := by
  intro a ha
  simp only [passes, List.mem_cons, List.not_mem_nil, or_false] at ha
  rcases ha with rfl | rfl | rfl | rfl
  · intro f h; cases h
  · trivial
  · intro f h; cases h
  · intro f h; cases h; rfl

example : Spec.run passes true (past start) =
    ([(11, 12), (1005, 6), (1001, 110)], true,
      [([(1, 110), (2, 120), (3, 130)], [(5, 6), (1, 110), (2, 120)]),
       ([(1005, 6), (1001, 110), (1002, 120)], []),
       ([(1005, 6), (1001, 110), (1002, 120)], []),
       ([(1005, 6), (1001, 110), (1002, 120)], [(11, 12)])]) := by decide

example : ∃ h', run passes true start = .ok (h', (Spec.run passes true (past start)).2.1,
      (Spec.run passes true (past start)).2.2.map fun s => (⟨s.1.map fresh, s.2.map fresh⟩ : Seen W)) ∧
    Ready h' ∧ past h' = (Spec.run passes true (past start)).1 :=
  C139_history_partial passes true start start_ready passes_plain

/-- The history after a run of the tracker inside of a step mixes two numberings: the grain of the first order parameter is exchanged in the new solution and in
the oldest, not in the last one. -/
def checked : Pass W := { base with outcome := .success (12, 3) (some swap) }

def after : Hist W := ⟨⟨(3, 12), none⟩, ⟨(10, 1), none⟩, [fresh (10, 1), fresh (2, 20)]⟩

theorem C139_inner_violated : pass checked true start = .ok (after, true, ⟨[fresh (10, 1), fresh (20, 2), fresh (30, 3)], []⟩) ∧
    past after = [(3, 12), (10, 1), (2, 20)] ∧
    (Spec.pass checked true (past start)).1 = [(3, 12), (1, 10), (2, 20)] := by
  refine ⟨rfl, rfl, rfl⟩

/-- The same after an inconsistency found in the second search; here the ghost values of the older ones are stale, too. -/
def thrown : Pass W := { base with outcome := .inconsistent (12, 3) (some swap) }

def afterThrown : Hist W := ⟨⟨(10, 1), none⟩, ⟨(10, 1), none⟩, [⟨(2, 20), some (20, 2)⟩, ⟨(3, 30), some (30, 3)⟩]⟩

theorem C139_inconsistent_violated : pass thrown true start = .ok (afterThrown, false, ⟨[fresh (10, 1), fresh (20, 2), fresh (30, 3)], []⟩) ∧
    past afterThrown = [(10, 1), (2, 20), (3, 30)] ∧
    (Spec.pass thrown true (past start)).1 = [(10, 1), (20, 2), (30, 3)] := by
  refine ⟨rfl, rfl, rfl⟩

/-- Restart of a second-order scheme: owner and neighbour compute different residuals. -/
def restarted : Hist ℚ := ⟨⟨5, none⟩, ⟨0, none⟩, [⟨4, none⟩]⟩

def cold : Pass ℚ := ⟨id, none, none, none, .success 6 none, none, []⟩

theorem C139_cold_violated : ∃ h' b s, pass cold true restarted = .ok (h', b, s) ∧
    contribution [-2, 1/2] (ownerReads s.reads) = -8 ∧ contribution [-2, 1/2] (ghostReads s.reads) = -10 := by
  refine ⟨_, _, _, rfl, ?_, ?_⟩ <;> decide +kernel

end Ex139

end Verif.Props
