/-
Lemmas on the range of interactions.
-/
import Verif.Spec.Locality
import Verif.Lemmas.Relabel

set_option linter.unusedSectionVars false

namespace Verif.Locality

open Finset Verif.SinteringKernel Verif.Energy Verif.Relabel Verif.Relabel.Spec Verif.Locality.Spec
open Verif.Apps (QPt value gradient)

variable {K : Type} [Field K] [LinearOrder K] {n m d : Nat}

/-- Contribution of a point to an entry. -/
def part (q : QPt K n d) (v : K) (g : Fin d → K) (i : Fin n) : K := q.w * (v * q.N i + ∑ e, g e * q.G i e)

theorem part_unseen {q : QPt K n d} {i : Fin n} (h : ¬ Seen q i) (v : K) (g : Fin d → K) : part q v g i = 0 := by
  have h1 : q.N i = 0 := by by_contra hn; exact h (Or.inl hn)
  have h2 : ∀ e, q.G i e = 0 := fun e => by by_contra hn; exact h (Or.inr ⟨e, hn⟩)
  simp [part, h1, h2]

/-- The loop over the points is a sum of contributions. -/
theorem loop_parts (f : VPt K n m d → Res (Out K (Fin d → K))) (k : VPt K n m d → Out K (Fin d → K)) (hk : ∀ q, f q = .ok (k q)) (pts : List (VPt K n m d)) (acc : Fields K n m) :
    ∃ r, pts.foldlM (fun acc q => f q >>= fun o => .ok (submit q.1 o acc)) acc = .ok r ∧
      (∀ i, r.c i = acc.c i + (pts.map fun q => part q.1 (k q).valC (k q).gradC i).sum) ∧
      (∀ i, r.mu i = acc.mu i + (pts.map fun q => part q.1 (k q).valMu (k q).gradMu i).sum) ∧
      ∀ g i, r.eta g i = acc.eta g i + (pts.map fun q => part q.1 ((k q).etas.getD g (0, 0)).1 ((k q).etas.getD g (0, 0)).2 i).sum := by
  induction pts generalizing acc with
  | nil => exact ⟨acc, rfl, by simp, by simp, by simp⟩
  | cons q pts ih =>
    obtain ⟨r, h0, h1, h2, h3⟩ := ih (submit q.1 (k q) acc)
    refine ⟨r, ?_, fun i => ?_, fun i => ?_, fun g i => ?_⟩
    · rw [List.foldlM_cons, hk, Res.ok_bind, Res.ok_bind]
      exact h0
    · rw [h1, List.map_cons, List.sum_cons, ← add_assoc]; rfl
    · rw [h2, List.map_cons, List.sum_cons, ← add_assoc]; rfl
    · rw [h3, List.map_cons, List.sum_cons, ← add_assoc]; rfl

/-- Same contributions of the points that see the node. -/
theorem parts_same {i : Fin n} {pts pts' : List (VPt K n m d)} (hp : SameMesh i pts pts') (v v' : VPt K n m d → K) (g g' : VPt K n m d → Fin d → K)
    (h : ∀ q ∈ pts, ∀ q', q'.1 = q.1 → q'.2 = q.2 → Seen q.1 i → v q = v' q' ∧ g q = g' q') :
    (pts.map fun q => part q.1 (v q) (g q) i).sum = (pts'.map fun q => part q.1 (v' q) (g' q) i).sum := by
  induction hp with
  | nil => rfl
  | @cons q q' l l' hq _ ih =>
    rw [List.map_cons, List.map_cons, List.sum_cons, List.sum_cons, ih fun q hq => h q (List.mem_cons_of_mem _ hq)]
    congr 1
    by_cases hs : Seen q.1 i
    · obtain ⟨e1, e2⟩ := h q (by simp) q' hq.1 (hq.2 hs) hs
      rw [e1, e2, hq.1]
    · rw [part_unseen hs, part_unseen (by rw [hq.1]; exact hs)]

theorem agree_seen {pts : List (VPt K n m d)} {i : Fin n} {u u' : Fields K n m} (h : Agree pts i u u') {q : VPt K n m d} (hq : q ∈ pts) (hi : Seen q.1 i) :
    (value q.1 u.c = value q.1 u'.c ∧ gradient q.1 u.c = gradient q.1 u'.c) ∧ (value q.1 u.mu = value q.1 u'.mu ∧ gradient q.1 u.mu = gradient q.1 u'.mu) ∧
      ∀ g, value q.1 (u.eta g) = value q.1 (u'.eta g) ∧ gradient q.1 (u.eta g) = gradient q.1 (u'.eta g) :=
  ⟨value_same _ _ fun j hj => (h j ⟨q, hq, hi, hj⟩).1, value_same _ _ fun j hj => (h j ⟨q, hq, hi, hj⟩).2.1,
    fun g => value_same _ _ fun j hj => (h j ⟨q, hq, hi, hj⟩).2.2 g⟩

theorem point_same {pts : List (VPt K n m d)} {i : Fin n} {u u' b b' : Fields K n m} (hu : Agree pts i u u') (hb : Agree pts i b b') {q q' : VPt K n m d} (hq : q ∈ pts)
    (h1 : q'.1 = q.1) (h2 : q'.2 = q.2) (hi : Seen q.1 i) : point q u b = point q' u' b' := by
  obtain ⟨a1, a2, a3⟩ := agree_seen hu hq hi
  obtain ⟨b1, -, b3⟩ := agree_seen hb hq hi
  unfold point
  rw [h1, h2]
  simp only [a1.1, a1.2, a2.1, a2.2, b1.1, (a3 _).1, (a3 _).2, (b3 _).1]

theorem incr_same {pts : List (VPt K n m d)} {i : Fin n} {x x' : Fields K n m} (hx : Agree pts i x x') {q q' : VPt K n m d} (hq : q ∈ pts)
    (h1 : q'.1 = q.1) (hi : Seen q.1 i) : incr q x = incr q' x' := by
  obtain ⟨a1, a2, a3⟩ := agree_seen hx hq hi
  unfold incr
  rw [h1]
  simp only [a1.1, a1.2, a2.1, a2.2, (a3 _).1, (a3 _).2]

theorem agree_refl (pts : List (VPt K n m d)) (i : Fin n) (u : Fields K n m) : Agree pts i u u := fun _ _ => ⟨rfl, rfl, fun _ => rfl⟩

theorem history_agree {pts : List (VPt K n m d)} {j : Fin n} {order : Nat} {weights : List K} {olds olds' : List (Fields K n m)}
    (h : List.Forall₂ (Agree pts j) olds olds') {b : Fields K n m} (hb : history order weights olds = .ok b) :
    ∃ b', history order weights olds' = .ok b' ∧ Agree pts j b b' := by
  unfold history at hb ⊢
  by_cases ho : order = 0
  · rw [if_pos ho] at hb; exact nomatch hb
  rw [if_neg ho] at hb ⊢
  refine fold_rel (Agree pts j) _ _ _ ?_ Fields.zero Fields.zero (agree_refl _ _ _) b hb
  intro a a' i r ha hr
  unfold historyStep at hr ⊢
  cases hw : Res.index weights (i + 1) with
  | ok w =>
    rw [hw] at hr
    rcases forall2_get h i with ⟨e1, _⟩ | ⟨o, o', e1, e2, e3⟩
    · simp only [Res.index, e1] at hr
      exact nomatch hr
    · simp only [Res.index, e1] at hr
      simp only [Res.index, e2]
      obtain rfl := Res.ok.inj hr
      refine ⟨_, rfl, fun k hk => ?_⟩
      obtain ⟨o1, o2, o3⟩ := e3 k hk
      obtain ⟨a1, a2, a3⟩ := ha k hk
      by_cases hi : i = 0
      · simp only [if_pos hi, Fields.scale, o1, o2, o3]
        exact ⟨trivial, trivial, fun _ => trivial⟩
      · simp only [if_neg hi, Fields.scale, Fields.add, o1, o2, o3, a1, a2, a3]
        exact ⟨trivial, trivial, fun _ => trivial⟩
  | exc e => rw [hw] at hr; exact nomatch hr
  | ub => rw [hw] at hr; exact nomatch hr

/-- Old solutions that are all the same vector. -/
theorem history_const {order : Nat} {weights : List K} {olds : List (Fields K n m)} {U b : Fields K n m} (h : ∀ o ∈ olds, o = U)
    (hb : history order weights olds = .ok b) : b = U.scale (∑ j ∈ range order, weights.getD (j + 1) 0) := by
  unfold history at hb
  by_cases ho : order = 0
  · rw [if_pos ho] at hb; exact nomatch hb
  rw [if_neg ho] at hb
  clear ho
  induction order generalizing b with
  | zero =>
    obtain rfl := Res.ok.inj hb
    simp [Fields.zero, Fields.scale]
  | succ k ih =>
    rw [List.range_succ, List.foldlM_append] at hb
    cases hf : (List.range k).foldlM (historyStep weights olds) Fields.zero with
    | exc e => rw [hf] at hb; exact nomatch hb
    | ub => rw [hf] at hb; exact nomatch hb
    | ok a =>
      rw [hf, Res.ok_bind, List.foldlM_cons] at hb
      have ha := ih hf
      unfold historyStep at hb
      cases hw : weights[k + 1]? with
      | none => simp only [Res.index, hw] at hb; exact nomatch hb
      | some w =>
        cases hl : olds[k]? with
        | none => simp only [Res.index, hw, hl] at hb; exact nomatch hb
        | some o =>
          have ho := h o (List.mem_of_getElem? hl)
          simp only [Res.index, hw, hl, Res.ok_bind, List.foldlM_nil] at hb
          rw [← Res.ok.inj hb, sum_range_succ, show weights.getD (k + 1) 0 = w by rw [List.getD_eq_getElem?_getD, hw]; rfl]
          by_cases hk : k = 0
          · subst hk
            rw [if_pos rfl, sum_range_zero, zero_add, ho]
          · rw [if_neg hk, ha, ho]
            simp only [Fields.add, Fields.scale, mul_add]

theorem value_const {q : QPt K n d} (h : ∑ i, q.N i = 1) (h' : ∀ e, ∑ i, q.G i e = 0) (a : K) : value q (fun _ => a) = a ∧ gradient q (fun _ => a) = 0 := by
  constructor
  · unfold value
    rw [← sum_mul, h, one_mul]
  · funext e
    unfold gradient
    rw [← sum_mul, h' e, zero_mul]
    rfl

end Verif.Locality
