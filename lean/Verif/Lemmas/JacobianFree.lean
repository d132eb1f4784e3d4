import Verif.Spec.JacobianFree
import Mathlib.Algebra.BigOperators.Group.List.Lemmas
import Mathlib.Tactic.Ring
import Mathlib.Tactic.Positivity
import Mathlib.Tactic.Linarith

namespace Verif.JacobianFree

open Verif

/-- Everything before a cell is the pre operation and cells. -/
theorem before_cell_aux {c : Nat} {b' e' : Nat} : ∀ (A B : List Act) (cs : List Nat),
    A ++ Act.cell c :: B = cs.map Act.cell ++ [Act.post b' e'] → ∃ cs' : List Nat, A = cs'.map Act.cell
  | [], _, _, _ => ⟨[], rfl⟩
  | a :: A, B, [], h => by
    simp at h
  | a :: A, B, c0 :: cs, h => by
    simp only [List.map_cons, List.cons_append, List.cons.injEq] at h
    obtain ⟨cs', h'⟩ := before_cell_aux A B cs h.2
    exact ⟨c0 :: cs', by simp [h.1, h']⟩

theorem before_cell {c : Nat} {b e b' e' : Nat} {A B : List Act} {cs : List Nat}
    (h : A ++ Act.cell c :: B = Act.pre b e :: (cs.map Act.cell ++ [Act.post b' e'])) :
    ∃ cs' : List Nat, A = Act.pre b e :: cs'.map Act.cell := by
  cases A with
  | nil => simp at h
  | cons a A =>
    simp only [List.cons_append, List.cons.injEq] at h
    obtain ⟨cs', h'⟩ := before_cell_aux A B cs h.2
    exact ⟨cs', by rw [h.1, h']⟩

/-- Effect of a call on one entry if the cells see `u1`: `s` is the entry of the source, `r` the one of the residual, `f` the contributions. -/
noncomputable def entryStep (h s r : ℝ) (f : Nat → ℝ) (x : ℝ × ℝ) : Act → ℝ × ℝ
  | .pre _ _ => (x.1 + h * s, 0)
  | .cell c => (x.1, x.2 + f c)
  | .post _ _ => (x.1 - h * s, (x.2 - r) * (1 / h))

theorem entry_cells (h s r : ℝ) (f : Nat → ℝ) : ∀ (cs : List Nat) (x : ℝ × ℝ),
    (cs.map Act.cell).foldl (entryStep h s r f) x = (x.1, x.2 + (cs.map f).sum)
  | [], x => by simp
  | c :: cs, x => by
    simp only [List.map_cons, List.foldl_cons, List.sum_cons]
    rw [entry_cells h s r f cs]
    simp [entryStep, add_assoc]

theorem sum_filter_dofs (d : Nat → Bool) (f : Nat → ℝ) (hf : ∀ c, d c = false → f c = 0) : ∀ cs : List Nat,
    ((cs.filter d).map f).sum = (cs.map f).sum
  | [] => rfl
  | c :: cs => by
    cases hd : d c
    · simp [hd, hf c hd, sum_filter_dofs d f hf cs]
    · simp [hd, sum_filter_dofs d f hf cs]

theorem filterMap_filter {n : Nat} (dofs : Nat → Fin n → Bool) (i : Fin n) : ∀ acts : List Act,
    (acts.filter (touches dofs i)).filterMap cellOf = (acts.filterMap cellOf).filter (fun c => dofs c i)
  | [] => rfl
  | a :: acts => by
    have ih := filterMap_filter dofs i acts
    cases a with
    | pre b e =>
      by_cases h : touches dofs i (.pre b e) = true
      · rw [List.filter_cons_of_pos h]; simpa [List.filterMap_cons, cellOf] using ih
      · rw [List.filter_cons_of_neg h]; simpa [List.filterMap_cons, cellOf] using ih
    | post b e =>
      by_cases h : touches dofs i (.post b e) = true
      · rw [List.filter_cons_of_pos h]; simpa [List.filterMap_cons, cellOf] using ih
      · rw [List.filter_cons_of_neg h]; simpa [List.filterMap_cons, cellOf] using ih
    | cell c =>
      by_cases h : dofs c i = true
      · rw [List.filter_cons_of_pos (by simpa [touches] using h)]
        simp [cellOf, h, ih]
      · rw [List.filter_cons_of_neg (by simpa [touches] using h)]
        simp [cellOf, h, ih]

theorem sum_apply {nb n : Nat} (l : List (Vec nb n)) (k : Fin nb) (i : Fin n) : l.sum k i = (l.map fun v => v k i).sum := by
  induction l with
  | nil => rfl
  | cons v l ih => simp [ih]

section

variable {nb n : Nat} {F : Type} [AddCommMonoid F]

/-- A cell loop that meets its contract, with the operations of `JacobianFree`. -/
theorem loop_closed (h : ℝ) (src res : Vec nb n) (dofs : Nat → Fin n → Bool) (cellDst : Nat → Vec nb n → Vec nb n)
    (cellAcc : Nat → Vec nb n → F) (cells : List Nat) (acts : List Act) (hs : Schedule n dofs cells acts)
    (hl : LocalCells dofs cellDst cellAcc) (s : St nb n F) :
    loop (preOp h src) (postOp h res src) cellDst cellAcc acts s = .ok
      { u := s.u
        dst := fun k i => (((cells.map fun c => cellDst c (s.u + h • src)).sum : Vec nb n) k i - res k i) * (1 / h)
        acc := s.acc + (cells.map fun c => cellAcc c (s.u + h • src)).sum } := by
  have key : ∀ (m : Nat) (p q : List Act), p.length = m → acts = p ++ q → ∃ t,
      loop (preOp h src) (postOp h res src) cellDst cellAcc p s = .ok t ∧
      (∀ k i, (t.u k i, t.dst k i) = (p.filter (touches dofs i)).foldl
        (entryStep h (src k i) (res k i) (fun c => cellDst c (s.u + h • src) k i)) (s.u k i, s.dst k i)) ∧
      t.acc = s.acc + ((p.filterMap cellOf).map fun c => cellAcc c (s.u + h • src)).sum := by
    intro m
    induction m with
    | zero =>
      intro p q hp hpq
      have : p = [] := List.length_eq_zero_iff.mp hp
      subst this
      exact ⟨s, rfl, by simp, by simp⟩
    | succ m ih =>
      intro p q hp hpq
      have hne : p ≠ [] := by intro h0; simp [h0] at hp
      obtain ⟨p', a, rfl⟩ : ∃ p' a, p = p' ++ [a] := ⟨p.dropLast, p.getLast hne, (List.dropLast_append_getLast hne).symm⟩
      have hp' : p'.length = m := by simpa using hp
      have hpq' : acts = p' ++ (a :: q) := by rw [hpq]; simp
      obtain ⟨t, ht, htu, hta⟩ := ih p' (a :: q) hp' hpq'
      have hmem : a ∈ acts := by rw [hpq']; simp
      have hrun : loop (preOp h src) (postOp h res src) cellDst cellAcc (p' ++ [a]) s =
          step (preOp h src) (postOp h res src) cellDst cellAcc t a := by
        simp only [loop, List.foldlM_append] at ht ⊢
        rw [ht, Res.ok_bind, List.foldlM_cons]
        cases step (preOp h src) (postOp h res src) cellDst cellAcc t a <;> rfl
      have hext : ∀ (k : Fin nb) (i : Fin n), (t.u k i) = ((p'.filter (touches dofs i)).foldl
        (entryStep h (src k i) (res k i) (fun c => cellDst c (s.u + h • src) k i)) (s.u k i, s.dst k i)).1 ∧
        t.dst k i = ((p'.filter (touches dofs i)).foldl
        (entryStep h (src k i) (res k i) (fun c => cellDst c (s.u + h • src) k i)) (s.u k i, s.dst k i)).2 := by
        intro k i
        rw [← htu k i]
        exact ⟨rfl, rfl⟩
      cases a with
      | pre b e =>
        have hb : ¬ (b < e ∧ n < e) := by
          have := hs.bounds b e (Or.inl hmem)
          omega
        refine ⟨_, hrun.trans (by simp only [step, preOp, if_neg hb]; rfl), ?_, by simpa [List.filterMap_cons, cellOf] using hta⟩
        intro k i
        rw [List.filter_append, List.foldl_append, ← htu k i]
        by_cases hi : b ≤ i.1 ∧ i.1 < e
        · have : touches dofs i (.pre b e) = true := by simp [touches, hi]
          simp [this, hi, entryStep]
        · have : touches dofs i (.pre b e) = false := by
            simp only [touches, Bool.and_eq_false_iff, decide_eq_false_iff_not]; omega
          simp [this, hi]
      | post b e =>
        have hb : ¬ (b < e ∧ n < e) := by
          have := hs.bounds b e (Or.inr hmem)
          omega
        refine ⟨_, hrun.trans (by simp only [step, postOp, if_neg hb]; rfl), ?_, by simpa [List.filterMap_cons, cellOf] using hta⟩
        intro k i
        rw [List.filter_append, List.foldl_append, ← htu k i]
        by_cases hi : b ≤ i.1 ∧ i.1 < e
        · have : touches dofs i (.post b e) = true := by simp [touches, hi]
          simp [this, hi, entryStep]
        · have : touches dofs i (.post b e) = false := by
            simp only [touches, Bool.and_eq_false_iff, decide_eq_false_iff_not]; omega
          simp [this, hi]
      | cell c =>
        have hag : ∀ k i, dofs c i = true → t.u k i = (s.u + h • src) k i := by
          intro k i hd
          obtain ⟨b, e, cs, b', e', ho⟩ := hs.order i
          rw [hpq', List.filter_append, List.filter_cons_of_pos (by simpa [touches] using hd)] at ho
          obtain ⟨cs', hA⟩ := before_cell ho
          rw [(hext k i).1, hA, List.foldl_cons, entry_cells]
          simp [entryStep]
        have e1 := hl.readsDst c _ _ hag
        have e2 := hl.readsAcc c _ _ hag
        refine ⟨_, hrun.trans rfl, ?_, ?_⟩
        · intro k i
          rw [List.filter_append, List.foldl_append, ← htu k i]
          by_cases hd : dofs c i = true
          · have : touches dofs i (.cell c) = true := by simpa [touches] using hd
            simp [this, entryStep, e1]
          · have : touches dofs i (.cell c) = false := by simpa [touches] using hd
            have hz := hl.writes c t.u k i (by simpa using hd)
            simp [this, hz]
        · simp only [List.filterMap_append, List.map_append, List.sum_append]
          rw [hta, e2, add_assoc]
          simp [cellOf]
  obtain ⟨t, ht, htu, hta⟩ := key acts.length acts [] rfl (by simp)
  rw [ht]
  congr 1
  obtain ⟨tu, td, ta⟩ := t
  simp only at htu hta
  have hfin : ∀ k i, (tu k i, td k i) = (s.u k i, (((cells.map fun c => cellDst c (s.u + h • src)).sum : Vec nb n) k i - res k i) * (1 / h)) := by
    intro k i
    obtain ⟨b, e, cs, b', e', ho⟩ := hs.order i
    have hcs : cs = (acts.filterMap cellOf).filter (fun c => dofs c i) := by
      rw [← filterMap_filter, ho]
      simp only [List.filterMap_cons, cellOf, List.filterMap_append, List.filterMap_map, List.filterMap_nil, List.append_nil]
      have : (cellOf ∘ Act.cell) = some := by funext c; rfl
      rw [this, List.filterMap_some]
    rw [htu k i, ho, List.foldl_cons, List.foldl_append, entry_cells]
    simp only [entryStep, List.foldl_cons, List.foldl_nil, zero_add]
    rw [hcs, sum_filter_dofs (fun c => dofs c i) _ (fun c hc => hl.writes c _ k i hc)]
    rw [sum_apply, List.map_map]
    refine Prod.ext (by simp) ?_
    simp only
    congr 2
    exact ((hs.visited.map _).sum_eq)
  have hu : tu = s.u := by funext k i; exact congrArg Prod.fst (hfin k i)
  have hd : td = fun k i => (((cells.map fun c => cellDst c (s.u + h • src)).sum : Vec nb n) k i - res k i) * (1 / h) := by
    funext k i; exact congrArg Prod.snd (hfin k i)
  rw [hu, hd, hta]
  congr 2
  exact ((hs.visited.map _).sum_eq)

end

end Verif.JacobianFree
