/-
C137: answers of the grain tracker after a run.
-/
import Verif.Lemmas.Cycle

namespace Verif.Props

open Verif.Spec Verif.Cycle Verif.Cycle.Spec

section
variable {P K : Type} [Field K] [LinearOrder K] {c : Conf P K} {inter : P × K → P × K → Prop}

/-- In all runs: the question for the grain in an order parameter at a cell is never undefined; it throws exactly if the last
search did not see the order parameter or the cell; and a grain it names is in the table, has the segment, and was kept in this
order parameter *before* the last reassignment. -/
theorem C137_answers (hq : QueryContract inter c.query) (hcc : CCContract c.cc)
    (hcol : ColorContract c.reassign.color) (hsort : SortContract c.reassign.sortBy) (hd : c.reassign.diag = true)
    {st : Cycle.State P K} (h : Runs c st) (b cell : Nat) :
    grainAt st b cell ≠ .ub ∧
    (grainAt st b cell = .exc .assertThrow ↔ (st.pids[b]?.bind fun row => row[cell]?) = none) ∧ RightBefore st := by
  have hi := (run_spec hq hcc hcol hsort hd h).1
  obtain ⟨h1, h2, -⟩ := grainAt_spec hi b cell
  exact ⟨h2, h1, fun b cell => (grainAt_spec hi b cell).2.2⟩

/-- If the tracker looks again after a reassignment (advection or boundary conditions need it), all answers are right.
Missing: otherwise they are not, `C137_stale`. -/
theorem C137_again_partial (hq : QueryContract inter c.query) (hcc : CCContract c.cc)
    (hcol : ColorContract c.reassign.color) (hsort : SortContract c.reassign.sortBy) (hd : c.reassign.diag = true)
    (ha : c.again = true) {st : Cycle.State P K} (h : Runs c st) : Right st := by
  obtain ⟨hi, hop⟩ := run_spec hq hcc hcol hsort hd h
  intro b cell g s hg
  obtain ⟨R, h1, h2, h3⟩ := (grainAt_spec hi b cell).2.2 g s hg
  exact ⟨R, h1, by rw [hop ha g R h1, h2], h3⟩

/-- Without looking again the answers are right exactly if no grain that is found anywhere was reassigned. -/
theorem C137_right_iff (hq : QueryContract inter c.query) (hcc : CCContract c.cc)
    (hcol : ColorContract c.reassign.color) (hsort : SortContract c.reassign.sortBy) (hd : c.reassign.diag = true)
    {st : Cycle.State P K} (h : Runs c st) :
    Right st ↔ ∀ b cell g s R, grainAt st b cell = .ok (some (some g, s)) → st.tr.grains.get? g = some R →
      R.op = R.oldOp := by
  have hi := (run_spec hq hcc hcol hsort hd h).1
  constructor
  · intro hr b cell g s R hg hR
    obtain ⟨R1, e1, e2, -⟩ := hr b cell g s hg
    obtain ⟨R2, f1, f2, -⟩ := (grainAt_spec hi b cell).2.2 g s hg
    rw [hR] at e1 f1
    simp only [Option.some.injEq] at e1 f1
    subst e1; subst f1
    rw [e2, f2]
  · intro hx b cell g s hg
    obtain ⟨R, h1, h2, h3⟩ := (grainAt_spec hi b cell).2.2 g s hg
    exact ⟨R, h1, by rw [hx b cell g s R hg h1, h2], h3⟩

/-- A reassigned grain is not found in the order parameter that holds it: the question there is answered by another grain, by
none, or by an exception. -/
theorem C137_stale (hq : QueryContract inter c.query) (hcc : CCContract c.cc)
    (hcol : ColorContract c.reassign.color) (hsort : SortContract c.reassign.sortBy) (hd : c.reassign.diag = true)
    {st : Cycle.State P K} (h : Runs c st) {g : Nat} {R : Grain P K} (hR : st.tr.grains.get? g = some R)
    (hop : R.op ≠ R.oldOp) (cell s : Nat) : grainAt st R.op cell ≠ .ok (some (some g, s)) := by
  have hi := (run_spec hq hcc hcol hsort hd h).1
  intro hg
  obtain ⟨R1, e1, e2, -⟩ := (grainAt_spec hi R.op cell).2.2 g s hg
  rw [hR, Option.some.injEq] at e1
  subst e1
  exact hop e2.symm

/-- The number written for a piece of a contour: if the tracker looks again it is that of a grain in this order parameter, the
invalid number for a grain that was dropped, or 0 where there is no particle at all, i.e. the number of a grain. -/
theorem C137_label_partial (hq : QueryContract inter c.query) (hcc : CCContract c.cc)
    (hcol : ColorContract c.reassign.color) (hsort : SortContract c.reassign.sortBy) (hd : c.reassign.diag = true)
    (ha : c.again = true) {st : Cycle.State P K} (h : Runs c st) (b cell g : Nat) (hl : label st b cell = .ok (some g)) :
    (∃ R, st.tr.grains.get? g = some R ∧ R.op = b) ∨ (g = 0 ∧ grainAt st b cell = .ok none) := by
  unfold label at hl
  obtain ⟨e, he, hl⟩ := Res.bind_eq_ok.1 hl
  cases e with
  | none =>
    simp only [Res.ok.injEq, Option.some.injEq] at hl
    exact .inr ⟨hl.symm, he⟩
  | some e =>
    obtain ⟨g', s⟩ := e
    simp only [Res.ok.injEq] at hl
    subst hl
    obtain ⟨R, h1, h2, -⟩ := C137_again_partial hq hcc hcol hsort hd ha h b cell g s he
    exact .inl ⟨R, h1, h2⟩

end

namespace Ex137

open Ex06

/-- Boxes of particles on the line. -/
def meets (a b : ℚ × ℚ) : Prop := a.1 - a.2 ≤ b.1 + b.2 ∧ b.1 - b.2 ≤ a.1 + a.2

instance (a b : ℚ × ℚ) : Decidable (meets a b) := inferInstanceAs (Decidable (_ ∧ _))

/-- The search for boxes. -/
def ask (boxes : List (ℚ × ℚ)) (b : ℚ × ℚ) : List Nat :=
  (List.range boxes.length).filter fun i => match boxes[i]? with | some a => decide (meets a b) | none => false

theorem ask_contract : QueryContract meets ask := by
  intro boxes b i
  unfold ask
  rw [List.mem_filter, List.mem_range]
  constructor
  · rintro ⟨h1, h2⟩
    rw [List.getElem?_eq_getElem h1] at h2
    exact ⟨boxes[i], List.getElem?_eq_getElem h1, of_decide_eq_true h2⟩
  · rintro ⟨a, h1, h2⟩
    refine ⟨(List.getElem?_eq_some_iff.1 h1).1, ?_⟩
    rw [h1]
    exact decide_eq_true h2

def conf (again : Bool) : Conf ℚ ℚ :=
  ⟨gQ, ccExec, ask, ⟨1/2, true⟩, ⟨0, 1, 10, true, greedyColor, sortDesc⟩, false, true, again⟩

/-- Two particles of one order parameter close to each other, four cells. -/
def seen : Seen ℚ ℚ := ⟨[⟨[segQ 0, segQ (5/2)], []⟩], [[some 0, some 0, some 1, some 1]]⟩

/-- After the remapping. -/
def seen' : Seen ℚ ℚ :=
  ⟨[⟨[segQ 0], []⟩, ⟨[segQ (5/2)], []⟩], [[some 0, some 0, none, none], [none, none, some 0, some 0]]⟩

/-- Three grains, two of one order parameter; the cell 1 belongs to grains 1 and 2. -/
def seen3 : Seen ℚ ℚ :=
  ⟨[⟨[segQ 0, segQ 2], []⟩, ⟨[segQ (5/2)], []⟩], [[some 0, some 1], [none, some 0]]⟩

def start (n : Nat) : Cycle.State ℚ ℚ := ⟨⟨[], [], []⟩, [], [], n⟩

/-- Grain and its order parameters now and before. -/
def table (st : Cycle.State ℚ ℚ) : List (Nat × Nat × Nat) := st.tr.grains.map fun p => (p.1, p.2.op, p.2.oldOp)

/-- After the remapping of the three grains. -/
def seen3' : Seen ℚ ℚ :=
  ⟨[⟨[segQ 0], []⟩, ⟨[segQ 2], []⟩, ⟨[segQ (5/2)], []⟩], [[some 0, none], [none, some 0], [none, some 0]]⟩

theorem fits : Fits seen ∧ Fits seen' ∧ Fits seen3 ∧ Fits seen3' := by
  have key : ∀ s : Seen ℚ ℚ, (s.pids.length = s.ops.length) → (∀ x ∈ s.pids.zip s.ops, ∀ p ∈ x.1, ∀ q, p = some q →
      q < x.2.parts.length) → (∀ x ∈ s.ops, x.conns = []) → Fits s := by
    intro s h1 h2 h3
    refine ⟨h1, ?_, ?_⟩
    · intro b row x hr hx p hp
      refine h2 (row, x) ?_ (some p) hp p rfl
      refine List.mem_iff_getElem?.2 ⟨b, ?_⟩
      rw [List.getElem?_zip_eq_some]
      exact ⟨hr, hx⟩
    · intro x hx c hc
      rw [h3 x hx] at hc
      cases hc
  refine ⟨key _ rfl ?_ ?_, key _ rfl ?_ ?_, key _ rfl ?_ ?_, key _ rfl ?_ ?_⟩ <;>
    simp [seen, seen', seen3, seen3']

/-- One run of the tracker is a run. -/
theorem one (c : Conf ℚ ℚ) (s s' : Seen ℚ ℚ) (h : Fits s) (h' : Fits s') (n k : Nat) (hn : s.ops.length = n)
    (hk : s'.ops.length = k) (hs : ((setup c false s n).bind fun r => .ok r.1.active.length) = .ok k) (st : Cycle.State ℚ ℚ)
    (hr : runTracker c true s s' (start n) = .ok st) : Runs c st := by
  refine Runs.init s s' (start n) st h h' hn ?_ hr
  intro r hr'
  rw [show (start n).n = n from rfl] at hr'
  rw [hr'] at hs
  simp only [Res.bind, Res.ok.injEq] at hs
  rw [hk, hs]

/-- What is asked of the result of a run. -/
def asked {α : Type} (c : Conf ℚ ℚ) (s s' : Seen ℚ ℚ) (n : Nat) (f : Cycle.State ℚ ℚ → α) : Res α :=
  (runTracker c true s s' (start n)).bind fun st => .ok (f st)

theorem asked_ok {α : Type} {c : Conf ℚ ℚ} {s s' : Seen ℚ ℚ} {n : Nat} {f : Cycle.State ℚ ℚ → α} {a : α}
    (h : asked c s s' n f = .ok a) : ∃ st, runTracker c true s s' (start n) = .ok st ∧ f st = a := by
  obtain ⟨st, h1, h2⟩ := Res.bind_eq_ok.1 h
  rw [Res.ok.injEq] at h2
  exact ⟨st, h1, h2⟩

instance : DecidableEq (Res (Option (Option Nat × Nat))) := inferInstance

/-- Without looking again: grain 1 is moved to the new order parameter 1; at its cell the question for this order parameter
throws, and the order parameter it has left still names it.  (Output looks again before it asks, see `C142_right`.) -/
theorem C137_throws_violated : ∃ st, Runs (conf false) st ∧ table st = [(0, 0, 0), (1, 1, 0)] ∧
    grainAt st 1 3 = .exc .assertThrow ∧ grainAt st 0 3 = .ok (some (some 1, 0)) ∧ ¬ Right st := by
  have h : asked (conf false) seen seen' 1 (fun st => (table st, grainAt st 1 3, grainAt st 0 3)) =
      .ok ([(0, 0, 0), (1, 1, 0)], .exc .assertThrow, .ok (some (some 1, 0))) := by decide +kernel
  obtain ⟨st, h1, h2⟩ := asked_ok h
  simp only [Prod.mk.injEq] at h2
  refine ⟨st, one (conf false) seen seen' fits.1 fits.2.1 1 2 rfl rfl (by decide +kernel) st h1, h2.1, h2.2.1, h2.2.2, ?_⟩
  intro hr
  obtain ⟨R, e1, e2, -⟩ := hr 0 3 1 0 h2.2.2
  have hm : ((1, R.op, R.oldOp) : Nat × Nat × Nat) ∈ table st :=
    List.mem_map.2 ⟨(1, R), OMap.mem_of_get? e1, rfl⟩
  rw [h2.1] at hm
  simp [e2] at hm

/-- With looking again the hypotheses of the theorems are met by a run with a reassignment, and the answer is right. -/
example : ∃ st, Runs (conf true) st ∧ table st = [(0, 0, 0), (1, 1, 1)] ∧ grainAt st 1 3 = .ok (some (some 1, 0)) ∧
    Right st := by
  have h : asked (conf true) seen seen' 1 (fun st => (table st, grainAt st 1 3)) =
      .ok ([(0, 0, 0), (1, 1, 1)], .ok (some (some 1, 0))) := by decide +kernel
  obtain ⟨st, h1, h2⟩ := asked_ok h
  simp only [Prod.mk.injEq] at h2
  have hr := one (conf true) seen seen' fits.1 fits.2.1 1 2 rfl rfl (by decide +kernel) st h1
  exact ⟨st, hr, h2.1, h2.2,
    C137_again_partial ask_contract ccExec_contract greedyColor_contract sortDesc_contract rfl rfl hr⟩

end Ex137

end Verif.Props
