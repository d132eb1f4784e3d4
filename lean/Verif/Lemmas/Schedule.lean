import Verif.Spec.Schedule
import Mathlib.Tactic.Ring
/-!
# Lemmas on the schedule of refinement and grain tracking
-/
namespace Verif.Schedule
open Verif.Schedule.Spec

/-- the beginning of a pass without the failure -/
def beginPure (c : Conf) (st : State) : State :=
  if st.converged then
    let s := if st.doMesh then { refine c st with lastAmr := st.n } else st
    let s := if s.doGt then { track s s.n with lastGt := s.n } else s
    if s.doMesh then { s with bcMesh := s.mesh } else s
  else st

theorem begin_ok (c : Conf) (st : State) (a : Attempt) (s : State) (h : begin c st a = .ok s) : s = beginPure c st := by
  have hr : (refine c st).doGt = st.doGt := rfl
  have hr2 : (refine c st).doMesh = st.doMesh := rfl
  unfold begin at h
  unfold beginPure
  cases h1 : st.converged <;> cases h2 : st.doMesh <;> cases h3 : st.doGt <;> cases h4 : a.gtStartFails <;>
    simp only [h1, h2, h3, h4, hr, hr2, track, Bool.false_eq_true, if_false, if_true, Res.ok_bind, Res.exc_bind, reduceCtorEq] at h ⊢ <;>
    exact (Res.ok.inj h).symm

theorem pass_ok (c : Conf) (st : State) (a : Attempt) (s : State) (h : pass c st a = .ok s) :
    ∃ s2, atSolver c st a = .ok { beginPure c st with recent := (beginPure c st).sol } ∧
      step c { beginPure c st with recent := (beginPure c st).sol } a = .ok s2 ∧ s = finish c s2 a := by
  unfold pass at h
  rw [Res.bind_eq_ok] at h
  obtain ⟨s1, h1, h⟩ := h
  rw [Res.bind_eq_ok] at h
  obtain ⟨s2, h2, h⟩ := h
  injection h with h
  have h1' := h1
  unfold atSolver at h1
  rw [Res.bind_eq_ok] at h1
  obtain ⟨s0, h0, h1⟩ := h1
  injection h1 with h1
  have := begin_ok c st a s0 h0
  subst this
  subst h1
  exact ⟨s2, h1', h2, h.symm⟩

theorem atSolver_ok (c : Conf) (st : State) (a : Attempt) (s : State) (h : atSolver c st a = .ok s) :
    s = { beginPure c st with recent := (beginPure c st).sol } := by
  unfold atSolver at h
  rw [Res.bind_eq_ok] at h
  obtain ⟨s0, h0, h1⟩ := h
  injection h1 with h1
  have := begin_ok c st a s0 h0
  subst this
  exact h1.symm

/-- fields after the beginning of a pass -/
theorem begin_fields (c : Conf) (st : State) :
    (beginPure c st).n = st.n ∧ (beginPure c st).sol = st.sol ∧ (beginPure c st).depth = st.depth ∧
    (beginPure c st).doMesh = st.doMesh ∧ (beginPure c st).doGt = st.doGt ∧ (beginPure c st).converged = st.converged ∧
    (beginPure c st).mesh = (if st.converged && st.doMesh then st.mesh + 1 else st.mesh) ∧
    (beginPure c st).gtMesh = (if st.converged && st.doGt then (beginPure c st).mesh else st.gtMesh) ∧
    (beginPure c st).bcMesh = (if st.converged && st.doMesh then (beginPure c st).mesh else st.bcMesh) ∧
    (beginPure c st).cflMesh =
      (if st.converged && st.doMesh && courant c then some (st.mesh + 1) else st.cflMesh) ∧
    (beginPure c st).amrLog = (if st.converged && st.doMesh then st.amrLog ++ [st.n] else st.amrLog) ∧
    (beginPure c st).gtLog = (if st.converged && st.doGt then st.gtLog ++ [st.n] else st.gtLog) ∧
    (beginPure c st).lastAmr = (if st.converged && st.doMesh then st.n else st.lastAmr) ∧
    (beginPure c st).lastGt = (if st.converged && st.doGt then st.n else st.lastGt) := by
  unfold beginPure refine track courant
  cases h1 : st.converged <;> cases h2 : st.doMesh <;> cases h3 : st.doGt <;> simp [h1, h2, h3]

/-- the possible ends of the step -/
inductive StepEnd (c : Conf) (s : State) (a : Attempt) : State → Prop
  | failed (d : Nat) (hd : d = s.depth ∨ d = (decideMesh c { s with sol := s.n + 1, doMesh := false, doGt := false } a).1) (sol : Nat) (hs : sol = s.recent) :
      StepEnd c s a { s with depth := d, sol := sol, converged := false, doMesh := false, doGt := false }
  | last (h : a.isLast = true) :
      StepEnd c s a { s with sol := s.n + 1, doMesh := false, doGt := false, converged := true, n := s.n + 1 }
  | checked (h : a.isLast = false) (hc : c.checkInconsistency = true) (d : Nat) (m : Bool)
      (hd : decideMesh c { s with sol := s.n + 1, doMesh := false, doGt := false } a = (d, m)) :
      StepEnd c s a { s with sol := s.n + 1, depth := d, doMesh := m, gtMesh := s.mesh, gtLog := s.gtLog ++ [s.n + 1], lastGt := s.n + 1, doGt := m && ((c.quality && c.trackWithQuality) || c.advection || c.ebc || c.output), converged := true, n := s.n + 1 }
  | plain (h : a.isLast = false) (hc : c.checkInconsistency = false) (d : Nat) (m : Bool)
      (hd : decideMesh c { s with sol := s.n + 1, doMesh := false, doGt := false } a = (d, m)) :
      StepEnd c s a { s with sol := s.n + 1, depth := d, doMesh := m, doGt := (m && c.quality && c.trackWithQuality) || c.advection || (m && c.output) || c.ebc || gtRegular c s, converged := true, n := s.n + 1 }

theorem processFailure_ok (st s : State) (a : Attempt) (h : processFailure st a = .ok s) :
    s = { st with sol := st.recent, converged := false, doMesh := false, doGt := false } := by
  unfold processFailure at h
  split at h
  · simp at h
  · injection h with h; exact h.symm

/-- without failing post-processing the step ends in one of these ways -/
theorem step_end (c : Conf) (s : State) (a : Attempt) (s2 : State) (hp : (c.fluxes && a.postFails) = false)
    (h : step c s a = .ok s2) : StepEnd c s a s2 := by
  unfold step at h
  dsimp only at h
  split at h
  · simp at h
  split at h
  · have := processFailure_ok _ _ _ h
    subst this
    exact .failed s.depth (.inl rfl) _ rfl
  split at h
  · rename_i hl
    unfold commit at h
    simp only [hp, Bool.false_eq_true, if_false] at h
    injection h with h
    subst h
    exact .last hl
  · rename_i hl
    have hl : a.isLast = false := by simpa using hl
    split at h
    · rename_i hck
      split at h
      · have := processFailure_ok _ _ _ h
        subst this
        exact .failed _ (.inr rfl) _ rfl
      · unfold commit at h
        simp only [hp, Bool.false_eq_true, if_false] at h
        injection h with h
        subst h
        exact .checked hl hck _ _ rfl
    · rename_i hck
      unfold commit at h
      simp only [hp, Bool.false_eq_true, if_false] at h
      injection h with h
      subst h
      exact .plain hl (by simpa using hck) _ _ rfl

/-- with post-processing, the step may also fail after its commit -/
theorem step_end' (c : Conf) (s : State) (a : Attempt) (s2 : State) (h : step c s a = .ok s2) :
    StepEnd c s a s2 ∨ (s2.converged = false ∧ s2.doMesh = false ∧ s2.doGt = false ∧ s2.mesh = s.mesh ∧
      (s2.gtMesh = s.gtMesh ∨ s2.gtMesh = s.mesh) ∧ s2.cflMesh = s.cflMesh ∧ s2.bcMesh = s.bcMesh) := by
  by_cases hp : (c.fluxes && a.postFails) = false
  · exact .inl (step_end c s a s2 hp h)
  rw [Bool.not_eq_false] at hp
  unfold step at h
  dsimp only at h
  split at h
  · simp at h
  split at h
  · have := processFailure_ok _ _ _ h
    subst this
    exact .inl (.failed s.depth (.inl rfl) _ rfl)
  right
  split at h
  · unfold commit at h
    simp only [hp, if_true] at h
    have := processFailure_ok _ _ _ h
    subst this
    exact ⟨rfl, rfl, rfl, rfl, .inl rfl, rfl, rfl⟩
  · split at h
    · split at h
      · have := processFailure_ok _ _ _ h
        subst this
        exact ⟨rfl, rfl, rfl, rfl, .inl rfl, rfl, rfl⟩
      · unfold commit at h
        simp only [hp, if_true] at h
        have := processFailure_ok _ _ _ h
        subst this
        exact ⟨rfl, rfl, rfl, rfl, .inr rfl, rfl, rfl⟩
    · unfold commit at h
      simp only [hp, if_true] at h
      have := processFailure_ok _ _ _ h
      subst this
      exact ⟨rfl, rfl, rfl, rfl, .inl rfl, rfl, rfl⟩

/-- the refinements after the first step -/
theorem finish_fields (c : Conf) (s : State) (a : Attempt) :
    (finish c s a).n = s.n ∧ (finish c s a).sol = s.sol ∧ (finish c s a).recent = s.recent ∧
    (finish c s a).doMesh = s.doMesh ∧ (finish c s a).doGt = s.doGt ∧ (finish c s a).converged = s.converged ∧
    (finish c s a).gtMesh = s.gtMesh ∧ (finish c s a).bcMesh = s.bcMesh ∧ (finish c s a).gtLog = s.gtLog ∧
    (finish c s a).lastGt = s.lastGt ∧
    (courant c = true → s.cflMesh = some s.mesh → (finish c s a).cflMesh = some (finish c s a).mesh) ∧
    ((c.quality = false ∨ s.converged = false ∨ a.qualityLow = false) → finish c s a = s) := by
  have key : ∀ (l : List Nat) (s : State),
      let f := l.foldl (fun (st : State) _ => { refine c { st with depth := (st.depth + 1) % 4294967296 } with lastAmr := st.n }) s
      f.n = s.n ∧ f.sol = s.sol ∧ f.recent = s.recent ∧ f.doMesh = s.doMesh ∧ f.doGt = s.doGt ∧
      f.converged = s.converged ∧ f.gtMesh = s.gtMesh ∧ f.bcMesh = s.bcMesh ∧ f.gtLog = s.gtLog ∧ f.lastGt = s.lastGt ∧
      (courant c = true → s.cflMesh = some s.mesh → f.cflMesh = some f.mesh) := by
    intro l
    induction l with
    | nil => intro s; simp
    | cons x l ih =>
      intro s
      obtain ⟨h1, h2, h3, h4, h5, h6, h7, h8, h9, h10, h11⟩ :=
        ih { refine c { s with depth := (s.depth + 1) % 4294967296 } with lastAmr := s.n }
      dsimp only
      rw [List.foldl_cons]
      refine ⟨h1, h2, h3, h4, h5, h6, h7, h8, h9, h10, fun hc _ => h11 hc ?_⟩
      unfold courant at hc
      simp [refine, hc]
  unfold finish
  split
  · rename_i hq
    obtain ⟨h1, h2, h3, h4, h5, h6, h7, h8, h9, h10, h11⟩ := key (List.range a.qualityLoop) s
    refine ⟨h1, h2, h3, h4, h5, h6, h7, h8, h9, h10, h11, ?_⟩
    simp only [Bool.and_eq_true] at hq
    rintro (h | h | h)
    · rw [h] at hq; simp at hq
    · rw [h] at hq; simp at hq
    · rw [h] at hq; simp at hq
  · exact ⟨rfl, rfl, rfl, rfl, rfl, rfl, rfl, rfl, rfl, rfl, fun _ h => h, fun _ => rfl⟩

/-- what holds between passes -/
structure Inv (c : Conf) (st : State) : Prop where
  mesh_conv : st.doMesh = true → st.converged = true
  gt_conv : st.doGt = true → st.converged = true
  mesh_gt : needsTracker c = true → st.doMesh = true → st.doGt = true
  sync : needsTracker c = true → st.gtMesh = st.mesh ∨ st.doMesh = true
  cfl : courant c = true → st.cflMesh = some st.mesh
  bc : st.bcMesh = st.mesh ∨ st.doMesh = true

/-- what holds when the solver is called -/
theorem Inv.atSolver {c : Conf} {st : State} (h : Inv c st) :
    (needsTracker c = true → (beginPure c st).gtMesh = (beginPure c st).mesh) ∧
    (courant c = true → (beginPure c st).cflMesh = some (beginPure c st).mesh) ∧
    (beginPure c st).bcMesh = (beginPure c st).mesh := by
  obtain ⟨_, _, _, _, _, _, hm, hg, hb, hcf, _⟩ := begin_fields c st
  refine ⟨fun hn => ?_, fun hc => ?_, ?_⟩
  · rw [hg]
    by_cases hd : st.doGt = true
    · simp [hd, h.gt_conv hd]
    · have hd' : st.doMesh = false := by
        cases hm' : st.doMesh
        · rfl
        · exact absurd (h.mesh_gt hn hm') hd
      simp only [hd, Bool.and_false, Bool.false_eq_true, if_false]
      rw [hm, hd']
      simp only [Bool.and_false, Bool.false_eq_true, if_false]
      exact (h.sync hn).resolve_right (by simp [hd'])
  · rw [hcf, hm, hc]
    by_cases hd : st.doMesh = true
    · simp [hd, h.mesh_conv hd]
    · simp [hd, h.cfl hc]
  · rw [hb]
    by_cases hd : st.doMesh = true
    · simp [hd, h.mesh_conv hd]
    · rw [hm]
      simp only [hd, Bool.and_false, Bool.false_eq_true, if_false]
      exact h.bc.resolve_right hd

theorem decideMesh_quality (c : Conf) (s : State) (a : Attempt) (hq : c.quality = true) :
    (decideMesh c s a).2 = a.qualityLow := by
  unfold decideMesh
  simp [hq]

theorem Inv.pass {c : Conf} {st s : State} {a : Attempt} (h : Inv c st) (ha : a.isLast = false)
    (hp : pass c st a = .ok s) : Inv c s := by
  obtain ⟨s2, _, hst, rfl⟩ := pass_ok c st a s hp
  obtain ⟨hsync, hcfl, hbc⟩ := h.atSolver
  obtain ⟨_, _, _, _, _, _, _⟩ := begin_fields c st
  obtain ⟨f1, f2, f3, f4, f5, f6, f7, f8, f9, f10, f11, f12⟩ := finish_fields c s2 a
  have fin : ∀ (hm : s2.doMesh = true → s2.converged = true) (hg : s2.doGt = true → s2.converged = true)
      (hmg : needsTracker c = true → s2.doMesh = true → s2.doGt = true)
      (hs : needsTracker c = true → s2.gtMesh = s2.mesh) (hc : courant c = true → s2.cflMesh = some s2.mesh)
      (hb : s2.bcMesh = s2.mesh)
      (hql : c.quality = true → s2.converged = true → s2.doMesh = a.qualityLow), Inv c (finish c s2 a) := by
    intro hm hg hmg hs hc hb hql
    refine ⟨?_, ?_, ?_, ?_, ?_, ?_⟩
    · rw [f4, f6]; exact hm
    · rw [f5, f6]; exact hg
    · rw [f4, f5]; exact hmg
    · intro hn
      by_cases hd : s2.doMesh = true
      · right; rw [f4]; exact hd
      · left
        have : finish c s2 a = s2 := by
          apply f12
          by_cases hq : c.quality = true
          · by_cases hcv : s2.converged = true
            · right; right
              rw [← hql hq hcv]
              simpa using hd
            · right; left; simpa using hcv
          · left; simpa using hq
        rw [this]
        exact hs hn
    · intro hcc; exact f11 hcc (hc hcc)
    · by_cases hd : s2.doMesh = true
      · right; rw [f4]; exact hd
      · left
        have : finish c s2 a = s2 := by
          apply f12
          by_cases hq : c.quality = true
          · by_cases hcv : s2.converged = true
            · right; right
              rw [← hql hq hcv]
              simpa using hd
            · right; left; simpa using hcv
          · left; simpa using hq
        rw [this]
        exact hb
  rcases step_end' c _ a s2 hst with he | ⟨e1, e2, e3, e4, e5, e6, e7⟩
  · cases he with
    | failed d hd sol hs =>
      exact fin (by simp) (by simp) (by simp) hsync hcfl hbc (by simp)
    | last hl => rw [ha] at hl; exact absurd hl (by simp)
    | checked hl hc d m hd =>
      refine fin (by simp) (by simp) ?_ (fun _ => rfl) hcfl hbc ?_
      · intro hn hm
        dsimp only at hm ⊢
        unfold needsTracker at hn
        rw [hm]
        cases h1 : c.advection <;> cases h2 : c.ebc <;> cases h3 : c.output <;> simp_all
      · intro hq _
        dsimp only
        rw [← decideMesh_quality c _ a hq, hd]
    | plain hl hc d m hd =>
      refine fin (by simp) (by simp) ?_ hsync hcfl hbc ?_
      · intro hn hm
        dsimp only at hm ⊢
        unfold needsTracker at hn
        rw [hm]
        cases h1 : c.advection <;> cases h2 : c.ebc <;> cases h3 : c.output <;> simp_all
      · intro hq _
        dsimp only
        rw [← decideMesh_quality c _ a hq, hd]
  · refine fin (by simp [e2]) (by simp [e3]) (by simp [e2]) ?_ ?_ ?_ (by simp [e1])
    · intro hn
      rw [e4]
      rcases e5 with e5 | e5
      · rw [e5]; exact hsync hn
      · exact e5
    · intro hc; rw [e6, e4]; exact hcfl hc
    · rw [e7, e4]; exact hbc

theorem run_cons (c : Conf) (st : State) (a : Attempt) (as : List Attempt) :
    run c st (a :: as) = (pass c st a >>= fun s => run c s as) := by
  unfold run
  rw [List.foldlM_cons]

theorem Inv.run {c : Conf} {st s : State} {as : List Attempt} (h : Inv c st) (ha : ∀ a ∈ as, a.isLast = false)
    (hr : run c st as = .ok s) : Inv c s := by
  induction as generalizing st with
  | nil =>
    unfold Schedule.run at hr
    injection hr with hr
    subst hr
    exact h
  | cons a as ih =>
    rw [run_cons, Res.bind_eq_ok] at hr
    obtain ⟨s1, h1, h2⟩ := hr
    exact ih (h.pass (ha a List.mem_cons_self) h1) (fun b hb => ha b (List.mem_cons_of_mem _ hb)) h2

/-- the state at the beginning of the loop -/
theorem refine_fold (c : Conf) (l : List Nat) (st : State) :
    let s := l.foldl (fun st _ => refine c st) st
    (s.n = st.n ∧ s.lastAmr = st.lastAmr ∧ s.lastGt = st.lastGt ∧ s.depth = st.depth ∧ s.doMesh = st.doMesh ∧
      s.doGt = st.doGt ∧ s.converged = st.converged ∧ s.sol = st.sol) ∧
    (l ≠ [] → courant c = true → s.cflMesh = some s.mesh) := by
  induction l generalizing st with
  | nil => simp
  | cons x l ih =>
    obtain ⟨h1, h2⟩ := ih (refine c st)
    dsimp only at h1 h2 ⊢
    rw [List.foldl_cons]
    refine ⟨h1, fun _ hc => ?_⟩
    by_cases hl : l = []
    · subst hl
      have hc' := hc
      unfold courant at hc'
      simp [refine, hc']
    · exact h2 hl hc

theorem initialMesh_fields (c : Conf) (fresh : Bool) (levels levels0 : Nat) (st : State) :
    let s := initialMesh c fresh levels levels0 st
    (s.n = st.n ∧ s.lastAmr = st.lastAmr ∧ s.lastGt = st.lastGt ∧ s.depth = st.depth ∧ s.doMesh = st.doMesh ∧
      s.doGt = st.doGt ∧ s.converged = st.converged ∧ s.sol = st.sol) ∧
    (courant c = true → s.cflMesh = some s.mesh) := by
  unfold initialMesh
  dsimp only
  split
  · have := refine_fold c (List.range (initialRefinements c levels levels0)) st
    split
    · exact ⟨this.1, fun _ => rfl⟩
    · rename_i hk
      exact ⟨this.1, this.2 (by simpa using hk)⟩
  · split
    · exact ⟨⟨rfl, rfl, rfl, rfl, rfl, rfl, rfl, rfl⟩, fun _ => rfl⟩
    · rename_i hc
      exact ⟨⟨rfl, rfl, rfl, rfl, rfl, rfl, rfl, rfl⟩, fun h => absurd h (by unfold courant; simpa using hc)⟩

theorem start_inv (c : Conf) (fresh : Bool) (levels levels0 : Nat) (st : State) :
    Inv c (start c fresh levels levels0 st) ∧
    (let s := start c fresh levels levels0 st
     s.n = st.n ∧ s.lastAmr = st.lastAmr ∧ s.lastGt = st.lastGt ∧ s.depth = st.depth ∧ s.sol = st.sol ∧
      s.doMesh = false ∧ s.doGt = false ∧ s.converged = true ∧ s.amrLog = [] ∧ s.gtLog = []) := by
  have hen : needsTracker c = true → gtEnabled c = true := by
    unfold needsTracker gtEnabled
    cases c.advection <;> cases c.ebc <;> cases c.output <;> simp
  obtain ⟨⟨h5, h6, h7, h8, h1, h2, h3, h9⟩, h4⟩ :=
    initialMesh_fields c fresh levels levels0 { st with doMesh := false, doGt := false, converged := true }
  unfold start
  generalize initialMesh c fresh levels levels0 { st with doMesh := false, doGt := false, converged := true } = s at *
  dsimp only at *
  unfold initialTrack
  by_cases hg : gtEnabled c = true
  · rw [if_pos hg]
    refine ⟨⟨?_, ?_, ?_, ?_, ?_, ?_⟩, h5, h6, h7, h8, h9, h1, h2, h3, rfl, rfl⟩
    · intro _; exact h3
    · intro _; exact h3
    · intro _ h; rw [show (track s s.n).doMesh = s.doMesh from rfl, h1] at h; simp at h
    · intro _; exact .inl rfl
    · exact h4
    · exact .inl rfl
  · rw [if_neg hg]
    refine ⟨⟨?_, ?_, ?_, ?_, ?_, ?_⟩, h5, h6, h7, h8, h9, h1, h2, h3, rfl, rfl⟩
    · intro _; exact h3
    · intro _; exact h3
    · intro _ h; rw [h1] at h; simp at h
    · intro hn; exact absurd (hen hn) hg
    · exact h4
    · exact .inl rfl

theorem due_succ (f n : Nat) :
    due f (n + 1) = due f n ++ (if decide (f > 0) && (n + 1) % f == 0 then [n + 1] else []) := by
  unfold due
  rw [List.range_succ, List.filter_append]
  congr 1
  by_cases h : decide (f > 0) && (n + 1) % f == 0
  · simp only [Bool.and_eq_true] at h
    simp [h.1, h.2]
  · rw [if_neg h]
    simp only [Bool.and_eq_true, not_and] at h
    simp only [Bool.and_eq_true, List.filter_cons, List.filter_nil]
    rw [if_neg]
    rintro ⟨⟨_, h2⟩, h3⟩
    exact h h2 h3

theorem mod_shift (f l n : Nat) (hl : f ∣ l) (hle : l ≤ n) :
    (decide (f > 0) && (n + 1 - l) % f == 0) = (decide (f > 0) && (n + 1) % f == 0) := by
  congr 1
  rw [Bool.eq_iff_iff, beq_iff_eq, beq_iff_eq, ← Nat.dvd_iff_mod_eq_zero, ← Nat.dvd_iff_mod_eq_zero]
  exact ⟨fun h => by have := Nat.dvd_add h hl; rwa [Nat.sub_add_cancel (by omega)] at this, fun h => Nat.dvd_sub h hl⟩

/-- steps of the refinement between passes -/
structure AmrInv (c : Conf) (st : State) : Prop where
  conv : st.doMesh = true → st.converged = true
  dvd : c.refFreq ∣ st.lastAmr
  le : st.lastAmr ≤ st.n
  now : st.doMesh = true → c.refFreq ∣ st.n
  log : st.amrLog ++ (if st.doMesh then [st.n] else []) = due c.refFreq st.n

theorem AmrInv.pass {c : Conf} {st s : State} {a : Attempt} (h : AmrInv c st) (hq : c.quality = false)
    (hx : c.extraCoarsening = false) (hf : c.fluxes = false) (ha : a.isLast = false) (hp : pass c st a = .ok s) :
    AmrInv c s := by
  obtain ⟨s2, _, hst, rfl⟩ := pass_ok c st a s hp
  rw [(finish_fields c s2 a).2.2.2.2.2.2.2.2.2.2.2 (.inl hq)]
  obtain ⟨b1, b2, b3, b4, b5, b6, b7, b8, b9, b10, b11, b12, b13, b14⟩ := begin_fields c st
  have hlog : (beginPure c st).amrLog = due c.refFreq (beginPure c st).n := by
    rw [b11, b1, ← h.log]
    by_cases hd : st.doMesh = true
    · simp [hd, h.conv hd]
    · simp [hd]
  have hdvd : c.refFreq ∣ (beginPure c st).lastAmr ∧ (beginPure c st).lastAmr ≤ (beginPure c st).n := by
    rw [b13, b1]
    by_cases hd : st.doMesh = true
    · simp only [hd, h.conv hd, Bool.and_self, if_true]
      exact ⟨h.now hd, Nat.le_refl _⟩
    · simp only [hd, Bool.and_false, Bool.false_eq_true, if_false]
      exact ⟨h.dvd, h.le⟩
  have hdm : ∀ s : State, decideMesh c s a = (s.depth, decide (c.refFreq > 0) && (s.n + 1 - s.lastAmr) % c.refFreq == 0) := by
    intro s
    unfold decideMesh
    simp [hq, hx]
  have hsucc : ∀ (d : Nat) (m : Bool), decideMesh c { { beginPure c st with recent := (beginPure c st).sol } with sol := (beginPure c st).n + 1, doMesh := false, doGt := false } a = (d, m) →
      m = (decide (c.refFreq > 0) && ((beginPure c st).n + 1) % c.refFreq == 0) := by
    intro d m hd
    rw [hdm] at hd
    injection hd with _ hd
    rw [← hd, ← mod_shift c.refFreq (beginPure c st).lastAmr (beginPure c st).n hdvd.1 hdvd.2]
  rcases step_end c _ a s2 (by simp [hf]) hst with he
  cases he with
  | failed d hd sol hs => exact ⟨by simp, hdvd.1, hdvd.2, by simp, by simpa using hlog⟩
  | last hl => rw [ha] at hl; exact absurd hl (by simp)
  | checked hl hc d m hd =>
    have hm := hsucc d m hd
    refine ⟨by simp, hdvd.1, Nat.le_succ_of_le hdvd.2, ?_, ?_⟩
    · intro h'
      dsimp only at h' ⊢
      rw [hm, Bool.and_eq_true, beq_iff_eq] at h'
      exact Nat.dvd_of_mod_eq_zero h'.2
    · dsimp only
      rw [due_succ, ← hm, hlog]
  | plain hl hc d m hd =>
    have hm := hsucc d m hd
    refine ⟨by simp, hdvd.1, Nat.le_succ_of_le hdvd.2, ?_, ?_⟩
    · intro h'
      dsimp only at h' ⊢
      rw [hm, Bool.and_eq_true, beq_iff_eq] at h'
      exact Nat.dvd_of_mod_eq_zero h'.2
    · dsimp only
      rw [due_succ, ← hm, hlog]

/-- the frequency with which the tracker is due -/
def gtDue (c : Conf) : Nat := if c.advection || c.ebc then 1 else c.gtFreq

/-- steps of the tracker between passes -/
structure GtInv (c : Conf) (st : State) : Prop where
  conv : st.doGt = true → st.converged = true
  dvd : gtDue c ∣ st.lastGt
  le : st.lastGt ≤ st.n
  now : st.doGt = true → gtDue c ∣ st.n
  log : st.gtLog ++ (if st.doGt then [st.n] else []) = due (gtDue c) st.n

theorem GtInv.pass {c : Conf} {st s : State} {a : Attempt} (h : GtInv c st)
    (ho : (c.advection || c.ebc || (!c.output && !(c.quality && c.trackWithQuality))) = true)
    (hck : c.checkInconsistency = false) (hf : c.fluxes = false) (ha : a.isLast = false) (hp : pass c st a = .ok s) :
    GtInv c s := by
  obtain ⟨s2, _, hst, rfl⟩ := pass_ok c st a s hp
  obtain ⟨f1, _, _, _, f5, f6, _, _, f9, f10, _⟩ := finish_fields c s2 a
  suffices GtInv c s2 by
    exact ⟨by rw [f5, f6]; exact this.conv, by rw [f10]; exact this.dvd, by rw [f10, f1]; exact this.le,
      by rw [f5, f1]; exact this.now, by rw [f9, f5, f1]; exact this.log⟩
  obtain ⟨b1, b2, b3, b4, b5, b6, b7, b8, b9, b10, b11, b12, b13, b14⟩ := begin_fields c st
  have hlog : (beginPure c st).gtLog = due (gtDue c) (beginPure c st).n := by
    rw [b12, b1, ← h.log]
    by_cases hd : st.doGt = true
    · simp [hd, h.conv hd]
    · simp [hd]
  have hdvd : gtDue c ∣ (beginPure c st).lastGt ∧ (beginPure c st).lastGt ≤ (beginPure c st).n := by
    rw [b14, b1]
    by_cases hd : st.doGt = true
    · simp only [hd, h.conv hd, Bool.and_self, if_true]
      exact ⟨h.now hd, Nat.le_refl _⟩
    · simp only [hd, Bool.and_false, Bool.false_eq_true, if_false]
      exact ⟨h.dvd, h.le⟩
  rcases step_end c _ a s2 (by simp [hf]) hst with he
  cases he with
  | failed d hd sol hs => exact ⟨by simp, hdvd.1, hdvd.2, by simp, by simpa using hlog⟩
  | last hl => rw [ha] at hl; exact absurd hl (by simp)
  | checked hl hc d m hd => rw [hck] at hc; exact absurd hc (by simp)
  | plain hl hc d m hd =>
    have hm : ((m && c.quality && c.trackWithQuality) || c.advection || (m && c.output) || c.ebc || gtRegular c { beginPure c st with recent := (beginPure c st).sol }) =
        (decide (gtDue c > 0) && ((beginPure c st).n + 1) % gtDue c == 0) := by
      by_cases hae : (c.advection || c.ebc) = true
      · have : gtDue c = 1 := by unfold gtDue; rw [if_pos hae]
        rw [this, Nat.mod_one]
        rw [Bool.or_eq_true] at hae
        rcases hae with h1 | h1 <;> simp [h1]
      · have hg : gtDue c = c.gtFreq := by unfold gtDue; rw [if_neg hae]
        rw [hg] at hdvd ⊢
        rw [← mod_shift c.gtFreq (beginPure c st).lastGt (beginPure c st).n hdvd.1 hdvd.2]
        rw [Bool.not_eq_true] at hae
        rw [hae] at ho
        rw [Bool.or_eq_false_iff] at hae
        simp only [Bool.false_or, Bool.and_eq_true, Bool.not_eq_true'] at ho
        have ho2 : (m && c.quality && c.trackWithQuality) = false := by rw [Bool.and_assoc, ho.2, Bool.and_false]
        rw [ho2, hae.1, hae.2, ho.1]
        simp [gtRegular]
    refine ⟨by simp, hdvd.1, Nat.le_succ_of_le hdvd.2, ?_, ?_⟩
    · intro h'
      dsimp only at h' ⊢
      rw [hm, Bool.and_eq_true, beq_iff_eq] at h'
      exact Nat.dvd_of_mod_eq_zero h'.2
    · dsimp only
      rw [due_succ, hm, hlog]

theorem check_pass {c : Conf} {st s : State} {a : Attempt} (hck : c.checkInconsistency = true)
    (hf : c.fluxes = false) (ha : a.isLast = false) (hp : pass c st a = .ok s)
    (h : ∀ k, 0 < k → k ≤ st.n → k ∈ st.gtLog) : ∀ k, 0 < k → k ≤ s.n → k ∈ s.gtLog := by
  obtain ⟨s2, _, hst, rfl⟩ := pass_ok c st a s hp
  obtain ⟨f1, _, _, _, f5, f6, _, _, f9, f10, _⟩ := finish_fields c s2 a
  rw [f1, f9]
  obtain ⟨b1, _, _, _, _, _, _, _, _, _, _, b12, _⟩ := begin_fields c st
  have hb : ∀ k, 0 < k → k ≤ (beginPure c st).n → k ∈ (beginPure c st).gtLog := by
    intro k h1 h2
    rw [b1] at h2
    rw [b12]
    split
    · exact List.mem_append_left _ (h k h1 h2)
    · exact h k h1 h2
  rcases step_end c _ a s2 (by simp [hf]) hst with he
  cases he with
  | failed d hd sol hs => exact hb
  | last hl => rw [ha] at hl; exact absurd hl (by simp)
  | plain hl hc d m hd => rw [hck] at hc; exact absurd hc (by simp)
  | checked hl hc d m hd =>
    intro k h1 h2
    dsimp only at h2 ⊢
    by_cases hk : k ≤ (beginPure c st).n
    · exact List.mem_append_left _ (hb k h1 hk)
    · refine List.mem_append_right _ ?_
      rw [List.mem_singleton]; omega

theorem time_pass {c : Conf} {st s : State} {a : Attempt} (hf : (c.fluxes && a.postFails) = false)
    (hp : pass c st a = .ok s) (h : st.sol = st.n) :
    s.sol = s.n ∧ (s.n = st.n ∨ s.n = st.n + 1) ∧ (s.converged = true ↔ s.n = st.n + 1) := by
  obtain ⟨s2, _, hst, rfl⟩ := pass_ok c st a s hp
  obtain ⟨f1, f2, _, _, f5, f6, _⟩ := finish_fields c s2 a
  rw [f1, f2, f6]
  obtain ⟨b1, b2, _⟩ := begin_fields c st
  rcases step_end c _ a s2 hf hst with he
  cases he with
  | failed d hd sol hs =>
    dsimp only at hs ⊢
    rw [hs, b1, b2, h]
    simp
  | last hl => simp [b1]
  | plain hl hc d m hd => simp [b1]
  | checked hl hc d m hd => simp [b1]

theorem depth_pass {c : Conf} {st s : State} {a : Attempt} (hq : c.quality = false)
    (hp : pass c st a = .ok s) :
    s.depth = st.depth ∨ (c.extraCoarsening = true ∧ a.good = true ∧ st.depth = c.maxDepth ∧
      s.depth = (c.maxDepth + 4294967295) % 4294967296) := by
  obtain ⟨s2, _, hst, rfl⟩ := pass_ok c st a s hp
  rw [(finish_fields c s2 a).2.2.2.2.2.2.2.2.2.2.2 (.inl hq)]
  obtain ⟨_, _, b3, _⟩ := begin_fields c st
  have hd : ∀ s : State, (decideMesh c s a).1 = s.depth ∨ (c.extraCoarsening = true ∧ a.good = true ∧
      s.depth = c.maxDepth ∧ (decideMesh c s a).1 = (c.maxDepth + 4294967295) % 4294967296) := by
    intro s
    unfold decideMesh
    split
    · rename_i h
      simp only [Bool.and_eq_true, beq_iff_eq] at h
      right
      refine ⟨h.1.1.2, h.1.1.1, h.2, ?_⟩
      rw [h.2]
    · exact .inl rfl
  have key : s2.depth = (beginPure c st).depth ∨ s2.depth = (decideMesh c { { beginPure c st with recent := (beginPure c st).sol } with sol := (beginPure c st).n + 1, doMesh := false, doGt := false } a).1 := by
    unfold step at hst
    dsimp only at hst
    split at hst
    · simp at hst
    split at hst
    · have := processFailure_ok _ _ _ hst
      subst this
      exact .inl rfl
    split at hst
    · unfold commit at hst
      split at hst
      · have := processFailure_ok _ _ _ hst
        subst this
        exact .inl rfl
      · injection hst with hst
        subst hst
        exact .inl rfl
    · right
      split at hst
      · split at hst
        · have := processFailure_ok _ _ _ hst
          subst this
          rfl
        · unfold commit at hst
          split at hst
          · have := processFailure_ok _ _ _ hst
            subst this
            rfl
          · injection hst with hst
            subst hst
            rfl
      · unfold commit at hst
        split at hst
        · have := processFailure_ok _ _ _ hst
          subst this
          rfl
        · injection hst with hst
          subst hst
          rfl
  rw [← b3]
  rcases key with k | k
  · exact .inl k
  · rw [k]
    exact hd _

/-- properties kept by passes are kept by runs -/
theorem run_keeps {c : Conf} (P : State → Prop) (q : Attempt → Prop)
    (hP : ∀ st a s, P st → q a → pass c st a = .ok s → P s) (as : List Attempt) (st s : State) (h : P st)
    (ha : ∀ a ∈ as, q a) (hr : run c st as = .ok s) : P s := by
  induction as generalizing st with
  | nil =>
    unfold run at hr
    injection hr with hr
    subst hr
    exact h
  | cons a as ih =>
    rw [run_cons, Res.bind_eq_ok] at hr
    obtain ⟨s1, h1, h2⟩ := hr
    exact ih s1 (hP st a s1 h (ha a List.mem_cons_self) h1) (fun b hb => ha b (List.mem_cons_of_mem _ hb)) h2

theorem step_not_ub (c : Conf) (s : State) (a : Attempt) (h : courant c = true → s.cflMesh = some s.mesh) :
    step c s a ≠ .ub := by
  unfold courant at h
  have hpf : ∀ st, processFailure st a ≠ .ub := by
    intro st; unfold processFailure; split <;> simp
  have hcm : ∀ st, commit c st a ≠ .ub := by
    intro st; unfold commit; dsimp only; split
    · exact hpf _
    · simp
  unfold step
  dsimp only
  split
  · rename_i hu
    simp only [Bool.and_eq_true, bne_iff_ne] at hu
    exact absurd (h (by simp [hu.1])) hu.2
  · split
    · exact hpf _
    split
    · exact hcm _
    · split
      · split
        · exact hpf _
        · exact hcm _
      · exact hcm _

end Verif.Schedule
