import Verif.Spec.TimeLoop
import Verif.Lemmas.BlockVector
/-! # Lemmas on the history and the time loop -/
namespace Verif
variable {K V : Type}

theorem commitOld_ok (a b : V) (rest : List V) :
    commitOld (a :: b :: rest) = .ok (a :: b :: (b :: rest).take rest.length) := by
  have e : commitOld (a :: b :: rest) = shiftRight (a :: b :: rest) (1 + rest.length) 1 := by
    unfold commitOld shiftRight
    have : downTo (1 + rest.length) 1 = (downTo ((a :: b :: rest).length - 2) 0).map (· + 1) := by
      simp only [downTo, List.length_cons, List.map_map]
      have h1 : 1 + rest.length - 1 = rest.length + 1 + 1 - 2 - 0 := by omega
      rw [h1]
      apply List.map_congr_left
      intro k hk
      have := List.mem_range.1 hk
      simp only [Function.comp]
      omega
    rw [this, List.foldlM_map]
    rfl
  rw [e]
  obtain ⟨r, hr, hl, hk⟩ := shiftRight_ok (lo := 1) rest.length (a :: b :: rest) (by
    simp only [List.length_cons]; omega)
  rw [hr]
  congr 1
  apply List.ext_getElem?
  intro k
  rw [hk]
  match k with
  | 0 => simp
  | 1 => simp
  | k + 2 =>
    simp only [List.getElem?_cons_succ, List.getElem?_take]
    by_cases h : k < rest.length
    · rw [if_pos (by omega), if_pos h]
      have : k + 2 - 1 = k + 1 := by omega
      rw [this, List.getElem?_cons_succ]
    · rw [if_neg (by omega), if_neg h, List.getElem?_eq_none (by omega)]

theorem histFilter_eq (c r o : Bool) (h : List V) :
    histFilter c r o h = (if c then h.take 1 else []) ++ (if r then (h.drop 1).take 1 else []) ++
      (if o then h.drop 2 else []) := by
  have key : ∀ (l : List V) (k : Nat), 1 < k →
      ((l.zipIdx k).filter fun p => canProcess p.2 c r o).map Prod.fst = if o then l else [] := by
    intro l
    induction l with
    | nil => intro k _; cases o <;> rfl
    | cons x l ih =>
      intro k hk
      have hc : canProcess k c r o = o := by
        simp only [canProcess]
        have h0 : (k == 0) = false := by simp; omega
        have h1 : (k == 1) = false := by simp; omega
        simp [h0, h1, hk]
      rw [List.zipIdx_cons]
      cases o with
      | true => rw [List.filter_cons_of_pos (by simpa using hc), List.map_cons, ih _ (by omega)]; rfl
      | false => rw [List.filter_cons_of_neg (by simpa using hc), ih _ (by omega)]; rfl
  unfold histFilter
  match h with
  | [] => cases c <;> cases r <;> cases o <;> rfl
  | [a] => cases c <;> cases r <;> cases o <;> rfl
  | a :: b :: l =>
    rw [List.zipIdx_cons, List.zipIdx_cons]
    have := key l 2 (by omega)
    cases c <;> cases r <;>
      simp [canProcess] at this ⊢ <;> exact this

theorem histApply_cons (f : V → V) (a b : V) (l : List V) :
    histApply true false true f (a :: b :: l) = f a :: b :: l.map f ∧
    histApply true false false f (a :: b :: l) = f a :: b :: l := by
  have key : ∀ (l : List V), l.mapIdx (fun i x => if canProcess (i + 1 + 1) true false true then f x else x)
      = l.map f := by
    intro l
    apply List.ext_getElem (by simp)
    intro k h1 h2
    simp [canProcess]
  have key2 : ∀ (l : List V),
      l.mapIdx (fun i x => if canProcess (i + 1 + 1) true false false then f x else x) = l := by
    intro l
    apply List.ext_getElem (by simp)
    intro k h1 h2
    simp [canProcess]
  constructor
  · simp only [histApply, List.mapIdx_cons]
    rw [key]
    simp [canProcess]
  · simp only [histApply, List.mapIdx_cons]
    rw [key2]
    simp [canProcess]

/-- the history matches the accepted solutions -/
def HistInv (m : Nat) (converged : Bool) (hist sols : List V) : Prop :=
  ∃ c r tl, hist = c :: r :: tl.take (m - 1) ∧ sols = c :: tl ∧ m - 1 ≤ tl.length ∧
    (converged = false → r = c)

theorem prepare_ok {m : Nat} {conv : Bool} {hist sols : List V} (a : Attempt V)
    (h : HistInv m conv hist sols) :
    ∃ c tl, specPrep a conv sols = c :: tl ∧ m - 1 ≤ tl.length ∧
      prepare a conv hist = .ok ((a.guess.getD c) :: c :: tl.take (m - 1)) := by
  obtain ⟨c, r, tl, rfl, rfl, hl, _⟩ := h
  cases conv with
  | true =>
    refine ⟨a.remesh (a.limit c), tl.map a.remesh, rfl, by simpa using hl, ?_⟩
    unfold prepare
    simp only [if_true]
    rw [(histApply_cons a.limit c r _).2, (histApply_cons a.remesh _ r _).1]
    simp only [getCurrent, Res.index, List.getElem?_cons_zero, Res.ok_bind, setRecent, setR,
      List.length_cons]
    rw [if_pos (by omega)]
    simp only [Res.ok_bind, List.set_cons_succ, List.set_cons_zero, List.map_take]
    cases a.guess with
    | none => rfl
    | some g => simp
  | false =>
    refine ⟨c, tl, rfl, hl, ?_⟩
    unfold prepare
    simp only [Bool.false_eq_true, if_false]
    simp only [getCurrent, Res.index, List.getElem?_cons_zero, Res.ok_bind, setRecent, setR,
      List.length_cons]
    rw [if_pos (by omega)]
    simp only [Res.ok_bind, List.set_cons_succ, List.set_cons_zero]
    cases a.guess with
    | none => rfl
    | some g => simp

section
variable [Field K] [LinearOrder K]

/-- the time integrator data match the step sizes -/
structure DataInv (s : Option Scheme) (data : TimeData K) (dt : K) (dts : List K) : Prop where
  scheme : data.scheme = s
  order : data.order = (s.map Scheme.order).getD 0
  steps : data.dt = (dt :: dts).take (depth s)
  ndts : depth s ≤ dts.length + 1
  weights : ∀ k, s = some k → data.weights = computeWeights k data.dt

theorem DataInv.replace {s : Option Scheme} {data : TimeData K} {dt : K} {dts : List K}
    (h : DataInv s data dt dts) (x : K) :
    ∃ d, data.replaceDt x = .ok d ∧ DataInv s d x dts := by
  obtain ⟨sch, ord, dt', w, sw⟩ := data
  obtain ⟨h1, h2, h3, h4, h5⟩ := h
  simp only at h1 h2 h3 h5
  subst h1; subst h2; subst h3
  have hd : 1 ≤ depth sch := by unfold depth; omega
  obtain ⟨m, hm⟩ : ∃ m, depth sch = m + 1 := ⟨depth sch - 1, by omega⟩
  have hset : TimeData.setDt (⟨sch, (sch.map Scheme.order).getD 0, (dt :: dts).take (depth sch), w, sw⟩ :
      TimeData K) 0 x =
      .ok ⟨sch, (sch.map Scheme.order).getD 0, x :: dts.take m, w, sw⟩ := by
    rw [TimeData.setDt, if_pos (by simp only [List.length_take, List.length_cons]; omega), hm]
    rfl
  simp only [TimeData.replaceDt, hset, Res.ok_bind, Res.pure_def]
  refine ⟨_, rfl, ?_⟩
  cases sch with
  | none =>
    refine ⟨rfl, rfl, ?_, h4, by intro k hk; cases hk⟩
    rw [hm]; rfl
  | some k =>
    refine ⟨rfl, rfl, ?_, h4, ?_⟩
    · rw [hm]; rfl
    · intro k' hk
      cases hk
      rfl

theorem DataInv.update {s : Option Scheme} {data : TimeData K} {dt : K} {dts : List K}
    (h : DataInv s data dt dts) (x : K) :
    ∃ d, data.updateDt x = .ok d ∧ DataInv s d x (dt :: dts) := by
  obtain ⟨sch, ord, dt', w, sw⟩ := data
  obtain ⟨h1, h2, h3, h4, h5⟩ := h
  simp only at h1 h2 h3 h5
  subst h1; subst h2; subst h3
  match sch, dts, h4 with
  | none, ds, _ => exact ⟨_, rfl, ⟨rfl, rfl, rfl, by simp [depth], by intro k hk; cases hk⟩⟩
  | some .bdf1, ds, _ =>
    exact ⟨_, rfl, ⟨rfl, rfl, rfl, by simp [depth, Scheme.order], by intro k hk; cases hk; rfl⟩⟩
  | some .bdf2, d1 :: ds, _ =>
    exact ⟨_, rfl, ⟨rfl, rfl, rfl, by simp [depth, Scheme.order], by intro k hk; cases hk; rfl⟩⟩
  | some .bdf3, d1 :: d2 :: ds, _ =>
    exact ⟨_, rfl, ⟨rfl, rfl, rfl, by simp [depth, Scheme.order], by intro k hk; cases hk; rfl⟩⟩
  | some .bdf2, [], h => simp [depth, Scheme.order] at h
  | some .bdf3, [], h => simp [depth, Scheme.order] at h
  | some .bdf3, [d1], h => simp [depth, Scheme.order] at h

/-- invariant of the loop -/
structure LoopInv (s : Option Scheme) (st : RunState K V) (sols : List V) (dts : List K) : Prop where
  hist : HistInv (depth s) st.converged st.hist sols
  data : DataInv s st.data st.dt dts

theorem Started.inv {s : Option Scheme} {st : RunState K V} {sols : List V} {dts : List K}
    (h : Started s st sols dts) : LoopInv s st sols dts := by
  obtain ⟨⟨u0, x, rest, h1, h2, h3⟩, h4, h5, h6, h7, h8, h9⟩ := h
  refine ⟨⟨u0, x, rest, ?_, h2, by omega, by rw [h9]; intro h; cases h⟩, ⟨h4, h5, ?_, by omega, h8⟩⟩
  · rw [h1, List.take_of_length_le (by omega)]
  · rw [h6, List.take_of_length_le (by simp only [List.length_cons]; omega)]

theorem accept_ok {p : LoopParams K} {s : Option Scheme} {st : RunState K V} {dts : List K} {m : Nat}
    (hd : DataInv s st.data st.dt dts) (g c : V) (tl : List V) (sol : V) (good : Bool)
    (hl : m ≤ tl.length) :
    ∃ d, accept p st (g :: c :: tl.take m) sol good =
        .ok ⟨st.t + st.dt, nextDt p good (st.t + st.dt) st.dt, st.n + 1,
          sol :: c :: (c :: tl).take m, d, true⟩ ∧
      DataInv s d (nextDt p good (st.t + st.dt) st.dt) (st.dt :: dts) := by
  obtain ⟨d, h1, h2⟩ := hd.update (nextDt p good (st.t + st.dt) st.dt)
  refine ⟨d, ?_, h2⟩
  simp only [accept, setR, List.length_cons]
  rw [if_pos (by omega)]
  simp only [Res.ok_bind, List.set_cons_zero, commitOld_ok, h1, Res.pure_def]
  congr 4
  rw [List.length_take, Nat.min_eq_left hl]
  cases m with
  | zero => rfl
  | succ m =>
    rw [List.take_succ_cons, List.take_succ_cons, List.take_take]
    congr 2
    omega

theorem reject_eq (p : LoopParams K) {s : Option Scheme} {st : RunState K V} {dts : List K}
    (hd : DataInv s st.data st.dt dts) (g c : V) (l : List V) (garbage : V) :
    ∃ d, DataInv s d (st.dt * (1 / 2)) dts ∧ reject p st (g :: c :: l) garbage =
      if st.dt * (1 / 2) > p.dtMin then
        .ok ⟨st.t, st.dt * (1 / 2), st.n, c :: c :: l, d, false⟩ else .exc .assertThrow := by
  obtain ⟨d, h1, h2⟩ := hd.replace (st.dt * (1 / 2))
  refine ⟨d, h2, ?_⟩
  simp only [reject, setR, List.length_cons]
  rw [if_pos (by omega)]
  simp only [Res.ok_bind, List.set_cons_zero, getRecent, Res.index, List.getElem?_cons_succ,
    List.getElem?_cons_zero, List.length_cons]
  rw [if_pos (by omega)]
  simp only [Res.ok_bind, Res.assertThrow]
  by_cases h : st.dt * (1 / 2) > p.dtMin
  · simp only [h, decide_true, if_true, Res.ok_bind, h1, Res.pure_def]
  · simp only [h, decide_false, Bool.false_eq_true, if_false, Res.exc_bind]

/-- a pass from a state satisfying the invariant -/
theorem pass_inv {p : LoopParams K} {s : Option Scheme} {st : RunState K V} {sols : List V}
    {dts : List K} (h : LoopInv s st sols dts) (a : Attempt V) :
    (∀ sol good, a.outcome = .success sol good → ∃ st', pass p st a = .ok st' ∧
      st'.t = st.t + st.dt ∧ st'.dt = nextDt p good (st.t + st.dt) st.dt ∧ st'.n = st.n + 1 ∧
      st'.converged = true ∧ LoopInv s st' (specSols a st.converged sols) (specDts a st.dt dts)) ∧
    (∀ garbage, a.outcome = .failure garbage →
      (¬ st.dt * (1 / 2) > p.dtMin → pass p st a = .exc .assertThrow) ∧
      (st.dt * (1 / 2) > p.dtMin → ∃ st', pass p st a = .ok st' ∧
        st'.t = st.t ∧ st'.dt = st.dt * (1 / 2) ∧ st'.n = st.n ∧ st'.converged = false ∧
        st'.hist = (specPrep a st.converged sols).take 1 ++
          (specPrep a st.converged sols).take (depth s) ∧
        LoopInv s st' (specSols a st.converged sols) (specDts a st.dt dts))) := by
  obtain ⟨c, tl, h1, h2, h3⟩ := prepare_ok a h.hist
  refine ⟨fun sol good ho => ?_, fun garbage ho => ?_⟩
  · obtain ⟨d, h4, h5⟩ := accept_ok (p := p) h.data (a.guess.getD c) c tl sol good h2
    refine ⟨_, (?_ : pass p st a = .ok ⟨st.t + st.dt, nextDt p good (st.t + st.dt) st.dt, st.n + 1,
          sol :: c :: (c :: tl).take (depth s - 1), d, true⟩), rfl, rfl, rfl, rfl, ?_⟩
    · simp only [pass, h3, Res.ok_bind, ho]
      exact h4
    · refine ⟨⟨sol, c, c :: tl, rfl, ?_, ?_, by intro h; cases h⟩, ?_⟩
      · simp only [specSols, ho, h1]
      · simp only [List.length_cons]; omega
      · simp only [specDts, ho]; exact h5
  · obtain ⟨d, h4, h5⟩ := reject_eq p h.data (a.guess.getD c) c (tl.take (depth s - 1)) garbage
    have e : pass p st a = reject p st (a.guess.getD c :: c :: tl.take (depth s - 1)) garbage := by
      simp only [pass, h3, Res.ok_bind, ho]
    rw [e, h5]
    refine ⟨fun hn => if_neg hn, fun hy => ?_⟩
    rw [if_pos hy]
    refine ⟨_, rfl, rfl, rfl, rfl, rfl, ?_, ?_, ?_⟩
    · rw [h1]
      have : 1 ≤ depth s := by unfold depth; omega
      obtain ⟨m, hm⟩ : ∃ m, depth s = m + 1 := ⟨depth s - 1, by omega⟩
      rw [hm]; rfl
    · refine ⟨c, c, tl, rfl, ?_, h2, fun _ => rfl⟩
      simp only [specSols, ho, h1]
    · simp only [specDts, ho]; exact h4

theorem RunReach.inv {p : LoopParams K} {s : Option Scheme} {st0 st : RunState K V} {sols : List V}
    {dts : List K} (h : RunReach p s st0 st sols dts) : LoopInv s st sols dts := by
  induction h with
  | start h => exact h.inv
  | @pass st st' sols dts a h hc hp ih =>
    cases ho : a.outcome with
    | success sol good =>
      obtain ⟨st'', h1, _, _, _, _, h2⟩ := (pass_inv (p := p) ih a).1 sol good ho
      rw [hp] at h1
      obtain rfl := Res.ok.inj h1
      exact h2
    | failure g =>
      obtain ⟨h1, h2⟩ := (pass_inv (p := p) ih a).2 g ho
      by_cases hd : st.dt * (1 / 2) > p.dtMin
      · obtain ⟨st'', h3, _, _, _, _, _, h4⟩ := h2 hd
        rw [hp] at h3
        obtain rfl := Res.ok.inj h3
        exact h4
      · rw [h1 hd] at hp; cases hp

end
end Verif
