import Verif.Model.Arkode
import Verif.Spec.Arkode
/-!
# Lemmas about the time stepping with ARKODE
-/
namespace Verif.Arkode
open Verif.Arkode.Spec
variable {K V : Type}

/-- positions of the stationary equations from `c` on -/
def pos : Nat → List EqType → List Nat
  | _, [] => []
  | c, e :: es => if e == .stationary then c :: pos (c + 1) es else pos (c + 1) es

theorem stationaryIndices_ok (ts : List EqType) : ∀ c, .undefined ∉ ts → stationaryIndices c ts = .ok (pos c ts) := by
  induction ts with
  | nil => intro c _; rfl
  | cons e es ih =>
    intro c h
    simp only [List.mem_cons, not_or] at h
    have h1 : (e != EqType.undefined) = true := by simpa using fun hh => h.1 hh.symm
    rw [stationaryIndices, pos, ih (c + 1) h.2, h1]
    simp only [Res.assertThrow, if_true, Res.ok_bind]

theorem stationaryIndices_exc (ts : List EqType) : ∀ c, .undefined ∈ ts → stationaryIndices c ts = .exc .assertThrow := by
  induction ts with
  | nil => intro c h; simp at h
  | cons e es ih =>
    intro c h
    rw [stationaryIndices]
    by_cases he : e = .undefined
    · subst he; rfl
    · have h1 : (e != EqType.undefined) = true := by simpa using he
      have h2 : EqType.undefined ∈ es := by
        rcases List.mem_cons.1 h with h | h
        · exact absurd h.symm he
        · exact h
      rw [h1, ih (c + 1) h2]; rfl

theorem pos_succ (ts : List EqType) : ∀ c, pos (c + 1) ts = (pos c ts).map (· + 1) := by
  induction ts with
  | nil => intro c; rfl
  | cons e es ih =>
    intro c
    rw [pos, pos, ih (c + 1)]
    split <;> simp

theorem mem_pos (ts : List EqType) : ∀ c i, i ∈ pos c ts ↔ ∃ j, i = c + j ∧ ts[j]? = some .stationary := by
  induction ts with
  | nil => intro c i; simp [pos]
  | cons e es ih =>
    intro c i
    have key : i ∈ pos (c + 1) es ↔ ∃ j, i = c + (j + 1) ∧ es[j]? = some .stationary := by
      rw [ih]; constructor <;> rintro ⟨j, h1, h2⟩ <;> exact ⟨j, by omega, h2⟩
    rw [pos]
    constructor
    · intro h
      by_cases he : e = .stationary
      · rw [if_pos (by simp [he])] at h
        rcases List.mem_cons.1 h with h | h
        · exact ⟨0, by omega, by simp [he]⟩
        · obtain ⟨j, h1, h2⟩ := key.1 h
          exact ⟨j + 1, h1, by simpa using h2⟩
      · rw [if_neg (by simp [he])] at h
        obtain ⟨j, h1, h2⟩ := key.1 h
        exact ⟨j + 1, h1, by simpa using h2⟩
    · rintro ⟨j, h1, h2⟩
      cases j with
      | zero =>
        have he : e = .stationary := by simpa using h2
        rw [if_pos (by simp [he])]
        exact List.mem_cons.2 (Or.inl h1)
      | succ j =>
        have := key.2 ⟨j, h1, by simpa using h2⟩
        split
        · exact List.mem_cons_of_mem _ this
        · exact this

theorem removeAll_succ (x : V) (y : List V) : ∀ is : List Nat,
    removeAll (x :: y) (is.map (· + 1)) = removeAll y is >>= fun r => .ok (x :: r.1, r.2)
  | [] => rfl
  | i :: is => by
    rw [List.map_cons, removeAll, removeAll, removeAll_succ x y is]
    cases removeAll y is with
    | exc e => rfl
    | ub => rfl
    | ok r =>
      obtain ⟨y', bs⟩ := r
      simp only [Res.ok_bind, removeBlock, Res.index, List.getElem?_cons_succ]
      cases y'[i]? <;> rfl

theorem insertAll_succ (x : V) : ∀ (is : List Nat) (bs y : List V),
    insertAll (x :: y) ((is.map (· + 1)).zip bs) = insertAll y (is.zip bs) >>= fun r => .ok (x :: r)
  | [], _, _ => rfl
  | _ :: _, [], _ => rfl
  | i :: is, b :: bs, y => by
    rw [List.map_cons, List.zip_cons_cons, List.zip_cons_cons, insertAll, insertAll, insertBlock, insertBlock]
    by_cases h : i ≤ y.length
    · rw [if_pos h, if_pos (by simpa using h)]
      simp only [Res.ok_bind, List.insertIdx_succ_cons]
      exact insertAll_succ x is bs _
    · rw [if_neg h, if_neg (by simpa using h)]
      rfl

theorem setStationary_succ [Neg V] (P : Problem K V) (r0 : V) (r : List V) (x : V) : ∀ (is : List Nat) (y : List V),
    setStationary P (r0 :: r) (x :: y) (is.map (· + 1)) = setStationary P r y is >>= fun z => .ok (x :: z)
  | [], _ => rfl
  | i :: is, y => by
    rw [List.map_cons, setStationary, setStationary]
    simp only [Res.index, List.getElem?_cons_succ]
    cases r[i]? with
    | none => rfl
    | some rb =>
      simp only [Res.ok_bind, List.length_cons, Nat.add_lt_add_iff_right]
      by_cases h : i < y.length
      · rw [if_pos h, if_pos h, List.set_cons_succ]
        exact setStationary_succ P r0 r x is _
      · rw [if_neg h, if_neg h]; rfl

theorem free_cons_stat (ts : List EqType) (x : V) (u : List V) : free (.stationary :: ts) (x :: u) = free ts u := rfl
theorem stat_cons_stat (ts : List EqType) (x : V) (u : List V) : stat (.stationary :: ts) (x :: u) = x :: stat ts u := rfl
theorem free_cons_free {e : EqType} (he : e ≠ .stationary) (ts : List EqType) (x : V) (u : List V) :
    free (e :: ts) (x :: u) = x :: free ts u := by cases e <;> first | rfl | exact absurd rfl he
theorem stat_cons_free {e : EqType} (he : e ≠ .stationary) (ts : List EqType) (x : V) (u : List V) :
    stat (e :: ts) (x :: u) = stat ts u := by cases e <;> first | rfl | exact absurd rfl he

theorem removeAll_pos (ts : List EqType) : ∀ u : List V, u.length = ts.length →
    removeAll u (pos 0 ts) = .ok (free ts u, stat ts u) := by
  induction ts with
  | nil => intro u hu; rw [List.length_eq_zero_iff.1 hu]; rfl
  | cons e es ih =>
    intro u hu
    cases u with
    | nil => simp at hu
    | cons x xs =>
      have hx : xs.length = es.length := by simpa using hu
      rw [pos, pos_succ]
      by_cases he : e = .stationary
      · subst he
        rw [if_pos (by rfl), removeAll, removeAll_succ, ih xs hx]
        rfl
      · rw [if_neg (by simp [he]), removeAll_succ, ih xs hx, free_cons_free he, stat_cons_free he]
        rfl

/-- the merged vector -/
def merge : List EqType → List V → List V → List V
  | .stationary :: es, y, b :: bs => b :: merge es y bs
  | .timeDependent :: es, x :: y, bs => x :: merge es y bs
  | .undefined :: es, x :: y, bs => x :: merge es y bs
  | _, _, _ => []

theorem merge_free {e : EqType} (he : e ≠ .stationary) (es : List EqType) (x : V) (y bs : List V) :
    merge (e :: es) (x :: y) bs = x :: merge es y bs := by
  cases e with
  | stationary => exact absurd rfl he
  | timeDependent => rw [merge]
  | undefined => rw [merge]

theorem insertAll_pos (ts : List EqType) : ∀ y bs : List V, y.length = (ts.filter (· != .stationary)).length →
    bs.length = (ts.filter (· == .stationary)).length →
    insertAll y ((pos 0 ts).zip bs) = .ok (merge ts y bs) ∧ Merged ts y bs (merge ts y bs) := by
  induction ts with
  | nil =>
    intro y bs hy hb
    rw [List.length_eq_zero_iff.1 hy, List.length_eq_zero_iff.1 hb]
    exact ⟨rfl, rfl, rfl, rfl⟩
  | cons e es ih =>
    intro y bs hy hb
    rw [pos, pos_succ]
    by_cases he : e = .stationary
    · subst he
      cases bs with
      | nil => simp at hb
      | cons b bs =>
        have hy' : y.length = (es.filter (· != .stationary)).length := by simpa using hy
        have hb' : bs.length = (es.filter (· == .stationary)).length := by simpa using hb
        obtain ⟨h1, h2, h3, h4⟩ := ih y bs hy' hb'
        rw [if_pos (by rfl), List.zip_cons_cons, insertAll, insertBlock, if_pos (Nat.zero_le _), Res.ok_bind,
          List.insertIdx_zero, insertAll_succ, h1, merge]
        exact ⟨rfl, by simp [h2], by rw [free_cons_stat, h3], by rw [stat_cons_stat, h4]⟩
    · have hf : ((e :: es).filter (· != .stationary)) = e :: es.filter (· != .stationary) := by simp [he]
      have hs : ((e :: es).filter (· == .stationary)) = es.filter (· == .stationary) := by simp [he]
      rw [hf] at hy; rw [hs] at hb
      cases y with
      | nil => simp at hy
      | cons x y =>
        obtain ⟨h1, h2, h3, h4⟩ := ih y bs (by simpa using hy) hb
        rw [if_neg (by simp [he]), insertAll_succ, h1, merge_free he]
        exact ⟨rfl, by simp [h2], by rw [free_cons_free he, h3], by rw [stat_cons_free he, h4]⟩

theorem setStationary_pos [Neg V] (P : Problem K V) (ts : List EqType) : ∀ r u : List V, r.length = ts.length →
    u.length = ts.length → ∃ z, setStationary P r u (pos 0 ts) = .ok z ∧
      Merged ts (free ts u) ((stat ts r).map fun x => -(P.minv x)) z := by
  induction ts with
  | nil =>
    intro r u _ hu
    rw [List.length_eq_zero_iff.1 hu]
    exact ⟨[], rfl, rfl, rfl, rfl⟩
  | cons e es ih =>
    intro r u hr hu
    cases r with
    | nil => simp at hr
    | cons r0 r =>
      cases u with
      | nil => simp at hu
      | cons x u =>
        obtain ⟨z, h1, h2, h3, h4⟩ := ih r u (by simpa using hr) (by simpa using hu)
        rw [pos, pos_succ]
        by_cases he : e = .stationary
        · subst he
          refine ⟨-(P.minv r0) :: z, ?_, by simp [h2], ?_, ?_⟩
          · rw [if_pos (by rfl), setStationary]
            simp only [Res.index, List.getElem?_cons_zero, Res.ok_bind]
            rw [if_pos (by simp), List.set_cons_zero, setStationary_succ, h1]
            rfl
          · rw [free_cons_stat, free_cons_stat, h3]
          · rw [stat_cons_stat, stat_cons_stat, h4]; rfl
        · refine ⟨x :: z, ?_, by simp [h2], ?_, ?_⟩
          · rw [if_neg (by simp [he]), setStationary_succ, h1]
            rfl
          · rw [free_cons_free he, free_cons_free he, h3]
          · rw [stat_cons_free he, stat_cons_free he, h4]

theorem makeStep_ok [Add K] [LT K] [DecidableLT K] [Neg V] {P : Problem K V} {idx : List Nat} {ode : Ode K V} {dt : K}
    {st : St K V} {u y bs y' : List V} {s : K} (hr : removeAll u idx = .ok (y, bs)) (hlt : st.lastEnd < st.time + dt)
    (ho : ode (rhs P idx bs) st.lastEnd (st.time + dt) (if st.ready then st.inner else y) = (.ok y', s)) :
    makeStep P idx ode dt st u = (stationaryPart P idx bs (st.time + dt) y',
      ⟨st.time + dt, st.time + dt, true, y', (st.lastEnd, st.time + dt) :: st.done⟩) := by
  rw [makeStep, hr]
  dsimp only
  rw [if_pos hlt, ho]

theorem makeStep_exc [Add K] [LT K] [DecidableLT K] [Neg V] {P : Problem K V} {idx : List Nat} {ode : Ode K V} {dt : K}
    {st : St K V} {u y bs : List V} {e : Exc} {s : K} (hr : removeAll u idx = .ok (y, bs))
    (hlt : st.lastEnd < st.time + dt)
    (ho : ode (rhs P idx bs) st.lastEnd (st.time + dt) (if st.ready then st.inner else y) = (.exc e, s)) :
    makeStep P idx ode dt st u = (.exc e, { st with time := s }) := by
  rw [makeStep, hr]
  dsimp only
  rw [if_pos hlt, ho]

theorem makeStep_not [Add K] [LT K] [DecidableLT K] [Neg V] {P : Problem K V} {idx : List Nat} {ode : Ode K V} {dt : K}
    {st : St K V} {u y bs : List V} (hr : removeAll u idx = .ok (y, bs)) (hlt : ¬ st.lastEnd < st.time + dt) :
    makeStep P idx ode dt st u = (.exc .assertThrow, st) := by
  rw [makeStep, hr]
  dsimp only
  rw [if_neg hlt]

theorem makeStep_inv [Add K] [LT K] [DecidableLT K] [Neg V] {P : Problem K V} {idx : List Nat} {ode : Ode K V} {dt : K}
    {st st' : St K V} {u u' : List V} (h : makeStep P idx ode dt st u = (.ok u', st')) :
    st.lastEnd < st.time + dt ∧ st'.time = st.time + dt ∧ st'.lastEnd = st.time + dt ∧
      st'.done = (st.lastEnd, st.time + dt) :: st.done := by
  rw [makeStep] at h
  cases hr : removeAll u idx with
  | exc e => rw [hr] at h; simp at h
  | ub => rw [hr] at h; simp at h
  | ok p =>
    obtain ⟨y, bs⟩ := p
    rw [hr] at h
    dsimp only at h
    by_cases hlt : st.lastEnd < st.time + dt
    · rw [if_pos hlt] at h
      rcases ho : ode (rhs P idx bs) st.lastEnd (st.time + dt) (if st.ready then st.inner else y) with ⟨r, t⟩
      rw [ho] at h
      cases r with
      | exc e => simp at h
      | ub => simp at h
      | ok y' =>
        dsimp only at h
        obtain ⟨_, rfl⟩ := Prod.mk.inj h
        exact ⟨hlt, rfl, rfl, rfl⟩
    · rw [if_neg hlt] at h; simp at h

theorem idx_eq {ts : List EqType} {idx : List Nat} (hidx : stationaryIndices 0 ts = .ok idx) : pos 0 ts = idx := by
  have hund : EqType.undefined ∉ ts := by
    intro h; rw [stationaryIndices_exc _ _ h] at hidx; cases hidx
  have := stationaryIndices_ok ts 0 hund
  rw [this] at hidx; exact Res.ok.inj hidx

theorem steps_consecutive [Add K] [LT K] [DecidableLT K] [Neg V] (P : Problem K V) (idx : List Nat) (ode : Ode K V) :
    ∀ (dts : List K) (st : St K V) (u : List V) (u' : List V) (st' : St K V), st.time = st.lastEnd →
      steps P idx ode dts st u = (.ok u', st') →
      ∃ l, st'.done = l.reverse ++ st.done ∧ Consecutive st.time dts l st'.time ∧ st'.time = st'.lastEnd
  | [], st, u, u', st', h, hs => by
    rw [steps] at hs
    obtain ⟨_, rfl⟩ := Prod.mk.inj hs
    exact ⟨[], rfl, ⟨rfl, rfl⟩, h⟩
  | dt :: dts, st, u, u', st', h, hs => by
    rw [steps] at hs
    rcases hm : makeStep P idx ode dt st u with ⟨r, st1⟩
    rw [hm] at hs
    cases r with
    | exc e => simp at hs
    | ub => simp at hs
    | ok u1 =>
      dsimp only at hs
      obtain ⟨_, e1, e2, e3⟩ := makeStep_inv hm
      obtain ⟨l, i1, i2, i3⟩ := steps_consecutive P idx ode dts st1 u1 u' st' (e1.trans e2.symm) hs
      refine ⟨(st.time, st.time + dt) :: l, ?_, ⟨l, rfl, ?_⟩, i3⟩
      · rw [i1, e3, ← h]; simp
      · rw [← e1]; exact i2

theorem free_length (ts : List EqType) : ∀ u : List V, u.length = ts.length →
    (free ts u).length = (ts.filter (· != .stationary)).length := by
  induction ts with
  | nil => intro u _; rfl
  | cons e es ih =>
    intro u hu
    cases u with
    | nil => simp at hu
    | cons x u =>
      have := ih u (by simpa using hu)
      by_cases he : e = .stationary
      · subst he; rw [free_cons_stat, this]; rfl
      · rw [free_cons_free he, List.length_cons, this]; simp [he]

theorem stat_length (ts : List EqType) : ∀ u : List V, u.length = ts.length →
    (stat ts u).length = (ts.filter (· == .stationary)).length := by
  induction ts with
  | nil => intro u _; rfl
  | cons e es ih =>
    intro u hu
    cases u with
    | nil => simp at hu
    | cons x u =>
      have := ih u (by simpa using hu)
      by_cases he : e = .stationary
      · subst he; rw [stat_cons_stat, List.length_cons, this]; rfl
      · rw [stat_cons_free he, this]; simp [he]

theorem merged_unique (ts : List EqType) : ∀ (y b u v : List V), Merged ts y b u → Merged ts y b v → u = v := by
  induction ts with
  | nil => rintro y b u v ⟨h1, _⟩ ⟨h2, _⟩; rw [List.length_eq_zero_iff.1 h1, List.length_eq_zero_iff.1 h2]
  | cons e es ih =>
    rintro y b u v ⟨h1, h2, h3⟩ ⟨k1, k2, k3⟩
    cases u with
    | nil => simp at h1
    | cons x u =>
      cases v with
      | nil => simp at k1
      | cons z v =>
        have l1 : u.length = es.length := by simpa using h1
        have l2 : v.length = es.length := by simpa using k1
        by_cases he : e = .stationary
        · subst he
          rw [free_cons_stat] at h2 k2
          rw [stat_cons_stat] at h3 k3
          obtain ⟨e1, e2⟩ := List.cons.inj (h3.trans k3.symm)
          rw [e1, ih y (stat es v) u v ⟨l1, h2, e2⟩ ⟨l2, k2, rfl⟩]
        · rw [free_cons_free he] at h2 k2
          rw [stat_cons_free he] at h3 k3
          obtain ⟨e1, e2⟩ := List.cons.inj (h2.trans k2.symm)
          rw [e1, ih (free es v) b u v ⟨l1, e2, h3⟩ ⟨l2, rfl, k3⟩]

end Verif.Arkode
