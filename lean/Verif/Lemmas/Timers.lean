/-
Lemmas about timers.
-/
import Verif.Spec.Timers
import Mathlib.Tactic.Abel
import Mathlib.Tactic.Linarith
import Mathlib.Data.List.Basic

namespace Verif.Timers
open Verif.Timers.Spec

set_option linter.unusedSectionVars false

theorem join_cons (n : Name) {ns : List Name} (h : ns ≠ []) : join (n :: ns) = n ++ ':' :: ':' :: join ns := by
  cases ns with
  | nil => exact absurd rfl h
  | cons a l => rfl

theorem join_append (p : List Name) {q : List Name} (hp : p ≠ []) (hq : q ≠ []) :
    join (p ++ q) = join p ++ ':' :: ':' :: join q := by
  induction p with
  | nil => exact absurd rfl hp
  | cons n ns ih =>
    cases ns with
    | nil => rw [List.singleton_append, join_cons n hq]; rfl
    | cons a l =>
      rw [List.cons_append, join_cons n (by simp), join_cons n (by simp), ih (by simp)]
      simp

theorem join_longer (p : List Name) (n : Name) (k : Nat) (hk : 0 < k) (hk' : k ≤ p.length) :
    (join ((p ++ [n]).take k)).length < (join (p ++ [n])).length := by
  have h1 : (p ++ [n]).take k ≠ [] := by
    intro h
    have := congrArg List.length h
    simp at this
    omega
  have h2 : (p ++ [n]).drop k ≠ [] := by
    intro h
    have := congrArg List.length h
    simp at this
    omega
  have h3 := join_append _ h1 h2
  rw [List.take_append_drop] at h3
  rw [h3]
  simp

theorem join_ne_nil (p : List Name) {n : Name} (hn : n ≠ []) : join (p ++ [n]) ≠ [] := by
  cases p with
  | nil => exact hn
  | cons a l =>
    rw [join_append _ (by simp) (by simp)]
    simp

section
variable {K : Type} [AddCommGroup K]

/-- The active sections are scopes around the present place. -/
def Around (path : List Name) (s : St K) : Prop :=
  ∀ t, ∀ n ∈ s.active t, ∃ k, 0 < k ∧ k ≤ path.length ∧ n = join (path.take k)

theorem not_active {path : List Name} {s : St K} (h : Around path s) (t : Nat) (n : Name) :
    join (path ++ [n]) ∉ s.active t := by
  intro hm
  obtain ⟨k, h1, h2, h3⟩ := h t _ hm
  have := join_longer path n k h1 h2
  rw [List.take_append_of_le_length h2, ← h3] at this
  omega

/-- What a piece of code does to the timers. -/
structure Done (path : List Name) (s : St K) (c : Code K) (s' : St K) : Prop where
  clock : s'.clock = s.clock + (takes c).1
  active : s'.active = s.active
  total : ∀ t n, (s'.secs t n).total = (s.secs t n).total + timeOf (executions path c) t n
  calls : ∀ t n, (s'.secs t n).calls = (s.secs t n).calls + callsOf (executions path c) t n
  running : ∀ t, ∀ n ∈ s.active t, (s'.secs t n).start = (s.secs t n).start ∧ (s'.secs t n).acc = (s.secs t n).acc

theorem timeOf_append (l m : List (Nat × Name × K)) (t : Nat) (n : Name) :
    timeOf (l ++ m) t n = timeOf l t n + timeOf m t n := by
  simp [timeOf]

theorem callsOf_append (l m : List (Nat × Name × K)) (t : Nat) (n : Name) :
    callsOf (l ++ m) t n = callsOf l t n + callsOf m t n := by
  simp [callsOf]

theorem timeOf_nil (t : Nat) (n : Name) : timeOf ([] : List (Nat × Name × K)) t n = 0 := rfl
theorem callsOf_nil (t : Nat) (n : Name) : callsOf ([] : List (Nat × Name × K)) t n = 0 := rfl

theorem timeOf_one (e : Nat × Name × K) (t : Nat) (n : Name) :
    timeOf [e] t n = if t = e.1 ∧ n = e.2.1 then e.2.2 else 0 := by
  unfold timeOf
  by_cases h : t = e.1 ∧ n = e.2.1
  · rw [if_pos h]; simp [h.1, h.2]
  · rw [if_neg h, List.filter_cons_of_neg (by
      simp only [decide_eq_true_eq]; rintro ⟨h1, h2⟩; exact h ⟨h1.symm, h2.symm⟩)]
    rfl

theorem callsOf_one (e : Nat × Name × K) (t : Nat) (n : Name) :
    callsOf [e] t n = if t = e.1 ∧ n = e.2.1 then 1 else 0 := by
  unfold callsOf
  by_cases h : t = e.1 ∧ n = e.2.1
  · rw [if_pos h]; simp [h.1, h.2]
  · rw [if_neg h, List.filter_cons_of_neg (by
      simp only [decide_eq_true_eq]; rintro ⟨h1, h2⟩; exact h ⟨h1.symm, h2.symm⟩)]
    rfl

/-- After entering a section. -/
def entered (s : St K) (t : Nat) (n : Name) : St K := { s with
    secs := fun t' n' => if t' = t ∧ n' = n then
      { start := some s.clock, acc := 0, total := (s.secs t n).total, calls := (s.secs t n).calls + 1 } else s.secs t' n'
    active := fun t' => if t' = t then s.active t ++ [n] else s.active t' }

theorem scope_done {path : List Name} {s : St K} (ha : Around path s) {name : Name} (hn : name ≠ []) (t : Nat) (body : Code K)
    (ih : ∀ s : St K, Around (path ++ [name]) s →
      ∃ s', run (path ++ [name]) s body = .ok (s', (takes body).2) ∧ Done (path ++ [name]) s body s') :
    ∃ s', run path s (.scope name (some t) body) = .ok (s', (takes body).2) ∧
      Done path s (.scope name (some t) body) s' := by
  set full := join (path ++ [name]) with hfull
  have hnot : full ∉ s.active t := not_active ha t name
  have hne : full ≠ [] := join_ne_nil path hn
  have hs1 : enter s t full = .ok (entered s t full) := by
    unfold enter
    rw [if_neg (by rintro (h | h); exacts [hne h, hnot h])]
    rfl
  have ha1 : Around (path ++ [name]) (entered s t full) := by
    intro t' n' hm
    dsimp only [entered] at hm
    have old : n' ∈ s.active t' → ∃ k, 0 < k ∧ k ≤ (path ++ [name]).length ∧ n' = join ((path ++ [name]).take k) := by
      intro hm
      obtain ⟨k, h1, h2, h3⟩ := ha t' n' hm
      exact ⟨k, h1, by simp; omega, by rw [List.take_append_of_le_length h2]; exact h3⟩
    by_cases ht : t' = t
    · subst ht
      rw [if_pos rfl] at hm
      rcases List.mem_append.1 hm with hm | hm
      · exact old hm
      · refine ⟨(path ++ [name]).length, by simp, le_refl _, ?_⟩
        rw [List.take_length]
        exact List.mem_singleton.1 hm
    · rw [if_neg ht] at hm
      exact old hm
  obtain ⟨s2, hrun, hd⟩ := ih _ ha1
  have hact : s2.active t = s.active t ++ [full] := by
    rw [hd.active]; dsimp only [entered]; rw [if_pos rfl]
  have hin : full ∈ s2.active t := by rw [hact]; simp
  have hrunning := hd.running t full (by dsimp only [entered]; rw [if_pos rfl]; simp)
  dsimp only [entered] at hrunning
  rw [if_pos ⟨rfl, rfl⟩] at hrunning
  have hstop : stopped s2.clock (s2.secs t full) = (takes body).1 := by
    unfold stopped
    rw [hrunning.1, hrunning.2, hd.clock]
    dsimp only [entered]
    abel
  refine ⟨_, by rw [run, ← hfull, hs1, Res.ok_bind, hrun, Res.ok_bind, leave, if_pos hin, Res.ok_bind], ?_⟩
  refine ⟨hd.clock, ?_, ?_, ?_, ?_⟩
  · funext t'
    dsimp only
    by_cases ht : t' = t
    · subst ht
      rw [if_pos rfl, hact, List.erase_append_right _ hnot]
      simp
    · rw [if_neg ht, hd.active]
      dsimp only [entered]
      rw [if_neg ht]
  · intro t' n'
    have htot := hd.total t' n'
    dsimp only [entered] at htot ⊢
    rw [executions, timeOf_append]
    rw [timeOf_one]
    dsimp only
    rw [← hfull]
    by_cases h : t' = t ∧ n' = full
    · rw [if_pos h, if_pos h, hstop, ← h.1, ← h.2, htot, if_pos h, ← h.1, ← h.2]
      dsimp only
      abel
    · rw [if_neg h, if_neg h, htot, if_neg h, add_zero]
  · intro t' n'
    have htot := hd.calls t' n'
    dsimp only [entered] at htot ⊢
    rw [executions, callsOf_append]
    rw [callsOf_one]
    dsimp only
    rw [← hfull]
    by_cases h : t' = t ∧ n' = full
    · rw [if_pos h, if_pos h, ← h.1, ← h.2, htot, if_pos h, ← h.1, ← h.2]
      dsimp only
      omega
    · rw [if_neg h, if_neg h, htot, if_neg h, add_zero]
  · intro t' n' hm
    have h : ¬ (t' = t ∧ n' = full) := by
      rintro ⟨rfl, rfl⟩; exact hnot hm
    have hr := hd.running t' n' (by
      dsimp only [entered]
      by_cases ht : t' = t
      · subst ht; rw [if_pos rfl]; exact List.mem_append_left _ hm
      · rw [if_neg ht]; exact hm)
    dsimp only [entered] at hr ⊢
    rw [if_neg h] at hr ⊢
    exact hr

theorem run_done (c : Code K) : ∀ (path : List Name) (s : St K), Named c → Around path s →
    ∃ s', run path s c = .ok (s', (takes c).2) ∧ Done path s c s' := by
  induction c with
  | skip => intro path s _ _; exact ⟨s, rfl, by simp [takes], rfl, by simp [executions, timeOf], by simp [executions, callsOf], by simp⟩
  | work t =>
    intro path s _ _
    exact ⟨_, rfl, by simp [takes], rfl, by simp [executions, timeOf], by simp [executions, callsOf], by simp⟩
  | throws => intro path s _ _; exact ⟨s, rfl, by simp [takes], rfl, by simp [executions, timeOf], by simp [executions, callsOf], by simp⟩
  | scope name timer body ih =>
    intro path s hN ha
    cases timer with
    | some t => exact scope_done ha hN.1 t body (fun s h => ih (path ++ [name]) s hN.2 h)
    | none =>
      obtain ⟨s', h1, h2⟩ := ih (path ++ [name]) s hN.2 (by
        intro t n hm
        obtain ⟨k, h1, h2, h3⟩ := ha t n hm
        exact ⟨k, h1, by simp; omega, by rw [List.take_append_of_le_length h2]; exact h3⟩)
      refine ⟨s', by rw [run]; exact h1, h2.clock, h2.active, ?_, ?_, h2.running⟩
      · intro t n; rw [executions, List.append_nil]; exact h2.total t n
      · intro t n; rw [executions, List.append_nil]; exact h2.calls t n
  | seq a b iha ihb =>
    intro path s hN ha
    obtain ⟨s1, h1, d1⟩ := iha path s hN.1 ha
    rw [run, h1, Res.ok_bind]
    dsimp only
    by_cases ht : (takes a).2 = true
    · rw [if_pos ht]
      refine ⟨s1, by rw [takes, if_pos ht], ?_, d1.active, ?_, ?_, d1.running⟩
      · rw [takes, if_pos ht]; exact d1.clock
      · intro t n; rw [executions, if_pos ht]; exact d1.total t n
      · intro t n; rw [executions, if_pos ht]; exact d1.calls t n
    · rw [if_neg ht]
      have ha1 : Around path s1 := by intro t n hm; rw [d1.active] at hm; exact ha t n hm
      obtain ⟨s2, h2, d2⟩ := ihb path s1 hN.2 ha1
      refine ⟨s2, by rw [h2, takes, if_neg ht], ?_, d2.active.trans d1.active, ?_, ?_, ?_⟩
      · rw [d2.clock, d1.clock, takes, if_neg ht, add_assoc]
      · intro t n; rw [executions, if_neg ht, timeOf_append, d2.total, d1.total, add_assoc]
      · intro t n; rw [executions, if_neg ht, callsOf_append, d2.calls, d1.calls, add_assoc]
      · intro t n hm
        have r1 := d1.running t n hm
        have r2 := d2.running t n (by rw [d1.active]; exact hm)
        exact ⟨r2.1.trans r1.1, r2.2.trans r1.2⟩
  | handled body ih =>
    intro path s hN ha
    obtain ⟨s1, h1, d1⟩ := ih path s hN ha
    exact ⟨s1, by rw [run, h1, Res.ok_bind]; rfl, d1.clock, d1.active, d1.total, d1.calls, d1.running⟩

theorem alike_takes : ∀ c c' : Code K, Alike c c' → (takes c).2 = (takes c').2
  | .skip, .skip, _ => rfl
  | .work _, .work _, _ => rfl
  | .throws, .throws, _ => rfl
  | .scope _ _ b, .scope _ _ b', h => by
    rw [Alike] at h
    exact alike_takes b b' h.2.2
  | .seq a b, .seq a' b', h => by
    rw [Alike] at h
    have ha := alike_takes a a' h.1
    have hb := alike_takes b b' h.2
    rw [takes, takes]
    by_cases ht : (takes a).2 = true
    · rw [if_pos ht, if_pos (ha ▸ ht), ha]
    · rw [if_neg ht, if_neg (ha ▸ ht)]; exact hb
  | .handled _, .handled _, _ => rfl

theorem alike_executions : ∀ (c c' : Code K) (path : List Name), Alike c c' →
    (executions path c).map (fun e => (e.1, e.2.1)) = (executions path c').map (fun e => (e.1, e.2.1))
  | .skip, .skip, _, _ => rfl
  | .work _, .work _, _, _ => rfl
  | .throws, .throws, _, _ => rfl
  | .scope n t b, .scope n' t' b', path, h => by
    rw [Alike] at h
    obtain ⟨rfl, rfl, h⟩ := h
    cases t with
    | none =>
      rw [executions, executions, List.map_append, List.map_append, alike_executions b b' _ h]
    | some t =>
      rw [executions, executions, List.map_append, List.map_append, alike_executions b b' _ h]
      rfl
  | .seq a b, .seq a' b', path, h => by
    rw [Alike] at h
    have ha := alike_takes a a' h.1
    rw [executions, executions]
    by_cases ht : (takes a).2 = true
    · rw [if_pos ht, if_pos (ha ▸ ht), alike_executions a a' _ h.1]
    · rw [if_neg ht, if_neg (ha ▸ ht), List.map_append, List.map_append, alike_executions a a' _ h.1,
        alike_executions b b' _ h.2]
  | .handled b, .handled b', path, h => by
    rw [Alike] at h
    rw [executions, executions]
    exact alike_executions b b' path h
end

/-! ### The collection -/

/-- The collection holds the enabled timers in the order of construction. -/
structure Holds (c : Coll) (l : List (Nat × Bool)) : Prop where
  addrs : c.timers.map (·.2) = (l.filter (·.2)).map (·.1)
  sorted : ∀ p ∈ c.timers, p.1 < c.counter
  nodup : (l.map (·.1)).Nodup

theorem insertSet_last (p : Nat × Nat) (l : List (Nat × Nat)) (h : ∀ q ∈ l, q.1 < p.1) : insertSet p l = l ++ [p] := by
  induction l with
  | nil => rfl
  | cons q l ih =>
    have hq := h q (by simp)
    rw [insertSet, if_neg (by omega), if_neg (by rintro rfl; omega), ih (fun r hr => h r (by simp [hr]))]
    rfl

theorem erase_found (l : List (Nat × Nat)) (a i : Nat) (h : l.findIdx? (fun p => p.2 == a) = some i)
    (hn : (l.map (·.2)).Nodup) : (l.eraseIdx i).map (·.2) = (l.map (·.2)).filter fun x => x ≠ a := by
  induction l generalizing i with
  | nil => simp at h
  | cons p l ih =>
    rw [List.map_cons, List.nodup_cons] at hn
    rw [List.findIdx?_cons] at h
    by_cases hp : p.2 = a
    · rw [if_pos (by simpa using hp)] at h
      cases h
      rw [List.eraseIdx_cons_zero, List.map_cons, List.filter_cons_of_neg (by simpa using hp)]
      symm
      rw [List.filter_eq_self]
      intro x hx
      have : x ≠ a := by rintro rfl; exact hn.1 (hp ▸ hx)
      simpa using this
    · rw [if_neg (by simpa using hp)] at h
      obtain ⟨k, hk, rfl⟩ := Option.map_eq_some_iff.1 h
      rw [List.eraseIdx_cons_succ, List.map_cons, List.map_cons, List.filter_cons_of_pos (by simpa using hp), ih k hk hn.2]

theorem holds_create {c : Coll} {l : List (Nat × Bool)} (h : Holds c l) (a : Nat) (e : Bool) (ha : a ∉ l.map (·.1)) :
    ∃ c', c.step (.create a e) = .ok c' ∧ Holds c' (l ++ [(a, e)]) := by
  have hnd : ((l ++ [(a, e)]).map (·.1)).Nodup := by
    rw [List.map_append, List.map_singleton, List.nodup_append]
    refine ⟨h.nodup, by simp, ?_⟩
    rintro x hx y hy rfl
    have e : x = a := List.mem_singleton.1 hy
    exact ha (e ▸ hx)
  cases e with
  | false =>
    refine ⟨c, rfl, ?_, h.sorted, hnd⟩
    rw [List.filter_append, h.addrs]
    simp
  | true =>
    refine ⟨_, rfl, ?_, ?_, hnd⟩
    · dsimp only
      rw [insertSet_last _ _ h.sorted, List.map_append, h.addrs, List.filter_append]
      simp
    · dsimp only
      rw [insertSet_last _ _ h.sorted]
      intro p hp
      rcases List.mem_append.1 hp with hp | hp
      · have := h.sorted p hp; omega
      · rw [List.mem_singleton.1 hp]; exact Nat.lt_succ_self _

theorem unique_flag {l : List (Nat × Bool)} (h : (l.map (·.1)).Nodup) {a : Nat} {e e' : Bool} (h1 : (a, e) ∈ l) (h2 : (a, e') ∈ l) :
    e = e' := by
  induction l with
  | nil => cases h1
  | cons p l ih =>
    rw [List.map_cons, List.nodup_cons] at h
    rcases List.mem_cons.1 h1 with h1 | h1 <;> rcases List.mem_cons.1 h2 with h2 | h2
    · rw [← h2] at h1; exact (Prod.ext_iff.1 h1).2
    · exact absurd (List.mem_map.2 ⟨_, h2, by rw [← h1]⟩) h.1
    · exact absurd (List.mem_map.2 ⟨_, h1, by rw [← h2]⟩) h.1
    · exact ih h.2 h1 h2

theorem holds_destroy {c : Coll} {l : List (Nat × Bool)} (h : Holds c l) (a : Nat) (e : Bool) (ha : (a, e) ∈ l) :
    ∃ c', c.step (.destroy a e) = .ok c' ∧ Holds c' (l.filter fun p => p.1 ≠ a) := by
  have hnd : ((l.filter fun p => p.1 ≠ a).map (·.1)).Nodup := h.nodup.sublist (List.filter_sublist.map _)
  have hcomm : (((l.filter fun p => p.1 ≠ a).filter (·.2)).map (·.1)) = (((l.filter (·.2)).map (·.1)).filter fun x => x ≠ a) := by
    rw [List.filter_map, List.filter_filter, List.filter_filter]
    congr 1
    refine List.filter_congr (fun p _ => ?_)
    simp [Bool.and_comm]
  cases e with
  | false =>
    refine ⟨c, rfl, ?_, h.sorted, hnd⟩
    rw [h.addrs, hcomm]
    symm
    rw [List.filter_eq_self]
    intro x hx
    obtain ⟨p, hp, rfl⟩ := List.mem_map.1 hx
    have hp' := List.mem_filter.1 hp
    have : p.1 ≠ a := by
      rintro rfl
      have := unique_flag h.nodup ha hp'.1
      rw [← this] at hp'
      exact absurd hp'.2 (by decide)
    simpa using this
  | true =>
    have hmem : a ∈ c.timers.map (·.2) := by
      rw [h.addrs]
      exact List.mem_map.2 ⟨(a, true), List.mem_filter.2 ⟨ha, rfl⟩, rfl⟩
    cases hf : c.timers.findIdx? (fun p => p.2 == a) with
    | none =>
      rw [List.findIdx?_eq_none_iff] at hf
      obtain ⟨p, hp, hpa⟩ := List.mem_map.1 hmem
      exact absurd (hf p hp) (by simp [hpa])
    | some i =>
      have hn2 : (c.timers.map (·.2)).Nodup := by
        rw [h.addrs]
        exact h.nodup.sublist (List.filter_sublist.map _)
      refine ⟨{ c with timers := c.timers.eraseIdx i }, ?_, ?_, ?_, hnd⟩
      · show (match c.timers.findIdx? (fun p => p.2 == a) with
          | some i => Res.ok { c with timers := c.timers.eraseIdx i }
          | none => Res.ub) = _
        rw [hf]
      · dsimp only
        rw [erase_found _ _ _ hf hn2, h.addrs, hcomm]
      · intro p hp
        exact h.sorted p (List.mem_of_mem_eraseIdx hp)

theorem holds_steps (os : List Op) : ∀ (c : Coll) (l l' : List (Nat × Bool)), Holds c l → alive l os = some l' →
    ∃ c', c.steps os = .ok c' ∧ Holds c' l' := by
  induction os with
  | nil => intro c l l' h ha; cases ha; exact ⟨c, rfl, h⟩
  | cons o os ih =>
    intro c l l' h ha
    cases o with
    | create a e =>
      rw [alive] at ha
      by_cases hm : a ∈ l.map (·.1)
      · rw [if_pos hm] at ha; cases ha
      · rw [if_neg hm] at ha
        obtain ⟨c1, h1, h2⟩ := holds_create h a e hm
        obtain ⟨c2, h3, h4⟩ := ih c1 _ l' h2 ha
        exact ⟨c2, by rw [Coll.steps, h1, Res.ok_bind, h3], h4⟩
    | destroy a e =>
      rw [alive] at ha
      by_cases hm : (a, e) ∈ l
      · rw [if_pos hm] at ha
        obtain ⟨c1, h1, h2⟩ := holds_destroy h a e hm
        obtain ⟨c2, h3, h4⟩ := ih c1 _ l' h2 ha
        exact ⟨c2, by rw [Coll.steps, h1, Res.ok_bind, h3], h4⟩
      · rw [if_neg hm] at ha; cases ha

end Verif.Timers
