/-
C151: timers.
-/
import Verif.Lemmas.Timers
import Mathlib.Algebra.Order.Ring.Rat

namespace Verif.Props
open Verif Verif.Timers Verif.Timers.Spec

section
variable {K : Type} [AddCommGroup K]

/-- C151: whatever the nesting of scopes, the timers they use and the exceptions, no section is entered while it is active, all sections are
left again, and the time and the number of calls of every section are those of the executions of the scopes with this full name, also of those
ended by an exception. -/
theorem C151_times (c : Code K) (hc : Named c) (clock : K) :
    ∃ s, run [] (St.init clock) c = .ok (s, (takes c).2) ∧ s.clock = clock + (takes c).1 ∧ (∀ t, s.active t = []) ∧
      ∀ t n, (s.secs t n).total = timeOf (executions [] c) t n ∧ (s.secs t n).calls = callsOf (executions [] c) t n := by
  obtain ⟨s, h1, h2⟩ := run_done c [] (St.init clock) hc (fun t n h => by cases h)
  refine ⟨s, h1, h2.clock, fun t => by rw [h2.active]; rfl, fun t n => ⟨?_, ?_⟩⟩
  · rw [h2.total]; simp [St.init]
  · rw [h2.calls]; simp [St.init]

/-- C151: the ranks have the same sections in the same timers whatever the times, provided they run the same code up to times, so that the
collective operations of printing match for the same timers of the collection (`order` lists the existing sections as the map does). -/
theorem C151_match_partial (c c' : Code K) (hc : Named c) (hc' : Named c') (h : Alike c c') (clock clock' : K) :
    ∃ s s', run [] (St.init clock) c = .ok (s, (takes c).2) ∧ run [] (St.init clock') c' = .ok (s', (takes c).2) ∧
      (∀ t n, (s.secs t n).calls = (s'.secs t n).calls) ∧
      ∀ (timers : List Nat) (order : (Name → Bool) → List Name),
        collectives timers (fun t => order fun n => decide (0 < (s.secs t n).calls)) =
          collectives timers fun t => order fun n => decide (0 < (s'.secs t n).calls) := by
  obtain ⟨s, h1, -, -, h2⟩ := C151_times c hc clock
  obtain ⟨s', h1', -, -, h2'⟩ := C151_times c' hc' clock'
  have hcalls : ∀ t n, (s.secs t n).calls = (s'.secs t n).calls := by
    intro t n
    rw [(h2 t n).2, (h2' t n).2]
    have hx : ∀ l : List (Nat × Name × K), callsOf l t n =
        ((l.map fun e => (e.1, e.2.1)).filter fun e => e.1 = t ∧ e.2 = n).length := by
      intro l
      unfold callsOf
      rw [List.filter_map, List.length_map]
      rfl
    rw [hx, hx, alike_executions c c' [] h]
  refine ⟨s, s', h1, by rw [h1', alike_takes c c' h], hcalls, ?_⟩
  intro timers order
  simp only [hcalls]

/-- C151: the statistics printed are those of all sections that were entered, of the timers of the collection, and of no others. -/
theorem C151_printed (c : Code K) (hc : Named c) (clock : K) (timers : List Nat) :
    ∃ s, run [] (St.init clock) c = .ok (s, (takes c).2) ∧
      ∀ names : Nat → List Name, (∀ t n, n ∈ names t ↔ 0 < (s.secs t n).calls) →
        ∀ t n, (t, n) ∈ collectives timers names ↔ t ∈ timers ∧ 0 < callsOf (executions [] c) t n := by
  obtain ⟨s, h1, -, -, h2⟩ := C151_times c hc clock
  refine ⟨s, h1, fun names ho t n => ?_⟩
  rw [← (h2 t n).2]
  unfold collectives
  rw [List.mem_flatMap]
  constructor
  · rintro ⟨t', ht, h⟩
    split at h
    · cases h
    · obtain ⟨n', hn, e⟩ := List.mem_map.1 h
      cases e
      exact ⟨ht, (ho _ _).1 hn⟩
  · rintro ⟨ht, hn⟩
    have : n ∈ names t := (ho _ _).2 hn
    refine ⟨t, ht, ?_⟩
    split
    · rename_i he
      rw [List.isEmpty_iff.1 he] at this
      cases this
    · exact List.mem_map.2 ⟨n, this, rfl⟩
end

/-- C151: after any sequence of constructions and destructions the collection consists of the enabled timers that are alive, once each, in the
order of construction; nothing that does not exist is erased. -/
theorem C151_collection (os : List Op) (l : List (Nat × Bool)) (h : alive [] os = some l) :
    ∃ c, Coll.steps ⟨0, []⟩ os = .ok c ∧ c.timers.map (·.2) = (l.filter (·.2)).map (·.1) := by
  obtain ⟨c, h1, h2⟩ := holds_steps os ⟨0, []⟩ [] l ⟨rfl, by simp, by simp⟩ h
  exact ⟨c, h1, h2.addrs⟩

section
variable {K : Type} [Field K] [LinearOrder K]

theorem now_answer (interval : K) (ranks : List (K × K × K)) :
    ((nowReal interval ranks).map (·.1) =
      ranks.map fun _ => decide (0 < interval ∧ ∃ r ∈ ranks, interval < r.2.1 - r.1)) := by
  unfold nowReal
  by_cases hi : interval ≤ 0
  · rw [if_pos hi, List.map_map]
    refine List.map_congr_left (fun r _ => ?_)
    simp [not_lt.2 hi]
  · rw [if_neg hi]
    dsimp only
    rw [List.map_map]
    refine List.map_congr_left (fun r _ => ?_)
    rw [Function.comp_apply]
    have key : (ranks.map fun r : K × K × K => if interval < r.2.1 - r.1 then 1 else 0).sum = (0 : Nat) ↔
        ¬ ∃ r ∈ ranks, interval < r.2.1 - r.1 := by
      rw [List.sum_eq_zero_iff_forall_eq_nat]
      constructor
      · rintro h ⟨r, hr, hlt⟩
        have := h _ (List.mem_map.2 ⟨r, hr, rfl⟩)
        rw [if_pos hlt] at this
        exact absurd this (by decide)
      · intro h x hx
        obtain ⟨r, hr, rfl⟩ := List.mem_map.1 hx
        rw [if_neg (fun hlt => h ⟨r, hr, hlt⟩)]
    by_cases he : ∃ r ∈ ranks, interval < r.2.1 - r.1
    · rw [if_neg (fun h => key.1 h he)]
      simp only [not_le.1 hi, true_and]
      exact (decide_eq_true he).symm
    · rw [if_pos (key.2 he)]
      simp only [not_le.1 hi, true_and]
      exact (decide_eq_false he).symm

/-- C151: in every sequence of questions whether it is time for statistics all ranks get the same answer, whatever their clocks show. -/
theorem C151_agree (interval : K) (last : List K) (calls : List (List (K × K))) :
    ∀ answers ∈ nowRuns interval last calls, ∃ b, ∀ a ∈ answers, a = b := by
  induction calls generalizing last with
  | nil => intro a h; cases h
  | cons c cs ih =>
    intro answers h
    rw [nowRuns] at h
    rcases List.mem_cons.1 h with h | h
    · rw [h, now_answer]
      refine ⟨decide (0 < interval ∧ ∃ r ∈ last.zip c, interval < r.2.1 - r.1), fun a ha => ?_⟩
      obtain ⟨r, -, rfl⟩ := List.mem_map.1 ha
      rfl
    · exact ih _ answers h

/-- C151: statistics are due exactly if the interval is positive and on one of the ranks more than the interval has passed since the last ones;
then all ranks remember the present time, otherwise all keep the old one. -/
theorem C151_due (interval : K) (ranks : List (K × K × K)) :
    nowReal interval ranks = ranks.map fun r =>
      if 0 < interval ∧ ∃ q ∈ ranks, interval < q.2.1 - q.1 then (true, r.2.2) else (false, r.1) := by
  have h := now_answer interval ranks
  unfold nowReal at h ⊢
  by_cases hi : interval ≤ 0
  · rw [if_pos hi]
    refine List.map_congr_left (fun r _ => ?_)
    rw [if_neg (fun h => absurd h.1 (not_lt.2 hi))]
  · rw [if_neg hi] at h ⊢
    dsimp only at h ⊢
    rw [List.map_map] at h
    refine List.map_congr_left (fun r hr => ?_)
    have hr' := (List.map_inj_left.1 h) r hr
    rw [Function.comp_apply] at hr'
    by_cases he : 0 < interval ∧ ∃ q ∈ ranks, interval < q.2.1 - q.1
    · rw [if_pos he]
      rw [decide_eq_true he] at hr'
      by_cases hs : (ranks.map fun r : K × K × K => if interval < r.2.1 - r.1 then 1 else 0).sum = (0 : Nat)
      · rw [if_pos hs] at hr'; exact absurd hr' Bool.false_ne_true
      · rw [if_neg hs]
    · rw [if_neg he]
      rw [decide_eq_false he] at hr'
      by_cases hs : (ranks.map fun r : K × K × K => if interval < r.2.1 - r.1 then 1 else 0).sum = (0 : Nat)
      · rw [if_pos hs]
      · rw [if_neg hs] at hr'; exact absurd hr' Bool.false_ne_true.symm
end

namespace Ex151

/-- A Newton step that fails inside of two scopes, repeated with success; the scope in between has no timer. -/
def code (t : Rat) : Code Rat :=
  .scope ['l'] (some 0) (.seq
    (.handled (.scope ['n'] none (.seq (.work 2) (.scope ['r'] (some 0) (.seq (.work t) .throws)))))
    (.scope ['n'] none (.seq (.work 1) (.scope ['r'] (some 0) (.work 5)))))

theorem named (t : Rat) : Named (code t) := by simp [code, Named]

example : executions [] (code 3) = [(0, "l::n::r".toList, 3), (0, "l::n::r".toList, 5), (0, ['l'], 11)] := by decide +kernel

/-- Time and calls of both executions, one of them ended by the exception. -/
example : ∃ s, run [] (St.init 0) (code 3) = .ok (s, false) ∧ s.clock = 0 + 11 ∧ (∀ t, s.active t = []) ∧
    (s.secs 0 (join [['l'], ['n'], ['r']])).total = 8 ∧ (s.secs 0 (join [['l'], ['n'], ['r']])).calls = 2 := by
  obtain ⟨s, h1, h2, h3, h4⟩ := C151_times (code 3) (named 3) 0
  refine ⟨s, h1.trans (by congr 2), h2.trans (congrArg _ (by decide +kernel)), h3, ?_, ?_⟩
  · rw [(h4 _ _).1]; decide +kernel
  · rw [(h4 _ _).2]; decide +kernel

example : Alike (code 3) (code 4) := by simp [code, Alike]

/-- With names that are not those of `ScopedName` a scope can be entered while it is active; this is undefined. -/
example : (do let s ← enter (St.init (0 : Rat)) 0 ['a']
              let _ ← enter s 0 ['a']
              Res.ok () : Res Unit) = .ub := by decide +kernel

/-- If one rank alone throws, the sections differ and the collective operations do not match. -/
theorem C151_match_violated :
    ∃ c c' : Code Rat, Named c ∧ Named c' ∧ (takes c).2 = (takes c').2 ∧
      callsOf (executions [] c) 0 ['b'] = 1 ∧ callsOf (executions [] c') 0 ['b'] = 0 :=
  ⟨.handled (.seq .skip (.scope ['b'] (some 0) .skip)), .handled (.seq .throws (.scope ['b'] (some 0) .skip)),
    by simp [Named], by simp [Named], rfl, by decide +kernel, by decide +kernel⟩

def ops : List Op := [.create 7 true, .create 8 false, .create 9 true, .destroy 7 true, .create 7 true]

example : alive [] ops = some [(8, false), (9, true), (7, true)] := by decide +kernel
example : Coll.steps ⟨0, []⟩ ops = .ok ⟨3, [(1, 9), (2, 7)]⟩ := by decide +kernel

/-- Clocks that are apart by 100: rank 1 alone sees more than the interval. -/
example : nowRuns (10 : Rat) [0, 100] [[(9, 9), (109, 109)], [(10, 10), (111, 112)], [(19, 19), (121, 121)]] =
    [[false, false], [true, true], [false, false]] := by decide +kernel

end Ex151
end Verif.Props
