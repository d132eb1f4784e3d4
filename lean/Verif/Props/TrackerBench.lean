/-
C158: benchmark of the grain tracker.
-/
import Verif.Lemmas.TrackerBench
import Mathlib.Tactic.Positivity

set_option linter.unusedSectionVars false

namespace Verif.Props

open Verif.Spec Verif.TrackerBench Verif.TrackerBench.Spec

section arguments

variable {K : Type} [Field K] [LinearOrder K]

/-- Accepted arguments are positive, those not given have the documented defaults, and the sizes reach at least two. With at
least one argument the call is defined. Full claim: every call that does not name one of both modes, or with a number of grains
that is not larger than one, is rejected; see `C158_silent_violation` and `C158_negative_violation`. -/
theorem C158_args_partial (E : Env K) (argv : List String) :
    (2 ≤ argv.length → parse E argv ≠ .ub) ∧
    (∀ n r w v f, parse E argv = .ok (.hypercube n r w v f) → argv[1]? = some "--hypercube" ∧ (∃ a, argv[2]? = some a ∧ (0 ≤ E.atoi a → E.atoi a < 2 ^ 31 → E.atoi a = n)) ∧ 1 < n ∧ n < 2 ^ 32 ∧
      (0 < r ∧ Given E argv 3 (15 / 2) r) ∧ (0 < w ∧ Given E argv 4 1 w) ∧ (0 < v ∧ Given E argv 5 2 v) ∧ (0 < f ∧ Given E argv 6 (1 / 2) f)) ∧
    (∀ a w r v f, parse E argv = .ok (.cloud a w r v f) → argv[1]? = some "--cloud" ∧ argv[2]? = some a ∧ E.opens a = true ∧
      (0 < w ∧ Given E argv 3 1 w) ∧ (0 < r ∧ Given E argv 4 1 r) ∧ (0 < v ∧ Given E argv 5 2 v) ∧ (0 < f ∧ Given E argv 6 (1 / 2) f)) ∧
    (argv[1]? = some "--hypercube" ∨ argv[1]? = some "--cloud" → parse E argv ≠ .ok .nothing) := by
  have nb : ∀ (o1 o2 o3 o4 : Option K) (j : K → K → K → K → Job K),
      ((positive o1).bind fun r => (positive o2).bind fun w => (positive o3).bind fun d => (positive o4).bind fun f => Res.ok (j r w d f)) ≠ .ub := by
    intro o1 o2 o3 o4 j
    exact bind_ne_ub (positive_ne_ub _) fun _ => bind_ne_ub (positive_ne_ub _) fun _ => bind_ne_ub (positive_ne_ub _) fun _ => bind_ne_ub (positive_ne_ub _) fun _ => by simp
  have gv : ∀ {o1 o2 o3 o4 : Option K} {j : K → K → K → K → Job K} {J : Job K},
      ((positive o1).bind fun r => (positive o2).bind fun w => (positive o3).bind fun d => (positive o4).bind fun f => Res.ok (j r w d f)) = .ok J →
      ∃ r w d f, J = j r w d f ∧ (o1 = some r ∧ 0 < r) ∧ (o2 = some w ∧ 0 < w) ∧ (o3 = some d ∧ 0 < d) ∧ (o4 = some f ∧ 0 < f) := by
    intro o1 o2 o3 o4 j J h
    obtain ⟨r, h1, h⟩ := bind_ok h
    obtain ⟨w, h2, h⟩ := bind_ok h
    obtain ⟨v, h3, h⟩ := bind_ok h
    obtain ⟨f, h4, h⟩ := bind_ok h
    injection h with h
    exact ⟨r, w, v, f, h.symm, positive_ok h1, positive_ok h2, positive_ok h3, positive_ok h4⟩
  have hne : ("--cloud" : String) ≠ "--hypercube" := by decide
  unfold parse
  refine ⟨fun hl => ?_, fun n r w v f h => ?_, fun a w r v f h => ?_, fun hm => ?_⟩
  · have : ∃ m, argv[1]? = some m := ⟨_, List.getElem?_eq_getElem (by omega)⟩
    obtain ⟨m, hm⟩ := this
    rw [hm]
    dsimp only
    split
    · split
      · simp
      · split
        · simp
        · exact nb _ _ _ _ _
    · split
      · split
        · simp
        · split
          · simp
          · exact nb _ _ _ _ _
      · simp
  · split at h
    · cases h
    · rename_i m hm
      split at h
      · rename_i hmode
        split at h
        · cases h
        · rename_i a ha
          split at h
          · cases h
          · rename_i h1
            obtain ⟨r', w', v', f', e, p1, p2, p3, p4⟩ := gv h
            injection e with e1 e2 e3 e4 e5
            subst e1 e2 e3 e4 e5
            refine ⟨by rw [hm, hmode], ⟨a, ha, fun h0 h2 => ?_⟩, by omega, ?_, ⟨p1.2, given p1.1⟩, ⟨p2.2, given p2.1⟩, ⟨p3.2, given p3.1⟩, ⟨p4.2, given p4.1⟩⟩
            · unfold toUnsigned
              omega
            · unfold toUnsigned
              omega
      · split at h
        · split at h
          · cases h
          · split at h
            · cases h
            · obtain ⟨r', w', v', f', e, -⟩ := gv h
              cases e
        · cases h
  · split at h
    · cases h
    · rename_i m hm
      split at h
      · split at h
        · cases h
        · split at h
          · cases h
          · obtain ⟨r', w', v', f', e, -⟩ := gv h
            cases e
      · split at h
        · rename_i hmode
          split at h
          · cases h
          · rename_i b hb
            split at h
            · cases h
            · rename_i h1
              obtain ⟨r', w', v', f', e, p1, p2, p3, p4⟩ := gv h
              injection e with e1 e2 e3 e4 e5
              subst e1 e2 e3 e4 e5
              exact ⟨by rw [hm, hmode], hb, by simpa using h1, ⟨p1.2, given p1.1⟩, ⟨p2.2, given p2.1⟩, ⟨p3.2, given p3.1⟩, ⟨p4.2, given p4.1⟩⟩
        · cases h
  · intro h
    rcases hm with hm | hm
    · rw [hm] at h
      dsimp only at h
      rw [if_pos rfl] at h
      split at h
      · cases h
      · split at h
        · cases h
        · obtain ⟨r', w', v', f', e, -⟩ := gv h
          cases e
    · rw [hm] at h
      dsimp only at h
      rw [if_neg hne, if_pos rfl] at h
      split at h
      · cases h
      · split at h
        · cases h
        · obtain ⟨r', w', v', f', e, -⟩ := gv h
          cases e

/-- Without arguments a string is made of a null pointer; any other mode, e.g. a misspelt one, ends as if it were successful. -/
theorem C158_silent_violation (E : Env K) (name mode : String) (rest : List String) (h : mode ≠ "--hypercube" ∧ mode ≠ "--cloud") :
    parse E [name] = .ub ∧ parse E (name :: mode :: rest) = .ok .nothing := by
  refine ⟨rfl, ?_⟩
  show (if mode = "--hypercube" then _ else if mode = "--cloud" then _ else _) = _
  rw [if_neg h.1, if_neg h.2]

/-- The loop over sizes comes to an end exactly if the largest size is not the largest number; then every size from two on is
done once, in this order. -/
theorem C158_sizes (n : Nat) (h : n < 2 ^ 32) :
    ((∃ k, n < counter k) ↔ n < 2 ^ 32 - 1) ∧ (1 < n → n < 2 ^ 32 - 1 → (∀ k < n - 1, counter k = k + 2 ∧ counter k ≤ n) ∧ n < counter (n - 1)) := by
  refine ⟨⟨fun ⟨k, hk⟩ => ?_, fun hn => ?_⟩, fun h1 hn => ⟨fun k hk => ?_, ?_⟩⟩
  · have := counter_lt k
    omega
  · by_cases h1 : 1 < n
    · exact ⟨n - 1, by rw [counter_eq _ (by omega)]; omega⟩
    · exact ⟨0, by show n < 2; omega⟩
  · rw [counter_eq _ (by omega)]
    omega
  · rw [counter_eq _ (by omega)]
    omega

/-- For a size every number of order parameters from two to the size is tried once. -/
theorem C158_counts (row n : Nat) : (n ∈ opCounts row ↔ 2 ≤ n ∧ n ≤ row) ∧ (opCounts row).Pairwise (· < ·) := by
  unfold opCounts
  constructor
  · rw [List.mem_map]
    constructor
    · rintro ⟨a, ha, rfl⟩
      have := List.mem_range.1 ha
      omega
    · rintro ⟨h1, h2⟩
      exact ⟨n - 2, List.mem_range.2 (by omega), by omega⟩
  · rw [List.pairwise_map]
    exact List.pairwise_lt_range.imp fun h => by omega

/-- The check for more than one grain per row lets all negative numbers pass; with minus one the benchmark does not end. -/
theorem C158_negative_violation [IsStrictOrderedRing K] (E : Env K) (name a : String) (h : E.atoi a = -1) :
    ∃ n, parse E [name, "--hypercube", a] = .ok (.hypercube n (15 / 2) 1 2 (1 / 2)) ∧ ∀ k, counter k ≤ n := by
  refine ⟨2 ^ 32 - 1, ?_, fun k => by have := counter_lt k; omega⟩
  have e : toUnsigned (E.atoi a) = 2 ^ 32 - 1 := by rw [h]; decide
  have p : ∀ x : K, 0 < x → positive (some x) = .ok x := fun x hx => if_pos hx
  unfold parse TrackerBench.optional
  simp only [List.getElem?_cons_succ, List.getElem?_cons_zero, List.getElem?_nil, if_true, e]
  rw [if_neg (by decide), p _ (by positivity), p _ (by positivity), p _ (by positivity), p _ (by positivity)]
  rfl

end arguments

section tests

variable {P K D : Type} [DecidableEq D] [Zero K] {x : RemapExt} {detect : Nat → Fld D K → Found P K D}

/-- Before the grains are searched for, every order parameter searched has its initial values, whatever earlier tests left. -/
theorem C158_initial (s : St D K) (I : Init D K) (hb : I.nOp ≤ s.blocks) (b : Nat) (h : b < I.nOp) (d : D) :
    (setInitial I s).sol b d = I.val b d ∧ (setInitial I s).blocks = s.blocks := by
  refine ⟨?_, rfl⟩
  show (if b < s.blocks ∧ b + 2 < I.nOp + 2 then I.val b d else s.sol b d) = _
  exact if_pos ⟨by omega, by omega⟩

/-- The tests for any number of order parameters read and write existing blocks only, and every test adds one block. -/
theorem C158_tests (hx : x.Ok) (hd : ∀ n sol, Good n (detect n sol)) (s : St D K) (I : Init D K) (h0 : 0 < I.nOp) (hb : I.nOp ≤ s.blocks) :
    ∃ sol', runTests x detect s I = .ok ⟨s.blocks + 1, sol'⟩ := by
  unfold runTests testDependent setup
  dsimp only
  rw [show (setInitial I s).blocks = s.blocks from rfl, if_pos hb]
  dsimp only [Res.bind]
  obtain ⟨sols, -, h2, -⟩ := measured_ok hx (F := detect I.nOp (setInitial I s).sol) (grains := reassigned (· + 1) (detect I.nOp (setInitial I s).sol).grains) calls
    (s := ⟨s.blocks + 1, fun b d => if b = s.blocks then 0 else (setInitial I s).sol b d⟩)
    (remappable_of (hd _ _) (by show I.nOp ≤ s.blocks + 1; omega) (fun a ha => by show a + 1 < s.blocks + 1; omega) (fun a _ b _ e => by omega))
  rw [h2]
  dsimp only [Res.bind]
  unfold testCycle setup
  dsimp only
  generalize hs : setInitial I (⟨s.blocks + 1, sols calls⟩ : St D K) = t
  have ht : t.blocks = s.blocks + 1 := by rw [← hs]; rfl
  rw [ht, if_pos (by omega)]
  dsimp only [Res.bind]
  obtain ⟨sols', -, h3, -⟩ := measured_ok hx (F := detect I.nOp t.sol) (grains := reassigned (fun op => (op + 1) % I.nOp) (detect I.nOp t.sol).grains) calls (s := t)
    (remappable_of (hd _ _) (by omega) (fun a ha => by have := Nat.mod_lt (a + 1) h0; omega) (fun a ha b hb e => by
      have e : (a + 1) % I.nOp = (b + 1) % I.nOp := e
      rcases Nat.lt_or_ge (a + 1) I.nOp with h1 | h1 <;> rcases Nat.lt_or_ge (b + 1) I.nOp with h2 | h2
      · rw [Nat.mod_eq_of_lt h1, Nat.mod_eq_of_lt h2] at e; omega
      · rw [Nat.mod_eq_of_lt h1, show b + 1 = I.nOp by omega, Nat.mod_self] at e; omega
      · rw [Nat.mod_eq_of_lt h2, show a + 1 = I.nOp by omega, Nat.mod_self] at e; omega
      · omega))
  rw [h3]
  exact ⟨sols' calls, by rw [← ht]⟩

/-- The benchmark of every size runs through: although the solution is made for two order parameters, there are always enough
blocks, because every pass adds the one the next pass needs. -/
theorem C158_blocks (hx : x.Ok) (hd : ∀ n sol, Good n (detect n sol)) (init : Nat → Fld D K) (row : Nat) (h : 1 < row) :
    ∃ sol', benchmark x detect init row = .ok ⟨row + 1, sol'⟩ := by
  have key : ∀ (l : List Nat) (s : St D K), l = (List.range l.length).map (· + s.blocks) → 0 < s.blocks →
      ∃ sol', l.foldlM (fun s n => runTests x detect s ⟨n, init n⟩) s = .ok ⟨s.blocks + l.length, sol'⟩ := by
    intro l
    induction l with
    | nil => exact fun s _ _ => ⟨s.sol, rfl⟩
    | cons n l ih =>
      intro s hl h0
      rw [List.length_cons, List.range_succ_eq_map, List.map_cons, List.cons.injEq, List.map_map] at hl
      obtain ⟨sol', h1⟩ := C158_tests hx hd s ⟨n, init n⟩ (by show 0 < n; omega) (by show n ≤ s.blocks; omega)
      obtain ⟨sol2, h2⟩ := ih ⟨s.blocks + 1, sol'⟩ (by
        refine hl.2.trans (List.map_congr_left fun a _ => ?_)
        show a + 1 + s.blocks = a + (s.blocks + 1)
        omega) (Nat.succ_pos _)
      refine ⟨sol2, ?_⟩
      rw [List.foldlM_cons, h1, Res.ok_bind, h2, List.length_cons]
      congr 2
      show s.blocks + 1 + l.length = s.blocks + (l.length + 1)
      omega
  obtain ⟨sol', h1⟩ := key (opCounts row) (setInitial ⟨2, init 2⟩ ⟨2, fun _ _ => 0⟩) (by
    unfold opCounts
    rw [List.length_map, List.length_range]
    rfl) (Nat.succ_pos 1)
  refine ⟨sol', h1.trans ?_⟩
  congr 2
  show 2 + (opCounts row).length = row + 1
  unfold opCounts
  rw [List.length_map, List.length_range]
  omega

/-- The first remapping does what is to be measured: values of every grain are found in the next order parameter. -/
theorem C158_first_partial (hx : x.Ok) {n : Nat} {F : Found P K D} (hF : Good n F) (s : St D K) (hb : n < s.blocks) :
    ∃ sol', remapOnce x F (reassigned (· + 1) F.grains) s = .ok { s with sol := sol' } ∧
      ∀ g G d, (∃ c ∈ F.cells, d ∈ c.dofs) → (∀ c ∈ F.cells, d ∈ c.dofs → GrainAt F.lookup F.grains c g G) → sol' (G.op + 1) d = s.sol G.op d := by
  obtain ⟨sol', h1, h2⟩ := remapOnce_ok hx (F := F) (s := s) (remappable_of hF (by omega) (fun a ha => by show a + 1 < s.blocks; omega) (fun a _ b _ e => by omega))
  refine ⟨sol', h1, fun g G d ⟨c, hc, hdc⟩ hG => ?_⟩
  have e := h2.grain g _ d ⟨c, hc, hdc⟩ fun c hc hd => grainAt_reassigned.2 ⟨G, hG c hc hd, rfl⟩
  have e1 : G.op = G.oldOp := (hF.same _ (get_mem (hG c hc hdc).2)).1
  rw [e1]
  have e2 : sol' (G.op + 1) d = s.sol G.oldOp d := e
  rw [e1] at e2
  exact e2

/-- But it is repeated with the same tables: wherever the neighbourhood of a node has the same grains, nothing is left of them
after the test (for less than 110 order parameters, i.e. calls). What is measured are mostly copies of zeros. -/
theorem C158_zero_violation (hx : x.Ok) (hd : ∀ n sol, Good n (detect n sol)) (I : Init D K) (s : St D K) (hb : I.nOp ≤ s.blocks) (hn : I.nOp < 110) :
    ∃ sol', testDependent x detect I s = .ok ⟨s.blocks + 1, sol'⟩ ∧
      ∀ d, Uniform (detect I.nOp s.sol) d → ∀ c ∈ (detect I.nOp s.sol).cells, d ∈ c.dofs →
        ∀ g G, GrainAt (detect I.nOp s.sol).lookup (detect I.nOp s.sol).grains c g G → sol' G.op d = 0 ∧ sol' (G.op + 1) d = 0 := by
  unfold testDependent setup
  rw [if_pos hb]
  dsimp only [Res.bind]
  obtain ⟨sols, -, h2, h3⟩ := measured_ok hx (F := detect I.nOp s.sol) (grains := reassigned (· + 1) (detect I.nOp s.sol).grains) calls
    (s := ⟨s.blocks + 1, fun b d => if b = s.blocks then 0 else s.sol b d⟩)
    (remappable_of (hd _ _) (by show I.nOp ≤ s.blocks + 1; omega) (fun a ha => by show a + 1 < s.blocks + 1; omega) (fun a _ b _ e => by omega))
  refine ⟨sols calls, h2, fun d hu c hc hdc g G hG => ?_⟩
  have hop := ((hd I.nOp s.sol).same _ (get_mem hG.2)).2
  have hop : G.op < I.nOp := hop
  exact ⟨shift_zero (hd _ _) hu h3 G.op calls (by show _ < 110; omega) (Nat.le_refl _) ⟨c, hc, hdc, g, G, hG, Or.inl rfl⟩,
    shift_zero (hd _ _) hu h3 (G.op + 1) calls (by show _ < 110; omega) (Nat.le_refl _) ⟨c, hc, hdc, g, G, hG, Or.inr rfl⟩⟩

end tests

namespace Ex158

def env : Env Rat := ⟨fun s => if s = "5" then 5 else if s = "-1" then -1 else 0, fun s => if s = "2.5" then some (5 / 2) else if s = "nan" then none else some 0, fun s => s = "a.txt"⟩

example : parse env ["x", "--hypercube", "5", "2.5"] = .ok (.hypercube 5 (5 / 2) 1 2 (1 / 2)) := by decide +kernel
example : parse env ["x", "--cloud", "a.txt", "2.5", "2.5"] = .ok (.cloud "a.txt" (5 / 2) (5 / 2) 2 (1 / 2)) := by decide +kernel
example : parse env ["x", "--hypercube", "5", "nan"] = .exc .assertThrow ∧ parse env ["x", "--hypercube", "word"] = .exc .assertThrow ∧ parse env ["x", "--cloud", "b.txt"] = .exc .assertThrow := by decide +kernel
example : parse env ["x", "--hypercubes", "5"] = .ok .nothing := (C158_silent_violation env "x" "--hypercubes" ["5"] (by decide)).2
example : (List.range 4).map counter = [2, 3, 4, 5] ∧ opCounts 5 = [2, 3, 4, 5] := by decide +kernel

/-- One cell with two nodes; one grain in order parameter 0, or none. -/
def found (n : Nat) (_ : Fld Nat Rat) : Found Rat Rat Nat :=
  if n = 0 then ⟨[], [], []⟩ else ⟨[(0, Ex10.mvd 0 0 0)], [[(some 0, 0)]], [⟨[0, 1], [some 0]⟩]⟩

theorem found_good (n : Nat) (sol : Fld Nat Rat) : Good n (found n sol) := by
  unfold found
  by_cases h : n = 0
  · rw [if_pos h]
    exact ⟨by simp [OMap.Sorted], by simp, by simp, by simp, by simp⟩
  · rw [if_neg h]
    refine ⟨by simp [OMap.Sorted], by simp [Ex10.mvd], by simp [Ex10.mvd]; omega, ?_, ?_⟩
    · intro c hc op pid hp
      simp only [List.mem_singleton] at hc
      subst hc
      match op with
      | 0 => simp at hp; subst hp; exact ⟨_, _, rfl, rfl⟩
      | op + 1 => simp at hp
    · rintro c hc op g G ⟨pid, row, e, h1, h2, h3⟩ hG
      simp only [List.mem_singleton] at hc
      subst hc
      match op with
      | 0 =>
        simp only [OMap.get?] at hG
        split at hG
        · injection hG with hG
          subst hG
          rfl
        · cases hG
      | op + 1 => simp at h1

/-- The grain is there before the test and gone afterwards. -/
example : (match testDependent Ex11.ext found ⟨2, fun b d => if b = 0 then d + 1 else 0⟩ ⟨2, fun b d => if b = 0 then d + 1 else 0⟩ with
    | .ok s => some (s.blocks, (List.range 3).map fun b => [s.sol b 0, s.sol b 1]) | _ => none) = some (3, [[0, 0], [0, 0], [0, 0]]) := by decide +kernel

example : ∃ sol', benchmark Ex11.ext found (fun _ b d => if b = 0 then d + 1 else 0) 5 = .ok ⟨6, sol'⟩ := C158_blocks Ex11.ext_ok found_good _ 5 (by decide)

end Ex158

end Verif.Props
