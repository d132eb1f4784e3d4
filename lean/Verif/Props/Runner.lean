/-
C110: modes of the sintering programs.
-/
import Verif.Spec.Runner
import Verif.Lemmas.Connect
import Mathlib.Algebra.Order.Ring.Rat
import Mathlib.Algebra.Field.Rat
import Mathlib.Tactic.NormNum

namespace Verif.Props

open Verif.Runner Verif.BaseTools Verif.Spec.Runner

section
variable {K : Type} [Field K] [LinearOrder K]

private theorem parse_drop (k : Nat) (argv : List Arg) : parseParams k argv = parseParams 0 (argv.drop k) := by
  unfold parseParams; simp

private theorem require_ok {b : Bool} : require b = .ok () ↔ b = true := by
  unfold require; cases b <;> simp

private theorem positive_ok {r : Option K} {x : K} : positive r = .ok x ↔ r = some x ∧ 0 < x := by
  unfold positive
  cases r with
  | none => simp
  | some y =>
    dsimp only
    by_cases h : 0 < y
    · rw [if_pos h]
      constructor
      · intro e; injection e with e; subst e; exact ⟨rfl, h⟩
      · rintro ⟨e, -⟩; injection e with e; rw [e]
    · rw [if_neg h]
      constructor
      · intro e; cases e
      · rintro ⟨e, hx⟩; injection e with e; subst e; exact absurd hx h

omit [Field K] [LinearOrder K] in
private theorem limit_ok {w : World K} {s : Start K} {calls : List Call} {q : Request K} :
    withLimit w s calls = .ok q ↔ q = .fresh s calls ∧ w.nOps s calls ≤ w.maxGrains := by
  unfold withLimit
  rw [Res.bind_eq_ok]
  constructor
  · rintro ⟨u, h1, h2⟩
    injection h2 with h2
    exact ⟨h2.symm, of_decide_eq_true (require_ok.1 h1)⟩
  · rintro ⟨rfl, h⟩
    exact ⟨(), require_ok.2 (decide_eq_true h), rfl⟩

private theorem unsigned_eq {i : Int} (h0 : 0 ≤ i) (h1 : i < 4294967296) : (toUnsigned i : Int) = i := by
  unfold toUnsigned; omega

omit [Field K] [LinearOrder K] in
private theorem open_ok {w : World K} {f : Arg} {c : List Char} : openFile w f = .ok c ↔ w.file f = some c := by
  unfold openFile
  cases h : w.file f with
  | none => simp
  | some y => simp

private theorem circle_ok {w : World K} (hi : ∀ a, 0 ≤ w.atoi a ∧ w.atoi a < 4294967296) {prog : Arg} {l : List Arg} {q : Request K} :
    circle w (prog :: "--circle".toList :: l) = .ok q ↔
      ∃ s rest calls, Asks w (prog :: "--circle".toList :: l) s rest ∧ parseParams 0 rest = .ok calls ∧ w.nOps s calls ≤ w.maxGrains ∧
        q = .fresh s calls := by
  unfold circle
  simp only [Res.bind_eq_ok]
  constructor
  · rintro ⟨_, h1, r, h2, n, h3, r0, h4, _, h5, calls, h6, h7⟩
    have h1 := of_decide_eq_true (require_ok.1 h1)
    match l, h1 with
    | a :: b :: rest, _ =>
      have e2 : a = r := by simpa [arg, Res.index] using h2
      have e3 : b = n := by simpa [arg, Res.index] using h3
      subst e2; subst e3
      obtain ⟨h4, hp⟩ := positive_ok.1 h4
      obtain ⟨h7, h8⟩ := limit_ok.1 h7
      refine ⟨_, rest, calls, .circle _ _ _ _ r0 _ h4 hp (of_decide_eq_true (require_ok.1 h5)) (unsigned_eq (hi b).1 (hi b).2).symm, ?_, h8, h7⟩
      rw [parse_drop] at h6
      exact h6
    | [_], h => simp at h
    | [], h => simp at h
  · rintro ⟨s, rest, calls, ha, hp, hl, rfl⟩
    cases ha with
    | circle _ r n _ r0 m hr hpos hm hn =>
      have hu : toUnsigned (w.atoi n) = m := by
        have := unsigned_eq (hi n).1 (hi n).2
        omega
      refine ⟨(), require_ok.2 (by simp), r, rfl, n, rfl, r0, positive_ok.2 ⟨hr, hpos⟩, (), require_ok.2 (by simpa [hu] using hm), calls, ?_, ?_⟩
      · rw [parse_drop]; exact hp
      · rw [hu]; exact limit_ok.2 ⟨rfl, hl⟩

private theorem mapM_args (x y z : Arg) : ∀ (l ns : List Arg), (List.range ns.length).mapM (fun d => arg (x :: y :: z :: (ns ++ l)) (3 + d)) = .ok ns := by
  intro l ns
  have h : (List.range ns.length).mapM (fun d => arg (x :: y :: z :: (ns ++ l)) (3 + d)) =
      .ok ((List.range ns.length).map fun d => ns.getD d []) := by
    refine Res.mapM_ok _ fun d hd => ?_
    have hd := List.mem_range.1 hd
    unfold arg Res.index
    have : (x :: y :: z :: (ns ++ l))[3 + d]? = some (ns.getD d []) := by
      rw [show 3 + d = d + 1 + 1 + 1 by omega]
      simp [List.getElem?_append_left hd, List.getD, List.getElem?_eq_getElem hd]
    rw [this]
  rw [h]
  congr 1
  apply List.ext_getElem
  · simp
  · intro i h1 h2
    simp [List.getD, List.getElem?_eq_getElem h2]

private theorem hypercube_ok {w : World K} (hi : ∀ a, 0 ≤ w.atoi a ∧ w.atoi a < 4294967296) {prog : Arg} {l : List Arg} {q : Request K} :
    hypercube w (prog :: "--hypercube".toList :: l) = .ok q ↔
      ∃ s rest calls, Asks w (prog :: "--hypercube".toList :: l) s rest ∧ parseParams 0 rest = .ok calls ∧ w.nOps s calls ≤ w.maxGrains ∧
        q = .fresh s calls := by
  unfold hypercube
  simp only [Res.bind_eq_ok]
  constructor
  · rintro ⟨_, h1, r, h2, ns, h3, r0, h4, _, h5, calls, h6, h7⟩
    have h1 := of_decide_eq_true (require_ok.1 h1)
    match l, h1 with
    | [], h => simp at h; omega
    | a :: l, h1 =>
      have e2 : a = r := by simpa [arg, Res.index] using h2
      subst e2
      have hlen : (l.take w.dim).length = w.dim := by
        rw [List.length_take]; simp at h1; omega
      have hm := mapM_args prog "--hypercube".toList a (l.drop w.dim) (l.take w.dim)
      rw [List.take_append_drop, hlen] at hm
      rw [hm] at h3
      injection h3 with h3
      subst h3
      obtain ⟨h4, hp⟩ := positive_ok.1 h4
      obtain ⟨h7, h8⟩ := limit_ok.1 h7
      have ha : Asks w (prog :: "--hypercube".toList :: a :: (l.take w.dim ++ l.drop w.dim))
          (.hypercube r0 ((l.take w.dim).map fun n => toUnsigned (w.atoi n))) (l.drop w.dim) := by
        refine .hypercube _ _ _ _ r0 _ hlen h4 hp ?_ ?_
        · intro m hm'
          obtain ⟨n, hn, rfl⟩ := List.mem_map.1 hm'
          exact of_decide_eq_true (List.all_eq_true.1 (require_ok.1 h5) n hn)
        · rw [List.map_map]
          exact List.map_congr_left fun n _ => (unsigned_eq (hi n).1 (hi n).2).symm
      rw [List.take_append_drop] at ha
      refine ⟨_, _, calls, ha, ?_, h8, h7⟩
      rw [parse_drop, show 3 + w.dim = w.dim + 1 + 1 + 1 by omega] at h6
      exact h6
  · rintro ⟨s, rest, calls, ha, hp, hl, rfl⟩
    cases ha with
    | hypercube _ r ns _ r0 ms hd hr hpos hm hn =>
      have hu : ns.map (fun n => toUnsigned (w.atoi n)) = ms := by
        have h1 : (ns.map w.atoi).map toUnsigned = (ms.map Int.ofNat).map toUnsigned := by rw [hn]
        rw [List.map_map, List.map_map] at h1
        refine h1.trans ?_
        conv => rhs; rw [← List.map_id ms]
        refine List.map_congr_left fun m hm' => ?_
        have : Int.ofNat m ∈ ns.map w.atoi := by rw [hn]; exact List.mem_map_of_mem hm'
        obtain ⟨n, -, hn'⟩ := List.mem_map.1 this
        have := hi n
        rw [hn'] at this
        have h2 : (m : Int) < 4294967296 := this.2
        show ((m : Int) % 4294967296).toNat = m
        omega
      refine ⟨(), require_ok.2 (by simp; omega), r, rfl, ns, ?_, r0, positive_ok.2 ⟨hr, hpos⟩, (), require_ok.2 ?_, calls, ?_, ?_⟩
      · rw [← hd]; exact mapM_args _ _ _ _ _
      · rw [List.all_eq_true]
        intro n hn'
        exact decide_eq_true (hm _ (hu ▸ List.mem_map_of_mem (f := fun n => toUnsigned (w.atoi n)) hn'))
      · rw [parse_drop, show 3 + w.dim = w.dim + 1 + 1 + 1 by omega]
        simp only [List.drop_succ_cons]
        rw [← hd, List.drop_left]
        exact hp
      · rw [hu]; exact limit_ok.2 ⟨rfl, hl⟩

private theorem cloud_ok {w : World K} {prog : Arg} {l : List Arg} {q : Request K} :
    cloud w (prog :: "--cloud".toList :: l) = .ok q ↔
      ∃ s rest calls, Asks w (prog :: "--cloud".toList :: l) s rest ∧ parseParams 0 rest = .ok calls ∧ w.nOps s calls ≤ w.maxGrains ∧
        q = .fresh s calls := by
  unfold cloud
  simp only [Res.bind_eq_ok]
  constructor
  · rintro ⟨_, h1, f, h2, c, h3, calls, h6, h7⟩
    have h1 := of_decide_eq_true (require_ok.1 h1)
    match l, h1 with
    | [], h => simp at h
    | a :: l, h1 =>
      have e2 : a = f := by simpa [arg, Res.index] using h2
      subst e2
      obtain ⟨h7, h8⟩ := limit_ok.1 h7
      refine ⟨_, l, calls, .cloud _ _ _ c (open_ok.1 h3), ?_, h8, h7⟩
      rw [parse_drop] at h6
      exact h6
  · rintro ⟨s, rest, calls, ha, hp, hl, rfl⟩
    cases ha with
    | cloud _ f _ c hf =>
      refine ⟨(), require_ok.2 (by simp), f, rfl, c, open_ok.2 hf, calls, ?_, limit_ok.2 ⟨rfl, hl⟩⟩
      rw [parse_drop]; exact hp

omit [Field K] [LinearOrder K] in
private theorem micro_ok {w : World K} (im : Bool) {prog m : Arg} {l : List Arg} {q : Request K} :
    microstructure w im (prog :: m :: l) = .ok q ↔
      ∃ f rest c calls, l = f :: rest ∧ w.dim = 2 ∧ w.file f = some c ∧ parseParams 0 rest = .ok calls ∧
        w.nOps (if im then .imaging c else .voronoi c) calls ≤ w.maxGrains ∧ q = .fresh (if im then .imaging c else .voronoi c) calls := by
  unfold microstructure
  simp only [Res.bind_eq_ok]
  constructor
  · rintro ⟨_, h0, _, h1, f, h2, c, h3, calls, h6, h7⟩
    have h1 := of_decide_eq_true (require_ok.1 h1)
    have h0 := of_decide_eq_true (require_ok.1 h0)
    match l, h1 with
    | [], h => simp at h
    | a :: l, h1 =>
      have e2 : a = f := by simpa [arg, Res.index] using h2
      subst e2
      obtain ⟨h7, h8⟩ := limit_ok.1 h7
      refine ⟨a, l, c, calls, rfl, h0, open_ok.1 h3, ?_, h8, h7⟩
      rw [parse_drop] at h6
      exact h6
  · rintro ⟨f, rest, c, calls, rfl, hd, hf, hp, hl, rfl⟩
    refine ⟨(), require_ok.2 (decide_eq_true hd), (), require_ok.2 (by simp), f, rfl, c, open_ok.2 hf, calls, ?_, limit_ok.2 ⟨rfl, hl⟩⟩
    rw [parse_drop]; exact hp

omit [Field K] [LinearOrder K] in
private theorem restart_ok {prog m : Arg} {l : List Arg} {q : Request K} :
    restart (prog :: m :: l) = .ok q ↔ ∃ p rest calls, l = p :: rest ∧ parseParams 0 rest = .ok calls ∧ q = .restart p calls := by
  unfold restart
  simp only [Res.bind_eq_ok]
  constructor
  · rintro ⟨_, h1, p, h2, calls, h6, h7⟩
    have h1 := of_decide_eq_true (require_ok.1 h1)
    match l, h1 with
    | [], h => simp at h
    | a :: l, h1 =>
      have e2 : a = p := by simpa [arg, Res.index] using h2
      subst e2
      injection h7 with h7
      refine ⟨a, l, calls, rfl, ?_, h7.symm⟩
      rw [parse_drop] at h6
      exact h6
  · rintro ⟨p, rest, calls, rfl, hp, rfl⟩
    refine ⟨(), require_ok.2 (by simp), p, rfl, calls, ?_, rfl⟩
    rw [parse_drop]; exact hp

omit [Field K] [LinearOrder K] in
private theorem debug_ok {prog m : Arg} {l : List Arg} {q : Request K} :
    debug (prog :: m :: l) = .ok q ↔ ∃ calls, parseParams 0 l = .ok calls ∧ q = .fresh .debug calls := by
  unfold debug
  simp only [Res.bind_eq_ok]
  constructor
  · rintro ⟨calls, h6, h7⟩
    injection h7 with h7
    rw [parse_drop] at h6
    exact ⟨calls, h6, h7.symm⟩
  · rintro ⟨calls, h6, rfl⟩
    refine ⟨calls, ?_, rfl⟩
    rw [parse_drop]; exact h6

private theorem arg_one (prog mode : Arg) (l : List Arg) : arg (prog :: mode :: l) 1 = .ok mode := rfl

private theorem run_mode (w : World K) (prog mode : Arg) (l : List Arg) : Runner.run w (prog :: mode :: l) =
    if mode = "--help".toList then .ok .help
    else if mode = "--circle".toList then circle w (prog :: mode :: l)
    else if mode = "--hypercube".toList then hypercube w (prog :: mode :: l)
    else if mode = "--cloud".toList then cloud w (prog :: mode :: l)
    else if mode = "--voronoi".toList ∨ mode = "--imaging".toList then microstructure w (decide (mode = "--imaging".toList)) (prog :: mode :: l)
    else if mode = "--restart".toList then restart (prog :: mode :: l)
    else if mode = "--debug".toList then debug (prog :: mode :: l)
    else .exc .assertThrow := by
  unfold Runner.run
  rw [arg_one, Res.ok_bind]
  have : ((prog :: mode :: l).length = 1 ∨ mode = "--help".toList) = (mode = "--help".toList) := by simp
  simp only [this]

private theorem asks_mode {w : World K} {prog mode : Arg} {l rest : List Arg} {s : Start K} (h : Asks w (prog :: mode :: l) s rest) :
    mode ∈ modes ∧ mode ≠ "--help".toList ∧ mode ≠ "--restart".toList := by
  cases h <;> decide

private theorem asks_micro {w : World K} {prog mode : Arg} {l rest : List Arg} {s : Start K} (h : Asks w (prog :: mode :: l) s rest)
    (hm : mode = "--voronoi".toList ∨ mode = "--imaging".toList) :
    ∃ f c, l = f :: rest ∧ w.dim = 2 ∧ w.file f = some c ∧ s = if decide (mode = "--imaging".toList) then .imaging c else .voronoi c := by
  cases h with
  | voronoi _ f _ c hd hf => exact ⟨f, c, rfl, hd, hf, rfl⟩
  | imaging _ f _ c hd hf => exact ⟨f, c, rfl, hd, hf, rfl⟩
  | circle => exact absurd hm (by decide)
  | hypercube => exact absurd hm (by decide)
  | cloud => exact absurd hm (by decide)
  | debug => exact absurd hm (by decide)

private theorem grants_fresh {w : World K} {prog mode : Arg} {l : List Arg} {q : Request K} (h1 : mode ≠ "--help".toList)
    (h2 : mode ≠ "--restart".toList) (h3 : mode ≠ "--debug".toList) :
    Grants w (prog :: mode :: l) q ↔
      ∃ s rest calls, Asks w (prog :: mode :: l) s rest ∧ parseParams 0 rest = .ok calls ∧ w.nOps s calls ≤ w.maxGrains ∧ q = .fresh s calls := by
  constructor
  · rintro (⟨p, r, h, -⟩ | ⟨p, r, _, _, h, -⟩ | ⟨s, rest, calls, ha, hp, hl, hq⟩)
    · injection h with _ h; injection h with h _; exact absurd h h1
    · injection h with _ h; injection h with h _; exact absurd h h2
    · rcases hl with hl | hl
      · subst hl
        cases ha
        exact absurd rfl h3
      · exact ⟨s, rest, calls, ha, hp, hl, hq⟩
  · rintro ⟨s, rest, calls, ha, hp, hl, hq⟩
    exact .inr (.inr ⟨s, rest, calls, ha, hp, .inr hl, hq⟩)

/-- C110, for command lines with a mode and without negative numbers: the program starts exactly with what the command line asks for, with the
parameters behind it. Missing: negative numbers are taken for huge ones, and without a mode the behaviour is undefined. -/
theorem C110_partial (w : World K) (hi : ∀ a, 0 ≤ w.atoi a ∧ w.atoi a < 4294967296) (prog mode : Arg) (l : List Arg) (q : Request K) :
    Runner.run w (prog :: mode :: l) = .ok q ↔ Grants w (prog :: mode :: l) q := by
  rw [run_mode]
  by_cases m0 : mode = "--help".toList
  · rw [if_pos m0]
    subst m0
    constructor
    · intro h; injection h with h; exact .inl ⟨prog, l, rfl, h.symm⟩
    · rintro (⟨_, _, _, rfl⟩ | ⟨_, _, _, _, h, -⟩ | ⟨s, rest, calls, ha, -⟩)
      · rfl
      · injection h with _ h; injection h with h _; exact absurd h (by decide)
      · exact absurd rfl (asks_mode ha).2.1
  rw [if_neg m0]
  by_cases m1 : mode = "--circle".toList
  · rw [if_pos m1]
    subst m1
    rw [circle_ok hi, grants_fresh (by decide) (by decide) (by decide)]
  rw [if_neg m1]
  by_cases m2 : mode = "--hypercube".toList
  · rw [if_pos m2]
    subst m2
    rw [hypercube_ok hi, grants_fresh (by decide) (by decide) (by decide)]
  rw [if_neg m2]
  by_cases m3 : mode = "--cloud".toList
  · rw [if_pos m3]
    subst m3
    rw [cloud_ok, grants_fresh (by decide) (by decide) (by decide)]
  rw [if_neg m3]
  by_cases m4 : mode = "--voronoi".toList ∨ mode = "--imaging".toList
  · rw [if_pos m4, micro_ok]
    have hne : mode ≠ "--restart".toList ∧ mode ≠ "--debug".toList := by
      rcases m4 with m4 | m4 <;> subst m4 <;> decide
    rw [grants_fresh m0 hne.1 hne.2]
    constructor
    · rintro ⟨f, rest, c, calls, rfl, hd, hf, hp, hl, rfl⟩
      refine ⟨_, rest, calls, ?_, hp, hl, rfl⟩
      rcases m4 with m4 | m4
      · rw [decide_eq_false (by rw [m4]; decide), m4]
        exact .voronoi _ _ _ c hd hf
      · rw [decide_eq_true m4, m4]
        exact .imaging _ _ _ c hd hf
    · rintro ⟨s, rest, calls, ha, hp, hl, rfl⟩
      obtain ⟨f, c, rfl, hd, hf, hs⟩ := asks_micro ha m4
      rw [hs] at hl
      exact ⟨f, rest, c, calls, rfl, hd, hf, hp, hl, by rw [hs]⟩
  rw [if_neg m4]
  by_cases m5 : mode = "--restart".toList
  · rw [if_pos m5, restart_ok]
    subst m5
    constructor
    · rintro ⟨p, rest, calls, rfl, hp, rfl⟩
      exact .inr (.inl ⟨prog, p, rest, calls, rfl, hp, rfl⟩)
    · rintro (⟨_, _, h, -⟩ | ⟨_, p, rest, calls, h, hp, rfl⟩ | ⟨s, rest, calls, ha, -⟩)
      · injection h with _ h; injection h with h _; exact absurd h (by decide)
      · injection h with _ h; injection h with _ h; exact ⟨p, rest, calls, h, hp, rfl⟩
      · exact absurd rfl (asks_mode ha).2.2
  rw [if_neg m5]
  by_cases m6 : mode = "--debug".toList
  · rw [if_pos m6, debug_ok]
    subst m6
    constructor
    · rintro ⟨calls, hp, rfl⟩
      exact .inr (.inr ⟨_, l, calls, .debug _ _, hp, .inl rfl, rfl⟩)
    · rintro (⟨_, _, h, -⟩ | ⟨_, p, rest, calls, h, hp, rfl⟩ | ⟨s, rest, calls, ha, hp, -, rfl⟩)
      · injection h with _ h; injection h with h _; exact absurd h (by decide)
      · injection h with _ h; injection h with h _; exact absurd h (by decide)
      · cases ha
        exact ⟨calls, hp, rfl⟩
  rw [if_neg m6]
  constructor
  · intro h; cases h
  · rintro (⟨_, _, h, -⟩ | ⟨_, p, rest, calls, h, hp, rfl⟩ | ⟨s, rest, calls, ha, hp, -, rfl⟩)
    · injection h with _ h; injection h with h _; exact absurd h m0
    · injection h with _ h; injection h with h _; exact absurd h m5
    · have := (asks_mode ha).1
      simp only [modes, List.mem_cons, List.not_mem_nil, or_false] at this
      rcases this with h | h | h | h | h | h | h | h
      · exact absurd h m0
      · exact absurd h m1
      · exact absurd h m2
      · exact absurd h m3
      · exact absurd (.inl h) m4
      · exact absurd (.inr h) m4
      · exact absurd h m5
      · exact absurd h m6

private theorem bind_ub {α β : Type} {x : Res α} {f : α → Res β} (hx : x ≠ .ub) (hf : ∀ a, x = .ok a → f a ≠ .ub) : (x >>= f) ≠ .ub := by
  cases x with
  | ok a => exact hf a rfl
  | exc e => intro h; cases h
  | ub => exact absurd rfl hx

private theorem require_ub (b : Bool) : require b ≠ .ub := by
  unfold require; cases b <;> simp

private theorem arg_ub {argv : List Arg} {i : Nat} (h : i < argv.length) : arg argv i ≠ .ub := by
  unfold arg Res.index
  rw [List.getElem?_eq_getElem h]
  simp

private theorem arguments_ub : ∀ (l : List Arg) (b : Bool), arguments b l ≠ .ub
  | [], _ => by simp [arguments]
  | a :: l, b => by
    rw [arguments]
    refine bind_ub ?_ fun c _ => bind_ub (arguments_ub l false) fun cs _ => by simp
    unfold argument
    split
    · simp
    · split
      · split <;> simp
      · simp

private theorem parse_ub (k : Nat) (argv : List Arg) : parseParams k argv ≠ .ub :=
  bind_ub (arguments_ub _ _) fun _ _ => by simp

private theorem positive_ub (r : Option K) : positive r ≠ .ub := by
  unfold positive
  cases r with
  | none => simp
  | some r => dsimp only; split <;> simp

omit [Field K] [LinearOrder K] in
private theorem open_ub (w : World K) (f : Arg) : openFile w f ≠ .ub := by
  unfold openFile
  cases w.file f <;> simp

omit [Field K] [LinearOrder K] in
private theorem limit_ub (w : World K) (s : Start K) (c : List Call) : withLimit w s c ≠ .ub :=
  bind_ub (require_ub _) fun _ _ => by simp

private theorem mapM_ub {f : Nat → Res Arg} : ∀ (l : List Nat), (∀ a ∈ l, f a ≠ .ub) → l.mapM f ≠ .ub
  | [], _ => by simp [pure]
  | a :: l, h => by
    rw [List.mapM_cons]
    exact bind_ub (h a (by simp)) fun _ _ => bind_ub (mapM_ub l fun b hb => h b (by simp [hb])) fun _ _ => by simp [pure]

/-- C110: with a mode nothing is undefined. -/
theorem C110_defined (w : World K) (prog mode : Arg) (l : List Arg) : Runner.run w (prog :: mode :: l) ≠ .ub := by
  rw [run_mode]
  split; · simp
  split
  · refine bind_ub (require_ub _) fun _ h => ?_
    have h := of_decide_eq_true (require_ok.1 h)
    exact bind_ub (arg_ub (by omega)) fun _ _ => bind_ub (arg_ub (by omega)) fun _ _ => bind_ub (positive_ub _) fun _ _ =>
      bind_ub (require_ub _) fun _ _ => bind_ub (parse_ub _ _) fun _ _ => limit_ub _ _ _
  split
  · refine bind_ub (require_ub _) fun _ h => ?_
    have h := of_decide_eq_true (require_ok.1 h)
    exact bind_ub (arg_ub (by omega)) fun _ _ => bind_ub (mapM_ub _ fun d hd => arg_ub (by have := List.mem_range.1 hd; omega)) fun _ _ =>
      bind_ub (positive_ub _) fun _ _ => bind_ub (require_ub _) fun _ _ => bind_ub (parse_ub _ _) fun _ _ => limit_ub _ _ _
  split
  · refine bind_ub (require_ub _) fun _ h => ?_
    have h := of_decide_eq_true (require_ok.1 h)
    exact bind_ub (arg_ub (by omega)) fun _ _ => bind_ub (open_ub _ _) fun _ _ => bind_ub (parse_ub _ _) fun _ _ => limit_ub _ _ _
  split
  · refine bind_ub (require_ub _) fun _ _ => bind_ub (require_ub _) fun _ h => ?_
    have h := of_decide_eq_true (require_ok.1 h)
    exact bind_ub (arg_ub (by omega)) fun _ _ => bind_ub (open_ub _ _) fun _ _ => bind_ub (parse_ub _ _) fun _ _ => limit_ub _ _ _
  split
  · refine bind_ub (require_ub _) fun _ h => ?_
    have h := of_decide_eq_true (require_ok.1 h)
    exact bind_ub (arg_ub (by omega)) fun _ _ => bind_ub (parse_ub _ _) fun _ _ => by simp
  split
  · exact bind_ub (parse_ub _ _) fun _ _ => by simp
  · simp

/-- C110 is violated: without a mode the help is to be printed, but a text is made of a null pointer before. -/
theorem C110_none_violated (w : World K) (argv : List Arg) (h : argv.length ≤ 1) : Runner.run w argv = .ub := by
  match argv, h with
  | [], _ => rfl
  | [_], _ => rfl

/-- C110 is violated: a negative number of particles passes the check and is a huge number. -/
theorem C110_negative_violated (w : World K) (prog r n : Arg) (r0 : K) (hr : w.atof r = some r0) (hp : 0 < r0) (hn : w.atoi n = -1)
    (hl : w.nOps (.circle r0 4294967295) [.check] ≤ w.maxGrains) :
    Runner.run w [prog, "--circle".toList, r, n] = .ok (.fresh (.circle r0 4294967295) [.check]) := by
  rw [run_mode, if_neg (by decide), if_pos rfl]
  unfold circle
  simp only [Res.bind_eq_ok]
  have hu : toUnsigned (w.atoi n) = 4294967295 := by rw [hn]; decide
  refine ⟨(), rfl, r, rfl, n, rfl, r0, positive_ok.2 ⟨hr, hp⟩, (), require_ok.2 (by rw [hu]; decide), [.check], rfl, ?_⟩
  rw [hu]
  exact limit_ok.2 ⟨rfl, hl⟩

/-- C110 is violated: the limit of the number of grains is not checked on restart. -/
theorem C110_restart_violated (w : World K) (prog p : Arg) : Runner.run w [prog, "--restart".toList, p] = .ok (.restart p [.check]) := by
  rw [run_mode]
  simp only [if_neg (show ¬"--restart".toList = "--help".toList by decide), if_neg (show ¬"--restart".toList = "--circle".toList by decide),
    if_neg (show ¬"--restart".toList = "--hypercube".toList by decide), if_neg (show ¬"--restart".toList = "--cloud".toList by decide),
    if_neg (show ¬("--restart".toList = "--voronoi".toList ∨ "--restart".toList = "--imaging".toList) by decide)]
  rfl

end

/-! ## Examples -/

namespace Ex110

def world : World ℚ where
  dim := 2
  maxGrains := 4
  atof a := if a = "7.5".toList then some (15 / 2) else some 0
  atoi a := if a = "2".toList then 2 else if a = "3".toList then 3 else 0
  file f := if f = "cloud.csv".toList then some "x,y,r".toList else none
  nOps s _ := match s with | .hypercube _ _ => 2 | .circle _ n => n | _ => 4

theorem numbers (a : Arg) : 0 ≤ world.atoi a ∧ world.atoi a < 4294967296 := by
  show 0 ≤ (if a = "2".toList then (2 : Int) else if a = "3".toList then 3 else 0) ∧
    (if a = "2".toList then (2 : Int) else if a = "3".toList then 3 else 0) < 4294967296
  split
  · omega
  · split <;> omega

/-- A hypercube of 2 x 3 particles with a file of parameters. -/
example : Runner.run world ["sintering".toList, "--hypercube".toList, "7.5".toList, "2".toList, "3".toList, "in.prm".toList] =
    .ok (.fresh (.hypercube (15 / 2) [2, 3]) [.file "in.prm".toList, .check]) := by
  refine (C110_partial world numbers _ _ _ _).2 (.inr (.inr ⟨_, ["in.prm".toList], _, ?_, rfl, .inr (by decide), rfl⟩))
  exact .hypercube _ _ ["2".toList, "3".toList] _ (15 / 2) [2, 3] rfl rfl (by norm_num) (by decide) rfl

/-- Too many particles in a circle, radius zero, a file that is missing, an unknown mode. -/
example : (match Runner.run { world with maxGrains := 2 } ["sintering".toList, "--circle".toList, "7.5".toList, "3".toList] with
    | .exc _ => true
    | _ => false) = true := by decide +kernel
example : (match Runner.run world ["sintering".toList, "--circle".toList, "0".toList, "3".toList] with
    | .exc _ => true
    | _ => false) = true := by decide +kernel
example : Runner.run world ["sintering".toList, "--cloud".toList, "other.csv".toList] = .exc .assertThrow := by rfl
example : Runner.run world ["sintering".toList, "--square".toList] = .exc .assertThrow := by rfl

end Ex110

end Verif.Props
