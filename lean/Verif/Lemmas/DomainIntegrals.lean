import Verif.Spec.DomainIntegrals
import Verif.Lemmas.OutputFields
import Mathlib.Algebra.BigOperators.Intervals
import Mathlib.Algebra.BigOperators.Ring.Finset
import Mathlib.Algebra.BigOperators.Ring.List
import Mathlib.Tactic.Ring
/-!
# Lemmas on the integrals over the domain
-/
namespace Verif.DomainIntegrals

variable {K : Type} [Field K] [LinearOrder K]

omit [LinearOrder K] in
theorem foldl_add_sum {α : Type} (f : α → K) : ∀ (l : List α) (s : K),
    l.foldl (fun s a => s + f a) s = s + (l.map f).sum
  | [], s => by simp
  | a :: l, s => by rw [List.foldl_cons, foldl_add_sum f l]; simp [add_assoc]

omit [LinearOrder K] in
theorem range_sum (f : Nat → K) : ∀ n, ((List.range n).map f).sum = ∑ i ∈ Finset.range n, f i
  | 0 => by simp
  | n + 1 => by rw [List.range_succ, List.map_append, List.sum_append, range_sum f n, Finset.sum_range_succ]; simp

omit [LinearOrder K] in
theorem gbLoop_eq (o n : Nat) (v : Nat → K) : gbLoop o n v = pairSum n fun i => v (o + i) := by
  unfold gbLoop pairSum
  have h : ∀ (s : K) (i : Nat), (List.range' (i + 1) (n - (i + 1))).foldl (fun s j => s + v (o + i) * v (o + j)) s =
      s + ∑ j ∈ Finset.Ico (i + 1) n, v (o + i) * v (o + j) := by
    intro s i
    rw [foldl_add_sum (fun j => v (o + i) * v (o + j)), List.range'_eq_map_range, List.map_map, range_sum,
      Finset.sum_Ico_eq_sum_range]
    rfl
  simp only [h]
  rw [foldl_add_sum, zero_add, range_sum]
  apply Finset.sum_comm'
  intro i j
  simp only [Finset.mem_range, Finset.mem_Ico]
  omega

omit [LinearOrder K] in
theorem sizeLoop_eq (o n : Nat) (v : Nat → K) : sizeLoop o n v = squareSum n fun i => v (o + i) := by
  unfold sizeLoop squareSum
  rw [foldl_add_sum (fun i => v (o + i) * v (o + i)), zero_add, range_sum]
  exact Finset.sum_congr rfl fun i _ => by ring

omit [LinearOrder K] in
theorem gradLoop_eq (o n : Nat) (k : K) (g : Nat → K) :
    gradLoop o n g * (1 / 2 * k) = gradEnergy n k fun i => g (o + i) := by
  unfold gradLoop gradEnergy
  rw [foldl_add_sum (fun i => g (o + i)), zero_add, range_sum]
  ring

theorem surfaceIndicator_eq (c : K) :
    surfaceIndicator c = if 45 / 100 ≤ c ∧ c ≤ 55 / 100 then 1 else 0 := by
  unfold surfaceIndicator
  dsimp only
  by_cases h1 : c < 45 / 100
  · rw [if_pos h1, if_neg (show ¬(45 / 100 ≤ c ∧ c ≤ 55 / 100) from fun h => absurd h.1 (not_le.2 h1))]; simp
  · rw [if_neg h1]
    by_cases h2 : c > 55 / 100
    · rw [if_pos h2, if_neg (show ¬(45 / 100 ≤ c ∧ c ≤ 55 / 100) from fun h => absurd h.2 (not_le.2 h2))]
    · rw [if_neg h2, if_pos ⟨not_lt.1 h1, not_lt.1 h2⟩]

theorem sintering_single (E : Env K) {s : String} {e : Eval K} (h : Sintering E s e) : sinteringEval E s = some e := by
  cases h <;> simp only [sinteringEval, String.reduceEq, if_true, if_false, Option.some.injEq]
  · funext v g; exact gbLoop_eq 2 _ v
  · funext v g; exact sizeLoop_eq 2 _ v
  · funext v g; exact surfaceIndicator_eq _
  · funext v g; rw [gradLoop_eq]; ring
  · funext v g; rw [gradLoop_eq]; ring

theorem sintering_none (E : Env K) {s : String} (h : ∀ e, ¬Sintering E s e) : sinteringEval E s = none := by
  unfold sinteringEval
  split_ifs
  all_goals first
    | rfl
    | (exfalso
       subst_vars
       first
        | exact absurd .solid (h _) | exact absurd .surface (h _) | exact absurd .boundary (h _)
        | exact absurd .size (h _) | exact absurd .surfaceNrm (h _) | exact absurd .free (h _)
        | exact absurd .bulk (h _) | exact absurd .interface (h _) | exact absurd .volume (h _))

omit [LinearOrder K] in
theorem growth_single (E : Env K) {s : String} {e : Eval K} (h : Growth E s e) : growthEval E s = some e := by
  cases h <;> simp only [growthEval, String.reduceEq, if_true, if_false, Option.some.injEq]
  · funext v g; rw [gbLoop_eq]; simp
  · funext v g; rw [sizeLoop_eq]; simp
  · funext v g; rw [gradLoop_eq]; simp only [Nat.zero_add]; ring
  · funext v g; rw [gradLoop_eq]; simp

omit [LinearOrder K] in
theorem growth_none (E : Env K) {s : String} (h : ∀ e, ¬Growth E s e) : growthEval E s = none := by
  unfold growthEval
  split_ifs
  all_goals first
    | rfl
    | (exfalso
       subst_vars
       first
        | exact absurd .boundary (h _) | exact absurd .size (h _) | exact absurd .free (h _)
        | exact absurd .bulk (h _) | exact absurd .interface (h _) | exact absurd .volume (h _))

omit [LinearOrder K] in
theorem greenquist_single (E : Env K) {s : String} {e : Eval K} (h : Greenquist E s e) :
    greenquistEval E s = some e := by
  cases h <;> simp only [greenquistEval, String.reduceEq, if_true, if_false, Option.some.injEq]
  · funext v g; exact gbLoop_eq 2 _ v
  · funext v g; exact sizeLoop_eq 2 _ v

omit [LinearOrder K] in
theorem greenquist_none (E : Env K) {s : String} (h : ∀ e, ¬Greenquist E s e) : greenquistEval E s = none := by
  unfold greenquistEval
  split_ifs
  all_goals first
    | rfl
    | (exfalso
       subst_vars
       first
        | exact absurd .void (h _) | exact absurd .surface (h _) | exact absurd .boundary (h _)
        | exact absurd .size (h _) | exact absurd .volume (h _))

/-! ## Lists of quantities -/

omit [Field K] [LinearOrder K] in
theorem opLoop (op : Nat → Eval K) : ∀ (l : List Nat) (s : Quantities K),
    l.foldl (fun (s : Quantities K) i => ⟨s.labels ++ ["op_" ++ toString i], s.evals ++ [op i]⟩) s =
      ⟨s.labels ++ l.map (fun i => "op_" ++ toString i), s.evals ++ l.map op⟩
  | [], s => by simp
  | i :: l, s => by rw [List.foldl_cons, opLoop op l]; simp

section
variable {single : String → Option (Eval K)} {table : String → Eval K → Prop} {E : Env K} {o : Nat}
  (hs : ∀ s e, table s e → single s = some e) (h0 : single "order_params" = none)
include hs h0

omit [LinearOrder K] in
theorem buildStep_ok {s : Quantities K} {q : String} {c : List (String × Eval K)} (h : Columns table o E q c) :
    buildStep single (orderParam E o) E.maxGrains s q =
      .ok ⟨s.labels ++ c.map Prod.fst, s.evals ++ c.map Prod.snd⟩ := by
  cases h with
  | single ht =>
    unfold buildStep
    rw [hs _ _ ht]
    have hne : q ≠ "order_params" := by
      intro he; subst he; have := hs _ _ ht; rw [h0] at this; exact absurd this (by simp)
    simp [hne]
  | params =>
    unfold buildStep
    rw [h0]
    dsimp only
    rw [if_pos rfl, opLoop]
    simp only [List.map_map]
    rfl

omit [LinearOrder K] in
theorem build_ok {labels : List String} {parts : List (List (String × Eval K))}
    (h : List.Forall₂ (Columns table o E) labels parts) :
    build single (orderParam E o) E.maxGrains labels =
      .ok ⟨parts.flatten.map Prod.fst, parts.flatten.map Prod.snd⟩ := by
  have key : ∀ s : Quantities K, labels.foldlM (buildStep single (orderParam E o) E.maxGrains) s =
      .ok ⟨s.labels ++ parts.flatten.map Prod.fst, s.evals ++ parts.flatten.map Prod.snd⟩ := by
    induction h with
    | nil => intro s; simp
    | cons h _ ih =>
      intro s
      rw [List.foldlM_cons, buildStep_ok hs h0 h, Res.ok_bind, ih]
      simp
  unfold build
  rw [key]
  simp
end

omit [Field K] [LinearOrder K] in
theorem build_unknown {single : String → Option (Eval K)} {op : Nat → Eval K} {mx : Nat} {labels : List String}
    (h : ∃ l ∈ labels, single l = none ∧ l ≠ "order_params") :
    build single op mx labels = .exc .assertThrow := by
  unfold build
  generalize (⟨[], []⟩ : Quantities K) = s
  induction labels generalizing s with
  | nil => obtain ⟨l, hl, _⟩ := h; simp at hl
  | cons a labels ih =>
    rw [List.foldlM_cons]
    by_cases ha : single a = none ∧ a ≠ "order_params"
    · have : buildStep single op mx s a = .exc .assertThrow := by
        unfold buildStep; rw [ha.1]; dsimp only; rw [if_neg ha.2]
      rw [this]; rfl
    · have ht : ∃ l ∈ labels, single l = none ∧ l ≠ "order_params" := by
        obtain ⟨l, hl, hh⟩ := h
        rcases List.mem_cons.1 hl with rfl | hl
        · exact absurd hh ha
        · exact ⟨l, hl, hh⟩
      have hok : ∃ s', buildStep single op mx s a = .ok s' := by
        unfold buildStep
        cases hx : single a with
        | some e => exact ⟨_, rfl⟩
        | none =>
          have : a = "order_params" := by
            by_contra hne; exact ha ⟨hx, hne⟩
          dsimp only; rw [if_pos this]; exact ⟨_, rfl⟩
      obtain ⟨s', hs'⟩ := hok
      rw [hs', Res.ok_bind]
      exact ih ht s'

/-! ## Integration -/

omit [LinearOrder K] in
theorem zipFold {β : Type} (es : List (Eval K)) (h : Eval K → β → K) : ∀ (bs : List β) (z : Eval K → K),
    bs.foldl (fun q b => List.zipWith (fun x e => x + h e b) q es) (es.map z) =
      es.map fun e => z e + (bs.map (h e)).sum
  | [], z => by simp
  | b :: bs, z => by
    rw [List.foldl_cons]
    have : List.zipWith (fun x e => x + h e b) (es.map z) es = es.map fun e => z e + h e b := by
      rw [List.zipWith_map_left, List.zipWith_self]
    rw [this, zipFold es h bs]
    simp [add_assoc]

omit [LinearOrder K] in
theorem batchIntegral_eq (e : Eval K) (filter : QPoint K → K) (b : CellBatch K) :
    batchIntegral e filter b =
      ((b.lanes.take b.active).flatten.map fun p => e p.v p.g * filter p * p.jxw).sum := by
  unfold batchIntegral
  rw [foldl_add_sum (fun ps => laneIntegral e filter ps), zero_add, List.map_flatten, List.sum_flatten, List.map_map]
  congr 1
  apply List.map_congr_left
  intro ps _
  unfold laneIntegral
  rw [foldl_add_sum (fun p => e p.v p.g * filter p * p.jxw), zero_add]
  rfl

omit [LinearOrder K] in
theorem rankValues_eq (es : List (Eval K)) (filter : QPoint K → K) (bs : List (CellBatch K)) :
    rankValues es filter bs = es.map fun e => (bs.map (batchIntegral e filter)).sum := by
  unfold rankValues
  have := zipFold es (fun e b => batchIntegral e filter b) bs (fun _ => 0)
  rw [this]
  simp

omit [LinearOrder K] in
theorem domainValues_eq (es : List (Eval K)) (filter : QPoint K → K) (ranks : List (List (CellBatch K))) :
    domainValues es filter ranks = es.map fun e => integral e filter ranks := by
  have h : domainValues es filter ranks = ranks.foldl (fun q bs => List.zipWith
      (fun x e => x + (fun e bs => (bs.map (batchIntegral e filter)).sum) e bs) q es) (es.map fun _ => 0) := by
    unfold domainValues
    congr 1
    funext q bs
    rw [rankValues_eq, List.zipWith_map_right]
  rw [h, zipFold es (fun e bs => (bs.map (batchIntegral e filter)).sum) ranks (fun _ => 0)]
  apply List.map_congr_left
  intro e _
  rw [zero_add]
  unfold integral cells
  rw [List.map_flatten, List.sum_flatten, List.map_map, List.map_flatMap, List.flatMap_def, List.sum_flatten,
    List.map_map, List.map_flatten, List.sum_flatten, List.map_map]
  congr 1
  apply List.map_congr_left
  intro bs _
  show (bs.map (batchIntegral e filter)).sum = (bs.map _).sum
  congr 1
  apply List.map_congr_left
  intro b _
  rw [batchIntegral_eq, List.map_flatten, List.sum_flatten, List.map_map]
  rfl

section
variable {single : String → Option (Eval K)} {table : String → Eval K → Prop} {E : Env K} {o : Nat}

omit [LinearOrder K] in
theorem columns_ok (hs : ∀ s e, table s e → single s = some e) (h0 : single "order_params" = none)
    {labels : List String} {parts : List (List (String × Eval K))}
    (h : List.Forall₂ (Columns table o E) labels parts) (filter : QPoint K → K) (ranks : List (List (CellBatch K))) :
    columns single (orderParam E o) E.maxGrains labels filter ranks =
      .ok (parts.flatten.map fun c => (c.1, integral c.2 filter ranks)) := by
  unfold columns
  rw [build_ok hs h0 h, Res.ok_bind]
  dsimp only
  generalize parts.flatten = P
  rw [domainValues_eq]
  have hl : (P.map Prod.snd).length =
      (P.map fun c => (c.1, integral c.2 filter ranks)).length := by simp
  rw [hl]
  apply OutputFields.mapM_range
  intro i hi
  have hi' : i < P.length := by simpa using hi
  rw [Res.index_ok (show i < (P.map Prod.fst).length by simpa using hi'), Res.ok_bind,
    Res.index_ok (show i < ((P.map Prod.snd).map fun e => integral e filter ranks).length by
      simpa using hi'), Res.ok_bind]
  show Res.ok _ = Res.ok _
  simp

omit [LinearOrder K] in
theorem columns_unknown (hn : ∀ s, (∀ e, ¬table s e) → single s = none) {labels : List String}
    (h : ∃ l ∈ labels, ∀ c, ¬Columns table o E l c) (filter : QPoint K → K) (ranks : List (List (CellBatch K))) :
    columns single (orderParam E o) E.maxGrains labels filter ranks = .exc .assertThrow := by
  unfold columns
  obtain ⟨l, hl, hc⟩ := h
  rw [build_unknown ⟨l, hl, hn l fun e he => hc _ (.single he), ?_⟩]
  · rfl
  · rintro rfl; exact hc _ .params
end

end Verif.DomainIntegrals
