/-
Lemmas on assembly of matrices.
-/
import Verif.Model.Assembly
import Verif.Spec.Assembly
import Mathlib.Algebra.BigOperators.Ring.Finset
import Mathlib.Algebra.BigOperators.Ring.List
import Mathlib.Algebra.BigOperators.Intervals
import Mathlib.Algebra.Order.Field.Basic
import Mathlib.Tactic.Ring
import Mathlib.Tactic.Linarith

set_option linter.unusedSectionVars false

namespace Verif.Assembly
open Verif.Assembly.Spec

variable {K : Type} [Field K]

theorem foldl_flatten {α β : Type} (f : β → α → β) (l : List (List α)) (x : β) :
    l.foldl (fun x a => a.foldl f x) x = l.flatten.foldl f x := by
  induction l generalizing x with
  | nil => rfl
  | cons a l ih => rw [List.foldl_cons, ih, List.flatten_cons, List.foldl_append]

theorem foldl_add_apply {α ι : Type} (g : α → ι → K) (l : List α) (x : ι → K) (k : ι) :
    l.foldl (fun (d : ι → K) c => fun k => d k + g c k) x k = x k + (l.map fun c => g c k).sum := by
  induction l generalizing x with
  | nil => simp
  | cons a l ih => rw [List.foldl_cons, ih, List.map_cons, List.sum_cons]; ring

theorem foldl_add_apply₂ {α : Type} (g : α → Nat → Nat → K) (l : List α) (x : Nat → Nat → K) (r s : Nat) :
    l.foldl (fun (d : Nat → Nat → K) c => fun r s => d r s + g c r s) x r s = x r s + (l.map fun c => g c r s).sum := by
  induction l generalizing x with
  | nil => simp
  | cons a l ih => rw [List.foldl_cons, ih, List.map_cons, List.sum_cons]; ring

theorem vmultInternal_eq (n : Nat) (lex : List Nat) (lines : Lines K) (batches : List (List (Cell K))) (src : Nat × Nat → K)
    (k : Nat × Nat) (hk : k.1 < n) :
    vmultInternal n lex lines batches src k =
      (batches.flatten.map fun c => scatter lex lines c (c.loc (gather lex lines c src)) k.1 k.2).sum := by
  unfold vmultInternal
  rw [foldl_add_apply (fun (c : Cell K) (k : Nat × Nat) =>
    if k.1 < n then scatter lex lines c (c.loc (gather lex lines c src)) k.1 k.2 else 0)]
  simp [hk]

theorem sum_range_mul (n d : Nat) (f : Nat → K) :
    ∑ i ∈ Finset.range (n * d), f i = ∑ b ∈ Finset.range n, ∑ i ∈ Finset.range d, f (b * d + i) := by
  induction n with
  | zero => simp
  | succ n ih => rw [Nat.succ_mul, Finset.sum_range_add, ih, Finset.sum_range_succ]

/-- Values on the first `M` places. -/
def cut (M : Nat) (x : Nat → K) : Nat → K := fun k => if k < M then x k else 0

theorem linear_zero {N : Nat} {f : (Nat → K) → Nat → K} (h : Linear N f) {i : Nat} (hi : i < N) : f (fun _ => 0) i = 0 := by
  have := h.smul 0 (fun _ => 0) i hi
  simpa using this

theorem linear_cut [LinearOrder K] {N : Nat} {f : (Nat → K) → Nat → K} (h : Linear N f) (x : Nat → K) {i : Nat} (hi : i < N) (M : Nat) :
    f (cut M x) i = ∑ j ∈ Finset.range M, f (unit j) i * x j := by
  induction M with
  | zero =>
    have : cut 0 x = fun _ => 0 := by funext k; simp [cut]
    rw [this, linear_zero h hi]; simp
  | succ M ih =>
    have e : cut (M + 1) x = fun k => cut M x k + (fun k => x M * unit (K := K) M k) k := by
      funext k
      unfold cut unit
      rcases Nat.lt_trichotomy k M with hk | hk | hk
      · simp [hk, Nat.ne_of_lt hk, Nat.lt_succ_of_lt hk]
      · subst hk; simp
      · have h1 : ¬ k < M + 1 := by omega
        have h2 : ¬ k < M := by omega
        have h3 : k ≠ M := by omega
        simp [h1, h2, h3]
    rw [e, h.add _ _ i hi, h.smul (x M) (unit M) i hi, ih, Finset.sum_range_succ]
    ring

theorem linear_sum [LinearOrder K] {N : Nat} {f : (Nat → K) → Nat → K} (h : Linear N f) (x : Nat → K) {i : Nat} (hi : i < N) :
    f x i = ∑ j ∈ Finset.range N, f (unit j) i * x j := by
  rw [← linear_cut h x hi N]
  exact h.only _ _ (fun k hk => by simp [cut, hk]) i hi

/-! ### Weights -/

theorem resolve_interleave (n : Nat) (lines : Lines K) {v b : Nat} (hb : b < n) :
    resolve (interleave n lines) (v * n + b) = (resolve lines v).map fun e => (e.1 * n + b, e.2) := by
  have hn : 0 < n := by omega
  have h1 : (v * n + b) / n = v := by
    rw [Nat.mul_comm, Nat.mul_add_div hn, Nat.div_eq_of_lt hb, Nat.add_zero]
  have h2 : (v * n + b) % n = b := by
    rw [Nat.mul_comm, Nat.mul_add_mod, Nat.mod_eq_of_lt hb]
  unfold resolve interleave
  rw [h1, h2]
  cases lines v <;> simp

theorem weight_interleave (n : Nat) (lines : Lines K) {v b r c : Nat} (hb : b < n) (hc : c < n) :
    weight (interleave n lines) (v * n + b) (r * n + c) = if b = c then weight lines v r else 0 := by
  unfold weight
  rw [resolve_interleave n lines hb, List.filter_map, List.map_map]
  have key : ∀ x : Nat × K, (x.1 * n + b = r * n + c) ↔ (x.1 = r ∧ b = c) := by
    intro x
    constructor
    · intro h
      have h1 : (x.1 * n + b) % n = (r * n + c) % n := by rw [h]
      rw [Nat.mul_comm, Nat.mul_add_mod, Nat.mul_comm r, Nat.mul_add_mod, Nat.mod_eq_of_lt hb, Nat.mod_eq_of_lt hc] at h1
      subst h1
      have : x.1 * n = r * n := by omega
      exact ⟨Nat.eq_of_mul_eq_mul_right (by omega) this, rfl⟩
    · rintro ⟨rfl, rfl⟩; rfl
  by_cases h : b = c
  · rw [if_pos h]
    congr 2
    apply List.filter_congr
    intro x _
    have := key x
    simp only [h, and_true] at this
    simp [h]
    intro hn; omega
  · rw [if_neg h]
    rw [List.filter_eq_nil_iff.2]
    · rfl
    · intro x _
      have := key x
      simp only [h, and_false, iff_false] at this
      simpa using this

theorem sum_weight (l : List (Nat × K)) (size : Nat) (hl : ∀ e ∈ l, e.1 < size) (x : Nat → K) :
    ∑ s ∈ Finset.range size, ((l.filter fun e => e.1 == s).map fun e => e.2).sum * x s = (l.map fun e => e.2 * x e.1).sum := by
  induction l with
  | nil => simp
  | cons e l ih =>
    rw [List.map_cons, List.sum_cons, ← ih fun a ha => hl a (List.mem_cons_of_mem _ ha)]
    have h1 : ∀ s, (((e :: l).filter fun a => a.1 == s).map fun a => a.2).sum * x s =
        (if s = e.1 then e.2 * x s else 0) + ((l.filter fun a => a.1 == s).map fun a => a.2).sum * x s := by
      intro s
      by_cases hs : e.1 = s
      · rw [List.filter_cons_of_pos (by simp [hs]), List.map_cons, List.sum_cons, if_pos hs.symm]; ring
      · rw [List.filter_cons_of_neg (by simp [hs]), if_neg fun h => hs h.symm, zero_add]
    rw [Finset.sum_congr rfl fun s _ => h1 s, Finset.sum_add_distrib, Finset.sum_ite_eq']
    rw [if_pos (Finset.mem_range.2 (hl e (List.mem_cons_self ..)))]

theorem weight_zero {lines : Lines K} (hc : Closed lines) {i r : Nat} (hr : (lines r).isSome) : weight lines i r = 0 := by
  unfold weight
  rw [List.filter_eq_nil_iff.2]
  · rfl
  · intro e he
    simp only [beq_iff_eq]
    intro her
    unfold resolve at he
    cases h : lines i with
    | none =>
      rw [h] at he
      simp at he
      rw [he] at her
      simp only at her
      rw [← her, h] at hr
      simp at hr
    | some l =>
      rw [h] at he
      have := hc i l h e (by simpa using he)
      rw [her] at this
      rw [this] at hr
      simp at hr

theorem resolve_unconstrained {lines : Lines K} (hc : Closed lines) {i : Nat} {e : Nat × K} (he : e ∈ resolve lines i) :
    lines e.1 = none := by
  unfold resolve at he
  cases h : lines i with
  | none => rw [h] at he; simp at he; rw [he]; exact h
  | some l => rw [h] at he; exact hc i l h e (by simpa using he)

theorem closed_interleave {n : Nat} (hn : 0 < n) {lines : Lines K} (hc : Closed lines) : Closed (interleave n lines) := by
  intro i l hl e he
  unfold interleave at hl ⊢
  cases h : lines (i / n) with
  | none => rw [h] at hl; simp at hl
  | some l' =>
    rw [h] at hl
    simp only [Option.map_some, Option.some.injEq] at hl
    subst hl
    obtain ⟨a, ha, rfl⟩ := List.mem_map.1 he
    have h1 : (a.1 * n + i % n) / n = a.1 := by
      rw [Nat.mul_comm, Nat.mul_add_div hn, Nat.div_eq_of_lt (Nat.mod_lt _ hn), Nat.add_zero]
    simp only
    rw [h1, hc _ _ h a ha]
    rfl

theorem gather_zero (lex : List Nat) {lines : Lines K} (hc : Closed lines) (c : Cell K) (src : Nat × Nat → K) (n : Nat)
    {idx : List Nat} (hidx : ∀ i ∈ idx, (lines i).isSome) :
    gather lex lines c (fun j => if j.1 < n ∧ j.2 ∈ idx then 0 else src j) = gather lex lines c src := by
  funext k
  unfold gather
  congr 1
  apply List.map_congr_left
  intro e he
  have h1 := resolve_unconstrained hc he
  have h2 : e.1 ∉ idx := by
    intro h
    have := hidx _ h
    rw [h1] at this
    simp at this
  simp [h2]

/-! ### One cell -/

section
variable [LinearOrder K]

theorem index_eq (n : Nat) (lex : List Nat) (c : Cell K) (b : Nat) {i : Nat} (hi : i < lex.length) :
    index n lex c (b * lex.length + i) = mf lex c i * n + b := by
  unfold index
  have h1 : (b * lex.length + i) / lex.length = b := by
    rw [Nat.mul_comm, Nat.mul_add_div (by omega), Nat.div_eq_of_lt hi, Nat.add_zero]
  have h2 : (b * lex.length + i) % lex.length = i := by
    rw [Nat.mul_comm, Nat.mul_add_mod, Nat.mod_eq_of_lt hi]
  rw [h1, h2]

/-- Columns: weights of all unknowns give what is read. -/
theorem read_eq (n size : Nat) (lex : List Nat) {lines : Lines K} (hin : Inside size lines) (c : Cell K)
    (hd : ∀ i < lex.length, mf lex c i < size) (src : Nat × Nat → K) {k : Nat} (hk : k < n * lex.length) :
    ∑ s ∈ Finset.range (size * n), weight (interleave n lines) (index n lex c k) s * interleaved n src s = gather lex lines c src k := by
  have hlen : 0 < lex.length := by
    rcases Nat.eq_zero_or_pos lex.length with h | h
    · rw [h] at hk; simp at hk
    · exact h
  have hm : k % lex.length < lex.length := Nat.mod_lt _ hlen
  have hb : k / lex.length < n := Nat.div_lt_of_lt_mul (by rw [Nat.mul_comm]; exact hk)
  have hn : 0 < n := Nat.lt_of_le_of_lt (Nat.zero_le _) hb
  unfold index weight
  rw [resolve_interleave n lines hb]
  rw [sum_weight _ (size * n)]
  · unfold gather
    rw [List.map_map]
    congr 1
    apply List.map_congr_left
    intro e _
    simp only [Function.comp, interleaved]
    rw [Nat.mul_comm e.1, Nat.mul_add_mod, Nat.mod_eq_of_lt hb, Nat.mul_add_div hn, Nat.div_eq_of_lt hb, Nat.add_zero]
  · intro e he
    obtain ⟨a, ha, rfl⟩ := List.mem_map.1 he
    have : a.1 < size := by
      unfold resolve at ha
      cases h : lines (mf lex c (k % lex.length)) with
      | none => rw [h] at ha; simp at ha; rw [ha]; exact hd _ hm
      | some l => rw [h] at ha; exact hin _ l h a (by simpa using ha)
    simp only
    have h1 : (a.1 + 1) * n ≤ size * n := Nat.mul_le_mul_right n this
    rw [Nat.succ_mul] at h1
    omega

/-- Product of what one cell adds to the matrix with a vector. -/
theorem cell_product (diag : (Nat → Nat → K) → Nat → K) (n size : Nat) (lex : List Nat) {lines : Lines K} (hin : Inside size lines)
    (c : Cell K) (hd : ∀ i < lex.length, mf lex c i < size) (hlin : Linear (n * lex.length) c.loc) (A : Nat → Nat → K)
    (hA : ∀ i < n * lex.length, ∀ j < n * lex.length, A i j = localMatrix c i j) (src : Nat × Nat → K) {r b : Nat} (hb : b < n)
    (hr : lines r = none) :
    ∑ s ∈ Finset.range (size * n),
        distribute diag (interleave n lines) (index n lex c) (n * lex.length) A (r * n + b) s * interleaved n src s =
      scatter lex lines c (c.loc (gather lex lines c src)) b r := by
  have hn : 0 < n := by omega
  have hdiag : ∀ s, (∑ i ∈ Finset.range (n * lex.length),
      if ((interleave n lines) (index n lex c i)).isSome ∧ r * n + b = index n lex c i ∧ s = index n lex c i then diag A i else 0) = 0 := by
    intro s
    apply Finset.sum_eq_zero
    intro i _
    rw [if_neg]
    rintro ⟨h1, h2, _⟩
    rw [← h2] at h1
    unfold interleave at h1
    have : (r * n + b) / n = r := by rw [Nat.mul_comm, Nat.mul_add_div hn, Nat.div_eq_of_lt hb, Nat.add_zero]
    rw [this, hr] at h1
    simp at h1
  have e1 : ∀ s, distribute diag (interleave n lines) (index n lex c) (n * lex.length) A (r * n + b) s =
      ∑ i ∈ Finset.range (n * lex.length), weight (interleave n lines) (index n lex c i) (r * n + b) *
        ∑ j ∈ Finset.range (n * lex.length), A i j * weight (interleave n lines) (index n lex c j) s := by
    intro s
    unfold distribute
    rw [hdiag s, add_zero]
    refine Finset.sum_congr rfl fun i _ => ?_
    rw [Finset.mul_sum]
    exact Finset.sum_congr rfl fun j _ => by ring
  calc _ = ∑ i ∈ Finset.range (n * lex.length), weight (interleave n lines) (index n lex c i) (r * n + b) *
            ∑ j ∈ Finset.range (n * lex.length), A i j *
              ∑ s ∈ Finset.range (size * n), weight (interleave n lines) (index n lex c j) s * interleaved n src s := by
        rw [Finset.sum_congr rfl fun s _ => by rw [e1 s, Finset.sum_mul]]
        rw [Finset.sum_comm]
        refine Finset.sum_congr rfl fun i _ => ?_
        simp only [Finset.mul_sum, Finset.sum_mul]
        rw [Finset.sum_comm]
        exact Finset.sum_congr rfl fun j _ => Finset.sum_congr rfl fun s _ => by ring
    _ = ∑ i ∈ Finset.range (n * lex.length), weight (interleave n lines) (index n lex c i) (r * n + b) *
          c.loc (gather lex lines c src) i := by
        refine Finset.sum_congr rfl fun i hi => ?_
        rw [linear_sum hlin (gather lex lines c src) (Finset.mem_range.1 hi)]
        congr 1
        refine Finset.sum_congr rfl fun j hj => ?_
        rw [read_eq n size lex hin c hd src (Finset.mem_range.1 hj), hA i (Finset.mem_range.1 hi) j (Finset.mem_range.1 hj)]
        rfl
    _ = _ := by
        rw [sum_range_mul]
        unfold scatter
        rw [Finset.sum_eq_single b]
        · refine Finset.sum_congr rfl fun i hi => ?_
          rw [index_eq n lex c b (Finset.mem_range.1 hi), weight_interleave n lines hb hb, if_pos rfl]
        · intro b' hb' hne
          apply Finset.sum_eq_zero
          intro i hi
          rw [index_eq n lex c b' (Finset.mem_range.1 hi), weight_interleave n lines (Finset.mem_range.1 hb') hb, if_neg hne, zero_mul]
        · intro h; exact absurd (Finset.mem_range.2 hb) h

theorem apply_list (size : Nat) {α : Type} (l : List α) (g : α → Nat → Nat → K) (x : Nat → K) (r : Nat) :
    ∑ s ∈ Finset.range size, (l.map fun c => g c r s).sum * x s = (l.map fun c => ∑ s ∈ Finset.range size, g c r s * x s).sum := by
  induction l with
  | nil => simp
  | cons a l ih =>
    simp only [List.map_cons, List.sum_cons, add_mul, Finset.sum_add_distrib, ih]

theorem systemMatrix_eq (tol : K) (diag : (Nat → Nat → K) → Nat → K) (n : Nat) (lex : List Nat) (lines : Lines K)
    (batches : List (List (Cell K))) (old : Option (Nat → Nat → K)) (r s : Nat) :
    systemMatrix tol diag n lex lines batches old r s = (batches.flatten.map fun c =>
      distribute diag lines (index n lex c) (n * lex.length) (dropSmall tol (n * lex.length) (localMatrix c)) r s).sum := by
  have h0 : (if old.isNone then old.getD (fun _ _ => (0 : K)) else fun _ _ => 0) = fun _ _ => 0 := by
    cases old <;> rfl
  unfold systemMatrix computeMatrix
  rw [h0, foldl_flatten, foldl_add_apply₂ (fun c r s => distribute diag lines (index n lex c) (n * lex.length)
    (dropSmall tol (n * lex.length) (localMatrix c)) r s)]
  simp

/-! ### One component -/

/-- Values of one component. -/
def alone (b : Nat) (x : Nat → K) : Nat × Nat → K := fun k => if k.1 = b then x k.2 else 0

theorem block_product (diag : (Nat → Nat → K) → Nat → K) (n size : Nat) (lex : List Nat) {lines : Lines K} (hin : Inside size lines)
    (c : Cell K) (hd : ∀ i < lex.length, mf lex c i < size) (hlin : Linear (n * lex.length) c.loc) (x : Nat → K) {r b : Nat} (hb : b < n)
    (hr : lines r = none) :
    ∑ s ∈ Finset.range size, distribute diag lines (mf lex c) lex.length (block lex.length b (localMatrix c)) r s * x s =
      scatter lex lines c (c.loc (gather lex lines c (alone b x))) b r := by
  have hdiag : ∀ s, (∑ i ∈ Finset.range lex.length, if (lines (mf lex c i)).isSome ∧ r = mf lex c i ∧ s = mf lex c i
      then diag (block lex.length b (localMatrix c)) i else 0) = 0 := by
    intro s
    apply Finset.sum_eq_zero
    intro i _
    rw [if_neg]
    rintro ⟨h1, h2, _⟩
    rw [← h2, hr] at h1
    simp at h1
  have e1 : ∀ s, distribute diag lines (mf lex c) lex.length (block lex.length b (localMatrix c)) r s =
      ∑ i ∈ Finset.range lex.length, weight lines (mf lex c i) r *
        ∑ j ∈ Finset.range lex.length, block lex.length b (localMatrix c) i j * weight lines (mf lex c j) s := by
    intro s
    unfold distribute
    rw [hdiag s, add_zero]
    refine Finset.sum_congr rfl fun i _ => ?_
    rw [Finset.mul_sum]
    exact Finset.sum_congr rfl fun j _ => by ring
  have e2 : ∀ j < lex.length, ∑ s ∈ Finset.range size, weight lines (mf lex c j) s * x s =
      gather lex lines c (alone b x) (b * lex.length + j) := by
    intro j hj
    have h1 : (b * lex.length + j) / lex.length = b := by
      rw [Nat.mul_comm, Nat.mul_add_div (by omega), Nat.div_eq_of_lt hj, Nat.add_zero]
    have h2 : (b * lex.length + j) % lex.length = j := by
      rw [Nat.mul_comm, Nat.mul_add_mod, Nat.mod_eq_of_lt hj]
    unfold weight gather
    rw [sum_weight _ size, h1, h2]
    · simp [alone]
    · intro e he
      unfold resolve at he
      cases h : lines (mf lex c j) with
      | none => rw [h] at he; simp at he; rw [he]; exact hd _ hj
      | some l => rw [h] at he; exact hin _ l h e (by simpa using he)
  have e3 : ∀ b' j, b' ≠ b → j < lex.length → gather lex lines c (alone b x) (b' * lex.length + j) = 0 := by
    intro b' j hne hj
    have h1 : (b' * lex.length + j) / lex.length = b' := by
      rw [Nat.mul_comm, Nat.mul_add_div (by omega), Nat.div_eq_of_lt hj, Nat.add_zero]
    unfold gather
    rw [h1]
    simp [alone, hne]
  calc _ = ∑ i ∈ Finset.range lex.length, weight lines (mf lex c i) r *
            ∑ j ∈ Finset.range lex.length, block lex.length b (localMatrix c) i j *
              ∑ s ∈ Finset.range size, weight lines (mf lex c j) s * x s := by
        rw [Finset.sum_congr rfl fun s _ => by rw [e1 s, Finset.sum_mul]]
        rw [Finset.sum_comm]
        refine Finset.sum_congr rfl fun i _ => ?_
        simp only [Finset.mul_sum, Finset.sum_mul]
        rw [Finset.sum_comm]
        exact Finset.sum_congr rfl fun j _ => Finset.sum_congr rfl fun s _ => by ring
    _ = _ := by
        unfold scatter
        refine Finset.sum_congr rfl fun i hi => ?_
        congr 1
        have hlt : b * lex.length + i < n * lex.length := by
          have h1 : (b + 1) * lex.length ≤ n * lex.length := Nat.mul_le_mul_right _ hb
          rw [Nat.succ_mul] at h1
          have := Finset.mem_range.1 hi
          omega
        rw [linear_sum hlin _ hlt, sum_range_mul]
        symm
        rw [Finset.sum_eq_single b]
        · refine Finset.sum_congr rfl fun j hj => ?_
          rw [e2 j (Finset.mem_range.1 hj)]
          rfl
        · intro b' _ hne
          apply Finset.sum_eq_zero
          intro j hj
          rw [e3 b' j hne (Finset.mem_range.1 hj), mul_zero]
        · intro h; exact absurd (Finset.mem_range.2 hb) h

/-! ### Small entries -/

variable [IsStrictOrderedRing K]

theorem foldl_max_le (l : List Nat) (f : Nat → K) (m : K) :
    m ≤ l.foldl (fun m j => max m (f j)) m ∧ ∀ j ∈ l, f j ≤ l.foldl (fun m j => max m (f j)) m := by
  induction l generalizing m with
  | nil => simp
  | cons a l ih =>
    rw [List.foldl_cons]
    have := ih (max m (f a))
    refine ⟨le_trans (le_max_left _ _) this.1, ?_⟩
    intro j hj
    rcases List.mem_cons.1 hj with rfl | hj
    · exact le_trans (le_max_right _ _) this.1
    · exact this.2 j hj

theorem foldl_max_bound (l : List Nat) (f : Nat → K) (m M : K) (hm : m ≤ M) (hf : ∀ j ∈ l, f j ≤ M) :
    l.foldl (fun m j => max m (f j)) m ≤ M := by
  induction l generalizing m with
  | nil => exact hm
  | cons a l ih =>
    rw [List.foldl_cons]
    exact ih _ (max_le hm (hf a (List.mem_cons_self ..))) fun j hj => hf j (List.mem_cons_of_mem _ hj)

theorem rows_le (l : List Nat) (N : Nat) (A : Nat → Nat → K) (m : K) :
    m ≤ l.foldl (fun m i => (List.range N).foldl (fun m j => max m |A i j|) m) m ∧
    ∀ i ∈ l, ∀ j < N, |A i j| ≤ l.foldl (fun m i => (List.range N).foldl (fun m j => max m |A i j|) m) m := by
  induction l generalizing m with
  | nil => simp
  | cons a l ih =>
    rw [List.foldl_cons]
    have h1 := foldl_max_le (List.range N) (fun j => |A a j|) m
    have h2 := ih ((List.range N).foldl (fun m j => max m |A a j|) m)
    refine ⟨le_trans h1.1 h2.1, ?_⟩
    intro i hi j hj
    rcases List.mem_cons.1 hi with rfl | hi
    · exact le_trans (h1.2 j (List.mem_range.2 hj)) h2.1
    · exact h2.2 i hi j hj

theorem rows_bound (l : List Nat) (N : Nat) (A : Nat → Nat → K) (m M : K) (hm : m ≤ M) (hA : ∀ i ∈ l, ∀ j < N, |A i j| ≤ M) :
    l.foldl (fun m i => (List.range N).foldl (fun m j => max m |A i j|) m) m ≤ M := by
  induction l generalizing m with
  | nil => exact hm
  | cons a l ih =>
    rw [List.foldl_cons]
    refine ih _ (foldl_max_bound _ _ m M hm fun j hj => hA a (List.mem_cons_self ..) j (List.mem_range.1 hj)) ?_
    exact fun i hi => hA i (List.mem_cons_of_mem _ hi)

theorem maxAbs_nonneg (N : Nat) (A : Nat → Nat → K) : 0 ≤ maxAbs N A := (rows_le (List.range N) N A 0).1

theorem le_maxAbs {N : Nat} (A : Nat → Nat → K) {i j : Nat} (hi : i < N) (hj : j < N) : |A i j| ≤ maxAbs N A :=
  (rows_le (List.range N) N A 0).2 i (List.mem_range.2 hi) j hj

theorem maxAbs_le {N : Nat} (A : Nat → Nat → K) {M : K} (hM : 0 ≤ M) (h : ∀ i < N, ∀ j < N, |A i j| ≤ M) : maxAbs N A ≤ M :=
  rows_bound (List.range N) N A 0 M hM fun i hi j hj => h i (List.mem_range.1 hi) j hj

theorem dropSmall_eq {tol : K} (htol : 0 ≤ tol) {N : Nat} {A : Nat → Nat → K} (h : NoSmall tol N A) {i j : Nat} (hi : i < N)
    (hj : j < N) : dropSmall tol N A i j = A i j := by
  unfold dropSmall
  split
  · rename_i hlt
    rcases h i hi j hj with h0 | ⟨m, hm, hle⟩
    · exact h0.symm
    · have hm0 : 0 ≤ m := le_trans (abs_nonneg _) (hm i hi j hj)
      exact absurd (lt_of_lt_of_le hlt (le_trans (mul_le_mul_of_nonneg_left (maxAbs_le A hm0 hm) htol) hle)) (lt_irrefl _)
  · rfl

end

end Verif.Assembly
