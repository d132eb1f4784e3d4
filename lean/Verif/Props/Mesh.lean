import Verif.Model.Mesh
import Mathlib.Data.Nat.Prime.Basic
import Mathlib.Tactic.Linarith
import Mathlib.Algebra.Order.Floor.Semiring
import Mathlib.Algebra.Order.Field.Basic
import Mathlib.Tactic.FieldSimp
import Mathlib.Algebra.Field.Rat
import Mathlib.Algebra.Order.Ring.Rat
import Mathlib.Data.Rat.Floor
/-! # Mesh subdivision and refinement marking: C34, C35, C49 -/
set_option linter.unusedSectionVars false
namespace Verif.Props
open Verif Mesh

/-! ## C34 -/

private theorem isPrimeLoop_iff {i : Nat} (h : 2 ≤ i) : isPrimeLoop i = true ↔ i.Prime := by
  rw [Nat.prime_def_lt', isPrimeLoop, List.all_eq_true]
  simp only [List.mem_range'_1, bne_iff_ne, ne_eq]
  constructor
  · intro hall
    refine ⟨h, fun m h2 hm hd => ?_⟩
    obtain ⟨k, rfl⟩ := hd
    have hk : 2 ≤ k := by
      rcases k with _ | _ | k
      · omega
      · omega
      · omega
    refine hall m ⟨h2, ?_⟩ (Nat.mul_mod_right m k)
    have : m ≤ m * k / 2 := by
      rw [Nat.le_div_iff_mul_le (by omega)]
      exact Nat.mul_le_mul_left m hk
    omega
  · intro ⟨_, hp⟩ j hj e
    exact hp j hj.1 (by omega) (Nat.dvd_of_mod_eq_zero e)

/-- The list of primes is the list of all prime numbers in the range, in increasing order. -/
theorem C34_primes (start stop : Nat) :
    (∀ i, i ∈ getPrimes start stop ↔ start ≤ i ∧ i ≤ stop ∧ i.Prime) ∧
    (getPrimes start stop).Pairwise (· < ·) := by
  constructor
  · intro i
    simp only [getPrimes, List.mem_filter, List.mem_range'_1, Bool.and_eq_true, Bool.not_eq_true',
      Bool.or_eq_false_iff, beq_eq_false_iff_ne]
    constructor
    · rintro ⟨h1, h2, h3⟩
      exact ⟨h1.1, by omega, (isPrimeLoop_iff (by omega)).1 h3⟩
    · rintro ⟨h1, h2, h3⟩
      have := h3.two_le
      exact ⟨by omega, by omega, (isPrimeLoop_iff this).2 h3⟩
  · exact List.Pairwise.filter _ List.pairwise_lt_range'

/-- distance of natural numbers -/
def dist (a b : Nat) : Nat := (a - b) + (b - a)

private theorem wrapDelta_ok {a b : Nat} (ha : a < W) (hb : b < W / 2) (hab : a < 2 * b) :
    wrapDelta a b = .ok (dist a b) := by
  have hW : W = 4294967296 := by decide
  unfold wrapDelta dist
  dsimp only
  by_cases h : b ≤ a
  · have e : (a + W - b) % W = a - b := by
      rw [show a + W - b = (a - b) + W by omega, Nat.add_mod_right, Nat.mod_eq_of_lt (by omega)]
    rw [e, if_neg (by omega), if_pos (by omega)]
    congr 1; omega
  · have e : (a + W - b) % W = a + W - b := Nat.mod_eq_of_lt (by omega)
    rw [e, if_neg (by omega), if_neg (by omega)]
    congr 1; omega

private theorem clog_bounds {q : Nat} (hq : 0 < q) : q ≤ 2 ^ Nat.clog 2 q ∧ 2 ^ Nat.clog 2 q < 2 * q := by
  refine ⟨Nat.le_pow_clog (by omega) q, ?_⟩
  by_cases h1 : 1 < q
  · have := Nat.pow_pred_clog_lt_self (b := 2) (by omega) h1
    have hpos : 0 < Nat.clog 2 q := Nat.clog_pos (by omega) h1
    obtain ⟨m, hm⟩ : ∃ m, Nat.clog 2 q = m + 1 := ⟨_, (Nat.succ_pred_eq_of_pos hpos).symm⟩
    rw [hm] at this ⊢
    rw [Nat.pred_succ] at this
    rw [pow_succ]; omega
  · have : q = 1 := by omega
    subst this
    simp

private theorem candidate_ok {n p : Nat} (hp : 0 < p) (hpn : p ≤ n) (hn : n < W / 2) :
    candidate n p = .ok (Nat.clog 2 (n / p), p * 2 ^ Nat.clog 2 (n / p),
      dist (p * 2 ^ Nat.clog 2 (n / p)) n) ∧
    0 < p * 2 ^ Nat.clog 2 (n / p) ∧ p * 2 ^ Nat.clog 2 (n / p) < 2 * n := by
  have hq : 0 < n / p := Nat.div_pos hpn hp
  obtain ⟨h1, h2⟩ := clog_bounds hq
  have hlt : p * 2 ^ Nat.clog 2 (n / p) < 2 * n := by
    have h3 : p * 2 ^ Nat.clog 2 (n / p) < p * (2 * (n / p)) := Nat.mul_lt_mul_of_pos_left h2 hp
    have h4 : p * (n / p) ≤ n := Nat.mul_div_le n p
    have h5 : p * (2 * (n / p)) = 2 * (p * (n / p)) := by ring
    omega
  have hW : W = 4294967296 := by decide
  refine ⟨?_, Nat.mul_pos hp (by positivity), hlt⟩
  unfold candidate
  dsimp only
  rw [if_neg (by omega), if_neg (by omega), wrapDelta_ok (by omega) hn hlt]
  rfl

/-- cells obtained from prime `p`: the candidate considered for a requested number `n` -/
def cells (n p : Nat) : Nat := p * 2 ^ Nat.clog 2 (n / p)

private theorem loop_ok {n : Nat} (hn : n < W / 2) (ps : List Nat) (hps : ∀ p ∈ ps, 0 < p ∧ p ≤ n)
    (hsort : ps.Pairwise (· < ·)) :
    ∀ acc : Nat × Nat × Nat, (∀ p ∈ ps, acc.1 < p) →
    ∃ r, decomposeLoop n ps acc = .ok r ∧
      (r = acc ∨ (r.2.2 < acc.2.2 ∧ r.1 ∈ ps ∧ r.2.1 = Nat.clog 2 (n / r.1) ∧
        r.2.2 = dist (cells n r.1) n)) ∧
      (∀ p ∈ ps, r.2.2 ≤ dist (cells n p) n) ∧
      (∀ p ∈ ps, r.2.2 = dist (cells n p) n → r.1 ≤ p) := by
  induction ps with
  | nil => exact fun acc _ => ⟨acc, rfl, Or.inl rfl, by simp, by simp⟩
  | cons p ps ih =>
    intro acc hacc
    obtain ⟨hp0, hpn⟩ := hps p (by simp)
    obtain ⟨hc, _, _⟩ := candidate_ok hp0 hpn hn
    rw [List.pairwise_cons] at hsort
    have hps' : ∀ q ∈ ps, 0 < q ∧ q ≤ n := fun q hq => hps q (by simp [hq])
    rw [decomposeLoop, hc]
    simp only [Res.bind]
    have hcell : dist (p * 2 ^ Nat.clog 2 (n / p)) n = dist (cells n p) n := rfl
    rw [hcell]
    split_ifs with hlt
    · obtain ⟨r, h1, h3, h4, h5⟩ := ih hps' hsort.2 (p, Nat.clog 2 (n / p), dist (cells n p) n) hsort.1
      refine ⟨r, h1, Or.inr ?_, ?_, ?_⟩
      · rcases h3 with rfl | h3
        · exact ⟨hlt, by simp, rfl, rfl⟩
        · exact ⟨lt_trans h3.1 hlt, by simp [h3.2.1], h3.2.2⟩
      · intro q hq
        rcases List.mem_cons.1 hq with rfl | hq
        · rcases h3 with rfl | h3
          · exact le_rfl
          · exact h3.1.le
        · exact h4 q hq
      · intro q hq e
        rcases List.mem_cons.1 hq with rfl | hq
        · rcases h3 with rfl | h3
          · exact le_rfl
          · exact absurd e h3.1.ne
        · exact h5 q hq e
    · obtain ⟨r, h1, h3, h4, h5⟩ := ih hps' hsort.2 acc (fun q hq => hacc q (by simp [hq]))
      have hge := not_lt.1 hlt
      refine ⟨r, h1, ?_, ?_, ?_⟩
      · rcases h3 with rfl | h3
        · exact Or.inl rfl
        · exact Or.inr ⟨h3.1, by simp [h3.2.1], h3.2.2⟩
      · intro q hq
        rcases List.mem_cons.1 hq with rfl | hq
        · rcases h3 with rfl | h3
          · exact hge
          · exact h3.1.le.trans hge
        · exact h4 q hq
      · intro q hq e
        rcases List.mem_cons.1 hq with rfl | hq
        · rcases h3 with rfl | h3
          · exact (hacc _ (by simp)).le
          · exact absurd e (lt_of_lt_of_le h3.1 hge).ne
        · exact h5 q hq e

/-- For every requested number of cells that is at least the prime limit, the chosen prime and number of
refinements give the best approximation among the candidates of all primes up to the limit; the smallest
prime wins a tie. -/
theorem C34_decompose {n maxPrime : Nat} (h2 : 2 ≤ maxPrime) (hmn : maxPrime ≤ n) (hn : n < 2 ^ 31) :
    ∃ p s, decompose n maxPrime = .ok (p, s) ∧ p.Prime ∧ p ≤ maxPrime ∧ s = Nat.clog 2 (n / p) ∧
      (∀ q, q.Prime → q ≤ maxPrime → dist (p * 2 ^ s) n ≤ dist (cells n q) n) ∧
      (∀ q, q.Prime → q ≤ maxPrime → dist (p * 2 ^ s) n = dist (cells n q) n → p ≤ q) := by
  have hW : W / 2 = 2 ^ 31 := by decide
  obtain ⟨hm, hs⟩ := C34_primes 2 maxPrime
  have hps : ∀ p ∈ getPrimes 2 maxPrime, 0 < p ∧ p ≤ n := fun p hp => by
    have := (hm p).1 hp; omega
  obtain ⟨r, h1, h3, h4, h5⟩ := loop_ok (by omega) _ hps hs (0, 0, W - 1) (fun p hp => (hps p hp).1)
  have hin : ∀ q, q.Prime → q ≤ maxPrime → q ∈ getPrimes 2 maxPrime :=
    fun q hq hle => (hm q).2 ⟨hq.two_le, hle, hq⟩
  have h2in := hin 2 Nat.prime_two h2
  rcases h3 with rfl | ⟨h3, h6, h7, h8⟩
  · have h := h4 2 h2in
    obtain ⟨_, c1, c2⟩ := candidate_ok (n := n) (p := 2) (by omega) (by omega) (by omega)
    simp only [dist, cells] at h
    have : W = 4294967296 := by decide
    omega
  · have hr := (hm r.1).1 h6
    have hd : dist (r.1 * 2 ^ r.2.1) n = r.2.2 := by rw [h8, h7]; rfl
    refine ⟨r.1, r.2.1, by unfold decompose; rw [h1]; rfl, hr.2.2, hr.2.1, h7, ?_, ?_⟩
    · intro q hq hle; rw [hd]; exact h4 q (hin q hq hle)
    · intro q hq hle e; rw [hd] at e; exact h5 q (hin q hq hle) e

/-- A number of the form prime times power of two is decomposed exactly, and the number of cells is
always positive and less than twice the requested one. -/
theorem C34_exact {n maxPrime : Nat} (h2 : 2 ≤ maxPrime) (hmn : maxPrime ≤ n) (hn : n < 2 ^ 31) :
    ∃ p s, decompose n maxPrime = .ok (p, s) ∧ 0 < p * 2 ^ s ∧ p * 2 ^ s < 2 * n ∧
      ∀ q k, q.Prime → q ≤ maxPrime → n = q * 2 ^ k → p * 2 ^ s = n := by
  have hW : W / 2 = 2 ^ 31 := by decide
  obtain ⟨p, s, h1, h3, h4, rfl, h6, h7⟩ := C34_decompose h2 hmn hn
  obtain ⟨_, c1, c2⟩ := candidate_ok (n := n) (p := p) h3.pos (by omega) (by omega)
  refine ⟨p, _, h1, c1, c2, ?_⟩
  intro q k hq hle e
  have h := h6 q hq hle
  have : cells n q = n := by
    unfold cells
    rw [e, Nat.mul_div_cancel_left _ hq.pos, Nat.clog_pow _ _ (by omega)]
  rw [this] at h
  simp only [dist] at h
  omega

/-- A prime limit above the requested number leads to undefined behaviour. -/
theorem C34_small_ub {n p maxPrime : Nat} (hp : p.Prime) (hlo : n < p) (hle : p ≤ maxPrime)
    (hn : n < 2 ^ 31) : decompose n maxPrime = .ub := by
  have hW : W / 2 = 2 ^ 31 := by decide
  obtain ⟨hm, hs⟩ := C34_primes 2 maxPrime
  have hin : p ∈ getPrimes 2 maxPrime := (hm p).2 ⟨hp.two_le, hle, hp⟩
  have key : ∀ ps : List Nat, (∀ q ∈ ps, 0 < q) → p ∈ ps → ∀ acc, decomposeLoop n ps acc = .ub := by
    intro ps
    induction ps with
    | nil => intro _ h; cases h
    | cons q ps ih =>
      intro hpos hmem acc
      rw [decomposeLoop]
      by_cases hq : q ≤ n
      · rw [(candidate_ok (hpos q (by simp)) hq (by omega)).1]
        simp only [Res.bind]
        refine ih (fun x hx => hpos x (by simp [hx])) ?_ _
        rcases List.mem_cons.1 hmem with rfl | h
        · omega
        · exact h
      · have : candidate n q = .ub := by
          unfold candidate
          dsimp only
          rw [if_pos (Nat.div_eq_of_lt (by omega))]
        rw [this]; rfl
  unfold decompose
  rw [key _ (fun q hq => by have := (hm q).1 hq; omega) hin]
  rfl

private theorem decomposeAll_ok {maxPrime : Nat} (h2 : 2 ≤ maxPrime) (subs : List Nat)
    (hs : ∀ n ∈ subs, maxPrime ≤ n ∧ n < 2 ^ 31) :
    ∃ rs, decomposeAll maxPrime subs = .ok rs ∧
      List.Forall₂ (fun n r => decompose n maxPrime = .ok r) subs rs := by
  induction subs with
  | nil => exact ⟨[], rfl, .nil⟩
  | cons n ns ih =>
    obtain ⟨p, s, h1, _⟩ := C34_decompose h2 (hs n (by simp)).1 (hs n (by simp)).2
    obtain ⟨rs, h3, h4⟩ := ih (fun m hm => hs m (by simp [hm]))
    exact ⟨(p, s) :: rs, by rw [decomposeAll, h1, h3]; rfl, .cons h1 h4⟩

/-- Harmonising the refinements over the directions: with the common number of refinements every
direction has the number of cells of its own decomposition; the common number is the largest possible. -/
theorem C34_adjust {maxPrime : Nat} (h2 : 2 ≤ maxPrime) (subs : List Nat) (hne : subs ≠ [])
    (hs : ∀ n ∈ subs, maxPrime ≤ n ∧ n < 2 ^ 31) :
    ∃ base out, adjust maxPrime subs = .ok (base, out) ∧
      List.Forall₂ (fun n m => ∃ p s, decompose n maxPrime = .ok (p, s) ∧ base ≤ s ∧
        m * 2 ^ base = p * 2 ^ s) subs out ∧
      ∃ n ∈ subs, ∃ p, decompose n maxPrime = .ok (p, base) := by
  obtain ⟨rs, h1, h3⟩ := decomposeAll_ok h2 subs hs
  have hrs : rs.map (·.2) ≠ [] := by
    intro e
    rw [List.map_eq_nil_iff] at e
    subst e
    cases h3
    exact hne rfl
  obtain ⟨base, hb⟩ : ∃ b, (rs.map (·.2)).min? = some b := by
    cases hmin : (rs.map (·.2)).min? with
    | none => exact absurd (List.min?_eq_none_iff.1 hmin) hrs
    | some b => exact ⟨b, rfl⟩
  obtain ⟨hb1, hb2⟩ := List.min?_eq_some_iff.1 hb
  refine ⟨base, rs.map (fun r => r.1 * 2 ^ (r.2 - base)), ?_, ?_, ?_⟩
  · unfold adjust
    rw [if_pos (by omega), h1]
    simp only [Res.bind, hb]
  · rw [List.forall₂_map_right_iff]
    have hle : ∀ r ∈ rs, base ≤ r.2 := fun r hr => hb2 _ (List.mem_map.2 ⟨r, hr, rfl⟩)
    clear hb hb1 hb2 h1 hrs hne hs
    induction h3 with
    | nil => exact .nil
    | @cons n r ns rs hd _ ih =>
      refine .cons ⟨r.1, r.2, hd, hle r (by simp), ?_⟩ (ih (fun x hx => hle x (by simp [hx])))
      rw [Nat.mul_assoc, ← pow_add, Nat.sub_add_cancel (hle r (by simp))]
  · obtain ⟨r, hr, hr2⟩ := List.mem_map.1 hb1
    clear hb hb1 hb2 h1 hrs hne hs
    induction h3 with
    | nil => cases hr
    | @cons n r' ns rs hd _ ih =>
      rcases List.mem_cons.1 hr with rfl | hr
      · exact ⟨n, by simp, r.1, by rw [hd, ← hr2]⟩
      · obtain ⟨m, hm, q⟩ := ih hr
        exact ⟨m, by simp [hm], q⟩

/-- Every strategy performs the same total number of refinements. -/
theorem C34_refines (r : Refine) (a b : Nat) :
    (initialRefines r a b).1 + (initialRefines r a b).2 = a + b := by
  cases r <;> simp [initialRefines]

namespace Ex34
example : decompose 100 20 = .ok (13, 3) := by decide +kernel
example : decompose 40 20 = .ok (5, 3) := by decide +kernel
example : adjust 20 [100, 40, 80] = .ok (3, [13, 5, 10]) := by decide +kernel
/-- a prime limit of one is accepted and gives no cells at all -/
theorem C34_limit_one : adjust 1 [100, 40] = .ok (0, [0, 0]) := by decide +kernel
/-- the candidate of a prime is not the nearest multiple by a power of two: 16 is chosen for 10 though
8 is closer -/
example : decompose 10 2 = .ok (2, 3) := by decide +kernel
end Ex34

/-! ## C35 -/

section
variable {K : Type} [Field K] [LinearOrder K]

/-- a cell crosses the interface: for some component one of its values, or the average of its values,
lies in the interface range -/
def Crosses (vmin vmax : K) (c : Cell K) : Prop :=
  ∃ vs ∈ c.values, (∃ v ∈ vs, vmin < v ∧ v < vmax) ∨
    (vmin < vs.sum / (vs.length : K) ∧ vs.sum / (vs.length : K) < vmax)

private theorem markBlocks_iff (vmin vmax : K) (l : List (List K)) :
    markBlocks vmin vmax l = true ↔ ∃ vs ∈ l, (∃ v ∈ vs, vmin < v ∧ v < vmax) ∨
      (vmin < vs.sum / (vs.length : K) ∧ vs.sum / (vs.length : K) < vmax) := by
  induction l with
  | nil => simp [markBlocks]
  | cons vs l ih =>
    have h1 : anyInside vmin vmax vs = true ↔ ∃ v ∈ vs, vmin < v ∧ v < vmax := by
      simp [anyInside]
    have h2 : avgInside vmin vmax vs = true ↔
        vmin < vs.sum / (vs.length : K) ∧ vs.sum / (vs.length : K) < vmax := by simp [avgInside]
    rw [markBlocks]
    simp only [List.mem_cons, exists_eq_or_imp, ← ih, ← h1, ← h2]
    cases anyInside vmin vmax vs <;> cases avgInside vmin vmax vs <;> simp

private theorem limit_facts {lo hi : Nat} (c : Cell K) (hx : ¬ (c.refine = true ∧ c.coarsen = true)) :
    (limitLevels lo hi c).level = c.level ∧ (limitLevels lo hi c).values = c.values ∧
    (limitLevels lo hi c).owned = c.owned ∧
    ((limitLevels lo hi c).refine = true ↔ c.refine = true ∧ c.level < hi) ∧
    ((limitLevels lo hi c).coarsen = true ↔ hi < c.level ∨ (c.coarsen = true ∧ c.level ≠ lo)) := by
  obtain ⟨level, owned, refine, coarsen, values⟩ := c
  unfold limitLevels
  dsimp only at *
  by_cases h1 : refine = true ∧ level = hi
  · rw [if_pos h1]
    dsimp only
    rw [if_neg (by omega)]
    have : coarsen = false := by
      cases coarsen with
      | false => rfl
      | true => exact absurd ⟨h1.1, rfl⟩ hx
    subst this
    refine ⟨rfl, rfl, rfl, ⟨by simp, fun h => by omega⟩, ⟨by simp, fun h => ?_⟩⟩
    rcases h with h | h
    · omega
    · exact absurd h.1 (by simp)
  · rw [if_neg h1]
    have h1' : refine = true → level ≠ hi := fun h e => h1 ⟨h, e⟩
    by_cases h2 : coarsen = true ∧ level = lo
    · rw [if_pos h2]
      dsimp only
      by_cases h3 : level > hi
      · rw [if_pos h3]
        exact ⟨rfl, rfl, rfl, ⟨by simp, fun h => by omega⟩, ⟨fun _ => Or.inl h3, fun _ => rfl⟩⟩
      · rw [if_neg h3]
        refine ⟨rfl, rfl, rfl, ⟨fun h => ⟨h, by have := h1' h; omega⟩, fun h => h.1⟩, ⟨by simp, fun h => ?_⟩⟩
        rcases h with h | h
        · omega
        · exact absurd h2.2 h.2
    · rw [if_neg h2]
      dsimp only
      by_cases h3 : level > hi
      · rw [if_pos h3]
        exact ⟨rfl, rfl, rfl, ⟨by simp, fun h => by omega⟩, ⟨fun _ => Or.inl h3, fun _ => rfl⟩⟩
      · rw [if_neg h3]
        refine ⟨rfl, rfl, rfl, ⟨fun h => ⟨h, by have := h1' h; omega⟩, fun h => h.1⟩,
          ⟨fun h => Or.inr ⟨h, fun e => h2 ⟨h, e⟩⟩, fun h => ?_⟩⟩
        rcases h with h | h
        · omega
        · exact h.1

/-- Marking respects the level limits, cell by cell, for all flags set before by the error estimator
(which never sets both flags of a cell). -/
theorem C35_marking (vmin vmax : K) {lo hi : Nat} (hlh : lo ≤ hi) (cells : List (Cell K))
    (hx : ∀ c ∈ cells, ¬ (c.refine = true ∧ c.coarsen = true)) :
    List.Forall₂ (fun c c' : Cell K => c'.level = c.level ∧ c'.values = c.values ∧ c'.owned = c.owned ∧
      (c.level = hi → c'.refine = false) ∧
      (c.level = lo → c'.coarsen = false) ∧
      (c.level > hi → c'.coarsen = true ∧ c'.refine = false) ∧
      (c.owned = true → Crosses vmin vmax c → c.level < hi → c'.refine = true ∧ c'.coarsen = false) ∧
      ¬ (c'.refine = true ∧ c'.coarsen = true) ∧
      (¬ Crosses vmin vmax c → lo < c.level → c.level < hi →
        c'.refine = c.refine ∧ c'.coarsen = c.coarsen))
      cells (mark vmin vmax lo hi cells) := by
  unfold mark
  rw [List.map_map, List.forall₂_map_right_iff, List.forall₂_same]
  intro c hc
  have hxc := hx c hc
  have hm : markBlocks vmin vmax c.values = true ↔ Crosses vmin vmax c := markBlocks_iff vmin vmax c.values
  have hI : (markInterface vmin vmax c).level = c.level ∧ (markInterface vmin vmax c).values = c.values ∧
      (markInterface vmin vmax c).owned = c.owned ∧
      ¬ ((markInterface vmin vmax c).refine = true ∧ (markInterface vmin vmax c).coarsen = true) ∧
      (c.owned = true → Crosses vmin vmax c →
        (markInterface vmin vmax c).refine = true) ∧
      (¬ Crosses vmin vmax c → markInterface vmin vmax c = c) := by
    rw [← hm]
    unfold markInterface
    by_cases h1 : c.owned = false ∨ c.refine = true
    · rw [if_pos h1]
      refine ⟨rfl, rfl, rfl, hxc, fun h _ => ?_, fun _ => rfl⟩
      rcases h1 with h1 | h1
      · rw [h1] at h; cases h
      · exact h1
    · rw [if_neg h1]
      by_cases h2 : markBlocks vmin vmax c.values = true
      · rw [if_pos h2]
        exact ⟨rfl, rfl, rfl, by simp, fun _ _ => rfl, fun h => absurd h2 h⟩
      · rw [if_neg h2]
        exact ⟨rfl, rfl, rfl, hxc, fun _ h => absurd h h2, fun _ => rfl⟩
  obtain ⟨i1, i2, i3, i4, i5, i6⟩ := hI
  obtain ⟨l1, l2, l3, l4, l5⟩ := limit_facts (lo := lo) (hi := hi) _ i4
  simp only [Function.comp]
  rw [i1] at l1 l4 l5
  rw [i2] at l2
  rw [i3] at l3
  have hf : ∀ b : Bool, b = false ↔ ¬ b = true := by decide
  have hb : ∀ a b : Bool, a = b ↔ (a = true ↔ b = true) := by decide
  refine ⟨l1, l2, l3, ?_, ?_, ?_, ?_, ?_, ?_⟩
  · intro h; rw [hf, l4]; omega
  · intro h; rw [hf, l5]; omega
  · intro h; rw [hf, l4, l5]; exact ⟨Or.inl h, by omega⟩
  · intro h1 h2 h3
    have := i5 h1 h2
    rw [hf, l4, l5]
    refine ⟨⟨this, h3⟩, ?_⟩
    rintro (h | h)
    · omega
    · exact i4 ⟨this, h.1⟩
  · rw [l4, l5]
    rintro ⟨h1, h2 | h2⟩
    · omega
    · exact i4 ⟨h1.1, h2.1⟩
  · intro h1 h2 h3
    rw [hb, hb (limitLevels lo hi _).coarsen, l4, l5, i6 h1]
    exact ⟨⟨fun h => h.1, fun h => ⟨h, h3⟩⟩, ⟨fun h => h.elim (fun h => by omega) (·.1), fun h => Or.inr ⟨h, by omega⟩⟩⟩
end

namespace Ex35
def c1 : Cell Rat := ⟨2, true, false, true, [[0, 1/2], [0, 0]]⟩
def c2 : Cell Rat := ⟨3, true, true, false, [[0, 0]]⟩
def c3 : Cell Rat := ⟨4, true, false, false, [[1/2, 0]]⟩
def c4 : Cell Rat := ⟨1, true, false, true, [[0, 0]]⟩
example : mark (1/20) (19/20) 1 3 [c1, c2, c3, c4] =
    [{ c1 with refine := true, coarsen := false }, { c2 with refine := false }, { c3 with coarsen := true },
     { c4 with coarsen := false }] := by decide +kernel
/-- only values 0 and 1: found by the average -/
example : (mark (1/20) (19/20) 1 3 [(⟨2, true, false, false, [[0, 1]]⟩ : Cell Rat)]).map (·.refine) = [true] := by
  decide +kernel
/-- A cell below the minimum level is still coarsened. -/
theorem C35_below_minimum : (mark (1/20) (19/20) 1 3 [(⟨0, true, false, true, [[0, 0]]⟩ : Cell Rat)]).map
    (·.coarsen) = [true] := by decide +kernel
end Ex35

/-! ## C49 -/

section
variable {K : Type} [Field K] [LinearOrder K] [IsStrictOrderedRing K] [FloorSemiring K]

/-- Without prime limit the mesh resolves the interface: in each direction the size of the finest cells
is at most the interface width divided by the wanted number of elements. -/
theorem C49_resolution_partial (sizes : List K) (width elements elements0 : K) (refine : Refine)
    (hs : ∀ x ∈ sizes, 0 < x) (hw : 0 < width) (he : 0 < elements)
    (hr : 1 / 2 < elements / elements0) :
    ∃ subs g d, meshFromInterface sizes width elements elements0 refine 0 = .ok (subs, g, d) ∧
      List.Forall₂ (fun (x : K) (m : Nat) => 0 < m ∧ x / ((m : K) * 2 ^ (g + d)) ≤ width / elements) sizes subs ∧
      elements / elements0 ≤ 2 ^ (g + d) := by
  have hh : 0 < width / elements := div_pos hw he
  obtain ⟨s, hs1⟩ : ∃ s, s = Nat.clog 2 ⌈elements / elements0⌉₊ := ⟨_, rfl⟩
  have hgd : (initialRefines refine 0 s).1 + (initialRefines refine 0 s).2 = s := by
    rw [C34_refines]; omega
  refine ⟨sizes.map (fun x => ⌈x / (width / elements) / 2 ^ s⌉₊), (initialRefines refine 0 s).1,
    (initialRefines refine 0 s).2, ?_, ?_, ?_⟩
  · unfold meshFromInterface ceilLog2
    dsimp only
    rw [if_neg (not_le.2 hr)]
    simp only [Res.bind, adjust, gt_iff_lt, lt_irrefl, if_false]
    rw [← hs1]
  · rw [hgd]
    · rw [List.forall₂_map_right_iff, List.forall₂_same]
      intro x hx
      have hp : (0 : K) < 2 ^ s := by positivity
      have hy : 0 < x / (width / elements) / 2 ^ s := div_pos (div_pos (hs x hx) hh) hp
      have hm : 0 < ⌈x / (width / elements) / 2 ^ s⌉₊ := Nat.ceil_pos.2 hy
      refine ⟨hm, ?_⟩
      have hc := Nat.le_ceil (x / (width / elements) / 2 ^ s)
      have hm' : (0 : K) < (⌈x / (width / elements) / 2 ^ s⌉₊ : K) := by exact_mod_cast hm
      rw [div_le_iff₀ (by positivity)]
      generalize ⌈x / (width / elements) / 2 ^ s⌉₊ = m at hc hm'
      rw [div_div, div_le_iff₀ (by positivity)] at hc
      linarith
  · rw [hgd, hs1]
    have h1 := Nat.le_ceil (elements / elements0)
    have h2 : ((⌈elements / elements0⌉₊ : ℕ) : K) ≤ ((2 ^ Nat.clog 2 ⌈elements / elements0⌉₊ : ℕ) : K) :=
      Nat.cast_le.2 (Nat.le_pow_clog (by omega) _)
    push_cast at h2
    exact h1.trans h2
end

namespace Ex49
example : meshFromInterface [(90 : Rat), 50] 4 4 1 .base 0 = .ok ([23, 13], 0, 2) := by decide +kernel
/-- With prime limit the resolution can be lost: 9 divisions wanted, 8 made, so that the cells are
larger than wanted. -/
theorem C49_violated : meshFromInterface [(9 : Rat)] 1 1 1 .base 7 = .ok ([2], 2, 0) ∧
    ¬ (9 : Rat) / (2 * 2 ^ 2) ≤ 1 / 1 := by decide +kernel
/-- fewer than half an element wanted per coarse element: conversion of a negative number -/
example : meshFromInterface [(90 : Rat), 50] 4 (1/2) 1 .base 0 = .ub := by decide +kernel
end Ex49
end Verif.Props
