/-
C169: repair of packings that are not connected.
-/
import Verif.Model.Connectivity
import Verif.Spec.Connectivity
import Mathlib.Tactic.Linarith
import Mathlib.Tactic.Ring
import Mathlib.Algebra.Order.Field.Rat

namespace Verif.Props

open Verif.Connectivity Verif.Connectivity.Spec

variable {K : Type} [Field K] [LinearOrder K] [IsStrictOrderedRing K]

/-- The search within the largest possible distance misses no contact. -/
theorem C169_contact (dist : Nat → Nat → K) (rmax tol : K) (r : Nat → K) (i j : Nat) (hi : r i ≤ rmax) (hj : r j ≤ rmax) : contact dist rmax tol r i j = true ↔ Contact dist tol r i j := by
  unfold contact Contact
  rw [Bool.and_eq_true, decide_eq_true_iff, decide_eq_true_iff]
  constructor
  · rintro ⟨_, h⟩; linarith
  · intro h; constructor <;> linarith

private theorem add_le (r : Nat → K) (k : Nat) {x : K} (hx : 0 ≤ x) (l : Nat) : r l ≤ add r k x l := by
  unfold add
  split
  · linarith
  · exact le_rfl

private theorem closeGap_le (s : Strategy) (r : Nat → K) (i j : Nat) (gap : K) (l : Nat) : r l ≤ closeGap s r i j gap l := by
  unfold closeGap
  split
  · exact le_rfl
  · rename_i h
    have h := not_le.1 h
    cases s with
    | larger => exact add_le r _ h.le l
    | smaller => exact add_le r _ h.le l
    | split =>
      have h2 : 0 ≤ gap / 2 := by linarith
      exact le_trans (add_le r i h2 l) (add_le _ j h2 l)

private theorem closeGap_sum (s : Strategy) (r : Nat → K) (i j : Nat) (hij : i ≠ j) (gap : K) (h : 0 < gap) : closeGap s r i j gap i + closeGap s r i j gap j = r i + r j + gap := by
  unfold closeGap
  rw [if_neg (not_le.2 h)]
  cases s with
  | larger => dsimp only; split <;> simp [add, hij, Ne.symm hij] <;> ring
  | smaller => dsimp only; split <;> simp [add, hij, Ne.symm hij] <;> ring
  | split => simp [add, hij, Ne.symm hij]; ring

private theorem bridge_le (dist : Nat → Nat → K) (tol : K) (s : Strategy) (r : Nat → K) (e : Nat × Nat) (l : Nat) : r l ≤ bridgeStep dist tol s r e l := by
  unfold bridgeStep
  split
  · exact le_rfl
  · exact closeGap_le s r _ _ _ l

/-- Radii never get smaller. -/
theorem C169_radii (dist : Nat → Nat → K) (tol : K) (s : Strategy) (bs : List (Nat × Nat)) (r : Nat → K) (l : Nat) : r l ≤ iteration dist tol s bs r l := by
  induction bs generalizing r with
  | nil => exact le_rfl
  | cons e bs ih => exact le_trans (bridge_le dist tol s r e l) (ih _)

/-- A gap is closed exactly: both particles of a bridge touch, without overlap beyond the tolerance if they did not touch before. -/
theorem C169_gap (dist : Nat → Nat → K) (tol : K) (s : Strategy) (r : Nat → K) (e : Nat × Nat) (he : e.1 ≠ e.2) :
    Contact dist tol (bridgeStep dist tol s r e) e.1 e.2 ∧
      (¬ Contact dist tol r e.1 e.2 → dist e.1 e.2 = bridgeStep dist tol s r e e.1 + bridgeStep dist tol s r e e.2 + tol) := by
  unfold bridgeStep Contact
  dsimp only
  by_cases h : dist e.1 e.2 - r e.1 - r e.2 - tol ≤ 0
  · rw [if_pos h]
    exact ⟨by linarith, fun h' => absurd (by linarith) h'⟩
  · rw [if_neg h]
    have := closeGap_sum s r e.1 e.2 he _ (not_le.1 h)
    rw [this]
    exact ⟨by linarith, fun _ => by ring⟩

private theorem closed (dist : Nat → Nat → K) (tol : K) (s : Strategy) (bs : List (Nat × Nat)) (r : Nat → K) (h : ∀ e ∈ bs, e.1 ≠ e.2) :
    ∀ e ∈ bs, Contact dist tol (iteration dist tol s bs r) e.1 e.2 := by
  induction bs generalizing r with
  | nil => simp
  | cons b bs ih =>
    intro e he
    rcases List.mem_cons.1 he with rfl | he
    · have := (C169_gap dist tol s r e (h e (by simp))).1
      unfold Contact at this ⊢
      have h1 := C169_radii dist tol s bs (bridgeStep dist tol s r e) e.1
      have h2 := C169_radii dist tol s bs (bridgeStep dist tol s r e) e.2
      show dist e.1 e.2 ≤ iteration dist tol s bs (bridgeStep dist tol s r e) e.1 + iteration dist tol s bs (bridgeStep dist tol s r e) e.2 + tol
      linarith
    · exact ih _ (fun e he => h e (by simp [he])) e he

/-- One pass over the bridges makes the packing connected. -/
theorem C169_connected {n : Nat} {dist : Nat → Nat → K} (hd : ∀ i j, dist i j = dist j i) {tol : K} {r : Nat → K} {bs : List (Nat × Nat)} (h : Bridges n dist tol r bs) (s : Strategy) :
    Connected n dist tol (iteration dist tol s bs r) := by
  obtain ⟨label, h1, h2⟩ := h.spans
  have mono : ∀ i j, Step n dist tol r i j → Step n dist tol (iteration dist tol s bs r) i j := by
    rintro i j ⟨a, b, c⟩
    refine ⟨a, b, ?_⟩
    unfold Contact at c ⊢
    have := C169_radii dist tol s bs r i
    have := C169_radii dist tol s bs r j
    linarith
  have lift : ∀ i j, Relation.ReflTransGen (Step n dist tol r) i j → Relation.ReflTransGen (Step n dist tol (iteration dist tol s bs r)) i j := by
    intro i j hx
    induction hx with
    | refl => exact .refl
    | tail _ hb ih => exact ih.tail (mono _ _ hb)
  have cl := closed dist tol s bs r fun e he => (h.inside e he).2.2
  intro i j hi hj
  have key : ∀ c, Relation.ReflTransGen (fun a b => ∃ e ∈ bs, (label e.1 = a ∧ label e.2 = b) ∨ (label e.2 = a ∧ label e.1 = b)) (label i) c →
      ∀ q, q < n → label q = c → Relation.ReflTransGen (Step n dist tol (iteration dist tol s bs r)) i q := by
    intro c hc
    induction hc with
    | refl => intro q hq e; exact lift _ _ (h1 i q hi hq e.symm)
    | tail _ hb ih =>
      intro q hq e'
      obtain ⟨e, he, hx⟩ := hb
      obtain ⟨a, b, _⟩ := h.inside e he
      rcases hx with ⟨x, y⟩ | ⟨x, y⟩
      · exact ((ih e.1 a x).tail ⟨a, b, cl e he⟩).trans (lift _ _ (h1 e.2 q b hq (y.trans e'.symm)))
      · refine ((ih e.2 b x).tail ⟨b, a, ?_⟩).trans (lift _ _ (h1 e.1 q a hq (y.trans e'.symm)))
        have := cl e he
        unfold Contact at this ⊢
        rw [hd e.2 e.1]
        linarith
  exact key _ (h2 i j hi hj) j hj rfl

/-- The loop ends after one pass at most and gives a connected packing. -/
theorem C169_repair {n : Nat} {dist : Nat → Nat → K} (hd : ∀ i j, dist i j = dist j i) {tol : K} {one : (Nat → K) → Bool} (ho : ∀ r, one r = true ↔ Connected n dist tol r)
    {bridges : (Nat → K) → List (Nat × Nat)} (hb : ∀ r, one r = false → Bridges n dist tol r (bridges r)) (s : Strategy) (r : Nat → K) (k : Nat) :
    ∃ r', repair dist tol s one bridges (k + 2) r = some r' ∧ Connected n dist tol r' ∧ (∀ l, r l ≤ r' l) ∧ (Connected n dist tol r → r' = r) := by
  by_cases h : one r = true
  · exact ⟨r, by simp [repair, h], (ho r).1 h, fun _ => le_rfl, fun _ => rfl⟩
  · have h' : one r = false := by simpa using h
    have hc := C169_connected hd (hb r h') s
    refine ⟨iteration dist tol s (bridges r) r, ?_, hc, C169_radii dist tol s _ r, fun hr => absurd ((ho r).2 hr) h⟩
    rw [repair, if_neg h, repair, if_pos ((ho _).2 hc)]

omit [IsStrictOrderedRing K] in
/-- Only particles of bridges are enlarged; with one particle per gap, not more than there are bridges. -/
theorem C169_enlarged (dist : Nat → Nat → K) (tol : K) {s : Strategy} (hs : s ≠ .split) (bs : List (Nat × Nat)) (r : Nat → K) :
    ∃ ks : List Nat, ks.length ≤ bs.length ∧ (∀ k ∈ ks, ∃ e ∈ bs, k = e.1 ∨ k = e.2) ∧ ∀ l, l ∉ ks → iteration dist tol s bs r l = r l := by
  have one : ∀ (r : Nat → K) (e : Nat × Nat), ∃ k, (k = e.1 ∨ k = e.2) ∧ ∀ l, l ≠ k → bridgeStep dist tol s r e l = r l := by
    intro r e
    unfold bridgeStep closeGap
    cases s with
    | split => exact absurd rfl hs
    | larger =>
      refine ⟨if r e.2 ≤ r e.1 then e.1 else e.2, by split <;> simp, fun l hl => ?_⟩
      split
      · rfl
      · exact if_neg hl
    | smaller =>
      refine ⟨if r e.1 ≤ r e.2 then e.1 else e.2, by split <;> simp, fun l hl => ?_⟩
      split
      · rfl
      · exact if_neg hl
  induction bs generalizing r with
  | nil => exact ⟨[], by simp, by simp, fun _ _ => rfl⟩
  | cons e bs ih =>
    obtain ⟨k, h1, h2⟩ := one r e
    obtain ⟨ks, g1, g2, g3⟩ := ih (bridgeStep dist tol s r e)
    refine ⟨k :: ks, by simp [g1], fun l hl => ?_, fun l hl => ?_⟩
    · rcases List.mem_cons.1 hl with rfl | hl
      · exact ⟨e, by simp, h1⟩
      · obtain ⟨e', he, hx⟩ := g2 l hl
        exact ⟨e', by simp [he], hx⟩
    · rw [List.mem_cons, not_or] at hl
      exact (g3 l hl.2).trans (h2 l hl.1)

omit [IsStrictOrderedRing K] in
/-- The strategies: all of the gap is added to the larger or to the smaller particle, or half of it to both; all others stay as they are. -/
theorem C169_strategy (r : Nat → K) {i j : Nat} (hij : i ≠ j) {gap : K} (h : 0 < gap) :
    (∃ k o, (k = i ∧ o = j ∨ k = j ∧ o = i) ∧ r o ≤ r k ∧ closeGap .larger r i j gap k = r k + gap ∧ ∀ l, l ≠ k → closeGap .larger r i j gap l = r l) ∧
    (∃ k o, (k = i ∧ o = j ∨ k = j ∧ o = i) ∧ r k ≤ r o ∧ closeGap .smaller r i j gap k = r k + gap ∧ ∀ l, l ≠ k → closeGap .smaller r i j gap l = r l) ∧
    closeGap .split r i j gap i = r i + gap / 2 ∧ closeGap .split r i j gap j = r j + gap / 2 ∧ ∀ l, l ≠ i → l ≠ j → closeGap .split r i j gap l = r l := by
  have hg := not_le.2 h
  refine ⟨?_, ?_, ?_, ?_, ?_⟩
  · by_cases hr : r j ≤ r i
    · exact ⟨i, j, .inl ⟨rfl, rfl⟩, hr, by simp [closeGap, hg, hr, add], fun l hl => by simp [closeGap, hg, hr, add, hl]⟩
    · exact ⟨j, i, .inr ⟨rfl, rfl⟩, (not_le.1 hr).le, by simp [closeGap, hg, hr, add], fun l hl => by simp [closeGap, hg, hr, add, hl]⟩
  · by_cases hr : r i ≤ r j
    · exact ⟨i, j, .inl ⟨rfl, rfl⟩, hr, by simp [closeGap, hg, hr, add], fun l hl => by simp [closeGap, hg, hr, add, hl]⟩
    · exact ⟨j, i, .inr ⟨rfl, rfl⟩, (not_le.1 hr).le, by simp [closeGap, hg, hr, add], fun l hl => by simp [closeGap, hg, hr, add, hl]⟩
  · simp [closeGap, hg, add, hij]
  · simp [closeGap, hg, add, Ne.symm hij]
  · intro l h1 h2
    simp [closeGap, hg, add, h1, h2]

/-- Distances of three particles on a line at 0, 10 and 20. -/
def line3 (i j : Nat) : Rat := if i = j then 0 else if i + j = 2 then 20 else 10

/-- Two particles are enlarged where the one in the middle would do. -/
theorem C169_minimum_violation :
    (iteration line3 0 .larger [(0, 1), (1, 2)] (fun _ => 1) 0 = 9 ∧ iteration line3 0 .larger [(0, 1), (1, 2)] (fun _ => 1) 1 = 9) ∧
      Connected 3 line3 0 (fun k => if k = 1 then 9 else 1) := by
  refine ⟨by decide +kernel, ?_⟩
  have c : ∀ i j, i < 3 → j < 3 → (i = 1 ∨ j = 1) → Step 3 line3 0 (fun k => if k = 1 then 9 else 1) i j := by
    intro i j hi hj h
    refine ⟨hi, hj, ?_⟩
    unfold Contact
    have : ∀ i, i < 3 → ∀ j, j < 3 → (i = 1 ∨ j = 1) → line3 i j ≤ (if i = 1 then 9 else 1) + (if j = 1 then 9 else 1) + 0 := by decide +kernel
    exact this i hi j hj h
  intro i j hi hj
  exact (Relation.ReflTransGen.single (c i 1 hi (by omega) (.inr rfl))).tail (c 1 j (by omega) hj (.inl rfl))

/-- Distances of particles on a line at 0, 5 and 8. -/
def line58 (i j : Nat) : Rat := |([0, 5, 8] : List Rat).getD i 0 - ([0, 5, 8] : List Rat).getD j 0|

/-- Radii 1, 1 and 5. -/
def radii58 (k : Nat) : Rat := if k = 2 then 5 else 1

/-- The pair with the nearest centres is taken although another one has the smaller gap. -/
theorem C169_smallest_violation : closestPair line58 0 radii58 [0] [1, 2] = some (0, 1) ∧ ¬ SmallestGap line58 radii58 [0] [1, 2] (0, 1) := by
  refine ⟨by decide +kernel, fun h => ?_⟩
  have := h.2.2 0 (by simp) 2 (by simp)
  revert this
  decide +kernel

omit [Field K] [IsStrictOrderedRing K] in
private theorem argmin_spec {A : Type} (f : A → K) (l : List A) (m : A) (h : argmin f l = some m) : m ∈ l ∧ ∀ x ∈ l, f m ≤ f x := by
  cases l with
  | nil => cases h
  | cons x l =>
    simp only [argmin, Option.some.injEq] at h
    have key : ∀ (l : List A) (x : A), let m := l.foldl (fun m y => if f y < f m then y else m) x
        (m = x ∨ m ∈ l) ∧ f m ≤ f x ∧ ∀ y ∈ l, f m ≤ f y := by
      intro l
      induction l with
      | nil => intro x; exact ⟨.inl rfl, le_rfl, by simp⟩
      | cons y l ih =>
        intro x
        obtain ⟨a, b, c⟩ := ih (if f y < f x then y else x)
        have hx : f (if f y < f x then y else x) ≤ f x ∧ f (if f y < f x then y else x) ≤ f y := by
          split
          · rename_i h; exact ⟨h.le, le_rfl⟩
          · rename_i h; exact ⟨le_rfl, not_lt.1 h⟩
        refine ⟨?_, le_trans b hx.1, fun z hz => ?_⟩
        · rcases a with a | a
          · by_cases hy : f y < f x
            · rw [if_pos hy] at a; exact .inr (by rw [List.foldl_cons, if_pos hy, a]; simp)
            · rw [if_neg hy] at a; exact .inl (by rw [List.foldl_cons, if_neg hy, a])
          · exact .inr (List.mem_cons_of_mem _ a)
        · rcases List.mem_cons.1 hz with rfl | hz
          · exact le_trans b hx.2
          · exact c z hz
    obtain ⟨a, b, c⟩ := key l x
    rw [← h]
    refine ⟨?_, fun y hy => ?_⟩
    · rcases a with a | a
      · rw [a]; simp
      · exact List.mem_cons_of_mem _ a
    · rcases List.mem_cons.1 hy with rfl | hy
      · exact b
      · exact c y hy

/-- C169, partial: the gap is the smallest one if all particles of the second group have the same radius. Missing: different radii. -/
theorem C169_smallest_partial (dist : Nat → Nat → K) (tol : K) (r : Nat → K) (a b : List Nat) (hb : ∀ i ∈ b, ∀ j ∈ b, r i = r j) {p : Nat × Nat} (h : closestPair dist tol r a b = some p) :
    SmallestGap dist r a b p := by
  obtain ⟨h1, h2⟩ := argmin_spec _ _ _ h
  have mem : ∀ q : Nat × Nat, q ∈ (a.filterMap fun i => (argmin (dist i) b).map fun j => (i, j)) ↔ q.1 ∈ a ∧ argmin (dist q.1) b = some q.2 := by
    intro q
    simp only [List.mem_filterMap, Option.map_eq_some_iff]
    constructor
    · rintro ⟨i, hi, j, hj, rfl⟩; exact ⟨hi, hj⟩
    · rintro ⟨hi, hj⟩; exact ⟨q.1, hi, q.2, hj, rfl⟩
  obtain ⟨ha, hj⟩ := (mem p).1 h1
  obtain ⟨g1, _⟩ := argmin_spec _ _ _ hj
  refine ⟨ha, g1, fun i hi j hj => ?_⟩
  cases hm : argmin (dist i) b with
  | none => cases b with
    | nil => cases hj
    | cons _ _ => cases hm
  | some m =>
    obtain ⟨m1, m2⟩ := argmin_spec _ _ _ hm
    have := h2 (i, m) ((mem (i, m)).2 ⟨hi, hm⟩)
    have := m2 j hj
    have := hb m m1 j hj
    dsimp only at *
    linarith

namespace Ex169

/-- C169_contact: particles at 0 and 5 with radii 1 and 1 are apart, those at 5 and 8 with radii 1 and 5 touch. -/
example : contact line58 5 0 radii58 0 1 = false ∧ contact line58 5 0 radii58 1 2 = true := by decide +kernel

/-- C169_radii, C169_enlarged: the particle in the middle keeps its radius if the outer ones are larger. -/
example : (List.range 3).map (iteration line3 0 .larger [(0, 1), (1, 2)] (fun k => if k = 1 then 1 else 2)) = [9, 1, 9] := by decide +kernel

/-- C169_gap, C169_strategy: the three ways to close a gap of 8. -/
example : (List.range 2).map (bridgeStep line3 0 .larger (fun _ => 1) (0, 1)) = [9, 1] ∧ (List.range 2).map (bridgeStep line3 0 .smaller (fun k => 2 - k) (0, 1)) = [2, 8] ∧
    (List.range 2).map (bridgeStep line3 0 .split (fun _ => 1) (0, 1)) = [5, 5] := by decide +kernel

/-- C169_connected, C169_repair: one pass is enough, and the result touches. -/
example : ((repair line3 0 .split (fun r => contact line3 100 0 r 0 1 && contact line3 100 0 r 1 2) (fun _ => [(0, 1), (1, 2)]) 2 (fun _ => 1)).map fun r => (List.range 3).map r) =
    some [5, 7, 3] := by decide +kernel

/-- C169_smallest_partial: with equal radii the nearest particles of both groups. -/
example : closestPair line58 0 (fun _ => 1) [0, 1] [2] = some (1, 2) := by decide +kernel

end Ex169

end Verif.Props
