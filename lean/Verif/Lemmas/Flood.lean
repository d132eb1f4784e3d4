import Mathlib.Order.Lattice
import Mathlib.Order.Basic
import Mathlib.Tactic.Ring
import Mathlib.Tactic.Linarith
import Verif.Spec.Flood
/-!
# Lemmas on flood filling
-/
namespace Verif
open Spec
variable {K : Type} [LinearOrder K] {M : FMesh K} {thr : K} {active : List Nat}

instance (c : Nat) : Decidable (Inside M thr c) := by unfold Inside; infer_instance

/-- number of cells inside without a number -/
def unvisited (M : FMesh K) (thr : K) (active : List Nat) (ids : Nat → Option Nat) : Nat :=
  active.countP (fun c => decide (Inside M thr c ∧ ids c = none))

/-- effect of flooding from the active cells `start` -/
structure FloodRes (M : FMesh K) (thr : K) (active : List Nat) (id : Nat) (start : Nat → Prop) (k : Nat)
    (s s' : FloodState K) : Prop where
  keep : ∀ b, s.ids b ≠ none → s'.ids b = s.ids b
  new : ∀ b, s.ids b = none → s'.ids b ≠ none → s'.ids b = some id ∧ Inside M thr b ∧ b ∈ active ∧
    ∃ a, start a ∧ Inside M thr a ∧ Connected M thr a b
  closed : ∀ b, s.ids b = none → s'.ids b ≠ none → ∀ b', Across M b b' → Inside M thr b' →
    s'.ids b' ≠ none
  done : ∀ a, start a → Inside M thr a → s'.ids a ≠ none
  maxge : s.maxv ≤ s'.maxv
  newmax : ∀ b, s.ids b = none → s'.ids b ≠ none → M.cellMax b ≤ s'.maxv
  maxeq : s'.maxv = s.maxv ∨ ∃ b, s.ids b = none ∧ s'.ids b ≠ none ∧ s'.maxv = M.cellMax b
  count : k + unvisited M thr active s'.ids = unvisited M thr active s.ids

theorem FloodRes.refl {id : Nat} {start : Nat → Prop} (s : FloodState K)
    (h : ∀ a, start a → Inside M thr a → s.ids a ≠ none) : FloodRes M thr active id start 0 s s :=
  ⟨fun _ _ => rfl, fun _ h1 h2 => absurd h1 h2, fun _ h1 h2 => absurd h1 h2, h, le_refl _,
    fun _ h1 h2 => absurd h1 h2, Or.inl rfl, by omega⟩

theorem FloodRes.trans {id k1 k2 : Nat} {p q : Nat → Prop} {s s1 s2 : FloodState K}
    (h1 : FloodRes M thr active id p k1 s s1) (h2 : FloodRes M thr active id q k2 s1 s2) :
    FloodRes M thr active id (fun a => p a ∨ q a) (k1 + k2) s s2 := by
  have kept : ∀ b, s1.ids b ≠ none → s2.ids b ≠ none := fun b hb => by rw [h2.keep b hb]; exact hb
  refine ⟨?_, ?_, ?_, ?_, le_trans h1.maxge h2.maxge, ?_, ?_, ?_⟩
  · intro b hb
    have e := h1.keep b hb
    rw [← e] at hb
    rw [h2.keep b hb, e]
  · intro b hb hb2
    by_cases h : s1.ids b = none
    · obtain ⟨n1, n2, n3, a, n4, n5, n6⟩ := h2.new b h hb2
      exact ⟨n1, n2, n3, a, Or.inr n4, n5, n6⟩
    · obtain ⟨n1, n2, n3, a, n4, n5, n6⟩ := h1.new b hb h
      exact ⟨by rw [h2.keep b h]; exact n1, n2, n3, a, Or.inl n4, n5, n6⟩
  · intro b hb hb2 b' hx hi
    by_cases h : s1.ids b = none
    · exact h2.closed b h hb2 b' hx hi
    · exact kept b' (h1.closed b hb h b' hx hi)
  · rintro a (ha | ha) hi
    · exact kept a (h1.done a ha hi)
    · exact h2.done a ha hi
  · intro b hb hb2
    by_cases h : s1.ids b = none
    · exact h2.newmax b h hb2
    · exact le_trans (h1.newmax b hb h) h2.maxge
  · rcases h2.maxeq with e | ⟨b, b1, b2, b3⟩
    · rcases h1.maxeq with e' | ⟨b, b1, b2, b3⟩
      · left; rw [e, e']
      · right; exact ⟨b, b1, kept b b2, by rw [e, b3]⟩
    · right
      refine ⟨b, ?_, b2, b3⟩
      by_contra hc
      exact hc (by
        have := h1.keep b hc
        rw [this] at b1
        exact b1)
  · have := h1.count
    have := h2.count
    omega

theorem FloodRes.weaken {id k : Nat} {p q : Nat → Prop} {s s' : FloodState K}
    (h : FloodRes M thr active id p k s s') (hpq : ∀ a, p a ↔ q a) :
    FloodRes M thr active id q k s s' :=
  ⟨h.keep, fun b h1 h2 => by
    obtain ⟨n1, n2, n3, a, n4, n5, n6⟩ := h.new b h1 h2
    exact ⟨n1, n2, n3, a, (hpq a).1 n4, n5, n6⟩, h.closed, fun a ha => h.done a ((hpq a).2 ha),
    h.maxge, h.newmax, h.maxeq, h.count⟩

omit [LinearOrder K] in
theorem leafOf_leaf {c a : Nat} (h : M.children c = []) : LeafOf M c a ↔ a = c := by
  constructor
  · intro hl
    cases hl with
    | leaf _ => rfl
    | child hc _ => rw [h] at hc; simp at hc
  · rintro rfl; exact .leaf h

omit [LinearOrder K] in
theorem leafOf_children {c a : Nat} (h : M.children c ≠ []) :
    LeafOf M c a ↔ ∃ d ∈ M.children c, LeafOf M d a := by
  constructor
  · intro hl
    cases hl with
    | leaf h' => exact absurd h' h
    | child hc hl => exact ⟨_, hc, hl⟩
  · rintro ⟨d, hd, hl⟩; exact .child hd hl

/-- the loop over several cells, given the statement for one -/
theorem flood_list {H : Nat} {height : Nat → Nat} {id fuel : Nat}
    (ih : ∀ c s, (∀ a, LeafOf M c a → a ∈ active) →
      unvisited M thr active s.ids * (H + 1) + height c < fuel →
      ∃ k s', flood M thr id fuel c s = some (k, s') ∧ FloodRes M thr active id (LeafOf M c) k s s') :
    ∀ (l : List Nat) (n : Nat) (s : FloodState K), (∀ c ∈ l, ∀ a, LeafOf M c a → a ∈ active) →
      (∀ c ∈ l, unvisited M thr active s.ids * (H + 1) + height c < fuel) →
      ∃ k s', l.foldlM (fun (p : Nat × FloodState K) ch =>
        (flood M thr id fuel ch p.2).map (fun q => (p.1 + q.1, q.2))) (n, s) = some (n + k, s') ∧
        FloodRes M thr active id (fun a => ∃ c ∈ l, LeafOf M c a) k s s'
  | [], n, s, _, _ => ⟨0, s, rfl, FloodRes.refl s (by rintro a ⟨c, hc, -⟩; simp at hc)⟩
  | c :: l, n, s, hact, hf => by
    obtain ⟨k1, s1, e1, r1⟩ := ih c s (hact c (by simp)) (hf c (by simp))
    have hle : unvisited M thr active s1.ids ≤ unvisited M thr active s.ids := by
      have := r1.count; omega
    obtain ⟨k2, s2, e2, r2⟩ := flood_list ih l (n + k1) s1 (fun d hd => hact d (by simp [hd])) (by
      intro d hd
      have h1 := hf d (by simp [hd])
      have h2 := Nat.mul_le_mul_right (H + 1) hle
      omega)
    refine ⟨k1 + k2, s2, ?_, ?_⟩
    · rw [List.foldlM_cons]
      simp only [e1, Option.map_some, Option.bind_eq_bind, Option.bind_some]
      rw [e2]
      simp [Nat.add_assoc]
    · refine (r1.trans r2).weaken (fun a => ?_)
      simp

theorem flood_ok {H : Nat} {height : Nat → Nat} (hM : MeshOk M active height H) (id : Nat) :
    ∀ (fuel : Nat) (c : Nat) (s : FloodState K), (∀ a, LeafOf M c a → a ∈ active) →
      unvisited M thr active s.ids * (H + 1) + height c < fuel →
      ∃ k s', flood M thr id fuel c s = some (k, s') ∧ FloodRes M thr active id (LeafOf M c) k s s'
  | 0, c, s, _, hf => by omega
  | fuel + 1, c, s, hact, hf => by
    have ih := flood_ok hM id fuel
    rw [flood]
    by_cases hch : M.children c = []
    · rw [if_neg (not_not.2 hch)]
      have hleaf := fun a => leafOf_leaf (M := M) (a := a) hch
      have hca : c ∈ active := hact c ((hleaf c).2 rfl)
      by_cases hin : Inside M thr c ∧ s.ids c = none
      · obtain ⟨⟨i1, i2, i3⟩, i4⟩ := hin
        rw [if_neg (by simp [i2]), if_neg (by simp [i4]), if_neg (by simpa using i3)]
        -- marking `c`
        set s1 : FloodState K := ⟨fun b => if b = c then some id else s.ids b,
          max s.maxv (M.cellMax c)⟩ with hs1
        have hunv : 1 + unvisited M thr active s1.ids = unvisited M thr active s.ids := by
          have aux : ∀ l : List Nat, l.Nodup → l.countP (fun x => decide (Inside M thr x ∧ s.ids x = none)) =
              l.countP (fun x => decide (Inside M thr x ∧ s1.ids x = none)) + (if c ∈ l then 1 else 0) := by
            intro l hl
            induction l with
            | nil => simp
            | cons x l ihl =>
              rw [List.nodup_cons] at hl
              rw [List.countP_cons, List.countP_cons, ihl hl.2]
              by_cases hx : x = c
              · subst hx
                have e1 : decide (Inside M thr x ∧ s.ids x = none) = true := by
                  simp only [decide_eq_true_eq]; exact ⟨⟨i1, i2, i3⟩, i4⟩
                have e2 : decide (Inside M thr x ∧ s1.ids x = none) = false := by
                  simp [hs1]
                rw [e1, e2]
                simp [hl.1]
              · have e1 : decide (Inside M thr x ∧ s1.ids x = none) =
                    decide (Inside M thr x ∧ s.ids x = none) := by
                  simp [hs1, hx]
                rw [e1]
                have e3 : (c ∈ x :: l) ↔ c ∈ l := by
                  simp [Ne.symm hx]
                simp only [e3]
                omega
          have := aux active hM.nodup
          rw [if_pos hca] at this
          unfold unvisited
          omega
        have hlist := flood_list (H := H) (height := height) ih (M.nbrs c) 1 s1
          (fun d hd a ha => hM.reach c hca a ⟨d, hd, ha⟩) (by
            intro d hd
            have h1 := hM.bound d
            have h2 : unvisited M thr active s.ids * (H + 1) =
                (H + 1) + unvisited M thr active s1.ids * (H + 1) := by
              rw [← hunv]; ring
            omega)
        obtain ⟨k, s2, e2, r2⟩ := hlist
        refine ⟨1 + k, s2, e2, ?_⟩
        have hInC : Inside M thr c := ⟨i1, i2, i3⟩
        have c1 : s1.ids c ≠ none := by simp [hs1]
        have c2 : s2.ids c = some id := by rw [r2.keep c c1]; simp [hs1]
        have hne : ∀ b, b ≠ c → s1.ids b = s.ids b := fun b hb => by simp [hs1, hb]
        refine ⟨?_, ?_, ?_, ?_, ?_, ?_, ?_, ?_⟩
        · intro b hb
          have hbc : b ≠ c := fun h => hb (by rw [h]; exact i4)
          have h1 := hne b hbc
          rw [← h1] at hb ⊢
          exact r2.keep b hb
        · intro b hb hb2
          by_cases hbc : b = c
          · subst hbc
            exact ⟨c2, hInC, hca, b, (hleaf b).2 rfl, hInC, .refl⟩
          · rw [← hne b hbc] at hb
            obtain ⟨n1, n2, n3, a, ⟨d, hd, hl⟩, n5, n6⟩ := r2.new b hb hb2
            refine ⟨n1, n2, n3, c, (hleaf c).2 rfl, hInC, ?_⟩
            exact Relation.ReflTransGen.head ⟨⟨d, hd, hl⟩, n5⟩ n6
        · intro b hb hb2 b' hx hi
          by_cases hbc : b = c
          · subst hbc
            obtain ⟨d, hd, hl⟩ := hx
            exact r2.done b' ⟨d, hd, hl⟩ hi
          · rw [← hne b hbc] at hb
            exact r2.closed b hb hb2 b' hx hi
        · intro a ha _
          rw [(hleaf a).1 ha, c2]; simp
        · exact le_trans (le_max_left _ _) r2.maxge
        · intro b hb hb2
          by_cases hbc : b = c
          · subst hbc
            exact le_trans (le_max_right _ _) r2.maxge
          · rw [← hne b hbc] at hb
            exact r2.newmax b hb hb2
        · rcases r2.maxeq with e | ⟨b, b1, b2, b3⟩
          · rw [e]
            simp only [hs1]
            rcases max_choice s.maxv (M.cellMax c) with h | h
            · left; exact h
            · right; exact ⟨c, i4, by rw [c2]; simp, h⟩
          · right
            have hbc : b ≠ c := fun h => c1 (by rw [← h]; exact b1)
            exact ⟨b, by rw [← hne b hbc]; exact b1, b2, b3⟩
        · have := r2.count
          omega
      · have hdone : ∀ a, LeafOf M c a → Inside M thr a → s.ids a ≠ none := by
          intro a ha hi hn
          rw [(hleaf a).1 ha] at hi hn
          exact hin ⟨hi, hn⟩
        have hr := FloodRes.refl (active := active) (id := id) s hdone
        by_cases h1 : M.owned c = false
        · rw [if_pos h1]; exact ⟨0, s, rfl, hr⟩
        · rw [if_neg h1]
          by_cases h2 : (s.ids c).isSome = true
          · rw [if_pos h2]; exact ⟨0, s, rfl, hr⟩
          · rw [if_neg h2]
            by_cases h3 : ¬ (M.cellMax c > thr)
            · rw [if_pos h3]; exact ⟨0, s, rfl, hr⟩
            · exfalso
              apply hin
              refine ⟨⟨hch, ?_, ?_⟩, ?_⟩
              · simpa using h1
              · simpa using h3
              · simpa using h2
    · rw [if_pos hch]
      obtain ⟨k, s', e, r⟩ := flood_list (H := H) (height := height) ih (M.children c) 0 s
        (fun d hd a ha => hact a (.child hd ha)) (by
          intro d hd
          have := hM.depth c d hd
          omega)
      refine ⟨k, s', by simpa using e, r.weaken (fun a => (leafOf_children hch).symm)⟩


theorem countP_lt {l : List Nat} {p q : Nat → Bool} (h : ∀ x ∈ l, p x = true → q x = true) {x : Nat}
    (hx : x ∈ l) (hq : q x = true) (hp : p x = false) : l.countP p < l.countP q := by
  induction l with
  | nil => simp at hx
  | cons y l ih =>
    have hle : l.countP p ≤ l.countP q :=
      List.countP_mono_left (fun z hz => h z (by simp [hz]))
    rw [List.countP_cons, List.countP_cons]
    rcases List.mem_cons.1 hx with rfl | hx
    · simp [hq, hp]; omega
    · have := ih (fun z hz => h z (by simp [hz])) hx
      have hy : (if p y = true then 1 else 0) ≤ (if q y = true then 1 else 0) := by
        by_cases hpy : p y = true
        · simp [hpy, h y (by simp) hpy]
        · simp [hpy]
      omega

theorem FloodRes.pos_iff {id k : Nat} {p : Nat → Prop} {s s' : FloodState K}
    (h : FloodRes M thr active id p k s s') : 0 < k ↔ ∃ b, s.ids b = none ∧ s'.ids b ≠ none := by
  have hc := h.count
  constructor
  · intro hk
    by_contra hno
    have heq : unvisited M thr active s'.ids = unvisited M thr active s.ids := by
      unfold unvisited
      apply List.countP_congr
      intro x _
      simp only [decide_eq_true_eq]
      refine and_congr_right (fun _ => ⟨fun h2 => ?_, fun h2 => ?_⟩)
      · by_contra h3
        rw [h.keep x h3] at h2; exact h3 h2
      · by_contra h3
        exact hno ⟨x, h2, h3⟩
    omega
  · rintro ⟨b, b1, b2⟩
    obtain ⟨-, n2, n3, -⟩ := h.new b b1 b2
    have : unvisited M thr active s'.ids < unvisited M thr active s.ids := by
      unfold unvisited
      refine countP_lt (x := b) ?_ n3 ?_ ?_
      · intro x _ hx
        simp only [decide_eq_true_eq] at hx ⊢
        refine ⟨hx.1, ?_⟩
        by_contra h3
        rw [h.keep x h3] at hx; exact h3 hx.2
      · simp only [decide_eq_true_eq]; exact ⟨n2, b1⟩
      · simp [b2]
    omega

/-- loop invariant of the detection -/
structure FloodInv (M : FMesh K) (thr lowest : K) (active : List Nat) (pre : List Nat)
    (r : LocalParticles K × K) : Prop where
  low : r.2 = lowest
  ids : ∀ c, r.1.ids c ≠ none → Inside M thr c ∧ c ∈ active ∧ ∃ k < r.1.maxs.length, r.1.ids c = some k
  closed : ∀ b b', r.1.ids b ≠ none → Across M b b' → Inside M thr b' → r.1.ids b' ≠ none
  done : ∀ c ∈ pre, Inside M thr c → r.1.ids c ≠ none
  start : ∀ k < r.1.maxs.length, ∃ a, r.1.ids a = some k ∧
    ∀ c, r.1.ids c = some k → Connected M thr a c
  maxs : ∀ (k : Nat) (m : K), r.1.maxs[k]? = some m →
    (∃ c, r.1.ids c = some k ∧ M.cellMax c = m) ∧ ∀ c, r.1.ids c = some k → M.cellMax c ≤ m

theorem detectStep_ok {H : Nat} {height : Nat → Nat} {lowest : K} (hM : MeshOk M active height H)
    (hlow : ∀ c, Inside M thr c → lowest ≤ M.cellMax c) {fuel : Nat}
    (hf : active.length * (H + 1) + H < fuel) {pre : List Nat} {c : Nat} (hc : c ∈ active)
    {r : LocalParticles K × K} (hI : FloodInv M thr lowest active pre r) :
    ∃ r' k, detectStep M thr lowest fuel r c = some r' ∧ FloodInv M thr lowest active (pre ++ [c]) r' ∧
      ∃ mv, FloodRes M thr active r.1.maxs.length (LeafOf M c) k ⟨r.1.ids, r.2⟩ ⟨r'.1.ids, mv⟩ := by
  have hleaf := fun a => leafOf_leaf (M := M) (a := a) (hM.leaves c hc)
  obtain ⟨k, s', e, F⟩ := flood_ok (thr := thr) hM r.1.maxs.length fuel c ⟨r.1.ids, r.2⟩
    (fun a ha => by rw [(hleaf a).1 ha]; exact hc) (by
      have h1 : unvisited M thr active r.1.ids ≤ active.length := List.countP_le_length
      have h2 := Nat.mul_le_mul_right (H + 1) h1
      have h3 := hM.bound c
      simp only
      omega)
  have hnewlow : ∀ b, r.1.ids b = none → s'.ids b ≠ none → lowest ≤ M.cellMax b :=
    fun b h1 h2 => hlow b (F.new b h1 h2).2.1
  have hids : ∀ b, r.1.ids b ≠ none → s'.ids b = r.1.ids b := F.keep
  have hclosed : ∀ b b', s'.ids b ≠ none → Across M b b' → Inside M thr b' → s'.ids b' ≠ none := by
    intro b b' hb hx hi
    by_cases h : r.1.ids b = none
    · exact F.closed b h hb b' hx hi
    · have := hI.closed b b' h hx hi
      rw [hids b' this]; exact this
  have hdone : ∀ x ∈ pre ++ [c], Inside M thr x → s'.ids x ≠ none := by
    intro x hx hi
    rcases List.mem_append.1 hx with h | h
    · have := hI.done x h hi
      rw [hids x this]; exact this
    · simp at h; subst h
      exact F.done x ((hleaf x).2 rfl) hi
  unfold detectStep
  rw [e]
  simp only [Option.map_some]
  by_cases hk : k > 0
  · rw [if_pos hk]
    refine ⟨_, k, rfl, ?_, s'.maxv, F⟩
    obtain ⟨b0, n1, n2⟩ := F.pos_iff.1 hk
    have hmax0 : ∃ b, r.1.ids b = none ∧ s'.ids b ≠ none ∧ s'.maxv = M.cellMax b := by
      rcases F.maxeq with h | h
      · refine ⟨b0, n1, n2, le_antisymm ?_ (F.newmax b0 n1 n2)⟩
        rw [h]
        simp only [hI.low]
        exact hnewlow b0 n1 n2
      · exact h
    have hold : ∀ b j, j ≠ r.1.maxs.length → (s'.ids b = some j ↔ r.1.ids b = some j) := by
      intro b j hj
      by_cases h : r.1.ids b = none
      · constructor
        · intro h'
          have := (F.new b h (by rw [h']; simp)).1
          rw [h'] at this; simp at this; exact absurd this hj
        · intro h'; rw [h] at h'; simp at h'
      · rw [hids b h]
    have hnew : ∀ b, s'.ids b = some r.1.maxs.length → r.1.ids b = none := by
      intro b h
      by_contra h'
      obtain ⟨-, -, j, hj, hj2⟩ := hI.ids b h'
      rw [hids b h', hj2] at h
      simp at h; omega
    refine ⟨rfl, ?_, hclosed, hdone, ?_, ?_⟩
    · intro x hx
      simp only [List.length_append, List.length_singleton]
      by_cases h : r.1.ids x = none
      · obtain ⟨m1, m2, m3, -⟩ := F.new x h hx
        exact ⟨m2, m3, r.1.maxs.length, by omega, m1⟩
      · obtain ⟨m1, m2, j, m3, m4⟩ := hI.ids x h
        exact ⟨m1, m2, j, by omega, by simp only [hids x h]; exact m4⟩
    · intro j hj
      simp only [List.length_append, List.length_singleton] at hj
      by_cases hj' : j = r.1.maxs.length
      · subst hj'
        obtain ⟨-, -, -, a, a1, a2, -⟩ := F.new b0 n1 n2
        have hac := (hleaf a).1 a1
        subst hac
        have hsa : r.1.ids a = none := by
          by_contra h
          -- then everything reachable from `a` was visited before
          have hreach : ∀ y, Connected M thr a y → r.1.ids y ≠ none := by
            intro y hy
            induction hy with
            | refl => exact h
            | tail _ hstep ih => exact hI.closed _ _ ih hstep.1 hstep.2
          obtain ⟨-, -, -, a', a1', -, a3'⟩ := F.new b0 n1 n2
          rw [(hleaf a').1 a1'] at a3'
          exact hreach b0 a3' n1
        refine ⟨a, (F.new a hsa (F.done a a1 a2)).1, ?_⟩
        intro x hx
        obtain ⟨-, -, -, a', a1', -, a3'⟩ := F.new x (hnew x hx) (by simp only at hx; rw [hx]; simp)
        rw [(hleaf a').1 a1'] at a3'
        exact a3'
      · obtain ⟨a, a1, a2⟩ := hI.start j (by omega)
        exact ⟨a, (hold a j hj').2 a1, fun x hx => a2 x ((hold x j hj').1 hx)⟩
    · intro j m hm
      by_cases hj' : j = r.1.maxs.length
      · subst hj'
        simp at hm
        subst hm
        obtain ⟨b, b1, b2, b3⟩ := hmax0
        exact ⟨⟨b, (F.new b b1 b2).1, b3.symm⟩, fun x hx => F.newmax x (hnew x hx)
          (by simp only at hx; rw [hx]; simp)⟩
      · have hlt : j < r.1.maxs.length := by
          have := (List.getElem?_eq_some_iff.1 hm).1
          simp at this; omega
        simp only at hm
        rw [List.getElem?_append_left hlt] at hm
        obtain ⟨⟨x, x1, x2⟩, x3⟩ := hI.maxs j m hm
        exact ⟨⟨x, (hold x j hj').2 x1, x2⟩, fun y hy => x3 y ((hold y j hj').1 hy)⟩
  · rw [if_neg hk]
    refine ⟨_, k, rfl, ?_, s'.maxv, F⟩
    have hno : ∀ b, r.1.ids b = none → s'.ids b = none := by
      intro b h
      by_contra h'
      exact hk (F.pos_iff.2 ⟨b, h, h'⟩)
    have heq : s'.ids = r.1.ids := by
      funext b
      by_cases h : r.1.ids b = none
      · rw [h, hno b h]
      · exact hids b h
    have hmv : s'.maxv = r.2 := by
      rcases F.maxeq with h | ⟨b, b1, b2, -⟩
      · exact h
      · exact absurd (hno b b1) b2
    refine ⟨by simp only [hmv]; exact hI.low, ?_, hclosed, hdone, ?_, ?_⟩
    · simp only [heq]; exact hI.ids
    · simp only [heq]; exact hI.start
    · simp only [heq]; exact hI.maxs

/-- the whole loop; `Q` is any further property kept by one flooding -/
theorem detectLocal_ok {H : Nat} {height : Nat → Nat} {lowest : K} (hM : MeshOk M active height H)
    (hlow : ∀ c, Inside M thr c → lowest ≤ M.cellMax c) {fuel : Nat}
    (hf : active.length * (H + 1) + H < fuel) (Q : (Nat → Option Nat) → Prop)
    (hQ0 : Q (fun _ => none))
    (hQ : ∀ r r' : LocalParticles K × K, ∀ pre c k mv, FloodInv M thr lowest active pre r → Q r.1.ids →
      FloodRes M thr active r.1.maxs.length (LeafOf M c) k ⟨r.1.ids, r.2⟩ ⟨r'.1.ids, mv⟩ →
      Q r'.1.ids) :
    ∃ r, detectLocal M thr lowest fuel active = some r ∧ FloodInv M thr lowest active active (r, lowest) ∧
      Q r.ids := by
  have aux : ∀ (l pre : List Nat) (r : LocalParticles K × K), (∀ c ∈ l, c ∈ active) →
      FloodInv M thr lowest active pre r → Q r.1.ids →
      ∃ r', l.foldlM (detectStep M thr lowest fuel) r = some r' ∧
        FloodInv M thr lowest active (pre ++ l) r' ∧ Q r'.1.ids := by
    intro l
    induction l with
    | nil => intro pre r _ hI hq; exact ⟨r, rfl, by simpa using hI, hq⟩
    | cons c l ih =>
      intro pre r hl hI hq
      obtain ⟨r1, k, e1, I1, mv, F⟩ := detectStep_ok hM hlow hf (hl c (by simp)) hI
      have hq1 := hQ r r1 pre c k mv hI hq F
      obtain ⟨r2, e2, I2, q2⟩ := ih (pre ++ [c]) r1 (fun d hd => hl d (by simp [hd])) I1 hq1
      refine ⟨r2, ?_, by simpa using I2, q2⟩
      rw [List.foldlM_cons, e1]
      exact e2
  obtain ⟨r', e, I, q⟩ := aux active [] (⟨fun _ => none, []⟩, lowest) (fun _ h => h)
    ⟨rfl, by simp, by simp, by simp, by simp, by simp⟩ hQ0
  refine ⟨r'.1, by unfold detectLocal; rw [e]; rfl, ?_, q⟩
  simp only [List.nil_append] at I
  have h2 := I.low
  have : r' = (r'.1, lowest) := by rw [← h2]
  rw [this] at I
  exact I

end Verif
