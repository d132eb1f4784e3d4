import Mathlib.Data.List.Basic
import Mathlib.Data.List.Perm.Subperm
import Mathlib.Data.List.Nodup
import Mathlib.Data.Nat.Find
import Verif.Model.Reassign
/-!
# Lemmas on `reassign_grains`
-/
namespace Verif
variable {P K : Type}

/-! ## sets -/

theorem mem_sinsert {a x : Nat} : ∀ {l : List Nat}, x ∈ sinsert a l ↔ x = a ∨ x ∈ l
  | [] => by simp [sinsert]
  | b :: l => by
    rw [sinsert]
    split
    · simp
    · split
      · rename_i h; subst h; simp
      · simp only [List.mem_cons, mem_sinsert (l := l)]
        constructor
        · rintro (h | h | h) <;> simp [h]
        · rintro (h | h | h) <;> simp [h]

theorem sorted_sinsert {a : Nat} : ∀ {l : List Nat}, l.Pairwise (· < ·) →
    (sinsert a l).Pairwise (· < ·)
  | [], _ => by simp [sinsert]
  | b :: l, h => by
    rw [List.pairwise_cons] at h
    rw [sinsert]
    split
    · rename_i hab
      refine List.pairwise_cons.2 ⟨?_, List.pairwise_cons.2 h⟩
      intro x hx
      rcases List.mem_cons.1 hx with rfl | hx
      · exact hab
      · exact Nat.lt_trans hab (h.1 x hx)
    · split
      · exact List.pairwise_cons.2 h
      · refine List.pairwise_cons.2 ⟨?_, sorted_sinsert h.2⟩
        intro x hx
        rcases mem_sinsert.1 hx with rfl | hx
        · omega
        · exact h.1 x hx

theorem length_sinsert_le {a : Nat} : ∀ {l : List Nat}, (sinsert a l).length ≤ l.length + 1
  | [] => by simp [sinsert]
  | b :: l => by
    rw [sinsert]
    split
    · simp
    · split
      · simp
      · have := length_sinsert_le (a := a) (l := l)
        simp; omega

/-- two ascending lists with the same members are equal -/
theorem sorted_ext : ∀ {l l' : List Nat}, l.Pairwise (· < ·) → l'.Pairwise (· < ·) →
    (∀ a, a ∈ l ↔ a ∈ l') → l = l'
  | [], [], _, _, _ => rfl
  | [], b :: l', _, _, h => by have := (h b).2 (by simp); simp at this
  | b :: l, [], _, _, h => by have := (h b).1 (by simp); simp at this
  | a :: l, b :: l', h1, h2, h => by
    rw [List.pairwise_cons] at h1 h2
    have hab : a = b := by
      have x1 := (h a).1 (by simp)
      have x2 := (h b).2 (by simp)
      rcases List.mem_cons.1 x1 with x1 | x1
      · exact x1
      · rcases List.mem_cons.1 x2 with x2 | x2
        · exact x2.symm
        · have := h1.1 b x2; have := h2.1 a x1; omega
    subst hab
    congr 1
    refine sorted_ext h1.2 h2.2 (fun x => ?_)
    have := h x
    simp only [List.mem_cons] at this
    constructor
    · intro hx
      rcases this.1 (Or.inr hx) with e | e
      · have := h1.1 x hx; omega
      · exact e
    · intro hx
      rcases this.2 (Or.inr hx) with e | e
      · have := h2.1 x hx; omega
      · exact e

theorem range_sorted (k : Nat) : (List.range k).Pairwise (· < ·) := List.pairwise_lt_range

/-- the `i`-th element of an ascending list is at least `i` -/
theorem le_getElem_sorted : ∀ {l : List Nat}, l.Pairwise (· < ·) → ∀ (i : Nat) (h : i < l.length),
    i ≤ l[i] := by
  intro l hl i
  induction i with
  | zero => intro _; exact Nat.zero_le _
  | succ i ih =>
    intro h
    have h1 := ih (by omega)
    have h2 := List.pairwise_iff_getElem.1 hl i (i+1) (by omega) h (by omega)
    omega

/-- in an ascending list consecutive elements differ by at least one -/
theorem getElem_gap_sorted {l : List Nat} (hl : l.Pairwise (· < ·)) (i : Nat) :
    ∀ (d : Nat) (h : i + d < l.length), l[i] + d ≤ l[i + d] := by
  intro d
  induction d with
  | zero => intro h; simp
  | succ d ih =>
    intro h
    have h1 := ih (by omega)
    have h2 := List.pairwise_iff_getElem.1 hl (i+d) (i+(d+1)) (by omega) h (by omega)
    omega

theorem last_ge_sorted {l : List Nat} (hl : l.Pairwise (· < ·)) {m : Nat}
    (hm : l.getLast? = some m) : l.length ≤ m + 1 := by
  rw [List.getLast?_eq_getElem?] at hm
  obtain ⟨h, he⟩ := List.getElem?_eq_some_iff.1 hm
  have := le_getElem_sorted hl _ h
  omega

theorem last_eq_range {l : List Nat} (hl : l.Pairwise (· < ·)) {m : Nat}
    (hm : l.getLast? = some m) (he : m + 1 ≤ l.length) : l = List.range l.length := by
  rw [List.getLast?_eq_getElem?] at hm
  obtain ⟨h, hv⟩ := List.getElem?_eq_some_iff.1 hm
  apply List.ext_getElem (by simp)
  intro i h1 h2
  have a := le_getElem_sorted hl i h1
  have b := getElem_gap_sorted hl i (l.length - 1 - i) (by omega)
  have e : i + (l.length - 1 - i) = l.length - 1 := by omega
  simp only [e] at b
  simp
  omega

/-! ## active order parameters -/

theorem extractActive_aux (gs : OMap (Grain P K)) : ∀ (s : List Nat), s.Pairwise (· < ·) →
    (gs.foldl (fun s p => sinsert p.2.op s) s).Pairwise (· < ·) ∧
    ∀ a, a ∈ gs.foldl (fun s p => sinsert p.2.op s) s ↔ a ∈ s ∨ ∃ p ∈ gs, p.2.op = a := by
  induction gs with
  | nil => intro s hs; simp [hs]
  | cons p gs ih =>
    intro s hs
    obtain ⟨h1, h2⟩ := ih (sinsert p.2.op s) (sorted_sinsert hs)
    refine ⟨h1, fun a => ?_⟩
    rw [List.foldl_cons, h2, mem_sinsert]
    simp only [List.mem_cons, exists_eq_or_imp]
    constructor
    · rintro ((h | h) | h)
      · exact Or.inr (Or.inl h.symm)
      · exact Or.inl h
      · exact Or.inr (Or.inr h)
    · rintro (h | h | h)
      · exact Or.inl (Or.inr h)
      · exact Or.inl (Or.inl h.symm)
      · exact Or.inr h

theorem sorted_extractActive (gs : OMap (Grain P K)) : (extractActive gs).Pairwise (· < ·) :=
  (extractActive_aux gs [] List.Pairwise.nil).1

theorem mem_extractActive {gs : OMap (Grain P K)} {a : Nat} :
    a ∈ extractActive gs ↔ ∃ p ∈ gs, p.2.op = a := by
  have := (extractActive_aux gs [] List.Pairwise.nil).2 a
  simpa [extractActive] using this

theorem opAt_of_getElem? {gs : OMap (Grain P K)} {i : Nat} {p : Nat × Grain P K}
    (h : gs[i]? = some p) : opAt gs i = p.2.op := by simp [opAt, h]

theorem mem_extractActive' {gs : OMap (Grain P K)} {a : Nat} :
    a ∈ extractActive gs ↔ ∃ i, i < gs.length ∧ opAt gs i = a := by
  rw [mem_extractActive]
  constructor
  · rintro ⟨p, hp, rfl⟩
    obtain ⟨i, hi⟩ := List.mem_iff_getElem?.1 hp
    exact ⟨i, (List.getElem?_eq_some_iff.1 hi).1, opAt_of_getElem? hi⟩
  · rintro ⟨i, hi, rfl⟩
    exact ⟨gs[i], List.getElem_mem _, by rw [opAt_of_getElem? (List.getElem?_eq_getElem hi)]⟩

/-! ## assignment of colours -/

theorem getElem?_setOps (c : Nat → Nat) (gs : OMap (Grain P K)) (i : Nat) :
    (setOps c gs)[i]? = (gs[i]?).map (fun p => (p.1, { p.2 with op := c i })) := by
  simp [setOps, List.getElem?_mapIdx]

@[simp] theorem length_setOps (c : Nat → Nat) (gs : OMap (Grain P K)) :
    (setOps c gs).length = gs.length := by simp [setOps]

theorem opAt_setOps (c : Nat → Nat) (gs : OMap (Grain P K)) {i : Nat} (h : i < gs.length) :
    opAt (setOps c gs) i = c i := by
  unfold opAt
  rw [getElem?_setOps, List.getElem?_eq_getElem h]
  rfl

theorem setOps_opAt (gs : OMap (Grain P K)) : setOps (opAt gs) gs = gs := by
  apply List.ext_getElem?
  intro i
  rw [getElem?_setOps]
  by_cases h : i < gs.length
  · rw [List.getElem?_eq_getElem h]
    simp [opAt_of_getElem? (List.getElem?_eq_getElem h)]
  · simp [List.getElem?_eq_none (Nat.le_of_not_lt h)]

theorem changesOps_false {c : Nat → Nat} {gs : OMap (Grain P K)} :
    changesOps c gs = false ↔ ∀ i, i < gs.length → opAt gs i = c i := by
  simp [changesOps]

theorem keys_setOps (c : Nat → Nat) (gs : OMap (Grain P K)) :
    OMap.keys (setOps c gs) = OMap.keys gs := by
  apply List.ext_getElem?
  intro i
  simp [OMap.keys, getElem?_setOps, Option.map_map, Function.comp_def]

/-! ## overlap graph -/
section
variable [Field K] [LinearOrder K] {G : Geometry P K} {cfg : ReassignCfg K}

theorem ovPair_lt {gs : OMap (Grain P K)} {i j : Nat} (h : ovPair G cfg gs i j = true) :
    i < j ∧ j < gs.length := by
  unfold ovPair at h
  split at h
  · rename_i a b h1 h2
    simp at h
    exact ⟨h.1, (List.getElem?_eq_some_iff.1 h2).1⟩
  · simp at h

theorem mem_spRow {gs : OMap (Grain P K)} {i j : Nat} : j ∈ spRow G cfg gs i ↔
    j < gs.length ∧ (ovPair G cfg gs i j = true ∨ ovPair G cfg gs j i = true ∨
      (cfg.diag = true ∧ i = j)) := by
  simp [spRow, or_assoc]

theorem spRow_symm {gs : OMap (Grain P K)} {i j : Nat} (h : j ∈ spRow G cfg gs i) :
    j < gs.length ∧ i < gs.length ∧ i ∈ spRow G cfg gs j := by
  rw [mem_spRow] at h
  have hi : i < gs.length := by
    rcases h.2 with h' | h' | h'
    · have := ovPair_lt h'; omega
    · have := ovPair_lt h'; omega
    · rw [h'.2]; exact h.1
  refine ⟨h.1, hi, mem_spRow.2 ⟨hi, ?_⟩⟩
  rcases h.2 with h' | h' | h'
  · exact Or.inr (Or.inl h')
  · exact Or.inl h'
  · exact Or.inr (Or.inr ⟨h'.1, h'.2.symm⟩)

theorem mem_candidates {gs : OMap (Grain P K)} {j : Nat} : j ∈ candidates G cfg gs ↔
    j < gs.length ∧ ∃ i, ovPair G cfg gs i j = true ∧ opAt gs i = opAt gs j := by
  simp only [candidates, List.mem_filter, List.mem_range, List.any_eq_true, Bool.and_eq_true,
    beq_iff_eq]
  constructor
  · rintro ⟨h, i, hi, h1, h2⟩; exact ⟨h, i, h1, h2⟩
  · rintro ⟨h, i, h1, h2⟩
    have := ovPair_lt h1
    exact ⟨h, i, by omega, h1, h2⟩

theorem nodup_candidates (gs : OMap (Grain P K)) : (candidates G cfg gs).Nodup :=
  List.Nodup.filter _ List.nodup_range

/-- safety of a colouring of the overlap graph -/
def SafeCol (G : Geometry P K) (cfg : ReassignCfg K) (gs : OMap (Grain P K)) (c : Nat → Nat) : Prop :=
  ∀ i j, ovPair G cfg gs i j = true → c i ≠ c j

theorem safe_of_no_candidates {gs : OMap (Grain P K)} (h : candidates G cfg gs = []) :
    SafeCol G cfg gs (opAt gs) := by
  intro i j hij he
  have : j ∈ candidates G cfg gs := mem_candidates.2 ⟨(ovPair_lt hij).2, i, hij, he⟩
  rw [h] at this; simp at this

theorem safe_of_no_conflict {gs : OMap (Grain P K)} {c : Nat → Nat}
    (h : anyConflict (spRow G cfg gs) gs.length c = false) : SafeCol G cfg gs c := by
  intro i j hij he
  simp only [anyConflict, List.any_eq_false, List.mem_range, List.any_eq_true, not_exists, not_and,
    beq_iff_eq] at h
  have := ovPair_lt hij
  exact h i (by omega) j (mem_spRow.2 ⟨this.2, Or.inl hij⟩) he

/-! ## fast pass -/

/-- what the fast pass maintains while candidates `rs` are still to be processed -/
structure FastInv (n : Nat) (rs : List Nat) (s : FastState) : Prop where
  sorted : s.active.Pairwise (· < ·)
  num : s.active.length ≤ s.nOps
  used : ∀ i, i < n → s.prov i ∈ s.active
  kept : ∀ a ∈ s.active, ∃ i, i < n ∧ i ∉ rs ∧ s.prov i = a

theorem fastLoop_inv {row : Nat → List Nat} {mx n : Nat} : ∀ (rs : List Nat) (s : FastState),
    rs.Nodup → (∀ r ∈ rs, r < n) → FastInv n rs s → (fastLoop row mx rs s).full = false →
    s.full = false → FastInv n [] (fastLoop row mx rs s)
  | [], s, _, _, h, _, _ => h
  | r :: rs, s, hnd, hlt, h, hf, hf0 => by
    rw [List.nodup_cons] at hnd
    rw [fastLoop] at hf ⊢
    split
    · rename_i c _ hc
      simp only [hc] at hf
      have hca : c ∈ s.active := by
        have : c ∈ s.active.filter (fun c => !((row r).any (fun j => s.prov j == c))) := by
          rw [hc]; simp
        exact (List.mem_filter.1 this).1
      refine fastLoop_inv rs _ hnd.2 (fun r hr => hlt r (by simp [hr])) ⟨h.sorted, h.num, ?_, ?_⟩
        hf hf0
      · intro i hi
        by_cases hir : i = r
        · simp [hir, hca]
        · simp [hir, h.used i hi]
      · intro a ha
        obtain ⟨i, h1, h2, h3⟩ := h.kept a ha
        simp only [List.mem_cons, not_or] at h2
        exact ⟨i, h1, h2.2, by simp [h2.1, h3]⟩
    · rename_i hc
      simp only [hc] at hf
      dsimp only at hf ⊢
      split at hf
      · simp at hf
      · rename_i hm
        rw [if_neg hm]
        refine fastLoop_inv rs _ hnd.2 (fun r hr => hlt r (by simp [hr]))
          ⟨sorted_sinsert h.sorted, ?_, ?_, ?_⟩ hf hf0
        · have := length_sinsert_le (a := s.nOps) (l := s.active)
          have := h.num
          simp only; omega
        · intro i hi
          by_cases hir : i = r
          · simp [hir, mem_sinsert]
          · simp [hir, mem_sinsert, h.used i hi]
        · intro a ha
          simp only [mem_sinsert] at ha
          rcases ha with rfl | ha
          · exact ⟨r, hlt r (by simp), hnd.1, by simp⟩
          · obtain ⟨i, h1, h2, h3⟩ := h.kept a ha
            simp only [List.mem_cons, not_or] at h2
            exact ⟨i, h1, h2.2, by simp [h2.1, h3]⟩

/-- the fast pass gives up instead of exceeding the limit -/
theorem fastLoop_limit {row : Nat → List Nat} {mx : Nat} : ∀ (rs : List Nat) (s : FastState),
    s.nOps ≤ mx → (fastLoop row mx rs s).full = false → (fastLoop row mx rs s).nOps ≤ mx
  | [], s, h, _ => h
  | r :: rs, s, h, hf => by
    rw [fastLoop] at hf ⊢
    split
    · rename_i c _ hc
      simp only [hc] at hf
      exact fastLoop_limit rs _ h hf
    · rename_i hc
      simp only [hc] at hf
      dsimp only at hf ⊢
      split at hf
      · simp at hf
      · rename_i hm
        rw [if_neg hm]
        exact fastLoop_limit rs _ (by simp only; omega) hf

/-- gap-free active sets stay gap-free in the fast pass -/
theorem fastLoop_range {row : Nat → List Nat} {mx : Nat} : ∀ (rs : List Nat) (s : FastState),
    s.active = List.range s.nOps →
    (fastLoop row mx rs s).active = List.range (fastLoop row mx rs s).nOps
  | [], s, h => h
  | r :: rs, s, h => by
    rw [fastLoop]
    have hr : sinsert s.nOps s.active = List.range (s.nOps + 1) := by
      apply sorted_ext (sorted_sinsert (by rw [h]; exact range_sorted _)) (range_sorted _)
      intro a
      rw [mem_sinsert, h]; simp; omega
    split
    · exact fastLoop_range rs _ h
    · dsimp only
      split
      · exact hr
      · exact fastLoop_range rs _ hr

theorem fastInv_init {gs : OMap (Grain P K)} {rs : List Nat}
    (hrs : ∀ r, r ∈ rs ↔ r ∈ candidates G cfg gs) :
    FastInv gs.length rs (FastState.mk (opAt gs) (extractActive gs) (extractActive gs).length false) := by
  refine ⟨sorted_extractActive gs, Nat.le_refl _, ?_, ?_⟩
  · intro i hi
    exact mem_extractActive'.2 ⟨i, hi, rfl⟩
  · intro a ha
    have hex : ∃ i, i < gs.length ∧ opAt gs i = a := mem_extractActive'.1 ha
    classical
    -- the first grain with this order parameter is not a candidate
    have := Nat.find_spec hex
    refine ⟨Nat.find hex, this.1, ?_, this.2⟩
    intro hc
    rw [hrs, mem_candidates] at hc
    obtain ⟨-, i, h1, h2⟩ := hc
    have hlt := ovPair_lt h1
    exact Nat.find_min hex hlt.1 ⟨by omega, by rw [h2]; exact this.2⟩

/-! ## recolouring -/

/-- everything the later steps need from the recolouring -/
structure Recolored (G : Geometry P K) (cfg : ReassignCfg K) (gs : OMap (Grain P K))
    (c : Nat → Nat) (r : OMap (Grain P K) × Bool × List Nat × Nat) : Prop where
  grains : r.1 = setOps c gs
  flag : r.2.1 = changesOps c gs
  safe : SafeCol G cfg gs c
  sorted : r.2.2.1.Pairwise (· < ·)
  mem : ∀ a, a ∈ r.2.2.1 ↔ ∃ i, i < gs.length ∧ c i = a
  num : r.2.2.1.length ≤ r.2.2.2

omit [Field K] [LinearOrder K] in
theorem active_setOps (c : Nat → Nat) (gs : OMap (Grain P K)) (a : Nat) :
    a ∈ extractActive (setOps c gs) ↔ ∃ i, i < gs.length ∧ c i = a := by
  rw [mem_extractActive']
  simp only [length_setOps]
  constructor
  · rintro ⟨i, hi, h⟩; exact ⟨i, hi, by rw [← h, opAt_setOps c gs hi]⟩
  · rintro ⟨i, hi, h⟩; exact ⟨i, hi, by rw [← h, opAt_setOps c gs hi]⟩

/-- the colour function of the full colouring -/
def fullCol (G : Geometry P K) (cfg : ReassignCfg K) (gs : OMap (Grain P K)) (i : Nat) : Nat :=
  (cfg.color gs.length (spRow G cfg gs)).1.getD i 0 - 1

theorem fullColor_eq (gs : OMap (Grain P K)) :
    fullColor G cfg gs =
      if (cfg.color gs.length (spRow G cfg gs)).2 ≤ cfg.maxOps then
        .ok (setOps (fullCol G cfg gs) gs, changesOps (fullCol G cfg gs) gs,
          extractActive (setOps (fullCol G cfg gs) gs),
          (extractActive (setOps (fullCol G cfg gs) gs)).length)
      else .exc .assertThrow := by
  unfold fullColor
  by_cases h : (cfg.color gs.length (spRow G cfg gs)).2 ≤ cfg.maxOps
  · simp only [Res.assertThrow, h, decide_true, if_true, Res.ok_bind]
    rfl
  · simp only [Res.assertThrow, h, decide_false, if_false, Bool.false_eq_true, Res.exc_bind]

theorem fullCol_spec (hcol : ColorContract cfg.color) {gs : OMap (Grain P K)}
    (hne : 0 < gs.length) : SafeCol G cfg gs (fullCol G cfg gs) ∧
    ∀ i, i < gs.length → fullCol G cfg gs i < (cfg.color gs.length (spRow G cfg gs)).2 := by
  obtain ⟨h1, h2, h3⟩ := hcol gs.length (spRow G cfg gs) hne (fun i j h => spRow_symm h)
  have hget : ∀ i, i < gs.length → ∃ ci, (cfg.color gs.length (spRow G cfg gs)).1[i]? = some ci ∧
      fullCol G cfg gs i = ci - 1 ∧ 1 ≤ ci ∧ ci ≤ (cfg.color gs.length (spRow G cfg gs)).2 := by
    intro i hi
    rw [← h1] at hi
    refine ⟨_, List.getElem?_eq_getElem hi, ?_, h2 _ (List.getElem_mem hi)⟩
    simp [fullCol, hi]
  constructor
  · intro i j hij he
    have hlt := ovPair_lt hij
    obtain ⟨ci, a1, a2, a3, -⟩ := hget i (by omega)
    obtain ⟨cj, b1, b2, b3, -⟩ := hget j (by omega)
    have := h3 i j ci cj (by omega) (mem_spRow.2 ⟨hlt.2, Or.inl hij⟩) a1 b1
    omega
  · intro i hi
    obtain ⟨ci, a1, a2, a3, a4⟩ := hget i hi
    omega

theorem fullColor_recolored (hcol : ColorContract cfg.color) {gs : OMap (Grain P K)}
    (hne : 0 < gs.length) {r} (h : fullColor G cfg gs = .ok r) :
    Recolored G cfg gs (fullCol G cfg gs) r ∧ r.2.2.1.length = r.2.2.2 ∧
      (∀ i, i < gs.length → fullCol G cfg gs i < cfg.maxOps) := by
  rw [fullColor_eq] at h
  split at h
  · rename_i hk
    simp only [Res.ok.injEq] at h
    subst h
    have hs := fullCol_spec (G := G) (cfg := cfg) hcol hne
    exact ⟨⟨rfl, rfl, hs.1, sorted_extractActive _, active_setOps _ gs, Nat.le_refl _⟩, rfl,
      fun i hi => Nat.lt_of_lt_of_le (hs.2 i hi) hk⟩
  · simp at h

theorem recolor_spec (hcol : ColorContract cfg.color) (hsort : SortContract cfg.sortBy)
    {force fast : Bool} {gs : OMap (Grain P K)} (hne : 0 < gs.length) {r}
    (h : recolor G cfg force fast gs = .ok r) : ∃ c, Recolored G cfg gs c r ∧
      (((extractActive gs) = List.range (extractActive gs).length ∨ cfg.diag = true ∨ fast = false) →
        r.2.2.1.length = r.2.2.2) ∧
      (candidates G cfg gs = [] → force = false → c = opAt gs) ∧
      ((candidates G cfg gs ≠ [] ∨ force = true) → (cfg.diag = true ∨ fast = false) →
        ∀ i, i < gs.length → c i < cfg.maxOps) ∧
      ((extractActive gs).length ≤ cfg.maxOps → r.2.2.1.length ≤ cfg.maxOps) := by
  unfold recolor at h
  dsimp only at h
  split at h
  · rename_i hdo
    have hdo' : ¬ (candidates G cfg gs = [] ∧ force = false) := by
      rintro ⟨h1, h2⟩; simp [h1, h2] at hdo
    have viaFull : ∀ r, fullColor G cfg gs = .ok r → ∃ c, Recolored G cfg gs c r ∧
      (((extractActive gs) = List.range (extractActive gs).length ∨ cfg.diag = true ∨ fast = false) →
        r.2.2.1.length = r.2.2.2) ∧
      (candidates G cfg gs = [] → force = false → c = opAt gs) ∧
      ((candidates G cfg gs ≠ [] ∨ force = true) → (cfg.diag = true ∨ fast = false) →
        ∀ i, i < gs.length → c i < cfg.maxOps) ∧
      ((extractActive gs).length ≤ cfg.maxOps → r.2.2.1.length ≤ cfg.maxOps) := by
      intro r hr
      obtain ⟨a, b, c⟩ := fullColor_recolored hcol hne hr
      refine ⟨_, a, fun _ => b, fun x y => (hdo' ⟨x, y⟩).elim, fun _ _ => c, fun _ => ?_⟩
      have hsub : r.2.2.1 ⊆ List.range cfg.maxOps := by
        intro x hx
        obtain ⟨i, hi, rfl⟩ := (a.mem x).1 hx
        exact List.mem_range.2 (c i hi)
      have := (List.Nodup.subperm (a.sorted.imp (fun h => Nat.ne_of_lt h)) hsub).length_le
      simpa using this
    split at h
    · rename_i hfast
      split at h
      · exact viaFull r h
      · rename_i hcond
        simp only [Bool.or_eq_true, not_or, Bool.not_eq_true] at hcond
        simp only [Res.ok.injEq] at h
        subst h
        have hperm := (hsort (fun i => (spRow G cfg gs i).length) (candidates G cfg gs)).1
        have hnd : (cfg.sortBy (fun i => (spRow G cfg gs i).length) (candidates G cfg gs)).Nodup :=
          hperm.nodup_iff.2 (nodup_candidates gs)
        have hinv := fastLoop_inv (row := spRow G cfg gs) (mx := cfg.maxOps) (n := gs.length)
          (cfg.sortBy (fun i => (spRow G cfg gs i).length) (candidates G cfg gs))
          (FastState.mk (opAt gs) (extractActive gs) (extractActive gs).length false) hnd
          (fun r hr => (mem_candidates.1 (hperm.mem_iff.1 hr)).1)
          (fastInv_init (fun r => hperm.mem_iff)) hcond.1 rfl
        have hdiag : cfg.diag ≠ true := by
          intro hd
          have := hcond.2
          simp only [anyConflict, List.any_eq_false, List.mem_range, List.any_eq_true, not_exists,
            not_and, beq_iff_eq] at this
          exact this 0 hne 0 (mem_spRow.2 ⟨hne, Or.inr (Or.inr ⟨hd, rfl⟩)⟩) rfl
        refine ⟨_, ⟨rfl, rfl, safe_of_no_conflict hcond.2, hinv.sorted, ?_, hinv.num⟩, ?_,
          fun x y => (hdo' ⟨x, y⟩).elim, ?_, fun hl => le_trans hinv.num
            (fastLoop_limit _ (FastState.mk (opAt gs) (extractActive gs) (extractActive gs).length false)
              hl hcond.1)⟩
        · intro a
          constructor
          · intro ha
            obtain ⟨i, h1, -, h3⟩ := hinv.kept a ha
            exact ⟨i, h1, h3⟩
          · rintro ⟨i, hi, rfl⟩
            exact hinv.used i hi
        · rintro (hr | hr | hr)
          · have := fastLoop_range (row := spRow G cfg gs) (mx := cfg.maxOps)
              (cfg.sortBy (fun i => (spRow G cfg gs i).length) (candidates G cfg gs))
              (FastState.mk (opAt gs) (extractActive gs) (extractActive gs).length false) hr
            dsimp only
            rw [this]; simp
          · exact (hdiag hr).elim
          · rw [hr] at hfast; simp at hfast
        · rintro - (hr | hr)
          · exact (hdiag hr).elim
          · rw [hr] at hfast; simp at hfast
    · exact viaFull r h
  · rename_i hdo
    simp only [not_or, Nat.not_lt, Nat.le_zero, List.length_eq_zero_iff, Bool.not_eq_true] at hdo
    simp only [Res.ok.injEq] at h
    subst h
    refine ⟨opAt gs, ⟨(setOps_opAt gs).symm, ?_, safe_of_no_candidates (by simpa using hdo.1),
      sorted_extractActive gs, fun a => mem_extractActive', Nat.le_refl _⟩, fun _ => rfl,
      fun _ _ => rfl, ?_, id⟩
    · symm; rw [changesOps_false]; intros; rfl
    · rintro (h | h)
      · exact (h (by simpa using hdo.1)).elim
      · rw [hdo.2] at h; simp at h

/-! ## neighbours -/

theorem neighborsOf_ok (G : Geometry P K) (os : OMap (Grain P K)) (g : Grain P K) :
    ∃ d, neighborsOf G os g = .ok { g with nearest := d } ∧ d ≤ g.nearest ∧
      ∀ o ∈ os, g.grainId ≠ o.2.grainId → (g.op = o.2.op ∨ g.oldOp = o.2.oldOp) →
        d ≤ Grain.distanceLowerBound G g o.2 := by
  unfold neighborsOf
  induction os generalizing g with
  | nil => exact ⟨g.nearest, rfl, le_refl _, by simp⟩
  | cons o os ih =>
    simp only [List.foldlM_cons]
    by_cases hc : g.grainId ≠ o.2.grainId ∧ (g.op = o.2.op ∨ g.oldOp = o.2.oldOp)
    · rw [if_pos hc]
      simp only [addNeighbor, Res.assertThrow, hc.2, decide_true, if_true, Res.ok_bind]
      obtain ⟨d, h1, h2, h3⟩ := ih (Grain.addNeighborCore G g o.2)
      refine ⟨d, h1, le_trans h2 (min_le_left _ _), ?_⟩
      intro x hx hne hop
      rcases List.mem_cons.1 hx with rfl | hx
      · exact le_trans h2 (min_le_right _ _)
      · exact h3 x hx hne hop
    · rw [if_neg hc]
      simp only [Res.ok_bind]
      obtain ⟨d, h1, h2, h3⟩ := ih g
      refine ⟨d, h1, h2, ?_⟩
      intro x hx hne hop
      rcases List.mem_cons.1 hx with rfl | hx
      · exact (hc ⟨hne, hop⟩).elim
      · exact h3 x hx hne hop

/-- `mapM` succeeding elementwise -/
theorem mapM_ok {α β : Type} {f : α → Res β} : ∀ {l : List α}, (∀ a ∈ l, ∃ b, f a = .ok b) →
    ∃ l', l.mapM f = .ok l' ∧ l'.length = l.length ∧
      ∀ (i : Nat) (a : α), l[i]? = some a → ∃ b, l'[i]? = some b ∧ f a = .ok b
  | [], _ => ⟨[], rfl, rfl, by simp⟩
  | a :: l, h => by
    obtain ⟨b, hb⟩ := h a (by simp)
    obtain ⟨l', h1, h2, h3⟩ := mapM_ok (l := l) (fun x hx => h x (by simp [hx]))
    refine ⟨b :: l', by simp [List.mapM_cons, hb, h1], by simp [h2], ?_⟩
    intro i x hx
    cases i with
    | zero => simp at hx; subst hx; exact ⟨b, by simp, hb⟩
    | succ i => simp at hx; simpa using h3 i x hx

/-- `buildNeighbors` never throws and only updates the nearest distances -/
theorem buildNeighbors_ok (G : Geometry P K) (gs : OMap (Grain P K)) :
    ∃ gs', buildNeighbors G gs = .ok gs' ∧ gs'.length = gs.length ∧
      ∀ (i : Nat) (p : Nat × Grain P K), gs[i]? = some p → ∃ d, gs'[i]? = some (p.1, { p.2 with nearest := d }) ∧
        d ≤ p.2.nearest ∧ ∀ o ∈ gs, p.2.grainId ≠ o.2.grainId →
          (p.2.op = o.2.op ∨ p.2.oldOp = o.2.oldOp) → d ≤ Grain.distanceLowerBound G p.2 o.2 := by
  obtain ⟨l', h1, h2, h3⟩ := mapM_ok (f := fun p : Nat × Grain P K => do
    let g ← neighborsOf G gs p.2
    Res.ok (p.1, g)) (l := gs) (by
      intro p _
      obtain ⟨d, hd, -⟩ := neighborsOf_ok G gs p.2
      exact ⟨(p.1, { p.2 with nearest := d }), by simp [hd]⟩)
  refine ⟨l', h1, h2, ?_⟩
  intro i p hp
  obtain ⟨b, hb, hf⟩ := h3 i p hp
  obtain ⟨d, hd, hd2, hd3⟩ := neighborsOf_ok G gs p.2
  refine ⟨d, ?_, hd2, hd3⟩
  rw [hd] at hf
  simp at hf
  rw [hb, ← hf]

/-! ## dangling order parameters -/

theorem idsOffsets_aux {act : List Nat} (hs : act.Pairwise (· < ·)) : ∀ n, n ≤ act.length →
    ∃ m, idsOffsets act n = .ok m ∧ m.Sorted ∧
      (∀ (i : Nat) (_ : i < n) (hl : i < act.length), m.get? act[i] = some ((act[i] : Int) - i)) ∧
      (∀ a, (m.get? a).isSome → ∃ (i : Nat) (hl : i < act.length), i < n ∧ act[i] = a) := by
  intro n
  induction n with
  | zero => intro _; exact ⟨[], rfl, OMap.sorted_nil, by omega, by simp⟩
  | succ n ih =>
    intro hn
    obtain ⟨m, h1, h2, h3, h4⟩ := ih (by omega)
    have hl : n < act.length := by omega
    refine ⟨m.emplace act[n] ((act[n] : Int) - n), ?_, OMap.sorted_emplace h2, ?_, ?_⟩
    · unfold idsOffsets at h1 ⊢
      rw [List.range_succ, List.foldlM_append, h1]
      simp [Res.index_ok hl]
    · intro i hi hl'
      rw [OMap.get?_emplace h2]
      by_cases hin : i = n
      · subst hin
        have : m.get? act[i] = none := by
          cases hm : m.get? act[i] with
          | none => rfl
          | some v =>
            obtain ⟨j, hj, hj1, hj2⟩ := h4 act[i] (by simp [hm])
            have := List.pairwise_iff_getElem.1 hs j i hj hl' hj1
            omega
        simp [this]
      · have hne : act[i] ≠ act[n] := by
          have := List.pairwise_iff_getElem.1 hs i n hl' hl (by omega)
          omega
        rw [if_neg hne]
        exact h3 i (by omega) hl'
    · intro a ha
      rw [OMap.get?_emplace h2] at ha
      split at ha
      · rename_i he; exact ⟨n, hl, by omega, he.symm⟩
      · obtain ⟨j, hj, hj1, hj2⟩ := h4 a ha
        exact ⟨j, hj, by omega, hj2⟩

theorem idsOffsets_ub {act : List Nat} (hs : act.Pairwise (· < ·)) {n : Nat} (h : act.length < n) :
    idsOffsets act n = .ub := by
  obtain ⟨m, h1, -⟩ := idsOffsets_aux hs act.length (Nat.le_refl _)
  unfold idsOffsets at h1 ⊢
  obtain ⟨d, rfl⟩ : ∃ d, n = act.length + (d + 1) := ⟨n - act.length - 1, by omega⟩
  rw [List.range_add, List.foldlM_append, h1, Nat.add_comm d 1, List.range_add]
  simp [Res.index]

/-- the renumbering keeps the position of an order parameter in the ascending active list -/
def compress (act : List Nat) (gs : OMap (Grain P K)) : OMap (Grain P K) :=
  gs.map fun p => (p.1, { p.2 with op := act.idxOf p.2.op })

omit [Field K] [LinearOrder K] in
theorem removeDangling_ok {gs : OMap (Grain P K)} {act : List Nat} (hs : act.Pairwise (· < ·))
    (hmem : ∀ a, a ∈ act ↔ ∃ p ∈ gs, p.2.op = a) (hne : gs ≠ []) :
    ∃ f, removeDangling gs act act.length = .ok (compress act gs, f, List.range act.length) ∧
      (f = false → act = List.range act.length) := by
  obtain ⟨p0, hp0⟩ := List.exists_mem_of_ne_nil gs hne
  have hane : act ≠ [] := by
    intro h
    have := (hmem p0.2.op).2 ⟨p0, hp0, rfl⟩
    rw [h] at this; simp at this
  have hlen : 0 < act.length := List.length_pos_iff.2 hane
  unfold removeDangling
  cases hm : act.getLast? with
  | none => rw [List.getLast?_eq_none_iff] at hm; exact (hane hm).elim
  | some mx =>
    have hge := last_ge_sorted hs hm
    have h0 : (0 : Int) ≤ (mx : Int) - ((act.length : Int) - 1) := by omega
    simp only [Res.assertThrow, h0, decide_true, if_true, Res.ok_bind]
    have hidx : ∀ p ∈ gs, ∃ (i : Nat) (hi : i < act.length), act[i] = p.2.op ∧
        act.idxOf p.2.op = i := by
      intro p hp
      have hpa := (hmem p.2.op).2 ⟨p, hp, rfl⟩
      exact ⟨act.idxOf p.2.op, List.idxOf_lt_length_of_mem hpa, by simp, rfl⟩
    by_cases hmis : (mx : Int) - ((act.length : Int) - 1) > 0
    · rw [if_pos hmis]
      obtain ⟨offs, ho1, ho2, ho3, ho4⟩ := idsOffsets_aux hs act.length (Nat.le_refl _)
      rw [ho1]
      simp only [Res.ok_bind]
      obtain ⟨l', h1, h2, h3⟩ := mapM_ok (f := fun p : Nat × Grain P K => do
          let o ← Res.at? (offs.get? p.2.op)
          Res.ok (p.1, if o > 0 then { p.2 with op := ((p.2.op : Int) - o).toNat } else p.2))
        (l := gs) (by
          intro p hp
          obtain ⟨i, hi, e1, e2⟩ := hidx p hp
          exact ⟨_, by rw [← e1, ho3 i hi hi]; rfl⟩)
      have hl' : l' = compress act gs := by
        apply List.ext_getElem?
        intro i
        unfold compress
        rw [List.getElem?_map]
        cases hgi : gs[i]? with
        | none =>
          rw [List.getElem?_eq_none_iff] at hgi
          rw [List.getElem?_eq_none (by omega)]; rfl
        | some p =>
          obtain ⟨b, hb, hf⟩ := h3 i p hgi
          obtain ⟨j, hj, e1, e2⟩ := hidx p (List.mem_of_getElem? hgi)
          have hj3 := ho3 j hj hj
          rw [e1] at hj3
          rw [hj3] at hf
          simp only [Res.at?_some, Res.ok_bind, Res.ok.injEq] at hf
          rw [hb, ← hf]
          simp only [Option.map_some, Option.some.injEq, Prod.mk.injEq, true_and, e2]
          have hge := le_getElem_sorted hs j hj
          rw [e1] at hge
          split
          · congr 1; omega
          · rename_i hc
            have : p.2.op = j := by omega
            rw [← this]
      rw [h1]
      simp only [Res.ok_bind]
      refine ⟨true, ?_, by simp⟩
      rw [hl']
      congr 3
      apply sorted_ext (sorted_extractActive _) (range_sorted _)
      intro a
      rw [mem_extractActive, List.mem_range]
      constructor
      · rintro ⟨p, hp, rfl⟩
        obtain ⟨q, hq, rfl⟩ := List.mem_map.1 hp
        exact List.idxOf_lt_length_of_mem ((hmem q.2.op).2 ⟨q, hq, rfl⟩)
      · intro ha
        obtain ⟨q, hq, hqe⟩ := (hmem act[a]).1 (List.getElem_mem ha)
        refine ⟨_, List.mem_map.2 ⟨q, hq, rfl⟩, ?_⟩
        rw [hqe]
        exact (List.Nodup.idxOf_getElem (hs.imp (fun h => Nat.ne_of_lt h)) a ha)
    · rw [if_neg hmis]
      have hr := last_eq_range hs hm (by omega)
      refine ⟨false, ?_, fun _ => hr⟩
      have hc : compress act gs = gs := by
        unfold compress
        conv => rhs; rw [← List.map_id gs]
        apply List.map_congr_left
        intro p hp
        obtain ⟨i, hi, e1, e2⟩ := hidx p hp
        have e3 : act[i] = i := by
          have : act[i]? = (List.range act.length)[i]? := by rw [← hr]
          rw [List.getElem?_eq_getElem hi] at this
          simpa [hi] using this
        rw [e2, ← e3, e1]
        rfl
      rw [hc, ← hr]

/-! ## the whole call -/

/-- Everything known about a successful call. `c` is the colour of each grain before renumbering and
`e` the renumbering. -/
structure CallSpec (G : Geometry P K) (cfg : ReassignCfg K) (gs : OMap (Grain P K)) (c e : Nat → Nat)
    (r : Reassigned P K) : Prop where
  len : r.grains.length = gs.length
  grain : ∀ (i : Nat) (p : Nat × Grain P K), gs[i]? = some p → ∃ d,
    r.grains[i]? = some (p.1, { p.2 with op := e (c i), nearest := d }) ∧ d ≤ p.2.nearest ∧
    ∀ (j : Nat) (q : Nat × Grain P K), gs[j]? = some q → p.2.grainId ≠ q.2.grainId →
      (c i = c j ∨ p.2.oldOp = q.2.oldOp) → d ≤ Grain.distanceLowerBound G p.2 q.2
  safe : SafeCol G cfg gs c
  mono : ∀ i j, i < gs.length → j < gs.length → c i < c j → e (c i) < e (c j)
  active : ∀ a, a ∈ r.active ↔ ∃ i, i < gs.length ∧ e (c i) = a
  sorted : r.active.Pairwise (· < ·)
  flag : r.flag = false → ∀ i, i < gs.length → e (c i) = opAt gs i
  ncoll : r.nCollisions = (candidates G cfg gs).length

theorem reassign_core (hcol : ColorContract cfg.color) (hsort : SortContract cfg.sortBy)
    {force fast : Bool} {gs : OMap (Grain P K)} (hne : 0 < gs.length) {r : Reassigned P K}
    (h : reassignGrains G cfg force fast gs = .ok r) : ∃ c e, CallSpec G cfg gs c e r ∧
      (((extractActive gs) = List.range (extractActive gs).length ∨ cfg.diag = true ∨ fast = false) →
        r.active = List.range r.active.length) ∧
      (candidates G cfg gs = [] → force = false → c = opAt gs) ∧
      ((candidates G cfg gs ≠ [] ∨ force = true) → (cfg.diag = true ∨ fast = false) →
        r.active.length ≤ cfg.maxOps) ∧
      ((extractActive gs).length ≤ cfg.maxOps → r.active.length ≤ cfg.maxOps) := by
  unfold reassignGrains at h
  obtain ⟨⟨gs1, f1, act, nOps⟩, h1, h⟩ := Res.bind_eq_ok.1 h
  obtain ⟨gs2, h2, h⟩ := Res.bind_eq_ok.1 h
  obtain ⟨⟨gs3, f2, act'⟩, h3, h⟩ := Res.bind_eq_ok.1 h
  simp only [Res.ok.injEq] at h
  obtain ⟨c, hrec, hnum, hnone, hmax, hlim⟩ := recolor_spec hcol hsort hne h1
  obtain ⟨gs2', b1, b2, b3⟩ := buildNeighbors_ok G gs1
  rw [h2] at b1
  simp only [Res.ok.injEq] at b1
  subst b1
  have hg1 : gs1 = setOps c gs := hrec.grains
  have hf1 : f1 = changesOps c gs := hrec.flag
  have hact : ∀ a, a ∈ act ↔ ∃ i, i < gs.length ∧ c i = a := hrec.mem
  have hsrt : act.Pairwise (· < ·) := hrec.sorted
  have hle : act.length ≤ nOps := hrec.num
  -- grains after the neighbour pass
  have hgr : ∀ (i : Nat) (p : Nat × Grain P K), gs[i]? = some p → ∃ d,
      gs2[i]? = some (p.1, { p.2 with op := c i, nearest := d }) ∧ d ≤ p.2.nearest ∧
      ∀ (j : Nat) (q : Nat × Grain P K), gs[j]? = some q → p.2.grainId ≠ q.2.grainId →
        (c i = c j ∨ p.2.oldOp = q.2.oldOp) → d ≤ Grain.distanceLowerBound G p.2 q.2 := by
    intro i p hp
    have hp1 : gs1[i]? = some (p.1, { p.2 with op := c i }) := by
      rw [hg1, getElem?_setOps, hp]; rfl
    obtain ⟨d, d1, d2, d3⟩ := b3 i _ hp1
    refine ⟨d, d1, d2, ?_⟩
    intro j q hq hid hop
    have hq1 : gs1[j]? = some (q.1, { q.2 with op := c j }) := by
      rw [hg1, getElem?_setOps, hq]; rfl
    exact d3 (q.1, { q.2 with op := c j }) (List.mem_of_getElem? hq1) hid hop
  have hlen2 : gs2.length = gs.length := by rw [b2, hg1, length_setOps]
  have hmem2 : ∀ a, a ∈ act ↔ ∃ p ∈ gs2, p.2.op = a := by
    intro a
    rw [hact]
    constructor
    · rintro ⟨i, hi, rfl⟩
      obtain ⟨d, d1, -⟩ := hgr i gs[i] (List.getElem?_eq_getElem hi)
      exact ⟨_, List.mem_of_getElem? d1, rfl⟩
    · rintro ⟨p, hp, rfl⟩
      obtain ⟨i, hi⟩ := List.mem_iff_getElem?.1 hp
      have hil : i < gs.length := by rw [← hlen2]; exact (List.getElem?_eq_some_iff.1 hi).1
      obtain ⟨d, d1, -⟩ := hgr i gs[i] (List.getElem?_eq_getElem hil)
      rw [hi] at d1
      simp only [Option.some.injEq] at d1
      exact ⟨i, hil, by rw [d1]⟩
  have hne2 : gs2 ≠ [] := by intro h0; rw [h0] at hlen2; simp at hlen2; omega
  have hchg : f1 = false → ∀ i, i < gs.length → c i = opAt gs i := by
    intro hf i hi
    rw [hf1, changesOps_false] at hf
    exact (hf i hi).symm
  by_cases hn : nOps = act.length
  · -- regular case
    obtain ⟨f, q1, q2⟩ := removeDangling_ok hsrt hmem2 hne2
    rw [hn, q1] at h3
    simp only [Res.ok.injEq, Prod.mk.injEq] at h3
    obtain ⟨rfl, rfl, rfl⟩ := h3
    have hidx : ∀ i, i < gs.length → ∃ h : act.idxOf (c i) < act.length,
        act[act.idxOf (c i)] = c i := by
      intro i hi
      have := (hact (c i)).2 ⟨i, hi, rfl⟩
      exact ⟨List.idxOf_lt_length_of_mem this, by simp⟩
    refine ⟨c, act.idxOf, ?_, ?_, hnone, ?_, fun hl => by subst h; simpa using hlim hl⟩
    · subst h
      refine ⟨by simp [compress, hlen2], ?_, hrec.safe, ?_, ?_, range_sorted _, ?_, rfl⟩
      · intro i p hp
        obtain ⟨d, d1, d2, d3⟩ := hgr i p hp
        exact ⟨d, by simp [compress, d1], d2, d3⟩
      · intro i j hi hj hlt
        obtain ⟨x1, y1⟩ := hidx i hi
        obtain ⟨x2, y2⟩ := hidx j hj
        by_contra hcon
        rcases Nat.lt_or_eq_of_le (Nat.le_of_not_lt hcon) with hc | hc
        · have := List.pairwise_iff_getElem.1 hsrt _ _ x2 x1 hc
          omega
        · have : act[act.idxOf (c i)] = act[act.idxOf (c j)] := by simp only [hc]
          omega
      · intro a
        simp only [List.mem_range]
        constructor
        · intro ha
          obtain ⟨i, hi, he⟩ := (hact act[a]).1 (List.getElem_mem ha)
          refine ⟨i, hi, ?_⟩
          rw [he]
          exact (List.Nodup.idxOf_getElem (hsrt.imp (fun h => Nat.ne_of_lt h)) a ha)
        · rintro ⟨i, hi, rfl⟩
          exact (hidx i hi).1
      · intro hfl i hi
        simp only [Bool.or_eq_false_iff] at hfl
        have hr := q2 hfl.2
        obtain ⟨x1, y1⟩ := hidx i hi
        have : act[act.idxOf (c i)]? = (List.range act.length)[act.idxOf (c i)]? := by
          rw [← hr]
        rw [List.getElem?_eq_getElem x1, y1] at this
        rw [List.getElem?_eq_getElem (by simpa using x1)] at this
        simp at this
        rw [← hchg hfl.1 i hi]
        exact this.symm
    · intro _
      subst h
      simp
    · intro hdo hm
      subst h
      simp only [List.length_range]
      have hlt : ∀ a ∈ act, a < cfg.maxOps := by
        intro a ha
        obtain ⟨i, hi, rfl⟩ := (hact a).1 ha
        exact hmax hdo hm i hi
      have hsub : act ⊆ List.range cfg.maxOps := fun a ha => List.mem_range.2 (hlt a ha)
      have := (List.Nodup.subperm (hsrt.imp (fun h => Nat.ne_of_lt h)) hsub).length_le
      simpa using this
  · -- more numbers than active order parameters: only the gap-free outcome returns
    have hlt : act.length < nOps := by omega
    have hnot : ¬ ((extractActive gs) = List.range (extractActive gs).length ∨ cfg.diag = true ∨
        fast = false) := fun hc => hn (hnum hc).symm
    unfold removeDangling at h3
    cases hm : act.getLast? with
    | none => simp only [hm] at h3; simp at h3
    | some mx =>
      simp only [hm] at h3
      by_cases h0 : (0 : Int) ≤ (mx : Int) - ((nOps : Int) - 1)
      · simp only [Res.assertThrow, h0, decide_true, if_true, Res.ok_bind] at h3
        by_cases hmis : (mx : Int) - ((nOps : Int) - 1) > 0
        · rw [if_pos hmis, idsOffsets_ub hsrt hlt] at h3
          simp at h3
        · rw [if_neg hmis] at h3
          simp only [Res.ok.injEq, Prod.mk.injEq] at h3
          obtain ⟨rfl, rfl, rfl⟩ := h3
          refine ⟨c, id, ?_, fun hc => (hnot hc).elim, hnone,
            fun _ hc => (hnot (Or.inr hc)).elim, fun hl => by subst h; exact hlim hl⟩
          subst h
          refine ⟨hlen2, hgr, hrec.safe, fun _ _ _ _ h => h, hact, hsrt, ?_, rfl⟩
          intro hfl
          simp only [Bool.or_false] at hfl
          exact hchg hfl
      · simp only [Res.assertThrow, h0, decide_false, Bool.false_eq_true, if_false,
          Res.exc_bind] at h3
        simp at h3

/-- the call returns unless the colour limit is exceeded -/
theorem reassign_total (hcol : ColorContract cfg.color) (hsort : SortContract cfg.sortBy)
    {force fast : Bool} {gs : OMap (Grain P K)} (hne : 0 < gs.length)
    (hreg : (extractActive gs) = List.range (extractActive gs).length ∨ cfg.diag = true ∨
      fast = false) :
    (∃ r, reassignGrains G cfg force fast gs = .ok r) ∨
    (reassignGrains G cfg force fast gs = .exc .assertThrow ∧
      cfg.maxOps < (cfg.color gs.length (spRow G cfg gs)).2 ∧
      (candidates G cfg gs ≠ [] ∨ force = true)) := by
  have hr : (∃ r, recolor G cfg force fast gs = .ok r) ∨
      (recolor G cfg force fast gs = .exc .assertThrow ∧
        cfg.maxOps < (cfg.color gs.length (spRow G cfg gs)).2 ∧
        (candidates G cfg gs ≠ [] ∨ force = true)) := by
    have hf : (∃ r, fullColor G cfg gs = .ok r) ∨ (fullColor G cfg gs = .exc .assertThrow ∧
        cfg.maxOps < (cfg.color gs.length (spRow G cfg gs)).2) := by
      rw [fullColor_eq]
      split
      · exact Or.inl ⟨_, rfl⟩
      · exact Or.inr ⟨rfl, by omega⟩
    unfold recolor
    dsimp only
    split
    · rename_i hdo
      have hdo' : candidates G cfg gs ≠ [] ∨ force = true := by
        rcases hdo with h | h
        · left; exact List.length_pos_iff.1 h
        · right; exact h
      split
      · split
        · rcases hf with h | h
          · exact Or.inl h
          · exact Or.inr ⟨h.1, h.2, hdo'⟩
        · exact Or.inl ⟨_, rfl⟩
      · rcases hf with h | h
        · exact Or.inl h
        · exact Or.inr ⟨h.1, h.2, hdo'⟩
    · exact Or.inl ⟨_, rfl⟩
  rcases hr with ⟨⟨gs1, f1, act, nOps⟩, h1⟩ | ⟨h1, h2⟩
  · left
    obtain ⟨c, hrec, hnum, -, -⟩ := recolor_spec hcol hsort hne h1
    obtain ⟨gs2, b1, b2, b3⟩ := buildNeighbors_ok G gs1
    have hg1 : gs1 = setOps c gs := hrec.grains
    have hact : ∀ a, a ∈ act ↔ ∃ i, i < gs.length ∧ c i = a := hrec.mem
    have hlen2 : gs2.length = gs.length := by rw [b2, hg1, length_setOps]
    have hn : nOps = act.length := (hnum hreg).symm
    have hmem2 : ∀ a, a ∈ act ↔ ∃ p ∈ gs2, p.2.op = a := by
      intro a
      rw [hact, ← active_setOps c gs, ← hg1, mem_extractActive]
      constructor
      · rintro ⟨p, hp, rfl⟩
        obtain ⟨i, hi⟩ := List.mem_iff_getElem?.1 hp
        obtain ⟨d, d1, -⟩ := b3 i p hi
        exact ⟨_, List.mem_of_getElem? d1, rfl⟩
      · rintro ⟨p, hp, rfl⟩
        obtain ⟨i, hi⟩ := List.mem_iff_getElem?.1 hp
        have hil : i < gs1.length := by rw [← b2]; exact (List.getElem?_eq_some_iff.1 hi).1
        obtain ⟨d, d1, -⟩ := b3 i gs1[i] (List.getElem?_eq_getElem hil)
        rw [hi] at d1
        simp only [Option.some.injEq] at d1
        exact ⟨gs1[i], List.getElem_mem _, by rw [d1]⟩
    have hne2 : gs2 ≠ [] := by intro h0; rw [h0] at hlen2; simp at hlen2; omega
    obtain ⟨f, q1, q2⟩ := removeDangling_ok hrec.sorted hmem2 hne2
    dsimp only at q1
    refine ⟨Reassigned.mk (compress act gs2) (List.range act.length)
      (candidates G cfg gs).length (f1 || f), ?_⟩
    unfold reassignGrains
    rw [h1]
    simp only [Res.ok_bind]
    rw [b1]
    simp only [Res.ok_bind]
    rw [hn, q1]
    rfl
  · right
    refine ⟨?_, h2⟩
    unfold reassignGrains
    rw [h1]
    rfl

/-! ## executable instances of the contracts -/

end

theorem sortDesc_contract : SortContract sortDesc := by
  intro len l
  refine ⟨List.mergeSort_perm l _, ?_⟩
  have := List.pairwise_mergeSort (le := fun a b => decide (len b ≤ len a))
    (by intro a b c h1 h2; simp at *; omega) (by intro a b; simp [Nat.le_total]) l
  exact this.imp (by intro a b h; simpa using h)

theorem greedyCols_length (row : Nat → List Nat) : ∀ m, (greedyCols row m).length = m
  | 0 => rfl
  | m + 1 => by simp [greedyCols, greedyCols_length row m]

theorem greedyCols_prefix (row : Nat → List Nat) (m : Nat) {i : Nat} (h : i < m) :
    (greedyCols row (m+1))[i]? = (greedyCols row m)[i]? := by
  simp only [greedyCols]
  rw [List.getElem?_append_left (by rw [greedyCols_length]; exact h)]

theorem greedyCols_new (row : Nat → List Nat) (m : Nat) : ∃ c, (greedyCols row (m+1))[m]? = some c ∧
    1 ≤ c ∧ ∀ j, j ∈ row m → (greedyCols row m)[j]? ≠ some c := by
  simp only [greedyCols]
  rw [List.getElem?_append_right (by rw [greedyCols_length]), greedyCols_length]
  simp only [Nat.sub_self, List.getElem?_cons_zero]
  refine ⟨_, rfl, ?_⟩
  cases hf : ((List.range (m + 1)).map (· + 1)).find? (fun c =>
      !((row m).filterMap (fun j => (greedyCols row m)[j]?)).contains c) with
  | none =>
    exfalso
    rw [List.find?_eq_none] at hf
    have hsub : (List.range (m+1)).map (· + 1) ⊆ greedyCols row m := by
      intro c hc
      have := hf c hc
      simp only [Bool.not_eq_true', Bool.not_eq_false, List.contains_iff_mem, List.mem_filterMap]
        at this
      obtain ⟨j, -, hj⟩ := this
      exact List.mem_of_getElem? hj
    have hnd : ((List.range (m+1)).map (· + 1)).Nodup :=
      List.Nodup.map (fun a b h => by simpa using h) List.nodup_range
    have := (List.Nodup.subperm hnd hsub).length_le
    simp [greedyCols_length] at this
    omega
  | some c =>
    simp only [Option.getD_some]
    have h1 := List.mem_of_find?_eq_some hf
    have h2 := List.find?_some hf
    simp only [List.mem_map, List.mem_range] at h1
    obtain ⟨a, -, rfl⟩ := h1
    refine ⟨by omega, ?_⟩
    intro j hj he
    simp only [Bool.not_eq_true', List.contains_iff_mem, Bool.eq_false_iff, ne_eq,
      List.mem_filterMap, not_exists, not_and] at h2
    exact h2 j hj he

theorem greedyCols_proper {row : Nat → List Nat} (hsym : ∀ i j, j ∈ row i → i ∈ row j) :
    ∀ m, (∀ c ∈ greedyCols row m, 1 ≤ c) ∧ ∀ i j ci cj, i ≠ j → j ∈ row i →
      (greedyCols row m)[i]? = some ci → (greedyCols row m)[j]? = some cj → ci ≠ cj
  | 0 => by simp [greedyCols]
  | m + 1 => by
    obtain ⟨ih1, ih2⟩ := greedyCols_proper hsym m
    obtain ⟨c, hc, hc1, hc2⟩ := greedyCols_new row m
    have hlt : ∀ (i ci : Nat), (greedyCols row (m+1))[i]? = some ci →
        i = m ∧ ci = c ∨ i < m ∧ (greedyCols row m)[i]? = some ci := by
      intro i ci h
      have := (List.getElem?_eq_some_iff.1 h).1
      rw [greedyCols_length] at this
      by_cases him : i = m
      · subst him; rw [hc] at h; simp at h; exact Or.inl ⟨rfl, h.symm⟩
      · rw [greedyCols_prefix row m (by omega)] at h
        exact Or.inr ⟨by omega, h⟩
    constructor
    · intro x hx
      obtain ⟨i, hi⟩ := List.mem_iff_getElem?.1 hx
      rcases hlt i x hi with ⟨-, rfl⟩ | ⟨-, h⟩
      · exact hc1
      · exact ih1 x (List.mem_of_getElem? h)
    · intro i j ci cj hne hj h1 h2
      rcases hlt i ci h1 with ⟨rfl, rfl⟩ | ⟨a1, a2⟩
      · rcases hlt j cj h2 with ⟨rfl, rfl⟩ | ⟨b1, b2⟩
        · exact (hne rfl).elim
        · intro he; subst he; exact hc2 j hj b2
      · rcases hlt j cj h2 with ⟨rfl, rfl⟩ | ⟨b1, b2⟩
        · intro he; subst he; exact hc2 i (hsym i j hj) a2
        · exact ih2 i j ci cj hne hj a2 b2

theorem le_foldl_max : ∀ (l : List Nat) (a c : Nat), c ≤ a ∨ c ∈ l → c ≤ l.foldl max a
  | [], a, c, h => by simpa using h
  | b :: l, a, c, h => by
    rw [List.foldl_cons]
    apply le_foldl_max
    rcases h with h | h
    · left; omega
    · rcases List.mem_cons.1 h with rfl | h
      · left; omega
      · right; exact h

theorem greedyColor_contract : ColorContract greedyColor := by
  intro n row _ hrow
  have h := greedyCols_proper (fun i j hj => (hrow i j hj).2.2) n
  refine ⟨greedyCols_length row n, ?_, h.2⟩
  intro c hc
  exact ⟨h.1 c hc, le_foldl_max _ _ _ (Or.inr hc)⟩

end Verif
