import Verif.Lemmas.Wavefront
import Verif.Lemmas.FrontsUniform
/-!
# Lemmas on direct neighbours and on the distances of the representations
-/
namespace Verif.Wavefront

theorem recorded_nil {a b : Part} : ¬ Recorded [] a b := by rintro ⟨l, h, _⟩; simp at h

theorem recorded_cons {k : Part} {l : List Part} {m : NMap} {a b : Part} :
    Recorded ((k, l) :: m) a b ↔ (k = a ∧ b ∈ l) ∨ Recorded m a b := by
  unfold Recorded
  constructor
  · rintro ⟨l', h, hb⟩
    rcases List.mem_cons.1 h with h | h
    · cases h; exact .inl ⟨rfl, hb⟩
    · exact .inr ⟨l', h, hb⟩
  · rintro (⟨rfl, hb⟩ | ⟨l', h, hb⟩)
    · exact ⟨l, by simp, hb⟩
    · exact ⟨l', by simp [h], hb⟩

theorem recorded_insertN (m : NMap) (a b x y : Part) :
    Recorded (insertN m a b) x y ↔ Recorded m x y ∨ (x = a ∧ y = b) := by
  induction m with
  | nil =>
    rw [show insertN [] a b = [(a, [b])] from rfl, recorded_cons]
    simp only [List.mem_singleton]
    constructor
    · rintro (⟨h1, h2⟩ | h)
      · exact .inr ⟨h1.symm, h2⟩
      · exact .inl h
    · rintro (h | ⟨h1, h2⟩)
      · exact .inr h
      · exact .inl ⟨h1.symm, h2⟩
  | cons e m ih =>
    obtain ⟨k, l⟩ := e
    unfold insertN
    by_cases hk : k = a
    · rw [if_pos hk, recorded_cons, recorded_cons]
      by_cases hb : b ∈ l
      · rw [if_pos hb]
        constructor
        · exact fun h => .inl h
        · rintro (h | ⟨h1, h2⟩)
          · exact h
          · exact .inl ⟨hk.trans h1.symm, h2 ▸ hb⟩
      · rw [if_neg hb, List.mem_append, List.mem_singleton]
        constructor
        · rintro (⟨h1, h2 | h2⟩ | h)
          · exact .inl (.inl ⟨h1, h2⟩)
          · exact .inr ⟨h1.symm.trans hk, h2⟩
          · exact .inl (.inr h)
        · rintro ((⟨h1, h2⟩ | h) | ⟨h1, h2⟩)
          · exact .inl ⟨h1, .inl h2⟩
          · exact .inr h
          · exact .inl ⟨hk.trans h1.symm, .inr h2⟩
    · rw [if_neg hk, recorded_cons, recorded_cons, ih]; tauto

theorem recorded_emplaceN (m : NMap) (a x y : Part) : Recorded (emplaceN m a) x y ↔ Recorded m x y := by
  induction m with
  | nil => rw [show emplaceN [] a = [(a, [])] from rfl, recorded_cons]; simp
  | cons e m ih =>
    obtain ⟨k, l⟩ := e
    unfold emplaceN
    by_cases hk : k = a
    · rw [if_pos hk]
    · rw [if_neg hk, recorded_cons, recorded_cons, ih]

/-- a loop that adds pairs -/
theorem recorded_foldl {α : Type} {f : NMap → α → NMap} {P : α → Part → Part → Prop} :
    ∀ (l : List α) (m : NMap),
      (∀ e ∈ l, ∀ m x y, Recorded (f m e) x y ↔ Recorded m x y ∨ P e x y) → ∀ x y,
      (Recorded (l.foldl f m) x y ↔ Recorded m x y ∨ ∃ e ∈ l, P e x y)
  | [], m, _, x, y => by simp
  | e :: l, m, hf, x, y => by
    rw [List.foldl_cons, recorded_foldl l (f m e) (fun a ha => hf a (by simp [ha])) x y, hf e (by simp)]
    simp only [List.mem_cons, exists_eq_or_imp, or_assoc]

/-- the pair of two particles in either order -/
def Both (a b x y : Part) : Prop := (x = a ∧ y = b) ∨ (x = b ∧ y = a)

theorem recorded_addNeighbors (m : NMap) (a b x y : Part) :
    Recorded (addNeighbors m a b) x y ↔ Recorded m x y ∨ Both a b x y := by
  unfold addNeighbors Both
  rw [recorded_insertN, recorded_insertN, or_assoc]

theorem recorded_addAt (ids : Nat → Nat → Option Nat) (a : Part) (j : Nat) (m : NMap) (c : Nat) (x y : Part) :
    Recorded (addAt ids a j m c) x y ↔ Recorded m x y ∨ ∃ q, ids j c = some q ∧ Both a (j, q) x y := by
  unfold addAt
  rcases ids j c with _ | q
  · simp
  · simp [recorded_addNeighbors]

/-- cells examined for the second particle -/
def Examined (M : WMesh) (r c n : Nat) : Prop :=
  n = c ∨ Side.active n ∈ M.sides c ∨
    ∃ ch lv x, Side.refined ch lv ∈ M.sides c ∧ x ∈ ch ∧ x.active = true ∧ M.artificial r x.cell = false ∧ x.cell = n

theorem mem_examined {M : WMesh} {r c n : Nat} :
    n ∈ c :: (M.sides c).flatMap (Side.examined M r) ↔ Examined M r c n := by
  unfold Examined
  rw [List.mem_cons, List.mem_flatMap]
  refine or_congr Iff.rfl ⟨?_, ?_⟩
  · rintro ⟨s, hs, hn⟩
    rcases s with _ | m | ⟨ch, lv⟩
    · simp [Side.examined] at hn
    · simp [Side.examined] at hn; subst hn; exact .inl hs
    · simp only [Side.examined, List.mem_map, List.mem_filter, Bool.and_eq_true, Bool.not_eq_true'] at hn
      obtain ⟨x, ⟨hx, ha, ht⟩, hc⟩ := hn
      exact .inr ⟨ch, lv, x, hs, hx, ha, ht, hc⟩
  · rintro (h | ⟨ch, lv, x, hs, hx, ha, ht, hc⟩)
    · exact ⟨_, h, by simp [Side.examined]⟩
    · refine ⟨_, hs, ?_⟩
      simp only [Side.examined, List.mem_map, List.mem_filter, Bool.and_eq_true, Bool.not_eq_true']
      exact ⟨x, ⟨hx, ha, ht⟩, hc⟩

/-- pairs found at a cell -/
def FoundAt (M : WMesh) (nOp : Nat) (ids : Nat → Nat → Option Nat) (r c : Nat) (x y : Part) : Prop :=
  ∃ i j p q n, i < j ∧ j < nOp ∧ ids i c = some p ∧ Examined M r c n ∧ ids j n = some q ∧
    Both (i, p) (j, q) x y

theorem recorded_local (M : WMesh) (nOp : Nat) (ids : Nat → Nat → Option Nat) (r : Nat) (x y : Part) :
    Recorded (localNeighbors M nOp ids r) x y ↔
      ∃ c ∈ M.cells, M.owner c = r ∧ FoundAt M nOp ids r c x y := by
  unfold localNeighbors
  rw [recorded_foldl (P := fun c x y => FoundAt M nOp ids r c x y)]
  · constructor
    · rintro (h | ⟨c, hc, h⟩)
      · exact absurd h recorded_nil
      · rw [List.mem_filter, beq_iff_eq] at hc
        exact ⟨c, hc.1, hc.2, h⟩
    · rintro ⟨c, hc, ho, h⟩
      exact .inr ⟨c, by rw [List.mem_filter, beq_iff_eq]; exact ⟨hc, ho⟩, h⟩
  · intro c _ m x y
    rw [recorded_foldl (P := fun i x y => ∃ p, ids i c = some p ∧ ∃ j, i < j ∧ j < nOp ∧
      ∃ n, Examined M r c n ∧ ∃ q, ids j n = some q ∧ Both (i, p) (j, q) x y)]
    · refine or_congr Iff.rfl ⟨?_, ?_⟩
      · rintro ⟨i, _, p, hp, j, hij, hj, n, hn, q, hq, hb⟩
        exact ⟨i, j, p, q, n, hij, hj, hp, hn, hq, hb⟩
      · rintro ⟨i, j, p, q, n, hij, hj, hp, hn, hq, hb⟩
        exact ⟨i, by rw [List.mem_range]; omega, p, hp, j, hij, hj, n, hn, q, hq, hb⟩
    · intro i _ m x y
      unfold addBlock
      rcases hp : ids i c with _ | p
      · simp
      · dsimp only
        rw [recorded_foldl (P := fun j x y => ∃ n, Examined M r c n ∧ ∃ q, ids j n = some q ∧
          Both (i, p) (j, q) x y)]
        · refine or_congr Iff.rfl ⟨?_, ?_⟩
          · rintro ⟨j, hj, h⟩
            rw [List.mem_filter, List.mem_range, decide_eq_true_eq] at hj
            exact ⟨p, rfl, j, hj.2, hj.1, h⟩
          · rintro ⟨p', hp', j, hij, hj, h⟩
            cases hp'
            exact ⟨j, by rw [List.mem_filter, List.mem_range, decide_eq_true_eq]; exact ⟨hj, hij⟩, h⟩
        · intro j _ m x y
          unfold addPair
          rw [recorded_foldl (P := fun n x y => ∃ q, ids j n = some q ∧ Both (i, p) (j, q) x y) _ m
            (fun e _ m x y => recorded_addAt ids (i, p) j m e x y)]
          refine or_congr Iff.rfl ⟨?_, ?_⟩
          · rintro ⟨n, hn, h⟩; exact ⟨n, mem_examined.1 hn, h⟩
          · rintro ⟨n, hn, h⟩; exact ⟨n, mem_examined.2 hn, h⟩

/-! ## Meshes given by tables -/

/-- a mesh with cells 0, 1, … whose faces are listed; a cell is artificial on a rank if it is neither owned nor
next to an owned cell -/
def tableMesh (t : List (List Side)) (level : List Nat) (levels : Nat) (owner : List Nat) (ranks : Nat) : WMesh where
  cells := List.range t.length
  sides c := t.getD c []
  level c := level.getD c 0
  levels := levels
  owner c := owner.getD c 0
  ranks := ranks
  artificial r c := owner.getD c 0 != r && !((t.getD c []).flatMap Side.contact).any fun n => owner.getD n 0 == r

/-- check of one face -/
def sideCheck (M : WMesh) : Side → Bool
  | .boundary => true
  | .active _ => true
  | .refined ch lv => (lv.all fun l => M.cells.contains l) && ch.all fun x => !x.active || M.cells.contains x.cell

/-- check of a mesh -/
def meshCheck (M : WMesh) : Bool :=
  decide (0 < M.levels) && M.cells.all fun c =>
    ((nbrs M c).all fun n => M.cells.contains n && (nbrs M n).contains c && !M.artificial (M.owner c) n) &&
    (M.sides c).all (sideCheck M) && decide (M.level c < M.levels) && decide (M.owner c < M.ranks)

theorem meshOk_of_check {M : WMesh} (hi : ∀ c, M.sides c ≠ [] → c ∈ M.cells) (h : meshCheck M = true) :
    MeshOk M := by
  unfold meshCheck at h
  rw [Bool.and_eq_true, List.all_eq_true, decide_eq_true_eq] at h
  obtain ⟨h0, h⟩ := h
  have hc : ∀ c ∈ M.cells, (∀ n, Adj M c n → n ∈ M.cells ∧ Adj M n c ∧ M.artificial (M.owner c) n = false) ∧
      (∀ s ∈ M.sides c, sideCheck M s = true) ∧ M.level c < M.levels ∧ M.owner c < M.ranks := by
    intro c hc
    have := h c hc
    simp only [Bool.and_eq_true, List.all_eq_true, decide_eq_true_eq, List.contains_iff_mem, Bool.not_eq_true',
      mem_nbrs] at this
    exact ⟨fun n hn => ⟨(this.1.1.1 n hn).1.1, (this.1.1.1 n hn).1.2, (this.1.1.1 n hn).2⟩, this.1.1.2, this.1.2, this.2⟩
  have hs : ∀ c ∈ M.cells, ∀ ch lv, Side.refined ch lv ∈ M.sides c →
      (∀ l ∈ lv, l ∈ M.cells) ∧ ∀ x ∈ ch, x.active = true → x.cell ∈ M.cells := by
    intro c hcc ch lv hm
    have := (hc c hcc).2.1 _ hm
    simp only [sideCheck, Bool.and_eq_true, List.all_eq_true, List.contains_iff_mem, Bool.or_eq_true,
      Bool.not_eq_true'] at this
    refine ⟨this.1, fun x hx ha => ?_⟩
    rcases this.2 x hx with h | h
    · rw [ha] at h; simp at h
    · exact h
  exact ⟨hi, fun c h n ha => ((hc c h).1 n ha).1, fun c h ch lv hm => (hs c h ch lv hm).1,
    fun c h ch lv hm => (hs c h ch lv hm).2, fun c h n ha => ((hc c h).1 n ha).2.1, h0,
    fun c h => (hc c h).2.2.1, fun c h => (hc c h).2.2.2, fun c h n ha => ((hc c h).1 n ha).2.2⟩

theorem tableMesh_ok (t : List (List Side)) (level : List Nat) (levels : Nat) (owner : List Nat) (ranks : Nat)
    (h : meshCheck (tableMesh t level levels owner ranks) = true) :
    MeshOk (tableMesh t level levels owner ranks) :=
  meshOk_of_check (fun c hc => by
    show c ∈ List.range t.length
    rw [List.mem_range]
    by_contra hn
    exact hc (by
      show t.getD c [] = []
      rw [List.getD_eq_getElem?_getD, List.getElem?_eq_none (by omega)]; rfl)) h

/-! ## Encoding -/

theorem readPairs_ok (a : Part) : ∀ (l : List Part) (m : NMap) (t : List Nat),
    ∃ m', readPairs a l.length m (l.flatMap (fun b => [b.1, b.2]) ++ t) = .ok (m', t) ∧
      ∀ x y, Recorded m' x y ↔ Recorded m x y ∨ (x = a ∧ y ∈ l)
  | [], m, t => ⟨m, rfl, fun x y => by simp⟩
  | b :: l, m, t => by
    obtain ⟨m', h1, h2⟩ := readPairs_ok a l (insertN m a b) t
    refine ⟨m', ?_, fun x y => ?_⟩
    · rw [← h1]; simp [readPairs]
    · rw [h2, recorded_insertN, List.mem_cons]; tauto

theorem decode_ok : ∀ (l : NMap) (fuel : Nat) (m : NMap), l.length ≤ fuel →
    ∃ m', decode fuel m (encode l) = .ok m' ∧ ∀ x y, Recorded m' x y ↔ Recorded m x y ∨ Recorded l x y
  | [], fuel, m, _ => ⟨m, by cases fuel <;> rfl, fun x y => by simp [recorded_nil]⟩
  | (a, s) :: l, 0, m, h => by simp at h
  | (a, s) :: l, fuel + 1, m, h => by
    obtain ⟨m1, h1, h2⟩ := readPairs_ok a s (emplaceN m a) (encode l)
    obtain ⟨m', h3, h4⟩ := decode_ok l fuel m1 (by simpa using h)
    refine ⟨m', ?_, fun x y => ?_⟩
    · have he : encode ((a, s) :: l) =
          a.1 :: a.2 :: s.length :: (s.flatMap (fun b => [b.1, b.2]) ++ encode l) := by simp [encode]
      rw [he]
      unfold decode
      rw [show ((a.1, a.2) : Part) = a from rfl, h1]
      exact h3
    · rw [h4, h2, recorded_emplaceN, recorded_cons, or_assoc]
      refine or_congr Iff.rfl (or_congr ?_ Iff.rfl)
      rw [eq_comm]

theorem encode_length (l : NMap) : l.length ≤ (encode l).length := by
  induction l with
  | nil => simp
  | cons e l ih => simp [encode] at ih ⊢; omega

theorem directNeighbors_ok (M : WMesh) (nOp : Nat) (ids : Nat → Nat → Option Nat) :
    ∃ m, directNeighbors M nOp ids = .ok m ∧ ∀ x y, Recorded m x y ↔
      ∃ r < M.ranks, ∃ c ∈ M.cells, M.owner c = r ∧ FoundAt M nOp ids r c x y := by
  have key : ∀ (l : List Nat) (m : NMap), ∃ m', l.foldlM (fun m r =>
      let l := encode (localNeighbors M nOp ids r)
      decode l.length m l) m = Res.ok m' ∧ ∀ x y, Recorded m' x y ↔ Recorded m x y ∨
        ∃ r ∈ l, Recorded (localNeighbors M nOp ids r) x y := by
    intro l
    induction l with
    | nil => exact fun m => ⟨m, rfl, fun x y => by simp⟩
    | cons r l ih =>
      intro m
      obtain ⟨m1, h1, h2⟩ := decode_ok (localNeighbors M nOp ids r) _ m (encode_length _)
      obtain ⟨m', h3, h4⟩ := ih m1
      refine ⟨m', ?_, fun x y => ?_⟩
      · rw [List.foldlM_cons]
        show (decode _ m _ >>= _) = _
        rw [h1]; exact h3
      · rw [h4, h2, or_assoc]; simp
  obtain ⟨m, h1, h2⟩ := key (List.range M.ranks) []
  refine ⟨m, h1, fun x y => ?_⟩
  rw [h2]
  simp only [recorded_nil, false_or, List.mem_range, recorded_local]

/-! ## Distances of the representations -/

section
variable {K : Type} [Field K] [LinearOrder K]

theorem lookup_emplaceP {α : Type} (m : List ((Nat × Nat) × α)) (k : Nat × Nat) (v : α) (k' : Nat × Nat) :
    lookup (emplaceP m k v) k' = if k' = k then some ((lookup m k).getD v) else lookup m k' := by
  induction m with
  | nil =>
    by_cases h : k = k'
    · subst h; simp [emplaceP, lookup]
    · simp [emplaceP, lookup, h, Ne.symm h]
  | cons e m ih =>
    obtain ⟨a, b⟩ := e
    unfold emplaceP
    by_cases h : a = k
    · subst h
      rw [if_pos rfl]
      by_cases h' : a = k'
      · subst h'; simp [lookup]
      · simp [lookup, h', Ne.symm h']
    · rw [if_neg h]
      by_cases h' : a = k'
      · subst h'; simp [lookup, h]
      · simp only [lookup, if_neg h', ih, if_neg h]

/-- entry of the distances of particle `i` -/
def entry (l : List (PMap K)) (i : Nat) (k : Nat × Nat) : Option K := lookup (l.getD i []) k

omit [Field K] [LinearOrder K] in
theorem putAt_ok {l : List (PMap K)} {i : Nat} (hi : i < l.length) (k : Nat × Nat) (v : K) :
    ∃ l', putAt l i k v = .ok l' ∧ l'.length = l.length ∧
      ∀ j k', entry l' j k' = if j = i ∧ k' = k then some ((entry l i k).getD v) else entry l j k' := by
  refine ⟨_, if_pos hi, by simp, fun j k' => ?_⟩
  unfold entry
  rw [List.getD_eq_getElem?_getD, List.getElem?_modify]
  by_cases hj : i = j
  · subst hj
    rw [List.getElem?_eq_getElem hi]
    simp only [if_true, Option.map_eq_map, Option.map_some, Option.getD_some, lookup_emplaceP, true_and]
    rw [List.getD_eq_getElem?_getD, List.getElem?_eq_getElem hi]
    rfl
  · rw [if_neg (fun h => hj h.1.symm), List.getD_eq_getElem?_getD]
    simp [hj]

omit [Field K] [LinearOrder K] in
/-- estimated distances of order parameter `op` are entered in both directions -/
theorem putBoths_ok (op n : Nat) : ∀ (est : PMap K) (l : List (PMap K)), l.length = n →
    (∀ e ∈ est, e.1.1 < e.1.2 ∧ e.1.2 < n) →
    ∃ l', est.foldlM (putBoth op) l = .ok l' ∧ l'.length = n ∧
      ∀ i k, entry l' i k = if k.1 = op ∧ i ≠ k.2 then
        (match entry l i k with
          | some v => some v
          | none => lookup est (pairKey i k.2)) else entry l i k
  | [], l, hl, _ => by
    refine ⟨l, rfl, hl, fun i k => ?_⟩
    by_cases h : k.1 = op ∧ i ≠ k.2
    · rw [if_pos h]; rcases entry l i k with _ | v <;> simp [lookup]
    · rw [if_neg h]
  | e :: est, l, hl, he => by
    obtain ⟨h1, h2⟩ := he e (by simp)
    obtain ⟨l1, e1, n1, p1⟩ := putAt_ok (l := l) (i := e.1.1) (by omega) (op, e.1.2) e.2
    obtain ⟨l2, e2, n2, p2⟩ := putAt_ok (l := l1) (i := e.1.2) (by omega) (op, e.1.1) e.2
    obtain ⟨l3, e3, n3, p3⟩ := putBoths_ok op n est l2 (by omega) (fun x hx => he x (by simp [hx]))
    refine ⟨l3, ?_, n3, fun i k => ?_⟩
    · rw [List.foldlM_cons]
      show (putBoth op l e >>= _) = _
      unfold putBoth
      rw [e1]
      show (putAt l1 e.1.2 (op, e.1.1) e.2 >>= _) = _
      rw [e2]
      exact e3
    · obtain ⟨⟨p, q⟩, v⟩ := e
      obtain ⟨o, j⟩ := k
      rw [p3]
      simp only at h1 h2 p1 p2 ⊢
      by_cases ho : o = op ∧ i ≠ j
      · obtain ⟨rfl, hij⟩ := ho
        rw [if_pos ⟨rfl, hij⟩, if_pos ⟨rfl, hij⟩, p2, p1, p1]
        rw [show ∀ k, lookup (((p, q), v) :: est) k = if (p, q) = k then some v else lookup est k from
          fun k => rfl]
        unfold pairKey
        simp only [Prod.mk.injEq, true_and]
        by_cases c1 : i = q ∧ j = p
        · obtain ⟨rfl, rfl⟩ := c1
          rw [if_pos ⟨rfl, rfl⟩, if_neg (by omega)]
          rw [Nat.min_eq_right (by omega), Nat.max_eq_left (by omega)]
          rcases entry l i (o, j) with _ | w <;> simp
        · rw [if_neg c1]
          by_cases c2 : i = p ∧ j = q
          · obtain ⟨rfl, rfl⟩ := c2
            rw [if_pos ⟨rfl, rfl⟩]
            rw [Nat.min_eq_left (by omega), Nat.max_eq_right (by omega)]
            rcases entry l i (o, j) with _ | w <;> simp
          · rw [if_neg c2]
            have : ¬ (p = min i j ∧ q = max i j) := by omega
            rw [if_neg this]
      · rw [if_neg ho, if_neg ho, p2, p1, p1]
        rw [if_neg, if_neg]
        · rintro ⟨rfl, h⟩; injection h with ha hb; subst ha hb; exact ho ⟨rfl, by omega⟩
        · rintro ⟨rfl, h⟩; injection h with ha hb; subst ha hb; exact ho ⟨rfl, by omega⟩

omit [LinearOrder K] in
theorem putZeros_ok (n i : Nat) : ∀ (bs : List Part) (l : List (PMap K)), l.length = n → (bs ≠ [] → i < n) →
    ∃ l', bs.foldlM (fun l b => putAt l i b 0) l = .ok l' ∧ l'.length = n ∧
      ∀ j k, entry l' j k = if j = i ∧ k ∈ bs then some ((entry l j k).getD 0) else entry l j k
  | [], l, hl, _ => ⟨l, rfl, hl, fun j k => by simp⟩
  | b :: bs, l, hl, hi => by
    have hi : i < n := hi (by simp)
    obtain ⟨l1, e1, n1, p1⟩ := putAt_ok (l := l) (i := i) (by omega) b 0
    obtain ⟨l2, e2, n2, p2⟩ := putZeros_ok n i bs l1 (by omega) fun _ => hi
    refine ⟨l2, ?_, n2, fun j k => ?_⟩
    · rw [List.foldlM_cons]
      show (putAt l i b 0 >>= _) = _
      rw [e1]; exact e2
    · rw [p2, p1]
      by_cases hj : j = i
      · subst hj
        by_cases hk : k = b
        · subst hk; by_cases hb : k ∈ bs <;> simp [hb]
        · by_cases hb : k ∈ bs <;> simp [hb, hk]
      · simp [hj]

open Classical in
omit [LinearOrder K] in
theorem putDirects_ok (op n : Nat) : ∀ (dn : NMap) (l : List (PMap K)), l.length = n →
    (∀ i b, Recorded dn (op, i) b → i < n) →
    ∃ l', dn.foldlM (putDirect op) l = .ok l' ∧ l'.length = n ∧
      ∀ j k, entry l' j k = if Recorded dn (op, j) k then some ((entry l j k).getD 0) else entry l j k
  | [], l, hl, _ => ⟨l, rfl, hl, fun j k => by rw [if_neg recorded_nil]⟩
  | (a, bs) :: dn, l, hl, he => by
    have hstep : ∃ l', putDirect op l (a, bs) = .ok l' ∧ l'.length = n ∧
        ∀ j k, entry l' j k = if a = (op, j) ∧ k ∈ bs then some ((entry l j k).getD 0) else entry l j k := by
      unfold putDirect
      by_cases ha : a.1 = op
      · obtain ⟨l', e1, n1, p1⟩ := putZeros_ok n a.2 bs l hl (fun hb => by
          obtain ⟨b, hb⟩ := List.exists_mem_of_ne_nil _ hb
          exact he a.2 b (recorded_cons.2 (.inl ⟨by rw [← ha], hb⟩)))
        refine ⟨l', by rw [if_pos ha]; exact e1, n1, fun j k => ?_⟩
        rw [p1]
        have : (j = a.2 ∧ k ∈ bs) ↔ (a = (op, j) ∧ k ∈ bs) := by
          rw [Prod.ext_iff]; simp [ha, eq_comm]
        simp only [this]
      · refine ⟨l, by rw [if_neg ha], hl, fun j k => ?_⟩
        rw [if_neg]; rintro ⟨rfl, _⟩; exact ha rfl
    obtain ⟨l1, e1, n1, p1⟩ := hstep
    obtain ⟨l2, e2, n2, p2⟩ := putDirects_ok op n dn l1 n1 (fun i b h => he i b (recorded_cons.2 (.inr h)))
    refine ⟨l2, by rw [List.foldlM_cons, e1]; exact e2, n2, fun j k => ?_⟩
    rw [p2, p1]
    simp only [recorded_cons]
    by_cases h1 : Recorded dn (op, j) k <;> by_cases h2 : a = (op, j) ∧ k ∈ bs <;> simp [h1, h2]

end
end Verif.Wavefront
