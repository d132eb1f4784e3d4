import Verif.Lemmas.Wavefront
import Mathlib.Algebra.Order.Field.Basic
/-!
# Lemmas on growing fronts: the loop
-/
namespace Verif.Wavefront
variable {K : Type} [Field K] [LinearOrder K]

/-- a cell waits in a front of its owner -/
def Pend (M : WMesh) (s : WState K) (x : Nat) : Prop := ∃ k, InB (s.aggl (M.owner x)) k x

/-- all neighbours with the same owner have been reached and meetings have been recorded -/
def Done (M : WMesh) (h : K) (s : WState K) (c : Nat) : Prop :=
  ∀ n, Adj M c n → M.owner n = M.owner c → s.marker n ≠ none ∧
    ∀ p q, s.marker c = some p → s.marker n = some q → p ≠ q →
      ∃ v, lookup (s.found (M.owner c)) (pairKey p q) = some v ∧ v ≤ h * ((s.dist c + s.dist n : Int) : K)

/-- markers and distances are final, recorded values only decrease -/
structure Ext (s s' : WState K) : Prop where
  keep : ∀ x, s.marker x ≠ none → s'.marker x = s.marker x ∧ s'.dist x = s.dist x
  found : ∀ r k v, lookup (s.found r) k = some v → ∃ v', v' ≤ v ∧ lookup (s'.found r) k = some v'

omit [Field K] in
theorem Ext.refl (s : WState K) : Ext s s := ⟨fun _ _ => ⟨rfl, rfl⟩, fun _ _ v h => ⟨v, le_refl v, h⟩⟩

omit [Field K] in
theorem Ext.trans {s s1 s2 : WState K} (h1 : Ext s s1) (h2 : Ext s1 s2) : Ext s s2 := by
  refine ⟨fun x hx => ?_, fun r k v hv => ?_⟩
  · obtain ⟨a, b⟩ := h1.keep x hx
    obtain ⟨c, d⟩ := h2.keep x (by rw [a]; exact hx)
    exact ⟨c.trans a, d.trans b⟩
  · obtain ⟨v1, l1, e1⟩ := h1.found r k v hv
    obtain ⟨v2, l2, e2⟩ := h2.found r k v1 e1
    exact ⟨v2, l2.trans l1, e2⟩

theorem Done.ext {M : WMesh} {h : K} {s s' : WState K} {c : Nat} (hE : Ext s s')
    (hc : s.marker c ≠ none) (hD : Done M h s c) : Done M h s' c := by
  intro n ha ho
  obtain ⟨h1, h2⟩ := hD n ha ho
  obtain ⟨en, dn⟩ := hE.keep n h1
  obtain ⟨ec, dc⟩ := hE.keep c hc
  refine ⟨by rw [en]; exact h1, fun p q hp hq hpq => ?_⟩
  obtain ⟨v, hv, hle⟩ := h2 p q (ec ▸ hp) (en ▸ hq) hpq
  obtain ⟨v', hle', hv'⟩ := hE.found _ _ _ hv
  exact ⟨v', hv', by rw [dc, dn]; exact hle'.trans hle⟩

theorem cellSize_eq (M : WMesh) (c : Nat) : weight M c = cellSize M c := rfl

/-- invariant while rank `r` is at work: `m0`, `d0` are markers and distances at the beginning of the pass,
`A0` the fronts of the rank at that time, `rest` the cells of the current front still to be processed -/
structure RI (M : WMesh) (h : K) (pid : Nat → Option Nat) (m0 : Nat → Option Nat) (d0 : Nat → Int) (r : Nat)
    (A0 : List (List Nat)) (rest : List Nat) (s : WState K) : Prop where
  len : ∀ r < M.ranks, (s.aggl r).length = M.levels
  part : ∀ c ∈ M.cells, ∀ p, pid c = some p → s.marker c = some p
  reach : ∀ c ∈ M.cells, ∀ p, pid c = none → s.marker c = some p → Front M pid p c (s.dist c)
  zero : ∀ c ∈ M.cells, Starts M pid c → s.dist c = cellSize M c - 1
  minus : ∀ c ∈ M.cells, pid c ≠ none → ¬ Starts M pid c → s.dist c = -1
  mem : ∀ r < M.ranks, ∀ k x, InB (s.aggl r) k x →
    x ∈ M.cells ∧ M.owner x = r ∧ s.marker x ≠ none ∧ Moves M pid x
  proc : ∀ c ∈ M.cells, Moves M pid c → s.marker c ≠ none →
    Pend M s c ∨ Done M h s c ∨ (M.owner c = r ∧ c ∈ rest)
  snap : ∀ x, m0 x ≠ none → s.marker x = m0 x ∧ s.dist x = d0 x
  newp : ∀ x ∈ M.cells, m0 x = none → s.marker x ≠ none → Pend M s x
  agg : ∀ k x, InB (s.aggl r) k x → InB A0 (k + 1) x ∨ (x ∈ M.cells ∧ m0 x = none ∧ s.marker x ≠ none)
  sound : ∀ r < M.ranks, ∀ k v, (k, v) ∈ s.found r →
    ∃ c n p q, c ∈ M.cells ∧ Moves M pid c ∧ Adj M c n ∧ M.owner c = r ∧ M.owner n = r ∧
      s.marker c = some p ∧ s.marker n = some q ∧ p ≠ q ∧ k = pairKey p q ∧
      v = h * ((s.dist c + s.dist n : Int) : K)

/-- nothing but the entries of rank `r` changes in the data of the ranks -/
def Frame (r : Nat) (s s' : WState K) : Prop :=
  s'.cache = s.cache ∧ ∀ r', r' ≠ r → s'.aggl r' = s.aggl r' ∧ s'.found r' = s.found r'

omit [Field K] [LinearOrder K] in
theorem Frame.refl (r : Nat) (s : WState K) : Frame r s s := ⟨rfl, fun _ _ => ⟨rfl, rfl⟩⟩

omit [Field K] [LinearOrder K] in
theorem Frame.trans {r : Nat} {s s1 s2 : WState K} (h1 : Frame r s s1) (h2 : Frame r s1 s2) :
    Frame r s s2 :=
  ⟨h2.1.trans h1.1, fun r' hr => ⟨(h2.2 r' hr).1.trans (h1.2 r' hr).1, (h2.2 r' hr).2.trans (h1.2 r' hr).2⟩⟩

section
variable {M : WMesh} {h : K} {pid : Nat → Option Nat} {m0 : Nat → Option Nat} {d0 : Nat → Int} {r : Nat}
  {A0 : List (List Nat)} {rest : List Nat} {s : WState K}

omit [LinearOrder K] [Field K] in
theorem colour_marker (n : Nat) (m : Option Nat) (d : Int) (x : Nat) :
    (colour M r s n m d).marker x = if x = n then m else s.marker x := rfl

omit [LinearOrder K] [Field K] in
theorem colour_dist (n : Nat) (m : Option Nat) (d : Int) (x : Nat) :
    (colour M r s n m d).dist x = if x = n then d else s.dist x := rfl

omit [LinearOrder K] [Field K] in
theorem colour_aggl (n : Nat) (m : Option Nat) (d : Int) (r' : Nat) :
    (colour M r s n m d).aggl r' =
      if r' = r then pushAt (s.aggl r) (M.levels - 1 - M.level n) n else s.aggl r' := rfl

omit [LinearOrder K] [Field K] in
theorem colour_inB {n : Nat} {m : Option Nat} {d : Int} {r' k x : Nat}
    (hx : InB (s.aggl r') k x) : InB ((colour M r s n m d).aggl r') k x := by
  rw [colour_aggl]
  by_cases hr : r' = r
  · subst hr; rw [if_pos rfl]; exact inB_pushAt.2 (.inl hx)
  · rw [if_neg hr]; exact hx

/-- a void cell is reached -/
theorem RI.colour (hM : MeshOk M) (hI : RI M h pid m0 d0 r A0 rest s) (hr : r < M.ranks)
    {n p : Nat} {d : Int} (hn : n ∈ M.cells) (ho : M.owner n = r) (hu : s.marker n = none)
    (hF : Front M pid p n d) :
    RI M h pid m0 d0 r A0 rest (colour M r s n (some p) d) ∧ Ext s (colour M r s n (some p) d) ∧
      Frame r s (colour M r s n (some p) d) := by
  have hv : pid n = none := by
    rcases hp : pid n with _ | q
    · rfl
    · rw [hI.part n hn q hp] at hu; simp at hu
  have hne : ∀ x, s.marker x ≠ none → x ≠ n := fun x hx e => hx (e ▸ hu)
  have hE : Ext s (Wavefront.colour M r s n (some p) d) := by
    refine ⟨fun x hx => ?_, fun _ _ v hv => ⟨v, le_refl v, hv⟩⟩
    rw [colour_marker, colour_dist, if_neg (hne x hx), if_neg (hne x hx)]; exact ⟨rfl, rfl⟩
  have hpn : Pend M (Wavefront.colour M r s n (some p) d) n := by
    refine ⟨M.levels - 1 - M.level n, ?_⟩
    rw [ho, colour_aggl, if_pos rfl]
    have := hM.level n hn
    exact inB_pushAt.2 (.inr ⟨rfl, by rw [hI.len r hr]; omega, rfl⟩)
  have hmk : ∀ x, s.marker x ≠ none → (Wavefront.colour M r s n (some p) d).marker x ≠ none := fun x hx => by
    rw [(hE.keep x hx).1]; exact hx
  refine ⟨⟨?_, ?_, ?_, ?_, ?_, ?_, ?_, ?_, ?_, ?_, ?_⟩, hE, rfl, fun r' hr' => ⟨?_, rfl⟩⟩
  · intro r' hr'
    rw [colour_aggl]
    by_cases e : r' = r
    · rw [if_pos e, length_pushAt]; exact hI.len r hr
    · rw [if_neg e]; exact hI.len r' hr'
  · intro c hc q hq
    rw [(hE.keep c (by rw [hI.part c hc q hq]; simp)).1]; exact hI.part c hc q hq
  · intro c hc q hq hm
    by_cases e : c = n
    · subst e
      rw [colour_marker, if_pos rfl] at hm
      cases hm
      rw [colour_dist, if_pos rfl]; exact hF
    · rw [colour_marker, if_neg e] at hm
      rw [colour_dist, if_neg e]; exact hI.reach c hc q hq hm
  · intro c hc hs
    obtain ⟨q, hq⟩ := hs.pid
    rw [(hE.keep c (by rw [hI.part c hc q hq]; simp)).2]; exact hI.zero c hc hs
  · intro c hc hq hs
    obtain ⟨q, hq⟩ := Option.ne_none_iff_exists'.1 hq
    rw [(hE.keep c (by rw [hI.part c hc q hq]; simp)).2]; exact hI.minus c hc (by rw [hq]; simp) hs
  · intro r' hr' k x hx
    rw [colour_aggl] at hx
    by_cases e : r' = r
    · subst e
      rw [if_pos rfl] at hx
      rcases inB_pushAt.1 hx with hx | ⟨_, _, rfl⟩
      · obtain ⟨a, b, c, e⟩ := hI.mem r' hr' k x hx
        exact ⟨a, b, hmk x c, e⟩
      · exact ⟨hn, ho, by rw [colour_marker, if_pos rfl]; simp, .inl hv⟩
    · rw [if_neg e] at hx
      obtain ⟨a, b, c, e⟩ := hI.mem r' hr' k x hx
      exact ⟨a, b, hmk x c, e⟩
  · intro c hc hmv hm
    by_cases e : c = n
    · subst e; exact .inl hpn
    · have hm' : s.marker c ≠ none := by rwa [colour_marker, if_neg e] at hm
      rcases hI.proc c hc hmv hm' with ⟨k, hk⟩ | hd | hd
      · exact .inl ⟨k, colour_inB hk⟩
      · exact .inr (.inl (hd.ext hE hm'))
      · exact .inr (.inr hd)
  · intro x hx
    obtain ⟨a, b⟩ := hI.snap x hx
    obtain ⟨a', b'⟩ := hE.keep x (by rw [a]; exact hx)
    exact ⟨a'.trans a, b'.trans b⟩
  · intro x hx h0 hm
    by_cases e : x = n
    · subst e; exact hpn
    · rw [colour_marker, if_neg e] at hm
      obtain ⟨k, hk⟩ := hI.newp x hx h0 hm
      exact ⟨k, colour_inB hk⟩
  · intro k x hx
    rw [colour_aggl, if_pos rfl] at hx
    rcases inB_pushAt.1 hx with hx | ⟨_, _, rfl⟩
    · exact (hI.agg k x hx).imp_right fun ⟨a, b, c⟩ => ⟨a, b, hmk x c⟩
    · refine .inr ⟨hn, ?_, by rw [colour_marker, if_pos rfl]; simp⟩
      by_contra h0
      rw [(hI.snap x h0).1] at hu; exact h0 hu
  · intro r' hr' k v hv
    obtain ⟨c, n', p', q', h1, h2, h3, h4, h5, h6, h7, h8, h9, h10⟩ := hI.sound r' hr' k v hv
    obtain ⟨a, b⟩ := hE.keep c (by rw [h6]; simp)
    obtain ⟨a', b'⟩ := hE.keep n' (by rw [h7]; simp)
    exact ⟨c, n', p', q', h1, h2, h3, h4, h5, a.trans h6, a'.trans h7, h8, h9, by rw [b, b']; exact h10⟩
  · rw [colour_aggl, if_neg hr']

omit [Field K] in
theorem mem_record {m : PMap K} {k k' : Nat × Nat} {v v' : K} (hv : (k', v') ∈ record m k v) :
    (k', v') ∈ m ∨ (k' = k ∧ (v' = v ∨ ((k, v') ∈ m))) := by
  induction m with
  | nil => simp [record] at hv; exact .inr ⟨hv.1, .inl hv.2⟩
  | cons e m ih =>
    obtain ⟨a, b⟩ := e
    unfold record at hv
    by_cases h : a = k
    · rw [if_pos h] at hv
      rcases List.mem_cons.1 hv with hv | hv
      · obtain ⟨rfl, rfl⟩ := Prod.mk.inj hv
        refine .inr ⟨h, ?_⟩
        rcases min_choice b v with e | e
        · rw [e, ← h]; exact .inr (by simp)
        · exact .inl e
      · exact .inl (by simp [hv])
    · rw [if_neg h] at hv
      rcases List.mem_cons.1 hv with hv | hv
      · exact .inl (by rw [hv]; simp)
      · rcases ih hv with h' | ⟨h1, h' | h'⟩
        · exact .inl (by simp [h'])
        · exact .inr ⟨h1, .inl h'⟩
        · exact .inr ⟨h1, .inr (by simp [h'])⟩

omit [Field K] in
theorem lookup_record_mono {m : PMap K} {k k' : Nat × Nat} {v w : K} (hv : lookup m k' = some w) :
    ∃ v', v' ≤ w ∧ lookup (record m k v) k' = some v' := by
  rw [lookup_record]
  by_cases e : k' = k
  · subst e; rw [if_pos rfl, hv]; exact ⟨min w v, min_le_left _ _, rfl⟩
  · rw [if_neg e]; exact ⟨w, le_refl w, hv⟩

/-- two fronts meet -/
theorem RI.record (hI : RI M h pid m0 d0 r A0 rest s) (hr : r < M.ranks)
    {c n p q : Nat} (hc : c ∈ M.cells) (hmv : Moves M pid c) (ha : Adj M c n) (hco : M.owner c = r)
    (hno : M.owner n = r) (hp : s.marker c = some p) (hq : s.marker n = some q) (hpq : p ≠ q) :
    let m := record (s.found r) (pairKey p q) (h * ((s.dist c + s.dist n : Int) : K))
    let s' : WState K := { s with found := upd s.found r m }
    RI M h pid m0 d0 r A0 rest s' ∧ Ext s s' ∧ Frame r s s' ∧
      ∃ v, lookup (s'.found r) (pairKey p q) = some v ∧ v ≤ h * ((s.dist c + s.dist n : Int) : K) := by
  intro m s'
  have hE : Ext s s' := by
    refine ⟨fun _ _ => ⟨rfl, rfl⟩, fun r' k v hv => ?_⟩
    show ∃ v', v' ≤ v ∧ lookup (upd s.found r m r') k = some v'
    unfold upd
    by_cases e : r' = r
    · subst e; rw [if_pos rfl]; exact lookup_record_mono hv
    · rw [if_neg e]; exact ⟨v, le_refl v, hv⟩
  refine ⟨⟨hI.len, hI.part, hI.reach, hI.zero, hI.minus, hI.mem, ?_, hI.snap, hI.newp, hI.agg, ?_⟩, hE,
    ⟨rfl, fun r' hr' => ⟨rfl, ?_⟩⟩, ?_⟩
  · intro x hx hmx hm
    rcases hI.proc x hx hmx hm with hd | hd | hd
    · exact .inl hd
    · exact .inr (.inl (hd.ext hE hm))
    · exact .inr (.inr hd)
  · intro r' hr' k v hv
    change (k, v) ∈ upd s.found r m r' at hv
    unfold upd at hv
    by_cases e : r' = r
    · subst e
      rw [if_pos rfl] at hv
      rcases mem_record hv with hv | ⟨ek, ev | hv⟩
      · exact hI.sound r' hr' k v hv
      · exact ⟨c, n, p, q, hc, hmv, ha, hco, hno, hp, hq, hpq, ek, ev⟩
      · exact hI.sound r' hr' k v (ek ▸ hv)
    · rw [if_neg e] at hv
      exact hI.sound r' hr' k v hv
  · show upd s.found r m r' = _
    unfold upd; rw [if_neg hr']
  · show ∃ v, lookup (upd s.found r m r) _ = some v ∧ _
    unfold upd
    rw [if_pos rfl]
    show ∃ v, lookup (Wavefront.record _ _ _) _ = some v ∧ _
    rw [lookup_record, if_pos rfl]
    rcases lookup (s.found r) (pairKey p q) with _ | w
    · exact ⟨_, rfl, le_refl _⟩
    · exact ⟨_, rfl, min_le_right _ _⟩

/-- part of `Done` for one neighbour -/
def DoneAt (M : WMesh) (h : K) (s : WState K) (c n : Nat) : Prop :=
  s.marker n ≠ none ∧ ∀ p q, s.marker c = some p → s.marker n = some q → p ≠ q →
    ∃ v, lookup (s.found (M.owner c)) (pairKey p q) = some v ∧ v ≤ h * ((s.dist c + s.dist n : Int) : K)

theorem DoneAt.ext {s' : WState K} {c n : Nat} (hE : Ext s s')
    (hc : s.marker c ≠ none) (hD : DoneAt M h s c n) : DoneAt M h s' c n := by
  obtain ⟨h1, h2⟩ := hD
  obtain ⟨en, dn⟩ := hE.keep n h1
  obtain ⟨ec, dc⟩ := hE.keep c hc
  refine ⟨by rw [en]; exact h1, fun p q hp hq hpq => ?_⟩
  obtain ⟨v, hv, hle⟩ := h2 p q (ec ▸ hp) (en ▸ hq) hpq
  obtain ⟨v', hle', hv'⟩ := hE.found _ _ _ hv
  exact ⟨v', hv', by rw [dc, dn]; exact hle'.trans hle⟩

theorem RI.front (hI : RI M h pid m0 d0 r A0 rest s) {c p : Nat} (hc : c ∈ M.cells) (hmv : Moves M pid c)
    (hp : s.marker c = some p) : Front M pid p c (s.dist c) := by
  rcases hmv with hv | hs
  · exact hI.reach c hc p hv hp
  · obtain ⟨q, hq⟩ := hs.pid
    have := hI.part c hc q hq
    rw [hp] at this; cases this
    rw [hI.zero c hc hs]; exact .start c hq hs

theorem handle_ok (hM : MeshOk M) (hI : RI M h pid m0 d0 r A0 rest s) (hr : r < M.ranks) {c n : Nat}
    (hc : c ∈ M.cells) (hmv : Moves M pid c) (hm : s.marker c ≠ none) (hco : M.owner c = r)
    (ha : Adj M c n) (hno : M.owner n = r) :
    RI M h pid m0 d0 r A0 rest (handle M h r c s n) ∧ Ext s (handle M h r c s n) ∧
      Frame r s (handle M h r c s n) ∧ DoneAt M h (handle M h r c s n) c n := by
  obtain ⟨p, hp⟩ := Option.ne_none_iff_exists'.1 hm
  have hn := hM.closed c hc n ha
  unfold handle
  rcases hq : s.marker n with _ | q
  · have hv : pid n = none := by
      rcases hp : pid n with _ | q
      · rfl
      · rw [hI.part n hn q hp] at hq; simp at hq
    have hF : Front M pid p n (s.dist c + weight M n) := .grow c _ n (hI.front hc hmv hp) ha hv
    rw [hp]
    obtain ⟨h1, h2, h3⟩ := hI.colour hM hr hn hno hq hF
    refine ⟨h1, h2, h3, by rw [colour_marker, if_pos rfl]; simp, fun p' q' hp' hq' hpq => ?_⟩
    rw [(h2.keep c hm).1, hp] at hp'
    rw [colour_marker, if_pos rfl] at hq'
    cases hp'; cases hq'; exact absurd rfl hpq
  · rw [hp]
    dsimp only
    by_cases hpq : q = p
    · rw [if_neg (by simpa using hpq)]
      refine ⟨hI, .refl s, .refl r s, by rw [hq]; simp, fun p' q' hp' hq' hne => ?_⟩
      rw [hp] at hp'; rw [hq] at hq'; cases hp'; cases hq'; exact absurd hpq.symm hne
    · rw [if_pos hpq]
      obtain ⟨h1, h2, h3, v, h4, h5⟩ := hI.record hr hc hmv ha hco hno hp hq (Ne.symm hpq)
      refine ⟨h1, h2, h3, by show s.marker n ≠ none; rw [hq]; simp, fun p' q' hp' hq' _ => ?_⟩
      change s.marker c = some p' at hp'
      change s.marker n = some q' at hq'
      rw [hp] at hp'; rw [hq] at hq'; cases hp'; cases hq'
      rw [hco]; exact ⟨v, h4, h5⟩

theorem handles_ok (hM : MeshOk M) (hr : r < M.ranks) {c : Nat}
    (hc : c ∈ M.cells) (hmv : Moves M pid c) (hco : M.owner c = r) :
    ∀ (l : List Nat) (s : WState K), RI M h pid m0 d0 r A0 rest s → s.marker c ≠ none →
      (∀ n ∈ l, Adj M c n ∧ M.owner n = r) →
      RI M h pid m0 d0 r A0 rest (l.foldl (handle M h r c) s) ∧ Ext s (l.foldl (handle M h r c) s) ∧
      Frame r s (l.foldl (handle M h r c) s) ∧ ∀ n ∈ l, DoneAt M h (l.foldl (handle M h r c) s) c n
  | [], s, hI, _, _ => ⟨hI, .refl s, .refl r s, by simp⟩
  | n :: l, s, hI, hm, hl => by
    obtain ⟨ha, hno⟩ := hl n (by simp)
    obtain ⟨h1, h2, h3, h4⟩ := handle_ok hM hI hr hc hmv hm hco ha hno
    have hm1 : (handle M h r c s n).marker c ≠ none := by rw [(h2.keep c hm).1]; exact hm
    obtain ⟨g1, g2, g3, g4⟩ := handles_ok hM hr hc hmv hco l _ h1 hm1 (fun x hx => hl x (by simp [hx]))
    refine ⟨g1, h2.trans g2, h3.trans g3, fun x hx => ?_⟩
    rcases List.mem_cons.1 hx with rfl | hx
    · exact h4.ext g2 hm1
    · exact g4 x hx

theorem processCell_ok (hM : MeshOk M) {c : Nat} (hI : RI M h pid m0 d0 r A0 (c :: rest) s)
    (hr : r < M.ranks) (hc : c ∈ M.cells) (hmv : Moves M pid c) (hm : s.marker c ≠ none)
    (hco : M.owner c = r) :
    RI M h pid m0 d0 r A0 rest (processCell M h r s c) ∧ Ext s (processCell M h r s c) ∧
      Frame r s (processCell M h r s c) := by
  obtain ⟨h1, h2, h3, h4⟩ := handles_ok hM hr hc hmv hco ((nbrs M c).filter fun n => M.owner n == r) s hI hm
    (fun n hn => by
      rw [List.mem_filter, beq_iff_eq] at hn
      exact ⟨mem_nbrs.1 hn.1, hn.2⟩)
  refine ⟨⟨h1.len, h1.part, h1.reach, h1.zero, h1.minus, h1.mem, ?_, h1.snap, h1.newp, h1.agg, h1.sound⟩, h2, h3⟩
  intro x hx hmx hmk
  rcases h1.proc x hx hmx hmk with hd | hd | ⟨ho, hd⟩
  · exact .inl hd
  · exact .inr (.inl hd)
  · rcases List.mem_cons.1 hd with rfl | hd
    · refine .inr (.inl fun n ha hon => ?_)
      exact h4 n (by rw [List.mem_filter, beq_iff_eq]; exact ⟨mem_nbrs.2 ha, hon.trans hco⟩)
    · exact .inr (.inr ⟨ho, hd⟩)

theorem processCells_ok (hM : MeshOk M) (hr : r < M.ranks) :
    ∀ (rest : List Nat) (s : WState K), RI M h pid m0 d0 r A0 rest s →
      (∀ c ∈ rest, c ∈ M.cells ∧ Moves M pid c ∧ s.marker c ≠ none ∧ M.owner c = r) →
      RI M h pid m0 d0 r A0 [] (rest.foldl (processCell M h r) s) ∧
      Ext s (rest.foldl (processCell M h r) s) ∧ Frame r s (rest.foldl (processCell M h r) s)
  | [], s, hI, _ => ⟨hI, .refl s, .refl r s⟩
  | c :: rest, s, hI, hrest => by
    obtain ⟨a, b, d, e⟩ := hrest c (by simp)
    obtain ⟨h1, h2, h3⟩ := processCell_ok hM hI hr a b d e
    obtain ⟨g1, g2, g3⟩ := processCells_ok hM hr rest _ h1 (fun x hx => by
      obtain ⟨a, b, d, e⟩ := hrest x (by simp [hx])
      exact ⟨a, b, by rw [(h2.keep x d).1]; exact d, e⟩)
    exact ⟨g1, h2.trans g2, h3.trans g3⟩

/-- one entry of the list of ghost cells -/
theorem fromGhosts_ok (hM : MeshOk M) (hr : r < M.ranks) {g p : Nat} (hg : g ∈ M.cells)
    (hgo : M.owner g ≠ r) (hp : m0 g = some p) :
    ∀ (l : List Nat) (s : WState K), RI M h pid m0 d0 r A0 rest s →
      (∀ n ∈ l, Adj M g n ∧ M.owner n = r) →
      RI M h pid m0 d0 r A0 rest (l.foldl (fromGhost M r (m0 g) (d0 g)) s) ∧
      Ext s (l.foldl (fromGhost M r (m0 g) (d0 g)) s) ∧
      Frame r s (l.foldl (fromGhost M r (m0 g) (d0 g)) s) ∧
      ∀ n ∈ l, (l.foldl (fromGhost M r (m0 g) (d0 g)) s).marker n ≠ none
  | [], s, hI, _ => ⟨hI, .refl s, .refl r s, by simp⟩
  | n :: l, s, hI, hl => by
    obtain ⟨ha, hno⟩ := hl n (by simp)
    have hn := hM.closed g hg n ha
    have hstep : RI M h pid m0 d0 r A0 rest (fromGhost M r (m0 g) (d0 g) s n) ∧
        Ext s (fromGhost M r (m0 g) (d0 g) s n) ∧ Frame r s (fromGhost M r (m0 g) (d0 g) s n) ∧
        (fromGhost M r (m0 g) (d0 g) s n).marker n ≠ none := by
      unfold fromGhost
      by_cases hu : s.marker n = none
      · rw [if_pos hu, hp]
        have hv : pid n = none := by
          rcases hp : pid n with _ | q
          · rfl
          · rw [hI.part n hn q hp] at hu; simp at hu
        obtain ⟨e1, e2⟩ := hI.snap g (by rw [hp]; simp)
        rw [hp] at e1
        have hF : Front M pid p n (d0 g + weight M n) := by
          rw [← e2]
          by_cases hmv : Moves M pid g
          · exact .grow g _ n (hI.front hg hmv e1) ha hv
          · have hpg : pid g ≠ none := fun e => hmv (.inl e)
            have hsg : ¬ Starts M pid g := fun e => hmv (.inr e)
            obtain ⟨q, hq⟩ := Option.ne_none_iff_exists'.1 hpg
            have := hI.part g hg q hq
            rw [e1] at this; cases this
            rw [hI.minus g hg hpg hsg]
            exact .across g n hq hsg ha hv (by rw [hno]; exact Ne.symm hgo)
        obtain ⟨h1, h2, h3⟩ := hI.colour hM hr hn hno hu hF
        exact ⟨h1, h2, h3, by rw [colour_marker, if_pos rfl]; simp⟩
      · rw [if_neg hu]; exact ⟨hI, .refl s, .refl r s, hu⟩
    obtain ⟨h1, h2, h3, h4⟩ := hstep
    obtain ⟨g1, g2, g3, g4⟩ := fromGhosts_ok hM hr hg hgo hp l _ h1 (fun x hx => hl x (by simp [hx]))
    refine ⟨g1, h2.trans g2, h3.trans g3, fun x hx => ?_⟩
    rcases List.mem_cons.1 hx with rfl | hx
    · show WState.marker (l.foldl _ _) x ≠ none
      rw [(g2.keep x h4).1]; exact h4
    · exact g4 x hx

theorem ghosts_ok (hM : MeshOk M) (hr : r < M.ranks) :
    ∀ (l : List (Nat × List Nat)) (s : WState K), RI M h pid m0 d0 r A0 rest s →
      (∀ e ∈ l, e.1 ∈ M.cells ∧ M.owner e.1 ≠ r ∧ ∀ n ∈ e.2, Adj M e.1 n ∧ M.owner n = r) →
      RI M h pid m0 d0 r A0 rest (l.foldl (ghostStep M r m0 d0) s) ∧
      Ext s (l.foldl (ghostStep M r m0 d0) s) ∧ Frame r s (l.foldl (ghostStep M r m0 d0) s) ∧
      ∀ e ∈ l, m0 e.1 ≠ none → ∀ n ∈ e.2, (l.foldl (ghostStep M r m0 d0) s).marker n ≠ none
  | [], s, hI, _ => ⟨hI, .refl s, .refl r s, by simp⟩
  | e :: l, s, hI, hl => by
    obtain ⟨he, heo, hen⟩ := hl e (by simp)
    have hstep : RI M h pid m0 d0 r A0 rest (ghostStep M r m0 d0 s e) ∧
        Ext s (ghostStep M r m0 d0 s e) ∧ Frame r s (ghostStep M r m0 d0 s e) ∧
        (m0 e.1 ≠ none → ∀ n ∈ e.2, (ghostStep M r m0 d0 s e).marker n ≠ none) := by
      unfold ghostStep
      by_cases h0 : m0 e.1 = none
      · rw [if_pos h0]; exact ⟨hI, .refl s, .refl r s, fun h => absurd h0 h⟩
      · rw [if_neg h0]
        obtain ⟨p, hp⟩ := Option.ne_none_iff_exists'.1 h0
        obtain ⟨h1, h2, h3, h4⟩ := fromGhosts_ok hM hr he heo hp e.2 s hI hen
        exact ⟨h1, h2, h3, fun _ => h4⟩
    obtain ⟨h1, h2, h3, h4⟩ := hstep
    obtain ⟨g1, g2, g3, g4⟩ := ghosts_ok hM hr l _ h1 (fun x hx => hl x (by simp [hx]))
    refine ⟨g1, h2.trans g2, h3.trans g3, fun x hx => ?_⟩
    rcases List.mem_cons.1 hx with rfl | hx
    · intro h0 n hn
      show WState.marker (l.foldl _ _) n ≠ none
      rw [(g2.keep n (h4 h0 n hn)).1]; exact h4 h0 n hn
    · exact g4 x hx

/-- entries in the list of ghost cells of rank `r` -/
def CacheMem (M : WMesh) (r : Nat) (l : List (Nat × List Nat)) : Prop :=
  ∀ e ∈ l, e.1 ∈ M.cells ∧ M.owner e.1 ≠ r ∧ ∀ n ∈ e.2, Adj M e.1 n ∧ M.owner n = r

/-- one rank in one pass -/
theorem rankRound_ok (hM : MeshOk M) (hr : r < M.ranks) {r0 : Nat}
    (hI : RI M h pid m0 d0 r0 A0 [] s)
    (hold : ∀ k x, InB (s.aggl r) k x → m0 x ≠ none)
    (hcache : CacheMem M r (s.cache r)) :
    RI M h pid m0 d0 r (s.aggl r) [] (rankRound M h m0 d0 s r) ∧ Ext s (rankRound M h m0 d0 s r) ∧
      (∀ r', r' ≠ r → (rankRound M h m0 d0 s r).aggl r' = s.aggl r' ∧
        (rankRound M h m0 d0 s r).cache r' = s.cache r') ∧
      (rankRound M h m0 d0 s r).cache r = (s.cache r).filter (fun e => m0 e.1 == none) ∧
      ∀ e ∈ s.cache r, m0 e.1 ≠ none → ∀ n ∈ e.2, (rankRound M h m0 d0 s r).marker n ≠ none := by
  let s1 : WState K := { s with aggl := upd s.aggl r ((s.aggl r).tail ++ [[]]) }
  have hag : ∀ r', s1.aggl r' = if r' = r then (s.aggl r).tail ++ [[]] else s.aggl r' := fun _ => rfl
  have hE1 : Ext s s1 := ⟨fun _ _ => ⟨rfl, rfl⟩, fun _ _ v hv => ⟨v, le_refl v, hv⟩⟩
  have hI1 : RI M h pid m0 d0 r (s.aggl r) ((s.aggl r).headD []) s1 := by
    refine ⟨?_, hI.part, hI.reach, hI.zero, hI.minus, ?_, ?_, hI.snap, ?_, ?_, hI.sound⟩
    · intro r' hr'
      rw [hag]
      by_cases e : r' = r
      · subst e
        rw [if_pos rfl]
        have := hI.len r' hr'
        rcases hl : s.aggl r' with _ | ⟨b, t⟩
        · rw [hl] at this
          have := hM.levels
          simp at *; omega
        · rw [hl] at this; simp at this ⊢; exact this
      · rw [if_neg e]; exact hI.len r' hr'
    · intro r' hr' k x hx
      rw [hag] at hx
      by_cases e : r' = r
      · subst e
        rw [if_pos rfl, inB_tail] at hx
        exact hI.mem r' hr' _ x hx
      · rw [if_neg e] at hx; exact hI.mem r' hr' k x hx
    · intro c hc hmv hm
      rcases hI.proc c hc hmv hm with ⟨k, hk⟩ | hd | ⟨_, hd⟩
      · by_cases e : M.owner c = r
        · rcases k with _ | k
          · rw [e] at hk
            exact .inr (.inr ⟨e, inB_zero.1 hk⟩)
          · refine .inl ⟨k, ?_⟩
            rw [hag, if_pos e, inB_tail, ← e]; exact hk
        · exact .inl ⟨k, by rw [hag, if_neg e]; exact hk⟩
      · exact .inr (.inl hd)
      · simp at hd
    · intro x hx h0 hm
      obtain ⟨k, hk⟩ := hI.newp x hx h0 hm
      by_cases e : M.owner x = r
      · rw [e] at hk; exact absurd h0 (hold k x hk)
      · exact ⟨k, by rw [hag, if_neg e]; exact hk⟩
    · intro k x hx
      rw [hag, if_pos rfl, inB_tail] at hx
      exact .inl hx
  obtain ⟨hI2, hE2, hF2, hG2⟩ := ghosts_ok hM hr (s.cache r) s1 hI1 hcache
  let s2 := (s.cache r).foldl (ghostStep M r m0 d0) s1
  let s3 : WState K := { s2 with cache := upd s2.cache r ((s.cache r).filter fun e => m0 e.1 == none) }
  have hI3 : RI M h pid m0 d0 r (s.aggl r) ((s.aggl r).headD []) s3 :=
    ⟨hI2.len, hI2.part, hI2.reach, hI2.zero, hI2.minus, hI2.mem, hI2.proc, hI2.snap, hI2.newp, hI2.agg, hI2.sound⟩
  have hE3 : Ext s s3 := hE1.trans ⟨hE2.keep, hE2.found⟩
  obtain ⟨hI4, hE4, hF4⟩ := processCells_ok hM hr ((s.aggl r).headD []) s3 hI3 (fun c hc => by
    obtain ⟨a, b, d, e⟩ := hI.mem r hr 0 c (inB_zero.2 hc)
    exact ⟨a, e, by rw [(hE3.keep c d).1]; exact d, b⟩)
  refine ⟨hI4, hE3.trans hE4, fun r' hr' => ⟨?_, ?_⟩, ?_, fun e he h0 n hn => ?_⟩
  · exact ((hF4.2 r' hr').1.trans (hF2.2 r' hr').1).trans (by rw [hag, if_neg hr'])
  · have h1 := congrFun hF4.1 r'
    have h2 := congrFun hF2.1 r'
    have h3 : s3.cache r' = s2.cache r' := by
      show upd s2.cache r _ r' = _
      unfold upd; rw [if_neg hr']
    exact h1.trans (h3.trans h2)
  · have h1 := congrFun hF4.1 r
    have h3 : s3.cache r = (s.cache r).filter fun e => m0 e.1 == none := by
      show upd s2.cache r _ r = _
      unfold upd; rw [if_pos rfl]
    exact h1.trans h3
  · have h2 : s3.marker n ≠ none := hG2 e he h0 n hn
    have h3 := (hE4.keep n h2).1
    intro h4
    exact h2 (h3.symm.trans h4)

/-- state in the middle of a pass, ranks in `l` have not been at work yet -/
structure Mid (M : WMesh) (h : K) (pid : Nat → Option Nat) (s0 : WState K) (l : List Nat) (s : WState K) :
    Prop where
  ri : ∃ r A0, RI M h pid s0.marker s0.dist r A0 [] s
  ext : Ext s0 s
  todo : ∀ r ∈ l, s.aggl r = s0.aggl r ∧ s.cache r = s0.cache r
  cache : ∀ r, r ∉ l → r < M.ranks → s.cache r = (s0.cache r).filter (fun e => s0.marker e.1 == none)
  used : ∀ r, r ∉ l → r < M.ranks → ∀ e ∈ s0.cache r, s0.marker e.1 ≠ none → ∀ n ∈ e.2, s.marker n ≠ none
  agg : ∀ r, r ∉ l → r < M.ranks → ∀ k x, InB (s.aggl r) k x →
    InB (s0.aggl r) (k + 1) x ∨ (x ∈ M.cells ∧ s0.marker x = none ∧ s.marker x ≠ none)

theorem ranks_ok (hM : MeshOk M) {s0 : WState K}
    (hmem : ∀ r < M.ranks, ∀ k x, InB (s0.aggl r) k x → s0.marker x ≠ none)
    (hcache : ∀ r < M.ranks, CacheMem M r (s0.cache r)) :
    ∀ (l : List Nat) (s : WState K), l.Nodup → (∀ r ∈ l, r < M.ranks) → Mid M h pid s0 l s →
      Mid M h pid s0 [] (l.foldl (rankRound M h s0.marker s0.dist) s)
  | [], s, _, _, hs => hs
  | r :: l, s, hnd, hl, hs => by
    have hr := hl r (by simp)
    obtain ⟨r0, A0, hI⟩ := hs.ri
    obtain ⟨t1, t2⟩ := hs.todo r (by simp)
    obtain ⟨h1, h2, h3, h4, h5⟩ := rankRound_ok hM hr hI
      (fun k x hx => hmem r hr k x (t1 ▸ hx)) (t2 ▸ hcache r hr)
    rw [List.nodup_cons] at hnd
    have hmono : ∀ x, s.marker x ≠ none → (rankRound M h s0.marker s0.dist s r).marker x ≠ none := fun x hx => by
      rw [(h2.keep x hx).1]; exact hx
    refine ranks_ok hM hmem hcache l _ hnd.2 (fun r' hr' => hl r' (by simp [hr'])) ⟨⟨r, _, h1⟩, hs.ext.trans h2, ?_, ?_, ?_, ?_⟩
    · intro r' hr'
      have hne : r' ≠ r := fun e => hnd.1 (e ▸ hr')
      obtain ⟨a, b⟩ := h3 r' hne
      obtain ⟨c, d⟩ := hs.todo r' (by simp [hr'])
      exact ⟨a.trans c, b.trans d⟩
    · intro r' hr' hlt
      by_cases e : r' = r
      · subst e; rw [h4, t2]
      · rw [(h3 r' e).2]; exact hs.cache r' (by simp [e, hr']) hlt
    · intro r' hr' hlt x hx h0 n hn
      by_cases e : r' = r
      · subst e; exact h5 x (t2 ▸ hx) h0 n hn
      · exact hmono n (hs.used r' (by simp [e, hr']) hlt x hx h0 n hn)
    · intro r' hr' hlt k x hx
      by_cases e : r' = r
      · subst e
        rw [← t1]; exact h1.agg k x hx
      · rw [(h3 r' e).1] at hx
        exact (hs.agg r' (by simp [e, hr']) hlt k x hx).imp_right fun ⟨a, b, c⟩ => ⟨a, b, hmono x c⟩

/-- invariant of the loop -/
structure GI (M : WMesh) (h : K) (pid : Nat → Option Nat) (s : WState K) : Prop where
  ri : ∃ A0, RI M h pid s.marker s.dist 0 A0 [] s
  mem : ∀ r < M.ranks, CacheMem M r (s.cache r)
  /-- neighbours of cells of other ranks have been reached or are remembered -/
  kept : ∀ c ∈ M.cells, ∀ n, Adj M c n → M.owner n ≠ M.owner c →
    s.marker n ≠ none ∨ ∃ l, (c, l) ∈ s.cache (M.owner n) ∧ n ∈ l
  late : ∀ r < M.ranks, ∀ e ∈ s.cache r, Moves M pid e.1 → s.marker e.1 ≠ none → Pend M s e.1

theorem round_ok (hM : MeshOk M) (hG : GI M h pid s) :
    GI M h pid (Wavefront.round M h s) ∧ Ext s (Wavefront.round M h s) ∧
      ∀ r < M.ranks, ∀ k x, InB ((Wavefront.round M h s).aggl r) k x →
        InB (s.aggl r) (k + 1) x ∨
          (x ∈ M.cells ∧ s.marker x = none ∧ (Wavefront.round M h s).marker x ≠ none) := by
  obtain ⟨A0, hI⟩ := hG.ri
  have hmid : Mid M h pid s [] (Wavefront.round M h s) :=
    ranks_ok hM (fun r hr k x hx => (hI.mem r hr k x hx).2.2.1) hG.mem (List.range M.ranks) s
      List.nodup_range (fun r hr => by simpa using hr)
      ⟨⟨_, _, hI⟩, .refl s, fun _ _ => ⟨rfl, rfl⟩, fun r h1 h2 => absurd (by simpa using h2) h1,
        fun r h1 h2 => absurd (by simpa using h2) h1, fun r h1 h2 => absurd (by simpa using h2) h1⟩
  generalize Wavefront.round M h s = s' at *
  obtain ⟨r0, A1, hJ⟩ := hmid.ri
  have hsub : ∀ r < M.ranks, ∀ e ∈ s'.cache r, e ∈ s.cache r ∧ s.marker e.1 = none := by
    intro r hr e he
    rw [hmid.cache r (by simp) hr, List.mem_filter, beq_iff_eq] at he
    exact he
  refine ⟨⟨⟨[] :: s'.aggl 0, hJ.len, hJ.part, hJ.reach, hJ.zero, hJ.minus, hJ.mem, ?_, fun _ _ => ⟨rfl, rfl⟩,
    fun _ _ h0 h1 => absurd h0 h1, fun k x hx => .inl (by simpa [InB] using hx), hJ.sound⟩, ?_, ?_, ?_⟩,
    hmid.ext, fun r hr => hmid.agg r (by simp) hr⟩
  · intro c hc hmv hm
    rcases hJ.proc c hc hmv hm with hd | hd | ⟨_, hd⟩
    · exact .inl hd
    · exact .inr (.inl hd)
    · simp at hd
  · intro r hr e he
    exact hG.mem r hr e (hsub r hr e he).1
  · intro c hc n ha ho
    have hr := hM.owner n (hM.closed c hc n ha)
    rcases hG.kept c hc n ha ho with hm | ⟨l, hl, hn⟩
    · exact .inl (by rw [(hmid.ext.keep n hm).1]; exact hm)
    · by_cases h0 : s.marker c = none
      · refine .inr ⟨l, ?_, hn⟩
        rw [hmid.cache _ (by simp) hr, List.mem_filter]
        exact ⟨hl, by simp [h0]⟩
      · exact .inl (hmid.used _ (by simp) hr _ hl h0 n hn)
  · intro r hr e he hmv hm
    obtain ⟨a, b⟩ := hsub r hr e he
    exact hJ.newp e.1 (hG.mem r hr e a).1 b hm

/-- the loop ends -/
theorem loop_ok (hM : MeshOk M) :
    ∀ (N D : Nat) (s : WState K), GI M h pid s → D ≤ M.levels →
      (∀ r < M.ranks, ∀ k x, InB (s.aggl r) k x → k < D) →
      (M.levels + 1) * unm M s.marker + D ≤ N →
      ∃ s', loop M h N s = some s' ∧ GI M h pid s' ∧ Ext s s' ∧ ∀ r < M.ranks, ∀ k x, ¬ InB (s'.aggl r) k x := by
  have hany : ∀ s : WState K, anyFront M s = false → ∀ r < M.ranks, ∀ k x, ¬ InB (s.aggl r) k x := by
    intro s hs r hr k x hx
    have : anyFront M s = true := by
      unfold anyFront
      rw [List.any_eq_true]
      exact ⟨r, by simpa using hr, inB_any.2 ⟨k, x, hx⟩⟩
    rw [hs] at this; simp at this
  intro N
  induction N with
  | zero =>
    intro D s hG hD hB hN
    have hf : anyFront M s = false := by
      by_contra hf
      have hf : anyFront M s = true := by simpa using hf
      unfold anyFront at hf
      rw [List.any_eq_true] at hf
      obtain ⟨r, hr, hx⟩ := hf
      obtain ⟨k, x, hx⟩ := inB_any.1 hx
      have := hB r (by simpa using hr) k x hx
      omega
    exact ⟨s, by simp [loop, hf], hG, .refl s, hany s hf⟩
  | succ N ih =>
    intro D s hG hD hB hN
    by_cases hf : anyFront M s = true
    · have hDp : 0 < D := by
        unfold anyFront at hf
        rw [List.any_eq_true] at hf
        obtain ⟨r, hr, hx⟩ := hf
        obtain ⟨k, x, hx⟩ := inB_any.1 hx
        have := hB r (by simpa using hr) k x hx
        omega
      obtain ⟨h1, h2, h3⟩ := round_ok hM hG
      obtain ⟨A1, hJ⟩ := h1.ri
      have hmono : ∀ x, s.marker x ≠ none → (Wavefront.round M h s).marker x ≠ none := fun x hx => by
        rw [(h2.keep x hx).1]; exact hx
      have hstep : ∃ D', D' ≤ M.levels ∧
          (∀ r < M.ranks, ∀ k x, InB ((Wavefront.round M h s).aggl r) k x → k < D') ∧
          (M.levels + 1) * unm M (Wavefront.round M h s).marker + D' ≤ N := by
        by_cases hnew : ∃ x ∈ M.cells, s.marker x = none ∧ (Wavefront.round M h s).marker x ≠ none
        · obtain ⟨x, hx, h0, hm⟩ := hnew
          have hlt := unm_lt (M := M) hmono hx h0 hm
          refine ⟨M.levels, le_refl _, fun r hr k x hx => by have := inB_lt hx; rwa [hJ.len r hr] at this, ?_⟩
          have := Nat.mul_le_mul_left (M.levels + 1) (Nat.succ_le_of_lt hlt)
          rw [Nat.succ_eq_add_one, Nat.mul_add] at this
          omega
        · refine ⟨D - 1, by omega, fun r hr k x hx => ?_, ?_⟩
          · rcases h3 r hr k x hx with hx | hx
            · have := hB r hr (k + 1) x hx; omega
            · exact absurd ⟨x, hx⟩ hnew
          · have := Nat.mul_le_mul_left (M.levels + 1) (unm_le (M := M) hmono)
            omega
      obtain ⟨D', hD', hB', hN'⟩ := hstep
      obtain ⟨s', e, g1, g2, g3⟩ := ih D' _ h1 hD' hB' hN'
      exact ⟨s', by simp [loop, hf, e], g1, h2.trans g2, g3⟩
    · have hf : anyFront M s = false := by simpa using hf
      exact ⟨s, by simp [loop, hf], hG, .refl s, hany s hf⟩

/-- the state before the loop -/
theorem start_ok (hM : MeshOk M) {marker : Nat → Option Nat} {aggl : Nat → List (List Nat)}
    (hP : Prepared M pid marker aggl M.ranks) : GI M h pid (startState M marker aggl) := by
  have hmk : ∀ c ∈ M.cells, marker c = pid c := fun c hc => by
    rw [hP.mark c hc, if_pos (hM.owner c hc)]
  have hpend : ∀ c ∈ M.cells, Starts M pid c → Pend M (startState (K := K) M marker aggl) c := fun c hc hs =>
    ⟨_, (hP.front _ (hM.owner c hc) _ c).2 ⟨hc, rfl, hs, rfl⟩⟩
  have hcm : ∀ r < M.ranks, CacheMem M r (ghostCache M marker r) := by
    intro r _ e he
    unfold ghostCache at he
    rw [List.mem_filter, List.mem_map] at he
    obtain ⟨⟨c, hc, rfl⟩, _⟩ := he
    rw [List.mem_filter] at hc
    obtain ⟨hc, ho⟩ := hc
    rw [Bool.and_eq_true] at ho
    refine ⟨hc, by simpa [ghostEntry] using ho.1, fun n hn => ?_⟩
    simp only [ghostEntry, List.mem_filter, Bool.and_eq_true, beq_iff_eq] at hn
    exact ⟨mem_nbrs.1 hn.1, hn.2.1⟩
  refine ⟨⟨[] :: aggl 0, hP.len, ?_, ?_, ?_, ?_, ?_, ?_, fun _ _ => ⟨rfl, rfl⟩, fun _ _ h0 h1 => absurd h0 h1,
    fun k x hx => .inl (by simpa [InB] using (show InB (aggl 0) k x from hx)), ?_⟩, hcm, ?_, ?_⟩
  · intro c hc p hp
    exact (hmk c hc).trans hp
  · intro c hc p hv hm
    have : marker c = some p := hm
    rw [hmk c hc, hv] at this; simp at this
  · intro c hc hs
    show startDist M aggl c = _
    unfold startDist
    obtain ⟨k, hk⟩ := hpend c hc hs
    exact if_pos (inB_contains.2 ⟨k, hk⟩)
  · intro c hc _ hs
    show startDist M aggl c = _
    unfold startDist
    rw [if_neg]
    intro hk
    obtain ⟨k, hk⟩ := inB_contains.1 hk
    exact hs ((hP.front _ (hM.owner c hc) k c).1 hk).2.2.1
  · intro r hr k x hx
    obtain ⟨a, b, c, _⟩ := (hP.front r hr k x).1 hx
    obtain ⟨p, hp⟩ := c.pid
    exact ⟨a, b, by show marker x ≠ none; rw [hmk x a, hp]; simp, .inr c⟩
  · intro c hc hmv hm
    rcases hmv with hv | hs
    · have : marker c ≠ none := hm
      rw [hmk c hc, hv] at this; exact absurd rfl this
    · exact .inl (hpend c hc hs)
  · intro r _ k v hv
    simp [startState] at hv
  · intro c hc n ha ho
    by_cases hm : marker n = none
    · refine .inr ⟨(ghostEntry M marker (M.owner n) c).2, ?_, ?_⟩
      · show _ ∈ ghostCache M marker (M.owner n)
        unfold ghostCache
        rw [List.mem_filter, List.mem_map]
        refine ⟨⟨c, ?_, rfl⟩, ?_⟩
        · rw [List.mem_filter]
          have := hM.ghost n (hM.closed c hc n ha) c (hM.symm c hc n ha)
          exact ⟨hc, by simp [this, Ne.symm ho]⟩
        · have : n ∈ (ghostEntry M marker (M.owner n) c).2 := by
            simp [ghostEntry, mem_nbrs, ha, hm]
          rcases hl : (ghostEntry M marker (M.owner n) c).2 with _ | ⟨a, b⟩
          · rw [hl] at this; simp at this
          · rfl
      · simp [ghostEntry, mem_nbrs, ha, hm]
    · exact .inl hm
  · intro r hr e he hmv hm
    have hc := (hcm r hr e he).1
    rcases hmv with hv | hs
    · have : marker e.1 ≠ none := hm
      rw [hmk _ hc, hv] at this; exact absurd rfl this
    · exact hpend _ hc hs

/-- markers and distances when all fronts are empty -/
theorem coloured_of_end (hG : GI M h pid s) (hE : ∀ r < M.ranks, ∀ k x, ¬ InB (s.aggl r) k x) (hM : MeshOk M) :
    Coloured M pid s.marker s.dist ∧
    ∀ k, (∀ r < M.ranks, ∀ v, (k, v) ∈ s.found r → Meets M h pid s.marker s.dist k v) ∧
      ∀ v, Meets M h pid s.marker s.dist k v → ∃ r < M.ranks, ∃ v', lookup (s.found r) k = some v' ∧ v' ≤ v := by
  obtain ⟨A0, hI⟩ := hG.ri
  have hnp : ∀ c ∈ M.cells, ¬ Pend M s c := fun c hc ⟨k, hk⟩ => hE _ (hM.owner c hc) k c hk
  have hdone : ∀ c ∈ M.cells, Moves M pid c → s.marker c ≠ none → Done M h s c := by
    intro c hc hmv hm
    rcases hI.proc c hc hmv hm with hd | hd | ⟨_, hd⟩
    · exact absurd hd (hnp c hc)
    · exact hd
    · simp at hd
  refine ⟨⟨hI.part, hI.zero, hI.reach, fun c hc n hmv hm ha => ?_⟩, fun k => ⟨fun r hr v hv => ?_, ?_⟩⟩
  · by_cases ho : M.owner n = M.owner c
    · exact (hdone c hc hmv hm n ha ho).1
    · rcases hG.kept c hc n ha ho with h1 | ⟨l, hl, _⟩
      · exact h1
      · exact absurd (hG.late _ (hM.owner n (hM.closed c hc n ha)) _ hl hmv hm) (hnp c hc)
  · obtain ⟨c, n, p, q, h1, h2, h3, h4, h5, h6, h7, h8, h9, h10⟩ := hI.sound r hr k v hv
    exact ⟨c, n, p, q, h1, h2, h3, h5.trans h4.symm, h6, h7, h8, h9, h10⟩
  · rintro v ⟨c, n, p, q, h1, h2, h3, h4, h5, h6, h7, rfl, rfl⟩
    obtain ⟨v', hv', hle⟩ := (hdone c h1 h2 (by rw [h5]; simp) n h3 h4).2 p q h5 h6 h7
    exact ⟨_, hM.owner c h1, v', hv', hle⟩

/-! ## Gathering -/

theorem mergeFlat_ok (toU : K → Nat) (hU : ∀ n : Nat, toU (n : K) = n) :
    ∀ (l m : PMap K), mergeFlat toU m (flatten l) = .ok (l.foldl (fun m e => record m e.1 e.2) m)
  | [], m => rfl
  | e :: l, m => by
    have : flatten (e :: l) = (e.1.1 : K) :: (e.1.2 : K) :: e.2 :: flatten l := by simp [flatten]
    rw [this, mergeFlat, hU, hU, mergeFlat_ok toU hU l]
    rfl

theorem merge_ok (toU : K → Nat) (hU : ∀ n : Nat, toU (n : K) = n) :
    ∀ (ls : List (PMap K)) (m : PMap K), (ls.map flatten).foldlM (mergeFlat toU) m =
      .ok (ls.foldl (fun m l => l.foldl (fun m e => record m e.1 e.2) m) m)
  | [], m => rfl
  | l :: ls, m => by
    rw [List.map_cons, List.foldlM_cons, mergeFlat_ok toU hU]
    exact merge_ok toU hU ls _

omit [Field K] in
/-- a recorded value is one of the values, and none of them is smaller -/
theorem records_spec : ∀ (l m : PMap K) (k : Nat × Nat),
    (∀ v, lookup (l.foldl (fun m e => record m e.1 e.2) m) k = some v → lookup m k = some v ∨ (k, v) ∈ l) ∧
    (∀ v, (lookup m k = some v ∨ (k, v) ∈ l) →
      ∃ v', v' ≤ v ∧ lookup (l.foldl (fun m e => record m e.1 e.2) m) k = some v')
  | [], m, k => ⟨fun v hv => .inl hv, fun v hv => ⟨v, le_refl v, by simpa using hv⟩⟩
  | e :: l, m, k => by
    obtain ⟨h1, h2⟩ := records_spec l (record m e.1 e.2) k
    refine ⟨fun v hv => ?_, fun v hv => ?_⟩
    · rcases h1 v hv with h | h
      · rw [lookup_record] at h
        by_cases ek : k = e.1
        · rw [if_pos ek] at h
          have he : (k, e.2) ∈ e :: l := by rw [ek]; simp
          rcases hl : lookup m e.1 with _ | w
          · rw [hl] at h; cases h; exact .inr he
          · rw [hl] at h
            have hv' : v = min w e.2 := (Option.some.inj h).symm
            rcases min_choice w e.2 with e' | e'
            · rw [hv', e']; exact .inl (ek ▸ hl)
            · rw [hv', e']; exact .inr he
        · rw [if_neg ek] at h; exact .inl h
      · exact .inr (by simp [h])
    · rcases hv with hv | hv
      · obtain ⟨w, hw, hlw⟩ := lookup_record_mono (k := e.1) (v := e.2) hv
        obtain ⟨v', hv', h'⟩ := h2 w (.inl hlw)
        exact ⟨v', hv'.trans hw, h'⟩
      · rcases List.mem_cons.1 hv with hv | hv
        · subst hv
          have : ∃ w, w ≤ v ∧ lookup (record m k v) k = some w := by
            rw [lookup_record, if_pos rfl]
            rcases lookup m k with _ | w
            · exact ⟨v, le_refl v, rfl⟩
            · exact ⟨_, min_le_right w v, rfl⟩
          obtain ⟨w, hw, hlw⟩ := this
          obtain ⟨v', hv', h'⟩ := h2 w (.inl hlw)
          exact ⟨v', hv'.trans hw, h'⟩
        · exact h2 v (.inr hv)

omit [Field K] in
theorem recordss_spec : ∀ (ls : List (PMap K)) (m : PMap K) (k : Nat × Nat),
    (∀ v, lookup (ls.foldl (fun m l => l.foldl (fun m e => record m e.1 e.2) m) m) k = some v →
      lookup m k = some v ∨ ∃ l ∈ ls, (k, v) ∈ l) ∧
    (∀ v, (lookup m k = some v ∨ ∃ l ∈ ls, (k, v) ∈ l) →
      ∃ v', v' ≤ v ∧ lookup (ls.foldl (fun m l => l.foldl (fun m e => record m e.1 e.2) m) m) k = some v')
  | [], m, k => ⟨fun v hv => .inl hv, fun v hv => ⟨v, le_refl v, by simpa using hv⟩⟩
  | l :: ls, m, k => by
    obtain ⟨h1, h2⟩ := recordss_spec ls (l.foldl (fun m e => record m e.1 e.2) m) k
    obtain ⟨g1, g2⟩ := records_spec l m k
    refine ⟨fun v hv => ?_, fun v hv => ?_⟩
    · rcases h1 v hv with h | ⟨l', hl', h⟩
      · rcases g1 v h with h | h
        · exact .inl h
        · exact .inr ⟨l, by simp, h⟩
      · exact .inr ⟨l', by simp [hl'], h⟩
    · have : (∃ w, w ≤ v ∧ lookup (l.foldl (fun m e => record m e.1 e.2) m) k = some w) ∨
          ∃ l' ∈ ls, (k, v) ∈ l' := by
        rcases hv with hv | ⟨l', hl', hv⟩
        · exact .inl (g2 v (.inl hv))
        · rcases List.mem_cons.1 hl' with rfl | hl'
          · exact .inl (g2 v (.inr hv))
          · exact .inr ⟨l', hl', hv⟩
      rcases this with ⟨w, hw, hlw⟩ | hl
      · obtain ⟨v', hv', h'⟩ := h2 w (.inl hlw)
        exact ⟨v', hv'.trans hw, h'⟩
      · exact h2 v (.inr hl)

omit [Field K] [LinearOrder K] in
theorem mem_of_lookup {m : PMap K} {k : Nat × Nat} {v : K} (hv : lookup m k = some v) : (k, v) ∈ m := by
  induction m with
  | nil => simp [lookup] at hv
  | cons e m ih =>
    obtain ⟨a, b⟩ := e
    unfold lookup at hv
    by_cases h : a = k
    · rw [if_pos h] at hv; cases hv; subst h; simp
    · rw [if_neg h] at hv; simp [ih hv]

end
end Verif.Wavefront
