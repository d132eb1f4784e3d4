/-
C100: microstructures of Voronoi type are read faithfully and coloured properly.
-/
import Verif.Lemmas.Readers
import Verif.Lemmas.Reassign
import Mathlib.Algebra.Field.Rat

namespace Verif.Props

open Verif.Initial Verif.Micro Verif.Readers

/-- Specification: a segment in the file; unused places for vertices are filled with zeros. -/
structure VSeg where
  id : Nat
  vertices : List Nat
  grain : Nat

/-- Specification: content of a file. -/
structure VFile (K : Type) where
  points : List (Nat × (K × K))
  maxV : Nat
  segments : List VSeg

section
variable {K : Type}

/-- Specification: the file as written. -/
def VFile.tokens (f : VFile K) : List (Tok K) :=
  [.nat f.points.length, .nat f.maxV, .nat f.segments.length] ++ (f.points.flatMap fun p => [.nat p.1, .num p.2.1, .num p.2.2]) ++
    f.segments.flatMap fun s => .nat s.id :: (s.vertices.map .nat ++ [.nat s.grain])

/-- Specification: numbers of points are unique, segments have corners, and these are listed. -/
def VFile.Ok (f : VFile K) : Prop :=
  (f.points.map (·.1)).Nodup ∧ f.segments ≠ [] ∧
    ∀ s ∈ f.segments, s.vertices.length = f.maxV ∧ (∃ v ∈ s.vertices, v ≠ 0) ∧ ∀ v ∈ s.vertices, v ≠ 0 → v ∈ f.points.map (·.1)

/-- Specification: corners of a segment. -/
def VFile.corners (f : VFile K) (s : VSeg) : List (K × K) :=
  (s.vertices.filter (· ≠ 0)).filterMap fun v => (f.points.find? (·.1 == v)).map (·.2)

private def pointMap (ps : OMap (K × K)) (l : List (Nat × (K × K))) : OMap (K × K) := l.foldl (fun m p => m.emplace p.1 p.2) ps

private theorem get?_pointMap (l : List (Nat × (K × K))) : ∀ {ps : OMap (K × K)}, ps.Sorted → ∀ v,
    (pointMap ps l).get? v = ((ps.get? v).or ((l.find? (·.1 == v)).map (·.2))) := by
  induction l with
  | nil => intro ps _ v; simp [pointMap]
  | cons p l ih =>
    intro ps h v
    show (pointMap (ps.emplace p.1 p.2) l).get? v = _
    rw [ih (OMap.sorted_emplace h), OMap.get?_emplace h, List.find?_cons]
    by_cases hp : p.1 = v
    · rw [if_pos hp.symm, hp]
      simp only [beq_self_eq_true]
      cases ps.get? v <;> rfl
    · rw [if_neg (Ne.symm hp)]
      have : (p.1 == v) = false := by simpa using hp
      rw [this]

variable [Field K]

private theorem readPoints_ok (l : List (Nat × (K × K))) : ∀ (ps : OMap (K × K)) (rest : List (Tok K)),
    readPoints l.length ps ⟨(l.flatMap fun p => [.nat p.1, .num p.2.1, .num p.2.2]) ++ rest, false⟩ = (pointMap ps l, ⟨rest, false⟩) := by
  induction l with
  | nil => intro ps rest; rfl
  | cons p l ih =>
    intro ps rest
    rw [List.length_cons, List.flatMap_cons, readPoints]
    simp only [List.cons_append, List.nil_append, readU, readD, Bool.false_eq_true, if_false]
    exact ih _ _

omit [Field K] in
private theorem readVertices_ok (ps : OMap (K × K)) : ∀ (vs : List Nat) (id : Nat) (rest : List (Tok K)),
    (∀ v ∈ vs, v ≠ 0 → v ∈ ps.keys) →
    readVertices ps vs.length id ⟨vs.map .nat ++ rest, false⟩ =
      .ok ((vs.filter (· ≠ 0)).filterMap (fun v => (ps.get? v).map fun p => (v, p)), ⟨rest, false⟩) := by
  intro vs
  induction vs with
  | nil => intro id rest _; rfl
  | cons v vs ih =>
    intro id rest h
    rw [List.length_cons, readVertices]
    simp only [List.map_cons, List.cons_append, readU, Bool.false_eq_true, if_false]
    by_cases hv : v = 0
    · subst hv
      rw [if_neg (by omega), ih _ _ (fun x hx => h x (by simp [hx]))]
      simp
    · rw [if_pos (by omega)]
      obtain ⟨p, hp⟩ := Option.isSome_iff_exists.1 (OMap.get?_isSome_iff_mem_keys.2 (h v (by simp) hv))
      rw [hp]
      dsimp only
      rw [ih _ _ (fun x hx => h x (by simp [hx])), Res.ok_bind]
      have e : (v :: vs).filter (· ≠ 0) = v :: vs.filter (· ≠ 0) := by simp [hv]
      rw [e, List.filterMap_cons, hp]
      rfl

variable [LinearOrder K]

/-- Pairs of a vertex and a grain. -/
private def pairs (l : List VSeg) : List (Nat × Nat) := l.flatMap fun s => (s.vertices.filter (· ≠ 0)).map fun v => (v, s.grain)

private theorem readSegments_ok (w : K) (d : Direction) (f : VFile K) (ps : OMap (K × K))
    (hget : ∀ v, ps.get? v = (f.points.find? (·.1 == v)).map (·.2)) : ∀ (l : List VSeg) (a : Seen K) (rest : List (Tok K)),
    (∀ s ∈ l, s.vertices.length = f.maxV ∧ (∃ v ∈ s.vertices, v ≠ 0) ∧ ∀ v ∈ s.vertices, v ≠ 0 → v ∈ f.points.map (·.1)) →
    ∃ segs, l.map (fun s => mkSegment w d (f.corners s)) = segs.map .ok ∧
      readSegments w d ps f.maxV l.length a ⟨(l.flatMap fun s => .nat s.id :: (s.vertices.map .nat ++ [.nat s.grain])) ++ rest, false⟩ =
        .ok (⟨a.conn ++ pairs l, fill a.grains ((l.map (·.grain)).zip segs)⟩, ⟨rest, false⟩) := by
  intro l
  induction l with
  | nil => intro a rest _; exact ⟨[], rfl, by simp [readSegments, pairs, fill]⟩
  | cons s l ih =>
    intro a rest h
    obtain ⟨h1, ⟨v0, hv0, hv0n⟩, h3⟩ := h s (by simp)
    have hkeys : ∀ v ∈ s.vertices, v ≠ 0 → v ∈ ps.keys := by
      intro v hv hn
      rw [← OMap.get?_isSome_iff_mem_keys, hget]
      obtain ⟨p, hp, rfl⟩ := List.mem_map.1 (h3 v hv hn)
      rw [Option.isSome_map, List.find?_isSome]
      exact ⟨p, hp, by simp⟩
    have hcor : ((s.vertices.filter (· ≠ 0)).filterMap (fun v => (ps.get? v).map fun p => (v, p))).map (·.2) = f.corners s := by
      rw [VFile.corners, List.map_filterMap]
      congr 1
      funext v
      rw [← hget v]
      cases ps.get? v <;> rfl
    have hne : f.corners s ≠ [] := by
      obtain ⟨p, hp⟩ := Option.isSome_iff_exists.1 (OMap.get?_isSome_iff_mem_keys.2 (hkeys v0 hv0 hv0n))
      apply List.ne_nil_of_mem (a := p)
      rw [VFile.corners, List.mem_filterMap]
      exact ⟨v0, by simp [hv0, hv0n], by rw [← hget]; exact hp⟩
    obtain ⟨seg, hseg⟩ := mkSegment_ok w d _ hne
    have hfst : ((s.vertices.filter (· ≠ 0)).filterMap (fun v => (ps.get? v).map fun p => (v, p))).map (fun v => (v.1, s.grain)) =
        (s.vertices.filter (· ≠ 0)).map fun v => (v, s.grain) := by
      have : ∀ vs : List Nat, (∀ v ∈ vs, v ∈ ps.keys) → (vs.filterMap (fun v => (ps.get? v).map fun p => (v, p))).map
          (fun v => (v.1, s.grain)) = vs.map fun v => (v, s.grain) := by
        intro vs
        induction vs with
        | nil => intro _; rfl
        | cons v vs ihv =>
          intro hv
          obtain ⟨p, hp⟩ := Option.isSome_iff_exists.1 (OMap.get?_isSome_iff_mem_keys.2 (hv v (by simp)))
          rw [List.filterMap_cons, hp]
          simp only [Option.map_some, List.map_cons]
          rw [ihv (fun x hx => hv x (by simp [hx]))]
      apply this
      intro v hv
      rw [List.mem_filter] at hv
      exact hkeys v hv.1 (by simpa using hv.2)
    obtain ⟨segs, e1, e2⟩ := ih ⟨a.conn ++ (s.vertices.filter (· ≠ 0)).map (fun v => (v, s.grain)), pushAt a.grains s.grain seg⟩ rest
      (fun x hx => h x (by simp [hx]))
    refine ⟨seg :: segs, by rw [List.map_cons, hseg, e1]; rfl, ?_⟩
    rw [List.length_cons, List.flatMap_cons, readSegments]
    simp only [List.cons_append, readU, Bool.false_eq_true, if_false]
    rw [List.append_assoc, List.append_assoc, ← h1, readVertices_ok ps s.vertices 0 _ hkeys, h1, Res.ok_bind]
    dsimp only
    rw [hcor, hseg, Res.ok_bind]
    simp only [List.cons_append, List.nil_append, Bool.false_eq_true, if_false]
    rw [hfst, e2]
    simp [pairs, fill]

omit [Field K] [LinearOrder K] in
private theorem row_symm (conn : List (Nat × Nat)) (ids : List Nat) (i j : Nat) (h : j ∈ patternRow conn ids i) :
    j < ids.length ∧ i < ids.length ∧ i ∈ patternRow conn ids j := by
  rw [patternRow] at h
  by_cases hi : ids.length ≤ i
  · rw [if_pos hi] at h; cases h
  · rw [if_neg hi, List.mem_filter, List.mem_range] at h
    refine ⟨h.1, by omega, ?_⟩
    rw [patternRow, if_neg (by omega), List.mem_filter, List.mem_range]
    refine ⟨by omega, ?_⟩
    have h2 := h.2
    simp only [Bool.or_eq_true, decide_eq_true_eq, List.any_eq_true, Bool.and_eq_true] at h2 ⊢
    rcases h2 with h2 | ⟨a, ha, b, hb, ⟨⟨h3, h4⟩, h5⟩, h6⟩
    · exact .inl h2.symm
    · exact .inr ⟨b, hb, a, ha, ⟨⟨h3.symm, Ne.symm h4⟩, h6⟩, h5⟩

/-- C100: every grain of the file becomes exactly one grain, with all its segments in the order of the file and with the corners listed; every
grain has exactly one order parameter; grains with a common corner have different ones; if the colouring uses all its colours, every order parameter
can be evaluated. -/
theorem C100_read_partial (w : K) (d : Direction) (order : List Nat → List Nat) (ho : ∀ l, (order l).Perm l)
    (color : Nat → (Nat → List Nat) → List Nat × Nat) (hc : ColorContract color) (f : VFile K) (hf : f.Ok) (rest : List (Tok K)) :
    ∃ (st : Structure K) (num : Nat → Nat), readVoronoi w d order color (f.tokens ++ rest) = .ok st ∧
      (∀ s ∈ f.segments, ∀ t ∈ f.segments, num s.grain = num t.grain → s.grain = t.grain) ∧
      (∀ i < st.grains.length, ∃ s ∈ f.segments, num s.grain = i) ∧
      (∀ s ∈ f.segments, ∃ g, st.grains[num s.grain]? = some g ∧
        (f.segments.filter (·.grain == s.grain)).map (fun t => mkSegment w d (f.corners t)) = g.segments.map .ok) ∧
      st.ops.Sorted ∧
      (∀ i < st.grains.length, ∃ op l, st.ops.get? op = some l ∧ l.count i = 1 ∧ ∀ op' l', st.ops.get? op' = some l' → i ∈ l' → op' = op) ∧
      (∀ op l, st.ops.get? op = some l → l ≠ [] ∧ ∀ i ∈ l, i < st.grains.length) ∧
      (∀ s ∈ f.segments, ∀ t ∈ f.segments, s.grain ≠ t.grain → (∃ v ∈ s.vertices, v ≠ 0 ∧ v ∈ t.vertices) →
        ∀ op l, st.ops.get? op = some l → num s.grain ∈ l → num t.grain ∉ l) ∧
      ((∀ n row, 0 < n → ∀ c, 1 ≤ c → c ≤ (color n row).2 → c ∈ (color n row).1) →
        ∀ op < st.nOrderParameters, ∃ l, st.grainsOf op = .ok l) := by
  obtain ⟨hf1, hf2, hf3⟩ := hf
  have hget : ∀ v, (pointMap [] f.points).get? v = (f.points.find? (·.1 == v)).map (·.2) := by
    intro v; rw [get?_pointMap f.points OMap.sorted_nil]; simp
  obtain ⟨segs, e1, e2⟩ := readSegments_ok w d f (pointMap [] f.points) hget f.segments ⟨[], []⟩ rest hf3
  dsimp only at e2
  rw [List.nil_append] at e2
  set G := fill ([] : OMap (List (MicroSegment K))) ((f.segments.map (·.grain)).zip segs) with hG
  have hlen : segs.length = f.segments.length := by simpa using (congrArg List.length e1).symm
  have hGs : G.Sorted := fill_sorted _ OMap.sorted_nil
  have hkeys : ∀ g, g ∈ G.keys ↔ ∃ s ∈ f.segments, s.grain = g := by
    intro g
    rw [hG, mem_keys_fill, List.map_fst_zip (by simp [hlen]), List.mem_map]
  set ids := order G.keys with hids
  have hperm : ids.Perm G.keys := ho _
  have hnd : ids.Nodup := hperm.nodup_iff.2 (OMap.keys_nodup hGs)
  have hmem : ∀ g, g ∈ ids ↔ ∃ s ∈ f.segments, s.grain = g := fun g => by rw [hperm.mem_iff, hkeys]
  have hpos : 0 < ids.length := by
    obtain ⟨s, hs⟩ := List.exists_mem_of_ne_nil _ hf2
    exact List.length_pos_of_mem ((hmem s.grain).2 ⟨s, hs, rfl⟩)
  obtain ⟨c1, c2, c3⟩ := hc ids.length (patternRow (pairs f.segments) ids) hpos (row_symm _ _)
  set cs := (color ids.length (patternRow (pairs f.segments) ids)).1 with hcs
  have hfold : (List.range ids.length).foldl (fun m i => pushAt m (cs.getD i 0 - 1) i) [] =
      fill [] ((List.range ids.length).map fun i => (cs.getD i 0 - 1, i)) := by
    rw [fill, List.foldl_map]
  set st : Structure K := ⟨ids.map (fun g => ⟨2 ^ 32 - 1, (G.get? g).getD []⟩),
    fill [] ((List.range ids.length).map fun i => (cs.getD i 0 - 1, i))⟩ with hst
  have hops : ∀ op, st.ops.get? op = (let l := (List.range ids.length).filter fun i => cs.getD i 0 - 1 == op
      if l = [] then none else some l) := by
    intro op
    show (fill [] _).get? op = _
    have e : ((List.range ids.length).map fun i => (cs.getD i 0 - 1, i)).filter (·.1 == op) =
        ((List.range ids.length).filter fun i => cs.getD i 0 - 1 == op).map fun i => (cs.getD i 0 - 1, i) := by
      rw [List.filter_map]; rfl
    rw [get?_fill_nil, e]
    dsimp only
    by_cases hnil : ((List.range ids.length).filter fun i => cs.getD i 0 - 1 == op) = []
    · rw [hnil]; rfl
    · rw [if_neg (by simpa using hnil), if_neg hnil, List.map_map]
      congr 1
      exact List.map_id _
  have hopsm : ∀ op l, st.ops.get? op = some l → l ≠ [] ∧ ∀ i, i ∈ l ↔ i < ids.length ∧ cs.getD i 0 - 1 = op := by
    intro op l hl
    rw [hops op] at hl
    dsimp only at hl
    split at hl
    · cases hl
    · rename_i hn
      cases hl
      exact ⟨hn, fun i => by simp⟩
  have hglen : st.grains.length = ids.length := by rw [hst]; simp
  refine ⟨st, fun g => ids.idxOf g, ?_, ?_, ?_, ?_, ?_, ?_, ?_, ?_, ?_⟩
  · have e3 := readPoints_ok f.points [] ((f.segments.flatMap fun s => .nat s.id :: (s.vertices.map .nat ++ [.nat s.grain])) ++ rest)
    have htok : f.tokens ++ rest = .nat f.points.length :: .nat f.maxV :: .nat f.segments.length ::
        ((f.points.flatMap fun p => [.nat p.1, .num p.2.1, .num p.2.2]) ++
          ((f.segments.flatMap fun s => .nat s.id :: (s.vertices.map .nat ++ [.nat s.grain])) ++ rest)) := by
      simp [VFile.tokens]
    rw [readVoronoi, htok]
    simp only [readU, Bool.false_eq_true, if_false]
    rw [e3]
    dsimp only
    rw [e2, Res.ok_bind]
    dsimp only
    rw [← hids, hfold]
  · intro s hs t ht h
    exact (List.idxOf_inj ((hmem _).2 ⟨s, hs, rfl⟩)).1 h
  · intro i hi
    rw [hglen] at hi
    obtain ⟨s, hs, e⟩ := (hmem ids[i]).1 (List.getElem_mem hi)
    exact ⟨s, hs, by rw [e]; exact hnd.idxOf_getElem i hi⟩
  · intro s hs
    have hm := (hmem _).2 ⟨s, hs, rfl⟩
    have hi : ids.idxOf s.grain < ids.length := List.idxOf_lt_length_iff.2 hm
    refine ⟨⟨2 ^ 32 - 1, (G.get? s.grain).getD []⟩, ?_, ?_⟩
    · show (ids.map _)[_]? = _
      rw [List.getElem?_map, List.getElem?_eq_getElem hi, List.getElem_idxOf hi]
      rfl
    · dsimp only
      have key : ∀ (l : List VSeg) (segs : List (MicroSegment K)) (g : Nat),
          l.map (fun s => mkSegment w d (f.corners s)) = segs.map .ok →
          (l.filter (·.grain == g)).map (fun t => mkSegment w d (f.corners t)) =
            ((((l.map (·.grain)).zip segs).filter (·.1 == g)).map (·.2)).map .ok := by
        intro l
        induction l with
        | nil => intro segs g _; rfl
        | cons t l ih =>
          intro segs g h
          cases segs with
          | nil => simp at h
          | cons sg segs =>
            simp only [List.map_cons, List.cons.injEq] at h
            rw [List.map_cons, List.zip_cons_cons, List.filter_cons, List.filter_cons]
            dsimp only
            by_cases ht : (t.grain == g) = true
            · rw [if_pos ht, if_pos ht, List.map_cons, List.map_cons, List.map_cons, h.1, ih segs g h.2]
            · rw [if_neg ht, if_neg ht, ih segs g h.2]
      rw [key f.segments segs s.grain e1]
      congr 1
      rw [hG, get?_fill_nil]
      by_cases hn : ((f.segments.map (·.grain)).zip segs).filter (·.1 == s.grain) = []
      · rw [if_pos hn, hn]; rfl
      · rw [if_neg hn]; rfl
  · exact fill_sorted _ OMap.sorted_nil
  · intro i hi
    rw [hglen] at hi
    have hin : i ∈ (List.range ids.length).filter fun j => cs.getD j 0 - 1 == cs.getD i 0 - 1 := by simp [hi]
    refine ⟨cs.getD i 0 - 1, (List.range ids.length).filter fun j => cs.getD j 0 - 1 == cs.getD i 0 - 1, ?_, ?_, ?_⟩
    · rw [hops]
      dsimp only
      rw [if_neg (List.ne_nil_of_mem hin)]
    · exact List.count_eq_one_of_mem (List.nodup_range.filter _) hin
    · intro op' l' hl' him
      exact (((hopsm op' l' hl').2 i).1 him).2.symm
  · intro op l hl
    obtain ⟨h1, h2⟩ := hopsm op l hl
    exact ⟨h1, fun i hi => by rw [hglen]; exact ((h2 i).1 hi).1⟩
  · intro s hs t ht hne ⟨v, hvs, hv0, hvt⟩ op l hl hsl htl
    have ms := (hmem _).2 ⟨s, hs, rfl⟩
    have mt := (hmem _).2 ⟨t, ht, rfl⟩
    have his : ids.idxOf s.grain < ids.length := List.idxOf_lt_length_iff.2 ms
    have hit : ids.idxOf t.grain < ids.length := List.idxOf_lt_length_iff.2 mt
    have hij : ids.idxOf s.grain ≠ ids.idxOf t.grain := fun e => hne ((List.idxOf_inj ms).1 e)
    have hrow : ids.idxOf t.grain ∈ patternRow (pairs f.segments) ids (ids.idxOf s.grain) := by
      rw [patternRow, if_neg (by omega), List.mem_filter, List.mem_range]
      refine ⟨hit, ?_⟩
      simp only [Bool.or_eq_true, decide_eq_true_eq, List.any_eq_true, Bool.and_eq_true]
      refine .inr ⟨(v, s.grain), ?_, (v, t.grain), ?_, ⟨⟨rfl, hne⟩, ?_⟩, ?_⟩
      · rw [pairs, List.mem_flatMap]
        exact ⟨s, hs, List.mem_map.2 ⟨v, by simp [hvs, hv0], rfl⟩⟩
      · rw [pairs, List.mem_flatMap]
        exact ⟨t, ht, List.mem_map.2 ⟨v, by simp [hvt, hv0], rfl⟩⟩
      · rw [List.getElem?_eq_getElem his, List.getElem_idxOf his]
      · rw [List.getElem?_eq_getElem hit, List.getElem_idxOf hit]
    have hcs1 : cs[ids.idxOf s.grain]? = some cs[ids.idxOf s.grain] := List.getElem?_eq_getElem (by omega)
    have hcs2 : cs[ids.idxOf t.grain]? = some cs[ids.idxOf t.grain] := List.getElem?_eq_getElem (by omega)
    have hdiff := c3 _ _ _ _ hij hrow hcs1 hcs2
    have b1 := (c2 _ (List.mem_of_getElem? hcs1)).1
    have b2 := (c2 _ (List.mem_of_getElem? hcs2)).1
    have q1 := (((hopsm op l hl).2 _).1 hsl).2
    have q2 := (((hopsm op l hl).2 _).1 htl).2
    rw [List.getD_eq_getElem?_getD, hcs1] at q1
    rw [List.getD_eq_getElem?_getD, hcs2] at q2
    simp only [Option.getD_some] at q1 q2
    omega

  · intro hu op hop
    have hkey : ∀ op, op ∈ st.ops.keys ↔ ∃ i < ids.length, cs.getD i 0 - 1 = op := by
      intro op
      rw [← OMap.get?_isSome_iff_mem_keys]
      constructor
      · intro h
        obtain ⟨l, hl⟩ := Option.isSome_iff_exists.1 h
        obtain ⟨h1, h2⟩ := hopsm op l hl
        obtain ⟨i, hi⟩ := List.exists_mem_of_ne_nil _ h1
        exact ⟨i, (h2 i).1 hi⟩
      · rintro ⟨i, hi, rfl⟩
        rw [hops]
        dsimp only
        rw [if_neg (List.ne_nil_of_mem (a := i) (by simp [hi]))]
        rfl
    have hclosed : ∀ c ∈ st.ops.keys, ∀ c' < c, c' ∈ st.ops.keys := by
      intro c hck c' hlt
      obtain ⟨i, hi, rfl⟩ := (hkey c).1 hck
      have hci : cs[i]? = some cs[i] := List.getElem?_eq_getElem (by omega)
      rw [List.getD_eq_getElem?_getD, hci, Option.getD_some] at hlt
      have hle := (c2 _ (List.mem_of_getElem? hci)).2
      have hm := hu ids.length (patternRow (pairs f.segments) ids) hpos (c' + 1) (by omega) (by omega)
      rw [← hcs] at hm
      obtain ⟨j, hj, e⟩ := List.getElem_of_mem hm
      rw [hkey]
      refine ⟨j, by omega, ?_⟩
      rw [List.getD_eq_getElem?_getD, List.getElem?_eq_getElem hj, Option.getD_some, e]
      omega
    have hin := (keys_closed st.ops (fill_sorted _ OMap.sorted_nil)).2 hclosed op hop
    obtain ⟨l, -, h2⟩ := grainsOf_isOk st op hin (fun l hl g hg => by
      rw [hglen]; exact (((hopsm op l hl).2 g).1 hg).1)
    exact ⟨_, h2⟩

/-- C100: a corner that is not listed is refused. -/
theorem C100_unknown (w : K) (d : Direction) (order : List Nat → List Nat) (color : Nat → (Nat → List Nat) → List Nat × Nat)
    (points : List (Nat × (K × K))) (maxV : Nat) (s : VSeg) (n : Nat) (rest : List (Tok K)) (hl : s.vertices.length = maxV)
    (hv : ∃ v ∈ s.vertices, v ≠ 0 ∧ v ∉ points.map (·.1)) :
    readVoronoi w d order color ([.nat points.length, .nat maxV, .nat (n + 1)] ++
      (points.flatMap fun p => [.nat p.1, .num p.2.1, .num p.2.2]) ++ (.nat s.id :: (s.vertices.map .nat ++ rest))) = .exc .outOfRange := by
  have e3 := readPoints_ok points [] (.nat s.id :: (s.vertices.map .nat ++ rest))
  have hget : ∀ v, (pointMap [] points).get? v = (points.find? (·.1 == v)).map (·.2) := by
    intro v; rw [get?_pointMap points OMap.sorted_nil]; simp
  have key : ∀ (vs : List Nat) (id : Nat), (∃ v ∈ vs, v ≠ 0 ∧ v ∉ points.map (·.1)) →
      readVertices (pointMap [] points) vs.length id ⟨vs.map .nat ++ rest, false⟩ = .exc .outOfRange := by
    intro vs
    induction vs with
    | nil => intro id ⟨v, hv, _⟩; cases hv
    | cons v vs ih =>
      intro id ⟨x, hx, hx0, hxn⟩
      rw [List.length_cons, readVertices]
      simp only [List.map_cons, List.cons_append, readU, Bool.false_eq_true, if_false]
      by_cases h0 : v = 0
      · subst h0
        rw [if_neg (by omega)]
        refine ih _ ⟨x, ?_, hx0, hxn⟩
        rcases List.mem_cons.1 hx with h | h
        · exact absurd h hx0
        · exact h
      · rw [if_pos (by omega)]
        cases hg : (pointMap [] points).get? v with
        | none => rfl
        | some p =>
          dsimp only
          have : x ∈ vs := by
            rcases List.mem_cons.1 hx with h | h
            · subst h
              rw [hget, Option.map_eq_some_iff] at hg
              obtain ⟨q, hq, -⟩ := hg
              have h1 := List.mem_of_find?_eq_some hq
              have h2 := List.find?_some hq
              exact absurd (List.mem_map.2 ⟨q, h1, by simpa using h2⟩) hxn
            · exact h
          rw [ih _ ⟨x, this, hx0, hxn⟩]
          rfl
  rw [readVoronoi]
  simp only [List.cons_append, List.nil_append, readU, Bool.false_eq_true, if_false]
  rw [e3]
  dsimp only
  rw [readSegments]
  simp only [readU, Bool.false_eq_true, if_false]
  rw [← hl, key s.vertices 0 hv]
  rfl

/-- C100 is violated: a file without content is accepted and gives a structure without grains. -/
theorem C100_empty_violated (w : K) (d : Direction) (order : List Nat → List Nat) (ho : ∀ l, (order l).Perm l)
    (color : Nat → (Nat → List Nat) → List Nat × Nat) : readVoronoi w d order color [] = .ok ⟨[], []⟩ := by
  have h : order [] = [] := (ho []).eq_nil
  have e : ∀ (p : Seen K × Stream K), p = (⟨[], []⟩, ⟨[], true⟩) →
      (let ids := order p.1.grains.keys
        let cs := (color ids.length (patternRow p.1.conn ids)).1
        (Res.ok ⟨ids.map (fun g => ⟨2 ^ 32 - 1, (p.1.grains.get? g).getD []⟩),
          (List.range ids.length).foldl (fun m i => pushAt m (cs.getD i 0 - 1) i) []⟩ : Res (Structure K))) = .ok ⟨[], []⟩ := by
    rintro p rfl
    have h' : order (OMap.keys ([] : OMap (List (MicroSegment K)))) = [] := h
    dsimp only
    rw [h']
    rfl
  exact e _ rfl

end

namespace Ex100

/-- Two triangles with a common edge. -/
def file : VFile ℚ :=
  ⟨[(1, 0, 0), (2, 1, 0), (3, 1, 1), (4, 0, 1)], 4, [⟨1, [1, 2, 3, 0], 7⟩, ⟨2, [1, 3, 4, 0], 5⟩]⟩

example : file.Ok := ⟨by decide, by simp [file], by decide⟩

example : ColorContract greedyColor := greedyColor_contract

/-- The order of an `unordered_map`: here descending. -/
def order (l : List Nat) : List Nat := l.reverse

example : ∀ l, (order l).Perm l := fun l => l.reverse_perm

example : ∃ st, readVoronoi 0 .middle order greedyColor file.tokens = .ok st ∧ st.grains.length = 2 ∧
    st.ops = [(0, [0]), (1, [1])] := ⟨_, rfl, by decide +kernel, by decide +kernel⟩

/-- The file is cut in the second segment; it is accepted, with a corner repeated and another grain. -/
theorem C100_cut_violated : ∃ st, readVoronoi 0 .middle order greedyColor (file.tokens.take 24) = .ok st ∧
    st.grains.length = 2 ∧ (st.grains.map fun g => g.segments.map (·.vertices)) =
      [[[(0, 0), (1, 0), (1, 1), (0, 0)]], [[(0, 0), (1, 1), (1, 1), (1, 1), (0, 0)]]] := ⟨_, rfl, by decide +kernel, by decide +kernel⟩

end Ex100

end Verif.Props
