/-
C99: microstructures from images are read faithfully.
-/
import Verif.Lemmas.Readers
import Verif.Props.Csv

namespace Verif.Props

open Verif.Csv Verif.Initial Verif.Micro Verif.Readers

section
variable {K : Type} [Field K] [LinearOrder K] (stoi : List Char → Option Int) (stod : List Char → Option K)

/-- Specification: a line lists the coordinates of a contour. -/
def IsContour (line : List Char) (vs : List (K × K)) : Prop :=
  ∃ fs, IsFields line fs ∧ fs.map stod = (vs.flatMap fun v => [v.1, v.2]).map some

/-- Specification: a line lists whole numbers. -/
def IsIntegers (line : List Char) (cs : List Int) : Prop := ∃ fs, IsFields line fs ∧ fs.map stoi = cs.map some

/-- Specification: a file with a number, the order parameters `cs` and the contours `conts`. -/
def IsImaging (text : List Char) (cs : List Int) (conts : List (List (K × K))) : Prop :=
  ∃ h c ls, IsLines text (h :: c :: ls) ∧ (∃ fs f, IsFields h fs ∧ fs[0]? = some f ∧ (stoi f).isSome) ∧ IsIntegers stoi c cs ∧
    List.Forall₂ (IsContour stod) ls conts

omit [Field K] [LinearOrder K] in
private theorem contour_ok (line : List Char) (fs : List (List Char)) (h : IsFields line fs) : ∀ (vs : List (K × K)) (i : Nat),
    (fs.drop i).map stod = (vs.flatMap fun v => [v.1, v.2]).map some → contour stod (parseRow line) i vs.length = .ok vs := by
  intro vs
  induction vs with
  | nil => intro i _; rfl
  | cons v vs ih =>
    intro i hi
    rcases hd : fs.drop i with _ | ⟨f, l⟩
    · rw [hd] at hi; simp at hi
    rcases l with _ | ⟨g, l⟩
    · rw [hd] at hi; simp at hi
    rw [hd] at hi
    simp only [List.map_cons, List.flatMap_cons, List.cons_append, List.nil_append, List.cons.injEq] at hi
    obtain ⟨h1, h2, h3⟩ := hi
    have hf : fs[i]? = some f := by rw [← Nat.add_zero i, ← List.getElem?_drop, hd]; rfl
    have hg : fs[i + 1]? = some g := by rw [← List.getElem?_drop, hd]; rfl
    have hdd : fs.drop (i + 2) = l := by rw [← List.drop_drop, hd]; rfl
    rw [List.length_cons, contour, Csv.column, field_ok line fs h _ _ hg, Res.ok_bind, h2]
    dsimp only
    rw [Res.ok_bind, Csv.column, field_ok line fs h _ _ hf, Res.ok_bind, h1]
    dsimp only
    rw [Res.ok_bind, ih (i + 2) (by rw [hdd]; exact h3), Res.ok_bind]

private theorem size_eq (line : List Char) (fs : List (List Char)) (h : IsFields line fs) : (parseRow line).size = fs.length := by
  obtain ⟨gs, h1, -, h3, -, -⟩ := C42_row line
  rw [isFields_unique line fs gs h h1, h3]

omit [Field K] [LinearOrder K] in
private theorem isContour_length (fs : List (List Char)) (vs : List (K × K))
    (h : fs.map stod = (vs.flatMap fun v => [v.1, v.2]).map some) : fs.length = 2 * vs.length := by
  have := congrArg List.length h
  rw [List.length_map, List.length_map] at this
  rw [this]
  clear this h
  induction vs with
  | nil => rfl
  | cons v vs ih => rw [List.flatMap_cons, List.length_append, ih]; simp; omega

omit [Field K] [LinearOrder K] in
private theorem contour_line (line : List Char) (vs : List (K × K)) (h : IsContour stod line vs) :
    contour stod (parseRow line) 0 (((parseRow line).size + 1) / 2) = .ok vs ∧ vs ≠ [] := by
  obtain ⟨fs, h1, h2⟩ := h
  have hl := isContour_length stod fs vs h2
  rw [size_eq line fs h1, hl]
  have e : (2 * vs.length + 1) / 2 = vs.length := by omega
  rw [e]
  refine ⟨contour_ok stod line fs h1 vs 0 h2, ?_⟩
  rintro rfl
  exact h1.1 (List.length_eq_zero_iff.1 (by rw [hl]; rfl))

omit [Field K] [LinearOrder K] in
private theorem colours_ok (line : List Char) (fs : List (List Char)) (h : IsFields line fs) : ∀ (cs : List Int) (i : Nat) (s : Structure K),
    (fs.drop i).map stoi = cs.map some → colours stoi (parseRow line) i cs.length s =
      .ok ⟨s.grains ++ cs.map (fun c => ⟨wrap c, []⟩), fill s.ops ((cs.zipIdx i).map fun p => (wrap p.1, p.2))⟩ := by
  intro cs
  induction cs with
  | nil => intro i s _; simp [colours, fill]
  | cons c cs ih =>
    intro i s hi
    rcases hd : fs.drop i with _ | ⟨f, l⟩
    · rw [hd] at hi; simp at hi
    rw [hd] at hi
    simp only [List.map_cons, List.cons.injEq] at hi
    obtain ⟨h1, h2⟩ := hi
    have hf : fs[i]? = some f := by rw [← Nat.add_zero i, ← List.getElem?_drop, hd]; rfl
    have hdd : fs.drop (i + 1) = l := by rw [← List.drop_drop, hd]; rfl
    rw [List.length_cons, colours, intColumn, field_ok line fs h _ _ hf, Res.ok_bind, h1]
    dsimp only
    rw [Res.ok_bind, ih (i + 1) _ (by rw [hdd]; exact h2)]
    simp [fill, List.zipIdx_cons]

/-- The contour lines from row `k + 2` on. -/
private theorem rows_ok (w : K) (d : Direction) : ∀ (ls : List (List Char)) (conts : List (List (K × K))) (k : Nat) (s : Structure K),
    List.Forall₂ (IsContour stod) ls conts → k + conts.length ≤ s.grains.length →
    ∃ segs, conts.map (mkSegment w d) = segs.map .ok ∧
      ∀ rest, imagingRows stoi stod w d (k + 2) (ls.map parseRow ++ rest) s =
        imagingRows stoi stod w d (k + conts.length + 2) rest ⟨addSegs s.grains k segs, s.ops⟩ := by
  intro ls conts k s h
  induction h generalizing k s with
  | nil => intro _; exact ⟨[], rfl, fun rest => rfl⟩
  | @cons l vs ls conts h1 _ ih =>
    intro hk
    rw [List.length_cons] at hk
    obtain ⟨h2, h3⟩ := contour_line stod l vs h1
    obtain ⟨seg, hseg⟩ := mkSegment_ok w d vs h3
    have hg : s.grains[k]? = some s.grains[k] := List.getElem?_eq_getElem (by omega)
    obtain ⟨segs, e1, e2⟩ := ih (k + 1) ⟨s.grains.modify k fun g => ⟨g.color, g.segments ++ [seg]⟩, s.ops⟩ (by
      show _ ≤ (s.grains.modify k _).length
      rw [List.length_modify]; omega)
    refine ⟨seg :: segs, by rw [List.map_cons, hseg, e1]; rfl, fun rest => ?_⟩
    rw [List.map_cons, List.cons_append, imagingRows, imagingRow, h2, Res.ok_bind, hseg, Res.ok_bind, hg]
    dsimp only
    rw [Res.ok_bind]
    have e3 := e2 rest
    have e4 : k + 1 + conts.length + 2 = k + (vs :: conts).length + 2 := by rw [List.length_cons]; omega
    rw [e4] at e3
    rw [addSegs, ← e3]
    congr 1
    rw [List.modify_eq_set_getElem? , hg]
    rfl

/-- C99: what the file says is what is stored: one grain per order parameter listed, with its contour if there is one; the table of order
parameters lists exactly the grains with that number, in their order; the number in the first line has no effect. -/
theorem C99_read_partial (w : K) (d : Direction) (text : List Char) (cs : List Int) (conts : List (List (K × K)))
    (h : IsImaging stoi stod text cs conts) (hn : conts.length ≤ cs.length) :
    ∃ s, readImaging stoi stod w d text = .ok s ∧ s.grains.length = cs.length ∧ s.ops.Sorted ∧
      (∀ (k : Nat) c, cs[k]? = some c →
        (∀ vs, conts[k]? = some vs → ∃ seg, mkSegment w d vs = .ok seg ∧ s.grains[k]? = some ⟨wrap c, [seg]⟩) ∧
        (conts[k]? = none → s.grains[k]? = some ⟨wrap c, []⟩)) ∧
      ∀ c, s.ops.get? c = (let l := (List.range cs.length).filter fun k => decide (cs[k]?.map wrap = some c)
        if l = [] then none else some l) := by
  obtain ⟨hd, c, ls, h1, ⟨fs, f, h2, h3, h4⟩, ⟨gs, h5, h6⟩, h7⟩ := h
  obtain ⟨z, hz⟩ := Option.isSome_iff_exists.1 h4
  have hlen : gs.length = cs.length := by
    have := congrArg List.length h6
    simpa using this
  obtain ⟨segs, e1, e2⟩ := rows_ok stoi stod w d ls conts 0
    ⟨cs.map (fun c => ⟨wrap c, []⟩), fill [] ((cs.zipIdx 0).map fun p => (wrap p.1, p.2))⟩ h7 (by simpa using hn)
  have e3 := e2 []
  have hslen : segs.length = conts.length := by simpa using (congrArg List.length e1).symm
  refine ⟨⟨addSegs (cs.map (fun c => ⟨wrap c, []⟩)) 0 segs, fill [] ((cs.zipIdx 0).map fun p => (wrap p.1, p.2))⟩, ?_, ?_, ?_, ?_, ?_⟩
  · rw [readImaging, rows_of_lines text _ h1 _ (by omega), List.map_cons, List.map_cons, imagingRows, imagingRow, intColumn,
      field_ok hd fs h2 _ _ h3, Res.ok_bind, hz]
    dsimp only
    rw [Res.ok_bind, Res.ok_bind, imagingRows, imagingRow, size_eq c gs h5, hlen, colours_ok stoi c gs h5 cs 0 _ (by simpa using h6),
      Res.ok_bind]
    rw [List.append_nil] at e3
    exact e3
  · show (addSegs _ _ _).length = _
    rw [length_addSegs, List.length_map]
  · exact fill_sorted _ OMap.sorted_nil
  · intro k c hc
    have hg : ∀ x, segs[k]? = x → (addSegs (cs.map (fun c => (⟨wrap c, []⟩ : MGrain K))) 0 segs)[k]? =
        some (match x with
          | some s => ⟨wrap c, [s]⟩
          | none => ⟨wrap c, []⟩) := by
      rintro x rfl
      rw [getElem?_addSegs, List.getElem?_map, hc]
      simp only [Option.map_some, Nat.zero_le, if_true, Nat.sub_zero, List.nil_append]
      cases segs[k]? <;> rfl
    constructor
    · intro vs hvs
      have : (conts.map (mkSegment w d))[k]? = some (mkSegment w d vs) := by rw [List.getElem?_map, hvs]; rfl
      rw [e1, List.getElem?_map] at this
      obtain ⟨seg, hs1, hs2⟩ := Option.map_eq_some_iff.1 this
      exact ⟨seg, hs2.symm, hg _ hs1⟩
    · intro hnone
      have : segs[k]? = none := by rw [List.getElem?_eq_none_iff] at hnone ⊢; omega
      exact hg _ this
  · intro c
    have key : ∀ (l : List Int) (i : Nat), (((l.zipIdx i).map fun p => (wrap p.1, p.2)).filter (·.1 == c)).map (·.2) =
        (List.range' i l.length).filter fun k => decide (l[k - i]?.map wrap = some c) := by
      intro l
      induction l with
      | nil => intro i; rfl
      | cons a l ih =>
        intro i
        have hrest : (List.range' (i + 1) l.length).filter (fun k => decide ((a :: l)[k - i]?.map wrap = some c)) =
            (List.range' (i + 1) l.length).filter fun k => decide (l[k - (i + 1)]?.map wrap = some c) := by
          apply List.filter_congr
          intro k hk
          rw [List.mem_range'_1] at hk
          have : k - i = (k - (i + 1)) + 1 := by omega
          rw [this, List.getElem?_cons_succ]
        rw [List.zipIdx_cons, List.map_cons, List.length_cons, List.range'_succ, List.filter_cons, List.filter_cons, hrest, ← ih]
        by_cases ha : wrap a = c
        · simp [ha]
        · simp [ha]
    have key0 := key cs 0
    simp only [Nat.sub_zero, ← List.range_eq_range'] at key0
    show (fill [] _).get? c = _
    rw [get?_fill_nil, key0]
    dsimp only
    by_cases hnil : (((cs.zipIdx 0).map fun p => (wrap p.1, p.2)).filter (·.1 == c)) = []
    · rw [if_pos hnil, if_pos (by rw [← key0, hnil]; rfl)]
    · rw [if_neg hnil, if_neg (by rw [← key0]; simpa using hnil)]

/-- C99: all order parameters can be evaluated exactly if the numbers in the file are without gaps from zero on. -/
theorem C99_gaps (w : K) (d : Direction) (text : List Char) (cs : List Int) (conts : List (List (K × K)))
    (h : IsImaging stoi stod text cs conts) (hn : conts.length ≤ cs.length) (s : Structure K)
    (hs : readImaging stoi stod w d text = .ok s) :
    (∀ op < s.nOrderParameters, ∃ l, s.grainsOf op = .ok l) ↔ ∀ c ∈ cs.map wrap, ∀ c' < c, c' ∈ cs.map wrap := by
  obtain ⟨s', e1, e2, e3, -, e5⟩ := C99_read_partial stoi stod w d text cs conts h hn
  rw [hs] at e1
  cases e1
  have hmem : ∀ c, c ∈ s.ops.keys ↔ c ∈ cs.map wrap := by
    intro c
    rw [← OMap.get?_isSome_iff_mem_keys, e5 c]
    dsimp only
    by_cases hl : ((List.range cs.length).filter fun k => decide (cs[k]?.map wrap = some c)) = []
    · rw [if_pos hl]
      simp only [Option.isSome_none, Bool.false_eq_true, false_iff]
      intro hc
      obtain ⟨a, ha, rfl⟩ := List.mem_map.1 hc
      obtain ⟨k, hk, rfl⟩ := List.getElem_of_mem ha
      rw [List.filter_eq_nil_iff] at hl
      exact hl k (List.mem_range.2 hk) (by simp [List.getElem?_eq_getElem hk])
    · rw [if_neg hl]
      simp only [Option.isSome_some, true_iff]
      obtain ⟨k, hk⟩ := List.exists_mem_of_ne_nil _ hl
      rw [List.mem_filter, decide_eq_true_iff] at hk
      obtain ⟨a, ha, rfl⟩ := Option.map_eq_some_iff.1 hk.2
      exact List.mem_map.2 ⟨a, List.mem_of_getElem? ha, rfl⟩
  have hok : ∀ op, (∃ l, s.grainsOf op = .ok l) ↔ op ∈ s.ops.keys := by
    intro op
    constructor
    · rintro ⟨l, hl⟩
      by_contra hc
      rw [Structure.grainsOf, OMap.get?_eq_none_iff.2 hc] at hl
      cases hl
    · intro hop
      obtain ⟨l, -, h2⟩ := grainsOf_isOk s op hop (by
        intro l hl g hg
        rw [e5 op] at hl
        dsimp only at hl
        split at hl
        · cases hl
        · cases hl
          rw [List.mem_filter, List.mem_range] at hg
          rw [e2]
          exact hg.1)
      exact ⟨_, h2⟩
  simp only [hok]
  rw [Structure.nOrderParameters, keys_closed s.ops e3]
  simp only [hmem]

/-- Texts that go on with a further line. -/
private theorem lines_prefix (w : K) (d : Direction) (h c : List Char) (ls : List (List Char)) (rest : List (List Char)) (text : List Char)
    (cs : List Int) (conts : List (List (K × K))) (ht : IsLines text (h :: c :: ls ++ rest))
    (hh : ∃ fs f, IsFields h fs ∧ fs[0]? = some f ∧ (stoi f).isSome) (hc : IsIntegers stoi c cs)
    (hl : List.Forall₂ (IsContour stod) ls conts) (hn : conts.length ≤ cs.length) :
    ∃ s, s.grains.length = cs.length ∧
      readImaging stoi stod w d text = imagingRows stoi stod w d (conts.length + 2) (rest.map parseRow) s := by
  obtain ⟨fs, f, h2, h3, h4⟩ := hh
  obtain ⟨gs, h5, h6⟩ := hc
  obtain ⟨z, hz⟩ := Option.isSome_iff_exists.1 h4
  have hlen : gs.length = cs.length := by
    have := congrArg List.length h6
    simpa using this
  obtain ⟨segs, e1, e2⟩ := rows_ok stoi stod w d ls conts 0
    ⟨cs.map (fun c => ⟨wrap c, []⟩), fill [] ((cs.zipIdx 0).map fun p => (wrap p.1, p.2))⟩ hl (by simpa using hn)
  have e3 := e2 (rest.map parseRow)
  have e4 : 0 + conts.length + 2 = conts.length + 2 := by omega
  rw [e4] at e3
  refine ⟨⟨addSegs (cs.map (fun c => ⟨wrap c, []⟩)) 0 segs, fill [] ((cs.zipIdx 0).map fun p => (wrap p.1, p.2))⟩, ?_, ?_⟩
  rotate_left
  · rw [readImaging, rows_of_lines text _ ht _ (by omega), List.cons_append, List.cons_append, List.map_cons, List.map_cons, imagingRows,
      imagingRow, intColumn, field_ok h fs h2 _ _ h3, Res.ok_bind, hz]
    dsimp only
    rw [Res.ok_bind, Res.ok_bind, imagingRows, imagingRow, size_eq c gs h5, hlen, colours_ok stoi c gs h5 cs 0 _ (by simpa using h6),
      Res.ok_bind, List.map_append]
    exact e3
  · show (addSegs _ _ _).length = _
    rw [length_addSegs, List.length_map]

/-- C99 is violated: a contour with an odd number of values, for instance an empty line at the end, reads beyond the row. -/
theorem C99_odd_violated (w : K) (d : Direction) (h c : List Char) (ls : List (List Char)) (l : List Char) (rest : List (List Char))
    (text : List Char) (cs : List Int) (conts : List (List (K × K))) (ht : IsLines text (h :: c :: ls ++ l :: rest))
    (hh : ∃ fs f, IsFields h fs ∧ fs[0]? = some f ∧ (stoi f).isSome) (hc : IsIntegers stoi c cs)
    (hl : List.Forall₂ (IsContour stod) ls conts) (hn : conts.length ≤ cs.length)
    (vs : List (K × K)) (x : List Char) (fs : List (List Char)) (hf : IsFields l (fs ++ [x]))
    (hv : fs.map stod = (vs.flatMap fun v => [v.1, v.2]).map some) :
    readImaging stoi stod w d text = .ub := by
  obtain ⟨s, -, e⟩ := lines_prefix stoi stod w d h c ls (l :: rest) text cs conts ht hh hc hl hn
  rw [e, List.map_cons, imagingRows, imagingRow, size_eq l _ hf, List.length_append, isContour_length stod fs vs hv]
  have e1 : (2 * vs.length + [x].length + 1) / 2 = vs.length + 1 := by simp; omega
  rw [e1]
  have key : ∀ (us : List (K × K)) (i : Nat), ((fs.drop i).map stod = (us.flatMap fun v => [v.1, v.2]).map some) → i ≤ fs.length →
      contour stod (parseRow l) i (us.length + 1) = .ub := by
    intro us
    induction us with
    | nil =>
      intro i hi hle
      have hlen : fs.length ≤ i := by
        have := congrArg List.length hi
        simp at this; omega
      rw [List.length_nil, contour, Csv.column, field_ub l _ hf (i + 1) (by simp; omega)]
      rfl
    | cons v us ih =>
      intro i hi hle
      rcases hd : fs.drop i with _ | ⟨f, m⟩
      · rw [hd] at hi; simp at hi
      rcases m with _ | ⟨g, m⟩
      · rw [hd] at hi; simp at hi
      have hlt : i + 1 < fs.length := by
        have := congrArg List.length hd
        simp at this; omega
      rw [hd] at hi
      simp only [List.map_cons, List.flatMap_cons, List.cons_append, List.nil_append, List.cons.injEq] at hi
      obtain ⟨h1, h2, h3⟩ := hi
      have hf1 : (fs ++ [x])[i]? = some f := by
        rw [List.getElem?_append_left (by omega), ← Nat.add_zero i, ← List.getElem?_drop, hd]; rfl
      have hg1 : (fs ++ [x])[i + 1]? = some g := by
        rw [List.getElem?_append_left (by omega), ← List.getElem?_drop, hd]; rfl
      have hdd : fs.drop (i + 2) = m := by rw [← List.drop_drop, hd]; rfl
      rw [List.length_cons, contour, Csv.column, field_ok l _ hf _ _ hg1, Res.ok_bind, h2]
      dsimp only
      rw [Res.ok_bind, Csv.column, field_ok l _ hf _ _ hf1, Res.ok_bind, h1]
      dsimp only
      rw [Res.ok_bind, ih (i + 2) (by rw [hdd]; exact h3) (by omega)]
      rfl
  rw [key vs 0 (by simpa using hv) (by omega)]
  rfl

/-- C99 is violated: with more contours than order parameters a grain behind the end is used. -/
theorem C99_rows_violated (w : K) (d : Direction) (h c : List Char) (ls : List (List Char)) (l : List Char) (rest : List (List Char))
    (text : List Char) (cs : List Int) (conts : List (List (K × K))) (ht : IsLines text (h :: c :: ls ++ l :: rest))
    (hh : ∃ fs f, IsFields h fs ∧ fs[0]? = some f ∧ (stoi f).isSome) (hc : IsIntegers stoi c cs)
    (hl : List.Forall₂ (IsContour stod) ls conts) (hn : conts.length = cs.length) (vs : List (K × K)) (hv : IsContour stod l vs) :
    readImaging stoi stod w d text = .ub := by
  obtain ⟨s, hs, e⟩ := lines_prefix stoi stod w d h c ls (l :: rest) text cs conts ht hh hc hl (by omega)
  obtain ⟨h2, h3⟩ := contour_line stod l vs hv
  obtain ⟨seg, hseg⟩ := mkSegment_ok w d vs h3
  have : s.grains[conts.length]? = none := by rw [List.getElem?_eq_none_iff]; omega
  rw [e, List.map_cons, imagingRows, imagingRow, h2, Res.ok_bind, hseg, Res.ok_bind, this]
  rfl

/-- C99 is violated: fewer contours are accepted, and asking for the domain then is undefined. -/
theorem C99_missing_violated (w big : K) (d : Direction) (text : List Char) (cs : List Int) (conts : List (List (K × K)))
    (h : IsImaging stoi stod text cs conts) (hn : conts.length < cs.length) :
    ∃ s, readImaging stoi stod w d text = .ok s ∧ s.domain big = .ub := by
  obtain ⟨s, e1, e2, -, e4, -⟩ := C99_read_partial stoi stod w d text cs conts h (by omega)
  refine ⟨s, e1, ?_⟩
  have hbox : ∀ (k : Nat) g, s.grains[k]? = some g → k < conts.length → ∃ b, g.box = .ok b := by
    intro k g hg hk
    have hc : cs[k]? = some cs[k] := List.getElem?_eq_getElem (by omega)
    have hv : conts[k]? = some conts[k] := List.getElem?_eq_getElem hk
    obtain ⟨seg, -, h2⟩ := (e4 k _ hc).1 _ hv
    rw [hg] at h2
    cases h2
    exact ⟨_, rfl⟩
  have hempty : ∃ g, s.grains[conts.length]? = some g ∧ g.box = .ub := by
    have hc : cs[conts.length]? = some cs[conts.length] := List.getElem?_eq_getElem hn
    exact ⟨_, (e4 _ _ hc).2 (by simp), rfl⟩
  rw [Structure.domain]
  generalize (((big, big), (-big, -big)) : (K × K) × (K × K)) = b
  have key : ∀ (gs : List (MGrain K)) (m : Nat) (b : (K × K) × (K × K)), (∀ (k : Nat) g, gs[k]? = some g → k < m → ∃ b, g.box = .ok b) →
      (∃ g, gs[m]? = some g ∧ g.box = .ub) → gs.foldlM (fun b g => do
        let t ← g.box
        Res.ok ((min b.1.1 t.1.1, min b.1.2 t.1.2), (max b.2.1 t.2.1, max b.2.2 t.2.2))) b = .ub := by
    intro gs
    induction gs with
    | nil => intro m b _ ⟨g, hg, _⟩; simp at hg
    | cons g gs ih =>
      intro m b h1 h2
      rw [List.foldlM_cons]
      cases m with
      | zero =>
        obtain ⟨g', hg', hb⟩ := h2
        cases hg'
        rw [hb]; rfl
      | succ m =>
        obtain ⟨t, ht⟩ := h1 0 g rfl (by omega)
        rw [ht, Res.ok_bind, Res.ok_bind]
        exact ih m _ (fun k g' hk hkm => h1 (k + 1) g' hk (by omega)) h2
  exact key s.grains conts.length b hbox hempty

/-- Specification: the smallest box with coordinates from `-big` to `big` around the boxes of all segments. -/
def IsDomain (big : K) (s : Structure K) (b : (K × K) × (K × K)) : Prop :=
  (∀ x, x ≤ b.1.1 ↔ x ≤ big ∧ ∀ g ∈ s.grains, ∀ t ∈ g.segments, x ≤ t.lo.1) ∧
  (∀ x, x ≤ b.1.2 ↔ x ≤ big ∧ ∀ g ∈ s.grains, ∀ t ∈ g.segments, x ≤ t.lo.2) ∧
  (∀ x, b.2.1 ≤ x ↔ -big ≤ x ∧ ∀ g ∈ s.grains, ∀ t ∈ g.segments, t.hi.1 ≤ x) ∧
  (∀ x, b.2.2 ≤ x ↔ -big ≤ x ∧ ∀ g ∈ s.grains, ∀ t ∈ g.segments, t.hi.2 ≤ x)

omit [Field K] in
private theorem box_spec (g : MGrain K) (b : (K × K) × (K × K)) (h : g.box = .ok b) (x : K) :
    (x ≤ b.1.1 ↔ ∀ t ∈ g.segments, x ≤ t.lo.1) ∧ (x ≤ b.1.2 ↔ ∀ t ∈ g.segments, x ≤ t.lo.2) ∧
    (b.2.1 ≤ x ↔ ∀ t ∈ g.segments, t.hi.1 ≤ x) ∧ (b.2.2 ≤ x ↔ ∀ t ∈ g.segments, t.hi.2 ≤ x) := by
  unfold MGrain.box at h
  cases hs : g.segments with
  | nil => rw [hs] at h; cases h
  | cons t ts =>
    rw [hs] at h
    dsimp only at h
    have h' := Res.ok.inj h
    clear h
    subst h'
    have key : ∀ (ts : List (MicroSegment K)) (b : (K × K) × (K × K)),
        let c := ts.foldl (fun b t => ((min b.1.1 t.lo.1, min b.1.2 t.lo.2), (max b.2.1 t.hi.1, max b.2.2 t.hi.2))) b
        (x ≤ c.1.1 ↔ x ≤ b.1.1 ∧ ∀ t ∈ ts, x ≤ t.lo.1) ∧ (x ≤ c.1.2 ↔ x ≤ b.1.2 ∧ ∀ t ∈ ts, x ≤ t.lo.2) ∧
        (c.2.1 ≤ x ↔ b.2.1 ≤ x ∧ ∀ t ∈ ts, t.hi.1 ≤ x) ∧ (c.2.2 ≤ x ↔ b.2.2 ≤ x ∧ ∀ t ∈ ts, t.hi.2 ≤ x) := by
      intro ts
      induction ts with
      | nil => intro b; simp
      | cons t ts ih =>
        intro b
        dsimp only
        rw [List.foldl_cons]
        obtain ⟨h1, h2, h3, h4⟩ := ih ((min b.1.1 t.lo.1, min b.1.2 t.lo.2), (max b.2.1 t.hi.1, max b.2.2 t.hi.2))
        simp only [le_min_iff, max_le_iff] at h1 h2 h3 h4
        simp only [List.forall_mem_cons]
        exact ⟨h1.trans and_assoc, h2.trans and_assoc, h3.trans and_assoc, h4.trans and_assoc⟩
    simp only [List.forall_mem_cons]
    exact key ts (t.lo, t.hi)

/-- C99: if all grains have segments, the domain is the smallest box around all of them. -/
theorem C99_domain (big : K) (s : Structure K) (h : ∀ g ∈ s.grains, g.segments ≠ []) : ∃ b, s.domain big = .ok b ∧ IsDomain big s b := by
  have key : ∀ (gs : List (MGrain K)) (b₀ : (K × K) × (K × K)), (∀ g ∈ gs, g.segments ≠ []) → ∃ b, gs.foldlM (fun b g => do
        let t ← g.box
        Res.ok ((min b.1.1 t.1.1, min b.1.2 t.1.2), (max b.2.1 t.2.1, max b.2.2 t.2.2))) b₀ = .ok b ∧
      (∀ x, x ≤ b.1.1 ↔ x ≤ b₀.1.1 ∧ ∀ g ∈ gs, ∀ t ∈ g.segments, x ≤ t.lo.1) ∧
      (∀ x, x ≤ b.1.2 ↔ x ≤ b₀.1.2 ∧ ∀ g ∈ gs, ∀ t ∈ g.segments, x ≤ t.lo.2) ∧
      (∀ x, b.2.1 ≤ x ↔ b₀.2.1 ≤ x ∧ ∀ g ∈ gs, ∀ t ∈ g.segments, t.hi.1 ≤ x) ∧
      (∀ x, b.2.2 ≤ x ↔ b₀.2.2 ≤ x ∧ ∀ g ∈ gs, ∀ t ∈ g.segments, t.hi.2 ≤ x) := by
    intro gs
    induction gs with
    | nil => intro b₀ _; exact ⟨b₀, rfl, by simp, by simp, by simp, by simp⟩
    | cons g gs ih =>
      intro b₀ hg
      obtain ⟨c, hc⟩ : ∃ c, g.box = .ok c := by
        unfold MGrain.box
        cases hs : g.segments with
        | nil => exact absurd hs (hg g (by simp))
        | cons t ts => exact ⟨_, rfl⟩
      obtain ⟨b, e, h1, h2, h3, h4⟩ := ih ((min b₀.1.1 c.1.1, min b₀.1.2 c.1.2), (max b₀.2.1 c.2.1, max b₀.2.2 c.2.2))
        (fun g' hg' => hg g' (by simp [hg']))
      refine ⟨b, ?_, ?_, ?_, ?_, ?_⟩
      · rw [List.foldlM_cons, hc, Res.ok_bind, Res.ok_bind]; exact e
      · intro x
        rw [h1, le_min_iff, (box_spec g c hc x).1, List.forall_mem_cons, and_assoc]
      · intro x
        rw [h2, le_min_iff, (box_spec g c hc x).2.1, List.forall_mem_cons, and_assoc]
      · intro x
        rw [h3, max_le_iff, (box_spec g c hc x).2.2.1, List.forall_mem_cons, and_assoc]
      · intro x
        rw [h4, max_le_iff, (box_spec g c hc x).2.2.2, List.forall_mem_cons, and_assoc]
  exact key s.grains _ h

end

namespace Ex99

/-- One digit. -/
def stoi : List Char → Option Int
  | [c] => if c.isDigit then some ((c.toNat - 48 : Nat) : Int) else none
  | _ => none

def stod : List Char → Option ℚ
  | [c] => if c.isDigit then some ((c.toNat - 48 : Nat) : ℚ) else none
  | _ => none

def text : List Char := "2\n0,1\n0,0,1,0,1,1\n2,2,3,2,3,3\n".toList

theorem text_ok : IsImaging stoi stod text [0, 1] [[(0, 0), (1, 0), (1, 1)], [(2, 2), (3, 2), (3, 3)]] := by
  refine ⟨"2".toList, "0,1".toList, ["0,0,1,0,1,1".toList, "2,2,3,2,3,3".toList], ?_, ?_, ?_, ?_⟩
  · exact .cons "2".toList _ _ (by decide) (.cons "0,1".toList _ _ (by decide) (.cons "0,0,1,0,1,1".toList _ _ (by decide)
      (.cons "2,2,3,2,3,3".toList [] _ (by decide) .nil)))
  · exact ⟨[['2']], ['2'], ⟨by simp, by decide, by decide⟩, rfl, by decide⟩
  · exact ⟨[['0'], ['1']], ⟨by simp, by decide, by decide⟩, by decide⟩
  · refine .cons ⟨[['0'], ['0'], ['1'], ['0'], ['1'], ['1']], ⟨by simp, by decide, by decide⟩, by decide +kernel⟩ (.cons ?_ .nil)
    exact ⟨[['2'], ['2'], ['3'], ['2'], ['3'], ['3']], ⟨by simp, by decide, by decide⟩, by decide +kernel⟩

example : ∃ s, readImaging stoi stod 0 .middle text = .ok s ∧ s.grains.length = 2 ∧ s.ops = [(0, [0]), (1, [1])] :=
  ⟨_, rfl, by decide +kernel, by decide +kernel⟩

/-- Numbers from one on: the first order parameter cannot be evaluated. -/
example : ∃ s, readImaging stoi stod 0 .middle "1\n1\n0,0,1,0,1,1\n".toList = .ok s ∧ s.nOrderParameters = 1 ∧
    s.grainsOf 0 = .exc .outOfRange := ⟨_, rfl, by decide +kernel, by decide +kernel⟩

/-- An empty line at the end. -/
example : readImaging stoi stod 0 .middle (text ++ ['\n']) = .ub := by decide +kernel

/-- A contour too many. -/
example : readImaging stoi stod 0 .middle (text ++ "0,0,1,0,1,1\n".toList) = .ub := by decide +kernel

example := C99_domain (100 : ℚ) ⟨[⟨0, [⟨[(0, 0)], (0, 0), (1, 1)⟩, ⟨[(2, 1)], (2, 1), (3, 4)⟩]⟩, ⟨1, [⟨[(5, 5)], (5, 5), (6, 6)⟩]⟩], []⟩ (by decide)

example : Structure.domain (100 : ℚ) ⟨[⟨0, [⟨[(0, 0)], (0, 0), (1, 1)⟩, ⟨[(2, 1)], (2, 1), (3, 4)⟩]⟩, ⟨1, [⟨[(5, 5)], (5, 5), (6, 6)⟩]⟩], []⟩ =
    .ok ((0, 0), (6, 6)) := by decide +kernel

end Ex99

end Verif.Props
