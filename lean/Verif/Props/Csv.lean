/-
C42: reading of particle tables is faithful.
-/
import Verif.Model.Csv
import Mathlib.Data.List.TakeWhile
import Mathlib.Algebra.Field.Rat

namespace Verif.Props

open Verif.Csv

/-- Specification: fields joined by commas. -/
def joinComma : List (List Char) → List Char
  | [] => []
  | [f] => f
  | f :: fs => f ++ ',' :: joinComma fs

/-- Specification: `fs` is the decomposition of a line into fields. -/
def IsFields (line : List Char) (fs : List (List Char)) : Prop :=
  fs ≠ [] ∧ (∀ f ∈ fs, ',' ∉ f) ∧ joinComma fs = line

private theorem joinComma_cons (f : List Char) (fs : List (List Char)) (h : fs ≠ []) :
    joinComma (f :: fs) = f ++ ',' :: joinComma fs := by
  cases fs with
  | nil => exact absurd rfl h
  | cons a l => rfl

/-- The decomposition is unique. -/
theorem isFields_unique (line : List Char) (fs gs : List (List Char)) (h1 : IsFields line fs) (h2 : IsFields line gs) :
    fs = gs := by
  induction fs generalizing line gs with
  | nil => exact absurd rfl h1.1
  | cons f fs ih =>
    obtain ⟨-, hf, e1⟩ := h1
    obtain ⟨hn, hg, e2⟩ := h2
    cases gs with
    | nil => exact absurd rfl hn
    | cons g gs =>
      have hfc : ',' ∉ f := hf f (by simp)
      have hgc : ',' ∉ g := hg g (by simp)
      have key : ∀ (u v : List Char) (w : List Char), ',' ∉ u → ',' ∉ v → u ++ ',' :: w ≠ v := by
        intro u v w hu hv he
        exact hv (by rw [← he]; simp)
      cases fs with
      | nil =>
        cases gs with
        | nil => simp only [joinComma] at e1 e2; rw [e1, e2]
        | cons a l =>
          rw [joinComma_cons _ _ (by simp)] at e2
          simp only [joinComma] at e1
          exact absurd (e2.trans e1.symm) (key g f _ hgc hfc)
      | cons b m =>
        cases gs with
        | nil =>
          rw [joinComma_cons _ _ (by simp)] at e1
          simp only [joinComma] at e2
          exact absurd (e1.trans e2.symm) (key f g _ hfc hgc)
        | cons a l =>
          rw [joinComma_cons _ _ (by simp)] at e1 e2
          have e : f ++ ',' :: joinComma (b :: m) = g ++ ',' :: joinComma (a :: l) := e1.trans e2.symm
          have hfg : f = g ∧ joinComma (b :: m) = joinComma (a :: l) := by
            clear ih e1 e2 hf hg
            induction f generalizing g with
            | nil =>
              cases g with
              | nil => simpa using e
              | cons c g => simp at e; exact absurd (List.mem_cons.2 (.inl e.1)) hgc
            | cons c f ihf =>
              cases g with
              | nil => simp at e; exact absurd (List.mem_cons.2 (.inl e.1.symm)) hfc
              | cons d g =>
                simp only [List.cons_append, List.cons.injEq] at e
                obtain ⟨h3, h4⟩ := ihf g (by simp at hfc; exact hfc.2) (by simp at hgc; exact hgc.2) (by simp) e.2
                exact ⟨by rw [e.1, h3], h4⟩
          rw [hfg.1, ih _ (a :: l) ⟨by simp, fun x hx => hf x (by simp at hx ⊢; tauto), rfl⟩
            ⟨by simp, fun x hx => hg x (by simp at hx ⊢; tauto), hfg.2.symm⟩]

private theorem count_joinComma (fs : List (List Char)) (h : fs ≠ []) (hc : ∀ f ∈ fs, ',' ∉ f) :
    (joinComma fs).count ',' + 1 = fs.length := by
  induction fs with
  | nil => exact absurd rfl h
  | cons f fs ih =>
    cases fs with
    | nil => simp [joinComma, List.count_eq_zero.2 (hc f (by simp))]
    | cons g gs =>
      rw [joinComma_cons _ _ (by simp), List.count_append, List.count_cons_self,
        List.count_eq_zero.2 (hc f (by simp)), List.length_cons, ← ih (by simp) (fun x hx => hc x (by simp at hx ⊢; tauto))]
      omega

private theorem loop_spec (line : List Char) (fuel pos : Nat) (hp : pos ≤ line.length) (hf : line.length < pos + fuel) :
    let ps := commaLoop line pos fuel
    let fs := List.zipWith (fun a b => (line.drop a).take (b - a)) (pos :: ps.map (· + 1)) (ps ++ [line.length])
    IsFields (line.drop pos) fs := by
  induction fuel generalizing pos with
  | zero => omega
  | succ fuel ih =>
    rw [commaLoop]
    cases hfind : find line pos with
    | none =>
      have hnone : (line.drop pos).findIdx? (· == ',') = none := by
        simpa [find] using hfind
      rw [List.findIdx?_eq_none_iff] at hnone
      dsimp only
      simp only [List.map_nil, List.nil_append, List.zipWith_cons_cons, List.zipWith_nil_left]
      have e : (line.drop pos).take (line.length - pos) = line.drop pos := by
        apply List.take_of_length_le; simp
      rw [e]
      refine ⟨by simp, ?_, rfl⟩
      intro f hf hc
      simp only [List.mem_singleton] at hf; subst hf
      simpa using hnone ',' hc
    | some p =>
      obtain ⟨k, hk, rfl⟩ : ∃ k, (line.drop pos).findIdx? (· == ',') = some k ∧ pos + k = p := by
        simpa [find] using hfind
      rw [List.findIdx?_eq_some_iff_getElem] at hk
      obtain ⟨hkl, hk1, hk2⟩ := hk
      have hkl' : pos + k < line.length := by simp at hkl; omega
      have hih := ih (pos + k + 1) (by omega) (by omega)
      dsimp only at hih ⊢
      set ps := commaLoop line (pos + k + 1) fuel with hps
      simp only [List.map_cons, List.cons_append, List.zipWith_cons_cons] at hih ⊢
      have e1 : (line.drop pos).take (pos + k - pos) = (line.drop pos).take k := by congr 1; omega
      rw [e1]
      set fs := List.zipWith (fun a b => (line.drop a).take (b - a)) ((pos + k + 1) :: ps.map (· + 1))
        (ps ++ [line.length]) with hfs
      obtain ⟨h1, h2, h3⟩ := hih
      refine ⟨by simp, ?_, ?_⟩
      · intro f hf
        rcases List.mem_cons.1 hf with rfl | hf
        · intro hc
          obtain ⟨j, hj, he⟩ := List.getElem_of_mem hc
          have hjk : j < k := by simp at hj; omega
          have := hk2 j hjk
          rw [List.getElem_take] at he
          rw [he] at this; simp at this
        · exact h2 f hf
      · rw [joinComma_cons _ _ h1, h3]
        have : line.drop pos = (line.drop pos).take k ++ (line.drop pos).drop k := (List.take_append_drop _ _).symm
        conv_rhs => rw [this]
        congr 1
        rw [List.drop_drop, List.drop_eq_getElem_cons hkl']
        congr 1
        have := hk1
        rw [List.getElem_drop] at this
        exact (by simpa using this : line[pos + k] = ',').symm

/-- C42: every line has a decomposition into fields (unique by `isFields_unique`); the row consists of exactly these
fields, one more than there are commas; reading behind the last one is out of bounds. -/
theorem C42_row (line : List Char) :
    ∃ fs, IsFields line fs ∧ fs.length = line.count ',' + 1 ∧ (parseRow line).size = fs.length ∧
      (∀ (i : Nat) f, fs[i]? = some f → (parseRow line).field i = .ok f) ∧
      ∀ i, fs.length ≤ i → (parseRow line).field i = .ub := by
  have h := loop_spec line (line.length + 1) 0 (by omega) (by omega)
  dsimp only at h
  set ps := commaLoop line 0 (line.length + 1) with hps
  rw [List.drop_zero] at h
  set fs := List.zipWith (fun a b => (line.drop a).take (b - a)) (0 :: ps.map (· + 1)) (ps ++ [line.length]) with hfs
  have hlen : fs.length = ps.length + 1 := by simp [hfs]
  have hdata : (parseRow line).data = (-1) :: ps.map Int.ofNat ++ [(line.length : Int)] := rfl
  have hend : ∀ i < fs.length, ∃ a b : Nat, (parseRow line).data[i]? = some ((a : Int) - 1) ∧
      (0 :: ps.map (· + 1))[i]? = some a ∧
      (parseRow line).data[i + 1]? = some (b : Int) ∧ (ps ++ [line.length])[i]? = some b := by
    intro i hi
    have hb : ∃ b : Nat, (parseRow line).data[i + 1]? = some (b : Int) ∧ (ps ++ [line.length])[i]? = some b := by
      rw [hdata]
      by_cases hip : i < ps.length
      · exact ⟨ps[i], by simp [List.getElem?_append_left, hip], by simp [List.getElem?_append_left, hip]⟩
      · have : i = ps.length := by omega
        subst this
        exact ⟨line.length, by simp, by simp⟩
    obtain ⟨b, hb1, hb2⟩ := hb
    have ha : ∃ a : Nat, (parseRow line).data[i]? = some ((a : Int) - 1) ∧ (0 :: ps.map (· + 1))[i]? = some a := by
      rw [hdata]
      cases i with
      | zero => exact ⟨0, by simp, rfl⟩
      | succ i =>
        have hip : i < ps.length := by omega
        exact ⟨ps[i] + 1, by simp [List.getElem?_append_left, hip], by simp [hip]⟩
    obtain ⟨a, ha1, ha2⟩ := ha
    exact ⟨a, b, ha1, ha2, hb1, hb2⟩
  refine ⟨fs, h, ?_, ?_, ?_, ?_⟩
  · have := count_joinComma fs h.1 h.2.1
    rw [h.2.2] at this; exact this.symm
  · rw [Row.size, hdata, hlen]; simp
  · intro i f hf
    have hi : i < fs.length := (List.getElem?_eq_some_iff.1 hf).1
    obtain ⟨a, b, h1, h2, h3, h4⟩ := hend i hi
    rw [Row.field, Res.index_eq_ok.2 h1, Res.ok_bind, Res.index_eq_ok.2 h3, Res.ok_bind]
    have e : fs[i]? = some ((line.drop a).take (b - a)) := by
      rw [hfs, List.getElem?_zipWith, h2, h4]
    rw [e] at hf
    cases hf
    show Res.ok _ = _
    congr 1
    have e1 : ((a : Int) - 1 + 1).toNat = a := by omega
    have e2 : ((b : Int) - ((a : Int) - 1 + 1)).toNat = b - a := by omega
    rw [e1, e2]; rfl
  · intro i hi
    have : (parseRow line).data[i + 1]? = none := by
      rw [List.getElem?_eq_none_iff, hdata]; simp; omega
    rw [Row.field]
    cases hx : Res.index (parseRow line).data i with
    | ok x =>
      rw [Res.ok_bind, Res.index, this]; rfl
    | exc e => rw [Res.index] at hx; split at hx <;> cases hx
    | ub => rfl

/-- Specification: lines of a text, each terminated by a line break, possibly except the last one, which then is not
empty. -/
inductive IsLines : List Char → List (List Char) → Prop
  | nil : IsLines [] []
  | last (l : List Char) : l ≠ [] → '\n' ∉ l → IsLines l [l]
  | cons (l t : List Char) (ls : List (List Char)) : '\n' ∉ l → IsLines t ls → IsLines (l ++ '\n' :: t) (l :: ls)

theorem rows_of_lines (text : List Char) (ls : List (List Char)) (h : IsLines text ls) :
    ∀ fuel, text.length < fuel → rows fuel text = ls.map parseRow := by
  have hg : ∀ t : List Char, t ≠ [] → getline t =
      some (t.takeWhile (· != '\n'), (t.dropWhile (· != '\n')).drop 1) := by
    intro t ht
    cases t with
    | nil => exact absurd rfl ht
    | cons c t => rfl
  induction h with
  | nil =>
    intro fuel hf
    cases fuel with
    | zero => omega
    | succ fuel => rfl
  | last l h1 h2 =>
    intro fuel hf
    have hall : ∀ a ∈ l, (a != '\n') = true := by
      intro a ha
      simp only [bne_iff_ne, ne_eq]
      rintro rfl
      exact h2 ha
    cases fuel with
    | zero => omega
    | succ fuel =>
      rw [rows, hg l h1]
      dsimp only
      rw [List.takeWhile_eq_self_iff.2 hall, List.dropWhile_eq_nil_iff.2 hall]
      cases fuel with
      | zero => exact absurd (List.length_pos_iff.2 h1) (by omega)
      | succ fuel => rfl
  | cons l t ls h1 h2 ih =>
    intro fuel hf
    have hall : ∀ a ∈ l, (a != '\n') = true := by
      intro a ha
      simp only [bne_iff_ne, ne_eq]
      rintro rfl
      exact h1 ha
    cases fuel with
    | zero => omega
    | succ fuel =>
      rw [rows, hg _ (by simp)]
      dsimp only
      rw [List.takeWhile_append_of_pos hall, List.dropWhile_append_of_pos hall]
      simp only [List.length_append, List.length_cons] at hf
      simp only [List.takeWhile_cons, List.dropWhile_cons, bne_self_eq_false, Bool.false_eq_true, if_false,
        List.append_nil, List.drop_succ_cons, List.drop_zero, List.map_cons]
      rw [ih fuel (by omega)]

/-- Every text has lines. -/
theorem isLines_exists (text : List Char) : ∃ ls, IsLines text ls := by
  have key : ∀ (n : Nat) (t : List Char), t.length < n → ∃ ls, IsLines t ls := by
    intro n
    induction n with
    | zero => intro t h; omega
    | succ n ih =>
      intro t ht
      by_cases h : '\n' ∈ t
      · obtain ⟨u, v, rfl, hu⟩ := List.eq_append_cons_of_mem h
        obtain ⟨ls, hls⟩ := ih v (by simp at ht; omega)
        exact ⟨u :: ls, .cons u v ls hu hls⟩
      · by_cases h0 : t = []
        · subst h0; exact ⟨[], .nil⟩
        · exact ⟨[t], .last t h0 h⟩
  exact key (text.length + 1) text (by omega)

/-- C42: the rows are the lines of the text. -/
theorem C42_lines (text : List Char) :
    ∃ ls, IsLines text ls ∧ rows (text.length + 1) text = ls.map parseRow := by
  obtain ⟨ls, h⟩ := isLines_exists text
  exact ⟨ls, h, rows_of_lines text ls h _ (by omega)⟩

section
variable {K : Type} (stod : List Char → Option K)

/-- Specification: a line describes a particle: the coordinates are in the first columns, the radius in the fourth. -/
def IsParticle (dim : Nat) (line : List Char) (p : Particle K) : Prop :=
  ∃ fs, IsFields line fs ∧ p.center.length = dim ∧
    (∀ (i : Nat) x, p.center[i]? = some x → ∃ f, fs[i]? = some f ∧ stod f = some x) ∧
    ∃ f, fs[3]? = some f ∧ stod f = some p.radius

theorem field_ok (line : List Char) (fs : List (List Char)) (h : IsFields line fs) (i : Nat) (f : List Char)
    (hf : fs[i]? = some f) : (parseRow line).field i = .ok f := by
  obtain ⟨gs, h1, -, -, h4, -⟩ := C42_row line
  have := isFields_unique line fs gs h h1
  subst this
  exact h4 i f hf

theorem field_ub (line : List Char) (fs : List (List Char)) (h : IsFields line fs) (i : Nat)
    (hi : fs.length ≤ i) : (parseRow line).field i = .ub := by
  obtain ⟨gs, h1, -, -, -, h5⟩ := C42_row line
  have := isFields_unique line fs gs h h1
  subst this
  exact h5 i hi

private theorem column_ok (line : List Char) (fs : List (List Char)) (h : IsFields line fs) (i : Nat) (x : K)
    (hf : ∃ f, fs[i]? = some f ∧ stod f = some x) : column stod (parseRow line) i = .ok x := by
  obtain ⟨f, hf, hx⟩ := hf
  rw [column, field_ok line fs h i f hf, Res.ok_bind, hx]

private theorem readRow_ok (dim : Nat) (hd : 1 ≤ dim ∧ dim ≤ 3) (line : List Char) (p : Particle K)
    (h : IsParticle stod dim line p) : readRow stod dim p.id (parseRow line) = .ok p := by
  obtain ⟨fs, h1, h2, h3, h4⟩ := h
  obtain ⟨c, rad, id⟩ := p
  dsimp only at h2 h3 h4 ⊢
  have hr := column_ok stod line fs h1 3 rad h4
  obtain ⟨d1, d3⟩ := hd
  match c, h2, h3 with
  | [], h2, _ => simp at h2; omega
  | [x], h2, h3 =>
    have hx := column_ok stod line fs h1 0 x (h3 0 x rfl)
    have : dim = 1 := by simpa using h2.symm
    subst this
    simp only [readRow, hx, Res.ok_bind, if_true, hr]
  | [x, y], h2, h3 =>
    have hx := column_ok stod line fs h1 0 x (h3 0 x rfl)
    have hy := column_ok stod line fs h1 1 y (h3 1 y rfl)
    have : dim = 2 := by simpa using h2.symm
    subst this
    simp [readRow, hx, hy, hr]
  | [x, y, z], h2, h3 =>
    have hx := column_ok stod line fs h1 0 x (h3 0 x rfl)
    have hy := column_ok stod line fs h1 1 y (h3 1 y rfl)
    have hz := column_ok stod line fs h1 2 z (h3 2 z rfl)
    have : dim = 3 := by simpa using h2.symm
    subst this
    simp [readRow, hx, hy, hz, hr]
  | _ :: _ :: _ :: _ :: _, h2, _ => simp at h2; omega

private theorem readRows_append (dim : Nat) (hd : 1 ≤ dim ∧ dim ≤ 3) (ls : List (List Char)) (ps : List (Particle K)) (n : Nat)
    (hl : ps.length = ls.length)
    (hp : ∀ (i : Nat) l p, ls[i]? = some l → ps[i]? = some p → IsParticle stod dim l p ∧ p.id = n + i) (rs : List Row) :
    readRows stod dim n (ls.map parseRow ++ rs) = (do
      let qs ← readRows stod dim (n + ls.length) rs
      .ok (ps ++ qs)) := by
  induction ls generalizing ps n with
  | nil =>
    have : ps = [] := by simpa using hl
    subst this
    simp only [List.map_nil, List.nil_append, List.length_nil, Nat.add_zero]
    cases readRows stod dim n rs <;> rfl
  | cons l ls ih =>
    cases ps with
    | nil => simp at hl
    | cons p ps =>
      obtain ⟨h1, h2⟩ := hp 0 l p rfl rfl
      have := readRow_ok stod dim hd l p h1
      rw [h2, Nat.add_zero] at this
      rw [List.map_cons, List.cons_append, readRows, this, Res.ok_bind,
        ih ps (n + 1) (by simpa using hl) (fun i l p hi hpi => by
          have := hp (i + 1) l p (by simpa using hi) (by simpa using hpi)
          exact ⟨this.1, by omega⟩)]
      rw [List.length_cons, show n + 1 + ls.length = n + (ls.length + 1) by omega]
      cases readRows stod dim (n + (ls.length + 1)) rs <;> rfl

/-- C42: if every line behind the header describes a particle, the table is read as these particles, in order and
numbered consecutively. -/
theorem C42_particles_partial (dim : Nat) (hd : 1 ≤ dim ∧ dim ≤ 3) (text : List Char) (header : List Char) (ls : List (List Char))
    (ht : IsLines text (header :: ls)) (ps : List (Particle K)) (hl : ps.length = ls.length)
    (hp : ∀ (i : Nat) l p, ls[i]? = some l → ps[i]? = some p → IsParticle stod dim l p ∧ p.id = i) :
    readParticles stod dim text = .ok ps := by
  rw [readParticles, rows_of_lines text _ ht _ (by omega), List.map_cons, List.tail_cons]
  have := readRows_append stod dim hd ls ps 0 hl (fun i l p h1 h2 => by simpa using hp i l p h1 h2) []
  rw [List.append_nil] at this
  rw [this]; simp [readRows]

/-- A table without any line and a table with the header only yield no particles. -/
theorem C42_no_particles (dim : Nat) (text : List Char) (ls : List (List Char)) (ht : IsLines text ls)
    (h : ls.length ≤ 1) : readParticles stod dim text = .ok [] := by
  rw [readParticles, rows_of_lines text _ ht _ (by omega)]
  match ls, h with
  | [], _ => rfl
  | [l], _ => rfl

/-- C42, first faulty line: if its first field is no number (in particular on a blank line, where the field is empty),
the exception of `std::stod` leaves the function; if it has fewer than four fields, all of them numbers, the row is read
out of bounds. -/
theorem C42_faulty (dim : Nat) (hd : 1 ≤ dim ∧ dim ≤ 3) (text : List Char) (header : List Char) (ls : List (List Char))
    (l : List Char) (ls' : List (List Char))
    (ht : IsLines text (header :: (ls ++ l :: ls'))) (ps : List (Particle K)) (hl : ps.length = ls.length)
    (hp : ∀ (i : Nat) l p, ls[i]? = some l → ps[i]? = some p → IsParticle stod dim l p ∧ p.id = i)
    (fs : List (List Char)) (hf : IsFields l fs) :
    ((∀ f, fs[0]? = some f → stod f = none) → readParticles stod dim text = .exc .invalidArgument) ∧
    (fs.length < 4 → (∀ f ∈ fs, (stod f).isSome) → readParticles stod dim text = .ub) := by
  have e : readParticles stod dim text = (do
      let qs ← readRows stod dim (0 + ls.length) ((l :: ls').map parseRow)
      .ok (ps ++ qs)) := by
    rw [readParticles, rows_of_lines text _ ht _ (by omega), List.map_cons, List.tail_cons, List.map_append]
    exact readRows_append stod dim hd ls ps 0 hl (fun i l p h1 h2 => by simpa using hp i l p h1 h2) _
  have hrow : ∀ r, readRow stod dim (0 + ls.length) (parseRow l) = r → (∀ p, r ≠ .ok p) →
      (r = .exc .invalidArgument → readParticles stod dim text = .exc .invalidArgument) ∧
      (r = .ub → readParticles stod dim text = .ub) := by
    intro r hr _
    rw [e, List.map_cons, readRows, hr]
    constructor <;> rintro rfl <;> rfl
  have hlen : 0 < fs.length := List.length_pos_iff.2 hf.1
  constructor
  · intro h
    have h0 : fs[0]? = some fs[0] := List.getElem?_eq_getElem hlen
    have : readRow stod dim (0 + ls.length) (parseRow l) = .exc .invalidArgument := by
      have : column stod (parseRow l) 0 = .exc .invalidArgument := by
        rw [column, field_ok l fs hf 0 _ h0, Res.ok_bind, h _ h0]
      rw [readRow, this]; rfl
    exact (hrow _ this (by simp)).1 rfl
  · intro h4 hall
    have hcol : ∀ i, (∃ x, column stod (parseRow l) i = .ok x) ∨ column stod (parseRow l) i = .ub := by
      intro i
      by_cases hi : i < fs.length
      · have h0 : fs[i]? = some fs[i] := List.getElem?_eq_getElem hi
        obtain ⟨x, hx⟩ := Option.isSome_iff_exists.1 (hall fs[i] (List.getElem_mem hi))
        exact .inl ⟨x, column_ok stod l fs hf i x ⟨_, h0, hx⟩⟩
      · right
        rw [column, field_ub l fs hf i (by omega)]; rfl
    have h3 : column stod (parseRow l) 3 = .ub := by
      rw [column, field_ub l fs hf 3 (by omega)]; rfl
    have : readRow stod dim (0 + ls.length) (parseRow l) = .ub := by
      unfold readRow
      rw [h3]
      rcases hcol 0 with ⟨x, hx⟩ | hx <;> rw [hx]
      · rw [Res.ok_bind]
        rcases hcol 1 with ⟨y, hy⟩ | hy <;> rcases hcol 2 with ⟨z, hz⟩ | hz <;> rw [hy, hz] <;>
          by_cases d1 : dim = 1 <;> by_cases d2 : dim = 2 <;> simp [d1, d2]
      · rfl
    exact (hrow _ this (by simp)).2 rfl
end

namespace Ex42

/-- Numbers of one digit. -/
def stod : List Char → Option Rat
  | [c] => if c.isDigit then some (c.toNat - 48 : Nat) else none
  | _ => none

def text : List Char := "x,y,z,r\n1,2,3,4\n5,6,7,8\n".toList

example : IsLines text ["x,y,z,r".toList, "1,2,3,4".toList, "5,6,7,8".toList] :=
  .cons "x,y,z,r".toList _ _ (by decide +kernel) (.cons "1,2,3,4".toList _ _ (by decide +kernel)
    (.cons "5,6,7,8".toList _ _ (by decide +kernel) .nil))

example : IsFields "1,2,3,4".toList [['1'], ['2'], ['3'], ['4']] := ⟨by simp, by decide +kernel, by decide +kernel⟩
example : IsFields "1,".toList [['1'], []] := ⟨by simp, by decide +kernel, by decide +kernel⟩
example : IsFields [] [[]] := ⟨by simp, by decide +kernel, by decide +kernel⟩

example : readParticles stod 3 text = .ok [⟨[1, 2, 3], 4, 0⟩, ⟨[5, 6, 7], 8, 1⟩] := by decide +kernel
/-- In two dimensions the third column is skipped. -/
example : readParticles stod 2 text = .ok [⟨[1, 2], 4, 0⟩, ⟨[5, 6], 8, 1⟩] := by decide +kernel
/-- A blank line at the end throws, a table x,y,r in two dimensions reads out of bounds. -/
example : readParticles stod 3 (text ++ ['\n']) = .exc .invalidArgument := by decide +kernel
example : readParticles stod 2 "x,y,r\n1,2,3\n".toList = .ub := by decide +kernel

end Ex42

end Verif.Props
